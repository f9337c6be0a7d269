import Verif.System.Honoured

/-!
C87: `on_link_died` is called for linked actors only. Whose death an actor is told of is decided when the other leaves its
loop; an `unlink` before that is in time, one after that is too late.
-/

set_option linter.unusedSimpArgs false

namespace Verif.System

open Verif.Mailbox Verif.Lifecycle

/-! ### Specification -/

/-- The operation makes a link of `i` and `j`. -/
def SOp.joins (i j : Id) (op : SOp) : Prop := op = .link i j ∨ op = .link j i

/-- The operation unlinks `i` and `j`. -/
def SOp.parts (i j : Id) (op : SOp) : Prop := op = .unlink i j ∨ op = .unlink j i

/-- `i` left its loop with reason `r` at some point of the history, and `j` was in its link set just then. -/
def LeftLinked (cap : Id → Option Nat) (ops : List SOp) (i j : Id) (r : Reason) : Prop :=
  ∃ pre op post, ops = pre ++ op :: post ∧ ((sysAfter cap pre).act i).phase.inLoop = true ∧
    j ∈ ((sysAfter cap pre).act i).links ∧ ∃ P, ((sysAfter cap (pre ++ [op])).act i).phase = .stopping r P true

/-! ### Lemmas -/

/-- A link set gains a member only by a call of `link`. -/
theorem links_gain {S : Sys} {op : SOp} {i j : Id} (h : j ∈ ((S.step op).act i).links) :
    j ∈ (S.act i).links ∨ op.joins i j := by
  cases op with
  | loc k o =>
    left
    simp only [Sys.step] at h
    split at h
    · next ha =>
      simp only [set_act] at h
      split at h
      · next e =>
        subst e
        rcases links_loc (S.act i) o (allowed_local ha) with h1 | ⟨h1, _⟩ | ⟨k, r, _, h1⟩
        · rwa [h1] at h
        · rw [h1] at h; cases h
        · rw [h1] at h; exact (List.mem_filter.mp h).1
      · exact h
    · exact h
  | link a b =>
    simp only [Sys.step] at h
    split at h
    · exact Or.inl h
    · simp only [set_act, St.step] at h
      split at h
      · next e =>
        subst e
        simp only at h
        split at h
        · exact Or.inl h
        · rcases List.mem_append.mp h with h | h
          · exact Or.inl h
          · simp at h; subst h; exact Or.inr (Or.inr rfl)
      · split at h
        · next e =>
          subst e
          simp only at h
          split at h
          · exact Or.inl h
          · rcases List.mem_append.mp h with h | h
            · exact Or.inl h
            · simp at h; subst h; exact Or.inr (Or.inl rfl)
        · exact Or.inl h
  | unlink a b =>
    left
    simp only [Sys.step] at h
    split at h
    · exact h
    · simp only [set_act, St.step] at h
      split at h
      · next e => subst e; exact (List.mem_filter.mp h).1
      · split at h
        · next e => subst e; exact (List.mem_filter.mp h).1
        · exact h
  | notifyStart a b =>
    left
    simp only [Sys.step] at h
    split at h
    · split at h
      · simp only [set_act, St.step] at h
        split at h
        · next e => subst e; exact h
        · exact h
      · exact h
    · exact h
  | notifyEnd a b =>
    left
    simp only [Sys.step] at h
    split at h
    · split at h
      · exact h
      · simp only [set_act] at h
        split at h
        · next e => subst e; rwa [notify_links] at h
        · exact h
    · exact h

/-- `i` owes `j` no news: it is not linked to `j`, and is not about to tell it, and has not told it. -/
structure Apart (i j : Id) (S : Sys) : Prop where
  links : j ∉ (S.act i).links
  about : j ∉ pend (S.act i).phase
  told : toldBy i (S.act j) = []

theorem apart_step {S : Sys} {op : SOp} {i j : Id} (h : Apart i j S) (ho : ¬ op.joins i j) : Apart i j (S.step op) where
  links := fun hm => (links_gain hm).elim h.links ho
  about := fun hm => by
    rcases pend_tr (view_tr (view S op i)) with hp | hp
    · exact h.about (hp.subset hm)
    · exact h.links (hp.subset hm)
  told := toldBy_step op h.told fun r p res hp hm => h.about (mem_pend hp hm)

theorem apart_exec {cap : Id → Option Nat} {ops ops' : List SOp} {i j : Id} (h : Apart i j (sysAfter cap ops))
    (ho : ∀ op ∈ ops', ¬ op.joins i j) : Apart i j (sysAfter cap (ops ++ ops')) := by
  induction ops' generalizing ops with
  | nil => simpa using h
  | cons op l ih =>
    have := ih (ops := ops ++ [op]) (by rw [sysAfter_snoc]; exact apart_step h (ho op (by simp)))
      fun o hm => ho o (List.mem_cons_of_mem _ hm)
    simpa using this

/-- Whose `on_link_died` runs has been told. -/
theorem hook_told {cap : Id → Option Nat} {ops : List SOp} {i j : Id} {r : Reason}
    (h : .lBegin i r ∈ ((sysAfter cap ops).act j).log) : (i, r) ∈ deaths ((sysAfter cap ops).act j) := by
  obtain ⟨l, hl⟩ := actor_history cap ops j
  have hg := sys_good cap ops j
  have hrun : linkRuns ((sysAfter cap ops).act j).log = ((sysAfter cap ops).act j).mb.received.filterMap linkTaken := by
    rw [hl]; exact on_link_died_per_signal _ _
  have hm : (i, r) ∈ linkRuns ((sysAfter cap ops).act j).log := List.mem_filterMap.mpr ⟨_, h, rfl⟩
  rw [hrun, List.mem_filterMap] at hm
  obtain ⟨⟨t, sg⟩, h1, h2⟩ := hm
  cases sg <;> simp [linkTaken] at h2
  obtain ⟨rfl, rfl⟩ := h2
  exact deaths_received hg h1

/-- Where an actor that is about to tell others comes from: it was so before, or it has just left its loop. -/
theorem about_from {s s' : St} (ht : Tr s s') :
    (∀ r p, s'.phase = .stopping r p true → s.phase = .stopping r p true ∨ s.phase.inLoop = true) ∧
    (∀ r p res, s'.phase = .notifying r p res → s.phase = .stopping r p true ∨
      ∃ p0, s.phase = .notifying r p0 res ∧ p.Sublist p0) := by
  have hdr : ∀ (a : St) (rest : List Msg) (ts : Bool), s.phase.inLoop = true → s' = a.drain rest ts →
      (∀ r p, s'.phase = .stopping r p true → s.phase = .stopping r p true ∨ s.phase.inLoop = true) ∧
      (∀ r p res, s'.phase = .notifying r p res → s.phase = .stopping r p true ∨
        ∃ p0, s.phase = .notifying r p0 res ∧ p.Sublist p0) := by
    rintro a rest ts hp rfl
    refine ⟨fun _ _ _ => Or.inr hp, fun r p res h => ?_⟩
    exfalso
    cases rest with
    | cons m ms => simp [St.drain] at h
    | nil => cases ts <;> simp [St.drain] at h
  have hloop : s.phase.inLoop = true → (∀ r p res, s'.phase ≠ .notifying r p res) →
      (∀ r p, s'.phase = .stopping r p true → s.phase = .stopping r p true ∨ s.phase.inLoop = true) ∧
      (∀ r p res, s'.phase = .notifying r p res → s.phase = .stopping r p true ∨
        ∃ p0, s.phase = .notifying r p0 res ∧ p.Sublist p0) :=
    fun h h' => ⟨fun _ _ _ => Or.inr h, fun r p res e => absurd e (h' r p res)⟩
  have hend : (∀ r p, s'.phase ≠ .stopping r p true) → (∀ r p res, s'.phase ≠ .notifying r p res) →
      (∀ r p, s'.phase = .stopping r p true → s.phase = .stopping r p true ∨ s.phase.inLoop = true) ∧
      (∀ r p res, s'.phase = .notifying r p res → s.phase = .stopping r p true ∨
        ∃ p0, s.phase = .notifying r p0 res ∧ p.Sublist p0) :=
    fun h h' => ⟨fun r p e => absurd e (h r p), fun r p res e => absurd e (h' r p res)⟩
  have hsame : s'.phase = s.phase →
      (∀ r p, s'.phase = .stopping r p true → s.phase = .stopping r p true ∨ s.phase.inLoop = true) ∧
      (∀ r p res, s'.phase = .notifying r p res → s.phase = .stopping r p true ∨
        ∃ p0, s.phase = .notifying r p0 res ∧ p.Sublist p0) := by
    intro e
    rw [e]
    exact ⟨fun _ _ h => Or.inl h, fun r p res h => Or.inr ⟨p, h, List.Sublist.refl _⟩⟩
  cases ht with
  | recvNone hp => exact hdr _ _ _ (by rw [hp]; rfl) rfl
  | recvStartup hp => exact hdr _ _ _ (by rw [hp]; rfl) rfl
  | recvStop hp => exact hdr _ _ _ (by rw [hp]; rfl) rfl
  | handlerReply _ _ _ _ hp => exact hdr _ _ _ (by rw [hp]; rfl) rfl
  | handlerOk _ _ _ _ _ hp => exact hdr _ _ _ (by rw [hp]; rfl) rfl
  | abort hp => exact hloop hp (by simp [St.abortSeen])
  | linkStop _ _ _ hp => exact hloop (by rw [hp]; rfl) (by simp)
  | panicStop _ _ _ hp => exact hloop (by rw [hp]; rfl) (by simp)
  | startOk => apply hend <;> rw [(startOk_fields s).2.1] <;> simp
  | startFail => apply hend <;> simp [St.startFail]
  | startPanicStop => apply hend <;> simp [St.stopFailed]
  | stopNotify r p o res hp =>
    refine ⟨by simp, ?_⟩
    intro r' p' res' e
    simp at e
    obtain ⟨rfl, rfl, rfl⟩ := e
    exact Or.inl hp
  | notify r p res id hp =>
    refine ⟨by simp, ?_⟩
    intro r' p' res' e
    simp at e
    obtain ⟨rfl, rfl, rfl⟩ := e
    exact Or.inr ⟨p, hp, List.erase_sublist⟩
  | teardown => apply hend <;> simp [St.crash]
  | refl => exact hsame rfl
  | _ =>
    first
      | (apply hend <;> simp [St.step, St.ev] <;> done)
      | exact hsame (by simp [St.step, St.ev])

/-! ### Theorems -/

/-- Two running actors 0 and 1; 0 is killed and leaves its loop. -/
def pairDemo : List SOp := spawnDemo 0 ++ spawnDemo 1 ++ [.link 0 1]

/-- Whoever has been told of the end of `i` was in its link set when it left its loop. -/
theorem told_left_linked (cap : Id → Option Nat) (ops : List SOp) (i j : Id) (r : Reason)
    (h : (i, r) ∈ deaths ((sysAfter cap ops).act j)) : LeftLinked cap ops i j r := by
  have key : ∀ ops, (∀ r, ((∃ p, ((sysAfter cap ops).act i).phase = .stopping r p true ∧ j ∈ p) ∨
        (∃ p res, ((sysAfter cap ops).act i).phase = .notifying r p res ∧ j ∈ p)) → LeftLinked cap ops i j r) ∧
      (∀ r, (i, r) ∈ deaths ((sysAfter cap ops).act j) → LeftLinked cap ops i j r) := by
    intro ops
    refine sys_induct (P := fun ops S => S = sysAfter cap ops →
      (∀ r, ((∃ p, (S.act i).phase = .stopping r p true ∧ j ∈ p) ∨
        (∃ p res, (S.act i).phase = .notifying r p res ∧ j ∈ p)) → LeftLinked cap ops i j r) ∧
      (∀ r, (i, r) ∈ deaths (S.act j) → LeftLinked cap ops i j r)) ?_ ?_ ops rfl
    · intro _
      refine ⟨?_, ?_⟩
      · intro r hr
        rcases hr with ⟨p, hp, _⟩ | ⟨p, res, hp, _⟩ <;> simp [Sys.fresh, after, St.exec, St.fresh] at hp
      · intro r hr
        simp [Sys.fresh, after, St.exec, St.fresh, Mb.fresh, deaths] at hr
    · intro ops op ih _
      obtain ⟨ih1, ih2⟩ := ih rfl
      have hm : ∀ r, LeftLinked cap ops i j r → LeftLinked cap (ops ++ [op]) i j r := by
        rintro r ⟨pre, o, post, rfl, h1, h2, h3⟩
        exact ⟨pre, o, post ++ [op], by simp, h1, h2, h3⟩
      have hv := view_tr (view (sysAfter cap ops) op i)
      refine ⟨?_, ?_⟩
      · intro r hr
        obtain ⟨h1, h2⟩ := about_from hv
        rcases hr with ⟨p, hp, hj⟩ | ⟨p, res, hp, hj⟩
        · rcases h1 r p hp with h3 | h3
          · exact hm r (ih1 r (Or.inl ⟨p, h3, hj⟩))
          · refine ⟨ops, op, [], rfl, h3, ?_, p, by rw [sysAfter_snoc]; exact hp⟩
            rcases pend_tr hv with hs | hs
            · rw [hp] at hs
              have := hs.subset hj
              cases hph : ((sysAfter cap ops).act i).phase <;> rw [hph] at h3 this <;>
                simp [Phase.inLoop, pend] at h3 this
            · rw [hp] at hs
              exact hs.subset hj
        · rcases h2 r p res hp with h3 | ⟨p0, h3, h4⟩
          · exact hm r (ih1 r (Or.inl ⟨p, h3, hj⟩))
          · exact hm r (ih1 r (Or.inr ⟨p0, res, h3, h4.subset hj⟩))
      · intro r hr
        rcases view_deaths (view (sysAfter cap ops) op j) with e | ⟨i', r', p, res, h1, h2, e⟩
        · rw [e] at hr; exact hm r (ih2 r hr)
        · rw [e] at hr
          simp at hr
          rcases hr with hr | ⟨rfl, rfl⟩
          · exact hm r (ih2 r hr)
          · exact hm _ (ih1 _ (Or.inr ⟨p, res, h1, h2⟩))
  exact (key ops).2 r h

/-- **C87** — an actor hears of a death only if it was linked to the dead actor when that one left its loop: whenever
`on_link_died` of `j` has been called for `i` with reason `r`, then `i` left its loop with reason `r` and had `j` in its
link set at that very moment. -/
theorem news_only_of_linked (cap : Id → Option Nat) (ops : List SOp) (i j : Id) (r : Reason)
    (h : .lBegin i r ∈ ((sysAfter cap ops).act j).log) : LeftLinked cap ops i j r := by
  exact told_left_linked cap ops i j r (hook_told h)

/-- In `liveDemo` actor 1 hears of the death of 0, which left its loop while 1 was linked to it. -/
example : .lBegin 0 .killed ∈ ((sysAfter (fun _ => none) liveDemo).act 1).log := by decide

/-- **C87** — an `unlink` in time: if `i` has not left its loop when `i` and `j` are unlinked, and they are not linked again,
then `j` never gets news of the death of `i`, and its `on_link_died` is never called for `i`; whatever else happens, and
whichever of the two `unlink` was called on. Missing from the full claim: an `unlink` after `i` has left its loop is too
late, see `unlink_too_late`. -/
theorem unlink_in_time_partial (cap : Id → Option Nat) (ops ops' : List SOp) (i j : Id) (hij : i ≠ j) (op : SOp)
    (hop : op.parts i j) (hi : ¬ ((sysAfter cap ops).act i).phase.out) (hno : ∀ o ∈ ops', ¬ o.joins i j) :
    toldBy i ((sysAfter cap (ops ++ op :: ops')).act j) = [] ∧
      ∀ r, .lBegin i r ∉ ((sysAfter cap (ops ++ op :: ops')).act j).log := by
  have hpend : pend ((sysAfter cap ops).act i).phase = [] := by
    unfold Phase.out at hi
    cases hp : ((sysAfter cap ops).act i).phase <;> rw [hp] at hi <;> simp [Phase.inLoop, Phase.unborn] at hi <;> rfl
  have htold : toldBy i ((sysAfter cap ops).act j) = [] := toldBy_nil (fun r h => hi h.out) j
  have h1 : Apart i j ((sysAfter cap ops).step op) := by
    refine ⟨?_, ?_, ?_⟩
    · rcases hop with rfl | rfl
      · simp [Sys.step, hij, St.step]
      · simp [Sys.step, Ne.symm hij, St.step]
    · have : (((sysAfter cap ops).step op).act i).phase = ((sysAfter cap ops).act i).phase := by
        rcases hop with rfl | rfl
        · simp [Sys.step, hij, St.step]
        · simp [Sys.step, Ne.symm hij, St.step]
      rw [this, hpend]
      simp
    · apply toldBy_step op htold
      intro r p res hp hm
      have := mem_pend hp hm
      rw [hpend] at this
      cases this
  have h2 := apart_exec (ops := ops ++ [op]) (by rw [sysAfter_snoc]; exact h1) hno
  rw [List.append_assoc, List.singleton_append] at h2
  refine ⟨h2.told, fun r hr => ?_⟩
  have h3 := hook_told hr
  have h4 : r ∈ toldBy i ((sysAfter cap (ops ++ op :: ops')).act j) :=
    List.mem_map.mpr ⟨(i, r), List.mem_filter.mpr ⟨h3, by simp⟩, rfl⟩
  rw [h2.told] at h4
  cases h4

/-- 0 and 1 are linked and unlinked; then 0 is killed, and 1 hears nothing. -/
example : SOp.parts 0 1 (.unlink 1 0) ∧ ¬ ((sysAfter (fun _ => none) pairDemo).act 0).phase.out ∧
    (∀ o ∈ dieDemo, ¬ o.joins 0 1) ∧
    ((sysAfter (fun _ => none) (pairDemo ++ .unlink 1 0 ::
      [.loc 0 .kill, .loc 0 .pollEnd, .loc 0 (.stopEnd .ok), .loc 0 .finish])).act 0).phase = .stopped .killed := by
  unfold SOp.parts SOp.joins Phase.out; decide

/-- **C87**, what the code does not do: an `unlink` when `i` has left its loop is too late. `i` has taken its links with it;
the unlink removes nothing from what is about to be told. When `i` has stopped, `j` has been sent the news all the same. -/
theorem unlink_too_late (cap : Id → Option Nat) (ops ops' : List SOp) (i j : Id) (r r' : Reason) (P : List Id) (op : SOp)
    (hop : op.parts i j) (h : ((sysAfter cap ops).act i).phase = .stopping r P true) (hj : j ∈ P)
    (h' : ((sysAfter cap (ops ++ op :: ops')).act i).phase = .stopped r') :
    (i ∉ ((sysAfter cap (ops ++ [op])).act j).links ∨ i = j) ∧
    toldBy i ((sysAfter cap (ops ++ op :: ops')).act j) = [r] ∧
      ((∃ t, (t, .linkDied i r) ∈ ((sysAfter cap (ops ++ op :: ops')).act j).mb.pushed) ∨
        ((sysAfter cap (ops ++ op :: ops')).act j).mb.closed = true) := by
  refine ⟨?_, ((linked_actors_told_exactly_once_partial cap ops (op :: ops') i r r' P h h').2 j).1 hj⟩
  by_cases hij : i = j
  · exact Or.inr hij
  left
  rw [sysAfter_snoc]
  rcases hop with rfl | rfl
  · simp [Sys.step, hij, St.step]
  · simp [Sys.step, Ne.symm hij, St.step, hij]

/-- 0 is killed and leaves its loop; 0 and 1 are unlinked; 0 tells 1, and 1, whose hooks are the default ones, stops. -/
def lateDemo : List SOp := pairDemo ++ [.loc 0 .kill, .loc 0 .pollEnd] ++ .unlink 0 1 ::
  [.loc 0 (.stopEnd .ok), .notifyStart 0 1, .notifyEnd 0 1, .loc 0 .finish, .loc 1 .recv,
    .loc 1 (.linkEnd (.brk (.linkDied 0 .killed))), .loc 1 (.stopEnd .ok), .loc 1 .finish]

example : ((sysAfter (fun _ => none) (lateDemo.take 11)).act 0).phase = .stopping .killed [1] true ∧
    SOp.parts 0 1 (.unlink 0 1) ∧ lateDemo = lateDemo.take 11 ++ .unlink 0 1 :: lateDemo.drop 12 ∧
    ((sysAfter (fun _ => none) lateDemo).act 0).phase = .stopped .killed := by
  unfold SOp.parts; decide

/-- **C87** — nor does an actor look at its links when the news arrives: whoever is running and takes a link-died signal from
its mailbox calls `on_link_died`, linked or not. -/
theorem hook_ignores_links (s : St) (t : Nat) (i : Id) (r : Reason) (q : List (Nat × Sig)) (hp : s.phase = .idle)
    (hpo : s.polling = true) (hq : s.mb.queue = (t, .linkDied i r) :: q) :
    (s.step .recv).phase = .linkDying i r ∧ (s.step .recv).log = s.log ++ [.lBegin i r] := by
  simp [St.step, hp, hpo, St.recvStep, hq, St.onSignal]

example : ((sysAfter (fun _ => none) (lateDemo.take 16)).act 1).phase = .idle ∧
    ((sysAfter (fun _ => none) (lateDemo.take 16)).act 1).polling = true ∧
    ((sysAfter (fun _ => none) (lateDemo.take 16)).act 1).mb.queue = [(1, .linkDied 0 .killed)] ∧
    ((sysAfter (fun _ => none) (lateDemo.take 16)).act 1).links = [] := by decide

/-- **C87** (refuted): an actor can be stopped by the death of an actor from which it was unlinked before. 0 and 1 are
unlinked, are not linked again, and then `on_link_died` of 1 is called for 0, and the default hook stops 1. -/
theorem unlinked_actor_dies_with_other :
    ∃ (pre post : List SOp), (∀ o ∈ post, ¬ o.joins 0 1) ∧
      let a := sysAfter (fun _ => none) (pre ++ [.unlink 0 1])
      let b := sysAfter (fun _ => none) (pre ++ [.unlink 0 1] ++ post)
      1 ∉ (a.act 0).links ∧ 0 ∉ (a.act 1).links ∧ (a.act 1).phase = .idle ∧
        .lBegin 0 .killed ∉ (a.act 1).log ∧ .lBegin 0 .killed ∈ (b.act 1).log ∧
        (b.act 1).phase = .stopped (.linkDied 0 .killed) ∧
        defaultOnLinkDied 0 .killed = .brk (.linkDied 0 .killed) :=
  ⟨lateDemo.take 11, lateDemo.drop 12, by unfold SOp.joins; decide, by decide⟩

end Verif.System
