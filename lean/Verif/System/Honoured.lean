import Verif.System.PropsLive

/-!
C71: a link, once made, is honoured. Whoever of two linked actors ends, the other is told; unless the one had already left
its loop when the link was made.
-/

set_option linter.unusedSimpArgs false

namespace Verif.System

open Verif.Mailbox Verif.Lifecycle

/-- The operation does not undo the link of `i` and `j`. (Specification.) -/
def SOp.keeps (i j : Id) (op : SOp) : Prop := op ≠ .unlink i j ∧ op ≠ .unlink j i

theorem keeps_links {S : Sys} {op : SOp} (hc : ¬ op.calm = true) {i j : Id} (hk : op.keeps i j) :
    ((S.step op).act i).phase = (S.act i).phase ∧ (j ∈ (S.act i).links → j ∈ ((S.step op).act i).links) := by
  cases op with
  | link a b =>
    simp only [Sys.step]
    split
    · exact ⟨rfl, fun h => h⟩
    · simp only [set_act]
      split
      · next e => subst e; exact ⟨rfl, fun h => by simp only [St.step]; split <;> simp [h]⟩
      · split
        · next e => subst e; exact ⟨rfl, fun h => by simp only [St.step]; split <;> simp [h]⟩
        · exact ⟨rfl, fun h => h⟩
  | unlink a b =>
    simp only [Sys.step]
    split
    · exact ⟨rfl, fun h => h⟩
    · simp only [set_act]
      split
      · next e =>
        subst e
        refine ⟨rfl, fun h => ?_⟩
        simp only [St.step, List.mem_filter, bne_iff_ne, ne_eq]
        refine ⟨h, ?_⟩
        rintro rfl
        exact hk.2 rfl
      · split
        · next e =>
          subst e
          refine ⟨rfl, fun h => ?_⟩
          simp only [St.step, List.mem_filter, bne_iff_ne, ne_eq]
          refine ⟨h, ?_⟩
          rintro rfl
          exact hk.1 rfl
        · exact ⟨rfl, fun h => h⟩
  | _ => exact absurd rfl hc

theorem duty_keeps {S : Sys} (hg : ∀ x, Good (S.act x)) (hrel : Rel S) (hfl : Fl S) (op : SOp) {i j : Id}
    (hk : op.keeps i j) (h : Duty S i j) : Duty (S.step op) i j := by
  by_cases hc : op.calm = true
  · exact duty_step hg hrel hfl op hc h
  have hout : (S.act j).phase.out → ((S.step op).act j).phase.out :=
    fun hx => (out_tr hx (view_tr (view S op j))).1
  have hre : ∀ r, Reached i r (S.act j) → Reached i r ((S.step op).act j) :=
    fun r hx => reached_view (view S op j) hx
  obtain ⟨e1, e2⟩ := keeps_links (S := S) hc hk
  unfold Duty
  rw [e1]
  rcases h with ⟨h1, h2⟩ | ⟨r, p, h1, h2⟩ | ⟨r, p, res, h1, h2⟩ | ⟨r, h1, h2⟩ | h1
  · exact Or.inl ⟨h1, h2.imp e2 hout⟩
  · exact Or.inr (Or.inl ⟨r, p, h1, h2.imp_right hout⟩)
  · exact Or.inr (Or.inr (Or.inl ⟨r, p, res, h1, h2.imp_right (Or.imp hout (hre r))⟩))
  · exact Or.inr (Or.inr (Or.inr (Or.inl ⟨r, h1, h2.imp hout (hre r)⟩)))
  · exact Or.inr (Or.inr (Or.inr (Or.inr h1)))

/-- Once it has left its loop or failed to start, nothing is published about its start any more. -/
theorem startup_tr {s s' : St} (h : s.phase.out) (ht : Tr s s') : s'.startupErr = s.startupErr := by
  obtain ⟨h1, h2⟩ := h
  have hno : ∀ p, s.phase = p → p.inLoop = true ∨ p.unborn = true → False := by
    rintro p rfl (h | h) <;> simp_all
  cases ht with
  | startOk hp => exact (hno _ hp (by simp)).elim
  | startFail _ _ hp => exact (hno _ hp (by simp)).elim
  | abort hp => exact (hno _ rfl (by simp [hp])).elim
  | recvNone hp => exact (hno _ hp (by simp)).elim
  | recvStartup hp => exact (hno _ hp (by simp)).elim
  | recvMsg hp => exact (hno _ hp (by simp)).elim
  | recvStop hp => exact (hno _ hp (by simp)).elim
  | handlerReply _ _ _ _ hp => exact (hno _ hp (by simp)).elim
  | handlerOk _ _ _ _ _ hp => exact (hno _ hp (by simp)).elim
  | handlerErr _ _ _ _ _ hp => exact (hno _ hp (by simp)).elim
  | handlerPanic _ _ _ _ _ hp => exact (hno _ hp (by simp)).elim
  | linkStop _ _ _ hp => exact (hno _ hp (by simp)).elim
  | panicStop _ _ _ hp => exact (hno _ hp (by simp)).elim
  | panicDie _ _ hp => exact (hno _ hp (by simp)).elim
  | _ => simp [St.step, St.crash, St.stopFailed, St.ev]

/-- Where an actor that has not started can go. -/
theorem unborn_tr {s s' : St} (h : s.phase.unborn = true) (ht : Tr s s') :
    s'.phase.unborn = true ∨ (s'.phase = .idle) ∨ s'.phase = .crashed ∨
    (s'.phase.out ∧ s'.startupErr ≠ some none) := by
  have hno : ∀ p, s.phase = p → p.unborn = false → False := by rintro p rfl h'; simp_all
  cases ht with
  | startOk hp => right; left; unfold St.startOk; split <;> rfl
  | startFail o e hp ho => simp [St.startFail, Phase.out]
  | teardown => simp [St.crash]
  | run hp => simp
  | abort hp => cases hph : s.phase <;> simp_all
  | polling hp => simp [h]
  | recvNone hp => exact (hno _ hp rfl).elim
  | recvStartup hp => exact (hno _ hp rfl).elim
  | recvBuffer hp => exact (hno _ hp rfl).elim
  | recvMsg hp => exact (hno _ hp rfl).elim
  | recvLink hp => exact (hno _ hp rfl).elim
  | recvStop hp => exact (hno _ hp rfl).elim
  | takeReply _ _ _ hp => exact (hno _ hp rfl).elim
  | handlerReply _ _ _ _ hp => exact (hno _ hp rfl).elim
  | handlerOk _ _ _ _ _ hp => exact (hno _ hp rfl).elim
  | handlerErr _ _ _ _ _ hp => exact (hno _ hp rfl).elim
  | handlerPanic _ _ _ _ _ hp => exact (hno _ hp rfl).elim
  | linkCont _ _ hp => exact (hno _ hp rfl).elim
  | linkStop _ _ _ hp => exact (hno _ hp rfl).elim
  | linkPanic _ _ _ _ hp => exact (hno _ hp rfl).elim
  | panicCont _ hp => exact (hno _ hp rfl).elim
  | panicStop _ _ _ hp => exact (hno _ hp rfl).elim
  | panicDie _ _ hp => exact (hno _ hp rfl).elim
  | startPanicStop _ _ _ hp => exact (hno _ hp rfl).elim
  | startPanicDie _ _ hp => exact (hno _ hp rfl).elim
  | stopNotify _ _ _ _ hp => exact (hno _ hp rfl).elim
  | stopFinish _ _ _ _ hp => exact (hno _ hp rfl).elim
  | stopDie _ _ _ _ hp => exact (hno _ hp rfl).elim
  | notify _ _ _ _ hp => exact (hno _ hp rfl).elim
  | finish _ _ hp => exact (hno _ hp rfl).elim
  | _ => simp [St.step, h, St.ev]

/-- As `Duty`, also for an actor that has not started yet. -/
def Owes (S : Sys) (i j : Id) : Prop :=
  ((S.act i).phase.unborn = true ∧ (j ∈ (S.act i).links ∨ (S.act j).phase.out)) ∨
  ((S.act i).phase.out ∧ (S.act i).startupErr ≠ some none) ∨ Duty S i j

theorem owes_step {S : Sys} (hg : ∀ x, Good (S.act x)) (hrel : Rel S) (hfl : Fl S) (op : SOp) {i j : Id}
    (hk : op.keeps i j) (h : Owes S i j) : Owes (S.step op) i j := by
  have hout : (S.act j).phase.out → ((S.step op).act j).phase.out :=
    fun hx => (out_tr hx (view_tr (view S op j))).1
  have hvi := view_tr (view S op i)
  rcases h with ⟨h1, h2⟩ | ⟨h1, h2⟩ | h
  · have hl : j ∈ (S.act i).links → j ∈ ((S.step op).act i).links := by
      intro hj
      by_cases hc : op.calm = true
      · rcases view_calm S op hc i with e | ⟨o, ho, e⟩ | ⟨k, r, p, res, hk, hx, e⟩ | ⟨k, t, hf, hp, e⟩
        · rw [e]; exact hj
        · rw [e]
          rcases links_loc (S.act i) o ho with h4 | ⟨_, h4, _⟩ | ⟨i0, r, h4, _⟩
          · rw [h4]; exact hj
          · exfalso; cases hph : (S.act i).phase <;> simp_all
          · exfalso; simp_all
        · rw [e]; exact hj
        · rw [e, notify_links]; exact hj
      · exact (keeps_links hc hk).2 hj
    rcases unborn_tr h1 hvi with h3 | h3 | h3 | h3
    · exact Or.inl ⟨h3, h2.imp hl hout⟩
    · exact Or.inr (Or.inr (Or.inl ⟨by simp [h3], h2.imp hl hout⟩))
    · exact Or.inr (Or.inr (Or.inr (Or.inr (Or.inr (Or.inr h3)))))
    · exact Or.inr (Or.inl h3)
  · exact Or.inr (Or.inl ⟨(out_tr h1 hvi).1, by rw [startup_tr h1 hvi]; exact h2⟩)
  · exact Or.inr (Or.inr (duty_keeps hg hrel hfl op hk h))

theorem owes_after (cap : Id → Option Nat) (ops ops' : List SOp) {i j : Id} (hk : ∀ op ∈ ops', op.keeps i j)
    (h : Owes (sysAfter cap ops) i j) : Owes (sysAfter cap (ops ++ ops')) i j := by
  induction ops' generalizing ops with
  | nil => simpa using h
  | cons op l ih =>
    have := ih (ops ++ [op]) (fun o ho => hk o (List.mem_cons_of_mem _ ho)) (by
      rw [sysAfter_snoc]
      exact owes_step (fun x => sys_good cap ops x) (rel_after cap ops) (fl_after cap ops) op (hk op (by simp)) h)
    simpa using this

theorem SOp.keeps.symm {i j : Id} {op : SOp} (h : op.keeps i j) : op.keeps j i := ⟨h.2, h.1⟩

/-- What the claim asks for of the end of `i` with reason `r`: `j` has been told once, in its mailbox; or `j` has itself
left its loop. -/
def HasHeard (S : Sys) (i j : Id) (r : Reason) : Prop :=
  (toldBy i (S.act j) = [r] ∧ ∃ t, (t, .linkDied i r) ∈ (S.act j).mb.pushed) ∨ (S.act j).phase.out

theorem heard_of_owes (cap : Id → Option Nat) (ops : List SOp) {i j : Id} (h : Owes (sysAfter cap ops) i j) (r : Reason)
    (hst : ((sysAfter cap ops).act i).phase = .stopped r)
    (hok : .startEnd .ok ∈ ((sysAfter cap ops).act i).log) : HasHeard (sysAfter cap ops) i j r := by
  have hs := sys_start cap ops i
  have hse : ((sysAfter cap ops).act i).startupErr = some none := by
    match hx : ((sysAfter cap ops).act i).startupErr with
    | none => exact absurd hok ((hs.noRes hx).2.2.1 .ok)
    | some x => have := (hs.res x hx).2.1 .ok hok; simp [resOf] at this; rw [← this]
  rcases h with ⟨h1, _⟩ | ⟨_, h2⟩ | ⟨h1, _⟩ | ⟨r, p, h1, _⟩ | ⟨r, p, res, h1, _⟩ | ⟨r', h1, h2⟩ | h1
  · rw [hst] at h1; cases h1
  · exact absurd hse h2
  · rw [hst] at h1; cases h1
  · rw [hst] at h1; cases h1
  · rw [hst] at h1; cases h1
  · rw [hst] at h1
    cases h1
    rcases h2 with h2 | ⟨t, ht⟩ | h2
    · exact Or.inr h2
    · refine Or.inl ⟨?_, t, ht⟩
      have hm : r ∈ toldBy i ((sysAfter cap ops).act j) := by
        have := (sys_good cap ops j).shape.mb.mem_sent (p := (t, .linkDied i r)) (by simp [ht])
        simp only [toldBy, deaths, List.mem_map, List.mem_filter, List.mem_filterMap]
        exact ⟨(i, r), ⟨⟨_, this, rfl⟩, by simp⟩, rfl⟩
      rcases told_at_most_once cap ops i j with h3 | ⟨r', h3, _⟩
      · rw [h3] at hm; cases hm
      · rw [h3] at hm; simp at hm; rw [h3, hm]
    · right
      obtain ⟨l, hl⟩ := actor_history cap ops j
      rw [hl] at h2 ⊢
      rcases (alive_until_ended _ _).mp h2 with ⟨r', h3⟩ | h3 <;> rw [h3] <;> exact ⟨rfl, rfl⟩
  · rw [hst] at h1; cases h1

theorem owes_linked {cap : Id → Option Nat} {ops : List SOp} {i j : Id} (hij : i ≠ j) {op : SOp}
    (hop : op = .link i j ∨ op = .link j i) (hi : ¬ ((sysAfter cap ops).act i).phase.out) :
    Owes (sysAfter cap (ops ++ [op])) i j := by
  have hl : j ∈ ((sysAfter cap (ops ++ [op])).act i).links ∧
      ((sysAfter cap (ops ++ [op])).act i).phase = ((sysAfter cap ops).act i).phase := by
    rw [sysAfter_snoc]
    constructor
    · rcases hop with rfl | rfl
      · exact (link_links _ _ _ _ _).mpr (Or.inr ⟨hij, Or.inl ⟨rfl, rfl⟩⟩)
      · exact (link_links _ _ _ _ _).mpr (Or.inr ⟨Ne.symm hij, Or.inr ⟨rfl, rfl⟩⟩)
    · rcases hop with rfl | rfl
      · exact (keeps_links (i := i) (j := j) (by simp [SOp.calm]) ⟨by simp, by simp⟩).1
      · exact (keeps_links (i := i) (j := j) (by simp [SOp.calm]) ⟨by simp, by simp⟩).1
  rw [← hl.2] at hi
  by_cases hu : ((sysAfter cap (ops ++ [op])).act i).phase.unborn = true
  · exact Or.inl ⟨hu, Or.inl hl.1⟩
  · refine Or.inr (Or.inr (Or.inl ⟨?_, Or.inl hl.1⟩))
    cases hb : ((sysAfter cap (ops ++ [op])).act i).phase.inLoop with
    | true => rfl
    | false => exact absurd ⟨hb, by simpa using hu⟩ hi

/-- **C71** A link, once made, is honoured: let `link` be called on `i` and `j`, from either side, `i` being still prepared,
starting or in its loop (linking before the start is what `spawn_link` does). Let anything follow but an `unlink` of the two.
If `i` then stops, `j` has had exactly one link-died signal from `i`, with `i`'s reason, in its mailbox, or `j` has itself
left its loop.

Missing from the full claim: the cases in which the code does not honour the link: `i` had left its loop before
(`link_too_late`), or its `on_start` fails (`failed_start_tells_nobody`). -/
theorem link_honoured_partial (cap : Id → Option Nat) (ops ops' : List SOp) (i j : Id) (hij : i ≠ j) (op : SOp)
    (hop : op = .link i j ∨ op = .link j i) (hi : ¬ ((sysAfter cap ops).act i).phase.out)
    (hk : ∀ op ∈ ops', op.keeps i j) (r : Reason)
    (hst : ((sysAfter cap (ops ++ op :: ops')).act i).phase = .stopped r)
    (hok : .startEnd .ok ∈ ((sysAfter cap (ops ++ op :: ops')).act i).log) :
    HasHeard (sysAfter cap (ops ++ op :: ops')) i j r := by
  have h := owes_after cap (ops ++ [op]) ops' hk (owes_linked hij hop hi)
  simp only [List.append_assoc, List.singleton_append] at h
  exact heard_of_owes cap _ h r hst hok

/-- Actor 1 links itself to a third actor and away from it, and 0 and 1, linked before they started, lose 0. -/
def honourDemo : List SOp := spawnDemo 0 ++ spawnDemo 1 ++ [.link 1 2, .unlink 2 1] ++ dieDemo

instance (i j : Id) (op : SOp) : Decidable (op.keeps i j) := by unfold SOp.keeps; infer_instance

example : ¬ ((sysAfter (fun _ => some 1) []).act 0).phase.out ∧ (∀ op ∈ honourDemo, op.keeps 0 1) ∧
    ((sysAfter (fun _ => some 1) ([] ++ .link 0 1 :: honourDemo)).act 0).phase = .stopped .killed ∧
    .startEnd .ok ∈ ((sysAfter (fun _ => some 1) ([] ++ .link 0 1 :: honourDemo)).act 0).log ∧
    toldBy 0 ((sysAfter (fun _ => some 1) ([] ++ .link 0 1 :: honourDemo)).act 1) = [.killed] := by
  unfold Phase.out; decide

/-- **C71** (liveness, part). In a fair execution in which notifications get through (with unbounded mailboxes they do):
once `i` and `j` are linked, `i` not having left its loop before, and are not unlinked any more, and `i`, whose `on_start`
has succeeded, leaves its loop, then `i` stops, and `j`'s `on_link_died` is called for it, once, with the reason; unless
`j` stops itself or is never started.

Missing from the full claim: as in `link_honoured_partial`, and mailboxes so full that notifications never get through. -/
theorem link_honoured_live_partial (cap : Id → Option Nat) (ops : Nat → SOp) (hf : SysFair cap ops) (ht : Through cap ops)
    (hcr : ∀ n x, ((sysUpto cap ops n).act x).phase ≠ .crashed) (n0 : Nat) (i j : Id) (hij : i ≠ j)
    (hop : ops n0 = .link i j ∨ ops n0 = .link j i) (hi : ¬ ((sysUpto cap ops n0).act i).phase.out)
    (hk : ∀ n, n0 < n → (ops n).keeps i j) (n : Nat) (hn : n0 < n) (ho : ((sysUpto cap ops n).act i).phase.out)
    (hok : .startEnd .ok ∈ ((sysUpto cap ops n).act i).log) :
    ∃ r k, n ≤ k ∧ ((sysUpto cap ops k).act i).phase = .stopped r ∧
      ((∃ k0, ∀ k, k0 ≤ k → (linkRuns ((sysUpto cap ops k).act j).log).filter (fun p => p.1 == i) = [(i, r)]) ∨
        (∃ k r', ((sysUpto cap ops k).act j).phase = .stopped r') ∨
        ∀ k, ((sysUpto cap ops k).act j).phase = .prepared) := by
  obtain ⟨k, r, hnk, hst⟩ := out_stops hf (ht.by i) hcr ho
  refine ⟨r, k, hnk, hst, ?_⟩
  have hsp : sysUpto cap ops k = sysAfter cap ((List.range (n0 + 1)).map ops ++
      (List.range (k - (n0 + 1))).map (fun i => ops (n0 + 1 + i))) := sysUpto_split cap ops (by omega)
  have hl : (List.range (n0 + 1)).map ops = (List.range n0).map ops ++ [ops n0] := by
    simp [List.range_succ]
  have h0 : Owes (sysAfter cap ((List.range (n0 + 1)).map ops)) i j := by
    rw [hl]; exact owes_linked hij hop hi
  have h1 := owes_after cap _ ((List.range (k - (n0 + 1))).map (fun i => ops (n0 + 1 + i))) (fun op hm => by
    obtain ⟨m, _, rfl⟩ := List.mem_map.mp hm
    exact hk _ (by omega)) h0
  have h2 := heard_of_owes cap _ h1 r (by rw [← hsp]; exact hst) (by rw [← hsp]; exact sys_log_mono hnk hok)
  rw [← hsp] at h2
  rcases h2 with ⟨_, t, h2⟩ | h2
  · exact reached_reacts hf ht hcr (Or.inl ⟨t, h2⟩)
  · obtain ⟨k2, r2, _, h3⟩ := out_stops hf (ht.by j) hcr h2
    exact Or.inr (Or.inl ⟨k2, r2, h3⟩)

/-- The chain of `liveDemo`: 0 and 1 are linked at the end of the start-ups, then 0 is killed. -/
example : SysFair (fun _ => none) (sysQuiet liveDemo) ∧ Through (fun _ => none) (sysQuiet liveDemo) ∧
    (∀ n x, ((sysUpto (fun _ => none) (sysQuiet liveDemo) n).act x).phase ≠ .crashed) ∧
    sysQuiet liveDemo 12 = .link 0 1 ∧ ¬ ((sysUpto (fun _ => none) (sysQuiet liveDemo) 12).act 0).phase.out ∧
    (∀ n, 12 < n → (sysQuiet liveDemo n).keeps 0 1) ∧
    ((sysUpto (fun _ => none) (sysQuiet liveDemo) 16).act 0).phase.out ∧
    .startEnd .ok ∈ ((sysUpto (fun _ => none) (sysQuiet liveDemo) 16).act 0).log := by
  refine ⟨liveDemo_fair, through_unbounded (fun _ => rfl) _, liveDemo_not_crashed, by decide, ?_, ?_, ?_, ?_⟩
  · rw [sysQuiet_take _ _ (by decide)]; intro h; revert h; unfold Phase.out; decide
  · intro n h0
    by_cases h : n < liveDemo.length
    · clear h0; revert h; revert n; decide
    · simp [sysQuiet, List.getElem?_eq_none (by omega : liveDemo.length ≤ n), SOp.keeps]
  · rw [sysQuiet_take _ _ (by decide)]; unfold Phase.out; decide
  · rw [sysQuiet_take _ _ (by decide)]; decide

/-! ### Where it is not honoured -/

/-- Having left its loop, an actor notifies only those it has taken from its links. -/
theorem out_pend_tr {s s' : St} (h : s.phase.out) (ht : Tr s s') :
    (∀ r p, s'.phase = .stopping r p true → s.phase = .stopping r p true) ∧
    (∀ r p res, s'.phase = .notifying r p res → s.phase = .stopping r p true ∨
      ∃ p0, s.phase = .notifying r p0 res ∧ p.Sublist p0) := by
  obtain ⟨h1, h2⟩ := h
  have hno : ∀ p, s.phase = p → p.inLoop = true ∨ p.unborn = true → False := by
    rintro p rfl (h | h) <;> simp_all
  have hsame : s'.phase = s.phase → (∀ r p, s'.phase = .stopping r p true → s.phase = .stopping r p true) ∧
      (∀ r p res, s'.phase = .notifying r p res → s.phase = .stopping r p true ∨
        ∃ p0, s.phase = .notifying r p0 res ∧ p.Sublist p0) := by
    intro e
    rw [e]
    exact ⟨fun _ _ h => h, fun r p res h => Or.inr ⟨p, h, List.Sublist.refl _⟩⟩
  have hend : (∀ r p, s'.phase ≠ .stopping r p true) → (∀ r p res, s'.phase ≠ .notifying r p res) →
      (∀ r p, s'.phase = .stopping r p true → s.phase = .stopping r p true) ∧
      (∀ r p res, s'.phase = .notifying r p res → s.phase = .stopping r p true ∨
        ∃ p0, s.phase = .notifying r p0 res ∧ p.Sublist p0) :=
    fun a b => ⟨fun r p h => absurd h (a r p), fun r p res h => absurd h (b r p res)⟩
  cases ht with
  | run hp => exact (hno _ hp (by simp)).elim
  | startOk hp => exact (hno _ hp (by simp)).elim
  | startFail _ _ hp => exact (hno _ hp (by simp)).elim
  | abort hp => exact (hno _ rfl (by simp [hp])).elim
  | recvNone hp => exact (hno _ hp (by simp)).elim
  | recvStartup hp => exact (hno _ hp (by simp)).elim
  | recvBuffer hp => exact (hno _ hp (by simp)).elim
  | recvMsg hp => exact (hno _ hp (by simp)).elim
  | recvLink hp => exact (hno _ hp (by simp)).elim
  | recvStop hp => exact (hno _ hp (by simp)).elim
  | takeReply _ _ _ hp => exact (hno _ hp (by simp)).elim
  | handlerReply _ _ _ _ hp => exact (hno _ hp (by simp)).elim
  | handlerOk _ _ _ _ _ hp => exact (hno _ hp (by simp)).elim
  | handlerErr _ _ _ _ _ hp => exact (hno _ hp (by simp)).elim
  | handlerPanic _ _ _ _ _ hp => exact (hno _ hp (by simp)).elim
  | linkCont _ _ hp => exact (hno _ hp (by simp)).elim
  | linkStop _ _ _ hp => exact (hno _ hp (by simp)).elim
  | linkPanic _ _ _ _ hp => exact (hno _ hp (by simp)).elim
  | panicCont _ hp => exact (hno _ hp (by simp)).elim
  | panicStop _ _ _ hp => exact (hno _ hp (by simp)).elim
  | panicDie _ _ hp => exact (hno _ hp (by simp)).elim
  | startPanicStop => apply hend <;> simp [St.stopFailed]
  | startPanicDie => apply hend <;> simp
  | stopNotify r p o res hp =>
    refine ⟨by simp, ?_⟩
    intro r' p' res' e
    simp at e
    obtain ⟨rfl, rfl, rfl⟩ := e
    exact Or.inl hp
  | stopFinish => apply hend <;> simp
  | stopDie => apply hend <;> simp
  | notify r p res id hp =>
    refine ⟨by simp, ?_⟩
    intro r' p' res' e
    simp at e
    obtain ⟨rfl, rfl, rfl⟩ := e
    exact Or.inr ⟨p, hp, List.erase_sublist⟩
  | finish => apply hend <;> simp
  | teardown => apply hend <;> simp [St.crash]
  | _ => exact hsame (by simp [St.step, St.ev])

/-- Whoever `i` is about to tell. The links drained at `src/actor/spawn.rs` L517-560, awaited at L565. -/
def aboutToTell : Phase → List Id
  | .stopping _ p true => p
  | .notifying _ p _ => p
  | _ => []

theorem toldBy_step {S : Sys} (op : SOp) {i j : Id} (h : toldBy i (S.act j) = [])
    (hp : ∀ r p res, (S.act i).phase = .notifying r p res → j ∉ p) : toldBy i ((S.step op).act j) = [] := by
  rcases view_deaths (view S op j) with e | ⟨k, r, p, res, h1, h2, e⟩
  · simpa [toldBy, e] using h
  · have hk : k ≠ i := by rintro rfl; exact hp r p res h1 h2
    simp only [toldBy, e, List.filter_append, List.map_append]
    rw [show ((deaths (S.act j)).filter (fun p => p.1 == i)).map (·.2) = toldBy i (S.act j) from rfl, h]
    simp [hk]

/-- **C71**, what the code does not do: linking to an actor that has left its loop, be it stopping or long gone, succeeds
without a word and has no effect, ever. If `j` was not among those `i` took from its links when it left its loop, and has
not been told, then it will not be, whatever is called afterwards, `link` included. -/
theorem link_too_late (cap : Id → Option Nat) (ops ops' : List SOp) (i j : Id)
    (hi : ((sysAfter cap ops).act i).phase.out) (hj : j ∉ aboutToTell ((sysAfter cap ops).act i).phase)
    (hn : toldBy i ((sysAfter cap ops).act j) = []) :
    toldBy i ((sysAfter cap (ops ++ ops')).act j) = [] := by
  induction ops' generalizing ops with
  | nil => simpa using hn
  | cons op l ih =>
    have hv := view_tr (view (sysAfter cap ops) op i)
    have := ih (ops ++ [op]) (by rw [sysAfter_snoc]; exact (out_tr hi hv).1) (by
      rw [sysAfter_snoc]
      obtain ⟨h1, h2⟩ := out_pend_tr hi hv
      intro hm
      match hph : (((sysAfter cap ops).step op).act i).phase with
      | .stopping r p true =>
        rw [hph] at hm
        rw [h1 r p hph] at hj
        exact hj hm
      | .notifying r p res =>
        rw [hph] at hm
        rcases h2 r p res hph with h3 | ⟨p0, h3, h4⟩
        · rw [h3] at hj; exact hj hm
        · rw [h3] at hj; exact hj (h4.subset hm)
      | .stopping r p false | .prepared | .starting | .idle | .handling _ _ _ _ | .linkDying _ _ | .panicking _
      | .startPanicking _ | .stopped _ | .crashed => rw [hph] at hm; simp [aboutToTell] at hm) (by
      rw [sysAfter_snoc]
      apply toldBy_step op hn
      intro r p res hp hm
      rw [hp] at hj
      exact hj hm)
    simpa using this

/-- Actor 0 is gone when 1 links itself to it; 1 waits for ever. -/
example : ((sysAfter (fun _ => none) (chainDemo ++ dieDemo)).act 0).phase.out ∧
    2 ∉ aboutToTell ((sysAfter (fun _ => none) (chainDemo ++ dieDemo)).act 0).phase ∧
    toldBy 0 ((sysAfter (fun _ => none) (chainDemo ++ dieDemo)).act 2) = [] ∧
    0 ∈ ((sysAfter (fun _ => none) ((chainDemo ++ dieDemo) ++ [.link 2 0])).act 2).links := by
  unfold Phase.out; decide

/-- **C71**, what the code does not do: an actor whose `on_start` fails tells nobody, whoever it is linked to and whatever
happens. -/
theorem failed_start_tells_nobody (cap : Id → Option Nat) (ops : List SOp) (i j : Id) (o : UOut) (ho : o ≠ .ok)
    (hf : .startEnd o ∈ ((sysAfter cap ops).act i).log) : toldBy i ((sysAfter cap ops).act j) = [] := by
  have key : ∀ ops, toldBy i ((sysAfter cap ops).act j) ≠ [] →
      ((sysAfter cap ops).act i).phase.out ∧ ((sysAfter cap ops).act i).startupErr = some none := by
    intro ops
    refine sys_induct (P := fun ops S => S = sysAfter cap ops → toldBy i (S.act j) ≠ [] →
      (S.act i).phase.out ∧ (S.act i).startupErr = some none) ?_ ?_ ops rfl
    · intro _ h
      exact absurd (by simp [toldBy, deaths, Sys.fresh, after, St.exec, St.fresh, Mb.fresh]) h
    · intro ops op ih _ h
      have hv := view_tr (view (sysAfter cap ops) op i)
      have h0 : ((sysAfter cap ops).act i).phase.out ∧ ((sysAfter cap ops).act i).startupErr = some none := by
        by_cases hn : toldBy i ((sysAfter cap ops).act j) = []
        · rcases view_deaths (view (sysAfter cap ops) op j) with e | ⟨k, r, p, res, h1, h2, e⟩
          · exact absurd (by simpa [toldBy, e] using hn) h
          · by_cases hk : k = i
            · subst hk
              exact ⟨by rw [h1]; exact ⟨rfl, rfl⟩, (sys_start cap ops k).nott r p res h1⟩
            · refine absurd ?_ h
              simp only [toldBy, e, List.filter_append, List.map_append]
              rw [show ((deaths ((sysAfter cap ops).act j)).filter (fun p => p.1 == i)).map (·.2) =
                toldBy i ((sysAfter cap ops).act j) from rfl, hn]
              simp [hk]
        · exact ih rfl hn
      exact ⟨(out_tr h0.1 hv).1, by rw [startup_tr h0.1 hv]; exact h0.2⟩
  apply Classical.byContradiction
  intro hn
  have hx := (key ops hn).2
  have := ((sys_start cap ops i).res _ hx).2.1 o hf
  cases o <;> simp_all [resOf]

example : .startEnd (.err 3) ∈ ((sysAfter (fun _ => none) (spawnDemo 1 ++ [.link 0 1, .loc 0 .run,
      .loc 0 (.startEnd (.err 3)), .loc 0 (.panicEnd .cont), .loc 0 (.stopEnd .ok)])).act 0).log ∧
    ((sysAfter (fun _ => none) (spawnDemo 1 ++ [.link 0 1, .loc 0 .run,
      .loc 0 (.startEnd (.err 3)), .loc 0 (.panicEnd .cont), .loc 0 (.stopEnd .ok)])).act 0).phase =
      .stopped (.panicked 3) := by decide

end Verif.System
