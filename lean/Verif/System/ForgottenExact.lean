import Verif.System.Forgotten
import Verif.System.TellExact

/-!
C101: exactly which of the dead an actor that runs still has in its links.
-/

set_option linter.unusedSimpArgs false

namespace Verif.System

open Verif.Mailbox Verif.Lifecycle

/-! ### Specification -/

/-- `on_link_died` of the actor has been called for `i`, which died with reason `r`, and that call is over. -/
def HookOver (s : St) (i : Id) (r : Reason) : Prop := .lBegin i r ∈ s.log ∧ s.phase ≠ .linkDying i r

/-! ### Lemmas -/

/-- `on_link_died` is entered only with a signal from the head of the mailbox. -/
theorem enters_linkDying {s s' : St} (ht : Tr s s') {i : Id} {r : Reason} (h : s'.phase = .linkDying i r) :
    s.phase = .linkDying i r ∨ ∃ t q, s.mb.queue = (t, .linkDied i r) :: q := by
  have hdr : ∀ (a : St) (rest : List Msg) (ts : Bool), (a.drain rest ts).phase ≠ .linkDying i r := by
    intro a rest ts
    cases rest with
    | cons m ms => simp [St.drain]
    | nil => cases ts <;> simp [St.drain]
  cases ht with
  | recvLink hp _ t id r2 q hq => cases h; exact Or.inr ⟨t, q, hq⟩
  | recvNone hp => exact absurd h (hdr _ _ _)
  | recvStartup hp => exact absurd h (hdr _ _ _)
  | recvStop hp => exact absurd h (hdr _ _ _)
  | handlerReply _ _ _ _ hp => exact absurd h (hdr _ _ _)
  | handlerOk _ _ _ _ _ hp => exact absurd h (hdr _ _ _)
  | startOk hp => rw [(startOk_fields s).2.1] at h; cases h
  | startFail => simp [St.startFail] at h
  | startPanicStop => simp [St.stopFailed] at h
  | abort => simp [St.abortSeen] at h
  | teardown => simp [St.crash] at h
  | linkStop => simp [St.leave] at h
  | panicStop => simp [St.leave] at h
  | refl => exact Or.inl h
  | _ =>
    first
      | exact Or.inl h
      | (simp [St.step, St.ev] at h; done)
      | (left; simpa [St.step, St.ev] using h)

private theorem two_filterMap {α β : Type} {f : α → Option β} {l : List α} {a b : α} {x y : β} (hab : a ≠ b) (ha : a ∈ l) (hb : b ∈ l)
    (hx : f a = some x) (hy : f b = some y) : 2 ≤ (l.filterMap f).length := by
  induction l with
  | nil => cases ha
  | cons c l ih =>
    rcases List.mem_cons.mp ha with rfl | ha1
    · have hb1 := (List.mem_cons.mp hb).resolve_left (Ne.symm hab)
      have : y ∈ l.filterMap f := List.mem_filterMap.mpr ⟨b, hb1, hy⟩
      rw [List.filterMap_cons_some hx]
      have := List.length_pos_of_mem this
      simp; omega
    · rcases List.mem_cons.mp hb with rfl | hb1
      · have : x ∈ l.filterMap f := List.mem_filterMap.mpr ⟨a, ha1, hx⟩
        rw [List.filterMap_cons_some hy]
        have := List.length_pos_of_mem this
        simp; omega
      · have := ih ha1 hb1
        have : (l.filterMap f).length ≤ ((c :: l).filterMap f).length := by
          cases hc : f c with
          | none => rw [List.filterMap_cons_none hc]; exact Nat.le_refl _
          | some z => rw [List.filterMap_cons_some hc]; simp
        omega

/-- No two signals of the death of one actor. -/
theorem one_signal (cap : Id → Option Nat) (ops : List SOp) {i j : Id} {t t' : Nat} {r r' : Reason}
    (h : (t, Sig.linkDied i r) ∈ ((sysAfter cap ops).act j).mb.sent) (h' : (t', Sig.linkDied i r') ∈ ((sysAfter cap ops).act j).mb.sent) :
    t = t' := by
  apply Classical.byContradiction
  intro hne
  have h2 : 2 ≤ (toldBy i ((sysAfter cap ops).act j)).length := by
    have e : toldBy i ((sysAfter cap ops).act j) = ((sysAfter cap ops).act j).mb.sent.filterMap (fun p => match p.2 with
        | .linkDied k r => if k = i then some r else none
        | _ => none) := by
      unfold toldBy deaths
      generalize ((sysAfter cap ops).act j).mb.sent = l
      induction l with
      | nil => rfl
      | cons c l ih =>
        obtain ⟨tc, sg⟩ := c
        cases sg with
        | linkDied k r =>
          by_cases hk : k = i
          · simp [List.filterMap_cons, hk] at ih ⊢; exact ih
          · simp [List.filterMap_cons, hk] at ih ⊢; exact ih
        | _ => simpa [List.filterMap_cons] using ih
    rw [e]
    exact two_filterMap (x := r) (y := r') (by intro hc; exact hne (congrArg Prod.fst hc)) h h' (by simp) (by simp)
  rcases told_at_most_once cap ops i j with h1 | ⟨x, h1, _⟩ <;> rw [h1] at h2 <;> simp at h2

theorem received_of_lBegin (cap : Id → Option Nat) (ops : List SOp) {i j : Id} {r : Reason}
    (h : .lBegin i r ∈ ((sysAfter cap ops).act j).log) : ∃ t, (t, Sig.linkDied i r) ∈ ((sysAfter cap ops).act j).mb.received := by
  obtain ⟨l, hl⟩ := actor_history cap ops j
  have hm : (i, r) ∈ linkRuns ((sysAfter cap ops).act j).log := List.mem_filterMap.mpr ⟨_, h, rfl⟩
  rw [hl, on_link_died_per_signal, ← hl, List.mem_filterMap] at hm
  obtain ⟨⟨t, sg⟩, h1, h2⟩ := hm
  cases sg <;> simp [linkTaken] at h2
  obtain ⟨rfl, rfl⟩ := h2
  exact ⟨t, h1⟩

theorem lBegin_of_received (cap : Id → Option Nat) (ops : List SOp) {i j : Id} {r : Reason} {t : Nat}
    (h : (t, Sig.linkDied i r) ∈ ((sysAfter cap ops).act j).mb.received) : .lBegin i r ∈ ((sysAfter cap ops).act j).log := by
  obtain ⟨l, hl⟩ := actor_history cap ops j
  have hm : (i, r) ∈ ((sysAfter cap ops).act j).mb.received.filterMap linkTaken := List.mem_filterMap.mpr ⟨_, h, rfl⟩
  rw [hl, ← on_link_died_per_signal, ← hl, linkRuns, List.mem_filterMap] at hm
  obtain ⟨e, h1, h2⟩ := hm
  cases e <;> simp [linkRun] at h2
  obtain ⟨rfl, rfl⟩ := h2
  exact h1

/-- Once `on_link_died` for `i` is over it is not called for `i` again. -/
theorem hook_once (cap : Id → Option Nat) (ops : List SOp) {i j : Id} {t : Nat} {r : Reason} (op : SOp)
    (h : (t, Sig.linkDied i r) ∈ ((sysAfter cap ops).act j).mb.received)
    (hp : ∀ r', ((sysAfter cap ops).act j).phase ≠ .linkDying i r') :
    (t, Sig.linkDied i r) ∈ (((sysAfter cap ops).step op).act j).mb.received ∧
      ∀ r', (((sysAfter cap ops).step op).act j).phase ≠ .linkDying i r' := by
  have hv := view_tr (view (sysAfter cap ops) op j)
  refine ⟨(tr_received hv).subset h, fun r' hc => ?_⟩
  rcases enters_linkDying hv hc with h1 | ⟨t', q, h1⟩
  · exact hp r' h1
  · have hm := (sys_good cap ops j).shape.mb
    have hs : ∀ p, p ∈ ((sysAfter cap ops).act j).mb.received ∨ p ∈ ((sysAfter cap ops).act j).mb.queue →
        p ∈ ((sysAfter cap ops).act j).mb.sent := by
      intro p hp
      apply hm.mem_sent
      simp only [hm.hist, List.mem_append]
      rcases hp with hp | hp <;> simp [hp]
    have e := one_signal cap ops (hs _ (.inl h)) (hs (t', .linkDied i r') (.inr (by rw [h1]; simp)))
    have hn := hm.part_nodup
    simp only [hm.hist, List.map_append, h1] at hn
    simp only [List.append_assoc] at hn
    have := (List.nodup_append.mp hn).2.2 t (List.mem_map.mpr ⟨_, h, rfl⟩) t' (by simp)
    exact this e

theorem joins_links {S : Sys} {op : SOp} {i j : Id} (hij : i ≠ j) (hop : op.joins i j) : i ∈ ((S.step op).act j).links := by
  rcases hop with rfl | rfl
  · simp only [Sys.step, hij, beq_iff_eq, if_false, set_act, St.step]
    simp only [if_true]
    split
    · next h => simpa using h
    · simp
  · simp only [Sys.step, Ne.symm hij, hij, beq_iff_eq, if_false, set_act, St.step]
    simp only [if_true]
    split
    · next h => simpa [Ne.symm hij] using h
    · simp [Ne.symm hij]

theorem joins_same {S : Sys} {op : SOp} {i j : Id} (hij : i ≠ j) (hop : op.joins i j) :
    ((S.step op).act j).log = (S.act j).log ∧ ((S.step op).act j).phase = (S.act j).phase ∧
      ((S.step op).act j).mb = (S.act j).mb := by
  rcases hop with rfl | rfl <;> simp [Sys.step, hij, Ne.symm hij, St.step]

/-! ### Theorem -/

/-- **C101** — exactly which of the dead are still listed. Let `i` have stopped with reason `r`, and let `j` run and have no news of
this death at hand. Then `i` is in the links of `j` if and only if the two were linked and not unlinked since, and either `j` is not among those `i`
told (the link was made when `i` had left its loop, or `on_start` of `i` failed), or the link was made after `on_link_died` of `j` for
`i` was over. -/
theorem dead_listed_iff (cap : Id → Option Nat) (ops : List SOp) (i j : Id) (r : Reason)
    (hst : ((sysAfter cap ops).act i).phase = .stopped r) (ho : ¬ ((sysAfter cap ops).act j).phase.out)
    (hn : ¬ NewsAtHand (sysAfter cap ops) i j r) :
    i ∈ ((sysAfter cap ops).act j).links ↔
      ∃ pre op post, ops = pre ++ op :: post ∧ op.joins i j ∧ (∀ o ∈ post, o.keeps i j) ∧
        (¬ LeftStillLinked cap ops i j r ∨ HookOver ((sysAfter cap pre).act j) i r) := by
  have hij : i ≠ j := by
    rintro rfl
    exact ho (by rw [hst]; exact ⟨rfl, rfl⟩)
  constructor
  · intro h
    by_cases hL : LeftStillLinked cap ops i j r
    · have hcl : ((sysAfter cap ops).act j).mb.closed = false := by
        rw [(sys_good cap ops j).shape.closed]
        unfold Phase.out at ho
        revert ho
        cases ((sysAfter cap ops).act j).phase <;> simp [Phase.unborn]
      have hm := (sys_good cap ops j).shape.mb
      obtain ⟨t, hpush⟩ := ((told_iff_left_linked cap ops i j r hst).2.1 hL).resolve_right (by simp [hcl])
      rw [hm.hist, hm.openLost hcl] at hpush
      simp only [List.append_nil, List.mem_append] at hpush
      rcases hpush with hrec | hq
      · have hb := lBegin_of_received cap ops hrec
        have hph : ((sysAfter cap ops).act j).phase ≠ .linkDying i r := fun hc => hn (.inr hc)
        suffices hh : ∃ pre op post, ops = pre ++ op :: post ∧ op.joins i j ∧ (∀ o ∈ post, o.keeps i j) ∧
            HookOver ((sysAfter cap pre).act j) i r by
          obtain ⟨pre, op, post, h1, h2, h3, h4⟩ := hh
          exact ⟨pre, op, post, h1, h2, h3, .inr h4⟩
        clear hn hst hL hm hcl hrec
        refine sys_induct (P := fun ops S => i ∈ (S.act j).links → ¬ (S.act j).phase.out → .lBegin i r ∈ (S.act j).log →
          (S.act j).phase ≠ .linkDying i r → ∃ pre op post, ops = pre ++ op :: post ∧ op.joins i j ∧ (∀ o ∈ post, o.keeps i j) ∧
            HookOver ((sysAfter cap pre).act j) i r) ?_ ?_ ops h ho hb hph
        · intro h
          simp [Sys.fresh, after, St.exec, St.fresh] at h
        · intro ops op ih h ho hb hph
          have hv := view_tr (view (sysAfter cap ops) op j)
          by_cases hlk : i ∈ ((sysAfter cap ops).act j).links
          · have hb0 : .lBegin i r ∈ ((sysAfter cap ops).act j).log := by
              obtain ⟨t, hrec⟩ := received_of_lBegin cap (ops ++ [op]) (by rw [sysAfter_snoc]; exact hb)
              rw [sysAfter_snoc] at hrec
              rcases taken_tr hv hrec with h1 | h1
              · exact lBegin_of_received cap ops h1
              · exact absurd h1 hph
            have hph0 : ((sysAfter cap ops).act j).phase ≠ .linkDying i r := by
              intro hc
              rcases linkDying_tr hv hc with h1 | h1 | h1
              · exact hph h1
              · exact ho h1
              · exact h1 h
            have ho0 : ¬ ((sysAfter cap ops).act j).phase.out := fun hc => ho (out_tr hc hv).1
            obtain ⟨pre, o, post, rfl, h2, h3, h4⟩ := ih hlk ho0 hb0 hph0
            refine ⟨pre, o, post ++ [op], by simp, h2, ?_, h4⟩
            intro o' ho'
            rcases List.mem_append.mp ho' with h5 | h5
            · exact h3 o' h5
            · simp at h5
              subst h5
              exact ⟨fun e => parts_links hij (Or.inl e) h, fun e => parts_links hij (Or.inr e) h⟩
          · have hj := joins_comm.mp ((links_gain h).resolve_left hlk)
            obtain ⟨e1, e2, _⟩ := joins_same (S := sysAfter cap ops) hij hj
            exact ⟨ops, op, [], rfl, hj, by simp, by rw [← e1]; exact hb, by rw [← e2]; exact hph⟩
      · exact absurd (.inl ⟨t, hq⟩) hn
    · obtain ⟨pre, op, post, h1, h2, h3⟩ := last_join cap ops hij h
      exact ⟨pre, op, post, h1, h2, h3, .inl hL⟩
  · rintro ⟨pre, op, post, rfl, hjoin, hk, hL | ⟨hb, hph⟩⟩
    · have hnil := (told_iff_left_linked cap _ i j r hst).2.2.mp hL
      have := listed_while_untold cap (pre ++ [op]) post (i := i) (j := j)
        (by rw [sysAfter_snoc]; exact joins_links hij hjoin) hk (fun l hl => by
          obtain ⟨l', rfl⟩ := hl
          cases ht : toldBy i ((sysAfter cap (pre ++ [op] ++ l)).act j) with
          | nil => rfl
          | cons x y =>
            exfalso
            have hmono : ∀ (a b : List SOp), deaths ((sysAfter cap a).act j) <+: deaths ((sysAfter cap (a ++ b)).act j) := by
              intro a b
              induction b generalizing a with
              | nil => simp
              | cons o b ih =>
                have h1 := ih (a ++ [o])
                simp only [List.append_assoc, List.singleton_append] at h1
                refine List.IsPrefix.trans ?_ h1
                rw [sysAfter_snoc]
                rcases view_deaths (view (sysAfter cap a) o j) with e | ⟨_, _, _, _, _, _, e⟩ <;> rw [e]
                · exact List.prefix_refl _
                · exact List.prefix_append _ _
            have h1 : x ∈ toldBy i ((sysAfter cap (pre ++ [op] ++ l)).act j) := by rw [ht]; simp
            obtain ⟨p, h2, h3⟩ := List.mem_map.mp h1
            obtain ⟨h4, h5⟩ := List.mem_filter.mp h2
            have h6 : x ∈ toldBy i ((sysAfter cap (pre ++ op :: (l ++ l'))).act j) := by
              refine List.mem_map.mpr ⟨p, List.mem_filter.mpr ⟨?_, h5⟩, h3⟩
              have := (hmono (pre ++ [op] ++ l) l').subset h4
              simpa using this
            rw [hnil] at h6
            cases h6)
      have hh : i ∈ ((sysAfter cap (pre ++ op :: post)).act j).links ∨ ((sysAfter cap (pre ++ op :: post)).act j).phase.out := by
        simpa using this
      exact hh.resolve_right ho
    · obtain ⟨t, hrec⟩ := received_of_lBegin cap pre hb
      have hall : ∀ r', ((sysAfter cap pre).act j).phase ≠ .linkDying i r' := by
        intro r' hc
        have h1 := deaths_received (sys_good cap pre j) hrec
        have h2 := linkDying_received (sys_good cap pre j) hc
        have h3 : r ∈ toldBy i ((sysAfter cap pre).act j) := List.mem_map.mpr ⟨(i, r), List.mem_filter.mpr ⟨h1, by simp⟩, rfl⟩
        have h4 : r' ∈ toldBy i ((sysAfter cap pre).act j) := List.mem_map.mpr ⟨(i, r'), List.mem_filter.mpr ⟨h2, by simp⟩, rfl⟩
        rcases told_at_most_once cap pre i j with h5 | ⟨x, h5, _⟩ <;> rw [h5] at h3 h4
        · cases h3
        · simp at h3 h4
          exact hph (by rw [hc, h4, ← h3])
      have key : ∀ (l : List SOp) (a : List SOp), (t, Sig.linkDied i r) ∈ ((sysAfter cap a).act j).mb.received →
          (∀ r', ((sysAfter cap a).act j).phase ≠ .linkDying i r') → i ∈ ((sysAfter cap a).act j).links → (∀ o ∈ l, o.keeps i j) →
          i ∈ ((sysAfter cap (a ++ l)).act j).links ∨ ((sysAfter cap (a ++ l)).act j).phase.out := by
        intro l
        induction l with
        | nil => intro a _ _ h _; left; simpa using h
        | cons o l ih =>
          intro a h1 h2 h3 h4
          rw [List.append_cons]
          obtain ⟨h5, h6⟩ := hook_once cap a o h1 h2
          rcases links_keep h3 (h4 o (by simp)) with h7 | h7 | ⟨r', h7⟩
          · exact ih (a ++ [o]) (by rw [sysAfter_snoc]; exact h5) (by rw [sysAfter_snoc]; exact h6)
              (by rw [sysAfter_snoc]; exact h7) (fun o' ho' => h4 o' (List.mem_cons_of_mem _ ho'))
          · right
            exact out_exec (ops := a ++ [o]) l (by rw [sysAfter_snoc]; exact h7)
          · exact absurd h7 (h2 r')
      obtain ⟨_, e2, e3⟩ := joins_same (S := sysAfter cap pre) hij hjoin
      have := key post (pre ++ [op]) (by rw [sysAfter_snoc, e3]; exact hrec) (by rw [sysAfter_snoc, e2]; exact hall)
        (by rw [sysAfter_snoc]; exact joins_links hij hjoin) hk
      rw [← List.append_cons] at this
      exact this.resolve_right ho

/-- 0 dies. 1 and 2 were linked with it in time; 1 links once more when its `on_link_died` is over, 2 while it runs; 3 links when 0 is
gone. 1 and 3 list it, 2 does not. -/
def relistDemo : List SOp :=
  spawnDemo 0 ++ spawnDemo 1 ++ spawnDemo 2 ++ spawnDemo 3 ++ [.link 0 1, .link 2 0, .loc 0 .kill, .loc 0 .pollEnd, .loc 0 (.stopEnd .ok),
    .notifyStart 0 1, .notifyEnd 0 1, .notifyStart 0 2, .notifyEnd 0 2, .loc 0 .finish,
    .loc 1 .recv, .loc 1 (.linkEnd .cont), .link 1 0, .loc 2 .recv, .link 2 0, .loc 2 (.linkEnd .cont), .link 0 3]

example : ((sysAfter (fun _ => none) relistDemo).act 0).phase = .stopped .killed ∧
    ((sysAfter (fun _ => none) relistDemo).act 1).phase = .idle ∧ ((sysAfter (fun _ => none) relistDemo).act 1).mb.queue = [] ∧
    ((sysAfter (fun _ => none) relistDemo).act 2).phase = .idle ∧ ((sysAfter (fun _ => none) relistDemo).act 2).mb.queue = [] ∧
    ((sysAfter (fun _ => none) relistDemo).act 3).phase = .idle ∧ ((sysAfter (fun _ => none) relistDemo).act 3).mb.queue = [] ∧
    ((sysAfter (fun _ => none) relistDemo).act 1).links = [0] ∧ ((sysAfter (fun _ => none) relistDemo).act 2).links = [] ∧
    ((sysAfter (fun _ => none) relistDemo).act 3).links = [0] ∧
    toldBy 0 ((sysAfter (fun _ => none) relistDemo).act 1) = [.killed] ∧
    toldBy 0 ((sysAfter (fun _ => none) relistDemo).act 3) = [] := by decide

end Verif.System
