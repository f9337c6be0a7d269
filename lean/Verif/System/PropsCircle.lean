import Verif.System.LiveEx

/-!
How a stopping actor can fail to come to its end: if finitely many actors are ever started, it stands at the beginning of a
chain of actors each waiting for ever to tell the next of its death, and the chain runs into a circle or ends at an actor
that was never started. Everybody who is waited for has a bounded mailbox.
-/

namespace Verif.System

open Verif.Mailbox Verif.Lifecycle

/-- From `M` on, the stopping actor `i` has a notification for `j` underway that waits for room in the bounded mailbox of
`j`. Specification. -/
def Awaits (cap : Id → Option Nat) (ops : Nat → SOp) (M : Nat) (i j : Id) : Prop :=
  cap j ≠ none ∧ ∃ t, ∀ k, M ≤ k → pendingIn ((sysUpto cap ops k).act j) t = true ∧
    ∃ r p res, ((sysUpto cap ops k).act i).phase = .notifying r p res ∧ j ∈ p

/-- The actor has begun to stop and never comes to its end. -/
def Hangs (cap : Id → Option Nat) (ops : Nat → SOp) (i : Id) : Prop :=
  ∃ n, ((sysUpto cap ops n).act i).phase.out ∧ ∀ k r, n ≤ k → ((sysUpto cap ops k).act i).phase ≠ .stopped r

theorem Awaits.mono {cap : Id → Option Nat} {ops : Nat → SOp} {M M' : Nat} {i j : Id} (h : M ≤ M')
    (ha : Awaits cap ops M i j) : Awaits cap ops M' i j :=
  ⟨ha.1, ha.2.imp fun _ ht k hk => ht k (by omega)⟩

theorem hangs_next {cap : Id → Option Nat} {ops : Nat → SOp} (hcap : ∀ x, cap x ≠ some 0) (hf : SysFair cap ops)
    (hcr : ∀ n x, ((sysUpto cap ops n).act x).phase ≠ .crashed) {i : Id} (h : Hangs cap ops i) :
    ∃ M j, Awaits cap ops M i j ∧ (Hangs cap ops j ∨ ∀ k, ((sysUpto cap ops k).act j).phase = .prepared) := by
  obtain ⟨n, ho, hne⟩ := h
  obtain ⟨m, j, t, hw⟩ := waits_for_one hf hcr ho hne
  refine ⟨m, j, ⟨?_, t, hw⟩, ?_⟩
  · intro e
    have := (hw m (Nat.le_refl _)).1
    rw [no_wait_unbounded e] at this; cases this
  · rcases waited_for hcap hf hcr fun k hk => (hw k hk).1 with ⟨k0, hk0⟩ | h
    · refine Or.inl ⟨max m k0, sys_out_mono (by omega) hk0, fun k r hk hst => ?_⟩
      have h1 := (hw k (by omega)).1
      have hg := sysUpto_good cap ops k j
      rw [pendingIn, pendingIn_closed hg.shape.mb (Or.inl (by rw [hg.shape.closed, hst]; rfl))] at h1
      cases h1
    · exact Or.inr h

/-- Chains of any length, unless one ends at an actor that was never started. -/
theorem hangs_chain {cap : Id → Option Nat} {ops : Nat → SOp} (hcap : ∀ x, cap x ≠ some 0) (hf : SysFair cap ops)
    (hcr : ∀ n x, ((sysUpto cap ops n).act x).phase ≠ .crashed) {i : Id} (h : Hangs cap ops i) (k : Nat) :
    (∃ (M l : Nat) (f : Nat → Id), f 0 = i ∧ 0 < l ∧ (∀ n, n < l → Awaits cap ops M (f n) (f (n + 1))) ∧
      ∀ n, ((sysUpto cap ops n).act (f l)).phase = .prepared) ∨
    ∃ (M : Nat) (f : Nat → Id), f 0 = i ∧ (∀ n, n < k → Awaits cap ops M (f n) (f (n + 1))) ∧ ∀ n, n ≤ k → Hangs cap ops (f n) := by
  induction k with
  | zero => exact Or.inr ⟨0, fun _ => i, rfl, by simp, fun _ _ => h⟩
  | succ k ih =>
    rcases ih with ih | ⟨M, f, h0, hA, hH⟩
    · exact Or.inl ih
    obtain ⟨M', j, hj, hd⟩ := hangs_next hcap hf hcr (hH k (Nat.le_refl _))
    let g : Nat → Id := fun n => if n ≤ k then f n else j
    have hg0 : g 0 = i := by simp [g, h0]
    have hgA : ∀ n, n < k + 1 → Awaits cap ops (max M M') (g n) (g (n + 1)) := by
      intro n hn
      by_cases e : n < k
      · simp only [g, show n ≤ k by omega, show n + 1 ≤ k by omega, if_true]
        exact (hA n e).mono (by omega)
      · have : n = k := by omega
        subst this
        simp only [g, Nat.le_refl, if_true, show ¬ n + 1 ≤ n by omega, if_false]
        exact hj.mono (by omega)
    have hgj : g (k + 1) = j := if_neg (by omega)
    rcases hd with hd | hd
    · refine Or.inr ⟨max M M', g, hg0, hgA, fun n hn => ?_⟩
      by_cases e : n ≤ k
      · simp only [g, e, if_true]; exact hH n e
      · simp only [g, e, if_false]; exact hd
    · exact Or.inl ⟨max M M', k + 1, g, hg0, by omega, hgA, fun n => by rw [hgj]; exact hd n⟩

theorem pigeon {N : Nat} {f : Nat → Nat} (h : ∀ i, i ≤ N → f i < N) : ∃ i j, i < j ∧ j ≤ N ∧ f i = f j := by
  refine Classical.byContradiction fun hno => ?_
  have hnd : ((List.range (N + 1)).map f).Nodup := by
    unfold List.Nodup
    rw [List.pairwise_map]
    refine (List.pairwise_lt_range (n := N + 1)).imp_of_mem fun {i j} hi hj hij e => ?_
    exact hno ⟨i, j, hij, by have := List.mem_range.mp hj; omega, e⟩
  have hsub : (List.range (N + 1)).map f ⊆ List.range N := by
    intro x hx
    obtain ⟨i, hi, rfl⟩ := List.mem_map.mp hx
    exact List.mem_range.mpr (h i (by have := List.mem_range.mp hi; omega))
  have := hnd.length_le_of_subset hsub
  simp at this; omega

/-- **C27** (liveness). In a fair execution with mailboxes of any kind in which finitely many actors are started, an actor
that has begun to stop comes to its end, or it is the first of a chain of stopping actors each of which waits for ever for
room in the bounded mailbox of the next, and the last of the chain was never started or is waited for in a circle.

Missing from the full claim: that the second case does not arise. It does, `fair_deadlock`. -/
theorem stops_or_circle_partial (cap : Id → Option Nat) (ops : Nat → SOp) (hcap : ∀ x, cap x ≠ some 0)
    (hf : SysFair cap ops) (hcr : ∀ n x, ((sysUpto cap ops n).act x).phase ≠ .crashed) (N : Nat)
    (hN : ∀ n x, N ≤ x → ((sysUpto cap ops n).act x).phase = .prepared) (n : Nat) (i : Id)
    (h : ((sysUpto cap ops n).act i).phase.out) :
    (∃ k r, n ≤ k ∧ ((sysUpto cap ops k).act i).phase = .stopped r) ∨
    ∃ (M l : Nat) (f : Nat → Id), f 0 = i ∧ 0 < l ∧ (∀ m, m < l → Awaits cap ops M (f m) (f (m + 1))) ∧
      ((∀ m, ((sysUpto cap ops m).act (f l)).phase = .prepared) ∨ ∃ m, m < l ∧ f l = f m) := by
  by_cases hne : ∃ k r, n ≤ k ∧ ((sysUpto cap ops k).act i).phase = .stopped r
  · exact Or.inl hne
  right
  have hh : Hangs cap ops i := ⟨n, h, fun k r hk h2 => hne ⟨k, r, hk, h2⟩⟩
  rcases hangs_chain hcap hf hcr hh N with ⟨M, l, f, h0, hl, hA, hp⟩ | ⟨M, f, h0, hA, hH⟩
  · exact ⟨M, l, f, h0, hl, hA, Or.inl hp⟩
  · obtain ⟨a, b, hab, hb, e⟩ := pigeon (N := N) (f := f) (by
      intro m hm
      refine Classical.byContradiction fun hlt => ?_
      obtain ⟨k, ho, _⟩ := hH m hm
      rw [hN k (f m) (Nat.le_of_not_lt hlt)] at ho
      cases ho.2)
    exact ⟨M, b, f, h0, by omega, fun m hm => hA m (by omega), Or.inr ⟨a, hab, e.symm⟩⟩

/-- The hypotheses in the execution of `fair_deadlock`, where actor 0 waits for actor 1 and that for actor 0. -/
example : (∀ x : Id, (fun _ => some 1 : Id → Option Nat) x ≠ some 0) ∧
    SysFair (fun _ => some 1) (sysQuiet embraceDemo) ∧
    (∀ n x, ((sysUpto (fun _ => some 1) (sysQuiet embraceDemo) n).act x).phase ≠ .crashed) ∧
    (∀ n x, 2 ≤ x → ((sysUpto (fun _ => some 1) (sysQuiet embraceDemo) n).act x).phase = .prepared) ∧
    ((sysUpto (fun _ => some 1) (sysQuiet embraceDemo) embraceDemo.length).act 0).phase.out := by
  have hg : ((sysAfter (fun _ => some 1) embraceDemo).act 0).mb.granted = [] := by decide
  refine ⟨by simp, embrace_fair, embrace_not_crashed, ?_, ?_⟩
  · intro n x hx
    have hids : ∀ op ∈ embraceDemo, ∀ x ∈ op.ids, x < 2 := by decide
    by_cases hn : n ≤ embraceDemo.length
    · rw [sysQuiet_take _ _ hn,
        untouched _ _ x (fun op ho hm => absurd (hids op (List.mem_of_mem_take ho) x hm) (Nat.not_lt.mpr hx))]
      rfl
    · rw [sysQuiet_rest _ _ hg (by omega),
        untouched _ _ x (fun op ho hm => absurd (hids op ho x hm) (Nat.not_lt.mpr hx))]
      rfl
  · rw [sysQuiet_rest _ _ hg (Nat.le_refl _)]
    exact ⟨by decide, by decide⟩

/-- **C27** (liveness). In a fair execution an actor that has begun to stop comes to its end (if nobody's task is torn down from outside), if whoever has a bounded mailbox is started and never begins to
stop. So bounded mailboxes alone do no harm, however full: two stopping actors are needed to block each other. -/
theorem stops_if_bounded_run (cap : Id → Option Nat) (ops : Nat → SOp) (hcap : ∀ x, cap x ≠ some 0)
    (hf : SysFair cap ops) (hcr : ∀ n x, ((sysUpto cap ops n).act x).phase ≠ .crashed)
    (hrun : ∀ x, cap x ≠ none → (∃ n, ((sysUpto cap ops n).act x).phase ≠ .prepared) ∧
      ∀ n, ¬ ((sysUpto cap ops n).act x).phase.out) (n : Nat) (i : Id)
    (h : ((sysUpto cap ops n).act i).phase.out) :
    ∃ k r, n ≤ k ∧ ((sysUpto cap ops k).act i).phase = .stopped r := by
  refine Classical.byContradiction fun hne => ?_
  have hh : Hangs cap ops i := ⟨n, h, fun k r hk h2 => hne ⟨k, r, hk, h2⟩⟩
  obtain ⟨M, j, hA, hd⟩ := hangs_next hcap hf hcr hh
  obtain ⟨⟨n0, h1⟩, h2⟩ := hrun j hA.1
  rcases hd with ⟨k, hk, _⟩ | hd
  · exact h2 k hk
  · exact h1 (hd n0)

/-- Actor 1 of `fullDemo` has a mailbox for one message and goes on running; actor 0 has an unbounded mailbox, and has to
wait for room in that of actor 1 before it has stopped. -/
def capOne : Id → Option Nat := fun x => if x = 1 then some 1 else none

example : (∀ x, capOne x ≠ some 0) ∧ SysFair capOne (sysQuiet fullDemo) ∧
    (∀ n x, ((sysUpto capOne (sysQuiet fullDemo) n).act x).phase ≠ .crashed) ∧
    (∀ x, capOne x ≠ none → (∃ n, ((sysUpto capOne (sysQuiet fullDemo) n).act x).phase ≠ .prepared) ∧
      ∀ n, ¬ ((sysUpto capOne (sysQuiet fullDemo) n).act x).phase.out) ∧
    pendingIn ((sysUpto capOne (sysQuiet fullDemo) (chainDemo.length + 5)).act 1) 2 = true ∧
    ((sysUpto capOne (sysQuiet fullDemo) (chainDemo.length + 5)).act 0).phase.out := by
  have hids : ∀ op ∈ fullDemo, ∀ x ∈ op.ids, x < 3 := by decide
  have hg : ((sysAfter capOne fullDemo).act 0).mb.granted = [] := by decide
  have all : ∀ (P : Id → St → Prop), (∀ x, P x (after (capOne x) [])) →
      (∀ n, n ≤ fullDemo.length → ∀ x, x < 3 → P x ((sysAfter capOne (fullDemo.take n)).act x)) →
      ∀ n x, P x ((sysUpto capOne (sysQuiet fullDemo) n).act x) := by
    intro P h0 h n x
    by_cases hn : n ≤ fullDemo.length
    · rw [sysQuiet_take _ _ hn]
      by_cases hx : x < 3
      · exact h n hn x hx
      · rw [untouched _ _ x (fun op ho hm => hx (hids op (List.mem_of_mem_take ho) x hm))]; exact h0 x
    · rw [sysQuiet_rest _ _ hg (by omega)]
      by_cases hx : x < 3
      · have := h _ (Nat.le_refl _) x hx
        rwa [List.take_length] at this
      · rw [untouched _ _ x (fun op ho hm => hx (hids op ho x hm))]; exact h0 x
  refine ⟨?_, sysFair_of_tests 3 (by omega) hids (by decide) (by decide), ?_, ?_, ?_, ?_⟩
  · intro x; unfold capOne; split <;> simp
  · exact all (fun _ s => s.phase ≠ .crashed) (by intro x e; cases e) (by decide)
  · intro x hx
    have e : x = 1 := by
      unfold capOne at hx; split at hx
      · assumption
      · exact absurd rfl hx
    subst e
    refine ⟨⟨fullDemo.length, by rw [sysQuiet_rest _ _ hg (Nat.le_refl _)]; decide⟩, fun n ho => ?_⟩
    exact all (fun x s => x = 1 → s.phase.inLoop = true ∨ s.phase.unborn = true) (by intro x _; exact Or.inr rfl)
      (by decide) n 1 rfl |>.elim (fun h => by rw [ho.1] at h; cases h) (fun h => by rw [ho.2] at h; cases h)
  · rw [sysQuiet_take _ _ (by decide)]; decide
  · rw [sysQuiet_take _ _ (by decide)]; exact ⟨by decide, by decide⟩

end Verif.System
