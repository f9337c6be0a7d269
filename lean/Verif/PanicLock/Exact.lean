import Verif.PanicLock.Props

/-!
Exactly which looks at a `PanicError` can return (C89), `src/error.rs` L701-744.
-/

namespace Verif.PanicLock

open Verif.Lifecycle

theorem step?_others {s s' : St} {t u : Nat} (h : s.step? t = some s') (hu : u ≠ t) : s'.th u = s.th u := by
  unfold St.step? at h
  split at h
  · rename_i how e f rest hn
    cases hl : (s.cell e).lock with
    | none => simp [hl] at h
    | some r => simp only [hl] at h; cases h; simp [upd_ne _ _ hu]
  · cases h; simp [upd_ne _ _ hu]
  · cases h; simp [upd_ne _ _ hu]
  · cases h
  · cases h

theorem left_jam (val : Nat → Pay) (how : How) (e : Nat) (f rest : Prog) (st : List (Nat × Prog))
    (h : e ∈ st.map (·.1)) : (left val (.look how e f rest) st).2 = .hangs := by
  cases st with
  | nil => simp at h
  | cons x st =>
    obtain ⟨e', k⟩ := x
    have h' : e ∈ e' :: st.map (·.1) := by simpa using h
    simp [left, Prog.alone, h']

/-- A thread that nobody is in the way of takes a step, unless it is at its end. -/
theorem step?_some {val : Nat → Pay} {ps : List Prog} {s : St} (hi : Inv val ps s) {t : Nat}
    (ho : ∀ u, u ≠ t → (s.th u).stack = []) (hl : ((ps.getD t .ret).alone val []).2 ≠ .hangs) (he : ¬ s.ended t) :
    ∃ s', s.step? t = some s' := by
  have ha := congrArg Prod.snd (hi.alone t)
  simp only at ha
  rw [← ha] at hl
  cases hn : (s.th t).now with
  | look how e f rest =>
    have hst : e ∉ (s.th t).stack.map (·.1) := by
      intro hm
      rw [hn] at hl
      exact hl (left_jam val how e f rest _ hm)
    have hh : (s.cell e).holder = none := by
      cases hc : (s.cell e).holder with
      | none => rfl
      | some u =>
        have hm := (hi.held e u).mp hc
        by_cases hu : u = t
        · subst hu; exact absurd hm hst
        · rw [ho u hu] at hm; simp at hm
    unfold St.step?
    simp only [hn, Cell.lock, hh]
    exact ⟨_, rfl⟩
  | ret =>
    cases hs : (s.th t).stack with
    | nil => exact absurd ⟨hs, .inl hn⟩ he
    | cons x st => unfold St.step?; simp only [hn, hs]; exact ⟨_, rfl⟩
  | panic =>
    cases hs : (s.th t).stack with
    | nil => exact absurd ⟨hs, .inr hn⟩ he
    | cons x st => unfold St.step?; simp only [hn, hs]; exact ⟨_, rfl⟩

/-- So it comes to its end if it runs alone, and the others are where they were. -/
theorem ends_alone {val : Nat → Pay} {ps : List Prog} (t : Nat) (hl : ((ps.getD t .ret).alone val []).2 ≠ .hangs) :
    ∀ (k : Nat) (s : St), Inv val ps s → (∀ u, u ≠ t → (s.th u).stack = []) → total s.th (t + 1) ≤ k →
      ∃ ts, (s.run ts).ended t ∧ ∀ u, u ≠ t → (s.run ts).th u = s.th u := by
  intro k
  induction k with
  | zero =>
    intro s hi ho hk
    refine ⟨[], Classical.byContradiction fun he => ?_, fun _ _ => rfl⟩
    obtain ⟨s', hs⟩ := step?_some hi ho hl (fun h => he h)
    have := total_step? (n := t + 1) hs (by omega)
    omega
  | succ k ih =>
    intro s hi ho hk
    by_cases he : s.ended t
    · exact ⟨[], he, fun _ _ => rfl⟩
    obtain ⟨s', hs⟩ := step?_some hi ho hl he
    have hlt := total_step? (n := t + 1) hs (by omega)
    obtain ⟨ts, h1, h2⟩ := ih s' (inv_step? hi hs) (fun u hu => by rw [step?_others hs hu]; exact ho u hu) (by omega)
    refine ⟨t :: ts, ?_, fun u hu => ?_⟩
    · simpa [St.run, St.step, hs] using h1
    · have := h2 u hu
      rw [step?_others hs hu] at this
      simpa [St.run, St.step, hs] using this

/-- **C89**, exactly: the threads of a program can all come to their ends, on some schedule, if and only if no closure of
one of them, run alone, comes to look at an error that it is within a look at, in itself or in a clone. Poisoned locks,
panicking closures, the number of threads and of clones and looks within looks at different errors make no difference to
that; of the last it depends on the schedule whether they do (`crossed_looks_hang`, `looks_return_partial`). -/
theorem all_can_return_iff (val : Nat → Pay) (ps : List Prog) :
    (∃ ts, ∀ t, ((start val ps).run ts).ended t) ↔ ∀ p ∈ ps, (p.alone val []).2 ≠ .hangs := by
  constructor
  · rintro ⟨ts, h⟩ p hp hh
    obtain ⟨t, ht⟩ := List.mem_iff_getElem?.1 hp
    refine nested_look_hangs val ps t ?_ ts (h t)
    rw [List.getD_eq_getElem?_getD, ht]
    exact hh
  · intro h
    have key : ∀ n, ∃ ts, (∀ t, t < n → ((start val ps).run ts).ended t) ∧
        ∀ t, n ≤ t → ((start val ps).run ts).th t = (start val ps).th t := by
      intro n
      induction n with
      | zero => exact ⟨[], fun _ h => absurd h (Nat.not_lt_zero _), fun _ _ => rfl⟩
      | succ n ih =>
        obtain ⟨ts, h1, h2⟩ := ih
        have hl : ((ps.getD n .ret).alone val []).2 ≠ .hangs := by
          rw [List.getD_eq_getElem?_getD]
          cases hg : ps[n]? with
          | none => simp [Prog.alone]
          | some p => exact h p (List.mem_of_getElem? hg)
        obtain ⟨us, h3, h4⟩ := ends_alone n hl _ ((start val ps).run ts) (inv_reach val ps ts) (fun u hu => by
          rcases Nat.lt_or_ge u n with hlt | hge
          · exact (h1 u hlt).1
          · rw [h2 u hge]; rfl) (Nat.le_refl _)
        refine ⟨ts ++ us, fun t ht => ?_, fun t ht => ?_⟩
        · rw [run_append]
          by_cases htn : t = n
          · subst htn; exact h3
          · have := h1 t (by omega)
            unfold St.ended at this ⊢
            rw [h4 t htn]; exact this
        · rw [run_append, h4 t (by omega)]; exact h2 t (by omega)
    obtain ⟨ts, h1, h2⟩ := key ps.length
    refine ⟨ts, fun t => ?_⟩
    rcases Nat.lt_or_ge t ps.length with hlt | hge
    · exact h1 t hlt
    · unfold St.ended
      rw [h2 t hge]
      simp [start, List.getD_eq_getElem?_getD, List.getElem?_eq_none hge]

/-- Two threads that print an error within a look at another one, in opposite orders, and one that panics at it can; one
that prints an error within a look at the same error cannot. -/
example :
    (∀ p ∈ [Prog.look .any 7 (display 8) .ret, .look .any 8 (display 7) .ret, .look .any 7 .panic .ret],
      (p.alone (fun _ => .str "boom") []).2 ≠ .hangs) ∧
    ((Prog.look .any 7 (display 7) .ret).alone (fun _ => .str "boom") []).2 = .hangs := by decide

end Verif.PanicLock
