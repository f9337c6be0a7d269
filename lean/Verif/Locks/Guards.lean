import Verif.Locks.OneThread

/-!
Property theorems C67, continued: who works on a link set or on the registry has its lock, and gives it back.
-/

namespace Verif.Locks.Registry

/-- The call is the holder of the lock. -/
def St.holder (s : St) (t : Nat) (l : Lock) : Prop := (s.queue l).head? = some t

/-- With the locks `held` waited for and `asked` requested, the rest of a program releases only what it has waited for, and
keeps nothing. -/
def Kept : List Lock → List Lock → List Act → Prop
  | asked, _, [] => asked = []
  | asked, held, .req l :: p => Kept (l :: asked) held p
  | asked, held, .await l :: p => Kept asked (l :: held) p
  | asked, held, .rel l :: p => l ∈ held ∧ Kept (asked.filter (· != l)) (held.filter (· != l)) p

/-- What is known of a call. -/
def Guarded (s : St) (t : Nat) : Prop :=
  ∃ asked held, Kept asked held (s.rest t) ∧ (∀ l, t ∈ s.queue l → l ∈ asked) ∧ ∀ l ∈ held, s.holder t l

theorem guarded_step {s : St} {t : Nat} (h : Guarded s t) (u : Nat) : Guarded (s.step u) t := by
  obtain ⟨asked, held, hk, hq, hh⟩ := h
  unfold St.step
  split
  · exact ⟨asked, held, hk, hq, hh⟩
  · next l p hp =>
    by_cases htu : t = u
    · subst htu
      rw [hp] at hk
      refine ⟨l :: asked, held, by simpa [St.set, Kept] using hk, ?_, ?_⟩
      · intro k hm
        dsimp at hm
        split at hm
        · next e => simp [e]
        · exact List.mem_cons_of_mem _ (hq k hm)
      · intro k hm
        have := hh k hm
        unfold St.holder at *
        dsimp
        split
        · exact head_append this
        · exact this
    · refine ⟨asked, held, by simpa [St.set, htu] using hk, ?_, ?_⟩
      · intro k hm
        refine hq k ?_
        dsimp at hm
        split at hm
        · simpa [htu] using hm
        · exact hm
      · intro k hm
        have := hh k hm
        unfold St.holder at *
        dsimp
        split
        · exact head_append this
        · exact this
  · next l p hp =>
    split
    · next hhd =>
      by_cases htu : t = u
      · subst htu
        rw [hp] at hk
        refine ⟨asked, l :: held, by simpa [St.set, Kept] using hk, hq, ?_⟩
        intro k hm
        rcases List.mem_cons.mp hm with rfl | hm
        · exact hhd
        · exact hh k hm
      · exact ⟨asked, held, by simpa [St.set, htu] using hk, hq, hh⟩
    · exact ⟨asked, held, hk, hq, hh⟩
  · next l p hp =>
    by_cases htu : t = u
    · subst htu
      rw [hp] at hk
      refine ⟨asked.filter (· != l), held.filter (· != l), by simpa [St.set, Kept] using hk.2, ?_, ?_⟩
      · intro k hm
        dsimp at hm
        split at hm
        · next e => simp at hm
        · next e => simp [hq k hm, e]
      · intro k hm
        have hm' : k ∈ held ∧ k ≠ l := by simpa using hm
        have := hh k hm'.1
        unfold St.holder at *
        simpa [hm'.2] using this
    · refine ⟨asked, held, by simpa [St.set, htu] using hk, ?_, ?_⟩
      · intro k hm
        refine hq k ?_
        dsimp at hm
        split at hm
        · exact (List.mem_filter.mp hm).1
        · exact hm
      · intro k hm
        have := hh k hm
        unfold St.holder at *
        dsimp
        split
        · exact head_filter this htu
        · exact this

theorem guarded_after {c : Nat → List Act} {t : Nat} (hc : Kept [] [] (c t)) (sched : List Nat) :
    Guarded (after c sched) t := by
  have key : ∀ (l : List Nat) (s : St), Guarded s t → Guarded (l.foldl St.step s) t := by
    intro l
    induction l with
    | nil => exact fun s h => h
    | cons u l ih => exact fun s h => ih _ (guarded_step h u)
  exact key sched _ ⟨[], [], hc, by simp, by simp⟩

theorem kept_sweep (as : List Nat) :
    Kept [.registry] [.registry] (as.flatMap (fun a => moment (.links a)) ++ [.rel .registry]) := by
  induction as with
  | nil => simp [Kept]
  | cons a as ih => simpa [Kept, moment] using ih

/-- The calls of the code. -/
def Coded (p : List Act) : Prop := Async p ∨ ∃ a b, p = blockingProg a b

theorem Coded.kept {p : List Act} (h : Coded p) : Kept [] [] p := by
  rcases h with h | ⟨a, b, rfl⟩
  · cases h with
    | sweep as => simpa [sweepProg, Kept] using kept_sweep as
    | link a b =>
      by_cases hab : a = b
      · simp [linkProg, hab, Kept]
      · simp [linkProg, hab, Kept, Ne.symm hab]
    | _ => simp [requestProg, endProg, ownLinksProg, remoteLinkProg, moment, Kept]
  · by_cases hab : a = b
    · simp [blockingProg, hab, Kept]
    · simp [blockingProg, hab, Kept, Ne.symm hab]

/-- **C67** and **C26**: whatever calls are under way and whatever has happened, a call that is about to give back locks
holds all of them; so its work was done under them, and nobody else's meanwhile. A call that is over holds no lock and is in
nobody's way. -/
theorem works_under_locks (c : Nat → List Act) (hc : ∀ t, Coded (c t)) (sched : List Nat) (t : Nat) :
    (∀ (ls : List Lock) (p : List Act), ls.Nodup → (after c sched).rest t = ls.map .rel ++ p →
      ∀ l ∈ ls, (after c sched).holder t l ∧ ∀ u, u ≠ t → ¬ (after c sched).holder u l) ∧
    ((after c sched).rest t = [] → ∀ l, t ∉ (after c sched).queue l) := by
  obtain ⟨asked, held, hk, hq, hh⟩ := guarded_after (hc t).kept sched
  constructor
  · intro ls p hnd hr l hl
    have key : ∀ (ls : List Lock) (asked held : List Lock), Kept asked held (ls.map .rel ++ p) → ls ⊆ held := by
      intro ls
      induction ls with
      | nil => intros; simp
      | cons a ls ih =>
        intro asked held h
        have h' : a ∈ held ∧ Kept (asked.filter (· != a)) (held.filter (· != a)) (ls.map .rel ++ p) := h
        intro x hx
        rcases List.mem_cons.mp hx with rfl | hx
        · exact h'.1
        · exact (List.mem_filter.mp (ih _ _ h'.2 hx)).1
    have hl := hh l (key ls asked held (hr ▸ hk) hl)
    refine ⟨hl, fun u hu hu' => hu ?_⟩
    unfold St.holder at hl hu'
    rw [hl] at hu'
    exact (Option.some.inj hu').symm
  · intro hr l hm
    rw [hr] at hk
    have := hq l hm
    rw [hk] at this
    cases this

/-- Two links of the same actors in opposite directions, one after the other, and a sweep. -/
private def exGuards : Nat → List Act := fun t =>
  if t = 0 then linkProg 0 1 else if t = 1 then blockingProg 1 0 else if t = 2 then sweepProg [0, 1] else []

example : (∀ t, Coded (exGuards t)) ∧
    (after exGuards [0, 0, 1, 2, 2, 0, 0]).rest 0 = [Lock.links 0, .links 1].map .rel ++ [] ∧
    [Lock.links 0, .links 1].Nodup ∧
    (after exGuards [0, 0, 1, 2, 2, 0, 0, 0, 0]).rest 0 = [] := by
  refine ⟨?_, by decide, by decide, by decide⟩
  intro t; unfold exGuards
  split
  · exact .inl (.link _ _)
  split
  · exact .inr ⟨_, _, rfl⟩
  split
  · exact .inl (.sweep _)
  · exact .inl .none

theorem rest_suffix (c : Nat → List Act) (sched : List Nat) (t : Nat) : (after c sched).rest t <:+ c t := by
  have key : ∀ (l : List Nat) (s : St), s.rest t <:+ c t → (l.foldl St.step s).rest t <:+ c t := by
    intro l
    induction l with
    | nil => exact fun s h => h
    | cons u l ih =>
      intro s h
      refine ih _ ?_
      unfold St.step
      split
      · exact h
      all_goals
        next hp =>
          try split
          all_goals first
            | exact h
            | (by_cases htu : t = u
               · subst htu
                 rw [hp] at h
                 simpa [St.set] using (List.suffix_cons _ _).trans h
               · simpa [St.set, htu] using h)
  exact key sched _ (List.suffix_refl _)

theorem length_step (s : St) (t u : Nat) : (s.rest t).length ≤ ((s.step u).rest t).length + 1 := by
  unfold St.step
  split
  · omega
  all_goals
    next hp =>
      try split
      all_goals first
        | omega
        | (by_cases htu : t = u
           · subst htu; simp [St.set, hp]
           · simp [St.set, htu])

/-- **C67** and **C26**: a link of two actors that has been made was made at a moment when its call held both link sets,
whichever way round and whether it blocked or not. -/
theorem link_made_under_both (c : Nat → List Act) (hc : ∀ t, Coded (c t)) (t a b : Nat) (hab : a ≠ b)
    (ht : c t = linkProg a b ∨ c t = blockingProg a b) (sched : List Nat) (hr : (after c sched).rest t = []) :
    ∃ pre post, sched = pre ++ post ∧ (after c pre).holder t (.links a) ∧ (after c pre).holder t (.links b) := by
  have hlen : (c t).length = 6 := by rcases ht with h | h <;> simp [h, linkProg, blockingProg, hab]
  have key : ∀ n, n ≤ sched.length → 2 < ((after c (sched.take n)).rest t).length ∨
      ∃ m, ((after c (sched.take m)).rest t).length = 2 := by
    intro n
    induction n with
    | zero => intro _; left; simp [after, hlen]
    | succ n ih =>
      intro hn
      rcases ih (by omega) with h | h
      · have hs : after c (sched.take (n + 1)) = (after c (sched.take n)).step sched[n] := by
          rw [List.take_succ_eq_append_getElem hn]
          simp only [after, List.foldl_append, List.foldl_cons, List.foldl_nil]
        have := length_step (after c (sched.take n)) t sched[n]
        rw [← hs] at this
        by_cases h2 : 2 < ((after c (sched.take (n + 1))).rest t).length
        · exact .inl h2
        · exact .inr ⟨n + 1, by omega⟩
      · exact .inr h
  rcases key sched.length (Nat.le_refl _) with h | ⟨m, hm⟩
  · rw [List.take_length, hr] at h
    cases h
  · refine ⟨sched.take m, sched.drop m, (List.take_append_drop _ _).symm, ?_⟩
    obtain ⟨pre, hpre⟩ := rest_suffix c (sched.take m) t
    have hd : (after c (sched.take m)).rest t = (c t).drop 4 := by
      have h4 : pre.length = 4 := by
        have := congrArg List.length hpre
        rw [List.length_append, hlen, hm] at this
        omega
      rw [← hpre, ← h4, List.drop_left]
    have hw := (works_under_locks c hc (sched.take m) t).1
    rcases ht with h | h
    · have := hw [.links a, .links b] [] (by simp [hab]) (by rw [hd, h]; simp [linkProg, hab])
      exact ⟨(this _ (by simp)).1, (this _ (by simp)).1⟩
    · have := hw [.links b, .links a] [] (by simp [Ne.symm hab]) (by rw [hd, h]; simp [blockingProg, hab])
      exact ⟨(this _ (by simp)).1, (this _ (by simp)).1⟩

example : exGuards 0 = linkProg 0 1 ∧ exGuards 1 = blockingProg 1 0 ∧
    (after exGuards [0, 0, 1, 2, 2, 0, 0, 0, 0, 1, 1, 1, 1, 1]).rest 0 = [] ∧
    (after exGuards [0, 0, 1, 2, 2, 0, 0, 0, 0, 1, 1, 1, 1, 1]).rest 1 = [] := by decide

end Verif.Locks.Registry
