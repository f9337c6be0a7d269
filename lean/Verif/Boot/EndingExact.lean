import Verif.Boot.PropsEnding

/-!
C93, exactly: which tasks can still get to their end.
-/

namespace Verif.Boot.Ending

/-- A task that will never get to its end: it has ended by a panic, or the swarm is gone and a command is still to be
sent. -/
def Stuck (s : State) : Prop :=
  s.phase = .crashed ∨ (s.phase = .telling ∧ s.swarm = false ∧ ∃ i, .there i ∈ s.ready ++ s.waiting)

theorem stuck_step {s : State} (h : Stuck s) (op : Op) : Stuck (s.step op) := by
  rcases h with h | ⟨h1, h2, i, h3⟩
  · left
    cases op with
    | poll o => simp [State.step, h]
    | wake f => simp only [State.step]; split <;> exact h
    | swarmEnds => exact h
    | unlist => simp [State.step, h]
    | publish => simp [State.step, h]
  · cases op with
    | swarmEnds => exact Or.inr ⟨h1, rfl, i, h3⟩
    | publish => right; simp only [State.step, h1]; exact ⟨h1, h2, i, h3⟩
    | unlist =>
      right
      have : ¬ (s.phase = .telling ∧ s.ready = [] ∧ s.waiting = []) := by
        rintro ⟨_, h4, h5⟩; simp [h4, h5] at h3
      simp only [State.step, this, if_false]
      exact ⟨h1, h2, i, h3⟩
    | wake f =>
      right
      simp only [State.step]
      split
      · refine ⟨h1, h2, i, ?_⟩
        by_cases hf : f = .there i
        · simp [hf]
        · have := (List.mem_erase_of_ne (Ne.symm hf) (l := s.waiting)).mpr
          simp only [List.mem_append] at h3 ⊢
          rcases h3 with h3 | h3
          · exact Or.inl (Or.inl h3)
          · exact Or.inr (this h3)
      · exact ⟨h1, h2, i, h3⟩
    | poll o =>
      cases hr : s.ready with
      | nil => right; simp only [State.step, h1, hr]; rw [hr] at h3; exact ⟨trivial, h2, i, h3⟩
      | cons f rest =>
        rw [hr] at h3
        simp only [State.step, h1, hr]
        cases f with
        | there j => left; simp [State.poll, h2]
        | here j =>
          right
          have : .there i ∈ rest ++ s.waiting := by simpa using h3
          refine ⟨?_, ?_, i, ?_⟩ <;> cases o <;> simp [State.poll, h1, h2] <;> simp at this <;> rcases this with h | h <;> simp [h]
        | asked j =>
          have : .there i ∈ rest ++ s.waiting := by simpa using h3
          cases o with
          | dropped => left; simp [State.poll, h2]
          | _ =>
            right
            refine ⟨?_, ?_, i, ?_⟩ <;> simp [State.poll, h1, h2] <;> simp at this <;> rcases this with h | h <;> simp [h]

/-- **C93** Exactly which tasks can still get to their end: those that have not ended by a panic, if the swarm has not ended,
or the node was never bootstrapped, or for each link to another node the command has been sent. All others never do,
whatever happens. -/
theorem can_end_iff (links : List Link) (boot : Option Bool) (ops : List Op) :
    (∃ more, (run links boot (ops ++ more)).phase = .over) ↔
    (run links boot ops).phase ≠ .crashed ∧
      ((boot = some true ∧ .swarmEnds ∉ ops) ∨ boot = none ∨
        ∀ i, (run links boot ops).asked.count i = links.count (.there i)) := by
  have happ : ∀ more, run links boot (ops ++ more) = more.foldl State.step (run links boot ops) := fun l => by simp [run]
  have hi := inv_run links boot ops
  have hsw := swarm_run links boot ops
  simp only [happ]
  generalize run links boot ops = s at *
  have left0 : s.phase ≠ .crashed → (boot = none ∨ ∀ i, s.asked.count i = links.count (.there i)) →
      ∀ i, .there i ∉ s.ready ++ s.waiting := by
    intro hnc h i hm
    have h1 := hi.there hnc i
    have h2 : 0 < s.ready.count (.there i) + s.waiting.count (.there i) := by
      rw [← List.count_append]; exact List.count_pos_iff.mpr hm
    rcases h with h | h
    · simp [h] at h1; omega
    · have := h i
      split at h1 <;> omega
  constructor
  · rintro ⟨more, hm⟩
    have hns : ¬ Stuck s := by
      intro hs
      have : ∀ (more : List Op) (s : State), Stuck s → Stuck (more.foldl State.step s) := by
        intro more
        induction more with
        | nil => exact fun _ h => h
        | cons op more ih => exact fun s h => ih _ (stuck_step h op)
      rcases this more s hs with h | ⟨h, _⟩ <;> rw [hm] at h <;> cases h
    have hnc : s.phase ≠ .crashed := fun h => hns (Or.inl h)
    refine ⟨hnc, ?_⟩
    by_cases hs : s.swarm = true
    · exact Or.inl (hsw.mp hs)
    · right
      by_cases hb : boot = none
      · exact Or.inl hb
      · right
        intro i
        have h1 := hi.there hnc i
        simp only [hb, if_false] at h1
        have h2 : ∀ i, .there i ∉ s.ready ++ s.waiting := by
          intro i hm
          cases hp : s.phase with
          | telling => exact hns (Or.inr ⟨hp, by simpa using hs, i, hm⟩)
          | crashed => exact hnc hp
          | unlisted => have := hi.empty (.inl hp); simp [this] at hm
          | over => have := hi.empty (.inr hp); simp [this] at hm
        have h3 : s.ready.count (.there i) + s.waiting.count (.there i) = 0 := by
          rw [← List.count_append]; exact List.count_eq_zero.mpr (h2 i)
        omega
  · rintro ⟨hnc, h⟩
    obtain ⟨more, _, h1, _⟩ := can_finish s hnc (fun i hm => by
      rcases h with h | h
      · exact hsw.mpr h
      · exact absurd hm (left0 hnc h i)) (fun _ => false)
    exact ⟨more, h1⟩

/-- The swarm ends before the command was sent, and after. -/
example : (run [.here 1, .there 2] (some true) [.poll .full, .swarmEnds]).phase = .telling ∧
    (run [.here 1, .there 2] (some true) [.poll .full, .swarmEnds]).asked = [] ∧
    (run [.here 1, .there 2] (some true) [.poll .full, .poll .room, .swarmEnds]).asked = [2] ∧
    (run [.here 1, .there 2] (some true) [.poll .full, .poll .room, .swarmEnds, .wake (.asked 2), .poll .answered,
      .wake (.here 1), .poll .room, .unlist, .publish]).phase = .over := by decide

end Verif.Boot.Ending
