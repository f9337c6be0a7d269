import Verif.Current.Model

namespace Verif.Current

/-- Specification: whose code is this? The innermost actor, unless a task started by that actor is
in between. -/
def owner : Stack → Option Nat
  | [] => none
  | .actor a :: _ => some a
  | .task :: _ => none
  | .scope _ :: st => owner st

theorem after_snoc (ops : List Op) (op : Op) : after (ops ++ [op]) = (after ops).step op := by
  simp [after]

theorem after_induct {P : St → Prop} (h0 : P {}) (hs : ∀ s op, P s → P (s.step op)) (ops : List Op) : P (after ops) := by
  suffices h : ∀ s, P s → P (ops.foldl St.step s) from h _ h0
  induction ops with
  | nil => exact fun _ h => h
  | cons op ops ih => exact fun s h => ih _ (hs s op h)

/-- A property of stacks that holds of all the ways to make one holds of every activity. -/
theorem places_induct {P : Stack → Prop} (h0 : P []) (h1 : P [.task]) (h2 : ∀ a, P [.actor a, .scope a, .task])
    (h3 : ∀ a st, P st → P (.actor a :: st)) (h4 : ∀ st, P st → P (.task :: st)) (ops : List Op) :
    ∀ st ∈ (after ops).places, P st := by
  refine after_induct (P := fun s => ∀ st ∈ s.places, P st) ?_ ?_ ops
  · intro st h
    simp only [List.mem_singleton] at h
    subst h
    exact h0
  · intro s op ih
    cases op <;> simp only [St.step] <;> split <;> try exact ih
    all_goals
      rename_i st0 hst
      intro st h
      rcases List.mem_append.mp h with h | h
      · exact ih st h
      · simp only [List.mem_singleton] at h
        subst h
        first
          | exact h1
          | exact h2 _
          | exact h3 _ _ (ih _ (List.mem_of_getElem? hst))
          | exact h4 _ (ih _ (List.mem_of_getElem? hst))

/-- **C55** A message counts as sent from within actor `b` only if it is sent by code that `b` is polling:
`b` was started by a spawn and is running further out on the same stack. Code of a task or actor that was
started by a spawn of its own never counts as `b`'s. This holds for all nestings of tasks and actors. -/
theorem current_is_enclosing (ops : List Op) (st : Stack) (h : st ∈ (after ops).places) (b : Nat)
    (hc : isCurrent st b = true) : ∃ pre, st = pre ++ [.actor b, .scope b, .task] := by
  revert h hc
  suffices h : ∀ st ∈ (after ops).places, isCurrent st b = true → ∃ pre, st = pre ++ [.actor b, .scope b, .task] from
    fun hm hc => h st hm hc
  refine places_induct (P := fun st => isCurrent st b = true → ∃ pre, st = pre ++ [.actor b, .scope b, .task])
    ?_ ?_ ?_ ?_ ?_ ops
  · simp [isCurrent, current]
  · simp [isCurrent, current]
  · intro a h
    simp only [isCurrent, current, beq_iff_eq] at h
    subst h
    exact ⟨[], rfl⟩
  · intro a st ih h
    obtain ⟨pre, rfl⟩ := ih (by simpa [isCurrent, current] using h)
    exact ⟨_ :: pre, rfl⟩
  · intro st ih h
    obtain ⟨pre, rfl⟩ := ih (by simpa [isCurrent, current] using h)
    exact ⟨_ :: pre, rfl⟩

/-- Actor 1, run in place by actor 0, counts as actor 0. -/
example : [.actor 1, .actor 0, .scope 0, .task] ∈ (after [.spawnActor 0, .runActor 1]).places ∧
    isCurrent [.actor 1, .actor 0, .scope 0, .task] 0 = true := by decide

/-- The operations that start every actor by a spawn and every task at the runtime. -/
def Spawned (ops : List Op) : Prop := ∀ op ∈ ops, (∃ i, op = .spawnTask i) ∨ (∃ i, op = .spawnActor i)

/-- **C55** If every actor is started by one of the spawn functions, and tasks are given to the runtime, then
a message counts as sent from within actor `b` iff it is sent by code of `b` in `b`'s own task.

Missing for the full claim: actors run by `PreparedActor::run` (`self_send_not_recognised`,
`other_actor_counts_as_self`) and tasks polled inside a handler (`local_task_counts_as_self`). -/
theorem current_iff_owner_partial (ops : List Op) (hs : Spawned ops) (st : Stack) (h : st ∈ (after ops).places)
    (b : Nat) : isCurrent st b = true ↔ owner st = some b := by
  have key : ∀ ops : List Op, Spawned ops → ∀ st ∈ (after ops).places,
      st = [] ∨ st = [.task] ∨ ∃ a, st = [.actor a, .scope a, .task] := by
    intro ops hs
    suffices hh : ∀ (ops : List Op), Spawned ops → ∀ s : St,
        (∀ st ∈ s.places, st = [] ∨ st = [.task] ∨ ∃ a, st = [.actor a, .scope a, .task]) →
        ∀ st ∈ (ops.foldl St.step s).places, st = [] ∨ st = [.task] ∨ ∃ a, st = [.actor a, .scope a, .task] from
      hh ops hs {} (by simp)
    intro ops
    induction ops with
    | nil => exact fun _ _ h => h
    | cons op ops ih =>
      intro hs s h
      refine ih (fun o ho => hs o (List.mem_cons_of_mem _ ho)) _ ?_
      rcases hs op List.mem_cons_self with ⟨i, rfl⟩ | ⟨i, rfl⟩ <;> simp only [St.step] <;> split <;> try exact h
      all_goals
        intro st hst
        rcases List.mem_append.mp hst with hst | hst
        · exact h st hst
        · simp only [List.mem_singleton] at hst
          subst hst
          simp
  rcases key ops hs st h with rfl | rfl | ⟨a, rfl⟩ <;> simp [isCurrent, current, owner]

/-- Two actors and a task of the first: only an actor's own code is its own. -/
example : Spawned [.spawnActor 0, .spawnActor 1, .spawnTask 1] ∧
    (after [.spawnActor 0, .spawnActor 1, .spawnTask 1]).places.map (fun st => isCurrent st 0) = [false, true, false, false] ∧
    (after [.spawnActor 0, .spawnActor 1, .spawnTask 1]).places.map (fun st => isCurrent st 1) = [false, false, true, false] :=
  ⟨by simp [Spawned], by decide, by decide⟩

/-- **C55** With any mix of tasks and actors, code of an actor started by a spawn recognises itself, as do
the actors inside it that were run in place. In particular an actor started by a spawn always recognises
its own sends. -/
theorem spawned_actor_recognises_itself (ops : List Op) (i : Nat) (h : i < (after ops).places.length) :
    ∃ st, (after (ops ++ [.spawnActor i])).places.getLast? = some st ∧
      owner st = some (after ops).next ∧ isCurrent st (after ops).next = true := by
  rw [after_snoc]
  simp only [St.step, List.getElem?_eq_getElem h]
  exact ⟨_, List.getLast?_concat, rfl, by simp [isCurrent, current]⟩

/-- Actor 1 spawned from within actor 0. -/
example : (after [.spawnActor 0, .spawnActor 1]).places.getLast? = some [.actor 1, .scope 1, .task] ∧
    isCurrent [.actor 1, .scope 1, .task] 1 = true := by decide

/-- **C55** (ids) The id of an actor that is started is that of no other: no code that runs so far runs in an actor with
that id, or in its scope. -/
theorem new_id_fresh (ops : List Op) : ∀ st ∈ (after ops).places,
    .actor (after ops).next ∉ st ∧ .scope (after ops).next ∉ st := by
  have hlt : ∀ st ∈ (after ops).places, ∀ a, (Frame.actor a ∈ st ∨ Frame.scope a ∈ st) → a < (after ops).next := by
    refine after_induct (P := fun s => ∀ st ∈ s.places, ∀ a, (Frame.actor a ∈ st ∨ Frame.scope a ∈ st) → a < s.next)
      ?_ ?_ ops
    · simp
    · intro s op ih
      cases op <;> simp only [St.step] <;> split <;> try exact ih
      all_goals
        rename_i st0 hst
        intro st h a ha
        rcases List.mem_append.mp h with h | h
        · have := ih st h a ha
          simp only
          omega
        · simp only [List.mem_singleton] at h
          subst h
          have hih := ih _ (List.mem_of_getElem? hst) a
          simp only [List.mem_cons, List.not_mem_nil, or_false, false_or, Frame.scope.injEq, Frame.actor.injEq,
            reduceCtorEq, or_assoc] at ha <;>
          first
            | (simp only; omega)
            | (have := hih ha; simp only; omega)
            | (rcases ha with ha | ha
               · simp only; omega
               · have := hih ha; simp only; omega)
  exact fun st h => ⟨fun ha => absurd (hlt st h _ (.inl ha)) (Nat.lt_irrefl _),
    fun ha => absurd (hlt st h _ (.inr ha)) (Nat.lt_irrefl _)⟩

/-- Actor 1 run in place by actor 0: the next one is actor 2. -/
example : (after [.spawnActor 0, .runActor 1]).next = 2 ∧
    (after [.spawnActor 0, .runActor 1]).places = [[], [.actor 0, .scope 0, .task], [.actor 1, .actor 0, .scope 0, .task]] := by
  decide

/-- The claim of C55 at full strength. -/
def Recognition : Prop :=
  ∀ ops : List Op, ∀ st ∈ (after ops).places, ∀ b, isCurrent st b = true ↔ owner st = some b

/-- **C55** fails for actors run in place: whoever runs an actor with `PreparedActor::run`, the actor's own
code never recognises the actor's own sends. -/
theorem self_send_not_recognised (ops : List Op) (i : Nat) (h : i < (after ops).places.length) :
    ∃ st, (after (ops ++ [.runActor i])).places.getLast? = some st ∧
      owner st = some (after ops).next ∧ isCurrent st (after ops).next = false := by
  have hlt : ∀ st ∈ (after ops).places, ∀ a, Frame.scope a ∈ st → a < (after ops).next := by
    refine after_induct (P := fun s => ∀ st ∈ s.places, ∀ a, Frame.scope a ∈ st → a < s.next) ?_ ?_ ops
    · simp
    · intro s op ih
      cases op <;> simp only [St.step] <;> split <;> try exact ih
      all_goals
        rename_i st0 hst
        intro st h a ha
        rcases List.mem_append.mp h with h | h
        · have := ih st h a ha
          simp only
          omega
        · simp only [List.mem_singleton] at h
          subst h
          have hih := ih _ (List.mem_of_getElem? hst) a
          simp only [List.mem_cons, List.not_mem_nil, or_false, false_or, Frame.scope.injEq, reduceCtorEq] at ha <;>
            first
              | (simp only; omega)
              | (have := hih ha; simp only; omega)
  have hcur : ∀ (st : Stack) a, current st = some a → Frame.scope a ∈ st := by
    intro st
    induction st with
    | nil => simp [current]
    | cons f st ih =>
      intro a h
      cases f with
      | scope b =>
        simp only [current, Option.some.injEq] at h
        simp [h]
      | task => exact List.mem_cons_of_mem _ (ih a h)
      | actor b => exact List.mem_cons_of_mem _ (ih a h)
  rw [after_snoc]
  simp only [St.step, List.getElem?_eq_getElem h]
  refine ⟨_, List.getLast?_concat, rfl, ?_⟩
  simp only [isCurrent, current]
  split
  · rename_i b hb
    have h1 := hlt _ (List.getElem_mem h) b (hcur _ _ hb)
    simp only [beq_eq_false_iff_ne]
    omega
  · rfl

/-- Actor 1 run in place by actor 0. -/
example : (after [.spawnActor 0, .runActor 1]).places.getLast? = some [.actor 1, .actor 0, .scope 0, .task] ∧
    isCurrent [.actor 1, .actor 0, .scope 0, .task] 1 = false := by decide

/-- **C55** fails for other actors: actor 0 was spawned and runs actor 1 in place; a message of actor 1 to
actor 0 counts as sent by actor 0 itself. -/
theorem other_actor_counts_as_self : ∃ ops st, st ∈ (after ops).places ∧ owner st = some 1 ∧ isCurrent st 0 = true :=
  ⟨[.spawnActor 0, .runActor 1], [.actor 1, .actor 0, .scope 0, .task], by decide, by decide, by decide⟩

/-- **C55** fails for tasks polled inside a handler: actor 0 polls a local task; a message of that task to
actor 0 counts as sent by actor 0 itself. -/
theorem local_task_counts_as_self : ∃ ops st, st ∈ (after ops).places ∧ owner st = none ∧ isCurrent st 0 = true :=
  ⟨[.spawnActor 0, .pollLocal 1], [.task, .actor 0, .scope 0, .task], by decide, by decide, by decide⟩

/-- **C55** What the code does recognise, exactly: a message counts as sent from within actor `b` iff it is sent by code
that `b`, started by a spawn, is polling, whatever tasks and actors are in between. -/
theorem current_iff_enclosing (ops : List Op) (st : Stack) (h : st ∈ (after ops).places) (b : Nat) :
    isCurrent st b = true ↔ ∃ pre, st = pre ++ [.actor b, .scope b, .task] := by
  refine ⟨current_is_enclosing ops st h b, ?_⟩
  revert h
  suffices h : ∀ st ∈ (after ops).places, (∃ pre, st = pre ++ [.actor b, .scope b, .task]) → isCurrent st b = true from
    fun hm hc => h st hm hc
  refine places_induct (P := fun st => (∃ pre, st = pre ++ [.actor b, .scope b, .task]) → isCurrent st b = true)
    ?_ ?_ ?_ ?_ ?_ ops
  · rintro ⟨pre, h⟩
    simp at h
  · rintro ⟨pre, h⟩
    have := congrArg List.length h
    simp at this
  · rintro a ⟨pre, h⟩
    cases pre with
    | nil =>
      simp only [List.nil_append, List.cons.injEq, Frame.actor.injEq] at h
      simp [isCurrent, current, h.1]
    | cons x xs =>
      have := congrArg List.length h
      simp at this
  · rintro a st ih ⟨pre, h⟩
    cases pre with
    | nil =>
      simp only [List.nil_append, List.cons.injEq, Frame.actor.injEq] at h
      rw [h.2]
      simp [isCurrent, current]
    | cons x xs =>
      simp only [List.cons_append, List.cons.injEq] at h
      simpa [isCurrent, current] using ih ⟨xs, h.2⟩
  · rintro st ih ⟨pre, h⟩
    cases pre with
    | nil => simp at h
    | cons x xs =>
      simp only [List.cons_append, List.cons.injEq] at h
      simpa [isCurrent, current] using ih ⟨xs, h.2⟩

/-- **C55 is false** wherever code of a spawned actor `b` (or code that counts as `b`'s) runs another actor in place or
polls a local task: messages of that actor, which has an id of its own, and of that task, which is nobody's code, count as
sent by `b` itself. -/
theorem inner_counts_as_outer (ops : List Op) (i : Nat) (st : Stack) (hi : (after ops).places[i]? = some st) (b : Nat)
    (hb : isCurrent st b = true) :
    (∃ a, a ≠ b ∧ .actor a :: st ∈ (after (ops ++ [.runActor i])).places ∧ owner (.actor a :: st) = some a ∧
      isCurrent (.actor a :: st) b = true) ∧
    (.task :: st ∈ (after (ops ++ [.pollLocal i])).places ∧ owner (.task :: st) = none ∧
      isCurrent (.task :: st) b = true) := by
  obtain ⟨pre, hpre⟩ := current_is_enclosing ops st (List.mem_of_getElem? hi) b hb
  refine ⟨⟨(after ops).next, ?_, ?_, rfl, by simpa [isCurrent, current] using hb⟩, ?_, rfl,
    by simpa [isCurrent, current] using hb⟩
  · have := (new_id_fresh ops st (List.mem_of_getElem? hi)).1
    rintro rfl
    exact this (by rw [hpre]; simp)
  · rw [after_snoc]; simp [St.step, hi]
  · rw [after_snoc]; simp [St.step, hi]

example : (after [.spawnActor 0]).places[1]? = some [.actor 0, .scope 0, .task] ∧
    isCurrent [.actor 0, .scope 0, .task] 0 = true := by decide

/-- **C55** at full strength does not hold. -/
theorem recognition_fails : ¬ Recognition := by
  intro h
  have := h [.spawnActor 0, .runActor 1] [.actor 1, .actor 0, .scope 0, .task] (by decide) 0
  exact absurd (this.mp (by decide)) (by decide)

end Verif.Current
