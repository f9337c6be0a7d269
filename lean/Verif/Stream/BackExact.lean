import Verif.Stream.Outcome

/-
C94, exactly: with the actor gone, from which states of the task the stream can still come back, and from which it is sure to.
-/

namespace Verif.Stream

open Verif.Lifecycle

/-- The task does not give the stream back, and nothing it does can still make it. -/
structure Lost (s : St) : Prop where
  failing : Failing s
  selecting : s.task ≠ .selecting
  back : s.task ≠ .returned true

theorem env_task (s : St) (op : Lifecycle.Op) : (s.step (.env op)).task = s.task := by
  cases op <;> simp only [St.step] <;> (try split) <;> rfl

theorem lost_step {s : St} (hi : Inv s) (hc : s.a.mb.closed = true) (h : Lost s) (op : Op) : Lost (s.step op) := by
  obtain ⟨a, b, c⟩ := h
  cases op with
  | env op =>
    refine ⟨fun t m e => ?_, by rw [env_task]; exact b, by rw [env_task]; exact c⟩
    rw [env_task] at e
    exact failed_mem_step _ (a t m e)
  | start =>
    simp only [St.step]
    split
    · exact ⟨failing_send hc _, by simp [St.send], by simp [St.send]⟩
    · exact ⟨a, b, c⟩
  | yield x =>
    simp only [St.step]
    exact ⟨a, b, c⟩
  | endOfStream =>
    simp only [St.step]
    exact ⟨a, b, c⟩
  | seeShutdown =>
    simp only [St.step]
    exact ⟨a, b, c⟩
  | advance =>
    simp only [St.step]
    split
    · rename_i t m e
      rw [if_neg (not_both hi (a t m e)), if_pos (a t m e)]
      exact ⟨by intro t m e; simp at e, by simp, by simp⟩
    · exact ⟨a, b, c⟩
  | abort =>
    simp only [St.step]
    split
    · exact ⟨by intro t m e; simp at e, by simp, by simp⟩
    · exact ⟨a, b, c⟩
    · exact ⟨by intro t m e; simp at e, by simp, by simp⟩

theorem lost_run (post : List Op) {s : St} (hi : Inv s) (hc : s.a.mb.closed = true) (h : Lost s) :
    Lost (post.foldl St.step s) := by
  induction post generalizing s with
  | nil => exact h
  | cons op post ih => exact ih (inv_step hi op) (closed_step hc op) (lost_step hi hc h op)

/-- **C94** (exactly when it can). With the actor gone, the stream can still come back if and only if it has, or the task is
waiting in `select!`, or the send it is in was accepted before the end. A task that has not been polled yet, or waits for
room, or has seen its error, or was aborted, has lost it. -/
theorem can_come_back_iff (cap : Option Nat) (before : List Lifecycle.Op) (ops : List Op)
    (hc : (after cap before ops).a.mb.closed = true) :
    (∃ post, (after cap before (ops ++ post)).task = .returned true) ↔
      (after cap before ops).task = .returned true ∨ (after cap before ops).task = .selecting ∨
        ∃ t m, (after cap before ops).task = .sending t m ∧ t ∈ (after cap before ops).a.mb.pushed.map (·.1) := by
  simp only [after_append]
  have hi := inv_after cap before ops
  generalize after cap before ops = s at *
  constructor
  · rintro ⟨post, hp⟩
    refine Classical.byContradiction fun hn => ?_
    refine (lost_run post hi hc ⟨fun t m e => ?_, fun e => hn (.inr (.inl e)), fun e => hn (.inl e)⟩).back hp
    exact (decided hi hc e).resolve_left fun h => hn (.inr (.inr ⟨t, m, e, h⟩))
  · rintro (h | h | ⟨t, m, h, hp⟩)
    · exact ⟨[], h⟩
    · exact ⟨[.seeShutdown], by simp [St.step, h, hc]⟩
    · refine ⟨[.advance, .seeShutdown], ?_⟩
      simp only [List.foldl, St.step, h, hp, if_true]
      by_cases hm : m = .finished <;> simp [hm, hc]

/-- The actor is killed and ends. -/
private def killed' : List Op := [.env .kill, .env .pollEnd, .env (.stopEnd .ok), .env .finish]

/-- Waiting in `select!`, or with a message that was accepted; and waiting for room, or not polled yet. -/
example :
    let back (s : St) : Prop := s.task = .returned true ∨ s.task = .selecting ∨
      ∃ t m, s.task = .sending t m ∧ t ∈ s.a.mb.pushed.map (·.1)
    back (after none startedDemo ([.start, .advance, .yield 5, .advance] ++ killed')) ∧
    back (after none startedDemo ([.start, .advance, .yield 5] ++ killed')) ∧
    ¬ back (after (some 1) startedDemo ([.start, .advance, .yield 5] ++ killed')) ∧
    ¬ back (after none startedDemo killed') := by
  refine ⟨.inr (.inl (by decide)), .inr (.inr ⟨2, .next 5, by decide⟩), ?_, ?_⟩
  · rintro (h | h | ⟨t, m, h, h'⟩)
    · revert h; decide
    · revert h; decide
    · have e : (after (some 1) startedDemo ([.start, .advance, .yield 5] ++ killed')).task = .sending 2 (.next 5) := by decide
      rw [e] at h; cases h
      revert h'; decide
  · rintro (h | h | ⟨t, m, h, -⟩)
    · revert h; decide
    · revert h; decide
    · have e : (after none startedDemo killed').task = .fresh := by decide
      rw [e] at h; cases h

/-- The task has given the stream back, or only has to see that the actor took the last message of all. -/
def Sure (s : St) : Prop :=
  s.task = .returned true ∨ ∃ t, s.task = .sending t .finished ∧ t ∈ s.a.mb.pushed.map (·.1)

theorem pushed_mem_step {s : St} (op : Op) {t : Nat} (h : t ∈ s.a.mb.pushed.map (·.1)) :
    t ∈ (s.step op).a.mb.pushed.map (·.1) := by
  obtain ⟨mops, hm⟩ := mb_step s op
  rw [hm]
  exact ((run_pushed s.a.mb mops).map _).subset h

theorem sure_step {s : St} (h : Sure s) (op : Op) (ho : op ≠ .abort) : Sure (s.step op) := by
  rcases h with h | ⟨t, h, hp⟩
  · left
    cases op with
    | env op => rw [env_task]; exact h
    | abort => exact absurd rfl ho
    | _ => simp [St.step, h]
  · cases op with
    | env op => exact .inr ⟨t, by rw [env_task]; exact h, pushed_mem_step _ hp⟩
    | abort => exact absurd rfl ho
    | advance => left; simp [St.step, h, hp]
    | _ => right; refine ⟨t, ?_, ?_⟩ <;> simp [St.step, h] <;> simpa using hp

/-- **C94** (exactly when it is sure to). With the actor gone, the stream comes back however the task goes on, as long as
nobody aborts it, if and only if it has come back already, or nothing is left in it: the task has taken everything, and the
actor accepted the last message. In all other cases a stream that has more to give may be dropped. -/
theorem sure_to_come_back_iff (cap : Option Nat) (before : List Lifecycle.Op) (ops : List Op)
    (hc : (after cap before ops).a.mb.closed = true) :
    (∀ post, Op.abort ∉ post → (after cap before (ops ++ post)).over → (after cap before (ops ++ post)).task = .returned true) ∧
        (after cap before ops).task ≠ .cancelled ↔
      (after cap before ops).task = .returned true ∨
        ∃ t, (after cap before ops).task = .sending t .finished ∧ t ∈ (after cap before ops).a.mb.pushed.map (·.1) := by
  have hback := given_back_by_chance cap before
  have happ := after_append cap before ops
  have hi := inv_after cap before ops
  constructor
  · rintro ⟨h, hn⟩
    refine Classical.byContradiction fun hns => ?_
    -- a schedule that loses the stream
    have hsel : ∀ pre, Op.abort ∉ pre → (after cap before (ops ++ pre)).task = .selecting →
        (after cap before (ops ++ pre)).a.mb.closed = true → False := by
      intro pre hp ht hcl
      have h2 := (hback (ops ++ pre) 0 hcl ht).2
      have := h (pre ++ [.yield 0, .advance]) (by simp [hp]) (by
        rw [← List.append_assoc]; exact .inl ⟨false, h2⟩)
      rw [← List.append_assoc, h2] at this
      cases this
    have hlost : ∀ pre, Op.abort ∉ pre → (after cap before (ops ++ pre)).task = .returned false → False := by
      intro pre hp ht
      have := h pre hp (.inl ⟨false, ht⟩)
      rw [ht] at this; cases this
    cases ht : (after cap before ops).task with
    | cancelled => exact hn ht
    | selecting => exact hsel [] (by simp) (by simpa using ht) (by simpa using hc)
    | returned ok =>
      cases ok with
      | true => exact hns (.inl ht)
      | false => exact hlost [] (by simp) (by simpa using ht)
    | fresh =>
      refine hlost [.start, .advance] (by simp) ?_
      rw [happ]
      generalize after cap before ops = s at *
      have hf := failing_send hc .started
      have e : s.step .start = s.send .started := by simp [St.step, ht]
      have hi' := inv_step hi .start
      rw [e] at hi'
      have ht' : (s.send .started).task = .sending s.a.mb.next .started := rfl
      simp only [List.foldl, e]
      generalize s.send .started = s' at *
      simp only [St.step, ht']
      rw [if_neg (not_both hi' (hf _ _ ht')), if_pos (hf _ _ ht')]
    | sending t m =>
      rcases decided hi hc ht with hp | hf
      · by_cases hm : m = .finished
        · subst hm; exact hns (.inr ⟨t, ht, hp⟩)
        · refine hsel [.advance] (by simp) ?_ ?_
          · rw [happ]; simp [St.step, ht, hp, hm]
          · rw [happ]; exact closed_step hc .advance
      · refine hlost [.advance] (by simp) ?_
        rw [happ]
        simp only [List.foldl, St.step, ht]
        rw [if_neg (not_both hi hf), if_pos hf]
  · intro h
    refine ⟨fun post hp hov => ?_, ?_⟩
    · rw [happ] at hov ⊢
      have hs : Sure (after cap before ops) := h
      generalize after cap before ops = s at hs hov ⊢
      clear happ hback hi hc h
      induction post generalizing s with
      | nil =>
        rcases hs with hs | ⟨t, hs, -⟩
        · exact hs
        · rcases hov with ⟨ok, e⟩ | e <;> simp [hs] at e
      | cons op post ih =>
        simp only [List.mem_cons, not_or] at hp
        exact ih hp.2 _ (sure_step hs op (Ne.symm hp.1)) hov
    · rcases h with h | ⟨t, h, -⟩ <;> simp [h]

/-- The stream has ended, and the actor stops with its last message accepted. -/
example : let s := after none startedDemo ([.start, .advance, .endOfStream] ++ killed')
    s.a.mb.closed = true ∧ s.task = .sending 2 .finished ∧ 2 ∈ s.a.mb.pushed.map (·.1) := by decide

end Verif.Stream
