import Verif.Stream.Props

/-
What becomes of an attached stream and of its task when the actor stops: C94. `src/actor/actor_ref.rs` L783-811.
-/

namespace Verif.Stream

open Verif.Lifecycle Verif.Mailbox

/-- The task has returned or was aborted. -/
def St.over (s : St) : Prop := (∃ ok, s.task = .returned ok) ∨ s.task = .cancelled

/-! ### Failed sends -/

/-- A send that has begun fails for no other reason than that the receiver is gone, unless it is given up; and what failed
has failed. -/
theorem why_step (m : Mb Sig) (op : Mailbox.Op Sig) {t : Nat} (ht : t < m.next) (hc : op ≠ .cancel t) :
    (∀ x ∈ m.failed, x ∈ (m.step op).failed) ∧
    (∀ sg w, (t, sg, w) ∈ (m.step op).failed → (t, sg, w) ∈ m.failed ∨ w = .closed) := by
  cases op with
  | send a =>
    simp only [Mb.step, Mb.send, Mb.bump, Mb.push]
    (repeat' split) <;> simp_all <;> grind
  | trySend a =>
    simp only [Mb.step, Mb.trySend, Mb.bump, Mb.push]
    (repeat' split) <;> simp_all <;> grind
  | poll u =>
    simp only [Mb.step, Mb.poll, Mb.push]
    split <;> simp_all
  | cancel u =>
    have : u ≠ t := fun h => hc (by rw [h])
    simp only [Mb.step, Mb.cancel, Mb.release]
    (repeat' split) <;> simp_all <;> grind
  | recv =>
    simp only [Mb.step, Mb.recv, Mb.release]
    (repeat' split) <;> simp_all
  | close =>
    simp only [Mb.step, Mb.close]
    grind

theorem why_run {t : Nat} : ∀ (mops : List (Mailbox.Op Sig)) (m : Mb Sig), t < m.next → .cancel t ∉ mops →
    (∀ x ∈ m.failed, x ∈ (m.run mops).failed) ∧
    (∀ sg w, (t, sg, w) ∈ (m.run mops).failed → (t, sg, w) ∈ m.failed ∨ w = .closed) := by
  intro mops
  induction mops with
  | nil => exact fun m _ _ => ⟨fun _ h => h, fun _ _ h => .inl h⟩
  | cons o os ih =>
    intro m ht hc
    have hn := (failed_step m o ht (fun h => hc (by simp [h]))).1
    obtain ⟨h1, h2⟩ := why_step m o ht (fun h => hc (by simp [h]))
    obtain ⟨h3, h4⟩ := ih (m.step o) (by omega) (fun h => hc (List.mem_cons_of_mem _ h))
    refine ⟨fun x hx => h3 x (h1 x hx), fun sg w h => ?_⟩
    rcases h4 sg w h with h | h
    · exact h2 sg w h
    · exact .inr h

/-- What failed has failed. -/
theorem failed_stays : ∀ (mops : List (Mailbox.Op Sig)) (m : Mb Sig), ∀ x ∈ m.failed, x ∈ (m.run mops).failed := by
  intro mops
  induction mops with
  | nil => exact fun m _ h => h
  | cons o os ih =>
    intro m x hx
    refine ih (m.step o) x ?_
    cases o <;> simp only [Mb.step, Mb.send, Mb.trySend, Mb.poll, Mb.cancel, Mb.recv, Mb.close, Mb.release, Mb.bump, Mb.push] <;>
      (repeat' split) <;> simp_all

/-- What is known of the send under way, and of the one that failed. -/
structure Out (s : St) : Prop where
  last : ∀ t m, s.task = .sending t m → s.sends.getLast? = some (t, m) ∧ t < s.a.mb.next ∧
    ∀ sg w, (t, sg, w) ∈ s.a.mb.failed → w = .closed
  back : s.task = .returned false → ∃ t m, s.sends.getLast? = some (t, m) ∧ (t, Sig.msg m.body, Why.closed) ∈ s.a.mb.failed

theorem out_send {s : St} (h : Inv s) (m : SMsg) : Out (s.send m) := by
  refine ⟨?_, by simp [St.send]⟩
  intro t m' e
  simp only [St.send, Task.sending.injEq] at e
  obtain ⟨rfl, rfl⟩ := e
  have hno : s.a.mb.next ∉ s.a.mb.failed.map (·.1) := by
    intro hm
    obtain ⟨f, hf, he⟩ := List.mem_map.mp hm
    have := h.shape.mb.sent_lt _ (h.shape.mb.mem_sent (p := unwhy f) (by simp; exact .inr (.inr (.inr ⟨_, _, _, hf, rfl⟩))))
    simp only [unwhy] at this
    omega
  refine ⟨by simp [St.send], ?_, ?_⟩
  · simp only [St.send, Lifecycle.St.step, Mb.send, Mb.bump, Mb.push]
    (repeat' split) <;> simp
  · intro sg w
    simp only [St.send, Lifecycle.St.step, Mb.send, Mb.bump, Mb.push]
    (repeat' split) <;> simp_all
    all_goals grind

theorem out_env {s : St} (hi : Inv s) (h : Out s) (op : Lifecycle.Op) (hc : ∀ t ∈ s.sends.map (·.1), op ≠ .cancel t) :
    Out { s with a := s.a.step op } := by
  obtain ⟨mops, hm, hq⟩ := step_mb_cancel s.a op
  refine ⟨?_, ?_⟩
  · intro t m e
    obtain ⟨h1, h2, h3⟩ := h.last t m e
    have ht : t ∈ s.sends.map (·.1) := List.mem_map_of_mem (hi.last t m e).2
    have hnc : .cancel t ∉ mops := fun hh => hc t ht (hq t hh)
    have h4 := (failed_run mops s.a.mb h2 hnc).1
    have h5 := (why_run mops s.a.mb h2 hnc).2
    dsimp only
    rw [hm]
    exact ⟨h1, by omega, fun sg w hf => (h5 sg w hf).elim (h3 sg w) id⟩
  · intro e
    obtain ⟨t, m, h1, h2⟩ := h.back e
    refine ⟨t, m, h1, ?_⟩
    dsimp only
    rw [hm]
    exact failed_stays _ _ _ h2

theorem out_step {s : St} (hi : Inv s) (h : Out s) (op : Op) : Out (s.step op) := by
  cases op with
  | env op =>
    by_cases hc : ∃ t ∈ s.sends.map (·.1), op = .cancel t
    · obtain ⟨t, ht, rfl⟩ := hc
      simp only [St.step, if_pos ht]
      exact h
    · have := out_env hi h op (fun t ht he => hc ⟨t, ht, he⟩)
      cases op <;> simp only [St.step] <;> (try split) <;> first | exact this | exact h
  | start => simp only [St.step]; split <;> first | exact out_send hi _ | exact h
  | yield x =>
    simp only [St.step]
    split
    · exact ⟨(out_send hi (.next x)).last, by simp [St.send]⟩
    · exact h
  | endOfStream =>
    simp only [St.step]
    split
    · exact ⟨(out_send hi .finished).last, by simp [St.send]⟩
    · exact h
  | seeShutdown =>
    simp only [St.step]
    split
    · split
      · exact ⟨by simp, by simp⟩
      · exact h
    · exact h
  | advance =>
    simp only [St.step]
    split
    · rename_i t m e
      obtain ⟨h1, h2, h3⟩ := h.last t m e
      split
      · refine ⟨?_, ?_⟩ <;> dsimp only <;> split <;> simp
      · split
        · rename_i hf
          refine ⟨by simp, fun _ => ⟨t, m, h1, ?_⟩⟩
          obtain ⟨⟨t', sg, w⟩, hx, rfl⟩ := List.mem_map.mp hf
          have hw := h3 sg w hx
          subst hw
          have hs1 : (t', sg) ∈ s.a.mb.sent := hi.shape.mb.mem_sent (p := unwhy (t', sg, .closed))
            (by simp; exact .inr (.inr (.inr ⟨_, _, _, hx, rfl⟩)))
          have hs2 : (t', Sig.msg m.body) ∈ s.a.mb.sent := hi.sent (t', m.body) (by
            simp only [asMsgs, List.mem_map]
            exact ⟨(t', m), (hi.last t' m e).2, rfl⟩)
          have := key_inj hi.shape.mb.sent_nodup hs1 hs2 rfl
          simp only [Prod.mk.injEq, true_and] at this
          rw [← this]
          exact hx
        · exact h
    · exact h
  | abort =>
    simp only [St.step]
    split
    · exact ⟨by simp, by simp⟩
    · exact h
    · exact ⟨by simp, by simp⟩

theorem out_after (cap : Option Nat) (before : List Lifecycle.Op) (ops : List Op) : Out (after cap before ops) := by
  have h0 : Inv { a := Lifecycle.after cap before } := inv_after cap before []
  have h1 : Out { a := Lifecycle.after cap before } := ⟨by simp, by simp⟩
  unfold after
  generalize ({ a := Lifecycle.after cap before } : St) = s at h0 h1
  induction ops generalizing s with
  | nil => exact h1
  | cons op ops ih => exact ih _ (inv_step h0 op) (out_step h0 h1 op)

/-! ### After the actor's end -/

/-- The task does not send and wait for an answer that could still be a success. -/
def Failing (s : St) : Prop := ∀ t m, s.task = .sending t m → t ∈ s.a.mb.failed.map (·.1)

theorem mb_step (s : St) (op : Op) : ∃ mops, (s.step op).a.mb = s.a.mb.run mops := by
  have hsend : ∀ (s : St) m, ∃ mops, (s.send m).a.mb = s.a.mb.run mops := fun s m => ⟨[.send (.msg m.body)], rfl⟩
  have henv : ∀ (s : St) (op : Lifecycle.Op), ∃ mops, (s.a.step op).mb = s.a.mb.run mops := fun s op =>
    ⟨(step_mb_cancel s.a op).choose, (step_mb_cancel s.a op).choose_spec.1⟩
  have h0 : ∃ mops, s.a.mb = s.a.mb.run mops := ⟨[], rfl⟩
  cases op with
  | env op => cases op <;> simp only [St.step] <;> (try split) <;> first | exact h0 | exact henv s _
  | start => simp only [St.step]; split <;> first | exact hsend s _ | exact h0
  | yield x => simp only [St.step]; split <;> first | exact hsend { s with items := s.items ++ [x] } _ | exact h0
  | endOfStream => simp only [St.step]; split <;> first | exact hsend { s with ended := true } _ | exact h0
  | seeShutdown => simp only [St.step]; split <;> (try split) <;> exact h0
  | advance => simp only [St.step]; split <;> (try split) <;> (try split) <;> exact h0
  | abort => simp only [St.step]; split <;> first | exact henv s _ | exact h0

theorem closed_step {s : St} (h : s.a.mb.closed = true) (op : Op) : (s.step op).a.mb.closed = true := by
  obtain ⟨mops, hm⟩ := mb_step s op
  rw [hm]; exact closed_run _ _ h

theorem failed_mem_step {s : St} (op : Op) {t : Nat} (h : t ∈ s.a.mb.failed.map (·.1)) :
    t ∈ (s.step op).a.mb.failed.map (·.1) := by
  obtain ⟨mops, hm⟩ := mb_step s op
  obtain ⟨x, hx, e⟩ := List.mem_map.mp h
  rw [hm]
  exact List.mem_map.mpr ⟨x, failed_stays _ _ _ hx, e⟩

/-- A send to an actor that is gone fails at once. -/
theorem failing_send {s : St} (h : s.a.mb.closed = true) (m : SMsg) : Failing (s.send m) := by
  intro t m' e
  simp only [St.send, Task.sending.injEq] at e
  obtain ⟨rfl, rfl⟩ := e
  simp [St.send, Lifecycle.St.step, Mb.send, h]

/-- What failed was not accepted. -/
theorem not_both {s : St} (hi : Inv s) {t : Nat} (hf : t ∈ s.a.mb.failed.map (·.1)) : t ∉ s.a.mb.pushed.map (·.1) := by
  intro hp
  have hnd := hi.shape.mb.part_nodup
  obtain ⟨⟨t', sg, w⟩, hx, rfl⟩ := List.mem_map.mp hf
  simp only [List.map_append, List.append_assoc] at hnd
  refine (List.nodup_append.mp hnd).2.2 t' hp t' ?_ rfl
  simp only [List.mem_append, List.mem_map, List.map_map]
  exact .inr (.inr ⟨_, hx, rfl⟩)

/-- With the actor gone, a send under way has been accepted or has failed. -/
theorem decided {s : St} (hi : Inv s) (hc : s.a.mb.closed = true) {t : Nat} {m : SMsg} (e : s.task = .sending t m) :
    t ∈ s.a.mb.pushed.map (·.1) ∨ t ∈ s.a.mb.failed.map (·.1) := by
  have hs : (t, Sig.msg m.body) ∈ s.a.mb.sent := hi.sent (t, m.body) (by
    simp only [asMsgs, List.mem_map]
    exact ⟨(t, m), (hi.last t m e).2, rfl⟩)
  have hp := hi.shape.mb.part.mem_iff.mpr hs
  obtain ⟨-, hg, hw⟩ := hi.shape.mb.closedEmpty hc
  rw [hg, hw] at hp
  simp only [List.append_nil, List.mem_append] at hp
  rcases hp with h | h
  · exact .inl (List.mem_map.mpr ⟨_, h, rfl⟩)
  · right
    obtain ⟨x, hx, e⟩ := List.mem_map.mp h
    exact List.mem_map.mpr ⟨x, hx, congrArg Prod.fst e⟩

/-- The task step by step after the actor's end: `1` it has begun, `2` nothing it sends can succeed any more, `3` nor does it
look at the stream any more, `4` it is over. -/
def Late : Nat → St → Prop
  | 0, _ => True
  | 1, s => s.task ≠ .fresh
  | 2, s => s.task ≠ .fresh ∧ Failing s
  | 3, s => s.task ≠ .fresh ∧ Failing s ∧ s.task ≠ .selecting
  | _, s => s.over

theorem late_step {s : St} (hi : Inv s) (hc : s.a.mb.closed = true) (k : Nat) (h : Late k s) (op : Op) : Late k (s.step op) := by
  have hf : Failing s → Failing (s.step op) := by
    intro h t m
    cases op with
    | env op =>
      have key : (s.step (.env op)).task = s.task := by cases op <;> simp only [St.step] <;> (try split) <;> rfl
      intro e
      rw [key] at e
      exact failed_mem_step _ (h t m e)
    | start => simp only [St.step]; split <;> first | exact failing_send hc _ t m | exact h t m
    | yield x =>
      simp only [St.step]; split
      · exact failing_send (s := { s with items := s.items ++ [x] }) hc _ t m
      · exact h t m
    | endOfStream =>
      simp only [St.step]; split
      · exact failing_send (s := { s with ended := true }) hc _ t m
      · exact h t m
    | seeShutdown => simp only [St.step]; split <;> (try split) <;> first | exact h t m | simp
    | advance =>
      simp only [St.step]
      split
      · split
        · dsimp only; split <;> simp
        · split
          · simp
          · exact h t m
      · exact h t m
    | abort => simp only [St.step]; split <;> first | exact h t m | simp
  have h1 : s.task ≠ .fresh → (s.step op).task ≠ .fresh := by
    intro h
    cases op with
    | env op =>
      have key : (s.step (.env op)).task = s.task := by cases op <;> simp only [St.step] <;> (try split) <;> rfl
      rw [key]; exact h
    | _ => simp only [St.step] <;> (repeat' split) <;> simp_all [St.send]
  match k, h with
  | 0, _ => trivial
  | 1, h => exact h1 h
  | 2, h => exact ⟨h1 h.1, hf h.2⟩
  | 3, h =>
    refine ⟨h1 h.1, hf h.2.1, ?_⟩
    have h3 := h.2.2
    cases op with
    | env op =>
      have key : (s.step (.env op)).task = s.task := by cases op <;> simp only [St.step] <;> (try split) <;> rfl
      rw [key]; exact h3
    | advance =>
      simp only [St.step]
      split
      · rename_i t m e
        rw [if_neg (not_both hi (h.2.1 t m e)), if_pos (h.2.1 t m e)]
        simp
      · exact h3
    | _ => simp only [St.step] <;> (repeat' split) <;> simp_all [St.send]
  | k + 4, h =>
    have h' : s.over := h
    show (s.step op).over
    unfold St.over at *
    cases op with
    | env op =>
      have key : (s.step (.env op)).task = s.task := by cases op <;> simp only [St.step] <;> (try split) <;> rfl
      rw [key]; exact h'
    | _ => rcases h' with ⟨ok, h'⟩ | h' <;> simp only [St.step, h'] <;> simp

/-- What the task does, in its own order. -/
def ownSteps : Nat → Option Op
  | 0 => some .start
  | 1 => some .advance
  | 2 => some .seeShutdown
  | 3 => some .advance
  | _ => none

theorem late_own {s : St} (hi : Inv s) (hc : s.a.mb.closed = true) (k : Nat) (h : Late k s) (op : Op)
    (ho : ownSteps k = some op) : Late (k + 1) (s.step op) := by
  match k, ho, h with
  | 0, ho, _ =>
    cases ho
    show (s.step .start).task ≠ .fresh
    simp only [St.step]
    split
    · simp [St.send]
    · assumption
  | 1, ho, h =>
    cases ho
    have h1 := late_step hi hc 1 h .advance
    refine ⟨h1, ?_⟩
    intro t m
    simp only [St.step]
    split
    · rename_i t' m' e
      split
      · dsimp only; split <;> simp
      · next hnp =>
        rw [if_pos ((decided hi hc e).resolve_left hnp)]
        simp
    · rename_i hno
      intro e
      exact absurd e (hno t m)
  | 2, ho, h =>
    cases ho
    have h1 := late_step hi hc 2 h .seeShutdown
    refine ⟨h1.1, h1.2, ?_⟩
    simp only [St.step]
    split
    · simp [hc]
    · assumption
  | 3, ho, h =>
    cases ho
    show (s.step .advance).over
    obtain ⟨h1, h2, h3⟩ := h
    simp only [St.step]
    split
    · rename_i t m e
      rw [if_neg (not_both hi (h2 t m e)), if_pos (h2 t m e)]
      exact .inl ⟨_, rfl⟩
    · rename_i hno
      unfold St.over
      cases ht : s.task with
      | fresh => exact absurd ht h1
      | selecting => exact absurd ht h3
      | sending t m => exact absurd ht (hno t m)
      | returned ok => exact .inl ⟨ok, rfl⟩
      | cancelled => exact .inr rfl

theorem after_append (cap : Option Nat) (before : List Lifecycle.Op) (ops post : List Op) :
    after cap before (ops ++ post) = post.foldl St.step (after cap before ops) := by simp [after]

theorem late_run {s : St} (hi : Inv s) (hc : s.a.mb.closed = true) (k : Nat) (h : Late k s) (post : List Op) :
    Late k (post.foldl St.step s) ∧ (post.foldl St.step s).a.mb.closed = true := by
  induction post generalizing s with
  | nil => exact ⟨h, hc⟩
  | cons op post ih => exact ih (inv_step hi op) (closed_step hc op) (late_step hi hc k h op)

/-! ### C94 -/

/-- **C94** When the actor's mailbox is gone the task comes to its end: once it has been polled, has looked at the send under
way, at the end of the actor, and at a send once more, in this order and whatever else happens in between, it is over. -/
theorem task_ends (cap : Option Nat) (before : List Lifecycle.Op) (ops post : List Op)
    (hc : (after cap before ops).a.mb.closed = true)
    (hs : [Op.start, .advance, .seeShutdown, .advance].Sublist post) : (after cap before (ops ++ post)).over := by
  have key : ∀ (n k : Nat) (post : List Op) (s : St), k + n = 4 → Inv s → s.a.mb.closed = true → Late k s →
      ([Op.start, .advance, .seeShutdown, .advance].drop k).Sublist post → Late 4 (post.foldl St.step s) := by
    intro n
    induction n with
    | zero =>
      intro k post s hk hi hc h _
      obtain rfl : k = 4 := by omega
      exact (late_run hi hc 4 h post).1
    | succ n ihn =>
      intro k post
      induction post with
      | nil =>
        intro s hk _ _ _ hsub
        have : k = 0 ∨ k = 1 ∨ k = 2 ∨ k = 3 := by omega
        rcases this with rfl | rfl | rfl | rfl <;> simp at hsub
      | cons op post ih =>
        intro s hk hi hc h hsub
        have hk4 : k = 0 ∨ k = 1 ∨ k = 2 ∨ k = 3 := by omega
        by_cases ho : ownSteps k = some op
        · have h' := late_own hi hc k h op ho
          refine ihn (k + 1) post (s.step op) (by omega) (inv_step hi op) (closed_step hc op) h' ?_
          rcases hk4 with rfl | rfl | rfl | rfl <;> cases ho <;> simpa using hsub
        · refine ih (s.step op) hk (inv_step hi op) (closed_step hc op) (late_step hi hc k h op) ?_
          rcases hk4 with rfl | rfl | rfl | rfl <;>
            (simp only [ownSteps, Option.some.injEq] at ho; simp only [List.drop] at hsub ⊢
             exact (List.sublist_cons_iff.mp hsub).resolve_right (by rintro ⟨r, e, -⟩; cases e; exact ho rfl))
  rw [after_append]
  exact key 4 0 post _ rfl (inv_after cap before ops) hc trivial hs

/-- The actor is killed and ends. -/
private def killed : List Op := [.env .kill, .env .pollEnd, .env (.stopEnd .ok), .env .finish]

/-- The actor is killed while the task waits for the next item. Then the stream has one, and somebody else sends. -/
example : (after none startedDemo ([.start, .advance, .yield 5, .advance] ++ killed)).a.mb.closed = true ∧
    (after none startedDemo ([.start, .advance, .yield 5, .advance] ++ killed)).task = .selecting ∧
    [Op.start, .advance, .seeShutdown, .advance].Sublist
      [.start, .env (.send (Lifecycle.tell 9)), .advance, .yield 6, .seeShutdown, .advance] ∧
    (after none startedDemo ([.start, .advance, .yield 5, .advance] ++ killed ++
      [.start, .env (.send (Lifecycle.tell 9)), .advance, .yield 6, .seeShutdown, .advance])).task = .returned false := by
  decide

/-- **C94** What the task returns as its error is what the actor did not get: when the task has returned an error, the
actor's mailbox is gone, everything before the last message was accepted, and the last one was handed back. -/
theorem error_is_what_is_missing (cap : Option Nat) (before : List Lifecycle.Op) (ops : List Op)
    (hr : (after cap before ops).task = .returned false) :
    (after cap before ops).a.mb.closed = true ∧
    ∃ acc m t, script (after cap before ops).items (after cap before ops).ended = acc ++ [m] ∧
      (ours (after cap before ops) (msgsOf (after cap before ops).a.mb.pushed)).map (·.2) = acc.map told ∧
      (t, Sig.msg (told m), Why.closed) ∈ (after cap before ops).a.mb.failed ∧
      t ∈ (after cap before ops).sends.map (·.1) := by
  have hi := inv_after cap before ops
  have he := ends_after cap before ops
  have ho := out_after cap before ops
  generalize after cap before ops = s at *
  refine ⟨he.error hr, ?_⟩
  obtain ⟨t, m, hlast, hfail⟩ := ho.back hr
  obtain ⟨tail, ht, hpos⟩ := hi.tail
  have hlen := hpos.len
  obtain ⟨pre, hpre⟩ : ∃ pre, s.sends = pre ++ [(t, m)] := by
    have := List.getLast?_eq_some_iff.mp hlast
    exact this
  have hscript : s.sends.map (·.2) = script s.items s.ended := by
    rcases hi.script with ⟨h1, _⟩ | ⟨_, h2⟩
    · rw [h1] at hpre; simp at hpre
    · exact h2
  have hnp : t ∉ s.a.mb.pushed.map (·.1) := not_both hi (List.mem_map.mpr ⟨_, hfail, rfl⟩)
  have htail : tail = [(t, m.body)] ∧ ours s (msgsOf s.a.mb.pushed) = asMsgs pre := by
    have e : ours s (msgsOf s.a.mb.pushed) ++ tail = asMsgs pre ++ [(t, m.body)] := by
      rw [ht, hpre]; simp [asMsgs]
    match tail, hlen with
    | [], _ =>
      exfalso
      simp only [List.append_nil] at e
      have : (t, m.body) ∈ ours s (msgsOf s.a.mb.pushed) := by rw [e]; simp
      have := mem_msgsOf.mp (List.mem_filter.mp this).1
      exact hnp (List.mem_map.mpr ⟨_, this, rfl⟩)
    | [x], _ =>
      have := List.append_inj' e rfl
      exact ⟨by simpa using this.2, this.1⟩
  refine ⟨pre.map (·.2), m, t, ?_, ?_, ?_, ?_⟩
  · rw [← hscript, hpre]; simp
  · rw [htail.2, told_body]; simp [asMsgs]
  · rw [told_body]; exact hfail
  · rw [hpre]; simp

/-- Items 5 and 6, with room for two messages: 6 is handed back. -/
example : let s := after (some 2) startedDemo ([.start, .advance, .yield 5, .advance, .yield 6] ++ killed ++ [.advance])
    s.task = .returned false ∧ script s.items s.ended = [.started, .next 5] ++ [.next 6] ∧
    (ours s (msgsOf s.a.mb.pushed)).map (·.2) = [told .started, told (.next 5)] := by decide

/-- **C94** When the task gives the stream back, everything taken from it was accepted; and the stream has ended or the
actor's mailbox is gone. -/
theorem given_back_complete (cap : Option Nat) (before : List Lifecycle.Op) (ops : List Op)
    (hr : (after cap before ops).task = .returned true) :
    ((after cap before ops).ended = true ∨ (after cap before ops).a.mb.closed = true) ∧
    (ours (after cap before ops) (msgsOf (after cap before ops).a.mb.pushed)).map (·.2) =
      (script (after cap before ops).items (after cap before ops).ended).map told :=
  ⟨(ends_after cap before ops).early hr, all_accepted cap before ops (.inl hr)⟩

/-- The actor is killed after the first item. -/
example : let s := after none startedDemo ([.start, .advance, .yield 5, .advance] ++ killed ++ [.seeShutdown])
    s.task = .returned true ∧ s.ended = false ∧ s.items = [5] := by decide

/-- **C94** Once the actor's mailbox is gone, at most one more item is taken from the stream, and if one is, the task does
not return the stream. -/
theorem one_more_at_most (cap : Option Nat) (before : List Lifecycle.Op) (ops post : List Op)
    (hc : (after cap before ops).a.mb.closed = true) :
    ∃ more, (after cap before (ops ++ post)).items = (after cap before ops).items ++ more ∧ more.length ≤ 1 ∧
      (more ≠ [] → (after cap before (ops ++ post)).task ≠ .returned true) := by
  have hi := inv_after cap before ops
  rw [after_append]
  generalize after cap before ops = s at *
  -- either nothing was taken, or what was taken fails
  have key : ∀ (post : List Op) (s' : St) (more : List Nat), Inv s' → s'.a.mb.closed = true →
      s'.items = s.items ++ more → more.length ≤ 1 →
      (more ≠ [] → s'.task ≠ .fresh ∧ Failing s' ∧ s'.task ≠ .selecting ∧ s'.task ≠ .returned true) →
      ∃ more, (post.foldl St.step s').items = s.items ++ more ∧ more.length ≤ 1 ∧
        (more ≠ [] → (post.foldl St.step s').task ≠ .returned true) := by
    intro post
    induction post with
    | nil => intro s' more _ _ h1 h2 h3; exact ⟨more, h1, h2, fun h => (h3 h).2.2.2⟩
    | cons op post ih =>
      intro s' more hi hc h1 h2 h3
      by_cases hm : more = []
      · subst hm
        by_cases hy : ∃ x, op = .yield x ∧ s'.task = .selecting
        · obtain ⟨x, rfl, hsel⟩ := hy
          refine ih (s'.step (.yield x)) [x] (inv_step hi _) (closed_step hc _) ?_ (by simp) (fun _ => ?_)
          · simp [St.step, hsel, St.send, h1]
          · have := failing_send (s := { s' with items := s'.items ++ [x] }) hc (.next x)
            refine ⟨?_, ?_, ?_, ?_⟩
            · simp [St.step, hsel, St.send]
            · simpa [St.step, hsel] using this
            · simp [St.step, hsel, St.send]
            · simp [St.step, hsel, St.send]
        · refine ih (s'.step op) [] (inv_step hi _) (closed_step hc _) ?_ (by simp) (by simp)
          rw [← h1]
          cases op with
          | yield x =>
            simp only [St.step]
            split
            · exact absurd ⟨x, rfl, by assumption⟩ hy
            · rfl
          | env op => cases op <;> simp only [St.step] <;> (try split) <;> rfl
          | _ => simp only [St.step] <;> (repeat' split) <;> rfl
      · obtain ⟨a, b, c, d⟩ := h3 hm
        obtain ⟨a', b', c'⟩ := late_step hi hc 3 ⟨a, b, c⟩ op
        refine ih (s'.step op) more (inv_step hi _) (closed_step hc _) ?_ h2 (fun _ => ⟨a', b', c', ?_⟩)
        · rw [← h1]
          cases op with
          | env op => cases op <;> simp only [St.step] <;> (try split) <;> rfl
          | yield x => simp only [St.step]
          | _ => simp only [St.step] <;> (repeat' split) <;> rfl
        · cases op with
          | env op =>
            have key : (s'.step (.env op)).task = s'.task := by cases op <;> simp only [St.step] <;> (try split) <;> rfl
            rw [key]; exact d
          | advance =>
            simp only [St.step]
            split
            · rename_i t m e
              rw [if_neg (not_both hi (b t m e)), if_pos (b t m e)]
              simp
            · exact d
          | _ => simp only [St.step] <;> (repeat' split) <;> simp_all
  exact key post s [] hi hc (by simp) (by simp) (by simp)

/-- One is taken. -/
example : (after none startedDemo ([.start, .advance, .yield 5, .advance] ++ killed)).items = [5] ∧
    (after none startedDemo ([.start, .advance, .yield 5, .advance] ++ killed ++ [.yield 6, .advance, .yield 7])).items = [5, 6] := by
  decide

/-- **C94** is false: whether the stream comes back when the actor stops while the task waits for the next item is left to
chance. If the task sees the end of the actor first it returns the stream; if the stream has an item first, the task takes
it, cannot deliver it, and the stream is dropped. -/
theorem given_back_by_chance (cap : Option Nat) (before : List Lifecycle.Op) (ops : List Op) (x : Nat)
    (hc : (after cap before ops).a.mb.closed = true) (hs : (after cap before ops).task = .selecting) :
    (after cap before (ops ++ [.seeShutdown])).task = .returned true ∧
    (after cap before (ops ++ [.yield x, .advance])).task = .returned false := by
  rw [after_append, after_append]
  have hi := inv_after cap before ops
  generalize after cap before ops = s at *
  refine ⟨by simp [St.step, hs, hc], ?_⟩
  have hf := failing_send (s := { s with items := s.items ++ [x] }) hc (.next x)
  have hi' := inv_step hi (.yield x)
  have e : s.step (.yield x) = { s with items := s.items ++ [x] }.send (.next x) := by simp [St.step, hs]
  rw [e] at hi'
  simp only [List.foldl, e]
  have ht : (({ s with items := s.items ++ [x] } : St).send (.next x)).task = .sending s.a.mb.next (.next x) := rfl
  generalize ({ s with items := s.items ++ [x] } : St).send (.next x) = s' at *
  simp only [St.step, ht]
  rw [if_neg (not_both hi' (hf _ _ ht)), if_pos (hf _ _ ht)]

example : (after none startedDemo ([.start, .advance, .yield 5, .advance] ++ killed)).a.mb.closed = true ∧
    (after none startedDemo ([.start, .advance, .yield 5, .advance] ++ killed)).task = .selecting := by decide

/-- **C94** is false: if the task waits for room in the mailbox when the actor stops, the stream is never given back. -/
theorem waiting_stream_lost (cap : Option Nat) (before : List Lifecycle.Op) (ops post : List Op) (t : Nat) (m : SMsg)
    (hs : (after cap before ops).task = .sending t m) (hw : t ∉ (after cap before ops).a.mb.pushed.map (·.1))
    (hc : (after cap before ops).a.mb.closed = true) :
    (after cap before (ops ++ post)).task ≠ .returned true := by
  rw [after_append]
  have hi := inv_after cap before ops
  generalize after cap before ops = s at *
  have hf := (decided hi hc hs).resolve_left hw
  have key : ∀ (post : List Op) (s' : St), Inv s' → s'.a.mb.closed = true → Late 3 s' → s'.task ≠ .returned true →
      (post.foldl St.step s').task ≠ .returned true := by
    intro post
    induction post with
    | nil => exact fun _ _ _ _ h => h
    | cons op post ih =>
      intro s' hi hc h3 hne
      refine ih _ (inv_step hi op) (closed_step hc op) (late_step hi hc 3 h3 op) ?_
      obtain ⟨a, b, c⟩ := h3
      cases op with
      | env op =>
        have key : (s'.step (.env op)).task = s'.task := by cases op <;> simp only [St.step] <;> (try split) <;> rfl
        rw [key]; exact hne
      | advance =>
        simp only [St.step]
        split
        · rename_i t m e
          rw [if_neg (not_both hi (b t m e)), if_pos (b t m e)]
          simp
        · exact hne
      | _ => simp only [St.step] <;> (repeat' split) <;> simp_all
  refine key post s hi hc ⟨by simp [hs], ?_, by simp [hs]⟩ (by simp [hs])
  intro t' m' e
  rw [hs] at e
  cases e
  exact hf

/-- Room for one message: the task waits with the first item. -/
example : let s := after (some 1) startedDemo ([.start, .advance, .yield 5] ++ killed)
    s.task = .sending 2 (.next 5) ∧ 2 ∉ s.a.mb.pushed.map (·.1) ∧ s.a.mb.closed = true := by decide

end Verif.Stream
