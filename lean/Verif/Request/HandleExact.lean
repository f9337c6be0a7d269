import Verif.Request.Forward

/-!
C20 and C62, exactly: which calls of `enqueue` and `forward`, and which ways of handling a message, make kameo panic.
-/

set_option linter.unusedSimpArgs false

namespace Verif.Request

open Verif.Mailbox

/-! ### C20 -/

/-- **C20** (exactly). An `enqueue`, of whichever kind, panics if and only if the channel refuses the message and the message
is of another type than `()`. -/
theorem enqueue_panics_iff (m : Ty) (x : m.Sem) (ch : Nat) (why : Option Why) :
    enqueue m x ch why = .panic ↔ why ≠ none ∧ m ≠ .unit := by
  cases why with
  | none => simp [(enqueue_forward_report_partial m m m x ch .closed).1]
  | some w =>
    by_cases hm : m = .unit
    · subst hm
      obtain ⟨err, h, -⟩ := (enqueue_forward_report_partial .unit .unit .unit () ch w).2.2.2.1
      have : x = () := rfl
      simp [this, h]
    · simp [enqueue_panics m hm x ch w, hm]

example : enqueue (.user 0) (5 : Nat) 3 (some .full) = .panic ∧ enqueue .unit () 3 (some .full) ≠ .panic :=
  ⟨(enqueue_panics_iff _ _ _ _).mpr ⟨by simp, by simp⟩, fun h => ((enqueue_panics_iff _ _ _ _).mp h).2 rfl⟩

/-- **C20** (exactly). `Context::forward`, of whichever kind, panics if and only if the channel refuses the message and the
context still holds the reply channel: the message being handled is an ask that has not been answered, delegated or
forwarded. -/
theorem forward_panics_iff (m r e : Ty) (reply : Option Nat) (x : m.Sem) (why : Option Why) :
    ctxForward m r e reply x why = .panic ↔ why ≠ none ∧ reply ≠ none := by
  cases why with
  | none =>
    cases reply with
    | none => simp [ctxForward, tell, sendTry, tellMsg]
    | some ch => simp [(enqueue_forward_report_partial m r e x ch .closed).2.2.1]
  | some w =>
    cases reply with
    | none =>
      obtain ⟨err, h, -⟩ := (enqueue_forward_report_partial m r e x 0 w).2.2.2.2
      simp [h]
    | some ch => simp [(forward_panics m r e x ch w).2]

example : ctxForward (.user 0) .unit .unit (some 3) (5 : Nat) (some .closed) = .panic ∧
    ctxForward (.user 0) .unit .unit none (5 : Nat) (some .closed) ≠ .panic :=
  ⟨(forward_panics_iff ..).mpr ⟨by simp, by simp⟩, fun h => ((forward_panics_iff ..).mp h).2 rfl⟩

/-! ### C62 -/

theorem step_total {r : RTy} (c : Ctx) (op : CtxOp r) (h : c.reply = none ∨ ∀ m q x w, op ≠ .forward m q x (some w)) :
    ∃ c', c.step op = .val c' ∧ c'.reply = none := by
  cases op with
  | replySender => exact ⟨_, rfl, rfl⟩
  | reply v => cases hr : c.reply <;> simp [Ctx.step, hr]
  | forward m q x why =>
    cases hr : c.reply with
    | none =>
      cases why with
      | none => simp [Ctx.step, hr, ctxForward, tell, sendTry, tellMsg]
      | some w =>
        obtain ⟨err, he, -⟩ := (enqueue_forward_report_partial m q.ok q.err x 0 w).2.2.2.2
        simp [Ctx.step, hr, he]
    | some ch =>
      cases why with
      | none => simp [Ctx.step, hr, (enqueue_forward_report_partial m q.ok q.err x ch .closed).2.2.1]
      | some w => exact absurd rfl ((h.resolve_left (by simp [hr])) m q x w)

theorem run_total {r : RTy} (ops : List (CtxOp r)) (c : Ctx) (h : c.reply = none) :
    ∃ c', c.run ops = .val c' ∧ c'.reply = none := by
  induction ops generalizing c with
  | nil => exact ⟨c, rfl, h⟩
  | cons op ops ih =>
    obtain ⟨c1, h1, h2⟩ := step_total c op (.inl h)
    obtain ⟨c2, h3, h4⟩ := ih c1 h2
    exact ⟨c2, by simp [Ctx.run, h1, h3], h4⟩

/-- **C62** (exactly). Whatever calls of its context a handler makes, whatever their outcome, and whatever it returns, kameo's
code panics in two cases and no other, both of them for asks only: the handler returns a marker without having used its
context, or the first thing it does with its context is a forward, and that is refused. -/
theorem handle_panics_iff {r : RTy} (reply : Option Nat) (ops : List (CtxOp r)) (ret : Ret r) :
    handle reply ops ret = .panic ↔
      reply ≠ none ∧ (ops = [] ∧ ret.marker = true ∨ ∃ m q x w rest, ops = .forward m q x (some w) :: rest) := by
  have hnone : ∀ c : Ctx, c.reply = none → ∀ ops : List (CtxOp r), ∃ c', c.run ops = .val c' ∧
      handleDyn ret c'.reply = .val ([], ret.intoAnyErr) := by
    intro c hc ops
    obtain ⟨c', h1, h2⟩ := run_total ops c hc
    exact ⟨c', h1, by simp [handleDyn, h2]⟩
  cases reply with
  | none =>
    obtain ⟨c', h1, h2⟩ := hnone ⟨none, [], [], []⟩ rfl ops
    simp [handle, h1, h2]
  | some ch =>
    cases ops with
    | nil =>
      have := handle_panics_iff_partial ch [] ret (by intro m q x why h; simp at h)
      simp [this]
    | cons op rest =>
      by_cases hf : ∃ m q x w, op = .forward m q x (some w)
      · obtain ⟨m, q, x, w, rfl⟩ := hf
        have : (Ctx.step (r := r) ⟨some ch, [], [], []⟩ (.forward m q x (some w))) = .panic := by
          simp [Ctx.step, (forward_panics m q.ok q.err x ch w).2]
        simp only [handle, Ctx.run, this, true_iff]
        exact ⟨by simp, .inr ⟨m, q, x, w, rest, rfl⟩⟩
      · obtain ⟨c1, h1, h2⟩ := step_total ⟨some ch, [], [], []⟩ op
          (.inr fun m q x w h => hf ⟨m, q, x, w, h⟩)
        obtain ⟨c', h3, h4⟩ := hnone c1 h2 rest
        simp only [handle, Ctx.run, h1, h3, h4]
        constructor
        · intro h; cases h
        · rintro ⟨-, ⟨h, -⟩ | ⟨m, q, x, w, rest', h⟩⟩
          · cases h
          · cases h; exact absurd ⟨m, q, x, w, rfl⟩ hf

/-- A refused forward is harmless when the reply sender was taken before; when the message was a tell; and fatal otherwise. -/
example :
    handle (r := .delegated (.plain (.user 0) (.user 1))) (some 7)
      [.replySender, .forward (.user 2) (.plain .unit .unit) (5 : Nat) (some .full)] .delegated ≠ .panic ∧
    handle (r := .delegated (.plain (.user 0) (.user 1))) none
      [.forward (.user 2) (.plain .unit .unit) (5 : Nat) (some .full)] .delegated ≠ .panic ∧
    handle (r := .delegated (.plain (.user 0) (.user 1))) (some 7)
      [.forward (.user 2) (.plain .unit .unit) (5 : Nat) (some .full), .replySender] .delegated = .panic := by
  refine ⟨fun h => ?_, fun h => ?_, ?_⟩
  · obtain ⟨-, ⟨h, -⟩ | ⟨m, q, x, w, rest, h⟩⟩ := (handle_panics_iff ..).mp h <;> cases h
  · exact ((handle_panics_iff ..).mp h).1 rfl
  · exact (handle_panics_iff ..).mpr ⟨by simp, .inr ⟨_, _, _, _, _, rfl⟩⟩

end Verif.Request
