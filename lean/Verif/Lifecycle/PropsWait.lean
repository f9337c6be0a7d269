import Verif.Lifecycle.PropsResult

/-!
Property theorems C74: the methods under which one can wait for an actor, among them the deprecated ones and those of
`Recipient`.
-/

set_option linter.unusedSimpArgs false

namespace Verif.Lifecycle

open Verif.Mailbox

/-- The methods that wait for an actor. `ActorRef`: `wait_for_startup` (`src/actor/actor_ref.rs` L258-261), the
deprecated `wait_startup` (L263-270), `wait_for_shutdown` (L341-344), the deprecated `wait_for_stop` (L346-353).
`Recipient`: `wait_for_startup` (L933-936), `wait_for_shutdown` (L941-944). -/
inductive Wait where
  | waitForStartup
  | waitStartup
  | waitForShutdown
  | waitForStop
  | recipientWaitForStartup
  | recipientWaitForShutdown
  deriving DecidableEq, Repr

/-- Does `wait_for_startup` return in this state? It acquires a permit of the start-up semaphore
(`src/actor/actor_ref.rs` L258-261). -/
def St.waitForStartup (s : St) : Bool := 0 < s.permits

/-- Does `wait_for_shutdown` return in this state? It waits for the mailbox to be closed (`src/actor/actor_ref.rs`
L341-344). -/
def St.waitForShutdown (s : St) : Bool := s.mb.closed

/-- Does a call of the method return in this state? Each of the others calls one of the two (`src/actor/actor_ref.rs`):
`wait_startup` L269, `wait_for_stop` L352, those of `Recipient` L935 and L943 through `MessageHandler` L1442-1450. -/
def St.returns (s : St) : Wait → Bool
  | .waitForStartup => s.waitForStartup
  | .waitStartup => s.waitForStartup
  | .waitForShutdown => s.waitForShutdown
  | .waitForStop => s.waitForStartup
  | .recipientWaitForStartup => s.waitForStartup
  | .recipientWaitForShutdown => s.waitForShutdown

/-- What a method is said to wait for (documentation at `src/actor/actor_ref.rs` L226, L262, L330-340, L346, L929,
L938). Specification. -/
def Wait.forStartup : Wait → Bool
  | .waitForStartup | .waitStartup | .recipientWaitForStartup => true
  | .waitForShutdown | .waitForStop | .recipientWaitForShutdown => false

/-- **C74**, part: except `wait_for_stop`, no method that waits for an actor returns early: those for the start-up only
after `on_start` has completed, those for the shut-down exactly when the actor is gone. What is missing: `wait_for_stop`
(`wait_for_stop_returns_early`), and that the former do return (C28). -/
theorem waits_true_partial (cap : Option Nat) (ops : List Op) (w : Wait) (hw : w ≠ .waitForStop) :
    (w.forStartup = true → (after cap ops).returns w = true → ∃ o, .startEnd o ∈ (after cap ops).log) ∧
    (w.forStartup = false → ((after cap ops).returns w = true ↔
      (∃ r, (after cap ops).phase = .stopped r) ∨ (after cap ops).phase = .crashed)) := by
  cases w <;> simp [Wait.forStartup, St.returns, St.waitForStartup, St.waitForShutdown] at hw ⊢
  · exact startup_wait_not_early cap ops
  · exact startup_wait_not_early cap ops
  · exact alive_until_ended cap ops
  · exact startup_wait_not_early cap ops
  · exact alive_until_ended cap ops

example : (after (some 4) demo).returns .recipientWaitForStartup = true ∧
    (after (some 4) demo).returns .recipientWaitForShutdown = false := by decide

/-- **C74 is false** of `wait_for_stop`: it returns in every running actor that has taken its start-up signal. -/
theorem wait_for_stop_returns_early (cap : Option Nat) (ops : List Op) (t : Nat)
    (hs : .startEnd .ok ∈ (after cap ops).log) (h : (t, Sig.startup) ∈ (after cap ops).mb.received)
    (hl : (after cap ops).phase.inLoop = true) :
    (after cap ops).returns .waitForStop = true ∧ (after cap ops).returns .waitForShutdown = false := by
  have h1 := (startup_wait_returns_partial cap ops hs).1.mpr ⟨t, h⟩
  refine ⟨by simp [St.returns, St.waitForStartup, h1], ?_⟩
  simp only [St.returns, St.waitForStartup, St.waitForShutdown]
  cases hc : (after cap ops).mb.closed with
  | false => rfl
  | true => rcases (alive_until_ended cap ops).mp hc with ⟨r, h2⟩ | h2 <;> simp [h2] at hl

example : .startEnd .ok ∈ (after (some 4) demo).log ∧ (2, Sig.startup) ∈ (after (some 4) demo).mb.received ∧
    (after (some 4) demo).phase.inLoop = true := by decide

/-- An actor that is asked to stop before its start-up is over, and stops. -/
def stoppedEarly : List Op := stoppedAtStart ++ [.stopEnd .ok, .finish]

/-- **C74 is false** of `wait_for_stop` the other way round too: whenever an actor is gone that had
started but never took its start-up signal, `wait_for_stop` waits for ever. -/
theorem wait_for_stop_hangs (cap : Option Nat) (ops ops' : List Op)
    (hs : .startEnd .ok ∈ (after cap ops).log) (hc : (after cap ops).mb.closed = true)
    (hr : ∀ t, (t, Sig.startup) ∉ (after cap ops).mb.received) :
    (after cap (ops ++ ops')).returns .waitForShutdown = true ∧
    (after cap (ops ++ ops')).returns .waitForStop = false := by
  have hout : (after cap ops).phase.out := by
    rcases (alive_until_ended cap ops).mp hc with ⟨r, h2⟩ | h2 <;> rw [h2] <;> exact ⟨rfl, rfl⟩
  have h1 := startup_wait_hangs cap ops ops' hs (Or.inr ⟨hout, hr⟩)
  have h2 := (nothing_happens_after_shutdown cap ops ops' hc).1
  refine ⟨by simpa [St.returns, St.waitForStartup, St.waitForShutdown] using h2, ?_⟩
  simp only [St.returns, St.waitForStartup, St.waitForShutdown]
  simp [h1]

example (ops : List Op) : (after none (stoppedEarly ++ ops)).returns .waitForShutdown = true ∧
    (after none (stoppedEarly ++ ops)).returns .waitForStop = false := by
  refine wait_for_stop_hangs _ _ _ (by decide) (by decide) ?_
  have : (after none stoppedEarly).mb.received = [(0, Sig.stop)] := by decide
  rw [this]; simp

/-- **C74** So of an actor that has started and is gone: `wait_for_stop` returns exactly if the actor
took its start-up signal. -/
theorem wait_for_stop_of_the_gone (cap : Option Nat) (ops : List Op)
    (hs : .startEnd .ok ∈ (after cap ops).log) (hc : (after cap ops).mb.closed = true) :
    (after cap ops).returns .waitForStop = true ↔ ∃ t, (t, Sig.startup) ∈ (after cap ops).mb.received := by
  constructor
  · intro h
    apply Classical.byContradiction
    intro hn
    have := (wait_for_stop_hangs cap ops [] hs hc (fun t ht => hn ⟨t, ht⟩)).2
    rw [List.append_nil, h] at this
    cases this
  · intro h
    have h1 := (startup_wait_returns_partial cap ops hs).1.mpr h
    simp [St.returns, St.waitForStartup, h1]

example : .startEnd .ok ∈ (after none stoppedEarly).log ∧ (after none stoppedEarly).mb.closed = true ∧
    (after none stoppedEarly).returns .waitForStop = false := by decide

end Verif.Lifecycle
