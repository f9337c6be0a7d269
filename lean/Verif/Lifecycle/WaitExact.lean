import Verif.Lifecycle.PropsExact
import Verif.Lifecycle.PropsWait
import Verif.Request.Props

/-!
Exactly when `wait_for_stop` returns (C74, `src/actor/actor_ref.rs` L346-353) and when `stop_gracefully` panics (C21,
`src/actor/actor_ref.rs` L209-212).
-/

namespace Verif.Lifecycle

open Verif.Mailbox

/-- **C74**, exactly: `wait_for_stop` returns if and only if `on_start` has failed or the actor has taken its start-up
signal; that the actor has stopped has no part in it. -/
theorem wait_for_stop_iff (cap : Option Nat) (ops : List Op) :
    (after cap ops).returns .waitForStop = true ↔
      (∃ e, .startEnd (.err e) ∈ (after cap ops).log ∨ .startEnd (.panic e) ∈ (after cap ops).log) ∨
      ∃ t, (t, Sig.startup) ∈ (after cap ops).mb.received := by
  rw [← startup_wait_iff]
  simp only [St.returns, St.waitForStartup, decide_eq_true_eq]
  constructor
  · intro hp
    have := permits_le_one cap ops
    omega
  · omega

/-- A running actor for which it has returned, and a stopped one for which it never will. -/
example : (after (some 4) demo).returns .waitForStop = true ∧ (after (some 4) demo).returns .waitForShutdown = false ∧
    (after none stoppedEarly).returns .waitForStop = false ∧ (after none stoppedEarly).returns .waitForShutdown = true := by
  decide

/-- **C21**, exactly: whatever the history, a `stop_gracefully` is refused and panics at once if and only if the actor has
ended. -/
theorem stop_gracefully_panics_iff (cap : Option Nat) (ops : List Op) :
    (∃ w, ((after cap ops).mb.next, Sig.stop, w) ∈ (after cap (ops ++ [.sendStop])).mb.failed ∧
      Request.stopGracefully (some w) = .panic) ↔ (after cap ops).phase.ended = true := by
  refine ⟨?_, Request.stop_gracefully_on_stopped_actor_panics cap ops⟩
  rintro ⟨w, hw, -⟩
  have hs := shape_after cap ops
  refine Classical.byContradiction fun he => ?_
  have hc := hs.closed
  rw [Bool.eq_false_iff.mpr he] at hc
  have hnew : ((after cap ops).mb.next, Sig.stop, w) ∉ (after cap ops).mb.failed := by
    intro hw
    have : unwhy ((after cap ops).mb.next, Sig.stop, w) ∈ (after cap ops).mb.failed.map unwhy := List.mem_map_of_mem hw
    have := hs.mb.sent_lt _ (hs.mb.mem_sent (p := unwhy ((after cap ops).mb.next, Sig.stop, w))
      (List.mem_append_right _ this))
    simp [unwhy] at this
  rw [after_append] at hw
  simp only [St.exec, List.foldl, St.step, Mb.send, hc] at hw
  refine hnew ?_
  revert hw
  cases (after cap ops).mb.hasRoom <;> simp [Mb.push, Mb.bump]

example : (after (some 1) [.send (tell 1), .teardown]).phase.ended = true ∧
    (after (some 1) [.send (tell 1)]).phase.ended = false := by decide

end Verif.Lifecycle
