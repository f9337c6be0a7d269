/-
Model of the way from a message in the mailbox to the code that handles it: `ActorBehaviour`
(`src/actor/kind.rs` L51-125), with the two functions of the user it could call, the handler of the message
type and `Actor::on_message` (`src/actor.rs` L140-176).
-/

namespace Verif.Hook

/-- How a handler ended. The `Result` of `DynMessage::handle_dyn`, `src/message.rs` L281-308, or a
caught panic, `src/actor/kind.rs` L115-124. -/
inductive Res where
  | ok
  | err
  | panic
  deriving DecidableEq, Repr

/-- What the user writes for an actor with state `σ` and messages `μ`. `Actor::on_message` and
`Actor::on_panic` of `src/actor.rs` L133-234, and `Message::handle`, `src/message.rs` L44-48. -/
structure Code (σ μ : Type) where
  /-- `handle_dyn`, `src/message.rs` L286-308: runs `Message::handle` of the message's type. Simplification:
  replies are left out (they are in `Verif/Lifecycle`). -/
  handle : σ → μ → σ × Res
  /-- `Actor::on_message`, `src/actor.rs` L169-176. -/
  onMessage : σ → μ → σ × Res

/-- The default of `on_message`, `src/actor.rs` L175. -/
def Code.default (handle : σ → μ → σ × Res) : Code σ μ := ⟨handle, handle⟩

/-- `ActorBehaviour`, `src/actor/kind.rs` L51-56. -/
structure Beh (σ μ : Type) where
  state : σ
  finished : Bool := false
  buffer : List μ := []
  /-- ghost: the messages handled so far, in order. -/
  handled : List μ := []

/-- `handle_message`, `src/actor/kind.rs` L97-125. The second component says whether the loop goes on
(`ControlFlow::Continue`). -/
def handleMessage (c : Code σ μ) (b : Beh σ μ) (m : μ) (within : Bool) : Beh σ μ × Bool :=
  if !within && !b.finished then
    ({ b with buffer := b.buffer ++ [m] }, true)
  else
    let r := c.handle b.state m
    ({ b with state := r.1, handled := b.handled ++ [m] }, r.2 = .ok)

/-- The loop over the start-up buffer, `src/actor/kind.rs` L78-91. -/
def drain (c : Code σ μ) (b : Beh σ μ) : List μ → Beh σ μ
  | [] => b
  | m :: ms =>
    let r := handleMessage c b m false
    if r.2 then drain c r.1 ms else r.1

/-- What the loop takes out of the mailbox (`src/actor/spawn.rs` L616-658). Simplification: after an error `on_panic`
leaves the state as it is and continues. -/
inductive Sig (μ : Type) where
  | startupFinished
  | msg (m : μ) (within : Bool)

/-- One signal handled by the loop, `src/actor/spawn.rs` L616-658 with `src/actor/kind.rs`
L97-125. -/
def Beh.step (c : Code σ μ) (b : Beh σ μ) : Sig μ → Beh σ μ
  | .startupFinished => drain c { b with finished := true, buffer := [] } b.buffer
  | .msg m w => (handleMessage c b m w).1

/-- The loop over a list of signals, `src/actor/spawn.rs` L616-658. -/
def run (c : Code σ μ) (s0 : σ) (sigs : List (Sig μ)) : Beh σ μ :=
  sigs.foldl (Beh.step c) { state := s0 }

end Verif.Hook
