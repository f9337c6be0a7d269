import Verif.Lifecycle.Model

/-
Model of `ActorRef::attach_stream`, `src/actor/actor_ref.rs` L769-812: a task that tells an actor the start
value, each item of a stream and the finish value. The actor is that of `Verif/Lifecycle/Model.lean`.
-/

namespace Verif.Stream

open Verif.Lifecycle

/-- `StreamMessage`, `src/message.rs` L58-66. Simplification: the start and finish values are left out, items
are numbers. -/
inductive SMsg where
  | started
  | next (x : Nat)
  | finished
  deriving DecidableEq, Repr

/-- The payload of a stream message. `StreamMessage`, `src/message.rs` L59-66. -/
def SMsg.code : SMsg → Nat
  | .started => 0
  | .finished => 1
  | .next x => x + 2

/-- The message the actor gets. It is a tell, and as the task is another one than the actor's
(`tokio::spawn`, `src/actor/actor_ref.rs` L784) it does not count as sent from within the actor. -/
def SMsg.body (m : SMsg) : Body := ⟨m.code, false, false⟩

/-- Where the task is. The suspension points of `src/actor/actor_ref.rs` L783-811. -/
inductive Task where
  /-- not yet polled. -/
  | fresh
  /-- awaiting `tell(..).send()`, whose send operation has number `t`. -/
  | sending (t : Nat) (m : SMsg)
  /-- in `select!`, `src/actor/actor_ref.rs` L790-802. -/
  | selecting
  /-- returned `Ok(stream)` (`true`) or the error of a send. -/
  | returned (ok : Bool)
  /-- aborted, or its runtime shut down. -/
  | cancelled
  deriving DecidableEq, Repr

/-- The actor, and the task and its stream, `src/actor/actor_ref.rs` L782-783. -/
structure St where
  a : Lifecycle.St
  task : Task := .fresh
  /-- ghost: the items the stream has yielded so far. -/
  items : List Nat := []
  /-- ghost: the stream has ended. -/
  ended : Bool := false
  /-- ghost: the send operations of the task, in order. -/
  sends : List (Nat × SMsg) := []

/-- A step of the actor, or of the task (`src/actor/actor_ref.rs` L783-811). -/
inductive Op where
  /-- anything else that happens to the actor: its own steps, and those of other senders, linked actors and
  references. Nobody but the task itself can give up the task's sends. -/
  | env (op : Lifecycle.Op)
  /-- the task is polled for the first time. -/
  | start
  /-- `stream.next()` gives an item. -/
  | yield (x : Nat)
  /-- `stream.next()` gives `None`. -/
  | endOfStream
  /-- `wait_for_shutdown` returns. -/
  | seeShutdown
  /-- the pending send is polled and has completed. -/
  | advance
  /-- the task is aborted. -/
  | abort
  deriving DecidableEq, Repr

/-- `actor_ref.tell(m).send()`, up to its first suspension. `src/actor/actor_ref.rs` L784-787,
L794, L805-808. -/
def St.send (s : St) (m : SMsg) : St :=
  { s with
    a := s.a.step (.send m.body)
    task := .sending s.a.mb.next m
    sends := s.sends ++ [(s.a.mb.next, m)] }

/-- `src/actor/actor_ref.rs` L783-811. -/
def St.step (s : St) : Op → St
  | .env (.cancel t) => if t ∈ s.sends.map (·.1) then s else { s with a := s.a.step (.cancel t) }
  | .env op => { s with a := s.a.step op }
  | .start =>
    match s.task with
    | .fresh => s.send .started
    | _ => s
  | .yield x =>
    match s.task with
    | .selecting => { s with items := s.items ++ [x] }.send (.next x)
    | _ => s
  | .endOfStream =>
    match s.task with
    | .selecting => { s with ended := true }.send .finished
    | _ => s
  | .seeShutdown =>
    match s.task with
    | .selecting => if s.a.mb.closed then { s with task := .returned true } else s
    | _ => s
  | .advance =>
    match s.task with
    | .sending t m =>
      if t ∈ s.a.mb.pushed.map (·.1) then
        { s with task := if m = .finished then .returned true else .selecting }
      else if t ∈ s.a.mb.failed.map (·.1) then { s with task := .returned false }
      else s
    | _ => s
  | .abort =>
    match s.task with
    | .sending t _ => { s with a := s.a.step (.cancel t), task := .cancelled }
    | .returned _ => s
    | _ => { s with task := .cancelled }

/-- `attach_stream` is called when the actor has had the history `before`; then `ops` happen.
`src/actor/actor_ref.rs` L769-783. -/
def after (cap : Option Nat) (before : List Lifecycle.Op) (ops : List Op) : St :=
  ops.foldl St.step { a := Lifecycle.after cap before }

end Verif.Stream
