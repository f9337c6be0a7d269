import Verif.Lifecycle.Model

/-
Model of remote asks over time. `Verif.Remote.Model` says what one remote ask returns; here any number of them to one actor
are under way at once, and each of their steps is an operation of its own: the request on its way, the task that serves it at
the actor's node, its local ask, the response on its way back, the failures of the network, and callers that stop waiting.
The actor is that of `Verif.Lifecycle`, with everything that can happen to it.
-/

namespace Verif.Remote.Asks

open Verif.Mailbox Verif.Lifecycle

/-- What the caller of a remote ask is told by the actor's node, `RemoteSendError` (`src/error.rs` L412-469) or the reply.
`unknown` stands for `UnknownMessage` and `BadActorType`. -/
inductive Answer where
  | ok (v : Nat)
  | handlerError (e : Err)
  | notRunning
  | stopped
  | full
  | replyTimeout
  | unknown
  | deserializeMessage
  | serializeReply
  | serializeHandlerError
  | deserializeHandlerError
  deriving DecidableEq, Repr

/-- The caller, `remote_ask` (`src/request/ask.rs` L785-833): it has not called, it waits (L817), it was told
(`SwarmResponse::Ask`, L818-827), it got a failure of the network (`OutboundFailure`, L828-830), or it dropped the future. -/
inductive Caller where
  | fresh
  | waiting
  | told (a : Answer)
  | netFailed
  | gone
  deriving DecidableEq, Repr

/-- Where the request is: not made, on its way (`src/remote/swarm.rs` L636-648), arrived and given to a task of its own that
has not run yet (L868-891), in its local ask with a ticket (`src/remote/_internal.rs` L108-113, L150-154), answered
(`SendAskResponse`, `src/remote/swarm.rs` L889), or over: the response reached the caller's node, or got lost. -/
inductive Job where
  | none
  | onWay
  | spawned
  | asking (ticket : Nat)
  | answered (a : Answer)
  | over
  deriving DecidableEq, Repr

/-- What the caller asked for, `SwarmCommand::Ask` (`src/remote/swarm.rs` L611-621): the message, whether by `try_send`
(`immediate`), and whether there are time-outs for the mailbox and for the reply. -/
structure Req where
  val : Nat := 0
  imm : Bool := false
  mt : Bool := false
  rt : Bool := false
  deriving DecidableEq, Repr

/-- The task that serves the request finds the actor and can make the message; or the actor is not in the registry; or the
message id is unknown or belongs to another type of actor; or the message cannot be deserialised. `src/remote.rs` L159-167,
`src/remote/_internal.rs` L95-106, L137-148. -/
inductive Found where
  | found
  | notRegistered
  | unknown
  | undecodable
  deriving DecidableEq, Repr

/-- An actor and the remote asks to it (`src/remote/swarm.rs` L611-649, L868-891, L962-993). `hist` is what has happened to the
actor, which is therefore `W.actor`; `tickets` are the sends made for each request. -/
structure W where
  cap : Option Nat
  hist : List Op := []
  caller : Nat → Caller := fun _ => .fresh
  job : Nat → Job := fun _ => .none
  req : Nat → Req := fun _ => {}
  tickets : List (Nat × Nat) := []

/-- The actor (`src/actor/spawn.rs` L306-326, and everything that follows). -/
def W.actor (w : W) : St := after w.cap w.hist

/-- The message sent by the task for a request (`src/remote/_internal.rs` L108-109, L150-151): it has a reply sender, and
that task is not the actor's own (`ActorRef::is_current`, `src/actor/actor_ref.rs` L196-203). -/
def bodyOf (r : Req) : Body := { val := r.val, ask := true, within := false }

/-- What the task makes of the outcome of its local ask (`src/remote/_internal.rs` L114-123, L155-164; `From<SendError>`,
`src/error.rs` L562-572: both time-outs are `ReplyTimeout`). `ser`: the reply, or error, can be serialised. -/
def answerOf (ser : Bool) : Slot → Option Answer
  | .none => Option.none
  | .waiting => Option.none
  | .got (.ok v) => some (if ser then .ok v else .serializeReply)
  | .got (.err e) => some (if ser then .handlerError e else .serializeHandlerError)
  | .failed .notRunning => some .notRunning
  | .failed .full => some .full
  | .failed .mailboxTimeout => some .replyTimeout
  | .failed .actorStopped => some .stopped
  | .gaveUp => some .replyTimeout

/-- What the caller makes of the response (`src/request/ask.rs` L818-827). `dec`: the reply, or error, can be deserialised. -/
def decode (dec : Bool) : Answer → Answer
  | .ok v => if dec then .ok v else .deserializeMessage
  | .handlerError e => if dec then .handlerError e else .deserializeHandlerError
  | a => a

/-- What can happen. `src/remote/swarm.rs` L611-649, L859-993, `src/request/ask.rs` L785-833. -/
inductive WOp where
  /-- a caller makes the remote ask `n`. -/
  | ask (n : Nat) (r : Req)
  /-- the request arrives at the actor's node. -/
  | arrive (n : Nat)
  /-- the request, or the response, gets lost. -/
  | lose (n : Nat)
  /-- the task serving the request runs up to its `await`. -/
  | serve (n : Nat) (f : Found)
  /-- the task sees how its ask ended. -/
  | look (n : Nat) (ser : Bool)
  /-- the response arrives at the caller's node. -/
  | respond (n : Nat) (dec : Bool)
  /-- the caller's node reports a failure of the network. -/
  | netFail (n : Nat)
  /-- the caller drops the future. -/
  | drop (n : Nat)
  /-- something else happens to the actor. -/
  | actor (op : Op)
  deriving DecidableEq, Repr

/-- Set one entry of a function. Helper for the table `requests` of `src/remote/swarm.rs` L503. -/
def set {β : Type} (f : Nat → β) (n : Nat) (b : β) : Nat → β := fun k => if k = n then b else f k

/-- May this happen to the actor by itself? Only a request with a mailbox time-out is given up while it waits for room, only
one with a reply time-out while it waits for the reply, which it does only once there was room (`src/request/ask.rs`
L125-150): the task that serves it is not dropped (`src/remote/_internal.rs` L108-113, L150-154; `src/remote/swarm.rs`
L878). -/
def W.allowed (w : W) : Op → Bool
  | .cancel t => w.tickets.all fun p => !(p.2 == t) || (w.req p.1).mt
  | .giveUp t => w.tickets.all fun p => !(p.2 == t) ||
      ((w.req p.1).rt && !((w.actor.mb.waiting ++ w.actor.mb.granted).any fun q => q.1 == t))
  | _ => true

/-- One step.
* `ask`: `src/request/ask.rs` L800-815 with `src/remote/swarm.rs` L636-648 (without peers the task of L623-635 is spawned at
  once: an `arrive` that follows).
* `arrive`: `src/remote/swarm.rs` L868-878.
* `serve`: `remote::ask` up to its `await`: `src/remote.rs` L159-172, `src/remote/_internal.rs` L95-113, L137-154. It holds a
  reference of its own (L103, L145).
* `look`: `src/remote/_internal.rs` L114-123, L155-164 and `src/remote/swarm.rs` L889; the reference is dropped.
* `respond`: `src/remote/swarm.rs` L962-975: who no longer waits is not told.
* `netFail`: `src/remote/swarm.rs` L976-993, at any time while the caller waits; libp2p does not take back the request.
* `drop`: nobody but the caller notices: the `oneshot` sender stays in `requests` (L973: `let _ =`). -/
def W.step (w : W) : WOp → W
  | .ask n r =>
    if w.caller n = .fresh then
      { w with caller := set w.caller n .waiting, job := set w.job n .onWay, req := set w.req n r }
    else w
  | .arrive n => if w.job n = .onWay then { w with job := set w.job n .spawned } else w
  | .lose n =>
    match w.job n with
    | .onWay => { w with job := set w.job n .over }
    | .answered _ => { w with job := set w.job n .over }
    | _ => w
  | .serve n f =>
    if w.job n = .spawned then
      match f with
      | .found =>
        { w with
          job := set w.job n (.asking w.actor.mb.next)
          tickets := w.tickets ++ [(n, w.actor.mb.next)]
          hist := w.hist ++ [.cloneRef,
            if (w.req n).imm then .trySend (bodyOf (w.req n)) else .send (bodyOf (w.req n))] }
      | .notRegistered => { w with job := set w.job n (.answered .notRunning) }
      | .unknown => { w with job := set w.job n (.answered .unknown) }
      | .undecodable => { w with job := set w.job n (.answered .deserializeMessage) }
    else w
  | .look n ser =>
    match w.job n with
    | .asking t =>
      match answerOf ser (w.actor.slots t) with
      | some a => { w with job := set w.job n (.answered a), hist := w.hist ++ [.dropRef] }
      | none => w
    | _ => w
  | .respond n dec =>
    match w.job n with
    | .answered a =>
      { w with
        job := set w.job n .over
        caller := if w.caller n = .waiting then set w.caller n (.told (decode dec a)) else w.caller }
    | _ => w
  | .netFail n => if w.caller n = .waiting then { w with caller := set w.caller n .netFailed } else w
  | .drop n => if w.caller n = .waiting then { w with caller := set w.caller n .gone } else w
  | .actor op => if w.allowed op then { w with hist := w.hist ++ [op] } else w

/-- A history, from a fresh actor (`src/actor/spawn.rs` L306-326) to which nobody has asked anything. -/
def run (cap : Option Nat) (ops : List WOp) : W := ops.foldl W.step { cap := cap }

end Verif.Remote.Asks
