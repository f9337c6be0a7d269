import Verif.Request.Model

/-
Model of the places in which the blocking methods and the spawn functions are called: `src/request/ask.rs` L453-574,
`src/request/tell.rs` L124-140, `src/message.rs` L227-257, `src/actor/actor_ref.rs` L553-570, L675-686, `src/mailbox.rs`
L300-318, `src/actor/spawn.rs` L380-411. What tokio knows about a thread is modelled as documented by tokio: a handle to a
runtime, and whether the thread is at work on futures for a runtime.
-/

namespace Verif.Blocking

open Verif.Mailbox Verif.Request

/-- `RuntimeFlavor`, asked for by `src/actor/spawn.rs` L400. -/
inductive Flavor where
  | current | multi
  deriving DecidableEq, Repr

/-- What tokio knows of the thread some code runs in. `handle`: the runtime of `Handle::current()`
(`src/actor/spawn.rs` L399). `driving`: the runtime whose futures the thread is polling, if any; then tokio lets nothing
block (`blocking_send` of `src/request/ask.rs` L467). -/
structure Ctx where
  handle : Option Flavor := none
  driving : Option Flavor := none
  deriving DecidableEq, Repr

/-- How code comes to run in some place. No code of kameo but `task`, `blockOn` and `spawnBlocking`:
`src/actor/spawn.rs` L383, L408, `src/request/ask.rs` L888. -/
inductive Way where
  /-- a thread of the standard library -/
  | thread
  /-- `Runtime::enter` -/
  | guard (fl : Flavor)
  /-- `tokio::spawn` -/
  | task
  /-- `Runtime::block_on`, also by `#[tokio::main]` -/
  | blockOn (fl : Flavor)
  /-- `tokio::task::spawn_blocking` -/
  | spawnBlocking
  /-- `tokio::task::block_in_place` -/
  | blockInPlace
  deriving DecidableEq, Repr

/-- The place code runs in that is started from place `c`; or the panic of tokio if it cannot be started there.
The rules are tokio's; `src/actor/spawn.rs` L383, L408 and `src/request/ask.rs` L888 rely on them. -/
def Ctx.go (c : Ctx) : Way → Out Ctx
  | .thread => .val {}
  | .guard fl => .val { c with handle := some fl }
  | .task =>
    match c.handle with
    | none => .panic
    | some fl => .val ⟨some fl, some fl⟩
  | .blockOn fl =>
    match c.driving with
    | some _ => .panic
    | none => .val ⟨some fl, some fl⟩
  | .spawnBlocking =>
    match c.handle with
    | none => .panic
    | some fl => .val ⟨some fl, none⟩
  | .blockInPlace =>
    match c.driving with
    | none => .val c
    | some .multi => .val { c with driving := none }
    | some .current => .panic

/-- The place reached by some ways in turn, from the thread the program starts in (`main`). Bookkeeping for
`src/actor/spawn.rs` L383, L408. -/
def reach (ws : List Way) : Out Ctx :=
  ws.foldl (fun o w => match o with | .val c => c.go w | .panic => .panic) (.val {})

/-- A wait that blocks the thread: `blocking_send` and `blocking_recv` of tokio's channels, `blocking_lock` of its mutex.
They panic at once if the thread is polling futures, even if there is nothing to wait for.
`src/request/ask.rs` L467, L469, `src/request/tell.rs` L136, `src/actor/actor_ref.rs` L558-559, `src/mailbox.rs` L302-303. -/
def Ctx.block (c : Ctx) (r : α) : Out α :=
  match c.driving with
  | some _ => .panic
  | none => .val r

/-- The kind of mailbox: `MailboxSender`, `src/mailbox.rs` L56-61. -/
inductive Kind where
  | bounded | unbounded
  deriving DecidableEq, Repr

/-- What a call does: whether the mailbox takes the signal, and what the caller gets.
Bookkeeping for `src/request/ask.rs` L107-157, L453-482. -/
structure Call (α : Type) where
  accepted : Bool
  out : Out α

/-- The part of a call up to the acceptance of the signal; `next` is the rest. `r`: the answer of the channel, converted
(`Verif.Request.sendTry`). `src/request/ask.rs` L465-469. -/
def Call.after {ε β : Type} (r : Out (Except ε Unit)) (next : Out (Except ε β)) : Call (Except ε β) :=
  match r with
  | .panic => ⟨false, .panic⟩
  | .val (.error e) => ⟨false, .val (.error e)⟩
  | .val (.ok ()) => ⟨true, next⟩

/-- The same by a channel's `blocking_send` (bounded) or `send` (unbounded). `src/request/ask.rs` L465-474. -/
def Call.afterBlocking {ε β : Type} (c : Ctx) (k : Kind) (r : Out (Except ε Unit)) (next : Out (Except ε β)) :
    Call (Except ε β) :=
  match k with
  | .unbounded => Call.after r next
  | .bounded =>
    match c.block () with
    | .panic => ⟨false, .panic⟩
    | .val () => Call.after r next

/-- What an asker makes of what came through the reply channel; `none`: the sender was dropped (`RecvError`).
`src/request/ask.rs` L131-142 without a time-out. -/
def awaited (n : Ty) (r : RTy) (p : Option Packet) : Out (Except (SendError n.Sem r.err.Sem) r.ok.Sem) :=
  match p with
  | none => .val (.error .actorStopped)
  | some p => decode n r p

/-- The same with `blocking_recv`. `src/request/ask.rs` L469-472, L562-565; `BlockingPendingReply::recv`, L618-620. -/
def awaitedBlocking (c : Ctx) (n : Ty) (r : RTy) (p : Option Packet) : Out (Except (SendError n.Sem r.err.Sem) r.ok.Sem) :=
  match c.block () with
  | .panic => .panic
  | .val () => awaited n r p

/-- `TellRequest::send` without a time-out, `src/request/tell.rs` L78-100. -/
def tellSend (m : Ty) (x : m.Sem) (why : Option Why) : Call (Except (SendError m.Sem Empty) Unit) :=
  Call.after (tell m x why) (.val (.ok ()))

/-- `TellRequest::blocking_send`, `src/request/tell.rs` L124-140. -/
def tellBlockingSend (c : Ctx) (k : Kind) (m : Ty) (x : m.Sem) (why : Option Why) :
    Call (Except (SendError m.Sem Empty) Unit) :=
  Call.afterBlocking c k (tell m x why) (.val (.ok ()))

/-- `AskRequest::send` without time-outs, `src/request/ask.rs` L107-157. `p`: what comes through the reply channel. -/
def askSend (m : Ty) (r : RTy) (x : m.Sem) (ch : Nat) (why : Option Why) (p : Option Packet) :
    Call (Except (SendError m.Sem r.err.Sem) r.ok.Sem) :=
  Call.after (ask m r.err x ch why) (awaited m r p)

/-- `AskRequest::blocking_send`, `src/request/ask.rs` L453-482. -/
def askBlockingSend (c : Ctx) (k : Kind) (m : Ty) (r : RTy) (x : m.Sem) (ch : Nat) (why : Option Why) (p : Option Packet) :
    Call (Except (SendError m.Sem r.err.Sem) r.ok.Sem) :=
  Call.afterBlocking c k (ask m r.err x ch why) (awaitedBlocking c m r p)

/-- `AskRequest::enqueue` without time-outs, `src/request/ask.rs` L186-240, as far as the `PendingReply`. -/
def askEnqueue (m : Ty) (x : m.Sem) (ch : Nat) (why : Option Why) : Call (Except (SendError Unit Empty) Unit) :=
  Call.after (enqueue m x ch why) (.val (.ok ()))

/-- `AskRequest::blocking_enqueue`, `src/request/ask.rs` L545-574, as far as the `BlockingPendingReply`. -/
def askBlockingEnqueue (c : Ctx) (k : Kind) (m : Ty) (x : m.Sem) (ch : Nat) (why : Option Why) :
    Call (Except (SendError Unit Empty) Unit) :=
  Call.afterBlocking c k (enqueue m x ch why) (.val (.ok ()))

/-- `Context::forward`, `src/message.rs` L156-188: whether the mailbox takes the message, what the handler gets, and the
reply channel the context holds afterwards (lost if the call panics). -/
def forwardAsync (m r e : Ty) (reply : Option Nat) (x : m.Sem) (why : Option Why) :
    Call (Except (SendError m.Sem e.Sem) Unit) × Option Nat :=
  match ctxForward m r e reply x why with
  | .panic => (⟨false, .panic⟩, none)
  | .val (res, back) => (⟨why.isNone, .val res⟩, back)

/-- `Context::blocking_forward`, `src/message.rs` L227-257. -/
def forwardBlocking (c : Ctx) (k : Kind) (m r e : Ty) (reply : Option Nat) (x : m.Sem) (why : Option Why) :
    Call (Except (SendError m.Sem e.Sem) Unit) × Option Nat :=
  match k with
  | .unbounded => forwardAsync m r e reply x why
  | .bounded =>
    match c.block () with
    | .panic => (⟨false, .panic⟩, none)
    | .val () => forwardAsync m r e reply x why

/-- The links of actors: the siblings of each. `src/actor/actor_ref.rs` L560-564. -/
abbrev LinkSet := Nat → List Nat

/-- The two insertions, `src/actor/actor_ref.rs` L521-525, L560-564. -/
def LinkSet.join (l : LinkSet) (a b : Nat) : LinkSet := fun x =>
  if x = a then b :: (l x).filter (· ≠ b) else if x = b then a :: (l x).filter (· ≠ a) else l x

/-- The two removals, `src/actor/actor_ref.rs` L644-645, L682-683. -/
def LinkSet.part (l : LinkSet) (a b : Nat) : LinkSet := fun x =>
  if x = a then (l x).filter (· ≠ b) else if x = b then (l x).filter (· ≠ a) else l x

/-- `ActorRef::blocking_link`, `src/actor/actor_ref.rs` L553-565; both locks are free. The links afterwards, and whether the call
returns. -/
def blockingLink (c : Ctx) (l : LinkSet) (a b : Nat) : LinkSet × Out Unit :=
  if a = b then (l, .val ())
  else
    match c.block () with
    | .panic => (l, .panic)
    | .val () => (l.join a b, .val ())

/-- `ActorRef::blocking_unlink`, `src/actor/actor_ref.rs` L675-684. -/
def blockingUnlink (c : Ctx) (l : LinkSet) (a b : Nat) : LinkSet × Out Unit :=
  if a = b then (l, .val ())
  else
    match c.block () with
    | .panic => (l, .panic)
    | .val () => (l.part a b, .val ())

/-- `ActorRef::link` and `ActorRef::unlink`, `src/actor/actor_ref.rs` L514-525, L637-646, with both locks free. -/
def asyncLink (l : LinkSet) (a b : Nat) : LinkSet := if a = b then l else l.join a b

/-- See `asyncLink`. `src/actor/actor_ref.rs` L637-646. -/
def asyncUnlink (l : LinkSet) (a b : Nat) : LinkSet := if a = b then l else l.part a b

/-- `PreparedActor::spawn`, `src/actor/spawn.rs` L380-393: the place the hooks and handlers of the actor run in. -/
def spawn (c : Ctx) : Out Ctx := c.go .task

/-- `PreparedActor::spawn_in_thread`, `src/actor/spawn.rs` L398-411: `Handle::current()` panics without a runtime; then the check of
the flavor; then `Handle::block_on` in a new thread. -/
def spawnInThread (c : Ctx) : Out Ctx :=
  match c.handle with
  | none => .panic
  | some .current => .panic
  | some .multi => ({} : Ctx).go (.blockOn .multi)

/-- The example in the documentation of `spawn_in_thread` and of `spawn_in_thread_with_mailbox`, `src/actor/spawn.rs` L204-208,
L256-259, run in place `c`: `spawn_in_thread`, then `blocking_send` of a tell to that actor. It has a bounded mailbox; the
answer of the mailbox is `why`. -/
def docExample (c : Ctx) (m : Ty) (x : m.Sem) (why : Option Why) : Out (Except (SendError m.Sem Empty) Unit) :=
  match spawnInThread c with
  | .panic => .panic
  | .val _ => (tellBlockingSend c .bounded m x why).out

end Verif.Blocking
