import Verif.Mailbox.Lemmas

/-!
Actors whose handlers send requests to actors and wait for them: `src/request/ask.rs`, `src/request/tell.rs`,
`src/actor/kind.rs`.

Any number of actors, named by numbers, each with its mailbox (`Verif.Mailbox`). An actor is waiting for a signal, or runs
one handler. What a handler does is a program: it returns a value, or makes a request and goes on depending on the answer.
Simplifications: the actors have been started (start-up is in `Verif.Lifecycle`); a handler waits for one request at a
time, and answers when it returns (delegated and forwarded replies are in `Verif.Request`); links are left out
(`Verif.System`); time-outs have no length, they may pass at any moment (lengths are in `Verif.Timed`); an actor that is
killed, or that takes a stop signal, is gone at once (the steps of stopping are in `Verif.Lifecycle`).
-/

namespace Verif.Calls

open Verif.Mailbox

/-- A request made by a handler. `tgt`: the actor it is sent to. `ask`: is a reply awaited? (`src/request/ask.rs`
L107-157, `src/request/tell.rs` L81-100.) `wait`: `send`, not `try_send` (`ask.rs` L327-360, `tell.rs` L105-121).
`mt`, `rt`: is there a time-out for the mailbox, for the reply? (`ask.rs` L59-96.) -/
structure Call where
  tgt : Nat
  ask : Bool := true
  wait : Bool := true
  mt : Bool := false
  rt : Bool := false
  msg : Nat := 0
  deriving DecidableEq, Repr

/-- How a request came back: a tell was taken by the mailbox; the reply; `ActorStopped`; `ActorNotRunning`;
`MailboxFull`; `Timeout`. `src/error.rs` L181-201, L270-324. -/
inductive Ans where
  | sent
  | value (v : Nat)
  | stopped
  | notRunning
  | full
  | timeout
  deriving DecidableEq, Repr

/-- What is left of a handler (user code: `Message::handle`, `src/message.rs` L34-58). -/
inductive Prog where
  | ret (v : Nat)
  | call (c : Call) (k : Ans → Prog)

/-- A signal. A message carries the number of its reply channel if it was asked (`Signal::Message`, `src/mailbox.rs`
L438-463). `src`: the actor whose handler sent it, or none (ghost, no operation of an actor reads it). -/
inductive Sig where
  | msg (src : Option Nat) (m : Nat) (reply : Option Nat)
  | stop
  deriving DecidableEq, Repr

/-- The reply channel of a signal. `src/mailbox.rs` L443-448. -/
def Sig.reply : Sig → Option Nat
  | .msg _ _ r => r
  | .stop => none

/-- The actor that sent a signal. Ghost; `src/mailbox.rs` L438-463. -/
def Sig.src : Sig → Option Nat
  | .msg s _ _ => s
  | .stop => none

/-- Where a handler is: about to run on; in `send` of a mailbox, with ticket `t` and reply channel `ch`
(`src/request/ask.rs` L125-134, `src/request/tell.rs` L92-97); waiting for the reply (`src/request/ask.rs` L135-138). -/
inductive Pc where
  | go (p : Prog)
  | sending (c : Call) (t ch : Nat) (k : Ans → Prog)
  | awaiting (c : Call) (ch : Nat) (k : Ans → Prog)

/-- What an actor does: it waits for a signal (`src/actor/spawn.rs` L520-560), it handles a message with reply channel
`r` (`src/actor/kind.rs` L97-126), it is gone. -/
inductive Hand where
  | idle
  | busy (r : Option Nat) (pc : Pc)
  | ended

/-- A `oneshot` channel: not made, open, with a value, its sender dropped. `src/request/ask.rs` L117. -/
inductive Chan where
  | none
  | opn
  | value (v : Nat)
  | dropped
  deriving DecidableEq, Repr

/-- All actors and the reply channels. `src/mailbox.rs` L42-50, `src/request/ask.rs` L117. -/
structure World where
  mb : Nat → Mb Sig
  hand : Nat → Hand := fun _ => .idle
  chan : Nat → Chan := fun _ => .none
  calls : Nat := 0

/-- All mailboxes empty; `caps` are their capacities. `src/mailbox.rs` L27-40. -/
def World.fresh (caps : Nat → Option Nat) : World := { mb := fun a => Mb.fresh (caps a) }

/-- Change what an actor does. Bookkeeping; `src/actor/kind.rs` L97-126. -/
def World.setHand (w : World) (a : Nat) (h : Hand) : World :=
  { w with hand := fun x => if x = a then h else w.hand x }

/-- Change a mailbox. Bookkeeping; `src/mailbox.rs` L42-50. -/
def World.setMb (w : World) (a : Nat) (m : Mb Sig) : World :=
  { w with mb := fun x => if x = a then m else w.mb x }

/-- A handler's reply sender is used or dropped: `ReplySender::send` (`src/reply.rs` L168-178), drop of `ReplySender`. -/
def World.answer (w : World) (r : Option Nat) (x : Chan) : World :=
  match r with
  | none => w
  | some ch => { w with chan := fun y => if y = ch ∧ w.chan ch = .opn then x else w.chan y }

/-- Signals are dropped, and with them their reply senders: drop of `MailboxReceiver`, `src/mailbox.rs` L247-252. -/
def World.dropReplies (w : World) (l : List (Nat × Sig)) : World :=
  { w with chan := fun y => if w.chan y = .opn ∧ l.any (fun p => p.2.reply == some y) then .dropped else w.chan y }

/-- The actor's task is over: its receiver is dropped. End of `run_actor_lifecycle`, `src/actor/spawn.rs` L562-591. -/
def World.finish (w : World) (a : Nat) : World :=
  ((w.dropReplies (w.mb a).queue).setMb a (w.mb a).close).setHand a .ended

/-- `send` or `try_send` of a mailbox: `src/request/ask.rs` L126-134, L343; `src/request/tell.rs` L94-98, L112-121. -/
def put {α : Type} (wait : Bool) (m : Mb α) (x : α) : Mb α := if wait then m.send x else m.trySend x

/-- The actor's handler makes a request: `src/request/ask.rs` L117-134 (`send`), L335-343 (`try_send`),
`src/request/tell.rs` L81-98, L105-121. -/
def World.call (w : World) (a : Nat) (r : Option Nat) (c : Call) (k : Ans → Prog) : World :=
  let ch := w.calls
  let sig := Sig.msg (some a) c.msg (if c.ask then some ch else none)
  let m := w.mb c.tgt
  let w' : World := { w with
    calls := ch + 1
    chan := fun y => if y = ch ∧ c.ask = true then .opn else w.chan y
    mb := fun x => if x = c.tgt then put c.wait m sig else w.mb x }
  w'.setHand a (.busy r
    (if m.closed then .go (k .notRunning)
     else if m.hasRoom then (if c.ask then .awaiting c ch k else .go (k .sent))
     else if c.wait then .sending c m.next ch k
     else .go (k .full)))

/-- The actor's task is polled while it runs a handler. `src/actor/kind.rs` L116-118; the `await`s at
`src/request/ask.rs` L128-138 and `src/request/tell.rs` L94-95. -/
def World.poll (w : World) (a : Nat) : World :=
  match w.hand a with
  | .busy r (.go (.ret v)) => (w.answer r (.value v)).setHand a .idle
  | .busy r (.go (.call c k)) => w.call a r c k
  | .busy r (.sending c t ch k) =>
    let m := w.mb c.tgt
    if m.closed then w.setHand a (.busy r (.go (k .notRunning)))
    else if t ∈ m.granted.map (·.1) then
      (w.setMb c.tgt (m.poll t)).setHand a (.busy r (if c.ask then .awaiting c ch k else .go (k .sent)))
    else w
  | .busy r (.awaiting _ ch k) =>
    match w.chan ch with
    | .value v => w.setHand a (.busy r (.go (k (.value v))))
    | .dropped => w.setHand a (.busy r (.go (k .stopped)))
    | _ => w
  | _ => w

/-- The time-out of the request the actor waits for has passed; `tokio::time::timeout` looks at what it wraps first.
`src/request/ask.rs` L128, L136; `src/request/tell.rs` L94. -/
def World.expire (w : World) (a : Nat) : World :=
  match w.hand a with
  | .busy r (.sending c t _ k) =>
    let m := w.mb c.tgt
    if c.mt = true ∧ m.closed = false ∧ t ∉ m.granted.map (·.1) then
      (w.setMb c.tgt (m.cancel t)).setHand a (.busy r (.go (k .timeout)))
    else w
  | .busy r (.awaiting c ch k) =>
    if c.rt = true ∧ w.chan ch = .opn then w.setHand a (.busy r (.go (k .timeout))) else w
  | _ => w

/-- The actor takes the next signal from its mailbox; `p` is what the handler of a message will do.
`src/actor/spawn.rs` L520-560, `src/actor/kind.rs` L97-126, L151-156 (stop). -/
def World.recv (w : World) (a : Nat) (p : Prog) : World :=
  match w.hand a, (w.mb a).queue with
  | .idle, (_, .msg _ _ r) :: _ => (w.setMb a (w.mb a).recv).setHand a (.busy r (.go p))
  | .idle, (_, .stop) :: _ => (w.setMb a (w.mb a).recv).finish a
  | _, _ => w

/-- The handler panics and `on_panic` says to continue. `src/actor/kind.rs` L116-125. -/
def World.fail (w : World) (a : Nat) : World :=
  match w.hand a with
  | .busy r (.go _) => (w.answer r .dropped).setHand a .idle
  | _ => w

/-- The actor is killed: the future of its handler is dropped, with the request it waits for and its reply sender.
`ActorRef::kill`, `src/actor/actor_ref.rs` L222-224; `src/actor/spawn.rs` L503-513. -/
def World.kill (w : World) (a : Nat) : World :=
  match w.hand a with
  | .ended => w
  | .idle => w.finish a
  | .busy r (.sending c t _ _) =>
    (((w.setMb c.tgt ((w.mb c.tgt).cancel t)).answer r .dropped)).finish a
  | .busy r _ => (w.answer r .dropped).finish a

/-- A request made outside of handlers, up to its first suspension. `src/request/ask.rs` L117-134. -/
def World.out (w : World) (b : Nat) (ask : Bool) (m : Nat) : World :=
  { w with
    calls := w.calls + 1
    chan := fun y => if y = w.calls ∧ ask = true then .opn else w.chan y
    mb := fun x => if x = b then put true (w.mb b) (.msg none m (if ask then some w.calls else none)) else w.mb x }

/-- `stop_gracefully`, called outside of handlers. `src/actor/actor_ref.rs` L210-212. -/
def World.stop (w : World) (b : Nat) : World := w.setMb b (put true (w.mb b) .stop)

/-- A send operation made outside of handlers that was handed a slot is polled. `src/mailbox.rs` L59-64. -/
def World.outPoll (w : World) (b t : Nat) : World :=
  if (w.mb b).granted.any (fun p => p.1 == t && p.2.src == none) then w.setMb b ((w.mb b).poll t) else w

/-- A send operation made outside of handlers is given up. `src/error.rs` L303-318. -/
def World.outCancel (w : World) (b t : Nat) : World :=
  if ((w.mb b).granted ++ (w.mb b).waiting).any (fun p => p.1 == t && p.2.src == none) then
    w.setMb b ((w.mb b).cancel t)
  else w

/-- What can happen. `src/actor/kind.rs` L97-156, `src/request/ask.rs` L107-360, `src/actor/actor_ref.rs` L210-224. -/
inductive Op where
  | recv (a : Nat) (p : Prog)
  | poll (a : Nat)
  | expire (a : Nat)
  | fail (a : Nat)
  | kill (a : Nat)
  | out (b : Nat) (ask : Bool) (m : Nat)
  | stop (b : Nat)
  | outPoll (b t : Nat)
  | outCancel (b t : Nat)

/-- One step. `src/actor/kind.rs` L97-156, `src/request/ask.rs` L107-360, `src/actor/actor_ref.rs` L210-224. -/
def World.step (w : World) : Op → World
  | .recv a p => w.recv a p
  | .poll a => w.poll a
  | .expire a => w.expire a
  | .fail a => w.fail a
  | .kill a => w.kill a
  | .out b q m => w.out b q m
  | .stop b => w.stop b
  | .outPoll b t => w.outPoll b t
  | .outCancel b t => w.outCancel b t

/-- A history. `World.step` along a list (`src/actor/kind.rs` L97-156, `src/request/ask.rs` L107-360). -/
def World.run (w : World) (ops : List Op) : World := ops.foldl World.step w

/-- Does the code warn of a deadlock when actor `a` makes this request? `warn_deadlock`, `src/request/ask.rs` L115 and
L836-846 (`send`), `src/request/tell.rs` L89-98 and L410-425 (`send` to a bounded mailbox), in debug builds with `tracing`.
`is_current` holds in the handlers of a spawned actor for the actor itself (`Verif.Current`). -/
def warns (caps : Nat → Option Nat) (a : Nat) (c : Call) : Bool :=
  c.wait && (c.ask || (caps c.tgt).isSome) && c.tgt == a

end Verif.Calls
