/-
Model of an actor mailbox: `src/mailbox.rs` over tokio's `mpsc` channels.

tokio itself is not part of /repo; its behaviour (fair semaphore, hand-over of a freed
slot to the first waiter, closing fails all waiters) is an assumption recorded in
DESIGN.md and written down here.
-/

namespace Verif.Mailbox

/-- Why a send did not put its value in the queue.
`src/error.rs` L270-318: `ActorNotRunning` (closed), `MailboxFull`, `Timeout(Some)`. -/
inductive Why where
  | closed
  | full
  | timeout
  deriving DecidableEq, Repr

/-- A mailbox of signals `α`. Each send operation gets a ticket (ghost: `next` counts the
send operations started). `src/mailbox.rs` L27-40 (`bounded`, `unbounded`), L42-50.
Simplification: the ghost lists `sent`, `pushed`, `received`, `lost`, `failed` are history only,
no operation reads them. -/
structure Mb (α : Type) where
  /-- `some c` for `mailbox::bounded(c)`, `none` for `mailbox::unbounded()`. -/
  cap : Option Nat
  /-- accepted and not yet received signals, oldest first. -/
  queue : List (Nat × α) := []
  /-- pending sends to which a freed slot was handed over but which have not run yet. -/
  granted : List (Nat × α) := []
  /-- pending sends waiting for capacity, oldest first. -/
  waiting : List (Nat × α) := []
  /-- the receiver is gone. -/
  closed : Bool := false
  next : Nat := 0
  /-- ghost: every send operation ever started, with its value. -/
  sent : List (Nat × α) := []
  /-- ghost: everything ever accepted, oldest first. -/
  pushed : List (Nat × α) := []
  /-- ghost: everything ever received, oldest first. -/
  received : List (Nat × α) := []
  /-- ghost: accepted signals dropped with the receiver. -/
  lost : List (Nat × α) := []
  /-- ghost: sends that failed, with the value handed back and the cause. -/
  failed : List (Nat × α × Why) := []

variable {α : Type}

/-- A fresh mailbox. `src/mailbox.rs` L27-40. tokio panics for capacity 0. -/
def Mb.fresh (cap : Option Nat) : Mb α := { cap := cap }

/-- Is a slot free (a permit available in tokio's semaphore)? Always so if unbounded. The channel
is made at `src/mailbox.rs` L27-40. -/
def Mb.hasRoom (m : Mb α) : Bool :=
  match m.cap with
  | none => true
  | some c => m.queue.length + m.granted.length < c

/-- Put a value in the queue. Part of `mpsc::Sender::send`, called at `src/mailbox.rs` L59-64. -/
def Mb.push (m : Mb α) (t : Nat) (a : α) : Mb α :=
  { m with queue := m.queue ++ [(t, a)], pushed := m.pushed ++ [(t, a)] }

/-- Ghost bookkeeping for a new send operation: it gets the ticket `next`. Models no code; the
operations are those of `src/mailbox.rs` L59-135. -/
def Mb.bump (m : Mb α) (a : α) : Mb α :=
  { m with next := m.next + 1, sent := m.sent ++ [(m.next, a)] }

/-- `MailboxSender::send` up to its first suspension, `src/mailbox.rs` L59-64 (also
`send_timeout` and `blocking_send` as used in `src/request/ask.rs` L125-134, L464-475 and
`src/request/tell.rs` L88-99, L136): fails if the receiver is gone, else pushes if there is
room, else starts waiting. -/
def Mb.send (m : Mb α) (a : α) : Mb α :=
  let m' := m.bump a
  if m.closed then { m' with failed := m.failed ++ [(m.next, a, .closed)] }
  else if m.hasRoom then m'.push m.next a
  else { m' with waiting := m.waiting ++ [(m.next, a)] }

/-- `try_send` (`src/request/tell.rs` L109-121, `src/request/ask.rs` L343, and
`signal_startup_finished`, `src/mailbox.rs` L483-496): never waits. -/
def Mb.trySend (m : Mb α) (a : α) : Mb α :=
  let m' := m.bump a
  if m.closed then { m' with failed := m.failed ++ [(m.next, a, .closed)] }
  else if m.hasRoom then m'.push m.next a
  else { m' with failed := m.failed ++ [(m.next, a, .full)] }

/-- A waiting sender that was handed a slot runs and pushes its value. The `await` at
`src/mailbox.rs` L61. -/
def Mb.poll (m : Mb α) (t : Nat) : Mb α :=
  match m.granted.find? (fun p => p.1 == t) with
  | none => m
  | some p => Mb.push { m with granted := m.granted.filter (fun p => p.1 != t) } t p.2

/-- A freed slot goes to the first waiter, if any (tokio semaphore `add_permits`). Happens inside
`recv`, called at `src/mailbox.rs` L261-266. -/
def Mb.release (m : Mb α) : Mb α :=
  match m.waiting with
  | [] => m
  | w :: ws => { m with granted := m.granted ++ [w], waiting := ws }

/-- A pending send is given up: `send_timeout` elapsed (`src/error.rs` L303-318) or its
future was dropped. If it already held a slot, the slot is passed on. -/
def Mb.cancel (m : Mb α) (t : Nat) : Mb α :=
  match m.waiting.find? (fun p => p.1 == t) with
  | some p =>
    { m with
      waiting := m.waiting.filter (fun p => p.1 != t)
      failed := m.failed ++ [(t, p.2, Why.timeout)] }
  | none =>
    match m.granted.find? (fun p => p.1 == t) with
    | some p =>
      Mb.release { m with
        granted := m.granted.filter (fun p => p.1 != t)
        failed := m.failed ++ [(t, p.2, Why.timeout)] }
    | none => m

/-- `MailboxReceiver::recv`, `src/mailbox.rs` L261-266 (`Actor::next` default, `src/actor.rs`
L259-265): takes the oldest signal; the slot is passed on. Nothing happens on an empty
queue (the receiver keeps waiting). -/
def Mb.recv (m : Mb α) : Mb α :=
  match m.queue with
  | [] => m
  | p :: ps => Mb.release { m with queue := ps, received := m.received ++ [p] }

/-- The receiver is dropped (end of `run_actor_lifecycle`, `src/actor/spawn.rs` L415-591,
or its task is torn down): queued signals are dropped and every pending send fails. -/
def Mb.close (m : Mb α) : Mb α :=
  { m with
    closed := true
    queue := []
    granted := []
    waiting := []
    lost := m.lost ++ m.queue
    failed := m.failed ++ (m.granted ++ m.waiting).map (fun p => (p.1, p.2, Why.closed)) }

/-- Operations on a mailbox. `src/mailbox.rs` L45-175 and L247-436: those of `MailboxSender` and
`MailboxReceiver`. -/
inductive Op (α : Type) where
  | send (a : α)
  | trySend (a : α)
  | poll (t : Nat)
  | cancel (t : Nat)
  | recv
  | close

/-- One operation. `src/mailbox.rs` L45-175 and L247-436. -/
def Mb.step (m : Mb α) : Op α → Mb α
  | .send a => m.send a
  | .trySend a => m.trySend a
  | .poll t => m.poll t
  | .cancel t => m.cancel t
  | .recv => m.recv
  | .close => m.close

/-- A history of operations. `Mb.step` along a list (`src/mailbox.rs` L45-436). -/
def Mb.run (m : Mb α) (ops : List (Op α)) : Mb α := ops.foldl Mb.step m

end Verif.Mailbox
