import Verif.Mailbox.Model

/-
Model of the life of one actor: `src/actor/spawn.rs` (`run_actor_lifecycle`,
`abortable_actor_loop`, `recv_mailbox_loop`), `src/actor/kind.rs` (`ActorBehaviour`), the
hooks of `src/actor.rs`, and the reply slots (`oneshot` channels) of `src/message.rs` and
`src/request/ask.rs`.

The model is a state machine. Every operation is either a step of the environment (send,
kill, link, …) or a step of the actor's own task. User code (handlers and hooks) appears as
the outcome carried by the operation which completes it, so quantifying over all operation
lists quantifies over all user programs and all schedules. A step that is not enabled
leaves the state unchanged.

Not modelled here: the values of the actor's own state, an overridden `Actor::next`
(`src/actor.rs` L259-265), tracing, the error hook (`src/error.rs` L70-82).
-/

namespace Verif.Lifecycle

open Verif.Mailbox

/-- `ActorID`, `src/actor/id.rs` L20-24; here only an opaque name. -/
abbrev Id := Nat
/-- A user error or panic payload, wrapped by `PanicError` (`src/error.rs` L682-699). -/
abbrev Err := Nat

/-- `ActorStopReason`, `src/error.rs` L628-645. -/
inductive Reason where
  | normal
  | killed
  | panicked (e : Err)
  | linkDied (id : Id) (reason : Reason)
  | peerDisconnected
  deriving DecidableEq, Repr

/-- What a message signal carries besides its identity: the payload, whether it has a reply
sender (`reply: Some` for ask, `None` for tell) and `sent_within_actor`.
`src/mailbox.rs` L441-448 (`Signal::Message`). The `actor_ref` field is counted in
`St.noSenders` only. -/
structure Body where
  val : Nat
  ask : Bool
  within : Bool
  deriving DecidableEq, Repr

/-- `Signal<A>`, `src/mailbox.rs` L441-454. -/
inductive Sig where
  | startup
  | msg (b : Body)
  | linkDied (id : Id) (r : Reason)
  | stop
  deriving DecidableEq, Repr

/-- A message together with the ticket of its send operation (its identity; ghost).
`Signal::Message`, `src/mailbox.rs` L443-448; the payload is opaque. -/
abbrev Msg := Nat × Body

/-- The value of a reply as a result, `Reply::to_result`, `src/reply.rs` L81-111. -/
inductive Res where
  | ok (v : Nat)
  | err (e : Err)
  deriving DecidableEq, Repr

/-- How a message handler ends (`Message::handle`, run by `handle_dyn`, `src/message.rs`
L286-308): it returns a reply, or it panics. Handlers that return `DelegatedReply` count as
returning `ok` (its `into_any_err` is `None`, `src/reply.rs` L232-242). -/
inductive HOut where
  | ret (r : Res)
  | panic (e : Err)
  deriving DecidableEq, Repr

/-- How `on_panic` / `on_link_died` end, `src/actor.rs` L195-235: `Ok(Continue)`,
`Ok(Break(reason))`, `Err(e)`, or a panic. -/
inductive FOut where
  | cont
  | brk (r : Reason)
  | err (e : Err)
  | panic (e : Err)
  deriving DecidableEq, Repr

/-- How `on_start` / `on_stop` end, `src/actor.rs` L133-138, L245-251. -/
inductive UOut where
  | ok
  | err (e : Err)
  | panic (e : Err)
  deriving DecidableEq, Repr

/-- Why an ask ended without a reply: `ActorNotRunning`, `MailboxFull`, `Timeout(Some)`
(`src/error.rs` L270-318) and `ActorStopped` (`From<RecvError>`, `src/error.rs` L297-301). -/
inductive Fail where
  | notRunning
  | full
  | mailboxTimeout
  | actorStopped
  deriving DecidableEq, Repr

/-- The asker's side of an ask: the `oneshot` receiver of `src/request/ask.rs` L107-157.
`gaveUp`: reply time-out, or the future was dropped. -/
inductive Slot where
  | none
  | waiting
  | got (r : Res)
  | failed (f : Fail)
  | gaveUp
  deriving DecidableEq, Repr

/-- Where the actor's task is. The suspension points of `run_actor_lifecycle`,
`abortable_actor_loop` and `recv_mailbox_loop`, `src/actor/spawn.rs` L415-658, and of the handlers
in `src/actor/kind.rs` L76-182. -/
inductive Phase where
  /-- `PreparedActor` exists, `run` not yet called; `src/actor/spawn.rs` L306-326. -/
  | prepared
  /-- `on_start` is running; `src/actor/spawn.rs` L431-436. -/
  | starting
  /-- in `recv_mailbox_loop`, between signals; `src/actor/spawn.rs` L616-658. -/
  | idle
  /-- a handler runs for `m`; `taken`: the handler took the reply sender out of its context
  (`src/message.rs` L141-153); `rest`: messages still to be handled from the drained
  start-up buffer (`src/actor/kind.rs` L76-94); `thenStop`: the drain was started by a stop
  signal (`handle_stop`, L153-158). -/
  | handling (m : Msg) (taken : Bool) (rest : List Msg) (thenStop : Bool)
  /-- `on_link_died` runs; `src/actor/kind.rs` L128-150. -/
  | linkDying (id : Id) (r : Reason)
  /-- `on_panic` runs inside the loop; `src/actor/kind.rs` L161-182. -/
  | panicking (e : Err)
  /-- `on_panic` runs after a failed `on_start`; `src/actor/spawn.rs` L466-473. -/
  | startPanicking (e : Err)
  /-- `on_stop` runs; `pend`: linked actors still to be notified; `started`: `on_start`
  had succeeded; `src/actor/spawn.rs` L475, L562. -/
  | stopping (r : Reason) (pend : List Id) (started : Bool)
  /-- link notifications are being sent; `src/actor/spawn.rs` L565. -/
  | notifying (r : Reason) (pend : List Id) (res : Option Err)
  /-- `run_actor_lifecycle` has returned `(actor, r)`. -/
  | stopped (r : Reason)
  /-- the task was torn down: panic outside `catch_unwind`, `JoinHandle::abort`, runtime
  shutdown, or the `PreparedActor` was dropped. -/
  | crashed
  deriving DecidableEq, Repr

/-- Observable events (ghost history). They mark the calls of user code in `src/actor/spawn.rs`
L431-588 and `src/actor/kind.rs` L76-182, and the answers given to senders. -/
inductive Ev where
  | startBegin
  | startEnd (o : UOut)
  | hBegin (m : Msg)
  | hEnd (m : Msg) (taken : Bool) (o : HOut)
  | hCancel (m : Msg)
  | lBegin (id : Id) (r : Reason)
  | lEnd (id : Id) (r : Reason) (o : FOut)
  | lCancel
  | pBegin (e : Err)
  | pEnd (e : Err) (o : FOut)
  | pCancel
  | sBegin (r : Reason)
  | sEnd (r : Reason) (o : UOut)
  | startCancel
  | sCancel
  | notified (id : Id) (r : Reason)
  | returned (r : Reason)
  | killCalled
  | stopTaken
  | noRefs
  | replySent (t : Nat) (r : Res)
  deriving DecidableEq, Repr

/-- The state of one actor. `ActorBehaviour` (`src/actor/kind.rs` L51-56), the fields shared with
`ActorRef` (`src/actor/actor_ref.rs` L47-55), the mailbox, and ghost history. -/
structure St where
  mb : Mb Sig
  phase : Phase := .prepared
  /-- `ActorBehaviour::finished_startup`, `src/actor/kind.rs` L54. -/
  finished : Bool := false
  /-- `ActorBehaviour::startup_buffer`, `src/actor/kind.rs` L55. -/
  buffer : List Msg := []
  /-- the loop future is being polled (`Abortable` looks at the abort flag only before and
  after a poll). -/
  polling : Bool := false
  /-- the abort flag of `AbortHandle` (`ActorRef::kill`). -/
  aborted : Bool := false
  /-- how often `startup_semaphore.add_permits(MAX_PERMITS)` was called. -/
  permits : Nat := 0
  /-- `startup_error: OnceLock<Option<PanicError>>`. -/
  startupErr : Option (Option Err) := none
  /-- `shutdown_error`. -/
  shutdownErr : Option (Option Err) := none
  /-- keys of the actor's `Links` map, `src/actor/actor_ref.rs` L1357. -/
  links : List Id := []
  /-- `ActorRef`s (and other mailbox senders) held outside the actor's task. -/
  ext : Nat := 0
  /-- the strong mailbox sender inside the partially moved `actor_ref` of
  `run_actor_lifecycle` (`src/actor/spawn.rs` L460-464 moves out only two fields). -/
  own : Bool := true
  /-- state of each ask, by ticket. -/
  slots : Nat → Slot := fun _ => .none
  /-- ghost: messages whose handler was started, oldest first. -/
  handled : List Msg := []
  /-- ghost: received messages that were dropped without a handler run. -/
  lost : List Msg := []
  /-- ghost: number of signals received when start-up was finished. -/
  cut : Option Nat := none
  /-- ghost: asks whose reply sender was taken by the handler and is still owned by user
  code. -/
  delegated : List Nat := []
  /-- ghost: event history, oldest first. -/
  log : List Ev := []

/-- `PreparedActor::new`, `src/actor/spawn.rs` L306-326, over a fresh mailbox. -/
def St.fresh (cap : Option Nat) : St := { mb := Mb.fresh cap }

/-- Message signals in a list of signals. Bookkeeping over `Signal`, `src/mailbox.rs` L441-454. -/
def msgsOf (l : List (Nat × Sig)) : List Msg :=
  l.filterMap (fun p => match p.2 with
    | .msg b => some (p.1, b)
    | _ => none)

/-- Update one slot. Bookkeeping: the `oneshot` channels made at `src/request/ask.rs` L117 and
handed over in `Signal::Message`, `src/mailbox.rs` L446. -/
def setSlot (f : Nat → Slot) (t : Nat) (v : Slot) : Nat → Slot :=
  fun x => if x = t then v else f x

/-- Record an event. Ghost; models no code (the calls are at `src/actor/spawn.rs` L415-658). -/
def St.ev (s : St) (e : Ev) : St := { s with log := s.log ++ [e] }

/-- Deliver a reply through the oneshot of ask `t`; without effect if the asker has given
up (`let _ = self.tx.send(..)`, `ReplySender::send`, `src/reply.rs` L168-178). -/
def St.reply (s : St) (t : Nat) (r : Res) : St :=
  if s.slots t = .waiting then { s with slots := setSlot s.slots t (.got r) } else s

/-- The reply senders of the given asks are dropped: the askers get `ActorStopped`
(`src/error.rs` L297-301). -/
def St.dropReplies (s : St) (ts : List Nat) : St :=
  { s with slots := fun t =>
      if s.slots t = .waiting ∧ t ∈ ts then .failed .actorStopped else s.slots t }

/-- Pending sends `ts` fail because the receiver is gone. The `map_err` of `src/mailbox.rs`
L505-507 and the `From` of `src/error.rs` L270-278. -/
def St.failSends (s : St) (ts : List Nat) (f : Fail) : St :=
  { s with slots := fun t =>
      if s.slots t = .waiting ∧ t ∈ ts then .failed f else s.slots t }

/-- Received messages are dropped without being handled; their reply senders with them. Drop of
`Signal::Message` (`src/mailbox.rs` L443-448): no code of kameo runs, the receiver sees
`RecvError` (`src/error.rs` L297-301). -/
def St.lose (s : St) (ms : List Msg) : St :=
  { s.dropReplies (ms.map (·.1)) with lost := s.lost ++ ms }

/-- The mailbox receiver is dropped, and all that is queued in it. Drop of `MailboxReceiver`
(`src/mailbox.rs` L247-252), at the end of `run_actor_lifecycle`, `src/actor/spawn.rs` L498 and L590, or with the task. -/
def St.closeMb (s : St) : St :=
  let s' := (s.dropReplies (s.mb.queue.map (·.1))).failSends
    ((s.mb.granted ++ s.mb.waiting).map (·.1)) .notRunning
  { s' with mb := s.mb.close, own := false }

/-- The message loop has ended with `r`: `ActorBehaviour::shutdown` drops the start-up
buffer, the links are drained, `on_stop` is called. `src/actor/spawn.rs` L515-562. -/
def St.leave (s : St) (r : Reason) : St :=
  let s' := s.lose s.buffer
  { s' with
    buffer := []
    polling := false
    phase := .stopping r s.links true
    links := []
    log := s.log ++ [Ev.sBegin r] }

/-- `on_shutdown`, `src/actor/kind.rs` L161-182: only `Panicked` asks `on_panic`; every other
reason ends the loop. -/
def St.onShutdown (s : St) (r : Reason) : St :=
  match r with
  | .panicked e => { s with phase := .panicking e, log := s.log ++ [Ev.pBegin e] }
  | r => s.leave r

/-- Start the handler of `m`, `src/actor/kind.rs` L115. -/
def St.beginHandle (s : St) (m : Msg) (rest : List Msg) (thenStop : Bool) : St :=
  { s with
    phase := .handling m false rest thenStop
    handled := s.handled ++ [m]
    log := s.log ++ [Ev.hBegin m] }

/-- Continue draining the start-up buffer (`handle_startup_finished`, `src/actor/kind.rs`
L76-94); at its end either go back to the loop or, for `handle_stop` (L153-158), break with
`Normal`. -/
def St.drain (s : St) (rest : List Msg) (thenStop : Bool) : St :=
  match rest with
  | m :: ms => s.beginHandle m ms thenStop
  | [] => if thenStop then s.onShutdown .normal else { s with phase := .idle }

/-- Start-up is finished: set the flag and empty the buffer (`mem::take`). The ghost `cut`
is set the first time. `src/actor/kind.rs` L76-78. -/
def St.finishStartup (s : St) : St :=
  { s with
    finished := true
    buffer := []
    cut := match s.cut with
      | none => some s.mb.received.length
      | some n => some n }

/-- The user code that is currently running is cancelled (its future is dropped): a running
handler's context drops the reply sender unless the handler has taken it, and the messages still
to be drained from the start-up buffer are dropped. The abort of `Abortable`, `src/actor/spawn.rs`
L503-513; the buffer is taken at `src/actor/kind.rs` L78. -/
def St.cancelRunning (s : St) : St :=
  match s.phase with
  | .handling m taken rest _ =>
    ((s.dropReplies (if taken then [] else [m.1])).lose rest).ev (.hCancel m)
  | .linkDying _ _ => s.ev .lCancel
  | .panicking _ => s.ev .pCancel
  | .startPanicking _ => s.ev .pCancel
  | .starting => s.ev .startCancel
  | .stopping _ _ _ => s.ev .sCancel
  | _ => s

/-- The task ends without `run_actor_lifecycle` returning; everything it owns is dropped.
`src/actor/spawn.rs` L367-411: the runtime drops the future. -/
def St.die (s : St) : St :=
  { (s.lose s.buffer).closeMb with buffer := [], polling := false, phase := .crashed }

/-- The task is torn down from outside while it may be running user code. As `St.die`,
`src/actor/spawn.rs` L367-411. -/
def St.crash (s : St) : St := s.cancelRunning.die

/-- `run_actor_lifecycle` returns: the shut-down result is published (the upgrade of
`actor_ref` succeeds iff a strong mailbox sender is left), then the receiver is dropped.
`src/actor/spawn.rs` L476-499, L569-590. -/
def St.finishAll (s : St) (r : Reason) (res : Option Err) : St :=
  { s.closeMb with
    shutdownErr := if s.own = true ∨ 0 < s.ext then some res else s.shutdownErr
    phase := .stopped r
    log := s.log ++ [.returned r] }

/-- Is the actor inside the abortable message loop? `src/actor/spawn.rs` L501-513. -/
def Phase.inLoop : Phase → Bool
  | .idle => true
  | .handling .. => true
  | .linkDying .. => true
  | .panicking .. => true
  | _ => false

/-- The `Abortable` wrapper notices the abort flag: the loop future is dropped, the reason is
`Killed`. `src/actor/spawn.rs` L503-513. -/
def St.abortSeen (s : St) : St := s.cancelRunning.leave .killed

/-- Are all mailbox senders gone, so that `recv` returns `None`? A queued message holds an
`ActorRef`, so the queue must be empty as well. `src/mailbox.rs` L261-266; the `ActorRef` in a
signal is at L445. -/
def St.noSenders (s : St) : Bool :=
  s.ext == 0 && !s.own && s.mb.queue.isEmpty && s.mb.granted.isEmpty && s.mb.waiting.isEmpty

/-- Dispatch of one received signal, `src/actor/spawn.rs` L626-656 with
`src/actor/kind.rs` L97-113 (buffering), L128-136, L153-158. -/
def St.onSignal (s : St) (t : Nat) (sig : Sig) : St :=
  match sig with
  | .startup => ({ s.finishStartup with permits := s.permits + 1 }).drain s.buffer false
  | .msg b =>
    if !b.within && !s.finished then { s with buffer := s.buffer ++ [(t, b)] }
    else s.beginHandle (t, b) [] false
  | .linkDied id r =>
    { s with phase := .linkDying id r, log := s.log ++ [.lBegin id r] }
  | .stop => (s.finishStartup.ev .stopTaken).drain s.buffer true

/-- One round of `recv_mailbox_loop`, `src/actor/spawn.rs` L616-658. `None` (no sender left)
is treated like a stop signal. -/
def St.recvStep (s : St) : St :=
  match s.mb.queue with
  | [] =>
    if s.noSenders then (s.finishStartup.ev .noRefs).drain s.buffer true
    else s
  | (t, sig) :: _ => ({ s with mb := s.mb.recv }).onSignal t sig

/-- A handler ends. `handle_dyn`, `src/message.rs` L286-308, then `handle_message`,
`src/actor/kind.rs` L115-124. If the context still holds the reply sender the reply goes to
the asker and the actor continues, even if it is an error; otherwise an error breaks the
loop. When the drain of the start-up buffer breaks, its remaining messages are dropped. -/
def St.handlerEnd (s : St) (m : Msg) (taken : Bool) (rest : List Msg) (thenStop : Bool)
    (o : HOut) : St :=
  match o with
  | .ret res =>
    if m.2.ask && !taken then
      ((s.reply m.1 res).ev (.hEnd m taken o)).drain rest thenStop
    else match res with
      | .ok _ => (s.ev (.hEnd m taken o)).drain rest thenStop
      | .err e => ((s.ev (.hEnd m taken o)).lose rest).onShutdown (.panicked e)
  | .panic e =>
    (((s.dropReplies (if taken then [] else [m.1])).ev (.hEnd m taken o)).lose rest).onShutdown
      (.panicked e)

/-- `on_link_died` ends; the link is removed; then the flow is interpreted.
`src/actor/kind.rs` L128-150. -/
def St.linkEnd (s : St) (id : Id) (r : Reason) (o : FOut) : St :=
  let s := { s with links := s.links.filter (· != id), log := s.log ++ [Ev.lEnd id r o] }
  match o with
  | .cont => { s with phase := .idle }
  | .brk r => s.onShutdown r
  | .err e => s.onShutdown (.panicked e)
  | .panic e => s.onShutdown (.panicked e)

/-- `on_panic` ends inside the loop, `src/actor/kind.rs` L166-174 and
`src/actor/spawn.rs` L609-612. A panic of `on_panic` is not caught. -/
def St.panicEnd (s : St) (e : Err) (o : FOut) : St :=
  let s := s.ev (.pEnd e o)
  match o with
  | .cont => { s with phase := .idle }
  | .brk r => s.leave r
  | .err e' => s.leave (.panicked e')
  | .panic _ => s.die

/-- `on_start` succeeded: `src/actor/spawn.rs` L437-443, L453-464, L501-513. The start-up
signal is put in the mailbox; if the mailbox is full start-up counts as finished at once
(L453-458, L603-607: `handle_startup_finished` runs on an empty buffer). Simplification:
with a full mailbox the `finished` flag is set here rather than at the first poll of the
loop. -/
def St.startOk (s : St) : St :=
  let s' := { s with
    mb := s.mb.trySend .startup
    log := s.log ++ [.startEnd .ok]
    startupErr := some none
    phase := .idle
    polling := false }
  if s.mb.closed || s.mb.hasRoom then s' else s'.finishStartup

/-- `on_start` failed with `e` (error or panic, as told by `o`): `src/actor/spawn.rs`
L444-473: the start-up signal is still put in the mailbox, the semaphore is opened, and
`on_panic` is called outside of the loop. -/
def St.startFail (s : St) (o : UOut) (e : Err) : St :=
  { s with
    mb := s.mb.trySend .startup
    startupErr := some (some e)
    permits := s.permits + 1
    phase := .startPanicking e
    log := s.log ++ [.startEnd o, .pBegin e] }

/-- `on_start` ends. `src/actor/spawn.rs` L431-473 and L503-513. -/
def St.startEnd (s : St) (o : UOut) : St :=
  match o with
  | .ok => s.startOk
  | .err e => s.startFail o e
  | .panic e => s.startFail o e

/-- Call `on_stop` after a failed start; `src/actor/spawn.rs` L474-475. -/
def St.stopFailed (s : St) (r : Reason) : St :=
  { s.lose s.buffer with
    buffer := []
    phase := .stopping r [] false
    log := s.log ++ [.sBegin r] }

/-- `on_panic` ends after a failed `on_start`, `src/actor/spawn.rs` L469-475:
`break_value().unwrap_or(reason)`, then `on_stop`. Links are not touched on this path. -/
def St.startPanicEnd (s : St) (e : Err) (o : FOut) : St :=
  let s := s.ev (.pEnd e o)
  match o with
  | .cont => s.stopFailed (.panicked e)
  | .brk r => s.stopFailed r
  | .err e' => s.stopFailed (.panicked e')
  | .panic _ => s.die

/-- `on_stop` returned (`res`: its error, if any): on the failed-start path the actor is done
(`src/actor/spawn.rs` L476-499), otherwise the link notifications are sent (L565). -/
def St.stopDone (s : St) (r : Reason) (pend : List Id) (started : Bool) (res : Option Err) : St :=
  if started then { s with phase := .notifying r pend res } else s.finishAll r res

/-- `on_stop` ends, `src/actor/spawn.rs` L475-499 and L562-565. It is not under
`catch_unwind`: a panic tears the task down. -/
def St.stopEnd (s : St) (r : Reason) (pend : List Id) (started : Bool) (o : UOut) : St :=
  let s := s.ev (.sEnd r o)
  match o with
  | .ok => s.stopDone r pend started none
  | .err e => s.stopDone r pend started (some e)
  | .panic _ => s.die

/-- Operations: environment first, then steps of the actor's task. Sends and calls on references:
`src/request/ask.rs` L107-575, `src/request/tell.rs` L78-140, `src/actor/actor_ref.rs` L210-224,
L514-684. Steps of the task: `src/actor/spawn.rs` L415-658, `src/actor/kind.rs` L76-182. -/
inductive Op where
  /-- `tell`/`ask` `send`, up to its first suspension. -/
  | send (b : Body)
  /-- `try_send`. -/
  | trySend (b : Body)
  /-- a waiting sender that was given a slot runs. -/
  | poll (t : Nat)
  /-- mailbox time-out, or the send future is dropped. -/
  | cancel (t : Nat)
  /-- `stop_gracefully`. -/
  | sendStop
  /-- another actor (or the swarm) sends the link-died signal. -/
  | sendLinkDied (id : Id) (r : Reason)
  | kill
  | link (id : Id)
  | unlink (id : Id)
  /-- `ActorRef::clone`, `Context::actor_ref`, or `WeakActorRef::upgrade`. -/
  | cloneRef
  | dropRef
  /-- the asker stops waiting for the reply. -/
  | giveUp (t : Nat)
  /-- a delegated reply sender is used. -/
  | delegSend (t : Nat) (r : Res)
  /-- a delegated reply sender is dropped. -/
  | delegDrop (t : Nat)
  /-- the task is torn down from outside, or a `PreparedActor` is dropped. -/
  | teardown
  | run
  | startEnd (o : UOut)
  | pollBegin
  | pollEnd
  | recv
  /-- the running handler takes its reply sender (`reply_sender`, `reply`, `forward`). -/
  | takeReply
  | handlerEnd (o : HOut)
  | linkEnd (o : FOut)
  | panicEnd (o : FOut)
  | stopEnd (o : UOut)
  | notifyEnd (id : Id)
  | finish
  deriving DecidableEq, Repr

/-- One step. Puts the functions above together as `src/actor/spawn.rs` L415-658 does. -/
def St.step (s : St) : Op → St
  | .send b =>
    { s with
      mb := s.mb.send (.msg b)
      slots := if b.ask then setSlot s.slots s.mb.next
          (if s.mb.closed then .failed .notRunning else .waiting)
        else s.slots }
  | .trySend b =>
    { s with
      mb := s.mb.trySend (.msg b)
      slots := if b.ask then setSlot s.slots s.mb.next
          (if s.mb.closed then .failed .notRunning
           else if s.mb.hasRoom then .waiting else .failed .full)
        else s.slots }
  | .poll t => { s with mb := s.mb.poll t }
  | .cancel t =>
    let pending := (s.mb.waiting ++ s.mb.granted).map (·.1)
    let s' := s.failSends (if t ∈ pending then [t] else []) .mailboxTimeout
    { s' with mb := s.mb.cancel t }
  | .sendStop => { s with mb := s.mb.send .stop }
  | .sendLinkDied id r => { s with mb := s.mb.send (.linkDied id r) }
  | .kill => { s with aborted := true, log := s.log ++ [Ev.killCalled] }
  | .link id => { s with links := if id ∈ s.links then s.links else s.links ++ [id] }
  | .unlink id => { s with links := s.links.filter (· != id) }
  | .cloneRef => if 0 < s.ext ∨ s.own = true then { s with ext := s.ext + 1 } else s
  | .dropRef => { s with ext := s.ext - 1 }
  | .giveUp t =>
    if s.slots t = .waiting then { s with slots := setSlot s.slots t .gaveUp } else s
  | .delegSend t r =>
    if t ∈ s.delegated then
      { (s.reply t r).ev (.replySent t r) with delegated := s.delegated.filter (· != t) }
    else s
  | .delegDrop t =>
    if t ∈ s.delegated then
      { s.dropReplies [t] with delegated := s.delegated.filter (· != t) }
    else s
  | .teardown =>
    match s.phase with
    | .stopped _ => s
    | .crashed => s
    | _ => s.crash
  | .run =>
    match s.phase with
    | .prepared => { s with phase := .starting, log := s.log ++ [Ev.startBegin] }
    | _ => s
  | .startEnd o =>
    match s.phase with
    | .starting => s.startEnd o
    | _ => s
  | .pollBegin =>
    if s.phase.inLoop && !s.polling then
      if s.aborted then s.abortSeen else { s with polling := true }
    else s
  | .pollEnd =>
    if s.phase.inLoop && s.polling then
      if s.aborted then s.abortSeen else { s with polling := false }
    else s
  | .recv =>
    match s.phase with
    | .idle => if s.polling then s.recvStep else s
    | _ => s
  | .takeReply =>
    match s.phase with
    | .handling m false rest ts =>
      if s.polling && m.2.ask then
        { s with phase := .handling m true rest ts, delegated := s.delegated ++ [m.1] }
      else s
    | _ => s
  | .handlerEnd o =>
    match s.phase with
    | .handling m taken rest ts => if s.polling then s.handlerEnd m taken rest ts o else s
    | _ => s
  | .linkEnd o =>
    match s.phase with
    | .linkDying id r => if s.polling then s.linkEnd id r o else s
    | _ => s
  | .panicEnd o =>
    match s.phase with
    | .panicking e => if s.polling then s.panicEnd e o else s
    | .startPanicking e => s.startPanicEnd e o
    | _ => s
  | .stopEnd o =>
    match s.phase with
    | .stopping r pend started => s.stopEnd r pend started o
    | _ => s
  | .notifyEnd id =>
    match s.phase with
    | .notifying r pend res =>
      if id ∈ pend then
        { s with phase := .notifying r (pend.erase id) res, log := s.log ++ [Ev.notified id r] }
      else s
    | _ => s
  | .finish =>
    match s.phase with
    | .notifying r [] res => s.finishAll r res
    | _ => s

/-- A history. `St.step` along a list of operations (`src/actor/spawn.rs` L415-658). -/
def St.exec (s : St) (ops : List Op) : St := ops.foldl St.step s

/-- The actor after history `ops`, from a fresh `PreparedActor` with one reference outside.
`src/actor/spawn.rs` L306-326. -/
def after (cap : Option Nat) (ops : List Op) : St :=
  ({ St.fresh cap with ext := 1 }).exec ops

/-- Default `on_link_died`, `src/actor.rs` L212-235. -/
def defaultOnLinkDied (id : Id) (r : Reason) : FOut :=
  match r with
  | .normal => .cont
  | .killed => .brk (.linkDied id r)
  | .panicked _ => .brk (.linkDied id r)
  | .linkDied _ _ => .brk (.linkDied id r)
  | .peerDisconnected => .brk .peerDisconnected

/-- Default `on_panic`, `src/actor.rs` L195-201. -/
def defaultOnPanic (e : Err) : FOut := .brk (.panicked e)

end Verif.Lifecycle
