import Verif.Util

/-!
An actor with a `next` of its own: `Actor::next` (`src/actor.rs` L253-265), the loop that calls it
(`src/actor/spawn.rs` L414-658, `src/actor/kind.rs`) and the `MailboxReceiver` it is given (`src/mailbox.rs` L244-400).

What `next` does is user code: it takes signals from the mailbox, keeps them, drops them, makes signals itself, closes
the receiver, and returns one of the signals it has, or `None`, or panics, or does not return. All of this is carried by
the operations, so that a theorem for all lists of operations is one for every `next`. So is what a handler does with its
reply sender: it leaves it to the actor, which uses it when the handler returns, or takes it (`src/message.rs` L141-153), and
then it is used, or dropped, whenever the user's code likes.
Simplifications: a send is the moment the mailbox accepts the signal (waiting for room is in `Verif.Mailbox`); the other
actors are left out (`Verif.System`), and so is who is linked to this one: the notifications belong to the hook `on_stop`,
beside which they are sent.
-/

namespace Verif.Next

/-- What a signal says. `Signal`, `src/mailbox.rs` L438-454. -/
inductive Body where
  | msg (within : Bool)
  | startup
  | linkDied
  | stop
  deriving DecidableEq, Repr

/-- Is it a message? Only those can carry a reply sender (`src/mailbox.rs` L443-448). -/
def Body.isMsg : Body → Bool
  | .msg _ => true
  | _ => false

/-- A signal. Signals cannot be cloned; `id` names this one (ghost). `ask`: does it carry a reply sender?
`src/mailbox.rs` L438-454. -/
structure Item where
  id : Nat
  body : Body
  ask : Bool := false
  deriving DecidableEq, Repr

/-- `ActorStopReason`, `src/error.rs` L557-573. -/
inductive Reason where
  | normal
  | killed
  | panicked
  | linkDied
  deriving DecidableEq, Repr

/-- What the one who asked gets: the reply, the error of the handler, or `ActorStopped` as the reply sender was dropped.
`src/request/ask.rs` L135-150. -/
inductive Out where
  | value
  | err
  | dropped
  deriving DecidableEq, Repr

/-- The functions of the user. `src/actor.rs` L130-265, `src/message.rs` L39-58. -/
inductive Hook where
  | start
  | next
  | handle
  | link
  | panic
  | stop
  deriving DecidableEq, Repr

/-- How a function of the user ended, for those who watch (ghost): so that the actor goes on, so that it failed, or so that
the actor is to stop; `full`: `on_start` ended well, but the mailbox was full. `src/actor/kind.rs` L116-178,
`src/actor/spawn.rs` L431-461. -/
inductive How where
  | ok
  | full
  | fail
  | leave
  deriving DecidableEq, Repr

/-- What the user sees (ghost): a function begins (`b`) or ends (`e`), `next` returns (`got`), a function is aborted, the
task panics, or is torn down from outside. `src/actor/spawn.rs` L414-591. -/
inductive Ev where
  | b (h : Hook)
  | e (h : Hook) (k : How)
  | got (b : Option Body)
  | abort
  | crash
  | torn
  deriving DecidableEq, Repr

/-- Where the task of the actor is: in `on_start` (`src/actor/spawn.rs` L431-437), in `next` (L628), in the handler of a
message, with the rest of the start-up buffer to go through and then stop or not (`src/actor/kind.rs` L77-95, L151-156), in
`on_link_died` (L134-140), in `on_panic` (L163-170; `start`: after a failed `on_start`, `spawn.rs` L471-480), in `on_stop`
(L483, L560), after its end, after a panic that nobody caught. `doomed`: `on_start` is over, but the actor was killed before,
so that the loop is not polled (`Abortable` looks at the flag before it polls, `spawn.rs` L503-513). -/
inductive Phase where
  | starting
  | doomed
  | next
  | handling (it : Item) (rest : List Item) (fin : Bool)
  | link
  | onPanic (start : Bool)
  | stopping (r : Reason)
  | stopped (r : Reason)
  | crashed
  deriving DecidableEq, Repr

/-- `queue`: the mailbox (`src/mailbox.rs` L247-252); `closed`: `close` was called on the receiver or it was dropped;
`held`: the signals the user's code has (in the fields of the actor); `buffer`, `finished`: `startup_buffer` and
`finished_startup` (`src/actor/kind.rs` L50-55); `permits`: were the permits added (`src/actor/spawn.rs` L630); `aborted`:
was `kill` called; `slot`: what became of the reply sender of a signal; `taken`: has the handler that runs taken its reply
sender (`src/message.rs` L141-153); `delegated`: the reply senders that handlers took and that were not used or dropped yet;
`gaveUp`: those who asked and do not wait any more (reply time-out, or the future was dropped, `src/request/ask.rs` L107-157).
Ghost: `returned`, `started`: the messages that
`next` returned and that were begun to be handled; `gone`: signals that are no more without having been handled; `spent`:
those of them that the user's code used up; `asks`: the signals made with a reply sender; `log`. -/
structure St where
  queue : List Item := []
  closed : Bool := false
  held : List Item := []
  buffer : List Item := []
  finished : Bool := false
  permits : Bool := false
  aborted : Bool := false
  phase : Phase := .starting
  slot : Nat → Option Out := fun _ => none
  taken : Bool := false
  delegated : List Nat := []
  gaveUp : List Nat := []
  fresh : Nat := 0
  returned : List Item := []
  started : List Item := []
  gone : List Item := []
  spent : List Nat := []
  asks : List Nat := []
  log : List Ev := [.b .start]

/-- Something the user sees. Ghost; `src/actor/spawn.rs` L414-591. -/
def St.tell (s : St) (l : List Ev) : St := { s with log := s.log ++ l }

/-- A reply sender is used or dropped. `src/reply.rs` L168-178. -/
def St.resolve (s : St) (x : Nat) (o : Out) : St :=
  { s with slot := fun y => if y = x ∧ s.slot y = none then some o else s.slot y }

/-- Signals are dropped, with their reply senders. `src/mailbox.rs` L438-454. -/
def St.drop (s : St) (l : List Item) : St :=
  { s with
    gone := s.gone ++ l
    slot := fun y => if y ∈ l.map (·.id) ∧ s.slot y = none then some .dropped else s.slot y }

/-- The loop is over: `on_stop` is called. The start-up buffer is dropped (`shutdown`, `src/actor/kind.rs` L180-182);
`src/actor/spawn.rs` L482-483, L514-560. -/
def St.stop (s : St) (r : Reason) : St :=
  { (s.drop s.buffer).tell [.b .stop] with buffer := [], phase := .stopping r }

/-- The reply sender of the handler that ends, if it is still where it was. `src/message.rs` L141-153, L286-308. -/
def St.settle (s : St) (it : Item) (o : Out) : St := if s.taken then s else s.resolve it.id o

/-- The task ends without having returned: everything it owns is dropped, the receiver and the actor too.
`src/actor/spawn.rs` L367-411. -/
def St.fall (s : St) (e : Ev) : St :=
  let s := match s.phase with
    | .handling it rest _ => (s.settle it .dropped).drop rest
    | _ => s
  { (((s.drop s.queue).drop s.held).drop s.buffer).tell [e] with
    queue := [], held := [], buffer := [], closed := true, phase := .crashed }

/-- The task panics. `src/actor/spawn.rs` L414-591 (no `catch_unwind` around the loop, `on_panic` and `on_stop`). -/
def St.crash (s : St) : St := s.fall .crash

/-- Go through the start-up buffer: `src/actor/kind.rs` L77-95. At its end the loop goes on (`src/actor/spawn.rs`
L628), or the actor stops (`src/actor/kind.rs` L151-156, L161). -/
def St.go (s : St) : List Item → Bool → St
  | [], false => { s.tell [.b .next] with phase := .next }
  | [], true => s.stop .normal
  | it :: rest, fin =>
    { s.tell [.b .handle] with started := s.started ++ [it], phase := .handling it rest fin, taken := false }

/-- `handle_startup_finished`, `src/actor/kind.rs` L76-95. -/
def St.drain (s : St) (fin : Bool) : St := { s with finished := true, buffer := [] }.go s.buffer fin

/-- What the loop does with the signal that `next` returned. `src/actor/spawn.rs` L628-657; `handle_message`,
`src/actor/kind.rs` L97-114. `Semaphore::add_permits` panics beyond `MAX_PERMITS` (L630). -/
def St.dispatch (s : St) (it : Item) : St :=
  match it.body with
  | .startup => if s.permits then ({ s with gone := s.gone ++ [it] }).crash
                else ({ s with gone := s.gone ++ [it], permits := true }).drain false
  | .msg within =>
    let s := { s with returned := s.returned ++ [it] }
    if !within && !s.finished then { s.tell [.b .next] with buffer := s.buffer ++ [it], phase := .next }
    else { s.tell [.b .handle] with started := s.started ++ [it], phase := .handling it [] false, taken := false }
  | .linkDied => { ({ s with gone := s.gone ++ [it] }).tell [.b .link] with phase := .link }
  | .stop => ({ s with gone := s.gone ++ [it] }).drain true

/-- A signal is put into the mailbox, if it is open. `src/mailbox.rs` L59-75. -/
def St.push (s : St) (b : Body) (ask : Bool) : St :=
  if s.closed then s
  else { s with
    queue := s.queue ++ [{ id := s.fresh, body := b, ask := b.isMsg && ask }]
    fresh := s.fresh + 1
    asks := if b.isMsg && ask then s.asks ++ [s.fresh] else s.asks }

/-- How a function of the user ends: well; with an error; with a panic. `src/actor/kind.rs` L116-125. -/
inductive Res where
  | ok
  | err
  | panic
  deriving DecidableEq, Repr

/-- How `on_link_died` and `on_panic` end: `Continue`, `Break`, an error, a panic. `src/actor.rs` L150-235. -/
inductive Flow where
  | cont
  | brk (r : Reason)
  | err
  | panic
  deriving DecidableEq, Repr

/-- How `on_start` ended, for those who watch. `src/actor/spawn.rs` L431-461. -/
def startHow (r : Res) (full : Bool) : How :=
  match r, full with
  | .ok, false => .ok
  | .ok, true => .full
  | _, _ => .fail

/-- How a handler ended: an error is fine if there is someone to tell. `src/message.rs` L281-330. -/
def handleHow (r : Res) (ask : Bool) : How :=
  match r, ask with
  | .ok, _ => .ok
  | .err, true => .ok
  | _, _ => .fail

/-- How `on_link_died` ended: the actor is to go on, or to stop, or it failed (also if it says that it panicked).
`src/actor/kind.rs` L134-148, L163. -/
def Flow.linkHow : Flow → How
  | .cont => .ok
  | .brk .panicked => .fail
  | .brk _ => .leave
  | _ => .fail

/-- How `on_panic` ended. `src/actor/kind.rs` L163-170. -/
def Flow.panicHow : Flow → How
  | .cont => .ok
  | _ => .leave

/-- The loop is to be polled for the first time: `src/actor/spawn.rs` L503-513, L603-607. If the actor was killed meanwhile
it is not polled; simplification: `finished` is set all the same, which nobody sees. -/
def St.enter (s : St) (full : Bool) : St :=
  if s.aborted then { s with finished := s.finished || full, phase := .doomed }
  else if full then s.drain false else { s.tell [.b .next] with phase := .next }

/-- `on_start` ends. `src/actor/spawn.rs` L431-480, L495-513. `full`: was the mailbox full (L456-461)? -/
def St.startEnd (s : St) (r : Res) (full : Bool) : St :=
  match s.phase with
  | .starting =>
    let s := s.tell [.e .start (startHow r full)]
    let s := if full then s else s.push .startup false
    match r with
    | .ok => s.enter full
    | _ => { s.tell [.b .panic] with permits := true, phase := .onPanic true }
  | _ => s

/-- `next` takes signals from the mailbox: `recv`, `recv_many`, `try_recv`, `blocking_recv`, `blocking_recv_many`.
`src/mailbox.rs` L254-310. -/
def St.take (s : St) (n : Nat) : St :=
  match s.phase with
  | .next => { s with queue := s.queue.drop n, held := s.held ++ s.queue.take n }
  | _ => s

/-- `next` closes the receiver. `src/mailbox.rs` L312-323. -/
def St.close (s : St) : St :=
  match s.phase with
  | .next => { s with closed := true }
  | _ => s

/-- Is the actor's value still there for the user's code? `src/actor/spawn.rs` L366-374 (`run` returns it). -/
def Phase.owned : Phase → Bool
  | .crashed => false
  | _ => true

/-- The user's code makes a signal. `src/mailbox.rs` L438-454 (the variants are public). -/
def St.make (s : St) (b : Body) (ask : Bool) : St :=
  if s.phase.owned then
    { s with
      held := s.held ++ [{ id := s.fresh, body := b, ask := b.isMsg && ask }]
      fresh := s.fresh + 1
      asks := if b.isMsg && ask then s.asks ++ [s.fresh] else s.asks }
  else s

/-- The user's code uses up a signal it has: it drops it (`o = .dropped`) or handles it by itself (`DynMessage::handle_dyn`,
`src/message.rs` L264-280). After the end of the actor: whoever got its value from `run` (`src/actor/spawn.rs` L366-374). -/
def St.spend (s : St) (i : Nat) (o : Out) : St :=
  match s.held[i]? with
  | some it => { s.resolve it.id o with
    held := s.held.eraseIdx i, gone := s.gone ++ [it], spent := s.spent ++ [it.id] }
  | none => s

/-- `next` returns a signal it has. `src/actor/spawn.rs` L628-657. -/
def St.ret (s : St) (i : Nat) : St :=
  match s.phase, s.held[i]? with
  | .next, some it => ({ s.tell [.got (some it.body)] with held := s.held.eraseIdx i }).dispatch it
  | _, _ => s

/-- `next` returns `None`. `src/actor/spawn.rs` L652-656. -/
def St.retNone (s : St) : St :=
  match s.phase with
  | .next => (s.tell [.got none]).drain true
  | _ => s

/-- `next` panics. `src/actor/kind.rs` L70-72, `src/actor/spawn.rs` L628: nothing catches it. -/
def St.nextPanic (s : St) : St :=
  match s.phase with
  | .next => s.crash
  | _ => s

/-- `on_panic` is called. `src/actor/kind.rs` L163-164. -/
def St.panicked (s : St) : St := { s.tell [.b .panic] with phase := .onPanic false }

/-- A handler ends. `src/actor/kind.rs` L116-125; the rest of the start-up buffer is dropped by `?` (L89). An error goes to
the one who asked, if there is one and the handler did not take the reply sender (`src/message.rs` L281-330). -/
def St.handleEnd (s : St) (r : Res) : St :=
  match s.phase with
  | .handling it rest fin =>
    let s := s.tell [.e .handle (handleHow r (it.ask && !s.taken))]
    match r, it.ask && !s.taken with
    | .ok, _ => (s.settle it .value).go rest fin
    | .err, true => (s.settle it .err).go rest fin
    | _, _ => ((s.settle it .dropped).drop rest).panicked
  | _ => s

/-- `on_link_died` ends. `src/actor/kind.rs` L134-148, `on_shutdown` L158-178. -/
def St.linkEnd (s : St) (f : Flow) : St :=
  match s.phase with
  | .link =>
    let s := s.tell [.e .link f.linkHow]
    match f with
    | .cont => { s.tell [.b .next] with phase := .next }
    | .brk .panicked => s.panicked
    | .brk r => s.stop r
    | _ => s.panicked
  | _ => s

/-- `on_panic` ends. `src/actor/kind.rs` L163-170, `src/actor/spawn.rs` L471-483; a panic is not caught. -/
def St.panicEnd (s : St) (f : Flow) : St :=
  match s.phase with
  | .onPanic start =>
    match f with
    | .panic => s.crash
    | .cont => let s := s.tell [.e .panic f.panicHow]
               if start then s.stop .panicked else { s.tell [.b .next] with phase := .next }
    | .brk r => (s.tell [.e .panic f.panicHow]).stop r
    | .err => (s.tell [.e .panic f.panicHow]).stop .panicked
  | _ => s

/-- `on_stop` ends: the task is over, the receiver is dropped. `src/actor/spawn.rs` L483-506, L560-591; a panic is not
caught. -/
def St.stopEnd (s : St) (r : Res) : St :=
  match s.phase with
  | .stopping q =>
    match r with
    | .panic => s.crash
    | _ => { (s.drop s.queue).tell [.e .stop .ok] with queue := [], closed := true, phase := .stopped q }
  | _ => s

/-- `ActorRef::kill`, `src/actor/actor_ref.rs` L222-224. -/
def St.kill (s : St) : St := { s with aborted := true }

/-- Is the task in the part that an abort ends? `src/actor/spawn.rs` L497-513. -/
def Phase.abortable : Phase → Bool
  | .doomed | .next | .handling _ _ _ | .link | .onPanic false => true
  | _ => false

/-- The task notices that it was killed: the future of the loop is dropped, with what it waits for.
`src/actor/spawn.rs` L497-513. -/
def St.abort (s : St) : St :=
  if s.aborted && s.phase.abortable then
    (match s.phase with
      | .handling it rest _ => (((s.tell [.abort]).settle it .dropped).drop rest)
      | _ => s.tell [.abort]).stop .killed
  else s

/-- The handler that runs takes its reply sender (`Context::reply_sender`, `src/message.rs` L141-153), if there is one. -/
def St.takeReply (s : St) : St :=
  match s.phase with
  | .handling it _ _ =>
    if it.ask && !s.taken then { s with taken := true, delegated := s.delegated ++ [it.id] } else s
  | _ => s

/-- A reply sender that a handler took is used or dropped (`ReplySender::send`, `src/reply.rs` L168-178). -/
def St.later (s : St) (x : Nat) (o : Out) : St :=
  if x ∈ s.delegated then { s.resolve x o with delegated := s.delegated.filter (· != x) } else s

/-- One who asked waits no more: a reply time-out, or the future was dropped. `src/request/ask.rs` L107-157. -/
def St.giveUp (s : St) (x : Nat) : St :=
  if x ∈ s.asks ∧ s.slot x = none ∧ x ∉ s.gaveUp then { s with gaveUp := s.gaveUp ++ [x] } else s

/-- The task is torn down from outside (`JoinHandle::abort`, the end of the runtime). `src/actor/spawn.rs` L367-411. -/
def St.teardown (s : St) : St :=
  match s.phase with
  | .stopped _ => s
  | .crashed => s
  | _ => s.fall .torn

/-- What can happen. `src/actor/spawn.rs` L414-658, `src/mailbox.rs` L254-323. -/
inductive Op where
  | send (b : Body) (ask : Bool)
  | startEnd (r : Res) (full : Bool)
  | take (n : Nat)
  | close
  | make (b : Body) (ask : Bool)
  | spend (i : Nat) (o : Out)
  | ret (i : Nat)
  | retNone
  | nextPanic
  | handleEnd (r : Res)
  | linkEnd (f : Flow)
  | panicEnd (f : Flow)
  | stopEnd (r : Res)
  | kill
  | abort
  | takeReply
  | later (x : Nat) (o : Out)
  | giveUp (x : Nat)
  | teardown
  deriving DecidableEq, Repr

/-- One step. `src/actor/spawn.rs` L414-658, `src/mailbox.rs` L254-323. -/
def St.step (s : St) : Op → St
  | .send b ask => s.push b ask
  | .startEnd r full => s.startEnd r full
  | .take n => s.take n
  | .close => s.close
  | .make b ask => s.make b ask
  | .spend i o => s.spend i o
  | .ret i => s.ret i
  | .retNone => s.retNone
  | .nextPanic => s.nextPanic
  | .handleEnd r => s.handleEnd r
  | .linkEnd f => s.linkEnd f
  | .panicEnd f => s.panicEnd f
  | .stopEnd r => s.stopEnd r
  | .kill => s.kill
  | .abort => s.abort
  | .takeReply => s.takeReply
  | .later x o => s.later x o
  | .giveUp x => s.giveUp x
  | .teardown => s.teardown

/-- A history. `src/actor/spawn.rs` L414-658. -/
def after (ops : List Op) : St := ops.foldl St.step {}

/-- `ActorRef::is_alive`, `src/actor/actor_ref.rs` L89-91; `wait_for_shutdown` (L341-344) returns when it is false. -/
def St.alive (s : St) : Bool := !s.closed

end Verif.Next
