import Verif.Mailbox.Model
import Verif.Remote.Model

/-
Model of the request builders (`src/request.rs`, `src/request/ask.rs`, `src/request/tell.rs`) and of what their
time-outs do: requests to one actor over its mailbox, with a clock.

A request is polled by its caller's task. Time passes in steps of one unit; a timer is looked at when the request is
polled, so it may be late but not early. The values of replies are numbers. The conversion of errors into the result
types is modelled in Verif.Request.
-/

namespace Verif.Timed

open Verif.Mailbox

/-! ### The builders -/

/-- The type parameters `Tm` and `Tr` with their value: `WithoutRequestTimeout` and `WithRequestTimeout(d)`,
`src/request.rs` L18-24. -/
inductive TimeOpt where
  | without
  | withT (d : Option Nat)
  deriving DecidableEq, Repr

/-- `From<WithoutRequestTimeout>` and `From<WithRequestTimeout>` for `Option<Duration>`, `src/request.rs` L60-70. -/
def TimeOpt.duration : TimeOpt → Option Nat
  | .without => none
  | .withT d => d

/-- `MaybeRequestTimeout`, `src/request.rs` L30-35. -/
inductive Maybe where
  | noTimeout
  | timeout (d : Nat)
  deriving DecidableEq, Repr

/-- `From<Option<Duration>> for MaybeRequestTimeout`, `src/request.rs` L37-44. -/
def Maybe.ofOption : Option Nat → Maybe
  | some d => .timeout d
  | none => .noTimeout

/-- `From<WithoutRequestTimeout>` and `From<WithRequestTimeout>` for `MaybeRequestTimeout`, `src/request.rs` L46-59. -/
def Maybe.ofOpt : TimeOpt → Maybe
  | .without => .noTimeout
  | .withT (some d) => .timeout d
  | .withT none => .noTimeout

/-- `From<MaybeRequestTimeout> for Option<Duration>`, `src/request.rs` L72-79. -/
def Maybe.duration : Maybe → Option Nat
  | .noTimeout => none
  | .timeout d => some d

/-- The time-outs of an `AskRequest`, `src/request/ask.rs` L26-37; those of a `RemoteAskRequest` (L647-658) are the same.
`AskRequest::new` (L44-63, called with both parameters `WithoutRequestTimeout`) is `{}`. -/
structure AskB where
  mailbox : TimeOpt := .without
  reply : TimeOpt := .without
  deriving DecidableEq, Repr

/-- `AskRequest::mailbox_timeout_opt`, `src/request/ask.rs` L73-85. -/
def AskB.mailboxOpt (b : AskB) (d : Option Nat) : AskB := { mailbox := .withT d, reply := b.reply }

/-- `AskRequest::reply_timeout_opt`, `src/request/ask.rs` L92-104. -/
def AskB.replyOpt (b : AskB) (d : Option Nat) : AskB := { mailbox := b.mailbox, reply := .withT d }

/-- The builder methods a caller has: `mailbox_timeout` and `reply_timeout`, `src/request/ask.rs` L66-71, L88-90; for
remote requests L688-715. -/
inductive Call where
  | mailbox (d : Nat)
  | reply (d : Nat)
  deriving DecidableEq, Repr

/-- One call of a builder method, `src/request/ask.rs` L66-71, L88-90, and L688-715. -/
def AskB.call (b : AskB) : Call → AskB
  | .mailbox d => b.mailboxOpt (some d)
  | .reply d => b.replyOpt (some d)

/-- A request made by `ask(msg)` and a chain of builder calls. `src/request/ask.rs` L44-104. -/
def AskB.build (l : List Call) : AskB := l.foldl AskB.call {}

/-- The ways to send an ask: `send` (also `.await`, `src/request/ask.rs` L577-590), `enqueue`, `forward`, and their `try_`
and `blocking_` versions, `src/request/ask.rs` L107-575. -/
inductive How where
  | send | enqueue | forward
  | trySend | tryEnqueue | tryForward
  | blockingSend | blockingEnqueue | blockingForward
  deriving DecidableEq, Repr

/-- Is the method there for these type parameters? The headers of the `impl` blocks, `src/request/ask.rs` L39, L243, L286,
L321, L446. -/
def AskB.allows (b : AskB) : How → Bool
  | .send | .enqueue => true
  | .forward => b.reply == .without
  | .trySend | .tryEnqueue => b.mailbox == .without
  | .tryForward | .blockingSend | .blockingEnqueue | .blockingForward => b.mailbox == .without && b.reply == .without

/-- What a request does once its message is in the mailbox: nothing more (tell, forward), wait for the reply with a
time-out, or hand out a pending reply which waits when it is awaited. `src/request/ask.rs` L135-142, L197-240, L273-282. -/
inductive After where
  | nothing
  | now (rt : Option Nat)
  | later (rt : Option Nat)
  deriving DecidableEq, Repr

/-- A request as it runs: whether it waits for room in the mailbox, for how long at most, and what it does then.
`src/request/ask.rs` L107-157. -/
structure Plan where
  wait : Bool
  mt : Option Nat
  after : After
  deriving DecidableEq, Repr

/-- The bodies of the methods, `src/request/ask.rs`: `send` L107-157, `enqueue` L186-240, `forward` L249-283,
`try_forward` L294-318, `try_send` L327-371, `try_enqueue` L397-443, `blocking_send` L453-483, `blocking_forward`
L486-511, `blocking_enqueue` L545-574. A blocking method waits without time-out. -/
def AskB.plan (b : AskB) : How → Plan
  | .send => ⟨true, b.mailbox.duration, .now b.reply.duration⟩
  | .enqueue => ⟨true, b.mailbox.duration, .later b.reply.duration⟩
  | .forward => ⟨true, b.mailbox.duration, .nothing⟩
  | .trySend => ⟨false, none, .now b.reply.duration⟩
  | .tryEnqueue => ⟨false, none, .later b.reply.duration⟩
  | .tryForward => ⟨false, none, .nothing⟩
  | .blockingSend => ⟨true, none, .now none⟩
  | .blockingEnqueue => ⟨true, none, .later none⟩
  | .blockingForward => ⟨true, none, .nothing⟩

/-- The time-out of a `TellRequest`, `src/request/tell.rs` L23-33; of a `RecipientTellRequest`, L160-169; of a
`RemoteTellRequest`, L262-273. -/
structure TellB where
  mailbox : TimeOpt := .without
  deriving DecidableEq, Repr

/-- `TellRequest::mailbox_timeout_opt`, `src/request/tell.rs` L64-75; likewise L202-213 and L313-324. -/
def TellB.mailboxOpt (_ : TellB) (d : Option Nat) : TellB := { mailbox := .withT d }

/-- A tell made by `tell(msg)` and calls of `mailbox_timeout`, `src/request/tell.rs` L60-62, L195-200, L306-311. -/
def TellB.build (l : List Nat) : TellB := l.foldl (fun b d => b.mailboxOpt (some d)) {}

/-- The ways to send a tell, `src/request/tell.rs` L78-156. -/
inductive THow where
  | send | trySend | blockingSend
  deriving DecidableEq, Repr

/-- Is the method there? `src/request/tell.rs` L35, L103; for recipients L171, L227. -/
def TellB.allows (b : TellB) : THow → Bool
  | .send => true
  | .trySend | .blockingSend => b.mailbox == .without

/-- `TellRequest::send` L78-100, `try_send` L109-121, `blocking_send` L124-140 of `src/request/tell.rs`. -/
def TellB.plan (b : TellB) : THow → Plan
  | .send => ⟨true, b.mailbox.duration, .nothing⟩
  | .trySend => ⟨false, none, .nothing⟩
  | .blockingSend => ⟨true, none, .nothing⟩

/-- The request a `RecipientTellRequest` makes of the actor behind the recipient: `src/request/tell.rs` L216-240 and
`MessageHandler for ActorRef`, `src/actor/actor_ref.rs` L1453-1478. -/
def TellB.recipientPlan (b : TellB) : THow → Plan
  | .send => (({} : TellB).mailboxOpt b.mailbox.duration).plan .send
  | .trySend => ({} : TellB).plan .trySend
  | .blockingSend => ({} : TellB).plan .blockingSend

/-- The arguments with which `RemoteAskRequest::send` and `try_send` call `remote_ask`, `src/request/ask.rs` L718-763:
mailbox time-out, reply time-out, `immediate`. -/
def AskB.remoteArgs (b : AskB) (immediate : Bool) : Option Nat × Option Nat × Bool :=
  if immediate then (none, b.reply.duration, true) else (b.mailbox.duration, b.reply.duration, false)

/-- The arguments with which `RemoteTellRequest::send` and `try_send` call `remote_tell`, `src/request/tell.rs` L327-350. -/
def TellB.remoteArgs (b : TellB) (immediate : Bool) : Option Nat × Bool := (b.mailbox.duration, immediate)

/-- The request made of the actor on its own node: `_internal::ask` L108-113, `try_ask` L149-153, `tell` L190-194 and
`try_tell` L219 of `src/remote/_internal.rs`. -/
def localPlan (q : Remote.LocalReq) : Plan :=
  if q.isAsk then
    if q.immediate then (({} : AskB).replyOpt q.replyTimeout).plan .trySend
    else ((({} : AskB).mailboxOpt q.mailboxTimeout).replyOpt q.replyTimeout).plan .send
  else
    if q.immediate then ({} : TellB).plan .trySend
    else (({} : TellB).mailboxOpt q.mailboxTimeout).plan .send

/-! ### Requests in time -/

/-- How a request ended. `sent`: `Ok(())` of tell and forward. `failed`: the errors of sending (`src/error.rs` L270-318).
`noReply`: `Timeout(None)` (`src/error.rs` L320-324). `stopped`: `ActorStopped` (L297-301). `dropped`: the caller dropped
the future. -/
inductive Res where
  | sent
  | ok (r : Nat)
  | failed (why : Why)
  | noReply
  | stopped
  | dropped
  deriving DecidableEq, Repr

/-- Where a request is: `send_timeout` or `send` of the mailbox is pending (`src/request/ask.rs` L126-134); a
`PendingReply` is held that was not polled yet (L197-240); the reply is awaited (L135-138); it is over. -/
inductive Stage where
  | none
  | sending
  | enqueued
  | awaiting
  | over (r : Res)
  deriving DecidableEq, Repr

/-- The `oneshot` channel of an ask, `src/request/ask.rs` L117: none (tell, forward), open, answered, sender dropped,
receiver dropped. -/
inductive Chan where
  | none
  | unanswered
  | value (r : Nat)
  | dropped
  | gone
  deriving DecidableEq, Repr

/-- A request. `src/request/ask.rs` L107-157. `born`, `took`, `since`, `ended`: the times at which it was started, its
message was taken by the mailbox, it began to wait for the reply, and it ended. -/
structure Rq where
  plan : Plan := ⟨false, none, .nothing⟩
  stage : Stage := .none
  chan : Chan := .none
  born : Nat := 0
  took : Nat := 0
  since : Nat := 0
  ended : Nat := 0
  deriving DecidableEq, Repr

/-- One actor's mailbox, the clock, and the requests made so far by the ticket of their send operation.
`src/mailbox.rs` L27-50, `src/request/ask.rs` L107-157. -/
structure W where
  mb : Mb Nat
  now : Nat := 0
  rq : Nat → Rq := fun _ => {}

/-- A world with a fresh mailbox. `src/mailbox.rs` L27-40. -/
def W.fresh (cap : Option Nat) : W := { mb := Mb.fresh cap }

/-- Change one request. Bookkeeping, models no code (`src/request/ask.rs` L107-157 keeps this in local variables). -/
def W.set (w : W) (t : Nat) (r : Rq) : W := { w with rq := fun x => if x = t then r else w.rq x }

/-- Has a time-out which began at `since` passed? `tokio::time::timeout`, called at `src/request/ask.rs` L136; also in
`send_timeout`, L128. -/
def due (d : Option Nat) (since now : Nat) : Bool :=
  match d with
  | none => false
  | some d => since + d ≤ now

/-- The time-out for the reply. `src/request/ask.rs` L135, L211. -/
def Plan.rt (p : Plan) : Option Nat :=
  match p.after with
  | .nothing => none
  | .now d => d
  | .later d => d

/-- The request ends; its receiver for the reply is dropped. End of `send`, `src/request/ask.rs` L139-142. -/
def Rq.finish (r : Rq) (res : Res) (now : Nat) : Rq :=
  { r with stage := .over res, ended := now, chan := if r.chan = .none then .none else .gone }

/-- The mailbox has taken the message. `src/request/ask.rs` L135-138 (`send`), L209-220 (`enqueue`), L277 (`forward`). -/
def Rq.accepted (r : Rq) (now : Nat) : Rq :=
  match r.plan.after with
  | .nothing => { r with took := now }.finish .sent now
  | .now _ => { r with took := now, stage := .awaiting, since := now }
  | .later _ => { r with took := now, stage := .enqueued }

/-- A new request, polled for the first time: `src/request/ask.rs` L117-134. The reply channel is made at once. For the
`try_` methods L335-343. -/
def W.start (w : W) (p : Plan) (v : Nat) : W :=
  let t := w.mb.next
  let r : Rq := { plan := p, born := w.now, chan := if p.after = .nothing then .none else .unanswered }
  if p.wait then
    { w with mb := w.mb.send v }.set t
      (if w.mb.closed then r.finish (.failed .closed) w.now
       else if w.mb.hasRoom then r.accepted w.now
       else { r with stage := .sending })
  else
    { w with mb := w.mb.trySend v }.set t
      (if w.mb.closed then r.finish (.failed .closed) w.now
       else if w.mb.hasRoom then r.accepted w.now
       else r.finish (.failed .full) w.now)

/-- Poll the request: `tokio::time::timeout` (`src/request/ask.rs` L128, L136) polls what it wraps first and looks at
the clock only if that is not ready. -/
def W.poll (w : W) (t : Nat) : W :=
  let r := w.rq t
  match r.stage with
  | .sending =>
    if w.mb.closed then w.set t (r.finish (.failed .closed) w.now)
    else if (w.mb.granted.find? (fun p => p.1 == t)).isSome then
      { w with mb := w.mb.poll t }.set t (r.accepted w.now)
    else if due r.plan.mt r.born w.now then
      { w with mb := w.mb.cancel t }.set t (r.finish (.failed .timeout) w.now)
    else w
  | .awaiting =>
    match r.chan with
    | .value v => w.set t (r.finish (.ok v) w.now)
    | .dropped => w.set t (r.finish .stopped w.now)
    | _ => if due r.plan.rt r.since w.now then w.set t (r.finish .noReply w.now) else w
  | _ => w

/-- A pending reply is awaited: the `async` block of `enqueue` runs up to its first suspension, and only now makes the
timer. `src/request/ask.rs` L209-220; `PendingReply::poll` L613-615; `BlockingPendingReply::recv` L638-640. -/
def W.await (w : W) (t : Nat) : W :=
  match (w.rq t).stage with
  | .enqueued => w.set t { w.rq t with stage := .awaiting, since := w.now }
  | _ => w

/-- The caller drops the request or the pending reply. Drop of the future of `src/request/ask.rs` L107-157 or of
`PendingReply`, L598-604. -/
def W.drop (w : W) (t : Nat) : W :=
  let r := w.rq t
  match r.stage with
  | .sending => { w with mb := w.mb.cancel t }.set t (r.finish .dropped w.now)
  | .enqueued | .awaiting => w.set t (r.finish .dropped w.now)
  | _ => w

/-- The handler of a message it has received answers: `ReplySender::send`, `src/reply.rs` L168-178. -/
def W.reply (w : W) (t v : Nat) : W :=
  if t ∈ w.mb.received.map (·.1) ∧ (w.rq t).chan = .unanswered then w.set t { w.rq t with chan := .value v } else w

/-- The reply sender of a received message is dropped. Drop of `ReplySender`, `src/reply.rs` L133-136. -/
def W.dropReply (w : W) (t : Nat) : W :=
  if t ∈ w.mb.received.map (·.1) ∧ (w.rq t).chan = .unanswered then w.set t { w.rq t with chan := .dropped } else w

/-- The receiver of the mailbox is dropped, and with it the messages in it and their reply senders. Drop of
`MailboxReceiver`, `src/mailbox.rs` L247-252. -/
def W.close (w : W) : W :=
  { w with
    mb := w.mb.close
    rq := fun t =>
      if t ∈ w.mb.queue.map (·.1) ∧ (w.rq t).chan = .unanswered then { w.rq t with chan := .dropped } else w.rq t }

/-- What can happen: the callers start, poll, await and drop requests; the actor receives, answers, drops reply senders
and ends; time passes. `src/request/ask.rs` L107-575, `src/actor/kind.rs` L97-126. -/
inductive Op where
  | start (p : Plan) (v : Nat)
  | poll (t : Nat)
  | await (t : Nat)
  | drop (t : Nat)
  | recv
  | reply (t v : Nat)
  | dropReply (t : Nat)
  | close
  | tick
  deriving DecidableEq, Repr

/-- One operation. `src/request/ask.rs` L107-575. -/
def W.step (w : W) : Op → W
  | .start p v => w.start p v
  | .poll t => w.poll t
  | .await t => w.await t
  | .drop t => w.drop t
  | .recv => { w with mb := w.mb.recv }
  | .reply t v => w.reply t v
  | .dropReply t => w.dropReply t
  | .close => w.close
  | .tick => { w with now := w.now + 1 }

/-- A history. `src/request/ask.rs` L107-575. -/
def W.run (w : W) (ops : List Op) : W := ops.foldl W.step w

end Verif.Timed
