import Verif.Mailbox.Model

/-
Model of `SendError` and its conversions (`src/error.rs`), of the requests that send a message or a signal
and turn a failure of the channel into a `SendError` (`src/request/ask.rs`, `src/request/tell.rs`,
`src/actor/actor_ref.rs` L210-212), of `Context::forward` (`src/message.rs` L156-257), and of how an asker
decodes a reply (`src/reply.rs`).

The code uses `Box<dyn Any>`. Rust types are modelled by codes `Ty`, of which `Sem` gives the values; a
`Box<dyn Any>` is a value together with the code of its type, and `downcast` compares codes.
-/

namespace Verif.Request

open Verif.Mailbox

/-- `SendError<M, E>`, `src/error.rs` L89-100. -/
inductive SendError (M E : Type) where
  | actorNotRunning (m : M)
  | actorStopped
  | mailboxFull (m : M)
  | handlerError (e : E)
  | timeout (m : Option M)
  deriving DecidableEq, Repr

/-- Rust types, as far as they matter: types of the user, `()`, `Infallible`, `SendError<m, e>`,
tuples and `ReplySender<t>`. Simplification: no other type constructors; the ones here are those
the code itself puts in a `Box<dyn Any>` or casts to. The casts are at `src/reply.rs` L103-110,
L180-186, L291-306, `src/error.rs` L132-146, L203-236, `src/mailbox.rs` L457-465. -/
inductive Ty where
  | user (n : Nat)
  | unit
  | never
  | sendError (m e : Ty)
  | tuple (a b : Ty)
  | replySender (t : Ty)
  deriving DecidableEq, Repr

/-- Values of a type. A reply sender is the number of the reply channel it belongs to.
`src/reply.rs` L133-136, `src/error.rs` L89-99. -/
def Ty.Sem : Ty → Type
  | .user _ => Nat
  | .unit => Unit
  | .never => Empty
  | .sendError m e => SendError m.Sem e.Sem
  | .tuple a b => a.Sem × b.Sem
  | .replySender _ => Nat

/-- `Box<dyn Any + Send>`. `src/message.rs` L310-312, `src/reply.rs` L63, L103. -/
structure Dyn where
  ty : Ty
  val : ty.Sem

/-- `Box<dyn Any>::downcast::<T>()`. `src/mailbox.rs` L462, `src/reply.rs` L104, `src/error.rs`
L212-236. -/
def Dyn.downcast (t : Ty) (a : Dyn) : Option t.Sem :=
  if h : a.ty = t then some (h ▸ a.val) else none

/-- What a Rust expression does: it has a value, or it panics. `unwrap`, `panic!` and
`unreachable!` of `src/error.rs` L102-236 and `src/reply.rs` L103-110. -/
inductive Out (α : Type) where
  | val (a : α)
  | panic
  deriving DecidableEq, Repr

/-- Bookkeeping; used where the code goes on with a value, e.g. `src/reply.rs` L297-306. -/
def Out.map {α β : Type} (f : α → β) : Out α → Out β
  | .val a => .val (f a)
  | .panic => .panic

/-- `Option::unwrap`. `src/error.rs` L270-318 (`downcast_message().unwrap()`). -/
def unwrap {α : Type} : Option α → Out α
  | some a => .val a
  | none => .panic

/-- `BoxSendError`, `src/error.rs` L85. -/
abbrev BoxSendError := SendError Dyn Dyn

variable {M N E F : Type}

/-- `SendError::map_msg`, `src/error.rs` L104-115. -/
def SendError.mapMsg (f : M → N) : SendError M E → SendError N E
  | .actorNotRunning m => .actorNotRunning (f m)
  | .actorStopped => .actorStopped
  | .mailboxFull m => .mailboxFull (f m)
  | .handlerError e => .handlerError e
  | .timeout m => .timeout (m.map f)

/-- `SendError::map_err`, `src/error.rs` L118-129. -/
def SendError.mapErr (f : E → F) : SendError M E → SendError M F
  | .actorNotRunning m => .actorNotRunning m
  | .actorStopped => .actorStopped
  | .mailboxFull m => .mailboxFull m
  | .handlerError e => .handlerError (f e)
  | .timeout m => .timeout m

/-- `SendError::boxed`, `src/error.rs` L132-146. -/
def SendError.boxed (m e : Ty) : SendError m.Sem e.Sem → BoxSendError
  | .actorNotRunning x => .actorNotRunning ⟨m, x⟩
  | .actorStopped => .actorStopped
  | .mailboxFull x => .mailboxFull ⟨m, x⟩
  | .handlerError x => .handlerError ⟨e, x⟩
  | .timeout x => .timeout (x.map (fun x => ⟨m, x⟩))

/-- `SendError::unwrap_msg`, `src/error.rs` L153-160. -/
def SendError.unwrapMsg : SendError M E → Out M
  | .actorNotRunning m => .val m
  | .mailboxFull m => .val m
  | .timeout m => unwrap m
  | _ => .panic

/-- `SendError::unwrap_err`, `src/error.rs` L167-172. -/
def SendError.unwrapErr : SendError M E → Out E
  | .handlerError e => .val e
  | _ => .panic

/-- `SendError::reset_err_infallible`, `src/error.rs` L174-176: the mapping panics on a handler error. -/
def SendError.resetErrInfallible : SendError M E → Out (SendError M F)
  | .actorNotRunning m => .val (.actorNotRunning m)
  | .actorStopped => .val .actorStopped
  | .mailboxFull m => .val (.mailboxFull m)
  | .handlerError _ => .panic
  | .timeout m => .val (.timeout m)

/-- `SendError::flatten`, `src/error.rs` L179-199. -/
def SendError.flatten : SendError M (SendError M E) → SendError M E
  | .actorNotRunning m => .actorNotRunning m
  | .handlerError (.actorNotRunning m) => .actorNotRunning m
  | .actorStopped => .actorStopped
  | .handlerError .actorStopped => .actorStopped
  | .mailboxFull m => .mailboxFull m
  | .handlerError (.mailboxFull m) => .mailboxFull m
  | .handlerError (.handlerError e) => .handlerError e
  | .timeout m => .timeout m
  | .handlerError (.timeout m) => .timeout m

/-- `BoxSendError::try_downcast`, `src/error.rs` L212-237. -/
def tryDowncast (m e : Ty) : BoxSendError → Except BoxSendError (SendError m.Sem e.Sem)
  | .actorNotRunning a =>
    match a.downcast m with
    | some x => .ok (.actorNotRunning x)
    | none => .error (.actorNotRunning a)
  | .actorStopped => .ok .actorStopped
  | .mailboxFull a =>
    match a.downcast m with
    | some x => .ok (.mailboxFull x)
    | none => .error (.mailboxFull a)
  | .handlerError a =>
    match a.downcast e with
    | some x => .ok (.handlerError x)
    | none => .error (.handlerError a)
  | .timeout none => .ok (.timeout none)
  | .timeout (some a) =>
    match a.downcast m with
    | some x => .ok (.timeout (some x))
    | none => .error (.timeout (some a))

/-- `BoxSendError::downcast`, `src/error.rs` L203-209: `try_downcast().unwrap()`. -/
def downcast (m e : Ty) (b : BoxSendError) : Out (SendError m.Sem e.Sem) :=
  match tryDowncast m e b with
  | .ok x => .val x
  | .error _ => .panic

/-! ### Signals and the conversion of channel errors -/

/-- `Signal<A>`, `src/mailbox.rs` L441-454. `reply` is the reply channel. Simplification: the contents of
`LinkDied` are left out. -/
inductive Signal where
  | startupFinished
  | message (msg : Dyn) (reply : Option Nat)
  | linkDied
  | stop

/-- `Signal::downcast_message`, `src/mailbox.rs` L457-465. -/
def Signal.downcastMessage (t : Ty) : Signal → Option t.Sem
  | .message a _ => a.downcast t
  | _ => none

/-- `From<mpsc::error::SendError<Signal<A>>>`, `From<TrySendError<..>>` and `From<SendTimeoutError<..>>`
for `SendError<M, E>`, `src/error.rs` L270-318: the failed signal is downcast to the message type of the
error, and the result unwrapped. -/
def fromChannel (t : Ty) (E : Type) (why : Why) (s : Signal) : Out (SendError t.Sem E) :=
  match why with
  | .closed => (unwrap (s.downcastMessage t)).map .actorNotRunning
  | .full => (unwrap (s.downcastMessage t)).map .mailboxFull
  | .timeout => (unwrap (s.downcastMessage t)).map (fun m => .timeout (some m))

/-- A channel operation followed by `?` in a function that returns `Result<_, SendError<t, E>>`.
`why` is the answer of the channel (`Verif.Mailbox`): `none` if the signal was accepted.
`src/request/ask.rs` L107-157, with the `From` of `src/error.rs` L270-318. -/
def sendTry (t : Ty) (E : Type) (why : Option Why) (s : Signal) : Out (Except (SendError t.Sem E) Unit) :=
  match why with
  | none => .val (.ok ())
  | some w => (fromChannel t E w s).map .error

/-! ### Requests (up to the point where the signal is accepted) -/

/-- The message a tell puts into the mailbox: without a reply channel. `src/request/tell.rs` L82-87, L110-115, L125-130. -/
def tellMsg (m : Ty) (x : m.Sem) : Dyn × Option Nat := (⟨m, x⟩, none)

/-- The message an ask or a forward puts into the mailbox: with the reply channel. `src/request/ask.rs` L117-122, L191-196,
L259-264. -/
def askMsg (m : Ty) (x : m.Sem) (ch : Nat) : Dyn × Option Nat := (⟨m, x⟩, some ch)

/-- `TellRequest::send`, `try_send`, `blocking_send`, `src/request/tell.rs` L78-140: they return
`Result<(), SendError<M>>`. -/
def tell (m : Ty) (x : m.Sem) (why : Option Why) : Out (Except (SendError m.Sem Empty) Unit) :=
  sendTry m Empty why (.message (tellMsg m x).1 (tellMsg m x).2)

/-- `AskRequest::send`, `try_send`, `blocking_send` up to the wait for the reply, `src/request/ask.rs`
L107-157, L327-367, L453-482: they return `Result<_, SendError<M, _>>`. -/
def ask (m e : Ty) (x : m.Sem) (ch : Nat) (why : Option Why) : Out (Except (SendError m.Sem e.Sem) Unit) :=
  sendTry m e.Sem why (.message (askMsg m x ch).1 (askMsg m x ch).2)

/-- `AskRequest::enqueue`, `try_enqueue`, `blocking_enqueue`, `src/request/ask.rs` L186-240, L397-443, L545-574: they return
`Result<PendingReply, SendError>`, that is `SendError<(), Infallible>`. -/
def enqueue (m : Ty) (x : m.Sem) (ch : Nat) (why : Option Why) : Out (Except (SendError Unit Empty) Unit) :=
  sendTry .unit Empty why (.message (askMsg m x ch).1 (askMsg m x ch).2)

/-- `AskRequest::forward`, `try_forward`, `blocking_forward`, `src/request/ask.rs` L249-283, L294-318, L486-510: they return
`Result<(), SendError<(M, ReplySender<R>), E>>`. -/
def askForward (m r e : Ty) (x : m.Sem) (ch : Nat) (why : Option Why) :
    Out (Except (SendError (Ty.tuple m (.replySender r)).Sem e.Sem) Unit) :=
  sendTry (.tuple m (.replySender r)) e.Sem why (.message (askMsg m x ch).1 (askMsg m x ch).2)

/-- `ActorRef::stop_gracefully`, `src/actor/actor_ref.rs` L210-212: `mailbox_sender.send(Signal::Stop)`
followed by `?` in a function that returns `Result<(), SendError>`. -/
def stopGracefully (why : Option Why) : Out (Except (SendError Unit Empty) Unit) :=
  sendTry .unit Empty why .stop

/-- `SignalMailbox::signal_stop` and `signal_link_died`, `src/mailbox.rs` L498-533: the error of the
channel is mapped to `ActorNotRunning(())` without looking at the signal. -/
def signalStop (why : Option Why) : Out (Except (SendError Unit Empty) Unit) :=
  match why with
  | none => .val (.ok ())
  | some _ => .val (.error (.actorNotRunning ()))

/-- `Context::forward`, `try_forward`, `blocking_forward`, `src/message.rs` L156-257. `reply` is the reply
channel held by the context; the result is the `ForwardedReply` and the reply channel held afterwards. -/
def ctxForward (m r e : Ty) (reply : Option Nat) (x : m.Sem) (why : Option Why) :
    Out (Except (SendError m.Sem e.Sem) Unit × Option Nat) :=
  match reply with
  | some ch =>
    match askForward m r e x ch why with
    | .panic => .panic
    | .val (.ok ()) => .val (.ok (), none)
    | .val (.error err) =>
      -- `err.map_msg(|(msg, tx)| { self.reply = Some(tx.cast()); msg })`
      let back : Option Nat := match err with
        | .actorNotRunning p => some p.2
        | .mailboxFull p => some p.2
        | .timeout (some p) => some p.2
        | _ => none
      .val (.error (err.mapMsg (fun p => p.1)), back)
  | none =>
    match tell m x why with
    | .panic => .panic
    | .val (.ok ()) => .val (.ok (), none)
    | .val (.error err) => (err.resetErrInfallible (F := e.Sem)).map (fun err => (.error err, none))

/-! ### Replies -/

/-- Reply types: `Result<T, E>` (and the infallible types, where `e` is `never`), `DelegatedReply<R>` and
`ForwardedReply<M, R>`; `src/reply.rs` L81-111, L212-332. -/
inductive RTy where
  | plain (t e : Ty)
  | delegated (r : RTy)
  | forwarded (m : Ty) (r : RTy)
  deriving DecidableEq, Repr

/-- `Reply::Ok`. `src/reply.rs` L81-92, L224-230, L263-270, L310-318. -/
def RTy.ok : RTy → Ty
  | .plain t _ => t
  | .delegated r => r.ok
  | .forwarded _ r => r.ok

/-- `Reply::Error`; `ForwardedReply`: `SendError<M, R::Error>`, `src/reply.rs` L269. -/
def RTy.err : RTy → Ty
  | .plain _ e => e
  | .delegated r => r.err
  | .forwarded m r => .sendError m r.err

/-- What goes through the reply channel: `Result<BoxReply, BoxSendError>`, `src/reply.rs` L62-63. -/
abbrev Packet := Except BoxSendError Dyn

/-- `ReplySender::send`, `src/reply.rs` L168-178, for a reply whose result is `v`. -/
def packet (t e : Ty) (v : Except e.Sem t.Sem) : Packet :=
  match v with
  | .ok x => .ok ⟨t, x⟩
  | .error x => .error (.handlerError ⟨e, x⟩)

/-- `Reply::downcast_ok`, `src/reply.rs` L103-105, L291-293. -/
def downcastOk (r : RTy) (a : Dyn) : Out r.ok.Sem := unwrap (a.downcast r.ok)

/-- `Reply::downcast_err::<N>`, `src/reply.rs` L108-110; `DelegatedReply` uses the default; `ForwardedReply` overrides it,
L297-307: it tries `<N, R::Error>`, then `<M, SendError<M, R::Error>>`, and the message of the latter must
not occur. -/
def downcastErr (n : Ty) : (r : RTy) → BoxSendError → Out (SendError n.Sem r.err.Sem)
  | .plain _ e, b => downcast n e b
  | .delegated r, b => downcast n r.err b
  | .forwarded m r, b =>
    match tryDowncast n r.err b with
    | .ok x => .val (x.mapErr (F := (Ty.sendError m r.err).Sem) SendError.handlerError)
    | .error b =>
      match downcast m (.sendError m r.err) b with
      | .panic => .panic
      | .val (.actorNotRunning _) => .panic
      | .val .actorStopped => .val .actorStopped
      | .val (.mailboxFull _) => .panic
      | .val (.handlerError e) => .val (.handlerError e)
      | .val (.timeout none) => .val (.timeout none)
      | .val (.timeout (some _)) => .panic

/-- How an asker decodes what arrives on the reply channel, `src/request/ask.rs` L135-142; `n` is the type
of the message it sent. -/
def decode (n : Ty) (r : RTy) (p : Packet) : Out (Except (SendError n.Sem r.err.Sem) r.ok.Sem) :=
  match p with
  | .ok a => (downcastOk r a).map .ok
  | .error b => (downcastErr n r b).map .error

/-- The reply type seen by the asker when the message is forwarded as messages of types `hops` in turn and
the last handler replies `Result<t, e>`: each forwarding handler returns the `ForwardedReply` of the next
(`src/message.rs` L156-163). The reply channel itself is handed on unchanged (`tx.cast()`, L172). -/
def chain (hops : List Ty) (t e : Ty) : RTy :=
  match hops with
  | [] => .plain t e
  | m :: ms => .forwarded m (chain ms t e)

/-- What an asker that sends a message of type `n` gets when the request is forwarded along `hops`
and the last handler returns `v`. `Context::forward`, `src/message.rs` L156-188, along the chain,
and `src/request/ask.rs` L135-142 at its start. -/
def answer (n : Ty) (hops : List Ty) (t e : Ty) (v : Except e.Sem t.Sem) :
    Out (Except (SendError n.Sem (chain hops t e).err.Sem) (chain hops t e).ok.Sem) :=
  decode n (chain hops t e) (packet t e v)

end Verif.Request
