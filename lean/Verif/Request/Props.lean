import Verif.Request.Model
import Verif.Lifecycle.PropsResult

/-!
Property theorems about `SendError` and requests: C36 (conversions lose nothing), C16 (the typed part: a
failed tell or ask hands back its message), C20 (`enqueue` and `forward` panic instead of reporting), C21
(`stop_gracefully` on a stopped actor panics), C37 (forwarded requests).

The specification of an error is given by its `kind`, the messages it holds (`msgs`) and the handler errors
it holds (`errs`).
-/

namespace Verif.Request

open Verif.Mailbox

variable {M N E F : Type}

/-! ### C36 -/

/-- Which of the five failures. -/
inductive Kind where
  | notRunning
  | stopped
  | full
  | handler
  | timeout
  deriving DecidableEq, Repr

def SendError.kind : SendError M E → Kind
  | .actorNotRunning _ => .notRunning
  | .actorStopped => .stopped
  | .mailboxFull _ => .full
  | .handlerError _ => .handler
  | .timeout _ => .timeout

/-- The messages held by an error. -/
def SendError.msgs : SendError M E → List M
  | .actorNotRunning m => [m]
  | .mailboxFull m => [m]
  | .timeout m => m.toList
  | _ => []

/-- The handler errors held by an error. -/
def SendError.errs : SendError M E → List E
  | .handlerError e => [e]
  | _ => []

/-- An error is determined by its kind, its messages and its handler errors: the specification misses
nothing. -/
theorem determined (x y : SendError M E) (hk : x.kind = y.kind) (hm : x.msgs = y.msgs)
    (he : x.errs = y.errs) : x = y := by
  cases x <;> cases y <;> simp_all [SendError.kind, SendError.msgs, SendError.errs]
  rename_i a b
  cases a <;> cases b <;> simp_all

example : (SendError.timeout (some 3) : SendError Nat Nat).msgs = [3] := rfl

/-- **C36** `map_msg` changes the message only. -/
theorem map_msg_only_message (f : M → N) (x : SendError M E) :
    (x.mapMsg f).kind = x.kind ∧ (x.mapMsg f).msgs = x.msgs.map f ∧ (x.mapMsg f).errs = x.errs := by
  cases x <;> simp [SendError.mapMsg, SendError.kind, SendError.msgs, SendError.errs]
  rename_i m
  cases m <;> simp

example : ((SendError.timeout (some 3) : SendError Nat Nat).mapMsg (· + 1)) = .timeout (some 4) := rfl

/-- **C36** `map_err` changes the handler error only. -/
theorem map_err_only_error (f : E → F) (x : SendError M E) :
    (x.mapErr f).kind = x.kind ∧ (x.mapErr f).msgs = x.msgs ∧ (x.mapErr f).errs = x.errs.map f := by
  cases x <;> simp [SendError.mapErr, SendError.kind, SendError.msgs, SendError.errs]

example : ((SendError.handlerError 3 : SendError Nat Nat).mapErr (· + 1)) = .handlerError 4 := rfl

theorem Dyn.downcast_same (t : Ty) (x : t.Sem) : (Dyn.mk t x).downcast t = some x := by
  simp [Dyn.downcast]

theorem Dyn.downcast_other (t : Ty) (a : Dyn) (h : a.ty ≠ t) : a.downcast t = none := by
  simp [Dyn.downcast, h]

theorem Dyn.downcast_some {t : Ty} {a : Dyn} {x : t.Sem} (h : a.downcast t = some x) : a = ⟨t, x⟩ := by
  obtain ⟨u, v⟩ := a
  unfold Dyn.downcast at h
  split at h
  · rename_i hu
    cases hu
    simp at h
    rw [h]
  · cases h

/-- **C36** Boxing an error and downcasting it to its own types gives back the same error. -/
theorem boxed_downcast_roundtrip (m e : Ty) (x : SendError m.Sem e.Sem) :
    tryDowncast m e (x.boxed m e) = .ok x ∧ downcast m e (x.boxed m e) = .val x := by
  have h : tryDowncast m e (x.boxed m e) = .ok x := by
    cases x with
    | actorNotRunning y => simp [tryDowncast, SendError.boxed, Dyn.downcast_same]
    | actorStopped => rfl
    | mailboxFull y => simp [tryDowncast, SendError.boxed, Dyn.downcast_same]
    | handlerError y => simp [tryDowncast, SendError.boxed, Dyn.downcast_same]
    | timeout y => cases y <;> simp [tryDowncast, SendError.boxed, Dyn.downcast_same]
  exact ⟨h, by simp [downcast, h]⟩

example : downcast (.user 1) (.user 2) (SendError.boxed (.user 1) (.user 2) (.timeout (some (5 : Nat)))) =
    .val (.timeout (some (5 : Nat))) := rfl

/-- **C36** Downcasting succeeds only with the error that was boxed, at the types at which it was boxed
(as far as the error holds values); otherwise it is reported, with the boxed error handed back unchanged. -/
theorem downcast_exact (m e : Ty) (b : BoxSendError) :
    (∃ x, tryDowncast m e b = .ok x ∧ b = x.boxed m e) ∨
    (tryDowncast m e b = .error b ∧ downcast m e b = .panic ∧
      ((∃ a ∈ b.msgs, a.ty ≠ m) ∨ (∃ a ∈ b.errs, a.ty ≠ e))) := by
  have key : ∀ (t : Ty) (a : Dyn), (∃ x, a.downcast t = some x ∧ a = ⟨t, x⟩) ∨
      (a.downcast t = none ∧ a.ty ≠ t) := by
    intro t a
    by_cases h : a.ty = t
    · left
      obtain ⟨u, v⟩ := a
      cases h
      exact ⟨v, Dyn.downcast_same u v, rfl⟩
    · exact Or.inr ⟨Dyn.downcast_other t a h, h⟩
  cases b with
  | actorNotRunning a =>
    rcases key m a with ⟨x, h, ha⟩ | ⟨h, ha⟩
    · exact Or.inl ⟨.actorNotRunning x, by simp [tryDowncast, h], by simp [SendError.boxed, ha]⟩
    · right
      simp [tryDowncast, downcast, h, SendError.msgs, ha]
  | actorStopped => exact Or.inl ⟨.actorStopped, rfl, rfl⟩
  | mailboxFull a =>
    rcases key m a with ⟨x, h, ha⟩ | ⟨h, ha⟩
    · exact Or.inl ⟨.mailboxFull x, by simp [tryDowncast, h], by simp [SendError.boxed, ha]⟩
    · right
      simp [tryDowncast, downcast, h, SendError.msgs, ha]
  | handlerError a =>
    rcases key e a with ⟨x, h, ha⟩ | ⟨h, ha⟩
    · exact Or.inl ⟨.handlerError x, by simp [tryDowncast, h], by simp [SendError.boxed, ha]⟩
    · right
      simp [tryDowncast, downcast, h, SendError.msgs, SendError.errs, ha]
  | timeout a =>
    cases a with
    | none => exact Or.inl ⟨.timeout none, rfl, rfl⟩
    | some a =>
      rcases key m a with ⟨x, h, ha⟩ | ⟨h, ha⟩
      · exact Or.inl ⟨.timeout (some x), by simp [tryDowncast, h], by simp [SendError.boxed, ha]⟩
      · right
        simp [tryDowncast, downcast, h, SendError.msgs, ha]

example : downcast (.user 1) (.user 2) (.mailboxFull ⟨.user 7, (5 : Nat)⟩) = .panic := rfl

/-- **C36** `flatten` keeps every message and every handler error, of the outer and of the inner error. -/
theorem flatten_keeps_all (x : SendError M (SendError M E)) :
    x.flatten.msgs = x.msgs ++ x.errs.flatMap (·.msgs) ∧ x.flatten.errs = x.errs.flatMap (·.errs) ∧
    ((x.kind ≠ .handler → x.flatten.kind = x.kind) ∧ ∀ y, x = .handlerError y → x.flatten = y) := by
  cases x with
  | handlerError y =>
    cases y <;> simp [SendError.flatten, SendError.msgs, SendError.errs, SendError.kind]
  | _ => simp [SendError.flatten, SendError.msgs, SendError.errs, SendError.kind]

example : (SendError.handlerError (.timeout (some 3)) : SendError Nat (SendError Nat Nat)).flatten =
    .timeout (some 3) := rfl

/-- **C36** `unwrap_msg` returns the message exactly if the error holds one, and panics otherwise;
`unwrap_err` likewise for handler errors. -/
theorem unwrap_exactly (x : SendError M E) :
    (∀ m, x.unwrapMsg = .val m ↔ m ∈ x.msgs) ∧ (x.unwrapMsg = .panic ↔ x.msgs = []) ∧
    (∀ e, x.unwrapErr = .val e ↔ e ∈ x.errs) ∧ (x.unwrapErr = .panic ↔ x.errs = []) := by
  cases x with
  | timeout m =>
    cases m <;>
      simp [SendError.unwrapMsg, SendError.unwrapErr, SendError.msgs, SendError.errs, unwrap, eq_comm]
  | _ => simp [SendError.unwrapMsg, SendError.unwrapErr, SendError.msgs, SendError.errs, eq_comm]

example : (SendError.timeout none : SendError Nat Nat).unwrapMsg = .panic := rfl
example : (SendError.mailboxFull 4 : SendError Nat Nat).unwrapMsg = .val 4 := rfl

/-! ### C16: the typed part -/

/-- The failure of a channel operation, as the property names it. -/
def whyKind : Why → Kind
  | .closed => .notRunning
  | .full => .full
  | .timeout => .timeout

/-- **C16** `tell` and `ask` (`send`, `try_send`, `blocking_send`) never panic when the channel refuses the
signal: they return an error of the corresponding kind, with the very message passed in. -/
theorem failed_request_hands_back_message (m e : Ty) (x : m.Sem) (ch : Nat) (w : Why) :
    (∃ err, tell m x (some w) = .val (.error err) ∧ err.kind = whyKind w ∧ err.msgs = [x]) ∧
    (∃ err, ask m e x ch (some w) = .val (.error err) ∧ err.kind = whyKind w ∧ err.msgs = [x]) := by
  cases w <;>
    simp [tell, ask, sendTry, tellMsg, askMsg, fromChannel, Signal.downcastMessage, Dyn.downcast_same, unwrap, Out.map,
      SendError.kind, whyKind, SendError.msgs]

example : tell (.user 3) (5 : Nat) (some .full) = .val (.error (.mailboxFull (5 : Nat))) := rfl

/-! ### C20 -/

/-- The number of constructors of a type code. -/
def Ty.size : Ty → Nat
  | .sendError m e => m.size + e.size + 1
  | .tuple a b => a.size + b.size + 1
  | .replySender t => t.size + 1
  | _ => 1

/-- No type is a tuple of which it is itself the first component. -/
theorem ty_ne_tuple (a b : Ty) : a ≠ .tuple a b := by
  intro h
  have := congrArg Ty.size h
  simp only [Ty.size] at this
  omega

/-- **C20**, the code does the opposite: if the channel refuses the signal of an `enqueue` (any of the
three), the call panics, for every message of every type but `()`. -/
theorem enqueue_panics (m : Ty) (hm : m ≠ .unit) (x : m.Sem) (ch : Nat) (w : Why) :
    enqueue m x ch (some w) = .panic := by
  have h : (Dyn.mk m x).downcast .unit = none := Dyn.downcast_other _ _ hm
  cases w <;> simp [enqueue, sendTry, tellMsg, askMsg, fromChannel, Signal.downcastMessage, h, unwrap, Out.map] <;> rfl

example : (Ty.user 3) ≠ .unit := by decide

/-- **C20**, the code does the opposite: if the channel refuses the signal of a forwarded ask (any of the
three variants), the call panics, for every message of every type; the handler that called
`Context::forward` panics, and the reply sender is dropped with the signal. -/
theorem forward_panics (m r e : Ty) (x : m.Sem) (ch : Nat) (w : Why) :
    askForward m r e x ch (some w) = .panic ∧ ctxForward m r e (some ch) x (some w) = .panic := by
  have h : (Dyn.mk m x).downcast (.tuple m (.replySender r)) = none :=
    Dyn.downcast_other _ _ (ty_ne_tuple _ _)
  have h2 : askForward m r e x ch (some w) = .panic := by
    cases w <;> simp [askForward, sendTry, tellMsg, askMsg, fromChannel, Signal.downcastMessage, h, unwrap, Out.map]
  exact ⟨h2, by simp [ctxForward, h2]⟩

example : askForward (.user 1) (.user 2) (.user 3) (5 : Nat) 7 (some .full) = .panic := rfl

/-- **C20** What holds: an accepted `enqueue` or `forward` returns `Ok`; a refused `enqueue` of a message
of type `()` returns the error; and `Context::forward` of a message that was sent with tell returns the
error with the message. Missing: every other case of a refused signal, in which the code panics
(`enqueue_panics`, `forward_panics`). -/
theorem enqueue_forward_report_partial (m r e : Ty) (x : m.Sem) (ch : Nat) (w : Why) :
    enqueue m x ch none = .val (.ok ()) ∧
    askForward m r e x ch none = .val (.ok ()) ∧
    ctxForward m r e (some ch) x none = .val (.ok (), none) ∧
    (∃ err, enqueue .unit () ch (some w) = .val (.error err) ∧ err.kind = whyKind w) ∧
    (∃ err, ctxForward m r e none x (some w) = .val (.error err, none) ∧ err.kind = whyKind w ∧
      err.msgs = [x]) := by
  refine ⟨rfl, rfl, rfl, ?_, ?_⟩
  · cases w <;> exact ⟨_, rfl, rfl⟩
  · cases w <;>
      simp [ctxForward, tell, sendTry, tellMsg, askMsg, fromChannel, Signal.downcastMessage, Dyn.downcast_same, unwrap,
        Out.map, SendError.resetErrInfallible, SendError.kind, whyKind, SendError.msgs]

example : enqueue (.user 1) (5 : Nat) 7 none = .val (.ok ()) ∧
    ctxForward (.user 1) (.user 2) (.user 3) none (5 : Nat) (some .full) =
      .val (.error (SendError.mailboxFull (5 : Nat)), none) := ⟨rfl, rfl⟩

/-- **C20** The same at the level of mailbox histories: whatever happened before, an `enqueue` of a message
of any type but `()`, or a forwarded ask, to an actor that is not running panics. -/
theorem enqueue_forward_on_closed_mailbox_panic (cap : Option Nat) (ops : List (Op Signal)) (m r e : Ty)
    (x : m.Sem) (ch : Nat) (h : ((Mb.fresh cap).run ops).closed = true) :
    ∃ w, (((Mb.fresh cap).run ops).next, Signal.message ⟨m, x⟩ (some ch), w) ∈
        (((Mb.fresh cap).run ops).send (.message ⟨m, x⟩ (some ch))).failed ∧
      (m ≠ .unit → enqueue m x ch (some w) = .panic) ∧
      ctxForward m r e (some ch) x (some w) = .panic := by
  refine ⟨.closed, ?_, fun hm => enqueue_panics m hm x ch _, (forward_panics m r e x ch _).2⟩
  simp [Mb.send, h]

example : ((Mb.fresh (some 1) : Mb Signal).run [.send .stop, .close]).closed = true := rfl

/-! ### C21 -/

/-- **C21**, the code does the opposite: whatever the history, `stop_gracefully` on an actor that has ended
panics. -/
theorem stop_gracefully_on_stopped_actor_panics (cap : Option Nat) (ops : List Lifecycle.Op)
    (h : (Lifecycle.after cap ops).phase.ended = true) :
    ∃ w, ((Lifecycle.after cap ops).mb.next, Lifecycle.Sig.stop, w) ∈
        (Lifecycle.after cap (ops ++ [.sendStop])).mb.failed ∧ stopGracefully (some w) = .panic := by
  have hc := (Lifecycle.shape_after cap ops).closed
  rw [h] at hc
  refine ⟨.closed, ?_, rfl⟩
  rw [Lifecycle.after_append]
  simp [Lifecycle.St.exec, Lifecycle.St.step, Mb.send, hc]

example : (Lifecycle.after (some 1) [.send (Lifecycle.tell 1), .teardown]).phase.ended = true := by decide

/-- **C21**, the code does the opposite: a `stop_gracefully` that waits for room in the mailbox when the
actor ends panics as well; in fact every `stop_gracefully` whose signal is refused does. -/
theorem refused_stop_gracefully_panics (cap : Option Nat) (ops : List Lifecycle.Op) (t : Nat) (w : Why)
    (_ : (t, Lifecycle.Sig.stop, w) ∈ (Lifecycle.after cap ops).mb.failed) :
    stopGracefully (some w) = .panic := by
  cases w <;> rfl

/-- One slot, taken by a message; a `stop_gracefully` waits; the task is torn down. -/
def stopWaits : List Lifecycle.Op := [.send (Lifecycle.tell 1), .sendStop, .teardown]

example : (Lifecycle.after (some 1) stopWaits).mb.failed = [(1, .stop, .closed)] := by decide
example : (Lifecycle.after (some 1) stopWaits).phase.ended = true := by decide

/-- **C21** What holds: `stop_gracefully` on an actor that has not ended and whose mailbox has room
returns `Ok`, its signal being accepted; and `SignalMailbox::signal_stop` (`src/mailbox.rs` L518-533), which
does the same through a mailbox reference, reports `ActorNotRunning` for an actor that has ended. Missing:
`stop_gracefully` on an actor that has ended, which panics
(`stop_gracefully_on_stopped_actor_panics`). -/
theorem stop_gracefully_reports_partial (cap : Option Nat) (ops : List Lifecycle.Op) :
    ((Lifecycle.after cap ops).phase.ended = false → (Lifecycle.after cap ops).mb.hasRoom = true →
      ((Lifecycle.after cap ops).mb.next, Lifecycle.Sig.stop) ∈
        (Lifecycle.after cap (ops ++ [.sendStop])).mb.queue ∧ stopGracefully none = .val (.ok ())) ∧
    ((Lifecycle.after cap ops).phase.ended = true →
      ∃ w, ((Lifecycle.after cap ops).mb.next, Lifecycle.Sig.stop, w) ∈
        (Lifecycle.after cap (ops ++ [.sendStop])).mb.failed ∧
        signalStop (some w) = .val (.error (.actorNotRunning ()))) := by
  have hc := (Lifecycle.shape_after cap ops).closed
  rw [Lifecycle.after_append]
  constructor
  · intro h hr
    rw [h] at hc
    simp [Lifecycle.St.exec, Lifecycle.St.step, Mb.send, hc, hr, Mb.push, Mb.bump, stopGracefully, sendTry, tellMsg, askMsg]
    rfl
  · intro h
    rw [h] at hc
    refine ⟨.closed, ?_, rfl⟩
    simp [Lifecycle.St.exec, Lifecycle.St.step, Mb.send, hc]

example : (Lifecycle.after none [.run]).phase.ended = false ∧ (Lifecycle.after none [.run]).mb.hasRoom = true := by
  decide

/-! ### C37 -/

theorem chain_ok (hops : List Ty) (t e : Ty) : (chain hops t e).ok = t := by
  induction hops with
  | nil => rfl
  | cons m ms ih => simpa [chain, RTy.ok] using ih

/-- The size of the error type grows with every hop. -/
theorem chain_err_size (hops : List Ty) (t e : Ty) : e.size + hops.length ≤ (chain hops t e).err.size := by
  induction hops with
  | nil => simp [chain, RTy.err]
  | cons m ms ih => simp only [chain, RTy.err, Ty.size, List.length_cons]; omega

/-- **C37** A value returned by the final handler reaches the asker, for any number of hops and whatever
the types: it is decoded as that very value. -/
theorem forwarded_value_any_hops (n : Ty) (hops : List Ty) (t e : Ty) (v : t.Sem) :
    answer n hops t e (.ok v) = .val (.ok (cast (by rw [chain_ok]) v)) := by
  have h : ∀ (u : Ty) (hu : u = t), unwrap ((Dyn.mk t v).downcast u) = .val (cast (by rw [hu]) v) := by
    intro u hu
    subst hu
    simp [Dyn.downcast_same, unwrap]
  simp only [answer, packet, decode, downcastOk]
  rw [h _ (chain_ok hops t e)]
  rfl

/-- Three hops, a value. -/
example : answer (.user 0) [.user 1, .user 2, .user 3] (.user 4) (.user 5) (.ok (9 : Nat)) =
    .val (.ok (9 : Nat)) := rfl

/-- **C37** Asked directly, the asker gets the handler's error as `HandlerError`; after one hop, it gets
it as `HandlerError`, once more wrapped: `flatten` gives what direct asking gives. Missing: more than
one hop, for which the asker panics (`two_hops_error_panics`). -/
theorem forwarded_error_one_hop_partial (n m t e : Ty) (x : e.Sem) :
    answer n [] t e (.error x) = .val (.error (.handlerError x)) ∧
    answer n [m] t e (.error x) =
      .val (.error (.handlerError (SendError.handlerError x : SendError m.Sem e.Sem))) := by
  constructor
  · simp [answer, chain, packet, decode, downcastErr, downcast, tryDowncast, RTy.err, Dyn.downcast_same, Out.map]
  · simp [answer, chain, packet, decode, downcastErr, tryDowncast, RTy.err, Dyn.downcast_same, Out.map,
      SendError.mapErr]

example : answer (.user 0) [.user 0] (.user 4) (.user 5) (.error (9 : Nat)) =
    .val (.error (.handlerError (SendError.handlerError (9 : Nat) : SendError Nat Nat))) := rfl

/-- **C37**, the code does the opposite: if the request is forwarded twice or more and the final handler
returns an error, the asker panics, whatever the message types, the error type and the error. -/
theorem two_hops_error_panics (n : Ty) (m₁ m₂ : Ty) (more : List Ty) (t e : Ty) (x : e.Sem) :
    answer n (m₁ :: m₂ :: more) t e (.error x) = .panic := by
  have hs := chain_err_size more t e
  have h1 : e ≠ (chain (m₂ :: more) t e).err := by
    intro h
    have := congrArg Ty.size h
    simp only [chain, RTy.err, Ty.size] at this
    omega
  have h2 : e ≠ .sendError m₁ (chain (m₂ :: more) t e).err := by
    intro h
    have := congrArg Ty.size h
    simp only [chain, RTy.err, Ty.size] at this
    omega
  have d1 : (Dyn.mk e x).downcast (chain (m₂ :: more) t e).err = none := Dyn.downcast_other _ _ h1
  have d2 : (Dyn.mk e x).downcast (.sendError m₁ (chain (m₂ :: more) t e).err) = none :=
    Dyn.downcast_other _ _ h2
  have d3 : tryDowncast n (chain (m₂ :: more) t e).err (.handlerError ⟨e, x⟩) = .error (.handlerError ⟨e, x⟩) := by
    simp [tryDowncast, d1]
  have d4 : downcast m₁ (.sendError m₁ (chain (m₂ :: more) t e).err) (.handlerError ⟨e, x⟩) = .panic := by
    simp [downcast, tryDowncast, d2]
  have : downcastErr n (chain (m₁ :: m₂ :: more) t e) (.handlerError ⟨e, x⟩) = .panic := by
    rw [chain]
    simp only [downcastErr, d3]
    rw [d4]
  simp only [answer, packet, decode, this, Out.map]

example : answer (.user 0) [.user 1, .user 2] (.user 4) (.user 5) (.error (9 : Nat)) = .panic := rfl

/-- **C37** That is the only way for the asker to panic: the request was forwarded at least twice, and
the final handler returned an error. -/
theorem asker_panics_iff (n : Ty) (hops : List Ty) (t e : Ty) (v : Except e.Sem t.Sem) :
    answer n hops t e v = .panic ↔ 2 ≤ hops.length ∧ ∃ x, v = .error x := by
  cases v with
  | ok v => rw [forwarded_value_any_hops]; simp
  | error x =>
    match hops with
    | [] => rw [(forwarded_error_one_hop_partial n n t e x).1]; simp
    | [m] => rw [(forwarded_error_one_hop_partial n m t e x).2]; simp
    | m₁ :: m₂ :: more => rw [two_hops_error_panics]; simp

/-- **C37** A final handler whose reply cannot fail is heard by the asker whatever it returns, for any
number of hops. -/
theorem infallible_any_hops (n : Ty) (hops : List Ty) (t : Ty) (v : Except Ty.never.Sem t.Sem) :
    ∃ x, v = .ok x ∧ answer n hops t .never v = .val (.ok (cast (by rw [chain_ok]) x)) := by
  cases v with
  | ok v => exact ⟨v, rfl, forwarded_value_any_hops n hops t .never v⟩
  | error x => exact nomatch (x : Empty)

/-- Two hops with an error panic, with a reply that cannot fail they do not. -/
example : answer (.user 0) [.user 1, .user 2] (.user 4) .never (.ok (9 : Nat)) = .val (.ok (9 : Nat)) := rfl

/-- **C37** A forwarding actor that fails to forward and still holds the reply sender sends its own error
down the reply channel, and the asker decodes it: the error arrives as `HandlerError` of the error of the
forward. (With the code as it is a refused forward panics instead, `forward_panics`.) -/
theorem forward_failure_decoded (n m : Ty) (r : RTy) (x : SendError m.Sem r.err.Sem) :
    decode n (.forwarded m r) (packet r.ok (.sendError m r.err) (.error x)) =
      .val (.error (.handlerError x)) := by
  have h : (Ty.sendError m r.err) ≠ r.err := by
    intro h
    have := congrArg Ty.size h
    simp only [Ty.size] at this
    omega
  have d1 : (Dyn.mk (.sendError m r.err) x).downcast r.err = none := Dyn.downcast_other _ _ h
  have d3 : tryDowncast n r.err (.handlerError ⟨.sendError m r.err, x⟩) =
      .error (.handlerError ⟨.sendError m r.err, x⟩) := by simp [tryDowncast, d1]
  have d4 : downcast m (.sendError m r.err) (.handlerError ⟨.sendError m r.err, x⟩) =
      .val (.handlerError x) :=
    (boxed_downcast_roundtrip m (.sendError m r.err) (.handlerError x)).2
  simp only [packet, decode, downcastErr, d3]
  rw [d4]
  rfl

example : decode (.user 0) (.forwarded (.user 1) (.plain (.user 2) (.user 3)))
    (packet (.user 2) (.sendError (.user 1) (.user 3)) (.error (.mailboxFull (7 : Nat)))) =
    .val (.error (.handlerError (SendError.mailboxFull (7 : Nat) : SendError Nat Nat))) := rfl

end Verif.Request
