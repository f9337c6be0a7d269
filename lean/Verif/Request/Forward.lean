import Verif.Request.Props

/-!
What a handler may do with the reply channel of the message it handles (`Context`, `src/message.rs` L68-257),
what becomes of its return value (`DynMessage::handle_dyn`, `src/message.rs` L279-313), and requests that are
forwarded from actor to actor. C37, and the typed part of C15.
-/

set_option linter.unusedSimpArgs false

namespace Verif.Request

open Verif.Mailbox

/-! ### Model -/

/-- The value a handler returns, by its reply type: a `Result`, the marker `DelegatedReply`, a
`ForwardedReply`. `src/reply.rs` L212-221, L251-261, L310-332. -/
inductive Ret : RTy → Type where
  | plain {t e : Ty} (res : Except e.Sem t.Sem) : Ret (.plain t e)
  | delegated {r : RTy} : Ret (.delegated r)
  | forwarded {m : Ty} {r : RTy} (res : Except (SendError m.Sem r.err.Sem) Unit) : Ret (.forwarded m r)

/-- `Reply::into_value` followed by `Reply::to_result` of the value: `src/reply.rs` L328-331 (`Result`), L240-242
(`DelegatedReply`: `unimplemented!`), L284-288 (`ForwardedReply`: `unreachable!` if the forward succeeded). -/
def Ret.intoValue : {r : RTy} → Ret r → Out (Except r.err.Sem r.ok.Sem)
  | _, .plain res => .val res
  | _, .delegated => .panic
  | _, .forwarded (.ok ()) => .panic
  | _, .forwarded (.error x) => .val (.error x)

/-- `Reply::into_any_err`: `src/reply.rs` L323-326 (`Result`), L236-238 (`DelegatedReply`), L278-282
(`ForwardedReply`). -/
def Ret.intoAnyErr : {r : RTy} → Ret r → Option Dyn
  | .plain _ e, .plain (.error x) => some ⟨e, x⟩
  | _, .plain (.ok _) => none
  | _, .delegated => none
  | .forwarded m r, .forwarded (.error x) => some ⟨.sendError m r.err, x⟩
  | _, .forwarded (.ok ()) => none

/-- The part of `DynMessage::handle_dyn` after the handler has returned, `src/message.rs` L295-304. `reply` is the
reply channel left in the context. The result: what is sent on which reply channel, and the error that goes to
`on_panic`. -/
def handleDyn {r : RTy} (ret : Ret r) (reply : Option Nat) : Out (List (Nat × Packet) × Option Dyn) :=
  match reply with
  | some ch => ret.intoValue.map (fun res => ([(ch, packet r.ok r.err res)], none))
  | none => .val ([], ret.intoAnyErr)

/-- The message that `Context::forward` puts into the other mailbox: an ask with the reply channel of the context, or a
tell if there is none. `src/message.rs` L165-187. -/
def forwardMsg (m : Ty) (x : m.Sem) : Option Nat → Dyn × Option Nat
  | some ch => askMsg m x ch
  | none => tellMsg m x

/-- The context of a handler and where the reply channels went: `Context::reply`, reply senders held by user code,
messages accepted by other mailboxes together with the reply channel they carry, and packets sent.
`src/message.rs` L70-78. -/
structure Ctx where
  reply : Option Nat
  held : List Nat := []
  passed : List (Dyn × Option Nat) := []
  sent : List (Nat × Packet) := []

/-- The methods of `Context<A, R>` that touch the reply channel; `src/message.rs` L137-257. -/
inductive CtxOp (r : RTy) where
  /-- `reply_sender`, L137-139. -/
  | replySender
  /-- `reply`, L144-149. -/
  | reply (v : Except r.err.Sem r.ok.Sem)
  /-- `forward` (or a variant) of a message of type `m` to an actor that replies `q`; `why` is what the channel
  answers. -/
  | forward (m : Ty) (q : RTy) (x : m.Sem) (why : Option Why)

/-- `src/message.rs` L137-257. -/
def Ctx.step {r : RTy} (c : Ctx) : CtxOp r → Out Ctx
  | .replySender => .val { c with reply := none, held := c.held ++ c.reply.toList }
  | .reply v =>
    match c.reply with
    | some ch => .val { c with reply := none, sent := c.sent ++ [(ch, packet r.ok r.err v)] }
    | none => .val c
  | .forward m q x why =>
    match ctxForward m q.ok q.err c.reply x why with
    | .panic => .panic
    | .val (res, reply') =>
      .val { c with
        reply := reply'
        passed := match res with
          | .ok () => c.passed ++ [forwardMsg m x c.reply]
          | .error _ => c.passed }

/-- The calls of a handler, one after the other; `src/message.rs` L137-257. -/
def Ctx.run {r : RTy} (c : Ctx) : List (CtxOp r) → Out Ctx
  | [] => .val c
  | op :: ops =>
    match c.step op with
    | .panic => .panic
    | .val c' => c'.run ops

/-- `DynMessage::handle_dyn` with a handler that makes the calls `ops` and returns `ret`: what is sent, what was
passed on, what user code holds, and the error that goes to `on_panic`. `src/message.rs` L285-306. -/
def handle {r : RTy} (reply : Option Nat) (ops : List (CtxOp r)) (ret : Ret r) : Out (Ctx × Option Dyn) :=
  match Ctx.run ⟨reply, [], [], []⟩ ops with
  | .panic => .panic
  | .val c =>
    match handleDyn ret c.reply with
    | .panic => .panic
    | .val (ps, err) => .val ({ c with reply := none, sent := c.sent ++ ps }, err)

/-- A request that carries reply channel `reply` is handled by an actor that forwards it as the first message of
`hops`, that one is handled by an actor that forwards it as the second, and so on; the last handler returns `v`.
The result: everything that is sent on reply channels, and the errors that go to `on_panic` of the actors. Every
`why` is the answer of the channel the message is forwarded to. `src/message.rs` L156-188, L285-306. -/
def serve (reply : Option Nat) (t e : Ty) (v : Except e.Sem t.Sem) :
    List ((m : Ty) × m.Sem × Option Why) → Out (List (Nat × Packet) × List Dyn)
  | [] => (handleDyn (r := .plain t e) (.plain v) reply).map (fun p => (p.1, p.2.toList))
  | ⟨m, x, why⟩ :: hops =>
    let q := chain (hops.map (·.1)) t e
    match ctxForward m q.ok q.err reply x why with
    | .panic => .panic
    | .val (res, reply') =>
      match handleDyn (r := .forwarded m q) (.forwarded res) reply' with
      | .panic => .panic
      | .val (ps, err) =>
        match res with
        | .error _ => .val (ps, err.toList)
        | .ok () => (serve (forwardMsg m x reply).2 t e v hops).map (fun p => (ps ++ p.1, err.toList ++ p.2))

/-! ### One reply channel, one place -/

/-- In how many places reply channel `ch` is: in the context, with user code, in a message passed on, or used up
by a packet. -/
def Ctx.places (c : Ctx) (ch : Nat) : Nat :=
  c.reply.toList.count ch + c.held.count ch + (c.passed.filterMap (·.2)).count ch +
    (c.sent.map (·.1)).count ch

theorem ctxForward_ask (m r e : Ty) (ch : Nat) (x : m.Sem) (why : Option Why)
    {res : Except (SendError m.Sem e.Sem) Unit} {back : Option Nat}
    (h : ctxForward m r e (some ch) x why = .val (res, back)) : res = .ok () ∧ back = none := by
  cases why with
  | none =>
    simp [ctxForward, askForward, sendTry, tellMsg, askMsg] at h
    exact ⟨h.1.symm, h.2.symm⟩
  | some w => rw [(forward_panics m r e x ch w).2] at h; cases h

theorem ctxForward_tell (m r e : Ty) (x : m.Sem) (why : Option Why)
    {res : Except (SendError m.Sem e.Sem) Unit} {back : Option Nat}
    (h : ctxForward m r e none x why = .val (res, back)) : back = none := by
  simp only [ctxForward] at h
  split at h
  · cases h
  · simp at h; exact h.2.symm
  · next err _ => cases hr : err.resetErrInfallible (F := e.Sem) <;> simp [hr, Out.map] at h; exact h.2.symm

theorem places_step {r : RTy} {c c' : Ctx} (op : CtxOp r) (h : c.step op = .val c') (ch : Nat) :
    c'.places ch = c.places ch := by
  cases op with
  | replySender =>
    simp only [Ctx.step, Out.val.injEq] at h
    subst h
    simp [Ctx.places, List.count_append]
    omega
  | reply v =>
    simp only [Ctx.step] at h
    split at h
    · next hr =>
      simp only [Out.val.injEq] at h
      subst h
      simp [Ctx.places, hr, List.count_append]
      omega
    · simp only [Out.val.injEq] at h
      rw [h]
  | forward m q x why =>
    simp only [Ctx.step] at h
    split at h
    · cases h
    · next res back hf =>
      simp only [Out.val.injEq] at h
      subst h
      cases hr : c.reply with
      | none =>
        rw [hr] at hf
        have := ctxForward_tell _ _ _ _ _ hf
        subst this
        cases res <;> simp [Ctx.places, hr, forwardMsg, tellMsg]
      | some k =>
        rw [hr] at hf
        obtain ⟨rfl, rfl⟩ := ctxForward_ask _ _ _ _ _ _ hf
        simp [Ctx.places, hr, List.count_append, forwardMsg, askMsg]
        omega

theorem places_run {r : RTy} {c c' : Ctx} (ops : List (CtxOp r)) (h : c.run ops = .val c') (ch : Nat) :
    c'.places ch = c.places ch := by
  induction ops generalizing c with
  | nil => simp only [Ctx.run, Out.val.injEq] at h; rw [h]
  | cons op ops ih =>
    simp only [Ctx.run] at h
    split at h
    · cases h
    · next c1 h1 => rw [ih h, places_step op h1]

/-- **C15** **C37** Whatever calls of its context a handler makes, in any number and order, and whatever it
returns: when it has been handled (and kameo has not panicked in it) the reply channel of the message is in
exactly one place. Either one packet has been sent on it and nobody else can send another, or user code holds it
and nobody else, or it went with exactly one forwarded message. -/
theorem one_reply_channel_one_place {r : RTy} (ch : Nat) (ops : List (CtxOp r)) (ret : Ret r) (c : Ctx)
    (err : Option Dyn) (h : handle (some ch) ops ret = .val (c, err)) :
    c.reply = none ∧ c.held.count ch + (c.passed.filterMap (·.2)).count ch + (c.sent.map (·.1)).count ch = 1 ∧
      ∀ k, k ≠ ch → k ∉ c.held ∧ k ∉ c.passed.filterMap (·.2) ∧ k ∉ c.sent.map (·.1) := by
  unfold handle at h
  split at h
  · cases h
  · next c1 h1 =>
    have hp := places_run ops h1
    split at h
    · cases h
    · next ps e hd =>
      simp only [Out.val.injEq, Prod.mk.injEq] at h
      obtain ⟨rfl, rfl⟩ := h
      have hps : ∀ k, (ps.map (·.1)).count k = c1.reply.toList.count k := by
        intro k
        unfold handleDyn at hd
        cases hr : c1.reply with
        | none => rw [hr] at hd; simp at hd; simp [hd.1]
        | some ch' =>
          rw [hr] at hd
          cases hv : ret.intoValue with
          | panic => simp [hv, Out.map] at hd
          | val v => simp [hv, Out.map] at hd; rw [← hd.1]; simp
      have ht : ∀ k, c1.held.count k + (c1.passed.filterMap (·.2)).count k +
          ((c1.sent ++ ps).map (·.1)).count k = [ch].count k := by
        intro k
        have := hp k
        have h2 := hps k
        simp only [Ctx.places, Option.toList_some, List.count_nil, List.filterMap_nil, List.map_nil] at this
        simp only [List.map_append, List.count_append]
        omega
      refine ⟨rfl, ?_, fun k hk => ?_⟩
      · simpa using ht ch
      · have := ht k
        simp only [List.count_cons, List.count_nil, beq_iff_eq, Ne.symm hk, if_false] at this
        refine ⟨?_, ?_, ?_⟩ <;> rw [← List.count_eq_zero] <;> simp only <;> omega

/-- A handler that answers early and then forwards: the forward is a tell, the asker has its answer. And one that
forwards twice: the second one goes without the reply channel. -/
example : (∃ c err, handle (r := .plain (.user 0) (.user 1)) (some 7) [.reply (.ok (3 : Nat)),
      .forward (.user 2) (.plain (.user 0) (.user 1)) (4 : Nat) none] (.plain (.ok (5 : Nat))) = .val (c, err) ∧
      c.sent.map (·.1) = [7] ∧ c.passed.map (·.2) = [none]) ∧
    (∃ c err, handle (r := .forwarded (.user 2) (.plain (.user 0) (.user 1))) (some 7)
      [.forward (.user 2) (.plain (.user 0) (.user 1)) (4 : Nat) none,
       .forward (.user 2) (.plain (.user 0) (.user 1)) (4 : Nat) none] (.forwarded (.ok ())) = .val (c, err) ∧
      c.sent.map (·.1) = [] ∧ c.passed.map (·.2) = [some 7, none]) :=
  ⟨⟨_, _, rfl, rfl, rfl⟩, ⟨_, _, rfl, rfl, rfl⟩⟩

/-! ### Chains of forwards -/

/-- **C37** An ask that is forwarded any number of times, every forward being accepted, is answered exactly once,
by the last handler, on the reply channel of the asker; no actor on the way has an error; and what the asker
decodes from that packet is `answer`. -/
theorem forwarded_answered_once (ch : Nat) (t e : Ty) (v : Except e.Sem t.Sem)
    (hops : List ((m : Ty) × m.Sem × Option Why)) (ha : ∀ h ∈ hops, h.2.2 = none) :
    serve (some ch) t e v hops = .val ([(ch, packet t e v)], []) := by
  induction hops with
  | nil => rfl
  | cons h hops ih =>
    obtain ⟨m, x, why⟩ := h
    have : why = none := ha ⟨m, x, why⟩ (by simp)
    subst this
    simp only [serve, ctxForward, askForward, sendTry, forwardMsg, tellMsg, askMsg, handleDyn, Ret.intoAnyErr]
    rw [ih (fun h hh => ha h (by simp [hh]))]
    rfl

/-- Three hops. -/
example : serve (some 7) (.user 4) (.user 5) (.error (9 : Nat))
    [⟨.user 1, (1 : Nat), none⟩, ⟨.user 2, (2 : Nat), none⟩, ⟨.user 3, (3 : Nat), none⟩] =
    .val ([(7, .error (.handlerError ⟨.user 5, (9 : Nat)⟩))], []) := rfl

/-- **C37** A message sent with tell and forwarded is handled by the last actor, no reply is sent to anybody, and
an error of the last handler goes to that actor's `on_panic`, not to those of the actors that forwarded. -/
theorem forwarded_tell (t e : Ty) (v : Except e.Sem t.Sem)
    (hops : List ((m : Ty) × m.Sem × Option Why)) (ha : ∀ h ∈ hops, h.2.2 = none) :
    serve none t e v hops = .val ([], match v with | .ok _ => [] | .error x => [⟨e, x⟩]) := by
  induction hops with
  | nil => cases v <;> rfl
  | cons h hops ih =>
    obtain ⟨m, x, why⟩ := h
    have : why = none := ha ⟨m, x, why⟩ (by simp)
    subst this
    simp only [serve, ctxForward, tell, sendTry, forwardMsg, tellMsg, askMsg, handleDyn, Ret.intoAnyErr]
    rw [ih (fun h hh => ha h (by simp [hh]))]
    cases v <;> rfl

example : serve none (.user 4) (.user 5) (.error (9 : Nat))
    [⟨.user 1, (1 : Nat), none⟩, ⟨.user 2, (2 : Nat), none⟩] = .val ([], [⟨.user 5, (9 : Nat)⟩]) := rfl

/-- **C37** What a forwarded tell that is refused does: the actor that could not forward it gets the error, with
the message, in its own `on_panic`, and nothing is sent. -/
theorem forwarded_tell_refused (t e : Ty) (v : Except e.Sem t.Sem) (m : Ty) (x : m.Sem) (w : Why)
    (hops : List ((m : Ty) × m.Sem × Option Why)) :
    let q := (chain (hops.map (fun h => h.1)) t e).err
    ∃ err : SendError m.Sem q.Sem, err.kind = whyKind w ∧ err.msgs = [x] ∧
      serve none t e v (⟨m, x, some w⟩ :: hops) =
        .val ([], [⟨.sendError m q, err⟩]) := by
  intro q
  cases w
  · exact ⟨.actorNotRunning x, rfl, rfl, by
      simp [serve, ctxForward, tell, sendTry, tellMsg, askMsg, fromChannel, Signal.downcastMessage, Dyn.downcast_same, unwrap,
        Out.map, SendError.resetErrInfallible, handleDyn, Ret.intoAnyErr]
      rfl⟩
  · exact ⟨.mailboxFull x, rfl, rfl, by
      simp [serve, ctxForward, tell, sendTry, tellMsg, askMsg, fromChannel, Signal.downcastMessage, Dyn.downcast_same, unwrap,
        Out.map, SendError.resetErrInfallible, handleDyn, Ret.intoAnyErr]
      rfl⟩
  · exact ⟨.timeout (some x), rfl, rfl, by
      simp [serve, ctxForward, tell, sendTry, tellMsg, askMsg, fromChannel, Signal.downcastMessage, Dyn.downcast_same, unwrap,
        Out.map, SendError.resetErrInfallible, handleDyn, Ret.intoAnyErr]
      rfl⟩

/-- A tell forwarded twice, the second time to a full mailbox: the second actor gets the error. -/
example : serve none (.user 4) (.user 5) (.error (9 : Nat)) [⟨.user 2, (2 : Nat), some .full⟩] =
    .val ([], [⟨.sendError (.user 2) (.user 5), (SendError.mailboxFull (2 : Nat) : SendError Nat Nat)⟩]) := rfl

/-! ### Markers -/

/-- The handler returns a marker that says that the reply comes from elsewhere: a `DelegatedReply`, or the
`ForwardedReply` of a forward that succeeded. -/
def Ret.marker : {r : RTy} → Ret r → Bool
  | _, .delegated => true
  | _, .forwarded (.ok ()) => true
  | _, _ => false

theorem marker_iff {r : RTy} (ret : Ret r) : ret.intoValue = .panic ↔ ret.marker = true := by
  cases ret with
  | plain res => simp [Ret.intoValue, Ret.marker]
  | delegated => simp [Ret.intoValue, Ret.marker]
  | forwarded res => cases res <;> simp [Ret.intoValue, Ret.marker]

/-- Calls of the context in which every forward is accepted. -/
def Accepted {r : RTy} (ops : List (CtxOp r)) : Prop := ∀ m q x why, .forward m q x why ∈ ops → why = none

theorem run_accepted {r : RTy} (ops : List (CtxOp r)) (ha : Accepted ops) (c : Ctx) :
    ∃ c', c.run ops = .val c' ∧ (c'.reply = none ∨ ops = [] ∧ c' = c) := by
  induction ops generalizing c with
  | nil => exact ⟨c, rfl, Or.inr ⟨rfl, rfl⟩⟩
  | cons op ops ih =>
    have hop : ∃ c1, c.step op = .val c1 ∧ c1.reply = none := by
      cases op with
      | replySender => exact ⟨_, rfl, rfl⟩
      | reply v => cases hr : c.reply <;> simp [Ctx.step, hr]
      | forward m q x why =>
        have := ha m q x why (by simp)
        subst this
        cases hr : c.reply <;> simp [Ctx.step, hr, ctxForward, askForward, tell, sendTry, tellMsg, askMsg]
    obtain ⟨c1, h1, h2⟩ := hop
    obtain ⟨c', h3, h4⟩ := ih (fun m q x why h => ha m q x why (by simp [h])) c1
    refine ⟨c', by simp [Ctx.run, h1, h3], Or.inl ?_⟩
    rcases h4 with h4 | ⟨_, rfl⟩
    · exact h4
    · exact h2

/-- **C62** (part). If no forward is refused, kameo panics inside the handling of an ask in exactly one case: the handler
returned a marker without having used its context. It can: `DelegatedReply` is `Copy` (`src/reply.rs` L219), so a
handler can return the one it got for an earlier message, and the asker is not answered. Missing: that case
(`stale_marker_panics`) and refused forwards (`forward_panics`). -/
theorem handle_panics_iff_partial {r : RTy} (ch : Nat) (ops : List (CtxOp r)) (ret : Ret r) (ha : Accepted ops) :
    handle (some ch) ops ret = .panic ↔ ops = [] ∧ ret.marker = true := by
  obtain ⟨c, h1, h2⟩ := run_accepted ops ha ⟨some ch, [], [], []⟩
  simp only [handle, h1]
  rcases h2 with h2 | ⟨rfl, rfl⟩
  · have hne : ops ≠ [] := by
      rintro rfl
      simp only [Ctx.run, Out.val.injEq] at h1
      rw [← h1] at h2
      cases h2
    simp [handleDyn, h2, hne]
  · simp only [handleDyn, true_and, ← marker_iff]
    cases ret.intoValue <;> simp [Out.map]

/-- A stale marker, and one obtained from the context. -/
example : Accepted (r := .delegated (.plain (.user 0) (.user 1))) [.replySender] ∧
    handle (r := .delegated (.plain (.user 0) (.user 1))) (some 7) [] .delegated = .panic ∧
    handle (r := .delegated (.plain (.user 0) (.user 1))) (some 7) [.replySender] .delegated =
      .val (⟨none, [7], [], []⟩, none) :=
  ⟨by simp [Accepted], rfl, rfl⟩

/-- **C62** fails: for every reply type, a handler that returns a `DelegatedReply` from an earlier message makes
kameo panic while it handles the ask. -/
theorem stale_marker_panics (r : RTy) (ch : Nat) : ∃ ret : Ret (.delegated r),
    handle (some ch) [.replySender] ret = .val (⟨none, [ch], [], []⟩, none) ∧
    handle (some ch) [] ret = .panic :=
  ⟨.delegated, rfl, rfl⟩

example : handle (r := .delegated (.plain (.user 0) (.user 1))) (some 7) [] .delegated = .panic := rfl

/-- **C12** The error that goes to the actor's `on_panic` after a handler has returned: there is one exactly if the
message was a tell and the handler returned an error, and it is that error. For an ask there is none, whatever
the handler returned and however it used its context, unless it gave the reply channel away first. -/
theorem error_to_on_panic {t e : Ty} (reply : Option Nat) (res : Except e.Sem t.Sem) :
    handle (r := .plain t e) reply [] (.plain res) = .val
      (⟨none, [], [], match reply with | some ch => [(ch, packet t e res)] | none => []⟩,
       match reply, res with
       | none, .error x => some ⟨e, x⟩
       | _, _ => none) := by
  cases reply <;> cases res <;> rfl

example : handle (r := .plain (.user 0) (.user 1)) none [] (.plain (.error (3 : Nat))) =
    .val (⟨none, [], [], []⟩, some ⟨.user 1, (3 : Nat)⟩) := rfl

end Verif.Request
