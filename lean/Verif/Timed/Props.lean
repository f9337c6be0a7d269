import Verif.Timed.Lemmas

/-! C73: the time-outs of requests. -/

set_option linter.unusedSimpArgs false

namespace Verif.Timed

open Verif.Mailbox

/-! ### The builders (specification: the last call counts) -/

/-- The mailbox time-out asked for: that of the last call of `mailbox_timeout`. (Specification.) -/
def lastMailbox (l : List Call) : Option Nat :=
  (l.filterMap (fun c => match c with | .mailbox d => some d | .reply _ => none)).getLast?

/-- The reply time-out asked for. (Specification.) -/
def lastReply (l : List Call) : Option Nat :=
  (l.filterMap (fun c => match c with | .reply d => some d | .mailbox _ => none)).getLast?

theorem build_snoc (l : List Call) (c : Call) : AskB.build (l ++ [c]) = (AskB.build l).call c := by
  simp [AskB.build]

@[elab_as_elim] theorem snoc_ind {α : Type} {p : List α → Prop} (h0 : p []) (h1 : ∀ l a, p l → p (l ++ [a])) (l : List α) : p l := by
  have : ∀ l : List α, p l.reverse := by
    intro l
    induction l with
    | nil => exact h0
    | cons a l ih => rw [List.reverse_cons]; exact h1 _ _ ih
  simpa using this l.reverse

/-- The builder holds what was asked for, and its types say whether anything was. -/
theorem build_holds (l : List Call) :
    ((AskB.build l).mailbox.duration = lastMailbox l ∧ (AskB.build l).reply.duration = lastReply l) ∧
    ((AskB.build l).mailbox = .without ↔ lastMailbox l = none) ∧
    ((AskB.build l).reply = .without ↔ lastReply l = none) := by
  induction l using snoc_ind with
  | h0 => simp [AskB.build, TimeOpt.duration, lastMailbox, lastReply]
  | h1 l c ih =>
  rw [build_snoc]
  obtain ⟨⟨h1, h2⟩, h3, h4⟩ := ih
  cases c with
  | mailbox d =>
    have e1 : lastMailbox (l ++ [.mailbox d]) = some d := by simp [lastMailbox]
    have e2 : lastReply (l ++ [.mailbox d]) = lastReply l := by simp [lastReply]
    rw [e1, e2]
    exact ⟨⟨rfl, h2⟩, by simp [AskB.call, AskB.mailboxOpt], h4⟩
  | reply d =>
    have e1 : lastReply (l ++ [.reply d]) = some d := by simp [lastReply]
    have e2 : lastMailbox (l ++ [.reply d]) = lastMailbox l := by simp [lastMailbox]
    rw [e1, e2]
    exact ⟨⟨h1, rfl⟩, h3, by simp [AskB.call, AskB.replyOpt]⟩

/-- The ways of sending that know a mailbox time-out. (Specification.) -/
def How.knowsMailbox : How → Bool
  | .send | .enqueue | .forward => true
  | _ => false

/-- The ways of sending that know a reply time-out. (Specification.) -/
def How.knowsReply : How → Bool
  | .send | .enqueue | .trySend | .tryEnqueue => true
  | _ => false

/-- **C73** (which methods there are): an ask can be sent in some way just if that way knows every kind of time-out that
was set; in particular `send` and `enqueue` are always there. -/
theorem methods_there (l : List Call) (how : How) : (AskB.build l).allows how = true ↔
    ((∃ d, .mailbox d ∈ l) → how.knowsMailbox = true) ∧ ((∃ d, .reply d ∈ l) → how.knowsReply = true) := by
  obtain ⟨-, h3, h4⟩ := build_holds l
  have m : lastMailbox l = none ↔ ¬ ∃ d, .mailbox d ∈ l := by
    induction l using snoc_ind with
    | h0 => simp [lastMailbox]
    | h1 l c ih =>
      cases c with
      | mailbox d => simp [lastMailbox]
      | reply d =>
        have e : lastMailbox (l ++ [.reply d]) = lastMailbox l := by simp [lastMailbox]
        rw [e, ih (build_holds l).2.1 (build_holds l).2.2]
        simp
  have r : lastReply l = none ↔ ¬ ∃ d, .reply d ∈ l := by
    clear m
    induction l using snoc_ind with
    | h0 => simp [lastReply]
    | h1 l c ih =>
      cases c with
      | reply d => simp [lastReply]
      | mailbox d =>
        have e : lastReply (l ++ [.mailbox d]) = lastReply l := by simp [lastReply]
        rw [e, ih (build_holds l).2.1 (build_holds l).2.2]
        simp
  rw [m] at h3
  rw [r] at h4
  cases how <;> simp only [AskB.allows, How.knowsMailbox, How.knowsReply, Bool.and_eq_true, beq_iff_eq, h3, h4,
    Bool.false_eq_true, imp_false, implies_true, true_and, and_true]

example : (AskB.build [.reply 7]).allows .tryEnqueue = true ∧ How.tryEnqueue.knowsReply = true ∧
    (AskB.build [.reply 7]).allows .blockingSend = false := by decide

/-- **C73 (no time-out is forgotten)** Whatever time-outs were set on an ask, in whatever order and however often: a way
of sending it that the types allow waits for room in the mailbox for as long as the last mailbox time-out says, and for
the reply for as long as the last reply time-out says; and it has no time-out which was not set. -/
theorem no_time_out_forgotten (l : List Call) (how : How) (ha : (AskB.build l).allows how = true) :
    ((AskB.build l).plan how).mt = lastMailbox l ∧ ((AskB.build l).plan how).rt = lastReply l ∧
      (lastMailbox l ≠ none → ((AskB.build l).plan how).wait = true) ∧
      (lastReply l ≠ none → ((AskB.build l).plan how).after ≠ .nothing) := by
  obtain ⟨⟨h1, h2⟩, h3, h4⟩ := build_holds l
  cases how <;> simp [AskB.allows] at ha <;> simp [AskB.plan, Plan.rt, h1, h2]
  case forward => exact ⟨(h4.mp ha).symm, h4.mp ha⟩
  case trySend => exact ⟨(h3.mp ha).symm, h3.mp ha⟩
  case tryEnqueue => exact ⟨(h3.mp ha).symm, h3.mp ha⟩
  case tryForward => exact ⟨(h3.mp ha.1).symm, (h4.mp ha.2).symm, h3.mp ha.1, h4.mp ha.2⟩
  case blockingSend => exact ⟨(h3.mp ha.1).symm, (h4.mp ha.2).symm⟩
  case blockingEnqueue => exact ⟨(h3.mp ha.1).symm, (h4.mp ha.2).symm⟩
  case blockingForward => exact ⟨(h3.mp ha.1).symm, (h4.mp ha.2).symm, h4.mp ha.2⟩

example : (AskB.build [.mailbox 5, .reply 7, .mailbox 3]).allows .enqueue = true ∧
    lastMailbox [.mailbox 5, .reply 7, .mailbox 3] = some 3 ∧
    (AskB.build [.mailbox 5, .reply 7, .mailbox 3]).plan .enqueue = ⟨true, some 3, .later (some 7)⟩ ∧
    (AskB.build [.mailbox 5]).allows .trySend = false := by decide

/-- What the name of a method promises: to wait for room, or not; and for the reply: to wait for it, to hand out something
to wait with, or to leave it to another. (Specification.) -/
def How.waitsForRoom : How → Bool
  | .trySend | .tryEnqueue | .tryForward => false
  | _ => true

/-- See `How.waitsForRoom`. (Specification.) -/
def How.waitsForReply : How → Bool
  | .send | .trySend | .blockingSend => true
  | _ => false

/-- See `How.waitsForRoom`. (Specification.) -/
def How.handsOutPending : How → Bool
  | .enqueue | .tryEnqueue | .blockingEnqueue => true
  | _ => false

/-- **C73 (no time-out changes what a method does)** Whatever time-outs were set: a method waits for room unless its name
begins with `try`; the three `send` wait for the reply, the three `enqueue` return before it comes, the three
`forward` do neither. -/
theorem methods_keep_their_meaning (l : List Call) (how : How) :
    ((AskB.build l).plan how).wait = how.waitsForRoom ∧
    ((∃ rt, ((AskB.build l).plan how).after = .now rt) ↔ how.waitsForReply = true) ∧
    ((∃ rt, ((AskB.build l).plan how).after = .later rt) ↔ how.handsOutPending = true) := by
  cases how <;> simp [AskB.plan, How.waitsForRoom, How.waitsForReply, How.handsOutPending]

example : ((AskB.build [.mailbox 5, .reply 7]).plan .enqueue).after = .later (some 7) ∧ How.enqueue.handsOutPending = true ∧
    ((AskB.build [.reply 7]).plan .trySend) = ⟨false, none, .now (some 7)⟩ := by decide

/-- **C73 (tells, recipients)** The same for tells; and a tell through a recipient is the tell through the reference. -/
theorem tell_time_out_kept (l : List Nat) (how : THow) (ha : (TellB.build l).allows how = true) :
    ((TellB.build l).plan how).mt = l.getLast? ∧ (l ≠ [] → ((TellB.build l).plan how).wait = true) ∧
      (TellB.build l).recipientPlan how = (TellB.build l).plan how := by
  have h : (TellB.build l).mailbox.duration = l.getLast? ∧ ((TellB.build l).mailbox = .without ↔ l = []) := by
    clear ha
    induction l using snoc_ind with
    | h0 => simp [TellB.build, TimeOpt.duration]
    | h1 l d _ =>
    simp [TellB.build, TellB.mailboxOpt, TimeOpt.duration]
  cases how <;> simp [TellB.allows] at ha <;>
    simp [TellB.plan, TellB.recipientPlan, TellB.mailboxOpt, h.1]
  case send => rfl
  case trySend => exact ⟨by simp [h.2.mp ha], h.2.mp ha⟩
  case blockingSend => simp [h.2.mp ha]

example : (TellB.build [4, 9]).allows .send = true ∧ (TellB.build [4, 9]).plan .send = ⟨true, some 9, .nothing⟩ ∧
    (TellB.build [4, 9]).allows .blockingSend = false ∧ (TellB.build []).allows .blockingSend = true := by decide

/-- Does the method wait for room in the mailbox? (Specification.) -/
def THow.waitsForRoom : THow → Bool
  | .trySend => false
  | _ => true

/-- **C73 (tells, what is waited for)** Whatever the time-outs: `send` and `blocking_send` of a tell wait for room,
`try_send` does not, and none waits for anything after that. -/
theorem tell_waits (l : List Nat) (how : THow) :
    ((TellB.build l).plan how).wait = how.waitsForRoom ∧ ((TellB.build l).plan how).after = .nothing ∧
    ((TellB.build l).recipientPlan how).wait = how.waitsForRoom := by
  cases how <;> simp [TellB.plan, TellB.recipientPlan, THow.waitsForRoom]

example : ((TellB.build []).plan .blockingSend) = ⟨true, none, .nothing⟩ ∧ THow.blockingSend.waitsForRoom = true ∧
    ((TellB.build []).plan .trySend).wait = false := by decide

/-- A codec for the example. -/
def demoCodec : Remote.Codec := ⟨fun n => .ok (List.replicate n 0), fun b => .ok b.length⟩

/-- A node with one actor and one message, for the example. -/
def demoNode : Remote.Node Nat :=
  { messages := [(("A", "M"), ⟨0, 1, demoCodec, demoCodec,
      demoCodec⟩)]
    registry := [(7, ⟨70, 0⟩)] }

/-- **C73 (remote asks)** A remote ask is served on the actor's node by a local ask with the time-outs and the way of
sending the caller chose. `RemoteAskRequest` has `send` and, without mailbox time-out, `try_send`. -/
theorem remote_ask_time_outs_kept {I : Type} [DecidableEq I] (n : Remote.Node I) (f : Remote.Fns) (id : I)
    (a m : String) (msg : Nat) (l : List Call) (imm : Bool) (how : How) (hh : how = if imm then .trySend else .send)
    (ha : (AskB.build l).allows how = true) (r : Remote.Req I)
    (hr : Remote.askRequest f id a m msg ((AskB.build l).remoteArgs imm).1 ((AskB.build l).remoteArgs imm).2.1
      ((AskB.build l).remoteArgs imm).2.2 = .ok r)
    (loc : Remote.LocalReq → Request.Out (Except (Request.SendError Nat Nat) Nat)) (q : Remote.LocalReq)
    (hq : q ∈ (n.ask r loc).1) : localPlan q = (AskB.build l).plan how := by
  have hb := build_holds l
  unfold Remote.askRequest at hr
  split at hr
  · cases hr
    unfold Remote.Node.ask Remote.Node.internalAsk at hq
    split at hq
    · simp at hq
    · simp at hq
    · split at hq
      · simp at hq
      · split at hq
        · simp at hq
        · simp only [List.mem_singleton] at hq
          subst hq hh
          cases imm
          · simp [localPlan, AskB.remoteArgs, AskB.mailboxOpt, AskB.replyOpt, AskB.plan, TimeOpt.duration]
          · simp [localPlan, AskB.remoteArgs, AskB.mailboxOpt, AskB.replyOpt, AskB.plan, TimeOpt.duration]
  · cases hr

/-- An ask with both time-outs: the actor's node makes one local request, and the plan of that is the caller's. -/
example : (AskB.build [.mailbox 3, .reply 8]).allows .send = true ∧
    (AskB.build [.mailbox 3, .reply 8]).remoteArgs false = (some 3, some 8, false) ∧
    (demoNode.ask ⟨7, "A", "M", [0], some 3, some 8, false⟩ (fun _ => .val (.ok 1))).1.map localPlan =
      [(AskB.build [.mailbox 3, .reply 8]).plan .send] := by decide

/-- **C73 (remote tells)** The same for remote tells. -/
theorem remote_tell_time_outs_kept {I : Type} [DecidableEq I] (n : Remote.Node I) (id : I) (a m : String)
    (payload : Remote.Bytes) (l : List Nat) (imm : Bool) (how : THow) (hh : how = if imm then .trySend else .send)
    (ha : (TellB.build l).allows how = true)
    (loc : Remote.LocalReq → Request.Out (Except (Request.SendError Nat Empty) Unit)) (q : Remote.LocalReq)
    (hq : q ∈ (n.tell ⟨id, a, m, payload, ((TellB.build l).remoteArgs imm).1, none,
      ((TellB.build l).remoteArgs imm).2⟩ loc).1) : localPlan q = (TellB.build l).plan how := by
  unfold Remote.Node.tell Remote.Node.internalTell at hq
  split at hq
  · simp at hq
  · simp at hq
  · split at hq
    · simp at hq
    · split at hq
      · simp at hq
      · simp only [List.mem_singleton] at hq
        subst hq hh
        cases imm <;>
          simp [localPlan, TellB.remoteArgs, TellB.mailboxOpt, TellB.plan, TimeOpt.duration]

example : (demoNode.ask ⟨7, "A", "M", [0], some 3, some 8, false⟩ (fun _ => .val (.ok 1))).1.map localPlan =
    [⟨true, some 3, .now (some 8)⟩] := by decide
example : (demoNode.tell ⟨7, "A", "M", [0], some 3, none, false⟩ (fun _ => .val (.ok ()))).1.map localPlan =
    [⟨true, some 3, .nothing⟩] := by decide

/-- **C73 (conversions)** Passing a time-out through `MaybeRequestTimeout` does not change it. -/
theorem maybe_keeps (o : TimeOpt) (d : Option Nat) :
    (Maybe.ofOpt o).duration = o.duration ∧ (Maybe.ofOption d).duration = d ∧
      Maybe.ofOption (Maybe.ofOpt o).duration = Maybe.ofOpt o := by
  refine ⟨?_, ?_, ?_⟩
  · rcases o with _ | (_ | d) <;> rfl
  · cases d <;> rfl
  · rcases o with _ | (_ | d) <;> rfl

example : (Maybe.ofOpt (.withT (some 4))).duration = some 4 ∧ (Maybe.ofOpt .without).duration = none := ⟨rfl, rfl⟩

/-! ### What a time-out means -/

/-- A history: mailbox of size one. Request 0 fills it, request 1 gets a mailbox time-out, 2 a reply time-out. -/
def demo : List Op :=
  [.start ⟨true, none, .nothing⟩ 10, .start ⟨true, some 1, .now none⟩ 11, .tick, .poll 1, .recv,
   .start ⟨true, some 1, .now (some 2)⟩ 12, .tick, .tick, .poll 2]

/-- **C73 (mailbox time-out)** A request that ended with a mailbox time-out had one set, waited for a bounded mailbox, and
ended no sooner than that long after it was started. Its message was not taken, and never will be. -/
theorem mailbox_time_out_true (cap : Option Nat) (ops more : List Op) (t : Nat)
    (h : (((W.fresh cap).run ops).rq t).stage = .over (.failed .timeout)) :
    (∃ d, (((W.fresh cap).run ops).rq t).plan.mt = some d ∧
      (((W.fresh cap).run ops).rq t).born + d ≤ (((W.fresh cap).run ops).rq t).ended) ∧
    (((W.fresh cap).run ops).rq t).plan.wait = true ∧ (∃ c, cap = some c) ∧
    ∀ p ∈ ((W.fresh cap).run (ops ++ more)).mb.pushed, p.1 ≠ t := by
  obtain ⟨h1, h2, h3, a, h4⟩ := ((good cap ops).each t).mtime h
  rw [mb_cap] at h2
  refine ⟨h3, h1, ?_, ?_⟩
  · cases cap with
    | none => exact absurd rfl h2
    | some c => exact ⟨c, rfl⟩
  · obtain ⟨l, hl⟩ : ∃ l, ((W.fresh cap).run ops).mb = (Mb.fresh cap).run l := mb_run (W.fresh cap) ops
    obtain ⟨l', hl'⟩ := mb_run ((W.fresh cap).run ops) more
    have := (failed_send_returns_value_and_never_delivers cap l l' t a .timeout (by rw [← hl]; exact h4)).2.2
    intro p hp
    refine this p ?_
    rw [run_append' (W.fresh cap) ops more, hl', hl] at hp
    rw [run_append]
    exact hp

/-- Request 1 of `demo`, with the rest of the history after it. -/
example : (((W.fresh (some 1)).run (demo.take 4)).rq 1).stage = .over (.failed .timeout) ∧
    (((W.fresh (some 1)).run (demo.take 4)).rq 1).plan.mt = some 1 ∧
    (((W.fresh (some 1)).run (demo.take 4)).rq 1).ended = 1 ∧
    ((W.fresh (some 1)).run (demo.take 4 ++ demo.drop 4)).mb.pushed.map (·.1) = [0, 2] := by decide

theorem run_ticks (w : W) (n : Nat) : w.run (List.replicate n .tick) = { w with now := w.now + n } := by
  induction n generalizing w with
  | zero => rfl
  | succ n ih =>
    rw [List.replicate_succ]
    show (w.step .tick).run _ = _
    rw [ih]
    simp only [W.step]
    congr 1
    omega

/-- **C73 (the mailbox time-out ends with acceptance)** The documentation (`docs/core-concepts/requests.mdx` L18) says the
mailbox time-out is the longest a request waits in the queue before it is processed. It is not: a message that the
mailbox has taken never fails with it, and it stays in the queue for any time until the actor receives it. -/
theorem mailbox_time_out_ends_with_acceptance (cap : Option Nat) (ops : List Op) (t : Nat)
    (h : ∃ p ∈ ((W.fresh cap).run ops).mb.pushed, p.1 = t) :
    (∀ more, (((W.fresh cap).run (ops ++ more)).rq t).stage ≠ .over (.failed .timeout)) ∧
    ∀ n, ((W.fresh cap).run (ops ++ List.replicate n .tick)).mb.queue = ((W.fresh cap).run ops).mb.queue ∧
      ((W.fresh cap).run (ops ++ List.replicate n .tick)).now = ((W.fresh cap).run ops).now + n := by
  refine ⟨fun more hs => ?_, fun n => ?_⟩
  · obtain ⟨p, hp, e⟩ := h
    obtain ⟨l, hl⟩ := mb_run ((W.fresh cap).run ops) more
    have hk : t ∈ keys ((W.fresh cap).run (ops ++ more)).mb.pushed := by
      rw [run_append' (W.fresh cap) ops more, hl]
      exact pushed_sub l (List.mem_map.mpr ⟨p, hp, e⟩)
    obtain ⟨q, hq, e'⟩ := List.mem_map.mp hk
    have := (mailbox_time_out_true cap (ops ++ more) [] t hs).2.2.2 q
    rw [List.append_nil] at this
    exact this hq e'
  · rw [run_append', run_ticks]
    exact ⟨rfl, rfl⟩

/-- A tell with a mailbox time-out of one unit, in the queue after 50. -/
example : ((W.fresh (some 1)).run [.start ⟨true, some 1, .nothing⟩ 10]).mb.pushed = [(0, 10)] ∧
    ((W.fresh (some 1)).run ([.start ⟨true, some 1, .nothing⟩ 10] ++ List.replicate 50 .tick)).mb.queue = [(0, 10)] := by
  decide

/-- **C73 (reply time-out)** A request that ended with a reply time-out had one set; its message was taken by the mailbox;
and it ended no sooner than that long after it began to wait for the reply. It began to wait when the mailbox took the
message, if it is a `send`; a request sent with `enqueue` begins to wait when the pending reply is awaited. -/
theorem reply_time_out_true (cap : Option Nat) (ops : List Op) (t : Nat)
    (h : (((W.fresh cap).run ops).rq t).stage = .over .noReply) :
    (∃ d, (((W.fresh cap).run ops).rq t).plan.rt = some d ∧
      (((W.fresh cap).run ops).rq t).since + d ≤ (((W.fresh cap).run ops).rq t).ended) ∧
    (((W.fresh cap).run ops).rq t).born ≤ (((W.fresh cap).run ops).rq t).took ∧
    (((W.fresh cap).run ops).rq t).took ≤ (((W.fresh cap).run ops).rq t).since ∧
    (∀ d, (((W.fresh cap).run ops).rq t).plan.after = .now d →
      (((W.fresh cap).run ops).rq t).since = (((W.fresh cap).run ops).rq t).took) ∧
    ∃ p ∈ ((W.fresh cap).run ops).mb.pushed, p.1 = t := by
  obtain ⟨h1, h2, h3, h4, h5⟩ := ((good cap ops).each t).rtime h
  obtain ⟨p, hp, e⟩ := List.mem_map.mp h1
  exact ⟨h4, h2, h3, h5, p, hp, e⟩

example : (((W.fresh (some 1)).run demo).rq 1).stage = .over (.failed .timeout) ∧
    (((W.fresh (some 1)).run demo).rq 2).stage = .over .noReply ∧
    (((W.fresh (some 1)).run demo).rq 2).ended = 3 := by decide

/-- **C73 (no waiting)** A request sent with a `try_` method, and any request to an actor with an unbounded mailbox,
never waits for room in the mailbox. -/
theorem never_waits_for_room (cap : Option Nat) (ops : List Op) (t : Nat)
    (h : cap = none ∨ (((W.fresh cap).run ops).rq t).plan.wait = false) :
    (((W.fresh cap).run ops).rq t).stage ≠ .sending ∧
      (((W.fresh cap).run ops).rq t).stage ≠ .over (.failed .timeout) := by
  constructor
  · intro hs
    obtain ⟨h1, h2, _⟩ := ((good cap ops).each t).sending hs
    rw [mb_cap] at h2
    rcases h with h | h
    · exact h2 h
    · rw [h1] at h; cases h
  · intro hs
    obtain ⟨h1, h2, _⟩ := ((good cap ops).each t).mtime hs
    rw [mb_cap] at h2
    rcases h with h | h
    · exact h2 h
    · rw [h1] at h; cases h

example : (((W.fresh (some 0)).run [.start ⟨false, none, .nothing⟩ 1]).rq 0).plan.wait = false ∧
    (((W.fresh (some 0)).run [.start ⟨false, none, .nothing⟩ 1]).rq 0).stage = .over (.failed .full) ∧
    (((W.fresh none).run [.start ⟨true, some 0, .now none⟩ 1]).rq 0).stage = .awaiting := by decide

/-! ### Time-outs bound the wait -/

/-- Has the time-out the request is under passed? -/
def Overdue (w : W) (t : Nat) : Prop :=
  ((w.rq t).stage = .sending ∧ due (w.rq t).plan.mt (w.rq t).born w.now = true) ∨
    ((w.rq t).stage = .awaiting ∧ due (w.rq t).plan.rt (w.rq t).since w.now = true)

/-- A history in which timers are on time: before the clock moves on, every request whose time-out has passed was
polled. (Hypothesis on the runtime.) -/
def Prompt (cap : Option Nat) (ops : List Op) : Prop :=
  ∀ pre, pre ++ [Op.tick] <+: ops → ∀ t, ¬ Overdue ((W.fresh cap).run pre) t

/-- How long a request may wait for the mailbox: not at all for `try_` methods and unbounded mailboxes, else as long as
the mailbox time-out says. (Specification.) -/
def mailboxLimit (cap : Option Nat) (p : Plan) : Option Nat :=
  if p.wait = true ∧ cap ≠ none then p.mt else some 0

/-- The bounds, by stage. -/
structure TGood (cap : Option Nat) (now : Nat) (r : Rq) : Prop where
  snd : r.stage = .sending → ∀ d, mailboxLimit cap r.plan = some d → now ≤ r.born + d
  tk : r.stage = .enqueued ∨ r.stage = .awaiting → ∀ d, mailboxLimit cap r.plan = some d → r.took ≤ r.born + d
  awa : r.stage = .awaiting → ∀ d, r.plan.rt = some d → now ≤ r.since + d
  fin : ∀ x, r.stage = .over x → ∀ d, mailboxLimit cap r.plan = some d →
    (r.plan.after = .nothing → r.ended ≤ r.born + d) ∧
    (∀ d', r.plan.after = .now (some d') → r.ended ≤ r.born + d + d')

theorem tgood_finish {cap : Option Nat} {m : Mb Nat} {now t : Nat} {r : Rq} (hr : RGood m now t r)
    (h : TGood cap now r) (hs : r.stage = .sending ∨ r.stage = .awaiting ∨ r.stage = .enqueued) (x : Res) :
    TGood cap now (r.finish x now) := by
  constructor
  · simp [Rq.finish]
  · simp [Rq.finish]
  · simp [Rq.finish]
  · intro y _ d hd
    simp only [Rq.finish] at hd ⊢
    rcases hs with hs | hs | hs
    · have := h.snd hs d hd
      exact ⟨fun _ => this, fun d' _ => by omega⟩
    · obtain ⟨_, _, _, h4, h5, h6⟩ := hr.awa hs
      have h1 := h.tk (Or.inr hs) d hd
      refine ⟨fun e => absurd e h5, fun d' e => ?_⟩
      have h2 := h.awa hs d' (by simp [Plan.rt, e])
      have h3 := h6 _ e
      omega
    · obtain ⟨_, _, _, d', e⟩ := hr.enq hs
      exact ⟨(fun e' => by rw [e] at e'; cases e'), (fun _ e' => by rw [e] at e'; cases e')⟩

theorem tgood_accepted {cap : Option Nat} {now : Nat} {r : Rq}
    (h : ∀ d, mailboxLimit cap r.plan = some d → now ≤ r.born + d) : TGood cap now (r.accepted now) := by
  unfold Rq.accepted
  split
  · next e =>
    constructor <;> simp [Rq.finish]
    intro d hd
    exact ⟨fun _ => h d hd, fun d' e' => by rw [e] at e'; cases e'⟩
  · next d e => constructor <;> simp <;> exact h
  · next d e => constructor <;> simp <;> exact h

theorem tgood_chan {cap : Option Nat} {now : Nat} {r : Rq} (h : TGood cap now r) (c : Chan) :
    TGood cap now { r with chan := c } := ⟨h.snd, h.tk, h.awa, h.fin⟩

theorem set_all {P : Rq → Prop} {w : W} {t : Nat} {r : Rq} (h : ∀ x, P (w.rq x)) (hr : P r) :
    ∀ x, P ((w.set t r).rq x) := by
  intro x
  by_cases e : x = t
  · subst e; rw [set_self]; exact hr
  · rw [set_other _ _ e]; exact h x

theorem tgood_step {w : W} (g : Good w) (h : ∀ t, TGood w.mb.cap w.now (w.rq t)) (op : Op)
    (hp : op = .tick → ∀ t, ¬ Overdue w t) :
    ∀ t, TGood w.mb.cap (w.step op).now ((w.step op).rq t) := by
  cases op with
  | start p v =>
    have ha : ∀ r : Rq, r.plan = p → r.born = w.now → (∀ d, mailboxLimit w.mb.cap r.plan = some d → w.now ≤ r.born + d) := by
      intro r _ hb d _; omega
    have hf : ∀ r : Rq, r.plan = p → r.born = w.now → ∀ x, TGood w.mb.cap w.now (r.finish x w.now) := by
      intro r _ hb x
      constructor <;> simp [Rq.finish]
      intro d _
      exact ⟨fun _ => by omega, fun d' _ => by omega⟩
    simp only [W.step, W.start]
    split
    · refine set_all h ?_
      split
      · exact hf _ rfl rfl _
      · split
        · exact tgood_accepted (ha _ rfl rfl)
        · constructor <;> simp
    · refine set_all h ?_
      split
      · exact hf _ rfl rfl _
      · split
        · exact tgood_accepted (ha _ rfl rfl)
        · exact hf _ rfl rfl _
  | poll t =>
    have ht := g.each t
    simp only [W.step, W.poll]
    split
    · next hs =>
      split
      · exact set_all h (tgood_finish ht (h t) (Or.inl hs) _)
      · split
        · exact set_all h (tgood_accepted ((h t).snd hs))
        · split
          · exact set_all h (tgood_finish ht (h t) (Or.inl hs) _)
          · exact h
    · next hs =>
      split
      · exact set_all h (tgood_finish ht (h t) (Or.inr (Or.inl hs)) _)
      · exact set_all h (tgood_finish ht (h t) (Or.inr (Or.inl hs)) _)
      · split
        · exact set_all h (tgood_finish ht (h t) (Or.inr (Or.inl hs)) _)
        · exact h
    · exact h
  | await t =>
    simp only [W.step, W.await]
    split
    · next hs =>
      refine set_all h ?_
      have := (h t).tk (Or.inl hs)
      constructor <;> simp
      exact this
    · exact h
  | drop t =>
    have ht := g.each t
    simp only [W.step, W.drop]
    split
    · next hs => exact set_all h (tgood_finish ht (h t) (Or.inl hs) _)
    · next hs => exact set_all h (tgood_finish ht (h t) (Or.inr (Or.inr hs)) _)
    · next hs => exact set_all h (tgood_finish ht (h t) (Or.inr (Or.inl hs)) _)
    · exact h
  | recv => exact h
  | reply t v =>
    simp only [W.step, W.reply]
    split
    · exact set_all h (tgood_chan (h t) _)
    · exact h
  | dropReply t =>
    simp only [W.step, W.dropReply]
    split
    · exact set_all h (tgood_chan (h t) _)
    · exact h
  | close =>
    intro t
    simp only [W.step, W.close]
    split
    · exact tgood_chan (h t) _
    · exact h t
  | tick =>
    intro t
    have hn := hp rfl t
    simp only [W.step]
    refine ⟨fun hs d hd => ?_, (h t).tk, fun hs d hd => ?_, (h t).fin⟩
    · have hd' := (g.each t).sending hs
      have hd2 : (w.rq t).plan.mt = some d := by
        have : mailboxLimit w.mb.cap (w.rq t).plan = (w.rq t).plan.mt := by
          unfold mailboxLimit; rw [if_pos ⟨hd'.1, hd'.2.1⟩]
        rw [← this]; exact hd
      apply Classical.byContradiction
      intro hlt
      exact hn (Or.inl ⟨hs, by simp only [due, hd2]; simp; omega⟩)
    · apply Classical.byContradiction
      intro hlt
      exact hn (Or.inr ⟨hs, by simp only [due, hd]; simp; omega⟩)

theorem prompt_prefix {cap : Option Nat} {a b : List Op} (h : Prompt cap (a ++ b)) : Prompt cap a :=
  fun pre hp => h pre (hp.trans (List.prefix_append a b))

theorem tgood (cap : Option Nat) (ops : List Op) (h : Prompt cap ops) :
    ∀ t, TGood cap ((W.fresh cap).run ops).now (((W.fresh cap).run ops).rq t) := by
  induction ops using snoc_ind with
  | h0 =>
    intro t
    constructor <;> simp [W.run, W.fresh]
  | h1 l op ih =>
    have h1 := ih (prompt_prefix h)
    rw [run_snoc]
    have h2 := tgood_step (good cap l) (by rw [mb_cap]; exact h1) op
      (fun e => h l (by rw [e]; exact List.prefix_refl _))
    rw [mb_cap] at h2
    exact h2

/-- Is a history prompt, checked? Only requests with a ticket below `k` are looked at. -/
def promptB (k : Nat) (w : W) : List Op → Bool
  | [] => true
  | op :: ops =>
    (if op = .tick then (List.range k).all (fun t =>
        !((w.rq t).stage == .sending && due (w.rq t).plan.mt (w.rq t).born w.now) &&
        !((w.rq t).stage == .awaiting && due (w.rq t).plan.rt (w.rq t).since w.now)) else true) &&
      promptB k (w.step op) ops

theorem next_grows (w : W) (op : Op) : w.mb.next ≤ (w.step op).mb.next := by
  obtain ⟨l, hl⟩ := mb_step w op
  rw [hl]
  clear hl
  generalize w.mb = m
  induction l generalizing m with
  | nil => exact Nat.le_refl _
  | cons o l ih => exact Nat.le_trans (next_le_step m o) (ih (m.step o))

theorem run_next_grows (w : W) (ops : List Op) : w.mb.next ≤ (w.run ops).mb.next := by
  induction ops generalizing w with
  | nil => exact Nat.le_refl _
  | cons o l ih => exact Nat.le_trans (next_grows w o) (ih (w.step o))

theorem prompt_of {cap : Option Nat} (k : Nat) (ops : List Op) (hk : ((W.fresh cap).run ops).mb.next ≤ k)
    (h : promptB k (W.fresh cap) ops = true) : Prompt cap ops := by
  have key : ∀ (ops : List Op) (w : W), Good w → (w.run ops).mb.next ≤ k → promptB k w ops = true →
      ∀ pre, pre ++ [Op.tick] <+: ops → ∀ t, ¬ Overdue (w.run pre) t := by
    intro ops
    induction ops with
    | nil =>
      intro w _ _ _ pre hp
      simp at hp
    | cons op ops ih =>
      intro w g hk hb pre hp t
      simp only [promptB, Bool.and_eq_true] at hb
      cases pre with
      | nil =>
        simp only [List.nil_append, List.cons_prefix_cons, List.nil_prefix, and_true] at hp
        subst hp
        have h1 := hb.1
        simp only [if_true, List.all_eq_true, List.mem_range, Bool.and_eq_true, Bool.not_eq_true', Bool.and_eq_false_iff] at h1
        rintro (⟨a, b⟩ | ⟨a, b⟩)
        · by_cases hl : t < k
          · have := (h1 t hl).1
            simp only [W.run, List.foldl_nil] at a b
            rw [a, b] at this; simp at this
          · have := g.fut t (by have := run_next_grows w (Op.tick :: ops); omega)
            simp [W.run, this] at a
        · by_cases hl : t < k
          · have := (h1 t hl).2
            simp only [W.run, List.foldl_nil] at a b
            rw [a, b] at this; simp at this
          · have := g.fut t (by have := run_next_grows w (Op.tick :: ops); omega)
            simp [W.run, this] at a
      | cons o pre =>
        simp only [List.cons_append, List.cons_prefix_cons] at hp
        obtain ⟨rfl, hp⟩ := hp
        exact ih (w.step o) (good_step g o) hk hb.2 pre hp t
  exact key ops _ (good_fresh cap) hk h

/-- **C73 (time-outs bound the wait)** If timers are on time, an ask sent with both time-outs set is over after at most the
sum of the two; a tell or a forward after at most the mailbox time-out; and an enqueued request is in the mailbox, or
over, after at most the mailbox time-out. A `try_` method takes no time for the mailbox, nor does an unbounded
mailbox. -/
theorem time_outs_bound_the_wait (cap : Option Nat) (ops : List Op) (h : Prompt cap ops) (t d : Nat)
    (hs : (((W.fresh cap).run ops).rq t).stage ≠ .none)
    (hd : mailboxLimit cap (((W.fresh cap).run ops).rq t).plan = some d) :
    (∀ d', (((W.fresh cap).run ops).rq t).plan.after = .now (some d') →
      ((W.fresh cap).run ops).now ≤ (((W.fresh cap).run ops).rq t).born + d + d' ∨
      ∃ x, (((W.fresh cap).run ops).rq t).stage = .over x ∧
        (((W.fresh cap).run ops).rq t).ended ≤ (((W.fresh cap).run ops).rq t).born + d + d') ∧
    ((((W.fresh cap).run ops).rq t).plan.after = .nothing →
      ((W.fresh cap).run ops).now ≤ (((W.fresh cap).run ops).rq t).born + d ∨
      ∃ x, (((W.fresh cap).run ops).rq t).stage = .over x ∧
        (((W.fresh cap).run ops).rq t).ended ≤ (((W.fresh cap).run ops).rq t).born + d) ∧
    (∀ d', (((W.fresh cap).run ops).rq t).plan.after = .later d' →
      ((W.fresh cap).run ops).now ≤ (((W.fresh cap).run ops).rq t).born + d ∨
      (∃ x, (((W.fresh cap).run ops).rq t).stage = .over x) ∨
      ((((W.fresh cap).run ops).rq t).stage = .enqueued ∨ (((W.fresh cap).run ops).rq t).stage = .awaiting) ∧
        (((W.fresh cap).run ops).rq t).took ≤ (((W.fresh cap).run ops).rq t).born + d) := by
  have hg := (good cap ops).each t
  have ht := tgood cap ops h t
  revert hs hd hg ht
  generalize ((W.fresh cap).run ops).rq t = r
  generalize ((W.fresh cap).run ops).now = now
  generalize ((W.fresh cap).run ops).mb = m
  intro hs hd hg ht
  cases hst : r.stage with
  | none => exact absurd hst hs
  | sending =>
    have := ht.snd hst d hd
    exact ⟨fun _ _ => Or.inl (by omega), fun _ => Or.inl this, fun _ _ => Or.inl this⟩
  | enqueued =>
    obtain ⟨_, _, _, d', e⟩ := hg.enq hst
    refine ⟨fun _ e' => by (rw [e] at e'; cases e'), fun e' => by (rw [e] at e'; cases e'), fun _ _ => ?_⟩
    exact Or.inr (Or.inr ⟨Or.inl rfl, ht.tk (Or.inl hst) d hd⟩)
  | awaiting =>
    obtain ⟨_, _, _, _, h5, h6⟩ := hg.awa hst
    have htk := ht.tk (Or.inr hst) d hd
    refine ⟨fun d' e => Or.inl ?_, fun e => absurd e h5, fun _ _ => ?_⟩
    · have h1 := ht.awa hst d' (by simp [Plan.rt, e])
      have h2 := h6 _ e
      omega
    · exact Or.inr (Or.inr ⟨Or.inr rfl, htk⟩)
  | over x =>
    have := ht.fin x hst d hd
    exact ⟨fun d' e => Or.inr ⟨x, rfl, this.2 d' e⟩, fun e => Or.inr ⟨x, rfl, this.1 e⟩,
      fun _ _ => Or.inr (Or.inl ⟨x, rfl⟩)⟩

/-- A prompt history, in which request 2, an ask with both time-outs, ends as late as it may. -/
example : Prompt (some 1) (demo ++ [.tick]) ∧
    (((W.fresh (some 1)).run (demo ++ [.tick])).rq 2).stage = .over .noReply ∧
    mailboxLimit (some 1) (((W.fresh (some 1)).run (demo ++ [.tick])).rq 2).plan = some 1 ∧
    (((W.fresh (some 1)).run (demo ++ [.tick])).rq 2).plan.after = .now (some 2) :=
  ⟨prompt_of 3 _ (by decide) (by decide), by decide⟩

/-- **C73 (a time-out ends the wait)** A request polled when its time-out has passed does not go on waiting for what it
was waiting for. So there is always a way to be on time. -/
theorem overdue_poll_ends (cap : Option Nat) (ops : List Op) (t : Nat) (h : Overdue ((W.fresh cap).run ops) t) :
    (((W.fresh cap).run (ops ++ [.poll t])).rq t).stage ≠ (((W.fresh cap).run ops).rq t).stage ∧
      ((((W.fresh cap).run ops).rq t).stage = .awaiting →
        ∃ x, (((W.fresh cap).run (ops ++ [.poll t])).rq t).stage = .over x) := by
  rw [run_snoc]
  generalize (W.fresh cap).run ops = w at h
  simp only [W.step, W.poll]
  rcases h with ⟨hs, hd⟩ | ⟨hs, hd⟩
  · simp only [hs, hd]
    refine ⟨?_, by simp⟩
    split
    · simp [Rq.finish]
    · split
      · simp only [set_self, Rq.accepted]
        split <;> simp [Rq.finish]
      · simp [Rq.finish]
  · simp only [hs, hd]
    constructor
    · split <;> simp [Rq.finish]
    · intro _
      split <;> simp [Rq.finish]

example : Overdue ((W.fresh (some 1)).run (demo.take 3)) 1 ∧
    (((W.fresh (some 1)).run (demo.take 3)).rq 1).stage = .sending ∧
    (((W.fresh (some 1)).run (demo.take 3 ++ [.poll 1])).rq 1).stage = .over (.failed .timeout) :=
  ⟨Or.inl (by decide), by decide⟩

/-- **C73 (room is not lost to the clock)** A request to which the mailbox has handed a free place takes it when it is next
polled, however late that is. -/
theorem room_beats_clock (cap : Option Nat) (ops : List Op) (t : Nat)
    (hs : (((W.fresh cap).run ops).rq t).stage = .sending) (hg : ∃ p ∈ ((W.fresh cap).run ops).mb.granted, p.1 = t) :
    (∃ p ∈ ((W.fresh cap).run (ops ++ [.poll t])).mb.pushed, p.1 = t) ∧
      (((W.fresh cap).run (ops ++ [.poll t])).rq t).stage =
        match (((W.fresh cap).run ops).rq t).plan.after with
        | .nothing => .over .sent
        | .now _ => .awaiting
        | .later _ => .enqueued := by
  have hi := mb_inv cap ops
  rw [run_snoc]
  generalize (W.fresh cap).run ops = w at hs hg hi
  obtain ⟨p, hp, e⟩ := hg
  have hc : w.mb.closed = false := by
    cases hc : w.mb.closed with
    | false => rfl
    | true => rw [(hi.closedEmpty hc).2.1] at hp; cases hp
  have hf : (w.mb.granted.find? (fun p => p.1 == t)).isSome = true := by
    rw [List.find?_isSome]
    exact ⟨p, hp, by simpa using e⟩
  have hst : w.step (.poll t) = ({ w with mb := w.mb.poll t } : W).set t ((w.rq t).accepted w.now) := by
    simp [W.step, W.poll, hs, hc, hf]
  rw [hst]
  constructor
  · obtain ⟨q, hq, e⟩ := List.mem_map.mp (granted_pushes hf)
    exact ⟨q, hq, e⟩
  · rw [set_self]
    unfold Rq.accepted
    split <;> simp [Rq.finish, *]

example : (((W.fresh (some 1)).run (demo.take 3 ++ [.recv, .tick])).rq 1).stage = .sending ∧
    Overdue ((W.fresh (some 1)).run (demo.take 3 ++ [.recv, .tick])) 1 ∧
    (1, 11) ∈ ((W.fresh (some 1)).run (demo.take 3 ++ [.recv, .tick])).mb.granted :=
  ⟨by decide, Or.inl (by decide), by decide⟩

example : Prompt (some 1) (demo ++ [.tick]) := prompt_of 3 _ (by decide) (by decide)
example : mailboxLimit (some 1) (((W.fresh (some 1)).run (demo ++ [.tick])).rq 2).plan = some 1 ∧
    (((W.fresh (some 1)).run (demo ++ [.tick])).rq 2).plan.after = .now (some 2) := by decide
example : Overdue ((W.fresh (some 1)).run (demo.take 3)) 1 := Or.inl (by decide)

/-! ### Replies -/

/-- **C73 (a reply is not lost to the clock)** Once the actor has answered a request that is still waiting, or whose
pending reply is still held, the request cannot time out any more: it gets the answer when it is next polled, however
late that is, unless its caller drops it. -/
theorem reply_beats_clock (cap : Option Nat) (ops more : List Op) (t v : Nat)
    (hs : (((W.fresh cap).run ops).rq t).stage = .awaiting ∨ (((W.fresh cap).run ops).rq t).stage = .enqueued)
    (hc : (((W.fresh cap).run ops).rq t).chan = .value v) :
    ((((W.fresh cap).run (ops ++ more)).rq t).stage = .over (.ok v) ∨
     (((W.fresh cap).run (ops ++ more)).rq t).stage = .over .dropped ∧ Op.drop t ∈ more ∨
     ((((W.fresh cap).run (ops ++ more)).rq t).stage = .awaiting ∨
        (((W.fresh cap).run (ops ++ more)).rq t).stage = .enqueued) ∧
      (((W.fresh cap).run (ops ++ more)).rq t).chan = .value v) ∧
    ((((W.fresh cap).run ops).rq t).stage = .awaiting →
      (((W.fresh cap).run (ops ++ [.poll t])).rq t).stage = .over (.ok v)) := by
  constructor
  · rw [run_append']
    have g := good cap ops
    generalize (W.fresh cap).run ops = w at hs hc g
    have hlt : t < w.mb.next := by
      apply Classical.byContradiction
      intro hn
      rw [g.fut t (by omega)] at hc; cases hc
    clear g
    induction more using snoc_ind with
    | h0 => exact Or.inr (Or.inr ⟨hs, hc⟩)
    | h1 l op ih =>
      rw [run_snoc]
      have hlt' := Nat.lt_of_lt_of_le hlt (run_next_grows w l)
      generalize w.run l = u at ih hlt'
      have hset : ∀ (u' : W) (x : Nat) (r : Rq), x ≠ t → (u'.set x r).rq t = u'.rq t :=
        fun u' x r hx => set_other _ _ (Ne.symm hx)
      cases op with
      | start p x =>
        have : (u.start p x).rq t = u.rq t := by
          unfold W.start; simp only []
          split <;> rw [set_other _ _ (by omega)]
        simp only [W.step, this]
        rcases ih with ih | ih | ih
        · exact Or.inl ih
        · exact Or.inr (Or.inl ⟨ih.1, by simp [ih.2]⟩)
        · exact Or.inr (Or.inr ih)
      | poll x =>
        by_cases e : x = t
        · subst e
          simp only [W.step, W.poll]
          rcases ih with ih | ih | ⟨ih | ih, hc⟩
          · simp only [ih]; simp
          · simp only [ih]; simp [ih.2]
          · simp only [ih, hc]; simp [Rq.finish]
          · simp only [ih]; simp [hc]
        · have : (u.poll x).rq t = u.rq t := by
            unfold W.poll; simp only []
            (repeat' split) <;> first | rfl | (rw [hset _ _ _ e])
          simp only [W.step, this]
          rcases ih with ih | ih | ih
          · exact Or.inl ih
          · exact Or.inr (Or.inl ⟨ih.1, by simp [ih.2]⟩)
          · exact Or.inr (Or.inr ih)
      | await x =>
        by_cases e : x = t
        · subst e
          simp only [W.step, W.await]
          rcases ih with ih | ih | ⟨ih | ih, hc⟩
          · simp only [ih]; simp
          · simp only [ih]; simp [ih.2]
          · simp only [ih]; simp [hc]
          · simp only [ih]; simp [hc]
        · have : (u.await x).rq t = u.rq t := by
            unfold W.await
            split <;> first | rfl | (rw [hset _ _ _ e])
          simp only [W.step, this]
          rcases ih with ih | ih | ih
          · exact Or.inl ih
          · exact Or.inr (Or.inl ⟨ih.1, by simp [ih.2]⟩)
          · exact Or.inr (Or.inr ih)
      | drop x =>
        by_cases e : x = t
        · subst e
          simp only [W.step, W.drop]
          rcases ih with ih | ih | ⟨ih | ih, hc⟩
          · simp only [ih]; simp
          · simp only [ih]; simp [ih.2]
          · simp only [ih]; simp [Rq.finish]
          · simp only [ih]; simp [Rq.finish]
        · have : (u.drop x).rq t = u.rq t := by
            unfold W.drop; simp only []
            split <;> first | rfl | (rw [hset _ _ _ e])
          simp only [W.step, this]
          rcases ih with ih | ih | ih
          · exact Or.inl ih
          · exact Or.inr (Or.inl ⟨ih.1, by simp [ih.2]⟩)
          · exact Or.inr (Or.inr ih)
      | recv =>
        simp only [W.step]
        rcases ih with ih | ih | ih
        · exact Or.inl ih
        · exact Or.inr (Or.inl ⟨ih.1, by simp [ih.2]⟩)
        · exact Or.inr (Or.inr ih)
      | tick =>
        simp only [W.step]
        rcases ih with ih | ih | ih
        · exact Or.inl ih
        · exact Or.inr (Or.inl ⟨ih.1, by simp [ih.2]⟩)
        · exact Or.inr (Or.inr ih)
      | reply x y =>
        have h1 : ((u.reply x y).rq t).stage = (u.rq t).stage ∧
            ((u.rq t).chan = .value v → ((u.reply x y).rq t).chan = .value v) := by
          unfold W.reply
          split
          · next hcond =>
            by_cases e : x = t
            · subst e; simp [hcond.2]
            · rw [hset _ _ _ e]; simp
          · simp
        simp only [W.step, h1.1]
        rcases ih with ih | ih | ih
        · exact Or.inl ih
        · exact Or.inr (Or.inl ⟨ih.1, by simp [ih.2]⟩)
        · exact Or.inr (Or.inr ⟨ih.1, h1.2 ih.2⟩)
      | dropReply x =>
        have h1 : ((u.dropReply x).rq t).stage = (u.rq t).stage ∧
            ((u.rq t).chan = .value v → ((u.dropReply x).rq t).chan = .value v) := by
          unfold W.dropReply
          split
          · next hcond =>
            by_cases e : x = t
            · subst e; simp [hcond.2]
            · rw [hset _ _ _ e]; simp
          · simp
        simp only [W.step, h1.1]
        rcases ih with ih | ih | ih
        · exact Or.inl ih
        · exact Or.inr (Or.inl ⟨ih.1, by simp [ih.2]⟩)
        · exact Or.inr (Or.inr ⟨ih.1, h1.2 ih.2⟩)
      | close =>
        have h1 : (u.close.rq t).stage = (u.rq t).stage ∧
            ((u.rq t).chan = .value v → (u.close.rq t).chan = .value v) := by
          simp only [W.close]
          split
          · next hcond => simp [hcond.2]
          · simp
        simp only [W.step, h1.1]
        rcases ih with ih | ih | ih
        · exact Or.inl ih
        · exact Or.inr (Or.inl ⟨ih.1, by simp [ih.2]⟩)
        · exact Or.inr (Or.inr ⟨ih.1, h1.2 ih.2⟩)
  · intro ha
    rw [run_snoc]
    simp only [W.step, W.poll, ha, hc]
    simp [Rq.finish]

/-- An ask with a reply time-out of 1, answered in time and polled late. -/
def lateDemo : List Op := [.start ⟨true, none, .now (some 1)⟩ 10, .recv, .reply 0 5, .tick, .tick, .tick]

example : (((W.fresh (some 1)).run lateDemo).rq 0).stage = .awaiting ∧
    (((W.fresh (some 1)).run lateDemo).rq 0).chan = .value 5 := by decide

/-- **C73 (a pending reply waits for its owner)** A pending reply that is neither awaited nor dropped stays as it is,
however much time passes: its time-out does not run. -/
theorem pending_reply_waits (cap : Option Nat) (ops more : List Op) (t : Nat)
    (hs : (((W.fresh cap).run ops).rq t).stage = .enqueued)
    (hm : Op.await t ∉ more ∧ Op.drop t ∉ more) :
    (((W.fresh cap).run (ops ++ more)).rq t).stage = .enqueued := by
  rw [run_append']
  have g := good cap ops
  generalize (W.fresh cap).run ops = w at hs g
  have hlt : t < w.mb.next := by
    apply Classical.byContradiction
    intro hn
    rw [g.fut t (by omega)] at hs; cases hs
  clear g
  induction more using snoc_ind with
  | h0 => exact hs
  | h1 l op ih =>
    have ih := ih ⟨fun h => hm.1 (by simp [h]), fun h => hm.2 (by simp [h])⟩
    rw [run_snoc]
    have hlt' := Nat.lt_of_lt_of_le hlt (run_next_grows w l)
    generalize w.run l = u at ih hlt'
    have hset : ∀ (u' : W) (x : Nat) (r : Rq), x ≠ t → (u'.set x r).rq t = u'.rq t :=
      fun u' x r hx => set_other _ _ (Ne.symm hx)
    cases op with
    | start p x =>
      simp only [W.step, W.start]
      split <;> (rw [set_other _ _ (by omega)]; exact ih)
    | poll x =>
      by_cases e : x = t
      · subst e; simp only [W.step, W.poll, ih]
      · simp only [W.step, W.poll]
        (repeat' split) <;> first | exact ih | (rw [hset _ _ _ e]; exact ih)
    | await x =>
      have e : x ≠ t := fun e => hm.1 (by simp [e])
      simp only [W.step, W.await]
      split <;> first | exact ih | (rw [hset _ _ _ e]; exact ih)
    | drop x =>
      have e : x ≠ t := fun e => hm.2 (by simp [e])
      simp only [W.step, W.drop]
      split <;> first | exact ih | (rw [hset _ _ _ e]; exact ih)
    | recv => exact ih
    | tick => exact ih
    | reply x y =>
      simp only [W.step, W.reply]
      split
      · by_cases e : x = t
        · subst e; simpa using ih
        · rw [hset _ _ _ e]; exact ih
      · exact ih
    | dropReply x =>
      simp only [W.step, W.dropReply]
      split
      · by_cases e : x = t
        · subst e; simpa using ih
        · rw [hset _ _ _ e]; exact ih
      · exact ih
    | close =>
      simp only [W.step, W.close]
      split <;> exact ih

example : (((W.fresh (some 1)).run ([.start ⟨true, none, .later (some 1)⟩ 10] ++ [.recv, .tick, .tick, .poll 0])).rq 0).stage =
    .enqueued := by decide

/-- A request enqueued with a reply time-out of 0, which the actor answers after `n` units of time, and which is awaited
another `n` units later. -/
def slowDemo (n : Nat) : List Op :=
  [.start ⟨true, none, .later (some 0)⟩ 10, .recv] ++ List.replicate n .tick ++ [.reply 0 5] ++
    List.replicate n .tick ++ [.await 0, .poll 0]

/-- The world after the actor has received the request. -/
def slowW (now : Nat) (c : Chan) : W :=
  { mb := ((Mb.fresh (some 1)).send 10).recv, now := now
    rq := fun x => if x = 0 then { plan := ⟨true, none, .later (some 0)⟩, stage := .enqueued, chan := c } else {} }

/-- **C73 (an enqueued request's reply time-out)** Because of that, a reply time-out says nothing about when the actor has
to answer a request sent with `enqueue`: with a time-out of 0, the answer may come any time after the message was
taken, and is still delivered. -/
theorem enqueue_time_out_runs_late (n : Nat) :
    (((W.fresh (some 1)).run (slowDemo n)).rq 0).stage = .over (.ok 5) ∧
    (((W.fresh (some 1)).run (slowDemo n)).rq 0).plan.rt = some 0 ∧
    (((W.fresh (some 1)).run (slowDemo n)).rq 0).ended = (((W.fresh (some 1)).run (slowDemo n)).rq 0).took + 2 * n := by
  unfold slowDemo
  simp only [run_append', run_ticks]
  have e1 : (W.fresh (some 1)).run [.start ⟨true, none, .later (some 0)⟩ 10, .recv] = slowW 0 .unanswered := rfl
  have e2 : ∀ m, (slowW (0 + m) .unanswered).run [.reply 0 5] =
      (slowW (0 + m) .unanswered).set 0 { plan := ⟨true, none, .later (some 0)⟩, stage := .enqueued, chan := .value 5 } :=
    fun _ => rfl
  have e3 : ∀ m, ({ slowW 0 .unanswered with now := (slowW 0 .unanswered).now + m } : W) = slowW (0 + m) .unanswered :=
    fun _ => rfl
  rw [e1, e3, e2]
  simp [W.run, W.step, W.await, W.poll, W.set, Rq.finish, Plan.rt, slowW]
  omega

example : (((W.fresh (some 1)).run (slowDemo 3)).rq 0).stage = .over (.ok 5) ∧
    (((W.fresh (some 1)).run (slowDemo 3)).rq 0).ended = 6 := by decide

/-! ### The actor does not wait for pending replies -/

theorem recvs_empty (w : W) : ∃ n, (w.run (List.replicate n .recv)).mb.queue = [] ∧
    (w.run (List.replicate n .recv)).rq = w.rq ∧ (w.run (List.replicate n .recv)).mb.pushed = w.mb.pushed := by
  generalize hq : w.mb.queue = q
  induction q generalizing w with
  | nil => exact ⟨0, hq, rfl, rfl⟩
  | cons p q ih =>
    obtain ⟨n, h1, h2, h3⟩ := ih (w.step .recv) (by simp only [W.step, Mb.recv, hq, release_queue])
    refine ⟨n + 1, ?_, ?_, ?_⟩
    · exact h1
    · exact h2
    · refine Eq.trans h3 ?_
      simp only [W.step, Mb.recv, hq, release_pushed]

theorem replies_answer (w : W) (l : List Nat) :
    (w.run (l.map (fun t => .reply t 0))).mb = w.mb ∧
    (∀ t, ((w.run (l.map (fun t => .reply t 0))).rq t).stage = (w.rq t).stage) ∧
    (∀ t ∈ l, t ∈ w.mb.received.map (·.1) → ((w.run (l.map (fun t => .reply t 0))).rq t).chan ≠ .unanswered) ∧
    (∀ t, (w.rq t).chan ≠ .unanswered → ((w.run (l.map (fun t => .reply t 0))).rq t).chan ≠ .unanswered) := by
  induction l generalizing w with
  | nil => exact ⟨rfl, fun _ => rfl, by simp, fun _ h => h⟩
  | cons a l ih =>
    obtain ⟨h1, h2, h3, h4⟩ := ih (w.reply a 0)
    have hm : (w.reply a 0).mb = w.mb := by unfold W.reply; split <;> rfl
    have hst : ∀ t, ((w.reply a 0).rq t).stage = (w.rq t).stage := by
      intro t; unfold W.reply
      split
      · by_cases e : t = a
        · subst e; simp
        · rw [set_other _ _ e]
      · rfl
    have hch : ∀ t, (w.rq t).chan ≠ .unanswered → ((w.reply a 0).rq t).chan ≠ .unanswered := by
      intro t ht; unfold W.reply
      split
      · by_cases e : t = a
        · subst e; simp
        · rw [set_other _ _ e]; exact ht
      · exact ht
    have ha : a ∈ w.mb.received.map (·.1) → ((w.reply a 0).rq a).chan ≠ .unanswered := by
      intro hr; unfold W.reply
      split
      · simp
      · next hn => exact fun hc => hn ⟨hr, hc⟩
    refine ⟨by rw [← hm]; exact h1, fun t => by rw [← hst]; exact h2 t, fun t ht hr => ?_, fun t ht => h4 t (hch t ht)⟩
    rcases List.mem_cons.mp ht with rfl | ht
    · exact h4 t (ha hr)
    · exact h3 t ht (by rw [hm]; exact hr)

/-- **C73 (pending replies hold nobody up)** The documentation says that the actor will not progress until a pending reply
has been awaited or dropped. It does: whatever pending replies are held, the actor can receive all that is in its
mailbox and answer every request it has received, without anything being done to them. -/
theorem actor_goes_on_without_await (cap : Option Nat) (ops : List Op)
    (ho : ((W.fresh cap).run ops).mb.closed = false) :
    ∃ more, (∀ o ∈ more, o = .recv ∨ ∃ x, o = .reply x 0) ∧
      ((W.fresh cap).run (ops ++ more)).mb.queue = [] ∧
      ((W.fresh cap).run (ops ++ more)).mb.received = ((W.fresh cap).run ops).mb.pushed ∧
      (∀ p ∈ ((W.fresh cap).run ops).mb.pushed, (((W.fresh cap).run (ops ++ more)).rq p.1).chan ≠ .unanswered) ∧
      ∀ t, (((W.fresh cap).run (ops ++ more)).rq t).stage = (((W.fresh cap).run ops).rq t).stage := by
  obtain ⟨n, h1, h2, h3⟩ := recvs_empty ((W.fresh cap).run ops)
  have hcl : ∀ k, (((W.fresh cap).run ops).run (List.replicate k .recv)).mb.closed = false := by
    intro k
    generalize (W.fresh cap).run ops = w at ho
    induction k generalizing w with
    | zero => exact ho
    | succ k ih => exact ih (w.step .recv) (by simpa [W.step] using ho)
  have hi : Inv (((W.fresh cap).run ops).run (List.replicate n .recv)).mb := by
    rw [← run_append']; exact mb_inv cap _
  have hrec : (((W.fresh cap).run ops).run (List.replicate n .recv)).mb.received = ((W.fresh cap).run ops).mb.pushed := by
    have := hi.hist
    rw [h1, hi.openLost (hcl n), h3] at this
    simpa using this.symm
  obtain ⟨r1, r2, r3, _⟩ := replies_answer (((W.fresh cap).run ops).run (List.replicate n .recv))
    (((W.fresh cap).run ops).mb.pushed.map (·.1))
  refine ⟨List.replicate n .recv ++ (((W.fresh cap).run ops).mb.pushed.map (·.1)).map (fun t => .reply t 0), ?_, ?_⟩
  · intro o ho
    rcases List.mem_append.mp ho with ho | ho
    · exact Or.inl (List.eq_of_mem_replicate ho)
    · obtain ⟨x, _, rfl⟩ := List.mem_map.mp ho
      exact Or.inr ⟨x, rfl⟩
  · rw [run_append' (W.fresh cap) ops, run_append']
    refine ⟨by rw [r1]; exact h1, by rw [r1]; exact hrec, ?_, ?_⟩
    · intro p hp
      refine r3 p.1 (List.mem_map_of_mem hp) ?_
      rw [hrec]; exact List.mem_map_of_mem hp
    · intro t
      rw [r2 t, h2]

example : (((W.fresh (some 4)).run [.start ⟨true, none, .later none⟩ 10, .start ⟨true, none, .now none⟩ 11]).rq 0).stage =
      .enqueued ∧
    ((W.fresh (some 4)).run [.start ⟨true, none, .later none⟩ 10, .start ⟨true, none, .now none⟩ 11]).mb.closed = false ∧
    (((W.fresh (some 4)).run ([.start ⟨true, none, .later none⟩ 10, .start ⟨true, none, .now none⟩ 11] ++
      [.recv, .recv, .reply 0 0, .reply 1 0, .poll 1])).rq 1).stage = .over (.ok 0) := by decide

/-- **C73 (answers come from the actor)** A request that ended with an answer was answered with it by the actor, which
had received its message; the time-outs have no part in it. -/
theorem answer_was_given (cap : Option Nat) (ops : List Op) (t v : Nat)
    (h : (((W.fresh cap).run ops).rq t).stage = .over (.ok v)) :
    Op.reply t v ∈ ops ∧ ∃ p ∈ ((W.fresh cap).run ops).mb.pushed, p.1 = t := by
  constructor
  · have key : ((((W.fresh cap).run ops).rq t).stage = .over (.ok v) ∨ (((W.fresh cap).run ops).rq t).chan = .value v) →
        Op.reply t v ∈ ops := by
      clear h
      induction ops using snoc_ind with
      | h0 => intro h; simp [W.run, W.fresh] at h
      | h1 l op ih =>
        rw [run_snoc]
        intro h
        generalize (W.fresh cap).run l = u at ih h
        have fin : ∀ (r : Rq) (x : Res), (r.finish x u.now).chan ≠ .value v := by
          intro r x; simp only [Rq.finish]; split <;> simp
        have acc : ∀ (r : Rq), (r.accepted u.now).stage ≠ .over (.ok v) ∧
            ((r.accepted u.now).chan = .value v → r.chan = .value v) := by
          intro r; unfold Rq.accepted
          split
          · exact ⟨by simp [Rq.finish], fun e => absurd e (fin _ _)⟩
          · exact ⟨by simp, id⟩
          · exact ⟨by simp, id⟩
        have other : ∀ (u' : W) (x : Nat) (r : Rq), u'.rq t = u.rq t →
            (x = t → (r.stage = .over (.ok v) ∨ r.chan = .value v) → (u.rq t).stage = .over (.ok v) ∨ (u.rq t).chan = .value v) →
            (((u'.set x r).rq t).stage = .over (.ok v) ∨ ((u'.set x r).rq t).chan = .value v) →
            (u.rq t).stage = .over (.ok v) ∨ (u.rq t).chan = .value v := by
          intro u' x r hu hx hh
          by_cases e : x = t
          · subst e; rw [set_self] at hh; exact hx rfl hh
          · rw [set_other _ _ (Ne.symm e), hu] at hh; exact hh
        suffices hsuf : ((u.rq t).stage = .over (.ok v) ∨ (u.rq t).chan = .value v) ∨ op = .reply t v by
          rcases hsuf with hs | rfl
          · have := ih hs; simp [this]
          · simp
        cases op with
        | start p y =>
          left
          simp only [W.step, W.start] at h
          have hc0 : (if p.after = After.nothing then Chan.none else Chan.unanswered) ≠ Chan.value v := by split <;> simp
          split at h
          all_goals
            refine other _ _ _ (by rfl) ?_ h
            intro _ hh
            exfalso
            split at hh
            · rcases hh with hh | hh
              · simp [Rq.finish] at hh
              · exact fin _ _ hh
            · split at hh
              · rcases hh with hh | hh
                · exact (acc _).1 hh
                · exact hc0 ((acc _).2 hh)
              · rcases hh with hh | hh
                · simp [Rq.finish] at hh
                · first | exact fin _ _ hh | exact hc0 hh
        | poll x =>
          left
          simp only [W.step, W.poll] at h
          split at h
          · split at h
            · refine other _ _ _ rfl (fun _ hh => ?_) h
              rcases hh with hh | hh
              · simp [Rq.finish] at hh
              · exact absurd hh (fin _ _)
            · split at h
              · refine other _ _ _ (by rfl) (fun e hh => ?_) h
                rcases hh with hh | hh
                · exact absurd hh (acc _).1
                · subst e; exact Or.inr ((acc _).2 hh)
              · split at h
                · refine other _ _ _ (by rfl) (fun _ hh => ?_) h
                  rcases hh with hh | hh
                  · simp [Rq.finish] at hh
                  · exact absurd hh (fin _ _)
                · exact h
          · split at h
            · next v' hv =>
              refine other _ _ _ rfl (fun e hh => ?_) h
              rcases hh with hh | hh
              · simp [Rq.finish] at hh
                subst e hh; exact Or.inr hv
              · exact absurd hh (fin _ _)
            · refine other _ _ _ rfl (fun _ hh => ?_) h
              rcases hh with hh | hh
              · simp [Rq.finish] at hh
              · exact absurd hh (fin _ _)
            · split at h
              · refine other _ _ _ rfl (fun _ hh => ?_) h
                rcases hh with hh | hh
                · simp [Rq.finish] at hh
                · exact absurd hh (fin _ _)
              · exact h
          · exact h
        | await x =>
          left
          simp only [W.step, W.await] at h
          split at h
          · refine other _ _ _ rfl (fun e hh => ?_) h
            rcases hh with hh | hh
            · simp at hh
            · subst e; exact Or.inr hh
          · exact h
        | drop x =>
          left
          simp only [W.step, W.drop] at h
          split at h
          all_goals first
            | exact h
            | (refine other _ _ _ (by rfl) (fun _ hh => ?_) h
               rcases hh with hh | hh
               · simp [Rq.finish] at hh
               · exact absurd hh (fin _ _))
        | recv => exact Or.inl h
        | tick => exact Or.inl h
        | reply x y =>
          simp only [W.step, W.reply] at h
          by_cases e : Op.reply x y = Op.reply t v
          · exact Or.inr e
          · left
            split at h
            · refine other _ _ _ rfl (fun e' hh => ?_) h
              rcases hh with hh | hh
              · subst e'; exact Or.inl hh
              · simp at hh; subst e' hh; exact absurd rfl e
            · exact h
        | dropReply x =>
          left
          simp only [W.step, W.dropReply] at h
          split at h
          · refine other _ _ _ rfl (fun e' hh => ?_) h
            rcases hh with hh | hh
            · subst e'; exact Or.inl hh
            · simp at hh
          · exact h
        | close =>
          left
          simp only [W.step, W.close] at h
          split at h
          · rcases h with h | h
            · exact Or.inl h
            · simp at h
          · exact h
    exact key (Or.inl h)
  · obtain ⟨h1, _⟩ := ((good cap ops).each t).okk v h
    obtain ⟨p, hp, e⟩ := List.mem_map.mp h1
    exact ⟨p, hp, e⟩

example : (((W.fresh (some 1)).run (lateDemo ++ [.poll 0])).rq 0).stage = .over (.ok 5) := by decide

end Verif.Timed
