import Verif.Remote.Model

/-
Property theorems about remote requests: C48.
-/

namespace Verif.Remote

open Verif.Wire (RErr)
open Verif.Request (Out SendError)

variable {I : Type} [DecidableEq I]

/-! ## Specification -/

/-- No message is registered twice on the node. -/
def Node.Unique (n : Node I) : Prop := (n.messages.map (·.1)).Nodup

/-- The message with these remote ids is known as `f`. -/
def Node.Knows (n : Node I) (a m : String) (f : Fns) : Prop := ((a, m), f) ∈ n.messages

/-- All four conditions: the message is known (as `f`), the actor is registered (as `ref`), it is of the type the message
is for, and the payload decodes (to `v`). -/
structure Ready (n : Node I) (r : Req I) (f : Fns) (ref v : Nat) : Prop where
  known : n.Knows r.actorRemoteId r.messageRemoteId f
  registered : (r.actorId, ⟨ref, f.actorTy⟩) ∈ n.registry
  decodes : f.msg.dec r.payload = .ok v

/-- The error names the condition that fails. -/
inductive Blames (n : Node I) (r : Req I) {E : Type} : RErr E → Prop where
  | unknown : (∀ f, ¬ n.Knows r.actorRemoteId r.messageRemoteId f) →
    Blames n r (.unknownMessage r.actorRemoteId r.messageRemoteId)
  | notRunning {f : Fns} : n.Knows r.actorRemoteId r.messageRemoteId f → (∀ e, (r.actorId, e) ∉ n.registry) →
    Blames n r .actorNotRunning
  | badType {f : Fns} {e : Entry} : n.Knows r.actorRemoteId r.messageRemoteId f → (r.actorId, e) ∈ n.registry →
    e.ty ≠ f.actorTy → Blames n r .badActorType
  | badPayload {f : Fns} {ref : Nat} {s : String} : n.Knows r.actorRemoteId r.messageRemoteId f →
    (r.actorId, ⟨ref, f.actorTy⟩) ∈ n.registry → f.msg.dec r.payload = .error s → Blames n r (.deserializeMessage s)

/-- The local request a remote ask is to make. -/
def askOf (r : Req I) (f : Fns) (ref v : Nat) : LocalReq :=
  ⟨ref, f.msgTy, v, true, r.immediate, if r.immediate then none else r.mailboxTimeout, r.replyTimeout⟩

/-- The local request a remote tell is to make. -/
def tellOf (r : Req I) (f : Fns) (ref v : Nat) : LocalReq :=
  ⟨ref, f.msgTy, v, false, r.immediate, if r.immediate then none else r.mailboxTimeout, none⟩

/-- The remote error says what the local error says, except that it does not tell which time limit passed. -/
inductive Reports {M E : Type} : SendError M E → RErr E → Prop where
  | notRunning (m : M) : Reports (.actorNotRunning m) .actorNotRunning
  | stopped : Reports .actorStopped .actorStopped
  | full (m : M) : Reports (.mailboxFull m) .mailboxFull
  | handler (e : E) : Reports (.handlerError e) (.handlerError e)
  | timeout (m : Option M) : Reports (.timeout m) .replyTimeout

/-- What a value is serialized as deserializes to the value. -/
def Codec.Faithful (c : Codec) : Prop := ∀ v b, c.enc v = .ok b → c.dec b = .ok v

/-! ## Helper lemmas -/

theorem lookup_some {K V : Type} [DecidableEq K] {l : List (K × V)} (hn : (l.map (·.1)).Nodup) (k : K) (v : V) :
    lookup l k = some v ↔ (k, v) ∈ l := by
  induction l with
  | nil => simp [lookup]
  | cons p l ih =>
    obtain ⟨k', v'⟩ := p
    simp only [List.map_cons, List.nodup_cons] at hn
    by_cases h : k' = k
    · subst h
      simp only [lookup, List.find?_cons, decide_true, Option.map_some, Option.some.injEq, List.mem_cons,
        Prod.mk.injEq, true_and]
      constructor
      · intro h; exact .inl h.symm
      · rintro (h | h)
        · exact h.symm
        · exact absurd (List.mem_map_of_mem h) hn.1
    · have hd : decide (k' = k) = false := by simp [h]
      have : lookup ((k', v') :: l) k = lookup l k := by simp [lookup, List.find?_cons, hd]
      rw [this, ih hn.2]
      simp only [List.mem_cons, Prod.mk.injEq]
      constructor
      · intro h'; exact .inr h'
      · rintro (h' | h')
        · exact absurd h'.1.symm h
        · exact h'

theorem lookup_none {K V : Type} [DecidableEq K] {l : List (K × V)} (k : K) (h : lookup l k = none) (v : V) :
    (k, v) ∉ l := by
  intro hm
  simp only [lookup, Option.map_eq_none_iff, List.find?_eq_none] at h
  exact h _ hm (by simp)

theorem message_eq {n : Node I} (hu : n.Unique) (a m : String) : n.message a m = .val (lookup n.messages (a, m)) := by
  unfold Node.Unique at hu
  simp only [Node.message, hu, if_true]

/-- The actor reference that is found. -/
theorem actorRef_spec (n : Node I) (hm : n.registry.Ok) (id : I) (ty : Nat) :
    (∀ ref, n.actorRef id ty = .ok ref ↔ (id, ⟨ref, ty⟩) ∈ n.registry) ∧
    (∀ e, n.actorRef id ty = .error e → (e = .actorNotRunning ∧ ∀ x, (id, x) ∉ n.registry) ∨
      (e = .badActorType ∧ ∃ x, (id, x) ∈ n.registry ∧ x.ty ≠ ty)) := by
  cases hf : n.registry.find id with
  | none =>
    have hno : ∀ x, (id, x) ∉ n.registry := by
      intro x hx
      rw [Map.find_of_mem hm hx] at hf
      cases hf
    constructor
    · intro ref
      simp only [Node.actorRef, hf]
      constructor
      · intro h; cases h
      · intro h; exact absurd h (hno _)
    · intro e he
      simp only [Node.actorRef, hf] at he
      cases he
      exact .inl ⟨rfl, hno⟩
  | some x =>
    have hx := Map.mem_of_find hf
    by_cases ht : x.ty = ty
    · constructor
      · intro ref
        simp only [Node.actorRef, hf, if_pos ht]
        constructor
        · intro h; cases h; subst ht; exact hx
        · intro h
          rw [Map.find_of_mem hm h] at hf
          cases hf
          rfl
      · intro e he
        simp only [Node.actorRef, hf, if_pos ht] at he
        cases he
    · constructor
      · intro ref
        simp only [Node.actorRef, hf, if_neg ht]
        constructor
        · intro h; cases h
        · intro h
          rw [Map.find_of_mem hm h] at hf
          cases hf
          exact absurd rfl ht
      · intro e he
        simp only [Node.actorRef, hf, if_neg ht] at he
        cases he
        exact .inr ⟨rfl, x, hx, ht⟩

/-! ## A node for the concrete cases -/

/-- One byte per value below 256; the byte 255 stands for no value. -/
def byte : Codec where
  enc v := if v < 255 then .ok [Fin.ofNat 256 v] else .error "too large"
  dec b := match b with
    | [x] => if x.val = 255 then .error "invalid" else .ok x.val
    | _ => .error "length"

def inc : Fns := { actorTy := 3, msgTy := 4, msg := byte, ok := byte, err := byte }

/-- A node with a counter actor `10`, known under id 1. -/
def counterNode : Node Nat :=
  { messages := [(("Counter", "dec"), { inc with msgTy := 5 }), (("Counter", "inc"), inc)]
    registry := [(1, ⟨10, 3⟩), (2, ⟨11, 8⟩)] }

def incReq (id : Nat) (b : Bytes) : Req Nat := ⟨id, "Counter", "inc", b, none, some 5, false⟩

theorem byte_faithful : byte.Faithful := by
  intro v b h
  simp only [byte] at h ⊢
  split at h
  · rename_i hv
    cases h
    have h1 : (Fin.ofNat 256 v).val = v := by
      simp only [Fin.ofNat]
      omega
    dsimp only
    rw [h1, if_neg (by omega)]
  · cases h

theorem counter_unique : counterNode.Unique := by
  unfold Node.Unique; decide

theorem counter_ok : counterNode.registry.Ok := by
  unfold Map.Ok; decide

/-- All four conditions hold. -/
theorem counter_ready : Ready counterNode (incReq 1 [7]) inc 10 7 := by
  refine ⟨?_, ?_, rfl⟩
  · simp [Node.Knows, counterNode, incReq]
  · simp [counterNode, incReq, inc]

/-- Nobody is registered under id 5. -/
theorem counter_not_ready : ¬ ∃ f ref v, Ready counterNode (incReq 5 [7]) f ref v := by
  rintro ⟨f, ref, v, h⟩
  have := h.registered
  simp [counterNode, incReq] at this

/-- The handler adds one. -/
def addOne (q : LocalReq) : Out (Except (SendError Nat Nat) Nat) := .val (.ok (q.msg + 1))

/-! ## C48 -/

/-- **C48** (callee, ask). If the message is known, the actor registered, of the right type, and the payload decodes,
then exactly one local ask is made, of that actor, with that message and the time limits of the request; the result
is that of this ask. -/
theorem ask_runs_handler (n : Node I) (hu : n.Unique) (hm : n.registry.Ok) (r : Req I)
    (loc : LocalReq → Out (Except (SendError Nat Nat) Nat)) (f : Fns) (ref v : Nat) (h : Ready n r f ref v) :
    n.ask r loc = ([askOf r f ref v], (loc (askOf r f ref v)).map (askResult f)) := by
  have h1 : n.message r.actorRemoteId r.messageRemoteId = .val (some f) := by
    rw [message_eq hu, (lookup_some hu _ _).mpr h.known]
  have h2 := ((actorRef_spec n hm r.actorId f.actorTy).1 ref).mpr h.registered
  simp only [Node.ask, h1, Node.internalAsk, h2, h.decodes]
  rfl

/-- Message 7 for the counter: one local ask of actor 10, and its result. -/
example : counterNode.Unique ∧ counterNode.registry.Ok ∧ Ready counterNode (incReq 1 [7]) inc 10 7 :=
  ⟨counter_unique, counter_ok, counter_ready⟩

example : (counterNode.ask (incReq 1 [7]) addOne).1 = [⟨10, 4, 7, true, false, none, some 5⟩] ∧
    (counterNode.ask (incReq 1 [7]) addOne).2 = .val (.ok [8]) := ⟨by decide, rfl⟩

/-- **C48** (callee, ask). Otherwise nothing runs, and the error names the condition that fails. -/
theorem ask_runs_nothing (n : Node I) (hu : n.Unique) (hm : n.registry.Ok) (r : Req I)
    (loc : LocalReq → Out (Except (SendError Nat Nat) Nat)) (h : ¬ ∃ f ref v, Ready n r f ref v) :
    ∃ e, n.ask r loc = ([], .val (.error e)) ∧ Blames n r e := by
  cases hl : lookup n.messages (r.actorRemoteId, r.messageRemoteId) with
  | none =>
    have h1 : n.message r.actorRemoteId r.messageRemoteId = .val none := by
      rw [message_eq hu, hl]
    refine ⟨_, ?_, .unknown (fun f => lookup_none _ hl f)⟩
    simp only [Node.ask, h1]
  | some f =>
    have hk : n.Knows r.actorRemoteId r.messageRemoteId f := (lookup_some hu _ _).mp hl
    have h1 : n.message r.actorRemoteId r.messageRemoteId = .val (some f) := by
      rw [message_eq hu, hl]
    cases ha : n.actorRef r.actorId f.actorTy with
    | error e =>
      refine ⟨e, by simp only [Node.ask, h1, Node.internalAsk, ha], ?_⟩
      rcases (actorRef_spec n hm r.actorId f.actorTy).2 e ha with ⟨rfl, hno⟩ | ⟨rfl, x, hx, ht⟩
      · exact .notRunning hk hno
      · exact .badType hk hx ht
    | ok ref =>
      have hr := ((actorRef_spec n hm r.actorId f.actorTy).1 ref).mp ha
      cases hd : f.msg.dec r.payload with
      | error s =>
        refine ⟨.deserializeMessage s, ?_, .badPayload hk hr hd⟩
        simp only [Node.ask, h1, Node.internalAsk, ha, hd]
      | ok v => exact absurd ⟨f, ref, v, hk, hr, hd⟩ h

/-- Each condition fails in turn: nothing runs. -/
example : (counterNode.ask (incReq 5 [7]) addOne) = ([], .val (.error .actorNotRunning)) ∧
    (counterNode.ask (incReq 2 [7]) addOne) = ([], .val (.error .badActorType)) ∧
    (counterNode.ask (incReq 1 [7, 7]) addOne) = ([], .val (.error (.deserializeMessage "length"))) ∧
    (counterNode.ask { incReq 1 [7] with messageRemoteId := "add" } addOne) =
      ([], .val (.error (.unknownMessage "Counter" "add"))) := ⟨rfl, rfl, rfl, rfl⟩

example : ∃ e, counterNode.ask (incReq 5 [7]) addOne = ([], .val (.error e)) ∧ Blames counterNode (incReq 5 [7]) e :=
  ask_runs_nothing counterNode counter_unique counter_ok (incReq 5 [7]) addOne counter_not_ready

/-- **C48** (callee, ask, as an equivalence). Some local request is made iff the four conditions hold. -/
theorem ask_runs_iff (n : Node I) (hu : n.Unique) (hm : n.registry.Ok) (r : Req I)
    (loc : LocalReq → Out (Except (SendError Nat Nat) Nat)) :
    (n.ask r loc).1 ≠ [] ↔ ∃ f ref v, Ready n r f ref v := by
  constructor
  · intro h
    apply Classical.byContradiction
    intro hn
    obtain ⟨e, he, _⟩ := ask_runs_nothing n hu hm r loc hn
    exact h (by rw [he])
  · rintro ⟨f, ref, v, h⟩
    rw [ask_runs_handler n hu hm r loc f ref v h]
    simp

/-- Both sides hold, and both sides fail. -/
example : (counterNode.ask (incReq 1 [7]) addOne).1 ≠ [] ∧ (counterNode.ask (incReq 5 [7]) addOne).1 = [] := by decide

/-- **C48** (callee, tell). The same for a tell. -/
theorem tell_runs_handler (n : Node I) (hu : n.Unique) (hm : n.registry.Ok) (r : Req I)
    (loc : LocalReq → Out (Except (SendError Nat Empty) Unit)) (f : Fns) (ref v : Nat) (h : Ready n r f ref v) :
    n.tell r loc = ([tellOf r f ref v], (loc (tellOf r f ref v)).map tellResult) := by
  have h1 : n.message r.actorRemoteId r.messageRemoteId = .val (some f) := by
    rw [message_eq hu, (lookup_some hu _ _).mpr h.known]
  have h2 := ((actorRef_spec n hm r.actorId f.actorTy).1 ref).mpr h.registered
  simp only [Node.tell, h1, Node.internalTell, h2, h.decodes]
  rfl

example : (counterNode.tell (incReq 1 [7]) (fun _ => .val (.ok ()))).1 = [⟨10, 4, 7, false, false, none, none⟩] ∧
    Ready counterNode (incReq 1 [7]) inc 10 7 := ⟨by decide, counter_ready⟩

/-- **C48** (callee, tell). -/
theorem tell_runs_nothing (n : Node I) (hu : n.Unique) (hm : n.registry.Ok) (r : Req I)
    (loc : LocalReq → Out (Except (SendError Nat Empty) Unit)) (h : ¬ ∃ f ref v, Ready n r f ref v) :
    ∃ e, n.tell r loc = ([], .val (.error e)) ∧ Blames n r e := by
  cases hl : lookup n.messages (r.actorRemoteId, r.messageRemoteId) with
  | none =>
    have h1 : n.message r.actorRemoteId r.messageRemoteId = .val none := by
      rw [message_eq hu, hl]
    refine ⟨_, ?_, .unknown (fun f => lookup_none _ hl f)⟩
    simp only [Node.tell, h1]
  | some f =>
    have hk : n.Knows r.actorRemoteId r.messageRemoteId f := (lookup_some hu _ _).mp hl
    have h1 : n.message r.actorRemoteId r.messageRemoteId = .val (some f) := by
      rw [message_eq hu, hl]
    cases ha : n.actorRef r.actorId f.actorTy with
    | error e =>
      refine ⟨e, by simp only [Node.tell, h1, Node.internalTell, ha], ?_⟩
      rcases (actorRef_spec n hm r.actorId f.actorTy).2 e ha with ⟨rfl, hno⟩ | ⟨rfl, x, hx, ht⟩
      · exact .notRunning hk hno
      · exact .badType hk hx ht
    | ok ref =>
      have hr := ((actorRef_spec n hm r.actorId f.actorTy).1 ref).mp ha
      cases hd : f.msg.dec r.payload with
      | error s =>
        refine ⟨.deserializeMessage s, ?_, .badPayload hk hr hd⟩
        simp only [Node.tell, h1, Node.internalTell, ha, hd]
      | ok v => exact absurd ⟨f, ref, v, hk, hr, hd⟩ h

example : counterNode.tell (incReq 5 [7]) (fun _ => .val (.ok ())) = ([], .val (.error .actorNotRunning)) ∧
    ¬ ∃ f ref v, Ready counterNode (incReq 5 [7]) f ref v := ⟨rfl, counter_not_ready⟩

/-- **C48** (tell, the error). The error of a failed local tell is reported, and reaches the caller as it is. -/
theorem tell_reports (e : SendError Nat Empty) :
    ∃ e' : RErr Empty, Reports e e' ∧ tellResult (.error e) = .error (e'.mapErr Empty.elim) ∧
      tellResponse (.tell (tellResult (.error e))) = .val (.error (e'.mapErr Empty.elim)) := by
  cases e with
  | handlerError x => exact x.elim
  | actorNotRunning m => exact ⟨_, .notRunning m, rfl, rfl⟩
  | actorStopped => exact ⟨_, .stopped, rfl, rfl⟩
  | mailboxFull m => exact ⟨_, .full m, rfl, rfl⟩
  | timeout m => exact ⟨_, .timeout m, rfl, rfl⟩

/-- A full mailbox, at the end of the caller. -/
example : tellResponse (.tell (tellResult (.error (.mailboxFull 7)))) = .val (.error .mailboxFull) := rfl

/-- A message type registered twice: no request is served any more; each panics the task that handles it. -/
theorem duplicate_message_panics (n : Node I) (hu : ¬ n.Unique) (r : Req I)
    (loc : LocalReq → Out (Except (SendError Nat Nat) Nat)) : n.ask r loc = ([], .panic) := by
  have : n.message r.actorRemoteId r.messageRemoteId = .panic := by
    unfold Node.Unique at hu; simp only [Node.message, hu, if_false]
  simp only [Node.ask, this]

/-- The message `inc` registered twice. -/
example : ¬ ({ counterNode with messages := (("Counter", "inc"), inc) :: counterNode.messages } : Node Nat).Unique := by
  unfold Node.Unique; decide

/-! ### End to end -/

/-- **C48** (end to end, the conditions hold). The caller gets the reply the handler gave, or the error the local ask had
at the callee (up to which time limit passed). Replies and handler errors are assumed to survive serialization. -/
theorem caller_gets_callee_result_partial (own n : Node I) (hu : n.Unique) (hm : n.registry.Ok) (peers : Nat)
    (hp : peers ≠ 0) (f : Fns) (id : I) (a m : String) (msg : Nat) (mt rt : Option Nat) (imm : Bool)
    (loc : LocalReq → Out (Except (SendError Nat Nat) Nat)) (b : Bytes) (ref v : Nat)
    (henc : f.msg.enc msg = .ok b) (h : Ready n ⟨id, a, m, b, mt, rt, imm⟩ f ref v)
    (hok : f.ok.Faithful) (herr : f.err.Faithful) (q : LocalReq) (hq : q = askOf ⟨id, a, m, b, mt, rt, imm⟩ f ref v) :
    (∀ reply bytes, loc q = .val (.ok reply) → f.ok.enc reply = .ok bytes →
      remoteAsk own n peers f id a m msg mt rt imm .both loc = ([q], .val (.ok reply))) ∧
    (∀ e, loc q = .val (.error e) → (∀ x, e = .handlerError x → ∃ bytes, f.err.enc x = .ok bytes) →
      ∃ e', Reports e e' ∧ remoteAsk own n peers f id a m msg mt rt imm .both loc = ([q], .val (.error e'))) := by
  subst hq
  have hrun := ask_runs_handler n hu hm _ loc f ref v h
  constructor
  · intro reply bytes hl hb
    simp only [remoteAsk, askRequest, henc, if_neg hp, hrun, hl, Out.map, askResult, hb, afterTask, askResponse,
      hok _ _ hb]
  · intro e hl he
    cases e with
    | actorNotRunning x =>
      refine ⟨_, .notRunning x, ?_⟩
      simp only [remoteAsk, askRequest, henc, if_neg hp, hrun, hl]
      rfl
    | actorStopped =>
      refine ⟨_, .stopped, ?_⟩
      simp only [remoteAsk, askRequest, henc, if_neg hp, hrun, hl]
      rfl
    | mailboxFull x =>
      refine ⟨_, .full x, ?_⟩
      simp only [remoteAsk, askRequest, henc, if_neg hp, hrun, hl]
      rfl
    | timeout x =>
      refine ⟨_, .timeout x, ?_⟩
      simp only [remoteAsk, askRequest, henc, if_neg hp, hrun, hl]
      rfl
    | handlerError x =>
      obtain ⟨bytes, hb⟩ := he x rfl
      refine ⟨_, .handler x, ?_⟩
      simp only [remoteAsk, askRequest, henc, if_neg hp, hrun, hl, Out.map, askResult, RErr.ofSend, RErr.mapErr, hb,
        RErr.flatten, afterTask, askResponse, herr _ _ hb]

/-- The hypotheses are met by a caller that asks the counter with 7; it gets 8, or the handler's error. -/
example : inc.msg.enc 7 = .ok [7] ∧ Ready counterNode ⟨1, "Counter", "inc", [7], none, some 5, false⟩ inc 10 7 ∧
    inc.ok.Faithful ∧ inc.err.Faithful ∧ inc.ok.enc 8 = .ok [8] :=
  ⟨rfl, counter_ready, byte_faithful, byte_faithful, rfl⟩

example : remoteAsk counterNode counterNode 1 inc 1 "Counter" "inc" 7 none (some 5) false .both addOne =
      ([⟨10, 4, 7, true, false, none, some 5⟩], .val (.ok 8)) ∧
    (remoteAsk counterNode counterNode 1 inc 1 "Counter" "inc" 7 none (some 5) false .both
      (fun _ => .val (.error (.handlerError 3)))).2 = .val (.error (.handlerError 3)) := ⟨rfl, rfl⟩

theorem Blames.carry {n : Node I} {r : Req I} {E F : Type} {e : RErr E} (g : E → RErr F) (h : Blames n r e) :
    Blames n r (RErr.flatten (e.mapErr g)) := by
  cases h with
  | unknown h => exact .unknown h
  | notRunning h1 h2 => exact .notRunning h1 h2
  | badType h1 h2 h3 => exact .badType h1 h2 h3
  | badPayload h1 h2 h3 => exact .badPayload h1 h2 h3

/-- **C48** (end to end, a condition fails). The caller gets the error that names the condition, and nothing has run. -/
theorem caller_told_which_failed (own n : Node I) (hu : n.Unique) (hm : n.registry.Ok) (peers : Nat)
    (hp : peers ≠ 0) (f : Fns) (id : I) (a m : String) (msg : Nat) (mt rt : Option Nat) (imm : Bool)
    (loc : LocalReq → Out (Except (SendError Nat Nat) Nat)) (b : Bytes) (henc : f.msg.enc msg = .ok b)
    (h : ¬ ∃ f ref v, Ready n ⟨id, a, m, b, mt, rt, imm⟩ f ref v) :
    ∃ e, remoteAsk own n peers f id a m msg mt rt imm .both loc = ([], .val (.error e)) ∧
      Blames n ⟨id, a, m, b, mt, rt, imm⟩ e := by
  obtain ⟨e, he, hb⟩ := ask_runs_nothing n hu hm _ loc h
  refine ⟨_, ?_, hb.carry (fun b => match f.err.dec b with
      | .ok v => RErr.handlerError v
      | .error s => RErr.deserializeHandlerError s)⟩
  simp only [remoteAsk, askRequest, henc, if_neg hp, he, afterTask, askResponse]
  rfl

example : remoteAsk counterNode counterNode 1 inc 5 "Counter" "inc" 7 none (some 5) false .both addOne =
    ([], .val (.error .actorNotRunning)) ∧
    ¬ ∃ f ref v, Ready counterNode ⟨5, "Counter", "inc", [7], none, some 5, false⟩ f ref v :=
  ⟨rfl, counter_not_ready⟩

/-- **C48** (negation). The caller cannot tell a mailbox timeout at the callee, after which the handler never runs, from a
reply timeout, after which it runs: both are `ReplyTimeout`. -/
theorem timeouts_conflated (own n : Node I) (hu : n.Unique) (hm : n.registry.Ok) (peers : Nat)
    (hp : peers ≠ 0) (f : Fns) (id : I) (a m : String) (msg : Nat) (mt rt : Option Nat) (imm : Bool)
    (loc : LocalReq → Out (Except (SendError Nat Nat) Nat)) (b : Bytes) (ref v : Nat)
    (henc : f.msg.enc msg = .ok b) (h : Ready n ⟨id, a, m, b, mt, rt, imm⟩ f ref v) (x : Option Nat)
    (hl : loc (askOf ⟨id, a, m, b, mt, rt, imm⟩ f ref v) = .val (.error (.timeout x))) :
    (remoteAsk own n peers f id a m msg mt rt imm .both loc).2 = .val (.error .replyTimeout) := by
  have hrun := ask_runs_handler n hu hm _ loc f ref v h
  simp only [remoteAsk, askRequest, henc, if_neg hp, hrun, hl]
  rfl

/-- The message handed back (it was never in the mailbox), and the message kept (it was): the caller sees no difference. -/
example : (remoteAsk counterNode counterNode 1 inc 1 "Counter" "inc" 7 none (some 5) false .both
      (fun _ => .val (.error (.timeout (some 7))))).2 = .val (.error .replyTimeout) ∧
    (remoteAsk counterNode counterNode 1 inc 1 "Counter" "inc" 7 none (some 5) false .both
      (fun _ => .val (.error (.timeout none)))).2 = .val (.error .replyTimeout) := ⟨rfl, rfl⟩

/-- **C48** (negation). A caller that cannot decode the reply is told `DeserializeMessage`, the error of a callee that
could not decode the message: here the handler has run, there it has not. -/
theorem reply_decode_error_blames_message (own n : Node I) (hu : n.Unique) (hm : n.registry.Ok) (peers : Nat)
    (hp : peers ≠ 0) (f : Fns) (id : I) (a m : String) (msg : Nat) (mt rt : Option Nat) (imm : Bool)
    (loc : LocalReq → Out (Except (SendError Nat Nat) Nat)) (b : Bytes) (ref v : Nat)
    (henc : f.msg.enc msg = .ok b) (h : Ready n ⟨id, a, m, b, mt, rt, imm⟩ f ref v) (reply : Nat) (bytes : Bytes)
    (s : String) (hl : loc (askOf ⟨id, a, m, b, mt, rt, imm⟩ f ref v) = .val (.ok reply))
    (hb : f.ok.enc reply = .ok bytes) (hd : f.ok.dec bytes = .error s) :
    remoteAsk own n peers f id a m msg mt rt imm .both loc =
      ([askOf ⟨id, a, m, b, mt, rt, imm⟩ f ref v], .val (.error (.deserializeMessage s))) := by
  have hrun := ask_runs_handler n hu hm _ loc f ref v h
  simp only [remoteAsk, askRequest, henc, if_neg hp, hrun, hl, Out.map, askResult, hb, afterTask, askResponse, hd]

/-- The counter's replies are all encoded as the byte 255, which the caller cannot decode. -/
example :
    let bad : Fns := { inc with ok := { byte with enc := fun _ => .ok [255] } }
    let n : Node Nat := { counterNode with messages := [(("Counter", "inc"), bad)] }
    n.Unique ∧ Ready n ⟨1, "Counter", "inc", [7], none, none, false⟩ bad 10 7 ∧ bad.ok.enc 8 = .ok [255] ∧
    bad.ok.dec [255] = .error "invalid" ∧
    remoteAsk n n 1 bad 1 "Counter" "inc" 7 none none false .both addOne =
      ([⟨10, 4, 7, true, false, none, none⟩], .val (.error (.deserializeMessage "invalid"))) := by
  refine ⟨by unfold Node.Unique; decide, ⟨?_, ?_, rfl⟩, rfl, rfl, rfl⟩
  · simp [Node.Knows]
  · simp [counterNode, inc]

/-- **C48** (negation). On a node without peers a request for an actor of another node is not sent: the caller is told
`ActorNotRunning` by its own node, though the actor is registered where its id says and would answer. -/
theorem no_peers_misreported (own n : Node I) (hu : own.Unique) (hm : own.registry.Ok) (f : Fns) (id : I)
    (a m : String) (msg : Nat) (mt rt : Option Nat) (imm : Bool) (net : Net)
    (loc : LocalReq → Out (Except (SendError Nat Nat) Nat)) (b : Bytes)
    (henc : f.msg.enc msg = .ok b) (hk : own.Knows a m f) (hreg : ∀ e, (id, e) ∉ own.registry) :
    remoteAsk own n 0 f id a m msg mt rt imm net loc = ([], .val (.error .actorNotRunning)) := by
  have h1 : own.message a m = .val (some f) := by
    rw [message_eq hu, (lookup_some hu _ _).mpr hk]
  have h2 : own.actorRef id f.actorTy = .error .actorNotRunning := by
    cases hx : own.registry.find id with
    | none => simp only [Node.actorRef, hx]
    | some e => exact absurd (Map.mem_of_find hx) (hreg e)
  simp only [remoteAsk, askRequest, henc, Node.ask, h1, Node.internalAsk, h2, if_pos]
  rfl

/-- The caller's node knows the message and has no actor 1; the callee's node has one. -/
example :
    let own : Node Nat := { counterNode with registry := [] }
    own.Unique ∧ own.registry.Ok ∧ own.Knows "Counter" "inc" inc ∧ (∀ e, (1, e) ∉ own.registry) ∧
    Ready counterNode (incReq 1 [7]) inc 10 7 ∧
    remoteAsk own counterNode 0 inc 1 "Counter" "inc" 7 none none false .both addOne =
      ([], .val (.error .actorNotRunning)) := by
  refine ⟨counter_unique, by unfold Map.Ok; decide, ?_, by simp, counter_ready, rfl⟩
  simp [Node.Knows, counterNode]

/-- **C48** (a lost response). If the response does not get back, the handler has run once all the same; the caller gets
the error of the network. If the request does not get there, nothing has run. -/
theorem lost_on_the_way (own n : Node I) (hu : n.Unique) (hm : n.registry.Ok) (peers : Nat)
    (hp : peers ≠ 0) (f : Fns) (id : I) (a m : String) (msg : Nat) (mt rt : Option Nat) (imm : Bool)
    (loc : LocalReq → Out (Except (SendError Nat Nat) Nat)) (b : Bytes) (ref v : Nat) (e : RErr Empty)
    (henc : f.msg.enc msg = .ok b) (h : Ready n ⟨id, a, m, b, mt, rt, imm⟩ f ref v) :
    remoteAsk own n peers f id a m msg mt rt imm (.noResponse e) loc =
      ([askOf ⟨id, a, m, b, mt, rt, imm⟩ f ref v], .val (.error (e.mapErr Empty.elim))) ∧
    remoteAsk own n peers f id a m msg mt rt imm (.noRequest e) loc = ([], .val (.error (e.mapErr Empty.elim))) := by
  have hrun := ask_runs_handler n hu hm _ loc f ref v h
  constructor <;> simp only [remoteAsk, askRequest, henc, if_neg hp, hrun, askResponse]

example : remoteAsk counterNode counterNode 1 inc 1 "Counter" "inc" 7 none none false (.noResponse .dialFailure) addOne =
      ([⟨10, 4, 7, true, false, none, none⟩], .val (.error .dialFailure)) ∧
    remoteAsk counterNode counterNode 1 inc 1 "Counter" "inc" 7 none none false (.noRequest .dialFailure) addOne =
      ([], .val (.error .dialFailure)) := ⟨rfl, rfl⟩

end Verif.Remote
