import Verif.Remote.Links

/-!
# Remote tells from end to end, and the remaining outcomes of remote asks: C48
-/

namespace Verif.Remote

open Verif.Wire (RErr)
open Verif.Request (Out SendError)

variable {I : Type} [DecidableEq I]

/-! ## The model -/

/-- `remote_tell` up to the command it sends, `src/request/tell.rs` L380-395: the request, if the message can be
serialized. A tell has no time limit for a reply. -/
def tellRequest (f : Fns) (id : I) (a m : String) (msg : Nat) (mt : Option Nat) (imm : Bool) :
    Except (RErr Bytes) (Req I) :=
  match f.msg.enc msg with
  | .ok b => .ok ⟨id, a, m, b, mt, none, imm⟩
  | .error s => .error (.serializeMessage s)

/-- A remote tell from the message to its result: `RemoteTellRequest::send` and `try_send`, `src/request/tell.rs` L334-351,
L367-406, through the swarm to `remote::tell` on the node `n` of the actor and back (`src/remote/swarm.rs` L653-685,
L892-910, L962-993). Without peers the request is handled on the caller's node `own` (L663-674); a panic then drops the
sender of the answer and the caller panics (`src/request/tell.rs` L397). On another node a panic drops the response
channel, which the caller sees as a closed connection. -/
def remoteTell (own n : Node I) (peers : Nat) (f : Fns) (id : I) (a m : String) (msg : Nat) (mt : Option Nat)
    (imm : Bool) (net : Net) (loc : LocalReq → Out (Except (SendError Nat Empty) Unit)) :
    List LocalReq × Out (Except (RErr Bytes) Unit) :=
  match tellRequest f id a m msg mt imm with
  | .error e => ([], .val (.error e))
  | .ok r =>
    if peers = 0 then
      ((own.tell r loc).1,
        match (own.tell r loc).2 with
        | .val res => tellResponse (.tell res)
        | .panic => .panic)
    else
      match net with
      | .noRequest e => ([], tellResponse (.outboundFailure e))
      | .noResponse e => ((n.tell r loc).1, tellResponse (.outboundFailure e))
      | .both => ((n.tell r loc).1,
          match (n.tell r loc).2 with
          | .val res => tellResponse (.tell res)
          | .panic => tellResponse (.outboundFailure .connectionClosed))

/-! ## Theorems -/

/-- A local tell that works. -/
def takes (_ : LocalReq) : Out (Except (SendError Nat Empty) Unit) := .val (.ok ())

/-- **C48** (tell, end to end, the conditions hold). The message is told to the actor once, and the caller gets `Ok` or the
error the local tell had at the callee (up to which time limit passed). -/
theorem teller_gets_callee_result (own n : Node I) (hu : n.Unique) (hm : n.registry.Ok) (peers : Nat)
    (hp : peers ≠ 0) (f : Fns) (id : I) (a m : String) (msg : Nat) (mt : Option Nat) (imm : Bool)
    (loc : LocalReq → Out (Except (SendError Nat Empty) Unit)) (b : Bytes) (ref v : Nat)
    (henc : f.msg.enc msg = .ok b) (h : Ready n ⟨id, a, m, b, mt, none, imm⟩ f ref v) (q : LocalReq)
    (hq : q = tellOf ⟨id, a, m, b, mt, none, imm⟩ f ref v) :
    (loc q = .val (.ok ()) → remoteTell own n peers f id a m msg mt imm .both loc = ([q], .val (.ok ()))) ∧
    (∀ e, loc q = .val (.error e) → ∃ e' : RErr Empty, Reports e e' ∧
      remoteTell own n peers f id a m msg mt imm .both loc = ([q], .val (.error (e'.mapErr Empty.elim)))) ∧
    (loc q = .panic → remoteTell own n peers f id a m msg mt imm .both loc = ([q], .val (.error .connectionClosed))) := by
  subst hq
  have hrun := tell_runs_handler n hu hm _ loc f ref v h
  refine ⟨?_, ?_, ?_⟩
  · intro hl
    simp only [remoteTell, tellRequest, henc, if_neg hp, hrun, hl]
    rfl
  · intro e hl
    obtain ⟨e', h1, -, h3⟩ := tell_reports e
    refine ⟨e', h1, ?_⟩
    simp only [remoteTell, tellRequest, henc, if_neg hp, hrun, hl, Out.map, h3]
  · intro hl
    simp only [remoteTell, tellRequest, henc, if_neg hp, hrun, hl]
    rfl

example : remoteTell counterNode counterNode 1 inc 1 "Counter" "inc" 7 (some 3) false .both takes =
      ([⟨10, 4, 7, false, false, some 3, none⟩], .val (.ok ())) ∧
    (remoteTell counterNode counterNode 1 inc 1 "Counter" "inc" 7 none true .both
      (fun _ => .val (.error (.mailboxFull 7)))).2 = .val (.error .mailboxFull) ∧
    Ready counterNode ⟨1, "Counter", "inc", [7], some 3, none, false⟩ inc 10 7 := by
  refine ⟨rfl, rfl, ?_, ?_, rfl⟩
  · simp [Node.Knows, counterNode]
  · simp [counterNode, inc]

/-- **C48** (tell, end to end, a condition fails). The caller gets the error that names the condition, and nothing has
run. -/
theorem teller_told_which_failed (own n : Node I) (hu : n.Unique) (hm : n.registry.Ok) (peers : Nat)
    (hp : peers ≠ 0) (f : Fns) (id : I) (a m : String) (msg : Nat) (mt : Option Nat) (imm : Bool)
    (loc : LocalReq → Out (Except (SendError Nat Empty) Unit)) (b : Bytes) (henc : f.msg.enc msg = .ok b)
    (h : ¬ ∃ f ref v, Ready n ⟨id, a, m, b, mt, none, imm⟩ f ref v) :
    ∃ e, remoteTell own n peers f id a m msg mt imm .both loc = ([], .val (.error e)) ∧
      Blames n ⟨id, a, m, b, mt, none, imm⟩ e := by
  obtain ⟨e, he, hb⟩ := tell_runs_nothing n hu hm _ loc h
  refine ⟨e, ?_, hb⟩
  simp only [remoteTell, tellRequest, henc, if_neg hp, he, tellResponse]

example : remoteTell counterNode counterNode 1 inc 5 "Counter" "inc" 7 none false .both takes =
    ([], .val (.error .actorNotRunning)) ∧
    remoteTell counterNode counterNode 1 inc 2 "Counter" "inc" 7 none false .both takes =
    ([], .val (.error .badActorType)) := ⟨rfl, rfl⟩

/-- **C48** (a lost tell). If the response does not get back, the message has been told once all the same; the caller gets the
error of the network. If the request does not get there, nothing has run; the caller gets that error too, never `Ok`. -/
theorem tell_lost_on_the_way (own n : Node I) (hu : n.Unique) (hm : n.registry.Ok) (peers : Nat)
    (hp : peers ≠ 0) (f : Fns) (id : I) (a m : String) (msg : Nat) (mt : Option Nat) (imm : Bool)
    (loc : LocalReq → Out (Except (SendError Nat Empty) Unit)) (b : Bytes) (ref v : Nat) (e : RErr Empty)
    (henc : f.msg.enc msg = .ok b) (h : Ready n ⟨id, a, m, b, mt, none, imm⟩ f ref v) :
    remoteTell own n peers f id a m msg mt imm (.noResponse e) loc =
      ([tellOf ⟨id, a, m, b, mt, none, imm⟩ f ref v], .val (.error (e.mapErr Empty.elim))) ∧
    remoteTell own n peers f id a m msg mt imm (.noRequest e) loc = ([], .val (.error (e.mapErr Empty.elim))) := by
  have hrun := tell_runs_handler n hu hm _ loc f ref v h
  constructor <;> simp only [remoteTell, tellRequest, henc, if_neg hp, hrun, tellResponse]

example : remoteTell counterNode counterNode 1 inc 1 "Counter" "inc" 7 none false (.noResponse .dialFailure) takes =
      ([⟨10, 4, 7, false, false, none, none⟩], .val (.error .dialFailure)) ∧
    remoteTell counterNode counterNode 1 inc 1 "Counter" "inc" 7 none false (.noRequest .dialFailure) takes =
      ([], .val (.error .dialFailure)) := ⟨rfl, rfl⟩

/-- **C48** (a message that cannot be serialised) is sent to nobody, and the caller is told so, wherever the actor is and
whatever the network does. -/
theorem unserialisable_not_sent (own n : Node I) (peers : Nat) (f : Fns) (id : I) (a m : String) (msg : Nat)
    (mt rt : Option Nat) (imm : Bool) (net : Net) (loca : LocalReq → Out (Except (SendError Nat Nat) Nat))
    (loct : LocalReq → Out (Except (SendError Nat Empty) Unit)) (s : String) (h : f.msg.enc msg = .error s) :
    remoteAsk own n peers f id a m msg mt rt imm net loca = ([], .val (.error (.serializeMessage s))) ∧
    remoteTell own n peers f id a m msg mt imm net loct = ([], .val (.error (.serializeMessage s))) := by
  constructor
  · simp only [remoteAsk, askRequest, h]
  · simp only [remoteTell, tellRequest, h]

example : inc.msg.enc 300 = .error "too large" ∧
    remoteTell counterNode counterNode 1 inc 1 "Counter" "inc" 300 none false .both takes =
      ([], .val (.error (.serializeMessage "too large"))) := ⟨rfl, rfl⟩

/-- **C48** (a panic at the callee), while the local request is made, as that of a forwarded reply (C37) or of a message
registered twice: the caller on another node does not panic; it is told that the connection was closed. -/
theorem panic_at_callee_is_closed (own n : Node I) (peers : Nat) (hp : peers ≠ 0) (f : Fns) (id : I) (a m : String)
    (msg : Nat) (mt rt : Option Nat) (imm : Bool) (loc : LocalReq → Out (Except (SendError Nat Nat) Nat)) (b : Bytes)
    (henc : f.msg.enc msg = .ok b) (h : (n.ask ⟨id, a, m, b, mt, rt, imm⟩ loc).2 = .panic) :
    (remoteAsk own n peers f id a m msg mt rt imm .both loc).2 = .val (.error .connectionClosed) := by
  simp only [remoteAsk, askRequest, henc, if_neg hp, h]
  rfl

example : (counterNode.ask ⟨1, "Counter", "inc", [7], none, none, false⟩ (fun _ => .panic)).2 = .panic ∧
    (remoteAsk counterNode counterNode 1 inc 1 "Counter" "inc" 7 none none false .both (fun _ => .panic)).2 =
      .val (.error .connectionClosed) := ⟨rfl, rfl⟩

/-- **C48** (the actor is on the caller's node, which has no peers). The request is served by the node itself: the handler
runs once, and the caller gets its reply; likewise for a tell. -/
theorem served_alone (own n : Node I) (hu : own.Unique) (hm : own.registry.Ok) (f : Fns) (id : I) (a m : String)
    (msg : Nat) (mt rt : Option Nat) (imm : Bool) (net : Net) (loca : LocalReq → Out (Except (SendError Nat Nat) Nat))
    (loct : LocalReq → Out (Except (SendError Nat Empty) Unit)) (b : Bytes) (ref v : Nat)
    (henc : f.msg.enc msg = .ok b) (h : Ready own ⟨id, a, m, b, mt, rt, imm⟩ f ref v)
    (ht : Ready own ⟨id, a, m, b, mt, none, imm⟩ f ref v) (hok : f.ok.Faithful) :
    (∀ reply bytes, loca (askOf ⟨id, a, m, b, mt, rt, imm⟩ f ref v) = .val (.ok reply) → f.ok.enc reply = .ok bytes →
      remoteAsk own n 0 f id a m msg mt rt imm net loca =
        ([askOf ⟨id, a, m, b, mt, rt, imm⟩ f ref v], .val (.ok reply))) ∧
    (loct (tellOf ⟨id, a, m, b, mt, none, imm⟩ f ref v) = .val (.ok ()) →
      remoteTell own n 0 f id a m msg mt imm net loct = ([tellOf ⟨id, a, m, b, mt, none, imm⟩ f ref v], .val (.ok ()))) := by
  constructor
  · intro reply bytes hl hb
    simp only [remoteAsk, askRequest, henc, if_true, ask_runs_handler own hu hm _ loca f ref v h, hl, Out.map, askResult,
      hb, askResponse, hok _ _ hb]
  · intro hl
    simp only [remoteTell, tellRequest, henc, if_true, tell_runs_handler own hu hm _ loct f ref v ht, hl, Out.map,
      tellResult, tellResponse]

example : remoteAsk counterNode { counterNode with registry := [] } 0 inc 1 "Counter" "inc" 7 none none false .both addOne =
      ([⟨10, 4, 7, true, false, none, none⟩], .val (.ok 8)) ∧
    remoteTell counterNode { counterNode with registry := [] } 0 inc 1 "Counter" "inc" 7 none false .both takes =
      ([⟨10, 4, 7, false, false, none, none⟩], .val (.ok ())) := ⟨rfl, rfl⟩

/-- **C48** (duplicates). If a message type is registered twice on a node, or an actor type, no request is served there any
more: each panics the task that handles it and runs nothing. -/
theorem duplicates_serve_nothing (n : Node I) :
    (¬ n.Unique → ∀ r, (∀ loc, n.ask r loc = ([], .panic)) ∧ ∀ loc, n.tell r loc = ([], .panic)) ∧
    (¬ (n.actors.map (·.1)).Nodup → ∀ (R : Type) id rid sib srid (reason : R) sent,
      n.link id rid sib srid = (n, .panic) ∧ n.unlink id rid sib = (n, .panic) ∧
        n.signalLinkDied sib id rid reason sent = ([], .panic)) := by
  constructor
  · intro hu r
    have h : n.message r.actorRemoteId r.messageRemoteId = .panic := by
      unfold Node.Unique at hu; simp only [Node.message, hu, if_false]
    exact ⟨fun loc => by simp only [Node.ask, h], fun loc => by simp only [Node.tell, h]⟩
  · intro hu R id rid sib srid reason sent
    have h : n.actorFns rid = .panic := by simp only [Node.actorFns, hu, if_false]
    simp only [Node.link, Node.unlink, Node.signalLinkDied, h]
    exact ⟨trivial, trivial, trivial⟩

example : ¬ ({ counterNode with messages := (("Counter", "inc"), inc) :: counterNode.messages } : Node Nat).Unique ∧
    ¬ (([("A", 3), ("A", 4)] : List (String × Nat)).map (·.1)).Nodup := by
  unfold Node.Unique; decide

end Verif.Remote
