import Verif.Map
import Verif.Wire.Model

/-
Model of remote requests: the dispatch of a request that arrives at a node (`src/remote.rs` L150-237,
`src/remote/_internal.rs`), the caller's side of it (`src/request/ask.rs` L784-833, `src/request/tell.rs` L367-407),
and links between actors on different nodes (`src/actor/actor_ref.rs` L588-618, L707-725, L1135-1202).

Rust types of actors and messages are numbers (their `TypeId`). A local request (`ActorRef::ask`, `ActorRef::tell`,
modelled in Verif.Lifecycle and Verif.Request) is one call with one result: the model records which local requests
are made, and takes their results from an oracle. Ids are an arbitrary type `I` with the equality of `ActorID`
(C35: it does not change once the node has been bootstrapped).
-/

namespace Verif.Remote

open Verif.ActorId (Byte)
open Verif.Wire (RErr)
open Verif.Request (Out SendError)

/-- `Vec<u8>`, `src/remote/_internal.rs` L83-90. -/
abbrev Bytes := List Byte

/-- A value of a type serialized by `rmp_serde`, of which nothing is assumed here. Values are
numbers; an error is the text of the error. Called at `src/request/ask.rs` L809-810, L819-824 and
`src/remote/_internal.rs` L105-122. -/
structure Codec where
  enc : Nat → Except String Bytes
  dec : Bytes → Except String Nat

/-- What the `remote_message` macro registers for `impl Message<M> for A` (`macros/src/remote_message.rs` L56-120; the
functions of `RemoteMessageFns`, `src/remote/_internal.rs` L29-35, instantiated with `A` and `M`). -/
structure Fns where
  /-- `A` -/
  actorTy : Nat
  /-- `M` -/
  msgTy : Nat
  msg : Codec
  ok : Codec
  err : Codec

/-- What `REMOTE_REGISTRY` (`src/remote.rs` L76-83) holds for an id: a reference to an actor, and the actor type of the
reference. `ref` stands for the actor: its mailbox and its links. -/
structure Entry where
  ref : Nat
  ty : Nat
  deriving DecidableEq, Repr

/-- A node: `REMOTE_MESSAGES` and `REMOTE_ACTORS` (`src/remote/_internal.rs` L16-20) as filled in at link time,
`REMOTE_REGISTRY`, the links of its actors (`Links`, `src/actor.rs`, as far as they name remote actors, with the remote
id of the linked actor's type), and whether a swarm has been bootstrapped. -/
structure Node (I : Type) where
  messages : List ((String × String) × Fns) := []
  /-- remote id of an actor type, and the type. -/
  actors : List (String × Nat) := []
  registry : Map I Entry := []
  links : Nat → Map I String := fun _ => []
  bootstrapped : Bool := true

variable {I : Type} [DecidableEq I]

/-- The first entry of a slice for a key. `REMOTE_ACTORS_MAP` and `REMOTE_MESSAGES_MAP`,
`src/remote.rs` L85-107, are built from the slices; a duplicate key is refused there, so first and
only are the same. -/
def lookup {K V : Type} [DecidableEq K] (l : List (K × V)) (k : K) : Option V :=
  (l.find? (fun p => p.1 = k)).map (·.2)

/-- `REMOTE_MESSAGES_MAP.get`, `src/remote.rs` L95-107: building the map panics if an id is there twice. -/
def Node.message (n : Node I) (a m : String) : Out (Option Fns) :=
  if (n.messages.map (·.1)).Nodup then .val (lookup n.messages (a, m)) else .panic

/-- `REMOTE_ACTORS_MAP.get`, `src/remote.rs` L85-93: likewise. -/
def Node.actorFns (n : Node I) (a : String) : Out (Option Nat) :=
  if (n.actors.map (·.1)).Nodup then .val (lookup n.actors a) else .panic

/-- A local request made while a remote request is handled: `ActorRef::ask` or `tell` followed by
`send` or `try_send`. `src/remote/_internal.rs` L83-222. -/
structure LocalReq where
  ref : Nat
  msgTy : Nat
  msg : Nat
  isAsk : Bool
  /-- `try_send` -/
  immediate : Bool
  mailboxTimeout : Option Nat
  replyTimeout : Option Nat
  deriving DecidableEq, Repr

/-- A remote request, `SwarmRequest::Ask` and `Tell`, `src/remote/swarm.rs` L1230-1270. -/
structure Req (I : Type) where
  actorId : I
  actorRemoteId : String
  messageRemoteId : String
  payload : Bytes
  mailboxTimeout : Option Nat
  replyTimeout : Option Nat
  immediate : Bool

/-- What a handled request did and returned: the local requests made, in order, and the result.
`src/remote.rs` L150-197. -/
abbrev Handled (α : Type) := List LocalReq × Out (Except (RErr Bytes) α)

/-- The actor reference for an id, as an `ActorRef<A>`: `src/remote/_internal.rs` L95-104 (and L137-146, L176-185,
L205-214, L233-242, L260-269, L284-293, which are the same). -/
def Node.actorRef (n : Node I) (id : I) (ty : Nat) : Except (RErr Bytes) Nat :=
  match n.registry.find id with
  | none => .error .actorNotRunning
  | some e => if e.ty = ty then .ok e.ref else .error .badActorType

/-- The result of a remote ask, from that of the local ask: `src/remote/_internal.rs` L114-123 and L155-164. -/
def askResult (f : Fns) : Except (SendError Nat Nat) Nat → Except (RErr Bytes) Bytes
  | .ok reply =>
    match f.ok.enc reply with
    | .ok b => .ok b
    | .error s => .error (.serializeReply s)
  | .error e =>
    .error (RErr.flatten ((RErr.ofSend e).mapErr (fun x =>
      match f.err.enc x with
      | .ok b => RErr.handlerError b
      | .error s => RErr.serializeHandlerError s)))

/-- `_internal::ask` (`src/remote/_internal.rs` L83-124) and `try_ask` (L126-165). `loc` is the result of the local request, which may be a panic
(C37: a forwarded reply that cannot be decoded). -/
def Node.internalAsk (n : Node I) (f : Fns) (r : Req I) (loc : LocalReq → Out (Except (SendError Nat Nat) Nat)) :
    Handled Bytes :=
  match n.actorRef r.actorId f.actorTy with
  | .error e => ([], .val (.error e))
  | .ok ref =>
    match f.msg.dec r.payload with
    | .error s => ([], .val (.error (.deserializeMessage s)))
    | .ok m =>
      let q : LocalReq := ⟨ref, f.msgTy, m, true, r.immediate, if r.immediate then none else r.mailboxTimeout,
        r.replyTimeout⟩
      ([q], (loc q).map (askResult f))

/-- `remote::ask`, `src/remote.rs` L150-173. -/
def Node.ask (n : Node I) (r : Req I) (loc : LocalReq → Out (Except (SendError Nat Nat) Nat)) : Handled Bytes :=
  match n.message r.actorRemoteId r.messageRemoteId with
  | .panic => ([], .panic)
  | .val none => ([], .val (.error (.unknownMessage r.actorRemoteId r.messageRemoteId)))
  | .val (some f) => n.internalAsk f r loc

/-- The result of a remote tell, from that of the local tell: `src/remote/_internal.rs` L194-197 and L219-222. -/
def tellResult : Except (SendError Nat Empty) Unit → Except (RErr Bytes) Unit
  | .ok () => .ok ()
  | .error e => .error ((RErr.ofSend e).mapErr Empty.elim)

/-- `_internal::tell` (`src/remote/_internal.rs` L167-198) and `try_tell` (L200-223). A local tell has no handler error; its error type is
`Infallible`. -/
def Node.internalTell (n : Node I) (f : Fns) (r : Req I) (loc : LocalReq → Out (Except (SendError Nat Empty) Unit)) :
    Handled Unit :=
  match n.actorRef r.actorId f.actorTy with
  | .error e => ([], .val (.error e))
  | .ok ref =>
    match f.msg.dec r.payload with
    | .error s => ([], .val (.error (.deserializeMessage s)))
    | .ok m =>
      let q : LocalReq := ⟨ref, f.msgTy, m, false, r.immediate, if r.immediate then none else r.mailboxTimeout, none⟩
      ([q], (loc q).map tellResult)

/-- `remote::tell`, `src/remote.rs` L175-197. -/
def Node.tell (n : Node I) (r : Req I) (loc : LocalReq → Out (Except (SendError Nat Empty) Unit)) : Handled Unit :=
  match n.message r.actorRemoteId r.messageRemoteId with
  | .panic => ([], .panic)
  | .val none => ([], .val (.error (.unknownMessage r.actorRemoteId r.messageRemoteId)))
  | .val (some f) => n.internalTell f r loc

/-! ### The caller -/

/-- `SwarmResponse`, `src/remote/swarm.rs` L1302-1331. The error of an outbound failure holds no handler error. -/
inductive Resp where
  | ask (r : Except (RErr Bytes) Bytes)
  | tell (r : Except (RErr Bytes) Unit)
  | link (r : Except (RErr Bytes) Unit)
  | unlink (r : Except (RErr Bytes) Unit)
  | signalLinkDied (r : Except (RErr Bytes) Unit)
  | outboundFailure (e : RErr Empty)

/-- `remote_ask` up to the command it sends, `src/request/ask.rs` L800-815: the request, if the message can be
serialized. `a`, `m`: the remote ids of the actor type and the message type. -/
def askRequest (f : Fns) (id : I) (a m : String) (msg : Nat) (mt rt : Option Nat) (imm : Bool) :
    Except (RErr Nat) (Req I) :=
  match f.msg.enc msg with
  | .ok b => .ok ⟨id, a, m, b, mt, rt, imm⟩
  | .error s => .error (.serializeMessage s)

/-- `remote_ask` from the response on, `src/request/ask.rs` L817-832. -/
def askResponse (f : Fns) : Resp → Out (Except (RErr Nat) Nat)
  | .ask (.ok payload) =>
    match f.ok.dec payload with
    | .ok v => .val (.ok v)
    | .error s => .val (.error (.deserializeMessage s))
  | .ask (.error e) =>
    .val (.error (RErr.flatten (e.mapErr (fun b =>
      match f.err.dec b with
      | .ok v => RErr.handlerError v
      | .error s => RErr.deserializeHandlerError s))))
  | .outboundFailure e => .val (.error (e.mapErr Empty.elim))
  | _ => .panic

/-- `remote_tell` from the response on, `src/request/tell.rs` L397-406. -/
def tellResponse : Resp → Out (Except (RErr Bytes) Unit)
  | .tell r => .val r
  | .outboundFailure e => .val (.error (e.mapErr Empty.elim))
  | _ => .panic

/-- What the network makes of a request: it gets to the other node and the response gets back; it never gets to the
other node; it is handled there, but the response does not get back. The errors are those of `OutboundFailure`,
`src/remote/swarm.rs` L976-993. -/
inductive Net where
  | both
  | noRequest (e : RErr Empty)
  | noResponse (e : RErr Empty)

/-- What the caller of an ask makes of the outcome of the task that handles the request on another node: a panic of that
task drops the response channel (`src/remote/swarm.rs` L878-890), which the caller sees as a closed connection. -/
def afterTask (f : Fns) : Out (Except (RErr Bytes) Bytes) → Out (Except (RErr Nat) Nat)
  | .val res => askResponse f (.ask res)
  | .panic => askResponse f (.outboundFailure .connectionClosed)

/-- A remote ask from the message to its result: `RemoteAskRequest::send` and `try_send`, `src/request/ask.rs` L718-763,
through the swarm to `remote::ask` on the node `n` of the actor and back (`src/remote/swarm.rs` L611-649, L868-891,
L962-993). Without peers the request is handled on the caller's node `own`, whatever peer the id names (L622-635); a panic
then drops the sender of the answer and the caller panics (`src/request/ask.rs` L817). The response is taken to arrive
as it was sent (C53). -/
def remoteAsk (own n : Node I) (peers : Nat) (f : Fns) (id : I) (a m : String) (msg : Nat) (mt rt : Option Nat)
    (imm : Bool) (net : Net) (loc : LocalReq → Out (Except (SendError Nat Nat) Nat)) :
    List LocalReq × Out (Except (RErr Nat) Nat) :=
  match askRequest f id a m msg mt rt imm with
  | .error e => ([], .val (.error e))
  | .ok r =>
    if peers = 0 then
      ((own.ask r loc).1,
        match (own.ask r loc).2 with
        | .val res => askResponse f (.ask res)
        | .panic => .panic)
    else
      match net with
      | .noRequest e => ([], askResponse f (.outboundFailure e))
      | .noResponse e => ((n.ask r loc).1, askResponse f (.outboundFailure e))
      | .both => ((n.ask r loc).1, afterTask f (n.ask r loc).2)

/-! ### Links and death signals -/

/-- The links of actor `ref` replaced. Bookkeeping for `links.lock().await.insert`,
`src/remote/_internal.rs` L225-275. -/
def Node.setLinks (n : Node I) (ref : Nat) (m : Map I String) : Node I :=
  { n with links := fun j => if j = ref then m else n.links j }

/-- `remote::link`, `src/remote.rs` L199-210, and `_internal::link`, `src/remote/_internal.rs` L225-251. -/
def Node.link (n : Node I) (id : I) (rid : String) (sib : I) (srid : String) :
    Node I × Out (Except (RErr Bytes) Unit) :=
  match n.actorFns rid with
  | .panic => (n, .panic)
  | .val none => (n, .val (.error (.unknownActor rid)))
  | .val (some ty) =>
    match n.actorRef id ty with
    | .error e => (n, .val (.error e))
    | .ok ref => (n.setLinks ref ((n.links ref).put sib srid), .val (.ok ()))

/-- `remote::unlink`, `src/remote.rs` L212-222, and `_internal::unlink`, `src/remote/_internal.rs` L253-274. -/
def Node.unlink (n : Node I) (id : I) (rid : String) (sib : I) : Node I × Out (Except (RErr Bytes) Unit) :=
  match n.actorFns rid with
  | .panic => (n, .panic)
  | .val none => (n, .val (.error (.unknownActor rid)))
  | .val (some ty) =>
    match n.actorRef id ty with
    | .error e => (n, .val (.error e))
    | .ok ref => (n.setLinks ref ((n.links ref).del sib), .val (.ok ()))

/-- `remote::signal_link_died`, `src/remote.rs` L224-237, and `_internal::signal_link_died`,
`src/remote/_internal.rs` L276-301: the signals sent (to which actor, about which actor, with which reason) and the
result. `R`: stop reasons. `sent`: whether the mailbox takes the signal. -/
def Node.signalLinkDied {R : Type} (n : Node I) (dead : I) (notified : I) (rid : String) (reason : R) (sent : Bool) :
    List (Nat × I × R) × Out (Except (RErr Bytes) Unit) :=
  match n.actorFns rid with
  | .panic => ([], .panic)
  | .val none => ([], .val (.error (.unknownActor rid)))
  | .val (some ty) =>
    match n.actorRef notified ty with
    | .error e => ([], .val (.error e))
    | .ok ref => ([(ref, dead, reason)], .val (if sent then .ok () else .error .actorNotRunning))

/-- Two nodes: the one the call is made on, and the one of the other actor.
`src/actor/actor_ref.rs` L589-618, L1135-1202. -/
structure Two (I : Type) where
  here : Node I
  there : Node I

/-- The answer of the swarm to a request carried out by `f` on a node: `SwarmFuture` of `ActorSwarm::link` and the like,
`src/remote/swarm.rs` L417-484, with the handling of the command and the event, L692-742, L914-942, L962-993. -/
def swarmResult (net : Net) (r : Out (Except (RErr Bytes) Unit)) : Out (Except (RErr Bytes) Unit) :=
  match net with
  | .both => match r with
    | .val r => .val r
    | .panic => .val (.error .connectionClosed)
  | .noRequest e => .val (.error (e.mapErr Empty.elim))
  | .noResponse e => .val (.error (e.mapErr Empty.elim))

/-- Whether the other node handles the request. `src/remote/swarm.rs` L867-962. -/
def Net.handled : Net → Bool
  | .noRequest _ => false
  | _ => true

/-- `ActorSwarm::link`, `src/remote/swarm.rs` L417-437: the command names the actor and its sibling; the request made of
it asks the sibling's node to add the actor to the sibling's links (L692-719). The node has peers. -/
def Two.swarmLink (s : Two I) (net : Net) (id : I) (rid : String) (sib : I) (srid : String) :
    Two I × Out (Except (RErr Bytes) Unit) :=
  let r := s.there.link sib srid id rid
  (if net.handled then { s with there := r.1 } else s, swarmResult net r.2)

/-- `ActorSwarm::unlink`, `src/remote/swarm.rs` L439-458, L723-742. The node has peers. -/
def Two.swarmUnlink (s : Two I) (net : Net) (id : I) (sib : I) (srid : String) :
    Two I × Out (Except (RErr Bytes) Unit) :=
  let r := s.there.unlink sib srid id
  (if net.handled then { s with there := r.1 } else s, swarmResult net r.2)

/-- `ActorRef::link_remote`, `src/actor/actor_ref.rs` L589-618, on the actor `ref` of type `ty` with id `id` and remote id
`rid`, with a sibling on the other node. -/
def Two.linkRemote (s : Two I) (net : Net) (ref ty : Nat) (id : I) (rid : String) (sib : I) (srid : String) :
    Two I × Out (Except (RErr Bytes) Unit) :=
  if id = sib then (s, .val (.ok ()))
  else
    let n := { s.here with registry := s.here.registry.put id ⟨ref, ty⟩ }
    let n := n.setLinks ref ((n.links ref).put sib srid)
    let s := { s with here := n }
    if s.here.bootstrapped then s.swarmLink net id rid sib srid
    else (s, .val (.error .swarmNotBootstrapped))

/-- `ActorRef::unlink_remote`, `src/actor/actor_ref.rs` L708-725. -/
def Two.unlinkRemote (s : Two I) (net : Net) (ref : Nat) (id : I) (sib : I) (srid : String) :
    Two I × Out (Except (RErr Bytes) Unit) :=
  if id = sib then (s, .val (.ok ()))
  else
    let s := { s with here := s.here.setLinks ref ((s.here.links ref).del sib) }
    if s.here.bootstrapped then s.swarmUnlink net id sib srid
    else (s, .val (.error .swarmNotBootstrapped))

/-- `tokio::try_join!` of two results, the first to fail first: `aFirst` if the first future is
done before the second. `src/actor/actor_ref.rs` L1147-1156. -/
def tryJoin (aFirst : Bool) (a b : Out (Except (RErr Bytes) Unit)) : Out (Except (RErr Bytes) Unit) :=
  let (x, y) := if aFirst then (a, b) else (b, a)
  match x with
  | .panic => .panic
  | .val (.error e) => .val (.error e)
  | .val (.ok ()) => y

/-- `RemoteActorRef::link_remote`, `src/actor/actor_ref.rs` L1135-1157: the actor `id` is on node `here`, its sibling on
node `there`, the call is made on a third node that has a swarm. Both commands are sent before any answer is awaited
(`send_with_reply`, `src/remote/swarm.rs` L1009-1018, sends when called). -/
def Two.linkBoth (s : Two I) (neta netb : Net) (aFirst : Bool) (id : I) (rid : String) (sib : I) (srid : String) :
    Two I × Out (Except (RErr Bytes) Unit) :=
  if id = sib then (s, .val (.ok ()))
  else
    let ra := s.there.link sib srid id rid
    let rb := s.here.link id rid sib srid
    (⟨if netb.handled then rb.1 else s.here, if neta.handled then ra.1 else s.there⟩,
      tryJoin aFirst (swarmResult neta ra.2) (swarmResult netb rb.2))

/-- The link notifications of a stopping actor to actors on other nodes: `run_actor_lifecycle`, `src/actor/spawn.rs`
L517-560, the arm `Link::Remote`. For each link one `signal_link_died`: who is dead, who is to be told, the remote id
of its type, and the reason. -/
def Node.deathSignals {R : Type} (n : Node I) (ref : Nat) (id : I) (reason : R) : List (I × I × String × R) :=
  if n.bootstrapped then (n.links ref).map (fun p => (id, p.1, p.2, reason)) else []

end Verif.Remote
