import Verif.ActorId.Model
import Verif.Request.Model

/-
Model of the errors and stop reasons that go over the network, `src/error.rs`, and of how they are serialized.

The serialization formats (CBOR between nodes, `rmp_serde` for payloads) and serde are not part of /repo. What the
derived `Serialize` and `Deserialize` make of a value is modelled as a tree in serde's data model; the formats are
assumed to carry trees faithfully. Field names are left out.
-/

namespace Verif.Wire

open Verif.ActorId

/-- Serde's data model, as far as it is used by `src/error.rs` L412-469 and L627-645. -/
inductive Tree where
  | unit
  | str (s : String)
  | bytes (b : List Byte)
  | pair (a b : Tree)
  /-- a variant of an enum, by name. -/
  | variant (name : String) (t : Tree)
  deriving DecidableEq, Repr

/-- What `PanicError` (`src/error.rs` L682) holds: a boxed error of some type. Two types matter to the code,
`&'static str` and `String`; a value of another type is a number here. -/
inductive Payload where
  | staticStr (s : String)
  | string (s : String)
  | other (n : Nat)
  deriving DecidableEq, Repr

/-- `PanicError::with_str`, `src/error.rs` L703-713, with the identity. -/
def Payload.withStr : Payload → Option String
  | .staticStr s => some s
  | .string s => some s
  | .other _ => none

/-- `Display` of `PanicError`, `src/error.rs` L746-751. -/
def Payload.display (p : Payload) : String :=
  match p.withStr with
  | some s => "panicked: " ++ s
  | none => "panicked"

/-- `ActorStopReason`, `src/error.rs` L628-645. -/
inductive Reason (P : Type) where
  | normal
  | killed
  | panicked (p : Payload)
  | linkDied (id : ActorID P) (r : Reason P)
  | peerDisconnected
  deriving DecidableEq, Repr

variable {P : Type}

/-- `Serialize` of `ActorID`, `src/actor/id.rs` L189-196. -/
def encId (c : PeerCodec P) (w : World P) (a : ActorID P) : Tree := .bytes (toBytes c w a)

/-- `Deserialize` of `ActorID`, `src/actor/id.rs` L198-213. Simplified: a panic (fewer than 8 bytes, C34)
is an error here; `to_bytes` never writes fewer. -/
def decId (c : PeerCodec P) : Tree → Option (ActorID P)
  | .bytes b =>
    match fromBytes c b with
    | .ok a => some a
    | _ => none
  | _ => none

/-- `Serialize` of `PanicError`, `src/error.rs` L777-784: the string it displays as. -/
def encPayload (p : Payload) : Tree := .str p.display

/-- `Deserialize` of `PanicError`, `src/error.rs` L786-794: holds the string. -/
def decPayload : Tree → Option Payload
  | .str s => some (.string s)
  | _ => none

/-- The derived `Serialize` of `ActorStopReason`, `src/error.rs` L627. `w`: the process it runs in. -/
def encReason (c : PeerCodec P) (w : World P) : Reason P → Tree
  | .normal => .variant "Normal" .unit
  | .killed => .variant "Killed" .unit
  | .panicked p => .variant "Panicked" (encPayload p)
  | .linkDied id r => .variant "LinkDied" (.pair (encId c w id) (encReason c w r))
  | .peerDisconnected => .variant "PeerDisconnected" .unit

/-- The derived `Deserialize` of `ActorStopReason`, `src/error.rs` L627. -/
def decReason (c : PeerCodec P) : Tree → Option (Reason P)
  | .variant "Normal" .unit => some .normal
  | .variant "Killed" .unit => some .killed
  | .variant "Panicked" t => (decPayload t).map .panicked
  | .variant "LinkDied" (.pair i t) =>
    match decId c i, decReason c t with
    | some id, some r => some (.linkDied id r)
    | _, _ => none
  | .variant "PeerDisconnected" .unit => some .peerDisconnected
  | _ => none

/-- A reason is sent from node to node, along the nodes with these peer ids: each encodes it, the next decodes it
(`SwarmRequest::SignalLinkDied`, `src/remote/swarm.rs` L1289-1299, sent by L746-774, received by L943-961). -/
def hops (c : PeerCodec P) : List P → Reason P → Option (Reason P)
  | [], r => some r
  | p :: ps, r => (decReason c (encReason c (some p) r)).bind (hops c ps)

/-- `RemoteSendError<E>`, `src/error.rs` L414-469. -/
inductive RErr (E : Type) where
  | actorNotRunning
  | actorStopped
  | unknownActor (actor : String)
  | unknownMessage (actor message : String)
  | badActorType
  | mailboxFull
  | replyTimeout
  | handlerError (e : E)
  | serializeMessage (s : String)
  | deserializeMessage (s : String)
  | serializeReply (s : String)
  | serializeHandlerError (s : String)
  | deserializeHandlerError (s : String)
  | swarmNotBootstrapped
  | dialFailure
  | networkTimeout
  | connectionClosed
  | unsupportedProtocols
  | io (e : Option String)
  deriving DecidableEq, Repr

variable {E F M : Type}

/-- `RemoteSendError::map_err`, `src/error.rs` L474-511. -/
def RErr.mapErr (f : E → F) : RErr E → RErr F
  | .actorNotRunning => .actorNotRunning
  | .actorStopped => .actorStopped
  | .unknownActor a => .unknownActor a
  | .unknownMessage a m => .unknownMessage a m
  | .badActorType => .badActorType
  | .mailboxFull => .mailboxFull
  | .replyTimeout => .replyTimeout
  | .handlerError e => .handlerError (f e)
  | .serializeMessage s => .serializeMessage s
  | .deserializeMessage s => .deserializeMessage s
  | .serializeReply s => .serializeReply s
  | .serializeHandlerError s => .serializeHandlerError s
  | .deserializeHandlerError s => .deserializeHandlerError s
  | .swarmNotBootstrapped => .swarmNotBootstrapped
  | .dialFailure => .dialFailure
  | .networkTimeout => .networkTimeout
  | .connectionClosed => .connectionClosed
  | .unsupportedProtocols => .unsupportedProtocols
  | .io e => .io e

/-- `RemoteSendError::flatten`, `src/error.rs` L515-559. -/
def RErr.flatten : RErr (RErr E) → RErr E
  | .actorNotRunning | .handlerError .actorNotRunning => .actorNotRunning
  | .actorStopped | .handlerError .actorStopped => .actorStopped
  | .unknownActor a | .handlerError (.unknownActor a) => .unknownActor a
  | .unknownMessage a m | .handlerError (.unknownMessage a m) => .unknownMessage a m
  | .badActorType | .handlerError .badActorType => .badActorType
  | .mailboxFull | .handlerError .mailboxFull => .mailboxFull
  | .replyTimeout | .handlerError .replyTimeout => .replyTimeout
  | .handlerError (.handlerError e) => .handlerError e
  | .serializeMessage s | .handlerError (.serializeMessage s) => .serializeMessage s
  | .deserializeMessage s | .handlerError (.deserializeMessage s) => .deserializeMessage s
  | .serializeReply s | .handlerError (.serializeReply s) => .serializeReply s
  | .serializeHandlerError s | .handlerError (.serializeHandlerError s) => .serializeHandlerError s
  | .deserializeHandlerError s | .handlerError (.deserializeHandlerError s) => .deserializeHandlerError s
  | .swarmNotBootstrapped | .handlerError .swarmNotBootstrapped => .swarmNotBootstrapped
  | .dialFailure | .handlerError .dialFailure => .dialFailure
  | .networkTimeout | .handlerError .networkTimeout => .networkTimeout
  | .connectionClosed | .handlerError .connectionClosed => .connectionClosed
  | .unsupportedProtocols | .handlerError .unsupportedProtocols => .unsupportedProtocols
  | .io e | .handlerError (.io e) => .io e

/-- `From<SendError<M, E>> for RemoteSendError<E>`, `src/error.rs` L562-572. -/
def RErr.ofSend : Request.SendError M E → RErr E
  | .actorNotRunning _ => .actorNotRunning
  | .actorStopped => .actorStopped
  | .mailboxFull _ => .mailboxFull
  | .handlerError e => .handlerError e
  | .timeout _ => .replyTimeout

/-- The derived `Serialize` of `RemoteSendError`, `src/error.rs` L413, given that of `E`. `none`: serialization fails,
as it does for a variant marked `#[serde(skip)]` (L467-468). -/
def RErr.enc (enc : E → Option Tree) : RErr E → Option Tree
  | .actorNotRunning => some (.variant "ActorNotRunning" .unit)
  | .actorStopped => some (.variant "ActorStopped" .unit)
  | .unknownActor a => some (.variant "UnknownActor" (.str a))
  | .unknownMessage a m => some (.variant "UnknownMessage" (.pair (.str a) (.str m)))
  | .badActorType => some (.variant "BadActorType" .unit)
  | .mailboxFull => some (.variant "MailboxFull" .unit)
  | .replyTimeout => some (.variant "ReplyTimeout" .unit)
  | .handlerError e => (enc e).map (.variant "HandlerError")
  | .serializeMessage s => some (.variant "SerializeMessage" (.str s))
  | .deserializeMessage s => some (.variant "DeserializeMessage" (.str s))
  | .serializeReply s => some (.variant "SerializeReply" (.str s))
  | .serializeHandlerError s => some (.variant "SerializeHandlerError" (.str s))
  | .deserializeHandlerError s => some (.variant "DeserializeHandlerError" (.str s))
  | .swarmNotBootstrapped => some (.variant "SwarmNotBootstrapped" .unit)
  | .dialFailure => some (.variant "DialFailure" .unit)
  | .networkTimeout => some (.variant "NetworkTimeout" .unit)
  | .connectionClosed => some (.variant "ConnectionClosed" .unit)
  | .unsupportedProtocols => some (.variant "UnsupportedProtocols" .unit)
  | .io _ => none

/-- The derived `Deserialize` of `RemoteSendError`, `src/error.rs` L413. -/
def RErr.dec (dec : Tree → Option E) : Tree → Option (RErr E)
  | .variant "ActorNotRunning" .unit => some .actorNotRunning
  | .variant "ActorStopped" .unit => some .actorStopped
  | .variant "UnknownActor" (.str a) => some (.unknownActor a)
  | .variant "UnknownMessage" (.pair (.str a) (.str m)) => some (.unknownMessage a m)
  | .variant "BadActorType" .unit => some .badActorType
  | .variant "MailboxFull" .unit => some .mailboxFull
  | .variant "ReplyTimeout" .unit => some .replyTimeout
  | .variant "HandlerError" t => (dec t).map .handlerError
  | .variant "SerializeMessage" (.str s) => some (.serializeMessage s)
  | .variant "DeserializeMessage" (.str s) => some (.deserializeMessage s)
  | .variant "SerializeReply" (.str s) => some (.serializeReply s)
  | .variant "SerializeHandlerError" (.str s) => some (.serializeHandlerError s)
  | .variant "DeserializeHandlerError" (.str s) => some (.deserializeHandlerError s)
  | .variant "SwarmNotBootstrapped" .unit => some .swarmNotBootstrapped
  | .variant "DialFailure" .unit => some .dialFailure
  | .variant "NetworkTimeout" .unit => some .networkTimeout
  | .variant "ConnectionClosed" .unit => some .connectionClosed
  | .variant "UnsupportedProtocols" .unit => some .unsupportedProtocols
  | _ => none

/-- An error is sent from node to node `n` times (`SwarmResponse`, `src/remote/swarm.rs` L1302-1326). -/
def RErr.hops (enc : E → Option Tree) (dec : Tree → Option E) : Nat → RErr E → Option (RErr E)
  | 0, e => some e
  | n + 1, e => ((e.enc enc).bind (RErr.dec dec)).bind (RErr.hops enc dec n)

end Verif.Wire
