import Verif.Wire.Model
import Verif.Swarm.Record

/-
Model of what errors, stop reasons and ids print: `Display` and `Debug` in `src/error.rs` and `src/actor/id.rs`, with the
`remote` feature. What a user's error prints is a function `s : E → String`; the formatter is a string.

`libp2p::PeerId` is not part of /repo: `PeerText` is what is assumed of its text.
-/

namespace Verif.Wire

open Verif.ActorId Verif.Request

variable {P E F M : Type}

/-- What is assumed of `Display` of `libp2p::PeerId`, called at `src/actor/id.rs` L168: base 58, in which there is no `l`. -/
structure PeerText (P : Type) where
  text : P → String
  inj : ∀ p q, text p = text q → p = q
  letters : ∀ p, ∀ c ∈ (text p).toList, c.isAlphanum
  noEll : ∀ p, 'l' ∉ (text p).toList

/-- `Display` of `ActorID`, `src/actor/id.rs` L161-172. -/
def idText (t : PeerText P) (w : World P) (a : ActorID P) : String :=
  match a.peer.get w with
  | some p => "ActorID(" ++ Nat.repr a.seq.val ++ ", " ++ t.text p ++ ")"
  | none => "ActorID(" ++ Nat.repr a.seq.val ++ ", local)"

/-- `{:?}` of the `Option<&PeerId>` at `src/actor/id.rs` L181: that of `PeerId` is `PeerId("…")`. -/
def peerDebug (t : PeerText P) : Option P → String
  | some p => "Some(PeerId(\"" ++ t.text p ++ "\"))"
  | none => "None"

/-- `Debug` of `ActorID`, `src/actor/id.rs` L174-187. -/
def idDebug (t : PeerText P) (w : World P) (a : ActorID P) : String :=
  "ActorID(" ++ Nat.repr a.seq.val ++ ", " ++ peerDebug t (a.peer.get w) ++ ")"

/-- `Display` of `SendError`, `src/error.rs` L255-268. -/
def sendText (s : E → String) : SendError M E → String
  | .actorNotRunning _ => "actor not running"
  | .actorStopped => "actor stopped"
  | .mailboxFull _ => "mailbox full"
  | .handlerError e => s e
  | .timeout _ => "timeout"

/-- `Debug` of `SendError`, `src/error.rs` L240-253; `s` is that of the handler's error. -/
def sendDebug (s : E → String) : SendError M E → String
  | .actorNotRunning _ => "ActorNotRunning"
  | .actorStopped => "ActorStopped"
  | .mailboxFull _ => "MailboxFull"
  | .handlerError e => s e
  | .timeout _ => "Timeout"

/-- `Display` of `RemoteSendError`, `src/error.rs` L574-621. -/
def RErr.text (s : E → String) : RErr E → String
  | .actorNotRunning => "actor not running"
  | .actorStopped => "actor stopped"
  | .unknownActor a => "unknown actor '" ++ a ++ "'"
  | .unknownMessage a m => "unknown message '" ++ m ++ "' for actor '" ++ a ++ "'"
  | .badActorType => "bad actor type"
  | .mailboxFull => "mailbox full"
  | .replyTimeout => "timeout"
  | .handlerError e => s e
  | .serializeMessage e => "failed to serialize message: " ++ e
  | .deserializeMessage e => "failed to deserialize message: " ++ e
  | .serializeReply e => "failed to serialize reply: " ++ e
  | .serializeHandlerError e => "failed to serialize handler error: " ++ e
  | .deserializeHandlerError e => "failed to deserialize handler error: " ++ e
  | .swarmNotBootstrapped => "swarm not bootstrapped"
  | .dialFailure => "dial failure"
  | .networkTimeout => "network timeout"
  | .connectionClosed => "connection closed"
  | .unsupportedProtocols => "unsupported protocols"
  | .io (some e) => e
  | .io none => "io error"

/-- `Display` of `ActorStopReason`, `src/error.rs` L664-678, with that of `PanicError`, L746-751. -/
def Reason.text (t : PeerText P) (w : World P) : Reason P → String
  | .normal => "actor stopped normally"
  | .killed => "actor was killed"
  | .panicked x => x.display
  | .linkDied id _ => "link " ++ idText t w id ++ " died"
  | .peerDisconnected => "peer disconnected"

/-- `Debug` of `ActorStopReason`, `src/error.rs` L647-662; `debug_struct` without `{:#?}`. -/
def Reason.debug (t : PeerText P) (w : World P) : Reason P → String
  | .normal => "Normal"
  | .killed => "Killed"
  | .panicked _ => "Panicked"
  | .linkDied id r => "LinkDied { id: " ++ idDebug t w id ++ ", reason: " ++ r.debug t w ++ " }"
  | .peerDisconnected => "PeerDisconnected"

/-- `Display` of `RegistryError`, `src/error.rs` L393-407. -/
def registryText : Swarm.RegErr → String
  | .swarmNotBootstrapped => "actor swarm not bootstrapped"
  | .badActorType => "bad actor type"
  | .quorumFailed q => "the quorum failed; needed " ++ Nat.repr q ++ " peers"
  | .timeout => "the request timed out"

end Verif.Wire
