import Verif.Remote.Model

/-
Model of registration records, `ActorRegistration` (`src/remote/swarm.rs` L1193-1227), and of what a lookup makes of
a record (`src/remote/swarm.rs` L282-354). Strings and their UTF-8 bytes are those of Lean's library.
-/

namespace Verif.Swarm

open Verif.ActorId
open Verif.Request (Out)
open Verif.Remote (Bytes Entry)

variable {P : Type}

/-- `str::as_bytes`, used in `src/remote/swarm.rs` L1213. -/
def utf8 (s : String) : Bytes := s.toByteArray.data.toList.map (·.toFin)

/-- `std::str::from_utf8`, used in `src/remote/swarm.rs` L1220; `none` is an error. -/
def fromUtf8 (bs : Bytes) : Option String := String.fromUTF8? ⟨(bs.map UInt8.ofFin).toArray⟩

/-- `ActorRegistration`, `src/remote/swarm.rs` L1193-1198. -/
structure Registration (P : Type) where
  id : ActorID P
  remoteId : String
  deriving DecidableEq, Repr

/-- `ActorRegistration::into_bytes`, `src/remote/swarm.rs` L1207-1215. The length of the peer id is cast to a `u8`. -/
def Registration.intoBytes (c : PeerCodec P) (w : World P) (r : Registration P) : Bytes :=
  Fin.ofNat 256 ((toBytes c w r.id).length - 8) :: (toBytes c w r.id ++ utf8 r.remoteId)

/-- `ActorRegistration::from_bytes`, `src/remote/swarm.rs` L1217-1222: the slices panic if the bytes are too short, the
`unwrap`s if the id or the string cannot be decoded. -/
def Registration.fromBytes (c : PeerCodec P) (bs : Bytes) : Out (Registration P) :=
  match bs with
  | [] => .panic
  | n :: rest =>
    if rest.length < 8 + n.val then .panic
    else
      match ActorId.fromBytes c (rest.take (8 + n.val)), fromUtf8 (rest.drop (8 + n.val)) with
      | .ok id, some s => .val ⟨id, s⟩
      | _, _ => .panic

/-- `kad::GetRecordError`, as `src/remote/swarm.rs` L347-351 tells its variants apart. -/
inductive GetErr where
  | notFound
  | quorumFailed (quorum : Nat)
  | timeout
  deriving DecidableEq, Repr

/-- `RegistryError`, `src/error.rs` L376-391. -/
inductive RegErr where
  | swarmNotBootstrapped
  | badActorType
  | quorumFailed (quorum : Nat)
  | timeout
  deriving DecidableEq, Repr

/-- `ActorSwarm::lookup` from the answer of the swarm on, `src/remote/swarm.rs` L331-352: the id of the remote reference.
`rid` is `A::REMOTE_ID`. -/
def lookupResult (c : PeerCodec P) (rid : String) : Except GetErr Bytes → Out (Except RegErr (Option (ActorID P)))
  | .ok value =>
    if value.isEmpty then .val (.ok none)
    else
      match Registration.fromBytes c value with
      | .panic => .panic
      | .val r => if rid ≠ r.remoteId then .val (.error .badActorType) else .val (.ok (some r.id))
  | .error .notFound => .val (.ok none)
  | .error (.quorumFailed q) => .val (.error (.quorumFailed q))
  | .error .timeout => .val (.error .timeout)

/-- The registry of this node, `REMOTE_REGISTRY` (`src/remote.rs` L76-83), looked up with the equality of `ActorID` in the
process `w`. -/
def regFind [DecidableEq P] (w : World P) (m : List (ActorID P × Entry)) (id : ActorID P) : Option Entry :=
  (m.find? (fun p => ActorId.eq w p.1 id)).map (·.2)

/-- `ActorSwarm::lookup_local` from the answer of the swarm on, `src/remote/swarm.rs` L293-316: the actor found. `rid` is
`A::REMOTE_ID`, `ty` the type `A`. -/
def lookupLocalResult [DecidableEq P] (w : World P) (registry : List (ActorID P × Entry)) (rid : String) (ty : Nat) :
    Option (Registration P) → Except RegErr (Option Nat)
  | none => .ok none
  | some r =>
    if rid ≠ r.remoteId then .error .badActorType
    else
      match regFind w registry r.id with
      | none => .ok none
      | some e => if e.ty = ty then .ok (some e.ref) else .error .badActorType

end Verif.Swarm
