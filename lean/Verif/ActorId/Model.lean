/-
Model of actor ids, `src/actor/id.rs`, with the `remote` feature. Without it an id is its sequence number
alone: the case of ids without a peer id in a process that never bootstraps a swarm.

`libp2p::PeerId` is not part of /repo: it is a type `P` with a byte encoding that decodes to the same peer
id and is never empty (`PeerCodec`).
-/

namespace Verif.ActorId

/-- A byte, of the `Vec<u8>` of `src/actor/id.rs` L110-158. -/
abbrev Byte := Fin 256

/-- What is assumed of `libp2p::PeerId::to_bytes` and `from_bytes`. They are called at
`src/actor/id.rs` L118-119 and L148. -/
structure PeerCodec (P : Type) where
  toBytes : P → List Byte
  /-- `none` is a parse error. -/
  fromBytes : List Byte → Option P
  roundtrip : ∀ p, fromBytes (toBytes p) = some p
  nonempty : ∀ p, toBytes p ≠ []

/-- `PeerIdKind`, `src/actor/id.rs` L215-220. -/
inductive PeerIdKind (P : Type) where
  | isLocal
  | peerId (p : P)
  deriving DecidableEq, Repr

/-- `ActorID`, `src/actor/id.rs` L19-24. -/
structure ActorID (P : Type) where
  /-- a `u64`. -/
  seq : Fin (2 ^ 64)
  peer : PeerIdKind P
  deriving DecidableEq, Repr

/-- The state of the process: the local peer id once `ActorSwarm::bootstrap` has run
(`src/remote/swarm.rs` L111-166; a `OnceCell`: it is set once and never changes). -/
abbrev World (P : Type) := Option P

variable {P : Type}

/-- Later states of the process. Only bootstrapping changes it: `ACTOR_SWARM` is a `OnceCell`
(`src/remote/swarm.rs` L33). -/
def World.le (w w' : World P) : Prop := w = none ∨ w' = w

/-- `PeerIdKind::peer_id`, `src/actor/id.rs` L222-230, and `ActorID::peer_id`, L98-101. -/
def PeerIdKind.get (w : World P) : PeerIdKind P → Option P
  | .isLocal => w
  | .peerId p => some p

/-- `ActorID::new`, `src/actor/id.rs` L39-45. -/
def new (seq : Fin (2 ^ 64)) : ActorID P := ⟨seq, .isLocal⟩

/-- `ActorID::new_with_peer_id`, `src/actor/id.rs` L58-63. -/
def newWithPeerId (seq : Fin (2 ^ 64)) (p : P) : ActorID P := ⟨seq, .peerId p⟩

/-- `PartialEq` of `ActorID` (derived, `src/actor/id.rs` L19) with `PeerIdKind::eq`, L232-237. -/
def eq [DecidableEq P] (w : World P) (a b : ActorID P) : Bool :=
  a.seq == b.seq && a.peer.get w == b.peer.get w

/-- What `Hash` of `ActorID` (derived, `src/actor/id.rs` L19, with `PeerIdKind::hash`, L242-249) feeds to the hasher: the
sequence number and the bytes of the peer id, if there is one. -/
def hashInput (c : PeerCodec P) (w : World P) (a : ActorID P) : Nat × List Byte :=
  (a.seq.val, match a.peer.get w with | some p => c.toBytes p | none => [])

/-- `u64::to_le_bytes`, for `k` bytes. Called at `src/actor/id.rs` L112. -/
def toLe : Nat → Nat → List Byte
  | 0, _ => []
  | k + 1, n => ⟨n % 256, Nat.mod_lt _ (by decide)⟩ :: toLe k (n / 256)

/-- `u64::from_le_bytes`. Called at `src/actor/id.rs` L139-143. -/
def fromLe : List Byte → Nat
  | [] => 0
  | b :: bs => b.val + 256 * fromLe bs

/-- `ActorID::to_bytes`, `src/actor/id.rs` L110-126. -/
def toBytes (c : PeerCodec P) (w : World P) (a : ActorID P) : List Byte :=
  toLe 8 a.seq.val ++
    match (match a.peer.get w with | some p => some (c.toBytes p) | none => w.map c.toBytes) with
    | some bs => bs
    | none => []

/-- The result of `from_bytes`. `src/actor/id.rs` L137-158: `Ok`, the three errors of
`ActorIDFromBytesError` (`src/error.rs` L798-804), or the panic of a slice out of range. -/
inductive Decoded (P : Type) where
  | ok (a : ActorID P)
  | err
  | panic
  deriving DecidableEq, Repr

/-- `ActorID::from_bytes`, `src/actor/id.rs` L137-158. `bytes[0..8]` panics if there are fewer than 8 bytes. -/
def fromBytes (c : PeerCodec P) (bytes : List Byte) : Decoded P :=
  if bytes.length < 8 then .panic
  else
    let seq : Fin (2 ^ 64) := Fin.ofNat (2 ^ 64) (fromLe (bytes.take 8))
    if bytes.length > 8 then
      match c.fromBytes (bytes.drop 8) with
      | some p => .ok ⟨seq, .peerId p⟩
      | none => .err
    else .ok ⟨seq, .isLocal⟩

/-- `ACTOR_COUNTER`, `src/actor/id.rs` L13, and the ids generated so far, with the thread that called `generate`. The counter
is a `usize` of `bits` bits. -/
structure Gen (P : Type) where
  counter : Nat := 0
  ids : List (Nat × ActorID P) := []

/-- `ActorID::generate`, `src/actor/id.rs` L72-79, called by thread `t`: an atomic `fetch_add`, which wraps around. -/
def Gen.generate (bits : Nat) (g : Gen P) (t : Nat) : Gen P :=
  { counter := (g.counter + 1) % 2 ^ bits
    ids := g.ids ++ [(t, new (Fin.ofNat (2 ^ 64) g.counter))] }

/-- All calls of `generate` in a process, in the order of their `fetch_add`s: one per entry of
`ts`, by that thread. `src/actor/id.rs` L72-79. -/
def generated (bits : Nat) (ts : List Nat) : Gen P := ts.foldl (Gen.generate bits) {}

end Verif.ActorId
