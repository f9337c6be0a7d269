import Verif.Swarm.Record
import Verif.ActorId.Props
import Verif.Wire.Props

/-
Property theorems about registration records (C49): they round-trip, and a removed registration is not taken for an
actor. What a malformed record does to a node is in Verif.Swarm.PropsPanic.
-/

namespace Verif.Swarm

open Verif.ActorId
open Verif.Request (Out)
open Verif.Remote (Bytes Entry)

variable {P : Type}

theorem fromUtf8_utf8 (s : String) : fromUtf8 (utf8 s) = some s := by
  have h : (⟨(List.map UInt8.ofFin (utf8 s)).toArray⟩ : ByteArray) = s.toByteArray := by
    simp [utf8, Function.comp_def]
  unfold fromUtf8 String.fromUTF8?
  rw [h, dif_pos s.isValidUTF8]
  rfl

/-- The peer an id names on the node of peer `w`, as bytes. -/
theorem toBytes_length (c : PeerCodec P) (w : World P) (a : ActorID P) :
    8 ≤ (toBytes c w a).length := by
  unfold toBytes
  simp [toLe_length]

theorem toBytes_len_sub (c : PeerCodec P) (w : World P) (a : ActorID P) :
    (toBytes c w a).length - 8 = match a.peer.get w with | some p => (c.toBytes p).length | none => 0 := by
  rw [toBytes_eq]
  cases a.peer.get w <;> simp [toLe_length]

/-- No peer id has an encoding of 256 bytes or more. (libp2p's have at most 42.) -/
def Short (c : PeerCodec P) : Prop := ∀ p, (c.toBytes p).length < 256

/-- **C49** (round trip): the record of an actor decodes to a registration with the same remote id, the same sequence
number, and the peer id that the actor's id has on the node that wrote the record — wherever and whenever it is read. -/
theorem record_roundtrip (c : PeerCodec P) (hc : Short c) (own : P) (r : Registration P) :
    ∃ id, Registration.fromBytes c (r.intoBytes c (some own)) = .val ⟨id, r.remoteId⟩ ∧ id.seq = r.id.seq ∧
      ∀ w', id.peer.get w' = r.id.peer.get (some own) := by
  have hl := toBytes_length c (some own) r.id
  have hs := toBytes_len_sub c (some own) r.id
  have hp : ∃ p, r.id.peer.get (some own) = some p := by
    cases r.id.peer with
    | isLocal => exact ⟨own, rfl⟩
    | peerId p => exact ⟨p, rfl⟩
  obtain ⟨p, hp⟩ := hp
  rw [hp] at hs
  dsimp only at hs
  have h256 := hc p
  have hmod : (Fin.ofNat 256 ((toBytes c (some own) r.id).length - 8)).val = (toBytes c (some own) r.id).length - 8 := by
    simp only [Fin.ofNat]
    omega
  refine ⟨⟨r.id.seq, .peerId p⟩, ?_, rfl, fun w' => by rw [hp]; rfl⟩
  have h8 : 8 + ((toBytes c (some own) r.id).length - 8) = (toBytes c (some own) r.id).length := by omega
  unfold Registration.intoBytes Registration.fromBytes
  dsimp only
  rw [hmod, h8, if_neg (by simp), List.take_left, List.drop_left, fromUtf8_utf8, fromBytes_toBytes, hp]

/-- Concrete case: actor 7 of node 5. -/
example : Registration.fromBytes Wire.byteCodec (Registration.intoBytes Wire.byteCodec (some 5) ⟨⟨7, .isLocal⟩, "ab"⟩) =
    .val ⟨⟨7, .peerId 5⟩, "ab"⟩ := by
  obtain ⟨id, h, hs, hw⟩ := record_roundtrip Wire.byteCodec (fun p => by simp [Wire.byteCodec]) 5 ⟨⟨7, .isLocal⟩, "ab"⟩
  rw [h]
  obtain ⟨seq, peer⟩ := id
  have h1 := hw none
  dsimp only at hs h1
  subst hs
  cases peer with
  | isLocal => exact absurd h1 (by simp [PeerIdKind.get])
  | peerId p =>
    simp only [PeerIdKind.get, Option.some.injEq] at h1
    rw [h1]

/-- **C49** (round trip): two registrations have the same record only if they name the same actor and type. -/
theorem record_injective [DecidableEq P] (c : PeerCodec P) (hc : Short c) (own : P) (r r' : Registration P)
    (h : r.intoBytes c (some own) = r'.intoBytes c (some own)) :
    ActorId.eq (some own) r.id r'.id = true ∧ r.remoteId = r'.remoteId := by
  obtain ⟨id, h1, h2, h3⟩ := record_roundtrip c hc own r
  obtain ⟨id', h1', h2', h3'⟩ := record_roundtrip c hc own r'
  rw [h, h1'] at h1
  injection h1 with h1
  injection h1 with ha hb
  subst ha
  refine ⟨?_, hb.symm⟩
  simp [ActorId.eq, ← h2, ← h2', ← h3 none, ← h3' none]

/-- The same actor, named with and without its peer: one record. -/
example : Registration.intoBytes Wire.byteCodec (some 5) ⟨⟨7, .isLocal⟩, "ab"⟩ =
    Registration.intoBytes Wire.byteCodec (some 5) ⟨⟨7, .peerId 5⟩, "ab"⟩ := rfl

/-- **C49** (removed registrations): a lookup that finds the record written by `register` gives the actor if the type is
right and `BadActorType` otherwise; one that finds the record written by `unregister` — the empty one — gives nothing. No
record of an actor is empty. -/
theorem lookup_of_record (c : PeerCodec P) (hc : Short c) (own : P) (r : Registration P) (rid : String) :
    (r.remoteId = rid → ∃ id, lookupResult c rid (.ok (r.intoBytes c (some own))) = .val (.ok (some id)) ∧
      id.seq = r.id.seq ∧ ∀ w', id.peer.get w' = r.id.peer.get (some own)) ∧
    (r.remoteId ≠ rid → lookupResult c rid (.ok (r.intoBytes c (some own))) = .val (.error .badActorType)) ∧
    lookupResult c rid (.ok []) = .val (.ok none) ∧
    r.intoBytes c (some own) ≠ [] := by
  obtain ⟨id, h1, h2, h3⟩ := record_roundtrip c hc own r
  have hne : r.intoBytes c (some own) ≠ [] := by simp [Registration.intoBytes]
  have he : (r.intoBytes c (some own)).isEmpty = false := by simp [hne]
  refine ⟨fun h => ⟨id, ?_, h2, h3⟩, fun h => ?_, rfl, hne⟩
  · simp only [lookupResult, he, h1]
    simp [h]
  · simp only [lookupResult, he, h1]
    simp [Ne.symm h]

example : (lookupResult Wire.byteCodec "" (.ok [1, 7, 0, 0, 0, 0, 0, 0, 0, 5]) = .val (.ok (some ⟨7, .peerId 5⟩))) ∧
    lookupResult Wire.byteCodec "x" (.ok [1, 7, 0, 0, 0, 0, 0, 0, 0, 5]) = .val (.error .badActorType) ∧
    Registration.intoBytes Wire.byteCodec (some 5) ⟨⟨7, .isLocal⟩, ""⟩ = [1, 7, 0, 0, 0, 0, 0, 0, 0, 5] := ⟨rfl, rfl, rfl⟩

/-- **C49** (what a lookup says): "no such actor" is the answer only if the network found no record or the empty one that
`unregister` leaves behind; an error of the network is passed on as that error, and nothing else is. An actor is the answer
only if the record found names it, with the remote id asked for. -/
theorem lookup_says (c : PeerCodec P) (rid : String) (got : Except GetErr Bytes) :
    (lookupResult c rid got = .val (.ok none) ↔ got = .ok [] ∨ got = .error .notFound) ∧
    (∀ q, lookupResult c rid got = .val (.error (.quorumFailed q)) ↔ got = .error (.quorumFailed q)) ∧
    (lookupResult c rid got = .val (.error .timeout) ↔ got = .error .timeout) ∧
    lookupResult c rid got ≠ .val (.error .swarmNotBootstrapped) ∧
    (∀ id, lookupResult c rid got = .val (.ok (some id)) ↔
      ∃ bs, got = .ok bs ∧ bs ≠ [] ∧ Registration.fromBytes c bs = .val ⟨id, rid⟩) := by
  cases got with
  | error e => cases e <;> simp [lookupResult]
  | ok bs =>
    cases bs with
    | nil => simp [lookupResult]
    | cons b bs =>
      simp only [lookupResult, List.isEmpty_cons, Bool.false_eq_true, if_false]
      cases hr : Registration.fromBytes c (b :: bs) with
      | panic => simp [hr]
      | val r =>
        obtain ⟨rd, rr⟩ := r
        by_cases h : rid = rr
        · subst h
          simp [hr]
        · simp [hr, h, Ne.symm h]

example : lookupResult Wire.byteCodec "" (.error (.quorumFailed 3)) = .val (.error (.quorumFailed 3)) ∧
    lookupResult Wire.byteCodec "" (.error .notFound) = .val (.ok none) := ⟨rfl, rfl⟩

/-- **C49** (local lookup): on the node of the actor, looking up its record gives the actor itself, once the actor is in
the registry of the node under its id; nothing if no actor is there under that id. -/
theorem local_lookup_of_record [DecidableEq P] (c : PeerCodec P) (hc : Short c) (own : P) (r : Registration P) (ty : Nat)
    (registry : List (ActorID P × Entry)) :
    ∃ reg, Registration.fromBytes c (r.intoBytes c (some own)) = .val reg ∧
      (∀ ref, (∀ p ∈ registry, ActorId.eq (some own) p.1 r.id = true → p.2 = ⟨ref, ty⟩) →
        (∃ p ∈ registry, ActorId.eq (some own) p.1 r.id = true) →
        lookupLocalResult (some own) registry r.remoteId ty (some reg) = .ok (some ref)) ∧
      ((∀ p ∈ registry, ActorId.eq (some own) p.1 r.id = false) →
        lookupLocalResult (some own) registry r.remoteId ty (some reg) = .ok none) := by
  obtain ⟨id, h1, h2, h3⟩ := record_roundtrip c hc own r
  have heq : ∀ a : ActorID P, ActorId.eq (some own) a id = ActorId.eq (some own) a r.id := by
    intro a
    simp [ActorId.eq, h2, h3]
  refine ⟨_, h1, fun ref hall hex => ?_, fun hnone => ?_⟩
  · simp only [lookupLocalResult, regFind, heq]
    obtain ⟨p, hp, hpe⟩ := hex
    cases hf : registry.find? (fun p => ActorId.eq (some own) p.1 r.id) with
    | none =>
      rw [List.find?_eq_none] at hf
      exact absurd hpe (hf p hp)
    | some q =>
      have := hall q (List.mem_of_find?_eq_some hf) (List.find?_some (p := fun p : ActorID P × Entry => ActorId.eq (some own) p.1 r.id) hf)
      simp [this]
  · simp only [lookupLocalResult, regFind, heq]
    have hf : registry.find? (fun p => ActorId.eq (some own) p.1 r.id) = none := by
      rw [List.find?_eq_none]
      intro p hp
      simp [hnone p hp]
    simp [hf]

example : lookupLocalResult (some (5 : Byte)) [(⟨7, .isLocal⟩, ⟨3, 1⟩)] "ab" 1 (some ⟨⟨7, .peerId 5⟩, "ab"⟩) =
    .ok (some 3) := by
  rfl

/-- **C49** — whatever registration a local lookup is answered with, the actor it gives is one that the registration
names, that runs on this node, and that has the actor type asked for; if the registration is for another remote id, or the
actor that runs under the id is of another type, the lookup fails. -/
theorem local_lookup_type_checked [DecidableEq P] (w : World P) (registry : List (ActorID P × Entry)) (rid : String)
    (ty : Nat) (reg : Registration P) :
    (∀ ref, lookupLocalResult w registry rid ty (some reg) = .ok (some ref) →
      reg.remoteId = rid ∧ ∃ id, (id, (⟨ref, ty⟩ : Entry)) ∈ registry ∧ ActorId.eq w id reg.id = true) ∧
    (reg.remoteId ≠ rid → lookupLocalResult w registry rid ty (some reg) = .error .badActorType) ∧
    (∀ e, registry.find? (fun p => ActorId.eq w p.1 reg.id) = some e → e.2.ty ≠ ty →
      lookupLocalResult w registry rid ty (some reg) = .error .badActorType) := by
  refine ⟨?_, ?_, ?_⟩
  · intro ref h
    simp only [lookupLocalResult, regFind] at h
    by_cases hr : rid = reg.remoteId
    · cases hf : registry.find? (fun p => ActorId.eq w p.1 reg.id) with
      | none => simp [hr, hf] at h
      | some e =>
        obtain ⟨id, e⟩ := e
        by_cases ht : e.ty = ty
        · obtain ⟨r, t⟩ := e
          simp only at ht
          simp [hr, hf, ht] at h
          subst h ht
          exact ⟨hr.symm, id, List.mem_of_find?_eq_some hf, by simpa using List.find?_some hf⟩
        · simp [hr, hf, ht] at h
    · simp [hr] at h
  · intro h
    simp [lookupLocalResult, Ne.symm h]
  · intro e he ht
    by_cases hr : rid = reg.remoteId
    · simp [lookupLocalResult, regFind, hr, he, ht]
    · simp [lookupLocalResult, hr]

example : lookupLocalResult (some (5 : Byte)) [(⟨7, .isLocal⟩, ⟨3, 1⟩)] "ab" 2 (some ⟨⟨7, .peerId 5⟩, "ab"⟩) =
    .error .badActorType := rfl

/-- Which bytes decode. -/
theorem fromBytes_ok_iff (c : PeerCodec P) (bs : Bytes) :
    (∃ r, Registration.fromBytes c bs = .val r) ↔
      ∃ n seq peer name, bs = n :: (seq ++ peer ++ name) ∧ seq.length = 8 ∧ peer.length = n.val ∧
        (peer ≠ [] → (c.fromBytes peer).isSome = true) ∧ (fromUtf8 name).isSome = true := by
  constructor
  · rintro ⟨r, h⟩
    cases bs with
    | nil => simp [Registration.fromBytes] at h
    | cons n rest =>
      simp only [Registration.fromBytes] at h
      split at h
      · cases h
      · rename_i hlen
        split at h
        · rename_i id s hid hs
          refine ⟨n, rest.take 8, (rest.drop 8).take n.val, rest.drop (8 + n.val), ?_, ?_, ?_, ?_, by simp [hs]⟩
          · congr 1
            rw [← List.take_add, List.take_append_drop]
          · rw [List.length_take]; omega
          · rw [List.length_take, List.length_drop]; omega
          · intro hne
            have hn : n.val ≠ 0 := by
              intro h0
              rw [h0] at hne
              exact hne (List.take_zero ..)
            unfold ActorId.fromBytes at hid
            rw [if_neg (by rw [List.length_take]; omega)] at hid
            dsimp only at hid
            rw [if_pos (by rw [List.length_take]; omega)] at hid
            rw [List.drop_take] at hid
            have h88 : 8 + n.val - 8 = n.val := by omega
            rw [h88] at hid
            split at hid
            · rename_i p hp; simp [hp]
            · cases hid
        · cases h
  · rintro ⟨n, seq, peer, name, rfl, hseq, hpeer, hp, hname⟩
    obtain ⟨s, hs⟩ := Option.isSome_iff_exists.mp hname
    have hlen : (seq ++ peer).length = 8 + n.val := by simp [hseq, hpeer]
    simp only [Registration.fromBytes]
    rw [if_neg (by simp only [List.length_append] at hlen ⊢; omega), ← hlen, List.take_left, List.drop_left, hs]
    unfold ActorId.fromBytes
    rw [if_neg (by omega)]
    dsimp only
    by_cases hn : peer = []
    · subst hn
      rw [if_neg (by simp [hseq])]
      exact ⟨_, rfl⟩
    · obtain ⟨q, hq⟩ := Option.isSome_iff_exists.mp (hp hn)
      have : peer.length ≠ 0 := by simpa using hn
      rw [if_pos (by simp only [List.length_append]; omega), List.drop_left' hseq, hq]
      exact ⟨_, rfl⟩

/-- **C49** (negation of the last clause, for the decoder): bytes that are not of the form length, sequence number, peer
id, name make the decoder panic; among them the empty record that `unregister` writes. -/
theorem malformed_record_panics (c : PeerCodec P) (bs : Bytes)
    (h : ¬ ∃ n seq peer name, bs = n :: (seq ++ peer ++ name) ∧ seq.length = 8 ∧ peer.length = Fin.val n ∧
        (peer ≠ [] → (c.fromBytes peer).isSome = true) ∧ (fromUtf8 name).isSome = true) :
    Registration.fromBytes c bs = .panic := by
  cases hb : Registration.fromBytes c bs with
  | panic => rfl
  | val r => exact absurd ((fromBytes_ok_iff c bs).mp ⟨r, hb⟩) h

example (c : PeerCodec P) : Registration.fromBytes c [] = .panic :=
  malformed_record_panics c [] (by rintro ⟨_, _, _, _, h, _⟩; cases h)

example (c : PeerCodec P) : Registration.fromBytes c [3, 1, 2] = .panic :=
  malformed_record_panics c _ (by
    rintro ⟨n, seq, peer, name, h, hl, _⟩
    have := congrArg List.length h
    simp [hl] at this
    omega)

end Verif.Swarm
