import Verif.ActorId.Model

/-!
Property theorems about actor ids: C33 (uniqueness), C34 (bytes), C35 (equality and hash).
-/

namespace Verif.ActorId

variable {P : Type}

/-- A codec for the examples: peer ids are bytes. -/
def byteCodec : PeerCodec Byte where
  toBytes p := [p]
  fromBytes := fun | [p] => some p | _ => none
  roundtrip _ := rfl
  nonempty _ := by simp

/-! ### C33 -/

theorem generated_snoc (bits : Nat) (ts : List Nat) (t : Nat) :
    (generated bits (ts ++ [t]) : Gen P) = (generated bits ts).generate bits t := by
  simp [generated, List.foldl_append]

theorem generated_inv (bits : Nat) (ts : List Nat) : (generated bits ts : Gen P).counter = ts.length % 2 ^ bits ∧
    (generated bits ts : Gen P).ids.length = ts.length ∧
    ∀ i x, (generated bits ts : Gen P).ids[i]? = some x →
      x.2 = new (Fin.ofNat (2 ^ 64) (i % 2 ^ bits)) := by
  suffices h : ∀ l : List Nat, (generated bits l.reverse : Gen P).counter = l.length % 2 ^ bits ∧
      (generated bits l.reverse : Gen P).ids.length = l.length ∧
      ∀ i x, (generated bits l.reverse : Gen P).ids[i]? = some x →
        x.2 = new (Fin.ofNat (2 ^ 64) (i % 2 ^ bits)) by
    have := h ts.reverse
    simpa using this
  intro l
  induction l with
  | nil => simp [generated]
  | cons t l ih =>
    obtain ⟨h1, h2, h3⟩ := ih
    rw [List.reverse_cons, generated_snoc]
    refine ⟨?_, ?_, ?_⟩
    · simp [Gen.generate, h1]
    · simp [Gen.generate, h2]
    · intro i x hx
      simp only [Gen.generate] at hx
      by_cases hi : i < (generated bits l.reverse : Gen P).ids.length
      · rw [List.getElem?_append_left hi] at hx
        exact h3 i x hx
      · rw [List.getElem?_append_right (by omega)] at hx
        have hi2 : i - (generated bits l.reverse : Gen P).ids.length = 0 := by
          rcases Nat.eq_zero_or_pos (i - (generated bits l.reverse : Gen P).ids.length) with h | h
          · exact h
          · rw [List.getElem?_eq_none (by simp only [List.length_singleton]; omega)] at hx
            cases hx
        rw [hi2] at hx
        simp only [List.getElem?_cons_zero, Option.some.injEq] at hx
        subst hx
        have : i = l.length := by omega
        rw [h1, this]

/-- **C33** The ids of two actors created in one process are never equal, whatever threads created
them and in whichever order, and at whatever moment (before or after the swarm is bootstrapped) they
are compared: for as many actors as the counter has values. -/
theorem generated_ids_distinct [DecidableEq P] (bits : Nat) (hb : bits ≤ 64) (ts : List Nat)
    (hn : ts.length ≤ 2 ^ bits) (w : World P) (i j : Nat) (hij : i ≠ j) (x y : Nat × ActorID P)
    (hx : (generated bits ts).ids[i]? = some x) (hy : (generated bits ts).ids[j]? = some y) :
    eq w x.2 y.2 = false := by
  obtain ⟨_, hl, h⟩ := generated_inv (P := P) bits ts
  have hi : i < 2 ^ bits := by
    have := (List.getElem?_eq_some_iff.mp hx).1
    omega
  have hj : j < 2 ^ bits := by
    have := (List.getElem?_eq_some_iff.mp hy).1
    omega
  have hp : 2 ^ bits ≤ 2 ^ 64 := Nat.pow_le_pow_right (by decide) hb
  rw [h i x hx, h j y hy, Nat.mod_eq_of_lt hi, Nat.mod_eq_of_lt hj]
  have hi2 := Nat.mod_eq_of_lt (Nat.lt_of_lt_of_le hi hp)
  have hj2 := Nat.mod_eq_of_lt (Nat.lt_of_lt_of_le hj hp)
  have : (Fin.ofNat (2 ^ 64) i == Fin.ofNat (2 ^ 64) j) = false := by
    rw [beq_eq_false_iff_ne]
    intro he
    have := congrArg Fin.val he
    simp only [Fin.ofNat] at this
    rw [hi2, hj2] at this
    exact hij this
  simp [eq, new, this]

example : ((generated 64 [3, 1, 3, 2] : Gen Byte).ids.map (fun x => (x.1, x.2.seq.val))) =
    [(3, 0), (1, 1), (3, 2), (2, 3)] := by decide

/-- **C33** An id created in a process is never equal to an id of another peer, neither before the
process has a peer id nor afterwards. -/
theorem never_equal_to_other_peers [DecidableEq P] (bits : Nat) (ts : List Nat) (w : World P) (q : P)
    (hq : w ≠ some q) (seq : Fin (2 ^ 64)) (x : Nat × ActorID P) (hx : x ∈ (generated bits ts).ids) :
    eq w x.2 (newWithPeerId seq q) = false := by
  obtain ⟨i, hi⟩ := List.getElem?_of_mem hx
  rw [(generated_inv bits ts).2.2 i x hi]
  simp [eq, new, newWithPeerId, PeerIdKind.get, hq]

example : (3, new 0) ∈ (generated 64 [3, 1] : Gen Byte).ids ∧ (some 4 : World Byte) ≠ some 5 := by decide

/-- **C33** The bound is exact: one more call, and the counter starts again with the ids of the first
actors. -/
theorem ids_repeat_after_wraparound [DecidableEq P] (bits : Nat) (ts : List Nat) (w : World P) (i : Nat)
    (x y : Nat × ActorID P) (hx : (generated bits ts).ids[i]? = some x)
    (hy : (generated bits ts).ids[i + 2 ^ bits]? = some y) : eq w x.2 y.2 = true := by
  obtain ⟨_, _, h⟩ := generated_inv (P := P) bits ts
  rw [h _ x hx, h _ y hy]
  simp [eq]

example : ((generated 1 [0, 0, 0] : Gen Byte).ids.map (fun x => x.2.seq.val)) = [0, 1, 0] := by decide

/-! ### C34 -/

theorem toLe_length (k n : Nat) : (toLe k n).length = k := by
  induction k generalizing n with
  | zero => rfl
  | succ k ih => simp [toLe, ih]

theorem fromLe_toLe (k n : Nat) (h : n < 256 ^ k) : fromLe (toLe k n) = n := by
  induction k generalizing n with
  | zero =>
    have : n = 0 := by simpa using h
    simp [toLe, fromLe, this]
  | succ k ih =>
    simp only [toLe, fromLe]
    rw [ih (n / 256) (by rw [Nat.pow_succ] at h; omega)]
    omega

theorem seq_roundtrip (s : Fin (2 ^ 64)) : Fin.ofNat (2 ^ 64) (fromLe (toLe 8 s.val)) = s := by
  rw [fromLe_toLe 8 s.val s.isLt]
  apply Fin.ext
  simp

/-- The peer id that goes into the bytes. -/
theorem toBytes_eq (c : PeerCodec P) (w : World P) (a : ActorID P) :
    toBytes c w a = toLe 8 a.seq.val ++ (match a.peer.get w with | some p => c.toBytes p | none => []) := by
  unfold toBytes
  cases h : a.peer.get w with
  | some p => rfl
  | none =>
    cases hp : a.peer with
    | isLocal => rw [hp] at h; simp only [PeerIdKind.get] at h; subst h; rfl
    | peerId p => rw [hp] at h; simp [PeerIdKind.get] at h

theorem fromBytes_toBytes (c : PeerCodec P) (w : World P) (a : ActorID P) :
    fromBytes c (toBytes c w a) =
      .ok ⟨a.seq, match a.peer.get w with | some p => .peerId p | none => .isLocal⟩ := by
  rw [toBytes_eq]
  have hl := toLe_length 8 a.seq.val
  cases a.peer.get w with
  | none =>
    unfold fromBytes
    simp only [List.append_nil, hl]
    rw [List.take_of_length_le (by omega), seq_roundtrip]
    simp
  | some p =>
    have hne := c.nonempty p
    have hpos : 0 < (c.toBytes p).length := List.length_pos_iff.mpr hne
    unfold fromBytes
    simp only [List.length_append, hl]
    rw [List.take_append_of_le_length (by omega), List.take_of_length_le (by omega), seq_roundtrip,
      List.drop_append_of_le_length (by omega), List.drop_of_length_le (by omega), List.nil_append, c.roundtrip]
    simp only [show ¬ (8 + (c.toBytes p).length < 8) by omega, show 8 + (c.toBytes p).length > 8 by omega, if_true,
      if_false]

/-- **C34** Decoding the bytes of an id gives an equal id, in whatever state of bootstrapping it was
written (`w`) and at any later moment of the process (`w'`). -/
theorem bytes_roundtrip [DecidableEq P] (c : PeerCodec P) (w w' : World P) (hw : w.le w') (a : ActorID P) :
    ∃ b, fromBytes c (toBytes c w a) = .ok b ∧ eq w' b a = true := by
  refine ⟨_, fromBytes_toBytes c w a, ?_⟩
  cases hp : a.peer with
  | peerId p => simp [eq, PeerIdKind.get, hp]
  | isLocal =>
    rcases hw with rfl | rfl
    · simp [eq, PeerIdKind.get, hp]
    · cases w' <;> simp [eq, PeerIdKind.get, hp]

example : fromBytes byteCodec (toBytes byteCodec (some 9) (new 258)) = .ok (newWithPeerId 258 9) := by decide
example : fromBytes byteCodec (toBytes byteCodec none (new 258)) = .ok (new 258) := by decide

/-- **C34** `to_bytes` is injective: ids with the same bytes are equal. -/
theorem bytes_injective [DecidableEq P] (c : PeerCodec P) (w : World P) (a b : ActorID P)
    (h : toBytes c w a = toBytes c w b) : eq w a b = true := by
  have ha := fromBytes_toBytes c w a
  have hb := fromBytes_toBytes c w b
  rw [h, hb] at ha
  injection ha with ha
  have h1 := congrArg ActorID.seq ha
  have h2 := congrArg ActorID.peer ha
  simp only at h1 h2
  have h3 : a.peer.get w = b.peer.get w := by
    revert h2
    cases a.peer.get w <;> cases b.peer.get w <;> simp_all
  simp [eq, h1, h3]

/-- A local id, and one with the process's own peer id: the same bytes, equal. A different number: different bytes. -/
example : toBytes byteCodec (some 9) (new 258) = toBytes byteCodec (some 9) (newWithPeerId 258 9) ∧
    eq (some (9 : Byte)) (new 258) (newWithPeerId 258 9) = true ∧
    toBytes byteCodec (some 9) (new 258) ≠ toBytes byteCodec (some 9) (new 259) := by decide

/-- **C34** The bytes written in a bootstrapped process denote, in every process that reads them, the
actor of the writer: an id with the same sequence number and the peer id of the writer. -/
theorem bytes_name_the_writer (c : PeerCodec P) (p : P) (seq : Fin (2 ^ 64)) :
    fromBytes c (toBytes c (some p) (new seq)) = .ok (newWithPeerId seq p) := by
  rw [fromBytes_toBytes]
  rfl

/-- Written by peer 4; peer 5 does not take it for its own. -/
example : fromBytes byteCodec (toBytes byteCodec (some 4) (new 1)) = .ok (newWithPeerId 1 4) ∧
    eq (some (5 : Byte)) (newWithPeerId 1 4) (new 1) = false := by decide

/-- **C34** But bytes written before bootstrapping denote an actor of whoever reads them: read in the
process with peer id `q`, the id is equal to the id of `q`'s own actor with that sequence number. -/
theorem bytes_before_bootstrap_name_the_reader [DecidableEq P] (c : PeerCodec P) (q : P) (seq : Fin (2 ^ 64)) :
    ∃ b, fromBytes c (toBytes c none (new seq)) = .ok b ∧ eq (some q) b (newWithPeerId seq q) = true := by
  refine ⟨_, fromBytes_toBytes c none _, ?_⟩
  simp [eq, new, newWithPeerId, PeerIdKind.get]

/-- Written before bootstrapping; peer 5 takes it for its own actor 1. -/
example : fromBytes byteCodec (toBytes byteCodec none (new 1)) = .ok (new 1) ∧
    eq (some (5 : Byte)) (new 1) (newWithPeerId 1 5) = true := by decide

/-- **C34** Decoding of arbitrary bytes: it panics exactly if there are fewer than 8 bytes. So the claim
that it returns an error is false for those. -/
theorem from_bytes_panics_iff_short (c : PeerCodec P) (bs : List Byte) :
    fromBytes c bs = .panic ↔ bs.length < 8 := by
  unfold fromBytes
  by_cases h : bs.length < 8
  · simp [h]
  · simp only [h, if_false, iff_false]
    split
    · split <;> simp
    · simp

example : fromBytes byteCodec [1, 2, 3] = .panic := by decide

/-- **C34** Decoding arbitrary bytes: at least 8 bytes are decoded or rejected, never a panic, and if they
are decoded the id stands for those bytes: it has the sequence number of the first 8 and the peer id of
the others. Missing: fewer than 8 bytes, for which the code panics (`from_bytes_panics_iff_short`). -/
theorem from_bytes_total_partial (c : PeerCodec P) (bs : List Byte) (h : 8 ≤ bs.length) :
    (fromBytes c bs = .err ∧ 8 < bs.length ∧ c.fromBytes (bs.drop 8) = none) ∨
    (∃ a, fromBytes c bs = .ok a ∧ a.seq.val = fromLe (bs.take 8) % 2 ^ 64 ∧
      ((bs.length = 8 ∧ a.peer = .isLocal) ∨
        ∃ p, c.fromBytes (bs.drop 8) = some p ∧ a.peer = .peerId p)) := by
  unfold fromBytes
  simp only [show ¬ bs.length < 8 by omega, if_false]
  by_cases h8 : bs.length > 8
  · simp only [h8, if_true]
    cases hp : c.fromBytes (bs.drop 8) with
    | none => simp
    | some p => right; exact ⟨_, rfl, rfl, Or.inr ⟨p, rfl, rfl⟩⟩
  · simp only [h8, if_false]
    right
    exact ⟨_, rfl, rfl, Or.inl ⟨by omega, rfl⟩⟩

example : fromBytes byteCodec [1, 0, 0, 0, 0, 0, 0, 0, 4, 4] = .err := by decide

/-! ### C35 -/

/-- **C35** At every moment equality of ids is an equivalence, and equal ids hash equally (and, hash
collisions aside, only those do). -/
theorem eq_equivalence_hash [DecidableEq P] (c : PeerCodec P) (w : World P) :
    (∀ a, eq w a a = true) ∧ (∀ a b, eq w a b = true → eq w b a = true) ∧
    (∀ a b d, eq w a b = true → eq w b d = true → eq w a d = true) ∧
    (∀ a b, eq w a b = true ↔ hashInput c w a = hashInput c w b) := by
  refine ⟨fun a => by simp [eq], fun a b h => ?_, fun a b d h h' => ?_, fun a b => ⟨fun h => ?_, fun h => ?_⟩⟩
  · simp only [eq, Bool.and_eq_true, beq_iff_eq] at h ⊢
    exact ⟨h.1.symm, h.2.symm⟩
  · simp only [eq, Bool.and_eq_true, beq_iff_eq] at h h' ⊢
    exact ⟨h.1.trans h'.1, h.2.trans h'.2⟩
  · simp only [eq, Bool.and_eq_true, beq_iff_eq] at h
    simp [hashInput, h.1, h.2]
  · simp only [hashInput, Prod.mk.injEq] at h
    have h2 : a.peer.get w = b.peer.get w := by
      have := h.2
      revert this
      cases a.peer.get w with
      | none =>
        cases b.peer.get w with
        | none => simp
        | some q => exact fun hq => (c.nonempty q hq.symm).elim
      | some p =>
        cases b.peer.get w with
        | none => exact fun hp => (c.nonempty p hp).elim
        | some q =>
          intro hpq
          replace hpq : c.toBytes p = c.toBytes q := hpq
          have h1 := c.roundtrip p
          rw [hpq, c.roundtrip q] at h1
          exact h1.symm
    simp [eq, Fin.ext h.1, h2]

example : eq (some (4 : Byte)) (new 1) (newWithPeerId 1 4) = true := by decide

/-- **C35**, the code does the opposite: bootstrapping changes the hash of every id created in the process,
so that one used as a key before is looked for elsewhere afterwards; and it changes equality, as such an
id becomes equal to the one with the process's own peer id. -/
theorem bootstrap_changes_hash_and_equality [DecidableEq P] (c : PeerCodec P) (p : P) (seq : Fin (2 ^ 64)) :
    hashInput c none (new seq) ≠ hashInput c (some p) (new seq) ∧
    eq none (new seq) (newWithPeerId seq p) = false ∧ eq (some p) (new seq) (newWithPeerId seq p) = true := by
  refine ⟨?_, by simp [eq, new, newWithPeerId, PeerIdKind.get], by simp [eq, new, newWithPeerId, PeerIdKind.get]⟩
  simp only [hashInput, new, PeerIdKind.get, ne_eq, Prod.mk.injEq, true_and]
  exact fun h => c.nonempty p h.symm

example : hashInput byteCodec none (new 1) = (1, []) ∧ hashInput byteCodec (some 7) (new 1) = (1, [7]) := by decide

/-- A hash map keyed by actor ids: each entry is stored under the hash its key had when it was inserted
(`hash` is the hasher). The link maps (`src/actor/actor_ref.rs` L1357) and `REMOTE_REGISTRY`
(`src/remote.rs` L76-83) are such maps. -/
def keyFind [DecidableEq P] {V : Type} (c : PeerCodec P) (hash : Nat × List Byte → Nat) (w : World P)
    (entries : List (Nat × ActorID P × V)) (k : ActorID P) : Option V :=
  (entries.find? (fun e => e.1 == hash (hashInput c w k) && eq w e.2.1 k)).map (·.2.2)

/-- **C35**, the code does the opposite: an entry of a hash map stored under an id of the process before
bootstrapping is found then, and is not found afterwards (unless the two hashes happen to collide). -/
theorem key_not_found_after_bootstrap [DecidableEq P] {V : Type} (c : PeerCodec P) (hash : Nat × List Byte → Nat)
    (p : P) (seq : Fin (2 ^ 64)) (v : V)
    (hh : hash (hashInput c none (new seq)) ≠ hash (hashInput c (some p) (new seq))) :
    let entries := [(hash (hashInput c none (new seq)), (new seq : ActorID P), v)]
    keyFind c hash none entries (new seq) = some v ∧ keyFind c hash (some p) entries (new seq) = none := by
  intro entries
  have he : eq none (new seq : ActorID P) (new seq) = true := by simp [eq]
  constructor
  · simp [entries, keyFind, he]
  · simp [entries, keyFind, hh]

example : (fun x : Nat × List Byte => x.2.length) (hashInput byteCodec none (new 3)) ≠
    (fun x : Nat × List Byte => x.2.length) (hashInput byteCodec (some 7) (new 3)) := by decide

/-- **C35** What is stable: as long as the swarm is not bootstrapped in between nothing changes; ids with
a peer id, as received from other peers, never change; and equality of ids created in the process never
changes. Missing: the hash of ids created in the process, and their equality with ids that have a peer
id, change when the swarm is bootstrapped (`bootstrap_changes_hash_and_equality`). -/
theorem eq_hash_stable_partial [DecidableEq P] (c : PeerCodec P) (w w' : World P) (hw : w.le w') :
    (∀ p seq, hashInput c w (newWithPeerId seq p) = hashInput c w' (newWithPeerId seq p)) ∧
    (∀ p q i j, eq w (newWithPeerId i p) (newWithPeerId j q) = eq w' (newWithPeerId i p) (newWithPeerId j q)) ∧
    (∀ i j, eq w (new i) (new j) = eq w' (new i) (new j)) ∧
    (w ≠ none → (∀ a, hashInput c w a = hashInput c w' a) ∧ ∀ a b, eq w a b = eq w' a b) := by
  refine ⟨fun p seq => rfl, fun p q i j => rfl, fun i j => by simp [eq, new, PeerIdKind.get], fun hn => ?_⟩
  rcases hw with h | h
  · exact (hn h).elim
  · subst h; exact ⟨fun a => rfl, fun a b => rfl⟩

example : World.le (none : World Byte) (some 3) := Or.inl rfl

end Verif.ActorId
