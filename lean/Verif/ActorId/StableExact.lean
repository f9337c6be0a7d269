import Verif.ActorId.Props

/-
C35, exactly: for which ids hash and equality change when the swarm is bootstrapped.
-/

namespace Verif.ActorId

variable {P : Type}

/-- **C35** (exactly, the hash): what an id feeds to the hasher differs between an earlier and a later moment if and only if
the swarm was bootstrapped in between and the id was created in the process, without a peer id. -/
theorem hash_changes_iff (c : PeerCodec P) (w w' : World P) (hw : w.le w') (a : ActorID P) :
    hashInput c w a ≠ hashInput c w' a ↔ w = none ∧ w' ≠ none ∧ a.peer = .isLocal := by
  obtain ⟨seq, peer⟩ := a
  cases peer with
  | peerId p => simp [hashInput, PeerIdKind.get]
  | isLocal =>
    rcases hw with rfl | rfl
    · cases w' with
      | none => simp
      | some p => simpa [hashInput, PeerIdKind.get] using (c.nonempty p)
    · cases w' <;> simp

example : hashInput byteCodec none (new 3) ≠ hashInput byteCodec (some 7) (new 3) ∧
    hashInput byteCodec none (newWithPeerId 3 7) = hashInput byteCodec (some 7) (newWithPeerId 3 7) := by decide

/-- **C35** (exactly, equality): whether two ids are equal differs between an earlier and a later moment if and only if the
swarm was bootstrapped in between, they have the same number, and one was created in the process while the other names the
peer the process has become. They are different before and equal afterwards. -/
theorem equality_changes_iff [DecidableEq P] (w w' : World P) (hw : w.le w') (a b : ActorID P) :
    eq w a b ≠ eq w' a b ↔
      w = none ∧ a.seq = b.seq ∧ ∃ p, w' = some p ∧
        (a.peer = .isLocal ∧ b.peer = .peerId p ∨ a.peer = .peerId p ∧ b.peer = .isLocal) := by
  obtain ⟨i, x⟩ := a
  obtain ⟨j, y⟩ := b
  rcases hw with rfl | rfl
  · cases w' with
    | none => simp
    | some q =>
      by_cases hij : i = j
      · subst hij
        cases x with
        | isLocal =>
          cases y with
          | isLocal => simp [eq, PeerIdKind.get]
          | peerId p => by_cases hp : q = p <;> simp [eq, PeerIdKind.get, hp] <;> exact fun h => hp h.symm
        | peerId p =>
          cases y with
          | isLocal => by_cases hp : p = q <;> simp [eq, PeerIdKind.get, hp]
          | peerId p' => simp [eq, PeerIdKind.get]
      · have : (i == j) = false := by simp [hij]
        simp [eq, this, hij]
  · constructor
    · exact fun h => absurd rfl h
    · rintro ⟨rfl, -, p, hp, -⟩; cases hp

/-- A later moment, and the two ids of one actor. -/
example : eq (none : World Byte) (new 3) (newWithPeerId 3 7) = false ∧ eq (some 7) (new 3) (newWithPeerId 3 7) = true ∧
    eq (some 8) (new 3) (newWithPeerId 3 7) = false := by decide

end Verif.ActorId
