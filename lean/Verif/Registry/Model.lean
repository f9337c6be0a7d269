import Verif.Map

/-
Model of the local actor registry, `src/registry.rs`, and of `ActorRef::register` and `lookup` without
the `remote` feature (`src/actor/actor_ref.rs` L97-106, L126-132). The global registry is behind a
`std::sync::Mutex` (`src/registry.rs` L16-17), so that its operations happen one after the other.
-/

namespace Verif.Registry

/-- `AnyActorRef`, `src/registry.rs` L19: an actor reference, with the actor type it was registered with
(what `downcast_ref` compares). Simplification: actor types and actors are numbers. -/
structure Entry where
  ty : Nat
  actor : Nat
  deriving DecidableEq, Repr

/-- `ActorRegistry`, `src/registry.rs` L23-25. `Name` is the type of names. -/
abbrev Reg (Name : Type) := Map Name Entry

variable {Name : Type} [DecidableEq Name]

/-- The result of `get`: `Result<Option<ActorRef<A>>, RegistryError>`, `src/registry.rs` L71. -/
inductive Got where
  | nothing
  | actor (a : Nat)
  | badActorType
  deriving DecidableEq, Repr

/-- `ActorRegistry::get::<A>`, `src/registry.rs` L71-86, for actor type `ty`. -/
def Reg.get (r : Reg Name) (ty : Nat) (n : Name) : Got :=
  match Map.find r n with
  | none => .nothing
  | some e => if e.ty = ty then .actor e.actor else .badActorType

/-- `contains_name`, `src/registry.rs` L89-95. -/
def Reg.containsName (r : Reg Name) (n : Name) : Bool := Map.has r n

/-- `insert`, `src/registry.rs` L98-106: the registry afterwards, and whether there was an entry. -/
def Reg.insert (r : Reg Name) (n : Name) (e : Entry) : Reg Name × Bool :=
  (Map.put r n e, (Map.find r n).isSome)

/-- `remove`, `src/registry.rs` L109-115. -/
def Reg.remove (r : Reg Name) (n : Name) : Reg Name × Bool :=
  (Map.del r n, (Map.find r n).isSome)

/-- `clear`, `src/registry.rs` L63-65. -/
def Reg.clear (_ : Reg Name) : Reg Name := []

/-- `names`, `src/registry.rs` L48-50. -/
def Reg.names (r : Reg Name) : List Name := Map.keys r

/-- `len`, `src/registry.rs` L53-55. -/
def Reg.len (r : Reg Name) : Nat := r.length

/-- `is_empty`, `src/registry.rs` L58-60. -/
def Reg.isEmpty (r : Reg Name) : Bool := r.length == 0

/-- The operations that change a registry. `insert`, `remove`, `clear`, `src/registry.rs` L63-115;
`get` and the others leave it as it is. -/
inductive Op (Name : Type) where
  | insert (n : Name) (e : Entry)
  | remove (n : Name)
  | clear

/-- `src/registry.rs` L63-115. -/
def Reg.step (r : Reg Name) : Op Name → Reg Name
  | .insert n e => (r.insert n e).1
  | .remove n => (r.remove n).1
  | .clear => r.clear

/-- What `insert` and `remove` return; nothing for `clear`. `src/registry.rs` L98-115. -/
def Reg.result (r : Reg Name) : Op Name → Option Bool
  | .insert n e => some (r.insert n e).2
  | .remove n => some (r.remove n).2
  | .clear => none

/-- The registry after a history, starting from `ActorRegistry::new()`, `src/registry.rs` L29-33. -/
def after (ops : List (Op Name)) : Reg Name := ops.foldl Reg.step []

end Verif.Registry
