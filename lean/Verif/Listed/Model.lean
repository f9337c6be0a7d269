import Verif.Lifecycle.Start

/-!
# The remote registry and the life of an actor

`REMOTE_REGISTRY` (`src/remote.rs` L76-83) is how requests of other nodes, death signals and lookups find an actor of this
node. An entry holds an `ActorRef`. Entries are made by `ActorSwarm::register` (`src/remote/swarm.rs` L351-393) when the
swarm has answered, and by `ActorRef::link_remote` (`src/actor/actor_ref.rs` L601-608); they are removed in one place,
near the end of `run_actor_lifecycle` (`src/actor/spawn.rs` L567), and not by `unregister` (`src/remote/swarm.rs`
L395-413).

Each actor is a `Lifecycle.St`, whose `ext` counts the references held outside its task: those of the users, those of
the registry and those of registrations that wait for the swarm.
-/

namespace Verif.Listed

open Verif.Mailbox Verif.Lifecycle

/-- The actors of a node; `listed`: the keys of `REMOTE_REGISTRY` (`src/remote.rs` L76-83); `waiting`: the actors of calls
of `register` that wait for the answer of the swarm (`src/remote/swarm.rs` L365-372), each with a reference of its own. -/
structure Reg where
  act : Id → St
  listed : List Id := []
  waiting : List Id := []

/-- All actors prepared, nothing registered; `src/actor/spawn.rs` L306-326, `src/remote.rs` L76-77. -/
def Reg.fresh (cap : Id → Option Nat) : Reg := { act := fun i => after (cap i) [] }

/-- One actor takes a step. Bookkeeping, models no code of its own (the actors are those of `src/actor/spawn.rs`
L415-591). -/
def Reg.on (R : Reg) (i : Id) (op : Op) : Reg :=
  { R with act := fun x => if x = i then (R.act i).step op else R.act x }

/-- References to actor `i` that the registry and the waiting registrations hold. Bookkeeping over
`RemoteRegistryActorRef::actor_ref` (`src/remote.rs` L80) and `src/remote/swarm.rs` L351-380. -/
def Reg.share (R : Reg) (i : Id) : Nat := R.listed.count i + R.waiting.count i

/-- `REMOTE_REGISTRY.lock().await.insert(id, ..)` with a reference already made: `src/remote/swarm.rs` L376-383,
`src/actor/actor_ref.rs` L601-608. An entry that is replaced is dropped, with its reference. -/
def Reg.insert (R : Reg) (i : Id) : Reg :=
  if i ∈ R.listed then R.on i .dropRef else { R with listed := R.listed ++ [i] }

/-- `REMOTE_REGISTRY.lock().await.remove(&id)`, `src/actor/spawn.rs` L567: the entry is dropped, with its reference. -/
def Reg.remove (R : Reg) (i : Id) : Reg :=
  if i ∈ R.listed then { R.on i .dropRef with listed := R.listed.erase i } else R

/-- Operations: those of one actor, and the calls that concern the registry. `src/actor/actor_ref.rs` L112-120,
L589-618; `src/remote/swarm.rs` L351-413. -/
inductive ROp where
  | loc (i : Id) (op : Op)
  /-- `ActorRef::register`, up to the wait for the swarm -/
  | register (i : Id)
  /-- the answer of the swarm to a registration arrives: an insert, or an error -/
  | answer (i : Id) (ok : Bool)
  /-- a registration is no longer waited for: its future is dropped -/
  | abandon (i : Id)
  /-- `ActorRef::link_remote`, as far as the registry is concerned -/
  | linkRemote (i : Id)
  /-- `ActorSwarm::unregister` for a name of actor `i` -/
  | unregister (i : Id)
  deriving DecidableEq, Repr

/-- One step. A user drops only references of their own; a user registers and links only actors they hold a reference to.
`src/actor/spawn.rs` L565-590 (the entry is removed when the notifications are out, before the task returns),
`src/remote/swarm.rs` L351-413, `src/actor/actor_ref.rs` L112-120, L589-618. -/
def Reg.step (R : Reg) : ROp → Reg
  | .loc i .dropRef => if R.share i < (R.act i).ext then R.on i .dropRef else R
  | .loc i .finish =>
    match (R.act i).phase with
    | .notifying _ [] _ => (R.remove i).on i .finish
    | _ => R
  | .loc i op => R.on i op
  | .register i =>
    if R.share i < (R.act i).ext then { R.on i .cloneRef with waiting := R.waiting ++ [i] } else R
  | .answer i ok =>
    if i ∈ R.waiting then
      let R := { R with waiting := R.waiting.erase i }
      if ok then R.insert i else R.on i .dropRef
    else R
  | .abandon i => if i ∈ R.waiting then { R with waiting := R.waiting.erase i }.on i .dropRef else R
  | .linkRemote i => if R.share i < (R.act i).ext then (R.on i .cloneRef).insert i else R
  | .unregister _ => R

/-- A history: `Reg.step` along a list (`src/actor/spawn.rs` L415-591). -/
def Reg.exec (R : Reg) (ops : List ROp) : Reg := ops.foldl Reg.step R

/-- The node after a history. `src/actor/spawn.rs` L306-326. -/
def regAfter (cap : Id → Option Nat) (ops : List ROp) : Reg := (Reg.fresh cap).exec ops

end Verif.Listed
