import Verif.Swarm.Model

/-
Model of what the actors of a node learn about lost connections: `handle_event` for `ConnectionClosed`,
`src/remote/swarm.rs` L791-818, with the registry and the links it reads.
-/

namespace Verif.Swarm

open Verif.ActorId

variable {P : Type}

/-- The node with peer id `own`. Actors of the node are numbers. `registry`: the actors in `REMOTE_REGISTRY`
(`src/remote.rs` L76-83; its keys are ids, of which each actor has one, C33). `links a`: the keys of the links of actor `a`
(`Links`, `src/actor/actor_ref.rs` L1352-1360), local and remote ones. `conns p`: the number of open connections to peer
`p`, kept by libp2p. `tasks`: the tasks spawned by `handle_event` (`src/remote/swarm.rs` L792) that have not run yet.
`signals`: the link-died signals sent, to which actor, about which id, with reason `PeerDisconnected`; with the peer whose
connection closed. `closures`, `ran`: history only, the peers of the closed connections and of the tasks that ran. -/
structure Peers (P : Type) where
  own : P
  conns : P → Nat := fun _ => 0
  registry : List Nat := []
  links : Nat → List (ActorID P) := fun _ => []
  stopped : List Nat := []
  tasks : List P := []
  signals : List (P × Nat × ActorID P) := []
  closures : List P := []
  ran : List P := []

/-- The steps of the node, as far as they concern connections, the registry and links.
`src/remote/swarm.rs` L791-818; `src/actor/actor_ref.rs` L589-618; `src/actor/spawn.rs` L567. -/
inductive POp (P : Type) where
  | connected (p : P)
  /-- one connection to `p` closes: `SwarmEvent::ConnectionClosed` -/
  | closed (p : P)
  /-- the `n`-th of the spawned tasks runs -/
  | task (n : Nat)
  | register (a : Nat)
  | linkRemote (a : Nat) (id : ActorID P)
  | linkRequest (a : Nat) (id : ActorID P)
  | linkLocal (a : Nat) (seq : Fin (2 ^ 64))
  | unlink (a : Nat) (id : ActorID P)
  | stop (a : Nat)

/-- Insertion of a key, with the equality of ids (`HashMap::insert`). `src/actor/actor_ref.rs`
L610-613. -/
def addLink [DecidableEq P] (own : P) (l : List (ActorID P)) (id : ActorID P) : List (ActorID P) :=
  if l.any (fun x => ActorId.eq (some own) x id) then l else l ++ [id]

/-- Insertion into the registry, keyed by actor. `src/actor/actor_ref.rs` L601-608. -/
def addActor (l : List Nat) (a : Nat) : List Nat := if a ∈ l then l else l ++ [a]

/-- The links of `a` replaced. Bookkeeping for `links.lock().await`, `src/actor/actor_ref.rs`
L610-613, L720. -/
def Peers.setLinks (s : Peers P) (a : Nat) (l : List (ActorID P)) : Peers P :=
  { s with links := fun b => if b = a then l else s.links b }

/-- The signals of the task spawned when a connection to `p` closes: `src/remote/swarm.rs` L794-814. One for each
registered actor and each of its links that names an actor of `p`. Simplified: the task reads the registry and all links
at one moment; the signals are sent (whether the actor is still there to take one is not modelled).
`Verif/Swarm/Sweep.lean` has the task step by step. -/
def Peers.closedSignals [DecidableEq P] (s : Peers P) (p : P) : List (P × Nat × ActorID P) :=
  s.registry.flatMap (fun a => ((s.links a).filter (fun id => id.peer.get (some s.own) = some p)).map (fun id => (p, a, id)))

/-- One step: `ConnectionClosed`, `src/remote/swarm.rs` L791-818 (the handler ignores `num_established`); `ActorSwarm::register` L375-385;
`ActorRef::link_remote`, `src/actor/actor_ref.rs` L601-613; `_internal::link`, `src/remote/_internal.rs` L225-251;
`ActorRef::link`, `src/actor/actor_ref.rs` L519-525; `unlink` L642-645, L720, the removal after `on_link_died`, `src/actor/kind.rs` L140, and `_internal::unlink`
`src/remote/_internal.rs` L253-274; the end of an actor, `src/actor/spawn.rs` L517-567. -/
def Peers.step [DecidableEq P] (s : Peers P) : POp P → Peers P
  | .connected p => { s with conns := fun q => if q = p then s.conns q + 1 else s.conns q }
  | .closed p =>
    if s.conns p = 0 then s
    else { s with
      conns := fun q => if q = p then s.conns q - 1 else s.conns q
      tasks := s.tasks ++ [p]
      closures := s.closures ++ [p] }
  | .task n =>
    match s.tasks[n]? with
    | none => s
    | some p => { s with
      tasks := s.tasks.eraseIdx n
      signals := s.signals ++ s.closedSignals p
      ran := s.ran ++ [p] }
  | .register a => { s with registry := addActor s.registry a }
  | .linkRemote a id =>
    { s with registry := addActor s.registry a }.setLinks a (addLink s.own (s.links a) id)
  | .linkRequest a id => if a ∈ s.registry then s.setLinks a (addLink s.own (s.links a) id) else s
  | .linkLocal a seq => s.setLinks a (addLink s.own (s.links a) ⟨seq, .isLocal⟩)
  | .unlink a id => s.setLinks a ((s.links a).filter (fun x => !ActorId.eq (some s.own) x id))
  | .stop a =>
    { s with registry := s.registry.filter (· != a), stopped := a :: s.stopped }.setLinks a []

/-- The state after a sequence of steps, from a node that has just been bootstrapped
(`ActorSwarm::bootstrap_with_swarm`, `src/remote/swarm.rs` L140-166). -/
def Peers.run [DecidableEq P] (own : P) (ops : List (POp P)) : Peers P := ops.foldl Peers.step { own := own }

end Verif.Swarm
