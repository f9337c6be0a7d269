/-
Model of the end of an actor's task as far as the swarm has to do with it (src/actor/spawn.rs L517-590): the futures that
tell the links, in the `FuturesUnordered`, the removal from the remote registry, and the publication of what `on_stop`
returned. The swarm may end at any time (see `Verif.Boot.Model`, op `ends`).

What stands for what:
* `links` is the link table in the order in which it is drained (L521), which is that of the `HashMap`: any order;
* the `FuturesUnordered` is a queue of futures that have been pushed or woken, in that order, and a list of those that
  wait; `next` polls the first of the queue;
* the outcome of a poll (is there room in the mailbox of the linked actor, has the answer come) is chosen by the
  environment;
* `on_stop` has run: what it returned is not in the model, only whether it has been published.
-/

namespace Verif.Boot.Ending

/-- A link (src/actor/spawn.rs L523, L536; `Link` src/actor/actor_ref.rs): to an actor of this node or of another. -/
inductive Link
  | here (i : Nat)
  | there (i : Nat)
  deriving DecidableEq, Repr

/-- A future that tells a link: `mailbox.signal_link_died` (src/actor/spawn.rs L525-533), `swarm.signal_link_died` before
its command has been sent (L539-555), or behind that and waiting for the answer (src/remote/swarm.rs L477-483). -/
inductive Fut
  | here (i : Nat)
  | there (i : Nat)
  | asked (i : Nat)
  deriving DecidableEq, Repr

/-- Where the task is: polling the futures (src/actor/spawn.rs L565), behind the removal from the registry (L567), behind
the publication (L590), or ended by a panic. -/
inductive Phase
  | telling
  | unlisted
  | over
  | crashed
  deriving DecidableEq, Repr

/-- The state. `swarm` says whether the receiver of the swarm's commands exists; `told` are the actors here that got the
signal, `deaf` those whose mailbox was closed, `asked` those elsewhere for which the command was sent,
`answered` those for which the swarm has answered it, all in order; `listed` whether the actor is in
`REMOTE_REGISTRY`; `published` whether `shutdown_error` is set (src/actor/spawn.rs L517-590). -/
structure State where
  phase : Phase := .telling
  ready : List Fut := []
  waiting : List Fut := []
  swarm : Bool := true
  told : List Nat := []
  deaf : List Nat := []
  asked : List Nat := []
  answered : List Nat := []
  listed : Bool := true
  published : Bool := false
  deriving DecidableEq, Repr

/-- The future for a link (src/actor/spawn.rs L522-558): none for an actor elsewhere on a node that is not bootstrapped. -/
def futOf (booted : Bool) : Link → Option Fut
  | .here i => some (.here i)
  | .there i => if booted then some (.there i) else none

/-- The futures are pushed (src/actor/spawn.rs L517-560). `boot` is `none` when the node was never bootstrapped
(`ActorSwarm::get()` L537), otherwise it says whether the swarm's handler is there. -/
def init (links : List Link) (boot : Option Bool) : State :=
  { ready := links.filterMap (futOf boot.isSome), swarm := boot.getD false }

/-- The outcome of a poll: the signal went into the mailbox, there is no room, the mailbox is closed (src/mailbox.rs
`signal_link_died`), the answer has come, or the sender of the answer was dropped (src/remote/swarm.rs L1728-1733). -/
inductive Out
  | room
  | full
  | closed
  | answered
  | dropped
  deriving DecidableEq, Repr

/-- `poll o`: `link_notification_futures.next()` polls the next future (src/actor/spawn.rs L565);
`wake f`: a future that waits is woken;
`swarmEnds`: the task of the swarm ends, or its runtime;
`unlist`: no future is left, and the actor leaves the registry (L567);
`publish`: what `on_stop` returned is published, if anybody has a reference (L569-588), and the task returns. -/
inductive Op
  | poll (o : Out)
  | wake (f : Fut)
  | swarmEnds
  | unlist
  | publish
  deriving DecidableEq, Repr

/-- One future is polled (src/actor/spawn.rs L526-553, src/remote/swarm.rs L460-484, L1003-1007, L1728-1733). The sender of
an answer is only dropped when the swarm is gone; a poll that is too early leaves the future waiting. -/
def State.poll (s : State) (f : Fut) (rest : List Fut) (o : Out) : State :=
  match f with
  | .here i =>
    match o with
    | .room => { s with ready := rest, told := s.told ++ [i] }
    | .closed => { s with ready := rest, deaf := s.deaf ++ [i] }
    | _ => { s with ready := rest, waiting := s.waiting ++ [f] }
  | .there i =>
    if s.swarm then { s with ready := rest, waiting := s.waiting ++ [.asked i], asked := s.asked ++ [i] }
    else { s with phase := .crashed, ready := rest }
  | .asked i =>
    match o with
    | .answered => { s with ready := rest, answered := s.answered ++ [i] }
    | .dropped =>
      if s.swarm then { s with ready := rest, waiting := s.waiting ++ [f] } else { s with phase := .crashed, ready := rest }
    | _ => { s with ready := rest, waiting := s.waiting ++ [f] }

/-- One step (src/actor/spawn.rs L565-590; see `Op` for the lines of each). A task that has ended does nothing more. -/
def State.step (s : State) : Op → State
  | .poll o =>
    match s.phase, s.ready with
    | .telling, f :: rest => s.poll f rest o
    | _, _ => s
  | .wake f => if f ∈ s.waiting then { s with waiting := s.waiting.erase f, ready := s.ready ++ [f] } else s
  | .swarmEnds => { s with swarm := false }
  | .unlist =>
    if s.phase = .telling ∧ s.ready = [] ∧ s.waiting = [] then { s with phase := .unlisted, listed := false } else s
  | .publish => if s.phase = .unlisted then { s with phase := .over, published := true } else s

/-- A history of the end of an actor's task (src/actor/spawn.rs L517-590). -/
def run (links : List Link) (boot : Option Bool) (ops : List Op) : State := ops.foldl State.step (init links boot)

end Verif.Boot.Ending
