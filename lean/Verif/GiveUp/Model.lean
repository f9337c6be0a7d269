/-
Model of calls that are given up: the futures of kameo's `async` functions, which may be dropped wherever they wait (a
time-out around them, the other branch of a `select!`, a task that is aborted, an actor that is killed in a handler).

What runs between two waits runs in one piece (a segment); a future that is dropped does not run its other segments. The model
has the functions that do something to the world: requests to actors of this node, `stop_gracefully`, `link`, `unlink`,
`spawn_link`, `link_remote`, `unlink_remote`, `register`, `unregister` and requests to actors of other nodes; and one
call that only waits (`wait_for_startup`, `lookup` and the like).

What stands for what:
* when a wait is over (room in a mailbox, a lock, an answer, a reply) is chosen by the environment;
  how locks are handed on, and that a call which is given up keeps none, is in `Verif.Locks`;
* the swarm's task takes commands in any order and answers them with any result; what it does to the other nodes and
  what it answers are chosen separately (`Verif.Remote` and `Verif.Swarm` say when they agree);
* the end of actors is in the model only as the closing of a mailbox (see `Verif.Lifecycle` and `Verif.Listed`).
-/

namespace Verif.GiveUp

/-- The id of an actor (`ActorID`, src/actor/id.rs L20-24), opaque. -/
abbrev Id := Nat

/-- A command to the swarm (`SwarmCommand`, src/remote/swarm.rs L1023-1190): `Register`, `Unregister`, `Link`, `Unlink`, `Tell` or
`Ask`. -/
inductive Cmd
  | register (a : Id) (n : Nat)
  | unregister (n : Nat)
  | link (a b : Id)
  | unlink (a b : Id)
  | send (b : Id) (m : Nat)
  deriving DecidableEq, Repr

/-- The calls.
`tell a m`: src/request/tell.rs L78-98; `ask a m`: src/request/ask.rs L107-157; `stop a`: src/actor/actor_ref.rs L210-212;
`link a b`, `unlink a b`: src/actor/actor_ref.rs L514-526, L637-646; `spawnLink p a`: src/actor/spawn.rs L126-140;
`linkRemote a b`: src/actor/actor_ref.rs L589-618; `unlinkRemote a b`: L708-725; `register a n`: L112-120 with
src/remote/swarm.rs L351-387; `unregister n`: L393-412; `remote b m`: src/request/tell.rs L368-409 and
src/request/ask.rs L785-850; `waitOnly`: `wait_for_startup` and its kin, src/actor/actor_ref.rs L259-405, and `lookup`, L138-146. -/
inductive Kind
  | tell (a : Id) (m : Nat)
  | ask (a : Id) (m : Nat)
  | stop (a : Id)
  | link (a b : Id)
  | unlink (a b : Id)
  | spawnLink (p a : Id)
  | linkRemote (a b : Id)
  | unlinkRemote (a b : Id)
  | register (a : Id) (n : Nat)
  | unregister (n : Nat)
  | remote (b : Id) (m : Nat)
  | waitOnly
  deriving DecidableEq, Repr

/-- What a segment does to the world: a signal goes into a mailbox (`none` is the stop signal; src/mailbox.rs L59-66), both link sets
are written (src/actor/actor_ref.rs L521-525, L644-645), an actor gets into `REMOTE_REGISTRY` (L601-608, src/remote/swarm.rs L375-382), an
actor's own link set is written (src/actor/actor_ref.rs L610-613, L720), a command is sent to the swarm (src/remote/swarm.rs L1003-1018),
an actor's task is spawned (src/actor/spawn.rs L138). -/
inductive Act
  | push (a : Id) (m : Option Nat)
  | link (a b : Id)
  | unlink (a b : Id)
  | list (a : Id)
  | mark (a b : Id)
  | unmark (a b : Id)
  | order (x : Cmd)
  | spawn (a : Id)
  deriving DecidableEq, Repr

/-- A call: not made, waiting at its `pc`-th wait, returned, or dropped there. Positions in the `async` functions named at `Kind`
(src/actor/actor_ref.rs L589-618 is the longest: three waits). -/
inductive Status
  | unborn
  | waiting (k : Kind) (pc : Nat)
  | returned (k : Kind) (ok : Bool)
  | dropped (k : Kind) (pc : Nat)
  deriving DecidableEq, Repr

/-- The world. `links`: the link sets of this node (`Links`, src/actor/actor_ref.rs L1357), `far`: those of the other nodes;
`listed`: `REMOTE_REGISTRY` (src/remote.rs L76-77); `spawned`: actors whose task was spawned by `spawn_link`; `box`: what each mailbox
has accepted, oldest first; `closed`: its receiver is gone; `records`: the names in the network (src/remote/swarm.rs L351-412);
`farBox`: the requests that reached actors of other nodes; `swarm`: the commands on their way, `none` if the node is not
bootstrapped (src/remote/swarm.rs L80-183); `answer`: the `oneshot` channel on which the swarm answers a call (L1728-1733). -/
structure World where
  links : Id → Id → Bool := fun _ _ => false
  far : Id → Id → Bool := fun _ _ => false
  listed : Id → Bool := fun _ => false
  spawned : List Id := []
  box : Id → List (Option Nat) := fun _ => []
  closed : Id → Bool := fun _ => false
  records : Nat → Option Id := fun _ => none
  farBox : List (Id × Nat) := []
  swarm : Option (List (Nat × Cmd)) := none

/-- The world, the calls, and what each call has done (ghost; see src/actor/actor_ref.rs L514-725). `answer`: the `oneshot` channel on
which the swarm answers a call (src/remote/swarm.rs L1728-1733). -/
structure State where
  world : World := {}
  answer : Nat → Option Bool := fun _ => none
  status : Nat → Status := fun _ => .unborn
  did : Nat → List Act := fun _ => []

/-- Replace one entry. Bookkeeping, models no code of its own (the tables are those of src/actor/actor_ref.rs L1357 and
src/remote.rs L76-77). -/
def set {α : Type} (f : Nat → α) (i : Nat) (v : α) : Nat → α := fun j => if j = i then v else f j

/-- Insert `b` in the link set of `a`, or remove it (`HashMap::insert` and `remove`, src/actor/actor_ref.rs L521-525, L644-645). -/
def enter (f : Id → Id → Bool) (a b : Id) (v : Bool) : Id → Id → Bool :=
  fun x y => if x = a ∧ y = b then v else f x y

/-- What a segment does; see `Act` for the lines (src/actor/actor_ref.rs L514-725, src/remote/swarm.rs L351-387). A command is lost if there
is no swarm, which no caller tries. -/
def World.act (w : World) (c : Nat) : Act → World
  | .push a m => { w with box := set w.box a (w.box a ++ [m]) }
  | .link a b => { w with links := enter (enter w.links a b true) b a true }
  | .unlink a b => { w with links := enter (enter w.links a b false) b a false }
  | .list a => { w with listed := set w.listed a true }
  | .mark a b => { w with links := enter w.links a b true }
  | .unmark a b => { w with links := enter w.links a b false }
  | .order x => { w with swarm := w.swarm.map (· ++ [(c, x)]) }
  | .spawn a => { w with spawned := w.spawned ++ [a] }

/-- Call `c` does something (src/actor/actor_ref.rs L514-725; see `Act`). -/
def State.act (s : State) (c : Nat) (x : Act) : State :=
  { s with world := s.world.act c x, did := set s.did c (s.did c ++ [x]) }

/-- Call `c` comes to its next wait, or returns (src/actor/actor_ref.rs L514-725). -/
def State.at (s : State) (c : Nat) (x : Status) : State := { s with status := set s.status c x }

/-- The call waits for the swarm's answer and returns with it (src/remote/swarm.rs L373-386, L404-411, L427-433, L450-456;
src/request/tell.rs L397-408). -/
def State.answered (s : State) (c : Nat) (k : Kind) : State :=
  match s.answer c with
  | none => s
  | some r => s.at c (.returned k r)

/-- A command is sent, then the call waits; without a swarm it returns an error (src/actor/actor_ref.rs L116-118, L614-616, L721-723). -/
def State.ordered (s : State) (c : Nat) (k : Kind) (x : Cmd) (pc : Nat) : State :=
  match s.world.swarm with
  | none => s.at c (.returned k false)
  | some _ => (s.act c (.order x)).at c (.waiting k pc)

/-- What call `c` waits for has come; it runs on to its next wait. See `Kind` for the lines (src/actor/actor_ref.rs L514-725 and
others); `ok` is how a reply or the like turns out. -/
def State.go (s : State) (c : Nat) (ok : Bool) : Kind → Nat → State
  | .tell a m, _ =>
    if s.world.closed a then s.at c (.returned (.tell a m) false)
    else (s.act c (.push a (some m))).at c (.returned (.tell a m) true)
  | .ask a m, 0 =>
    if s.world.closed a then s.at c (.returned (.ask a m) false)
    else (s.act c (.push a (some m))).at c (.waiting (.ask a m) 1)
  | .ask a m, _ => s.at c (.returned (.ask a m) ok)
  | .stop a, _ =>
    if s.world.closed a then s.at c (.returned (.stop a) false)
    else (s.act c (.push a none)).at c (.returned (.stop a) true)
  | .link a b, _ =>
    if a = b then s.at c (.returned (.link a b) true)
    else (s.act c (.link a b)).at c (.returned (.link a b) true)
  | .unlink a b, _ =>
    if a = b then s.at c (.returned (.unlink a b) true)
    else (s.act c (.unlink a b)).at c (.returned (.unlink a b) true)
  | .spawnLink p a, _ => ((s.act c (.link a p)).act c (.spawn a)).at c (.returned (.spawnLink p a) true)
  | .linkRemote a b, 0 =>
    if a = b then s.at c (.returned (.linkRemote a b) true)
    else (s.act c (.list a)).at c (.waiting (.linkRemote a b) 1)
  | .linkRemote a b, 1 => (s.act c (.mark a b)).ordered c (.linkRemote a b) (.link a b) 2
  | .linkRemote a b, _ => s.answered c (.linkRemote a b)
  | .unlinkRemote a b, 0 =>
    if a = b then s.at c (.returned (.unlinkRemote a b) true)
    else (s.act c (.unmark a b)).ordered c (.unlinkRemote a b) (.unlink a b) 1
  | .unlinkRemote a b, _ => s.answered c (.unlinkRemote a b)
  | .register a n, 0 => s.ordered c (.register a n) (.register a n) 1
  | .register a n, 1 =>
    match s.answer c with
    | none => s
    | some false => s.at c (.returned (.register a n) false)
    | some true => s.at c (.waiting (.register a n) 2)
  | .register a n, _ => (s.act c (.list a)).at c (.returned (.register a n) true)
  | .unregister n, _ => s.answered c (.unregister n)
  | .remote b m, 0 => s.ordered c (.remote b m) (.send b m) 1
  | .remote b m, _ => s.answered c (.remote b m)
  | .waitOnly, _ => s.at c (.returned .waitOnly ok)

/-- The call is made: the future is there, and has done nothing if the function is `async`; `ActorSwarm::unregister` sends its command
before it returns a future, and needs the swarm (src/remote/swarm.rs L393-400). -/
def State.call (s : State) (c : Nat) : Kind → State
  | .unregister n =>
    match s.world.swarm with
    | none => s
    | some _ => (s.act c (.order (.unregister n))).at c (.waiting (.unregister n) 1)
  | k => s.at c (.waiting k 0)

/-- What the swarm does on the other nodes (src/remote/swarm.rs L551-780). -/
def World.carry (w : World) : Cmd → World
  | .register a n => { w with records := set w.records n (some a) }
  | .unregister n => { w with records := set w.records n none }
  | .link a b => { w with far := enter w.far b a true }
  | .unlink a b => { w with far := enter w.far b a false }
  | .send b m => { w with farBox := w.farBox ++ [(b, m)] }

/-- `call c k`: the call is made, which for an `async` function does nothing yet; `unregister` sends its command at once
(src/remote/swarm.rs L393-400). `go c ok`: what `c` waits for has come. `drop c`: the future is dropped where it waits.
`serve i done ok`: the swarm is through with the `i`-th command (src/remote/swarm.rs L551-780, L1728-1733), which has had its effect or
not. `close a`: the mailbox of `a` is closed (src/actor/spawn.rs L590). `boot`: the node is bootstrapped (L80-183). -/
inductive Op
  | call (c : Nat) (k : Kind)
  | go (c : Nat) (ok : Bool)
  | drop (c : Nat)
  | serve (i : Nat) (done ok : Bool)
  | close (a : Id)
  | boot
  deriving DecidableEq, Repr

/-- One step; see `Op` for the lines (src/actor/actor_ref.rs L514-725 and others). -/
def State.step (s : State) : Op → State
  | .call c k =>
    match s.status c with
    | .unborn => s.call c k
    | _ => s
  | .go c ok =>
    match s.status c with
    | .waiting k pc => s.go c ok k pc
    | _ => s
  | .drop c =>
    match s.status c with
    | .waiting k pc => s.at c (.dropped k pc)
    | _ => s
  | .serve i done ok =>
    match s.world.swarm with
    | none => s
    | some q =>
      match q[i]? with
      | none => s
      | some (c, x) =>
        let w := { s.world with swarm := some (q.eraseIdx i) }
        { s with world := if done then w.carry x else w, answer := set s.answer c (some ok) }
  | .close a => { s with world := { s.world with closed := set s.world.closed a true } }
  | .boot => { s with world := { s.world with swarm := some (s.world.swarm.getD []) } }

/-- A history (src/actor/actor_ref.rs L514-725 and others), from a node on which nothing has happened. -/
def after (ops : List Op) : State := ops.foldl State.step {}

end Verif.GiveUp
