/-
Model of how a node is bootstrapped (src/remote/swarm.rs L33, L66-183) and of the channel that commands to the swarm go
through (L999-1019): any number of calls of the three functions that try to set `ACTOR_SWARM`, from any threads, and any
number of users of the swarm meanwhile.

What stands for what:
* calls are numbered in the order in which they are made; a call number is also the number of the command channel that the
  call makes (`mpsc::unbounded_channel()`, L143 and L173);
* a peer id is a number; a command is a number;
* `log` is a history, the code has no such thing.
-/

namespace Verif.Boot

/-- The functions that set `ACTOR_SWARM`: `bootstrap_with_identity` (src/remote/swarm.rs L95-99; `bootstrap` L80-82 makes a
key pair and calls it), `bootstrap_with_behaviour` (L111-128), `bootstrap_with_swarm` (L139-166) and `bootstrap_manual`
(L172-183). -/
inductive Kind
  | identity
  | behaviour
  | swarm
  | manual
  deriving DecidableEq, Repr

/-- Where a call is: before the behaviour is made (src/remote/swarm.rs L96), before the look at the cell (L115), before
`try_insert` (L146, L177), or behind it with the cell set by this call (L150, L181). -/
inductive At
  | make
  | check
  | insert
  | spawn
  deriving DecidableEq, Repr

/-- A call under way: its function, the peer id of its swarm, and where it is (src/remote/swarm.rs L80-183). -/
structure Call where
  kind : Kind
  peer : Nat
  at_ : At
  deriving DecidableEq, Repr

/-- How a call ends (src/remote/swarm.rs L80-183; `BootstrapError` src/error.rs L330-340):
`ok p` is `Ok(swarm)`, for `bootstrap_manual` `Some((swarm, handler))`, where `p` is the peer id of the swarm;
`already w back` is `Err(AlreadyBootstrapped(swarm, back))`, where `w` is the peer id of `swarm` and `back` that of the
swarm handed back;
`nothing` is the `None` of `bootstrap_manual`;
`notBuilt` is `Err(BehaviourError(..))` (L97, L124);
`panicked` is the panic of `tokio::spawn` (L151) where no runtime is. -/
inductive Res
  | ok (peer : Nat)
  | already (winner : Nat) (back : Option Nat)
  | nothing
  | notBuilt
  | panicked
  deriving DecidableEq, Repr

/-- A command channel (src/remote/swarm.rs L143, L173): `alive` as long as its receiver exists, and the commands in it. Of a
channel whose receiver is gone, `queue` are the commands lost in it. -/
structure Chan where
  alive : Bool := false
  queue : List Nat := []
  deriving DecidableEq, Repr

/-- What happens, in order of time: a call starts or returns, somebody looks at the cell with `ActorSwarm::get`
(src/remote/swarm.rs L227-229) and sees the swarm of that peer or nothing, somebody sends a command
(`SwarmSender::send` L1003-1007), panics at it, or finds no swarm (`NotBootstrapped`); the handler of a channel takes a
command (L520, L546-548), or is gone. -/
inductive Event
  | started (c : Nat) (k : Kind) (peer : Nat)
  | returned (c : Nat) (r : Res)
  | saw (p : Option Nat)
  | sent (x : Nat)
  | crashed (x : Nat)
  | refused (x : Nat)
  | took (c : Nat) (x : Nat)
  | ended (c : Nat)
  deriving DecidableEq, Repr

/-- `ACTOR_SWARM` when it is set (src/remote/swarm.rs L33, L66-69): the channel of its sender, and the peer id. -/
structure Cell where
  call : Nat
  peer : Nat
  deriving DecidableEq, Repr

/-- The node, as far as bootstrapping goes (src/remote/swarm.rs L33, L66-183). -/
structure State where
  next : Nat := 0
  call : Nat → Option Call := fun _ => none
  cell : Option Cell := none
  chan : Nat → Chan := fun _ => {}
  log : List Event := []

/-- Assigns a value to a number. Bookkeeping, not a function of the code (the calls are those of src/remote/swarm.rs
L80-183). -/
def set {α : Type} (f : Nat → α) (c : Nat) (v : α) : Nat → α := fun c' => if c' = c then v else f c'

/-- The call returns (src/remote/swarm.rs L97, L116, L124, L159, L161-164, L182). -/
def State.finish (s : State) (c : Nat) (r : Res) : State :=
  { s with call := set s.call c none, log := s.log ++ [.returned c r] }

/-- The steps:
`start k p`: somebody calls the function; `bootstrap_with_identity` begins with making the behaviour (src/remote/swarm.rs
L96), `bootstrap_with_behaviour` with the look at the cell (L115), the others with `try_insert`;
`make c ok`: `ActorSwarmBehaviour::new` (L96-97), which fails or does not;
`check c built`: the look at the cell (L115-117); when it is empty the swarm is built (L120-126), which fails or does not;
`insert c`: `ACTOR_SWARM.try_insert` (L146-149, L176-180), which either sets the cell, or finds it set and the call
returns;
`spawn c rt`: `tokio::spawn` of the handler (L151-157), in a runtime or not, and the return (L159); `bootstrap_manual`
just returns (L181-182);
`ends c`: the receiver of the channel is dropped when the task of the handler ends by a panic, its runtime is shut down,
or the caller of `bootstrap_manual` drops the handler;
`take c`: the handler takes the next command (`run` L520, `next_command` L546-548);
`get`: `ActorSwarm::get` (L227-229);
`send x`: somebody gets the swarm and sends a command (L1003-1007). -/
inductive Op
  | start (k : Kind) (peer : Nat)
  | make (c : Nat) (ok : Bool)
  | check (c : Nat) (built : Bool)
  | insert (c : Nat)
  | spawn (c : Nat) (rt : Bool)
  | ends (c : Nat)
  | take (c : Nat)
  | get
  | send (x : Nat)
  deriving DecidableEq, Repr

/-- A call has set the cell and not yet returned: the receiver of its channel is still in its hands
(src/remote/swarm.rs L150-158). -/
def State.holds (s : State) (c : Nat) : Bool := (s.call c).isSome

/-- Where a call begins (src/remote/swarm.rs L96, L115, L146, L177). -/
def Kind.first : Kind → At
  | .identity => .make
  | .behaviour => .check
  | .swarm => .insert
  | .manual => .insert

/-- One step (src/remote/swarm.rs L80-183, L227-229, L1003-1007; see `Op` for the lines of each). -/
def State.step (s : State) : Op → State
  | .start k p =>
    { s with next := s.next + 1,
             call := set s.call s.next (some ⟨k, p, k.first⟩),
             log := s.log ++ [.started s.next k p] }
  | .make c ok =>
    match s.call c with
    | some ⟨k, p, .make⟩ =>
      if ok then { s with call := set s.call c (some ⟨k, p, .check⟩) } else s.finish c .notBuilt
    | _ => s
  | .check c built =>
    match s.call c with
    | some ⟨k, p, .check⟩ =>
      match s.cell with
      | some w => s.finish c (.already w.peer none)
      | none => if built then { s with call := set s.call c (some ⟨k, p, .insert⟩) } else s.finish c .notBuilt
    | _ => s
  | .insert c =>
    match s.call c with
    | some ⟨k, p, .insert⟩ =>
      match s.cell with
      | some w => s.finish c (if k = .manual then .nothing else .already w.peer (some p))
      | none => { s with call := set s.call c (some ⟨k, p, .spawn⟩), cell := some ⟨c, p⟩,
                         chan := set s.chan c { alive := true } }
    | _ => s
  | .spawn c rt =>
    match s.call c with
    | some ⟨k, p, .spawn⟩ =>
      if rt = true ∨ k = .manual then s.finish c (.ok p)
      else { s.finish c .panicked with chan := set s.chan c { s.chan c with alive := false } }
    | _ => s
  | .ends c =>
    if s.holds c then s
    else if (s.chan c).alive then
      { s with chan := set s.chan c { s.chan c with alive := false }, log := s.log ++ [.ended c] }
    else s
  | .take c =>
    if s.holds c then s else
      match (s.chan c).alive, (s.chan c).queue with
      | true, x :: q => { s with chan := set s.chan c { s.chan c with queue := q }, log := s.log ++ [.took c x] }
      | _, _ => s
  | .get => { s with log := s.log ++ [.saw (s.cell.map (·.peer))] }
  | .send x =>
    match s.cell with
    | none => { s with log := s.log ++ [.refused x] }
    | some w =>
      if (s.chan w.call).alive then
        { s with chan := set s.chan w.call { s.chan w.call with queue := (s.chan w.call).queue ++ [x] },
                 log := s.log ++ [.sent x] }
      else { s with log := s.log ++ [.crashed x] }

/-- A history, from the start of the program (src/remote/swarm.rs L33: the cell is empty). -/
def run (ops : List Op) : State := ops.foldl State.step {}

end Verif.Boot
