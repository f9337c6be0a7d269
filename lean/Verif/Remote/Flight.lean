/-
Model of links between actors of different nodes with any number of calls under way at once: `ActorRef::link_remote` and
`unlink_remote` (`src/actor/actor_ref.rs` L589-618, L708-725), the requests as they are served on the other node
(`src/remote/_internal.rs` L225-297, each in a task of its own, `src/remote/swarm.rs` L914-985), and the end of an actor
(`src/actor/spawn.rs` L517-567). Actors are named by numbers; the two actors of a call are on different nodes, both
nodes have a swarm, and the types of the actors are right (`Verif/Remote/Model.lean` has all that, for one call at a time).
Left out: lost connections (`Verif/Swarm/Peers.lean`), local links (`Verif/System`).
-/

namespace Verif.Remote.Flight

/-- `link_remote` or `unlink_remote`, `src/actor/actor_ref.rs` L589, L708. -/
inductive Kind where
  | link | unlink
  deriving DecidableEq, Repr

/-- What a call returns: `Ok`, `ActorNotRunning` from the other node (`src/remote/_internal.rs` L237, L264), or a failure of
the network (`src/error.rs` L452-468). -/
inductive Res where
  | ok | refused | network
  deriving DecidableEq, Repr

/-- Where a call is: about to write to the registry (`src/actor/actor_ref.rs` L601-608, `link_remote` only), about to write to
its own actor's links (L610-613, L720), waiting for the answer (L614-617, L721-724), returned. -/
inductive Caller where
  | begun | listed | waiting
  | over (r : Res)
  deriving DecidableEq, Repr

/-- Where its request is: not made, under way, served up to the lookup in the registry (`src/remote/_internal.rs` L233-242,
L260-269) or to the end (L244-250, L271-273), lost. -/
inductive Request where
  | none | sent | found | done | refused | lost
  deriving DecidableEq, Repr

/-- A call of actor `a`'s method with a reference to actor `b`, `src/actor/actor_ref.rs` L589-618, L708-725. -/
structure Call where
  kind : Kind
  a : Nat
  b : Nat
  caller : Caller := .begun
  request : Request := .none
  deriving DecidableEq, Repr

/-- The life of an actor: before it has taken all links out of its map (`src/actor/spawn.rs` L517-559), after that, and after it
has removed itself from the registry (L567). -/
inductive Life where
  | alive | drained | gone
  deriving DecidableEq, Repr

/-- All nodes. `links x y`: `y` is in the links of `x` (`src/actor/actor_ref.rs` L1357). `listed`: in the registry of its
node (`src/remote.rs` L76). `flight`: notices of deaths under way, of whom and to whom (`src/actor/spawn.rs` L541-549).
`inbox`: the link-died signals that wait in an actor's mailbox. `told`: history, all signals that ever got there. -/
structure Net where
  calls : Nat → Option Call := fun _ => none
  made : Nat := 0
  links : Nat → Nat → Bool := fun _ _ => false
  listed : Nat → Bool := fun _ => false
  life : Nat → Life := fun _ => .alive
  flight : List (Nat × Nat) := []
  inbox : Nat → List Nat := fun _ => []
  told : Nat → List Nat := fun _ => []

/-- What can happen. `begin`: a call; an actor linked with itself is nothing (`src/actor/actor_ref.rs` L597-599, L716-718).
`next n`: call `n` takes its next step at home. `serve n`: its request takes its next step on the other node. `lose n`: its
request gets lost. `fail n`: it returns with a failure of the network, whatever becomes of the request. `register x`:
`ActorRef::register` (`src/remote/swarm.rs` L375-385). `drain x`: `x` ends. `deliver i`: notice number `i` arrives. `drop i`:
it gets lost. `leave x`: `x` is removed from the registry. `hear x`: `on_link_died` has returned for the oldest signal
(`src/actor/kind.rs` L128-139). -/
inductive Op where
  | begin (k : Kind) (a b : Nat)
  | next (n : Nat)
  | serve (n : Nat)
  | lose (n : Nat)
  | fail (n : Nat)
  | register (x : Nat)
  | drain (x : Nat)
  | deliver (i : Nat)
  | drop (i : Nat)
  | leave (x : Nat)
  | hear (x : Nat)
  deriving DecidableEq, Repr

/-- Replace call `n`. Bookkeeping for `src/actor/actor_ref.rs` L589-618. -/
def Net.setCall (s : Net) (n : Nat) (c : Call) : Net :=
  { s with calls := fun m => if m = n then some c else s.calls m }

/-- Put `y` into the links of `x`, or take it out. `HashMap::insert` and `remove`, `src/actor/actor_ref.rs` L610, L720,
`src/remote/_internal.rs` L248, L271. -/
def Net.setLink (s : Net) (x y : Nat) (v : Bool) : Net :=
  { s with links := fun x' y' => if x' = x ∧ y' = y then v else s.links x' y' }

/-- What the call writes. `src/actor/actor_ref.rs` L610, L720. -/
def Kind.value : Kind → Bool
  | .link => true
  | .unlink => false

/-- The next step of a call at home: `src/actor/actor_ref.rs` L601-617, L720-724. -/
def Net.next (s : Net) (n : Nat) (c : Call) : Net :=
  match c.caller, c.kind with
  | .begun, .link => { s.setCall n { c with caller := .listed } with listed := fun x => x = c.a || s.listed x }
  | .begun, .unlink => (s.setCall n { c with caller := .waiting, request := .sent }).setLink c.a c.b c.kind.value
  | .listed, _ => (s.setCall n { c with caller := .waiting, request := .sent }).setLink c.a c.b c.kind.value
  | .waiting, _ =>
    match c.request with
    | .done => s.setCall n { c with caller := .over .ok }
    | .refused => s.setCall n { c with caller := .over .refused }
    | _ => s
  | .over _, _ => s

/-- The next step of the request on the other node: `src/remote/_internal.rs` L225-251, L253-274. -/
def Net.serve (s : Net) (n : Nat) (c : Call) : Net :=
  match c.request with
  | .sent => s.setCall n { c with request := if s.listed c.b then .found else .refused }
  | .found => (s.setCall n { c with request := .done }).setLink c.b c.a c.kind.value
  | _ => s

/-- One step. For the lines see `Op`. `drain`: the links are taken out of the map and a notice for each is on its way;
`among` are the actors there are, all links are among them. `leave` only when all notices of `x` are through
(`src/actor/spawn.rs` L565-567). `deliver`: `src/remote/_internal.rs` L276-300; whether the actor is linked is not asked. -/
def Net.step (among : List Nat) (s : Net) : Op → Net
  | .begin k a b =>
    if a = b then s else { s.setCall s.made { kind := k, a := a, b := b } with made := s.made + 1 }
  | .next n => match s.calls n with | none => s | some c => s.next n c
  | .serve n => match s.calls n with | none => s | some c => s.serve n c
  | .lose n =>
    match s.calls n with
    | none => s
    | some c => if c.request = .sent then s.setCall n { c with request := .lost } else s
  | .fail n =>
    match s.calls n with
    | none => s
    | some c => if c.caller = .waiting then s.setCall n { c with caller := .over .network } else s
  | .register x => { s with listed := fun y => y = x || s.listed y }
  | .drain x =>
    if s.life x = .alive then { s with
      life := fun y => if y = x then .drained else s.life y
      links := fun y z => if y = x then false else s.links y z
      flight := s.flight ++ (among.filter (fun y => s.links x y)).map (fun y => (x, y)) }
    else s
  | .deliver i =>
    match s.flight[i]? with
    | none => s
    | some (x, y) =>
      if s.listed y = true ∧ s.life y = .alive then { s with
        flight := s.flight.eraseIdx i
        inbox := fun z => if z = y then s.inbox z ++ [x] else s.inbox z
        told := fun z => if z = y then s.told z ++ [x] else s.told z }
      else { s with flight := s.flight.eraseIdx i }
  | .drop i => { s with flight := s.flight.eraseIdx i }
  | .leave x =>
    if s.life x = .drained ∧ (∀ p ∈ s.flight, p.1 ≠ x) then { s with
      life := fun y => if y = x then .gone else s.life y
      listed := fun y => !decide (y = x) && s.listed y }
    else s
  | .hear x =>
    match s.life x, s.inbox x with
    | .alive, y :: rest => { s.setLink x y false with inbox := fun z => if z = x then rest else s.inbox z }
    | _, _ => s

/-- A history. `Net.step` along a list (`src/actor/actor_ref.rs` L589-725). -/
def run (among : List Nat) (ops : List Op) : Net := ops.foldl (Net.step among) {}

end Verif.Remote.Flight
