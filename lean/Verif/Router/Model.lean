import Verif.Map

/-
Model of the message broker, `actors/src/broker.rs`, and the message bus, `actors/src/message_bus.rs`. The code
of the two is the same but for what a subscription is filed under (a topic pattern; a type) and how a publish
picks subscriptions, so they share the model: `K` is the type of what subscriptions are filed under.

The router (broker or bus) is an actor, so it does one thing at a time; its recipients and the tasks it spawns
run on their own.
-/

namespace Verif.Router

/-- `Recipient<M>` with the id of its actor, and for `actors/src/message_bus.rs` `Registration` L249-261: the type `M`, by a
number. -/
structure Rcpt where
  actor : Nat
  ty : Nat := 0
  deriving DecidableEq, Repr

/-- `DeliveryStrategy`, `actors/src/lib.rs` L28-60. Durations are left out: whether the time is
over is up to the environment. -/
inductive Strategy where
  | guaranteed
  | bestEffort
  | timed
  | spawned
  | spawnedTimed
  deriving DecidableEq, Repr

/-- One delivery: publish number, what the subscription is filed under, recipient.
`actors/src/broker.rs` L194-196, `actors/src/message_bus.rs` L182-187. -/
structure Item (K : Type) where
  no : Nat
  key : K
  r : Rcpt
  deriving DecidableEq, Repr

/-- What became of a delivery. The `Result` of `tell`, `actors/src/broker.rs` L199-217, L225-245;
`SendError`, `src/error.rs` L89-99. -/
inductive Fate where
  /-- the recipient's mailbox accepted the message. -/
  | accepted
  /-- given up as there was no room. -/
  | full
  /-- the recipient was not running. -/
  | stopped
  deriving DecidableEq, Repr

/-- The suspension points of `Publish`, `actors/src/broker.rs` L193-264,
`actors/src/message_bus.rs` L180-245. -/
inductive Phase (K : Type) where
  | idle
  /-- in the loops of `Publish`: the deliveries still to be made, and `to_remove` so far. -/
  | publishing (no : Nat) (todo : List (K × Rcpt)) (gone : List (K × Nat))
  /-- the handler panicked. -/
  | panicked
  deriving DecidableEq, Repr

/-- `Broker` (`actors/src/broker.rs` L76-79) or `MessageBus` (`actors/src/message_bus.rs` L70-73),
the spawned tasks, the recipients' mailboxes, and ghost history. -/
structure St (K : Type) where
  strat : Strategy
  subs : Map K (List Rcpt) := []
  phase : Phase K := .idle
  /-- the actor is running: its mailbox is not closed. -/
  isOpen : Nat → Bool := fun _ => true
  /-- its mailbox has room. -/
  room : Nat → Bool := fun _ => true
  /-- the deliveries of spawned tasks that are not finished. -/
  tasks : List (Item K) := []
  /-- the `Unsubscribe`s (`Unregister`s) sent by tasks. -/
  unsubs : List (K × Nat) := []
  /-- ghost: the number of publishes so far. -/
  pubs : Nat := 0
  /-- ghost: what became of the deliveries. -/
  fates : List (Item K × Fate) := []

variable {K : Type} [DecidableEq K]

/-- `Broker::unsubscribe`, `actors/src/broker.rs` L98-105; `MessageBus::unsubscribe`, `actors/src/message_bus.rs` L92-100. -/
def unsub (subs : Map K (List Rcpt)) (k : K) (a : Nat) : Map K (List Rcpt) :=
  match subs.find k with
  | none => subs
  | some rs =>
    let rs' := rs.filter (fun r => r.actor ≠ a)
    if rs' = [] then subs.del k else subs.put k rs'

/-- `Unsubscribe` without a topic, `actors/src/broker.rs` L156-161. -/
def unsubAll (subs : Map K (List Rcpt)) (a : Nat) : Map K (List Rcpt) :=
  (subs.map (fun e => (e.1, e.2.filter (fun r => r.actor ≠ a)))).filter (fun e => e.2 ≠ [])

/-- A send to actor `a`: what becomes of it, or `none` if it is pending. `waits`: it waits for
room; `timed`: only for so long; `expired`: the time is over. The mailbox is looked at before the
time is. `src/request/tell.rs` L78-101 and L109-121, as called at `actors/src/broker.rs` L199,
L205, L211-214, L225, L242-246. -/
def St.attempt (s : St K) (a : Nat) (waits timed expired : Bool) : Option Fate :=
  if !s.isOpen a then some .stopped
  else if s.room a then some .accepted
  else if !waits then some .full
  else if timed && expired then some .full
  else none

/-- The messages of both actors and the steps of their tasks: `actors/src/broker.rs` L120-266,
`actors/src/message_bus.rs` L110-247. -/
inductive Op (K : Type) where
  /-- `Subscribe` (`actors/src/broker.rs` L120-130), `Register` (`actors/src/message_bus.rs` L110-122) -/
  | subscribe (k : K) (r : Rcpt)
  /-- `Unsubscribe` (`actors/src/broker.rs` L144-163), `Unregister` (`actors/src/message_bus.rs` L153-162). -/
  | unsubscribe (k : Option K) (a : Nat)
  /-- `Publish`: the subscriptions filed under the keys that `sel` says are looked at. -/
  | publish (sel : K → Bool)
  /-- one delivery of the loop (or one poll of it, if it has to wait). -/
  | deliver (expired : Bool)
  /-- the loop has ended: `for .. in to_remove`. -/
  | finish
  /-- task `i` is polled. -/
  | task (i : Nat) (expired : Bool)
  /-- the router takes an `Unsubscribe` of a task from its mailbox. -/
  | handleUnsub
  /-- actor `a` stops. -/
  | close (a : Nat)
  /-- the mailbox of actor `a` fills up or gets room. -/
  | setRoom (a : Nat) (b : Bool)

/-- `actors/src/broker.rs` L179-265, `actors/src/message_bus.rs` L172-246. `cast k r`: the `downcast_ref().unwrap()` of a recipient filed
under `k` succeeds (`actors/src/message_bus.rs` L188; the broker has none). -/
def St.step (cast : K → Rcpt → Bool) (s : St K) : Op K → St K
  | .subscribe k r =>
    match s.phase with
    | .idle => { s with subs := s.subs.put k ((s.subs.find k).getD [] ++ [r]) }
    | _ => s
  | .unsubscribe k a =>
    match s.phase with
    | .idle =>
      match k with
      | some k => { s with subs := unsub s.subs k a }
      | none => { s with subs := unsubAll s.subs a }
    | _ => s
  | .publish sel =>
    match s.phase with
    | .idle =>
      { s with
        phase := .publishing s.pubs
          ((s.subs.filter (fun e => sel e.1)).flatMap (fun e => e.2.map (fun r => (e.1, r)))) []
        pubs := s.pubs + 1 }
    | _ => s
  | .deliver expired =>
    match s.phase with
    | .publishing no ((k, r) :: todo) gone =>
      if !cast k r then { s with phase := .panicked }
      else if s.strat = .spawned ∨ s.strat = .spawnedTimed then
        { s with
          phase := .publishing no todo gone
          tasks := s.tasks ++ [⟨no, k, r⟩] }
      else
        match s.attempt r.actor (s.strat ≠ .bestEffort) (s.strat = .timed) expired with
        | none => s
        | some f =>
          { s with
            phase := .publishing no todo (if f = .stopped then gone ++ [(k, r.actor)] else gone)
            fates := s.fates ++ [(⟨no, k, r⟩, f)] }
    | _ => s
  | .finish =>
    match s.phase with
    | .publishing _ [] gone =>
      { s with phase := .idle, subs := gone.foldl (fun subs g => unsub subs g.1 g.2) s.subs }
    | _ => s
  | .task i expired =>
    match s.tasks[i]? with
    | none => s
    | some it =>
      match s.attempt it.r.actor true (s.strat = .spawnedTimed) expired with
      | none => s
      | some f =>
        { s with
          tasks := s.tasks.eraseIdx i
          unsubs := if f = .stopped then s.unsubs ++ [(it.key, it.r.actor)] else s.unsubs
          fates := s.fates ++ [(it, f)] }
  | .handleUnsub =>
    match s.phase, s.unsubs with
    | .idle, (k, a) :: rest => { s with subs := unsub s.subs k a, unsubs := rest }
    | _, _ => s
  | .close a => { s with isOpen := fun b => if b = a then false else s.isOpen b }
  | .setRoom a b => { s with room := fun c => if c = a then b else s.room c }

/-- `actors/src/broker.rs` L120-266, `actors/src/message_bus.rs` L110-247, along a list. -/
def run (cast : K → Rcpt → Bool) (s : St K) (ops : List (Op K)) : St K := ops.foldl (St.step cast) s

/-! ### The broker -/

/-- What happens to a broker. `P` is the type of patterns, `T` that of topics.
`actors/src/broker.rs` L113-177. -/
inductive BrokerOp (P T : Type) where
  | subscribe (p : P) (actor : Nat)
  | unsubscribe (p : Option P) (actor : Nat)
  | publish (t : T)
  | deliver (expired : Bool)
  | finish
  | task (i : Nat) (expired : Bool)
  | handleUnsub
  | close (a : Nat)
  | setRoom (a : Nat) (b : Bool)

/-- Topics are matched by the crate `glob` (`Pattern::matches_with`, `actors/src/broker.rs` L195), which is not part of /repo: `mat`
is any relation. -/
def BrokerOp.op (mat : P → T → Bool) : BrokerOp P T → Op P
  | .subscribe p a => .subscribe p ⟨a, 0⟩
  | .unsubscribe p a => .unsubscribe p a
  | .publish t => .publish (fun p => mat p t)
  | .deliver e => .deliver e
  | .finish => .finish
  | .task i e => .task i e
  | .handleUnsub => .handleUnsub
  | .close a => .close a
  | .setRoom a b => .setRoom a b

/-- `actors/src/broker.rs` L120-266; `matches` is `Pattern::matches_with` with the options of
L187-191. -/
def broker [DecidableEq P] (mat : P → T → Bool) (strat : Strategy) (ops : List (BrokerOp P T)) : St P :=
  run (fun _ _ => true) { strat := strat } (ops.map (BrokerOp.op mat))

/-! ### The message bus -/

/-- What happens to a message bus. Types are numbers (`TypeId`). `actors/src/message_bus.rs`
L108-170. -/
inductive BusOp where
  /-- `Register(recipient)` with a `Recipient<M>`, where `M` is type `ty`. -/
  | register (ty : Nat) (actor : Nat)
  /-- `Unregister::<M>::new(actor)`. -/
  | unregister (ty : Nat) (actor : Nat)
  /-- `Publish(message)` with a message of type `ty`. -/
  | publish (ty : Nat)
  | deliver (expired : Bool)
  | finish
  | task (i : Nat) (expired : Bool)
  | handleUnsub
  | close (a : Nat)
  | setRoom (a : Nat) (b : Bool)
  deriving DecidableEq, Repr

/-- `TypeId::of::<M>()` is what a registration is filed under (`actors/src/message_bus.rs` L119), and looked up by (L182). -/
def BusOp.op : BusOp → Op Nat
  | .register ty a => .subscribe ty ⟨a, ty⟩
  | .unregister ty a => .unsubscribe (some ty) a
  | .publish ty => .publish (fun k => k == ty)
  | .deliver e => .deliver e
  | .finish => .finish
  | .task i e => .task i e
  | .handleUnsub => .handleUnsub
  | .close a => .close a
  | .setRoom a b => .setRoom a b

/-- A recipient filed under `k` is downcast to `Recipient<M>` where `M` is the type published, which is the `k`
that was looked up (`actors/src/message_bus.rs` L182-188). -/
def bus (strat : Strategy) (ops : List BusOp) : St Nat :=
  run (fun k r => r.ty == k) { strat := strat } (ops.map BusOp.op)

end Verif.Router
