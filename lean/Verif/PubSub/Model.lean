import Verif.Map

/-
Model of `PubSub`, `actors/src/pubsub.rs`.
-/

namespace Verif.PubSub

/-- A filter (`FilterFn<M>`, `actors/src/pubsub.rs` L54) is a closure that may keep state between calls (`FnMut`): its answer depends
on the messages it was asked about before, oldest first, and on the present one. -/
abbrev Filter (M : Type) := List M → M → Bool

/-- What `subscribe` uses, `actors/src/pubsub.rs` L161. -/
def passAll : Filter M := fun _ _ => true

/-- A subscriber's filter and the messages it has been asked about. The value type of
`subscribers`, `actors/src/pubsub.rs` L53-54, L64. -/
structure Sub (M : Type) where
  filter : Filter M
  seen : List M := []

/-- `PubSub`, `actors/src/pubsub.rs` L63-65: the subscribers by actor id. -/
structure St (M : Type) where
  subs : Map Nat (Sub M) := []
  /-- ghost: the messages that subscribers' mailboxes accepted, per publish. -/
  log : List (M × List Nat) := []

/-- How a send to a subscriber ends (`actors/src/pubsub.rs` L105-121). A `tell` waits while the mailbox is full, so the other errors
do not occur. -/
inductive Res where
  | ok
  | notRunning
  deriving DecidableEq, Repr

/-- `publish`, `actors/src/pubsub.rs` L98-122. `res` says how a send to each actor would end. The sends go on at the same time
(`join_all`), so that a full mailbox delays none but its own send. Simplification: the publish is one step, as
`&mut self` keeps all else from the subscribers while it is going on; a publish that is given up half-way
(the future dropped) and filters that panic are left out here; they are in `Slow.lean`, whose `publish_step_by_step` shows
that this one step is what the others come to. -/
def publish (s : St M) (m : M) (res : Nat → Res) : St M :=
  -- L102-111: each filter is asked once; a future is made if it says yes
  let asked := s.subs.map (fun e => (e.1, ({ e.2 with seen := e.2.seen ++ [m] } : Sub M)))
  let targets := (s.subs.filter (fun e => e.2.filter e.2.seen m)).map (·.1)
  let results := targets.map (fun id => (id, res id))
  -- L112-121
  { subs := results.foldl (fun subs r => if r.2 = .notRunning then subs.del r.1 else subs) asked
    log := s.log ++ [(m, (results.filter (fun r => r.2 = .ok)).map (·.1))] }

/-- `publish`, `subscribe`, `subscribe_filter` (`actors/src/pubsub.rs` L98-207), and the actors'
own steps. -/
inductive Op (M : Type) where
  /-- `subscribe`, `actors/src/pubsub.rs` L155-162. -/
  | subscribe (id : Nat)
  /-- `subscribe_filter`, `actors/src/pubsub.rs` L197-207. -/
  | subscribeFilter (id : Nat) (f : Filter M)
  | publish (m : M) (res : Nat → Res)

/-- `actors/src/pubsub.rs` L98-207. -/
def St.step (s : St M) : Op M → St M
  | .subscribe id => { s with subs := s.subs.put id { filter := passAll } }
  | .subscribeFilter id f => { s with subs := s.subs.put id { filter := f } }
  | .publish m res => publish s m res

/-- `PubSub::new`, `actors/src/pubsub.rs` L71-75, and then `ops`. -/
def after (ops : List (Op M)) : St M := ops.foldl St.step {}

end Verif.PubSub
