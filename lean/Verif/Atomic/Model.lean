/-!
# The link sets, under all the calls that touch them

The links of an actor are a `HashMap` behind a lock of its own (`Links`, `src/actor/actor_ref.rs` L1357). These are all the
places where one is touched: `link`, `unlink` and their blocking variants (L514-526, L553-565, L637-646, L675-684, two sets
each), the own side of `link_remote` and `unlink_remote` (L610-613, L720), link and unlink requests of other nodes
(`src/remote/_internal.rs` L243-247, L271), the end of an actor (`src/actor/spawn.rs` L518-561), the end of the news of a
death (`src/actor/kind.rs` L140), the task for a closed connection (`src/remote/swarm.rs` L800-813) and the formatting of
references for debugging (`src/actor/actor_ref.rs` L839-853, L1292-1306).

Here they run interleaved, action by action: each request for a lock, each wait, each single insertion and removal and each
release is a step of its own. A lock is a queue of requests whose head holds it, as in Verif.Locks.Model.
-/

namespace Verif.Atomic

/-- `Link::Local` with the mailbox, `Link::Remote` with the name of the type of actor; `src/actor/actor_ref.rs` L1366-1372. The mailbox is that
of the actor whose id is the key, so it is left out. -/
inductive Entry where
  | here
  | remote (kind : Nat)
  deriving DecidableEq, Repr

/-- A link set: `HashMap<ActorID, Link>`, `src/actor/actor_ref.rs` L1357. -/
abbrev LinkSet := Nat → Option Entry

/-- The link sets of all actors, each behind its own lock: `src/actor/actor_ref.rs` L1357. -/
abbrev Sets := Nat → LinkSet

/-- What is done with one link set by one who has its lock: `src/actor/actor_ref.rs` L521-525, L644-645, `src/actor/spawn.rs` L521 and
the places named below. -/
inductive Work where
  /-- `HashMap::insert`, `src/actor/actor_ref.rs` L521-525, L560-564, L610-613, `src/remote/_internal.rs` L247. -/
  | insert (a b : Nat) (e : Entry)
  /-- `HashMap::remove`, `src/actor/actor_ref.rs` L644-645, L682-683, L720, `src/remote/_internal.rs` L271,
  `src/actor/kind.rs` L140. -/
  | remove (a b : Nat)
  /-- `HashMap::drain`, `src/actor/spawn.rs` L521. -/
  | drain (a : Nat)
  /-- `HashMap::keys`, `src/remote/swarm.rs` L800, `src/actor/actor_ref.rs` L845, L1298. -/
  | look (a : Nat)
  deriving DecidableEq, Repr

/-- Whose link set it is. The guard it goes through, e.g. `src/actor/actor_ref.rs` L521-525. -/
def Work.set : Work → Nat
  | .insert a _ _ => a
  | .remove a _ => a
  | .drain a => a
  | .look a => a

/-- What it makes of that link set. `HashMap::insert`, `remove`, `drain`, as used at `src/actor/actor_ref.rs` L521-525, L644-645,
`src/actor/spawn.rs` L521. -/
def Work.on : Work → LinkSet → LinkSet
  | .insert _ b e, f => fun x => if x = b then some e else f x
  | .remove _ b, f => fun x => if x = b then none else f x
  | .drain _, _ => fun _ => none
  | .look _, f => f

/-- Does the caller get the contents to see? `src/actor/spawn.rs` L521, `src/remote/swarm.rs` L800. (What `insert` and `remove`
return is dropped everywhere.) -/
def Work.sees : Work → Bool
  | .drain _ => true
  | .look _ => true
  | _ => false

/-- What a call does. `lock()` polled first and waited for, the guard's drop: `src/actor/actor_ref.rs` L519-526; `try_lock`: L843,
L1296. -/
inductive Act where
  | req (a : Nat)
  | await (a : Nat)
  /-- go on with the lock if it is free, else be over. -/
  | try (a : Nat)
  | work (w : Work)
  | rel (a : Nat)
  deriving DecidableEq, Repr

/-- The calls that touch link sets: `src/actor/actor_ref.rs` L514-526, L553-565, L610-613, L637-646, L675-684, L720, L839-853, L1292-1306,
`src/actor/spawn.rs` L518-561, `src/actor/kind.rs` L140, `src/remote/swarm.rs` L800-813, `src/remote/_internal.rs` L243-247, L271. -/
inductive Call where
  /-- `a.link(&b)`, `src/actor/actor_ref.rs` L514-526. -/
  | link (a b : Nat)
  /-- `a.blocking_link(&b)`, L553-565. -/
  | blockingLink (a b : Nat)
  /-- `a.unlink(&b)`, L637-646. -/
  | unlink (a b : Nat)
  /-- `a.blocking_unlink(&b)`, L675-684. -/
  | blockingUnlink (a b : Nat)
  /-- `a.link_remote(&b)` as far as its link set goes, L610-613, and a link request of another node to `a`,
  `src/remote/_internal.rs` L243-247. -/
  | addRemote (a b : Nat) (kind : Nat)
  /-- `a.unlink_remote(&b)`, `src/actor/actor_ref.rs` L720, an unlink request of another node, `src/remote/_internal.rs` L271,
  and the end of `handle_link_died`, `src/actor/kind.rs` L140. -/
  | forget (a b : Nat)
  /-- the end of actor `a`, `src/actor/spawn.rs` L518-561. -/
  | finish (a : Nat)
  /-- the look at the links of `a` by the task for a closed connection, `src/remote/swarm.rs` L800-813. One such task looks at
  many actors, one after the other: here each look is a call. -/
  | look (a : Nat)
  /-- `format!("{a:?}")`, `src/actor/actor_ref.rs` L839-853, L1292-1306. -/
  | debug (a : Nat)
  deriving DecidableEq, Repr

/-- `lock().await`, one action, and the guard's drop. `src/actor/kind.rs` L140 and the like. -/
def underLock (a : Nat) (w : Work) : List Act := [.req a, .await a, .work w, .rel a]

/-- `tokio::join!` of two locks, two actions, and the drop of both guards. `src/actor/actor_ref.rs` L519-526, L642-646. -/
def joined (a b : Nat) (v w : Work) : List Act :=
  if a = b then []
  else [.req a, .req b, .await a, .await b, .work v, .work w, .rel b, .rel a]

/-- One `blocking_lock` after the other, two actions, and the drop of both guards. `src/actor/actor_ref.rs` L558-565, L680-684. -/
def inTurn (a b : Nat) (v w : Work) : List Act :=
  if a = b then []
  else [.req a, .await a, .req b, .await b, .work v, .work w, .rel b, .rel a]

/-- What a call does, action by action. The lines are those of `Call`: `src/actor/actor_ref.rs` L514-526, L553-565, L610-613, L637-646,
L675-684, L720, L839-853, L1292-1306, `src/actor/spawn.rs` L518-561, `src/actor/kind.rs` L140, `src/remote/swarm.rs` L800-813. -/
def Call.prog : Call → List Act
  | .link a b => joined a b (.insert a b .here) (.insert b a .here)
  | .blockingLink a b => inTurn a b (.insert a b .here) (.insert b a .here)
  | .unlink a b => joined a b (.remove a b) (.remove b a)
  | .blockingUnlink a b => inTurn a b (.remove a b) (.remove b a)
  | .addRemote a b k => underLock a (.insert a b (.remote k))
  | .forget a b => underLock a (.remove a b)
  | .finish a => underLock a (.drain a)
  | .look a => underLock a (.look a)
  | .debug a => [.try a, .work (.look a), .rel a]

/-- Is it a future, which may be dropped? `src/actor/actor_ref.rs` L514, L553, L637, L675, L839; `src/actor/kind.rs` L128;
`src/actor/spawn.rs` L415. -/
def Call.isAsync : Call → Bool
  | .blockingLink .. => false
  | .blockingUnlink .. => false
  | .debug _ => false
  | _ => true

/-- The requests for each lock, oldest first; what each call has still to do; the link sets; what the calls that look have seen. The rest is
history: which calls were dropped, and the calls that have begun to work, in this order. `src/actor/actor_ref.rs` L1357. -/
structure St where
  queue : Nat → List Nat := fun _ => []
  rest : Nat → List Act
  sets : Sets := fun _ _ => none
  seen : Nat → Option LinkSet := fun _ => none
  dropped : Nat → Bool := fun _ => false
  begun : List Nat := []

/-- Replace what a call has still to do. Bookkeeping for the programs above (`src/actor/actor_ref.rs` L514-684). -/
def St.set (s : St) (t : Nat) (p : List Act) : St := { s with rest := fun u => if u = t then p else s.rest u }

/-- What happens: a call does its next action, or its future is dropped. `src/actor/actor_ref.rs` L514-684. -/
inductive Op where
  | run (t : Nat)
  | drop (t : Nat)
  deriving DecidableEq, Repr

/-- Has the call nothing done yet, or does it wait? A future can be dropped then, and only then. The `await`s of
`src/actor/actor_ref.rs` L520, L610, L643, L720. -/
def St.suspended (c : Nat → Call) (s : St) (t : Nat) : Bool :=
  (s.rest t == (c t).prog && s.rest t != []) ||
  match s.rest t with
  | .await _ :: _ => true
  | _ => false

/-- One step. tokio's mutex as used at `src/actor/actor_ref.rs` L519-526: a wait is over when the request is the oldest; a
dropped future gives up its requests and the locks it has. -/
def St.step (c : Nat → Call) (s : St) : Op → St
  | .run t =>
    match s.rest t with
    | [] => s
    | .req a :: p => { s.set t p with queue := fun x => if x = a then s.queue x ++ [t] else s.queue x }
    | .await a :: p => if (s.queue a).head? = some t then s.set t p else s
    | .try a :: p =>
      if s.queue a = [] then { s.set t p with queue := fun x => if x = a then [t] else s.queue x }
      else s.set t []
    | .work w :: p =>
      { s.set t p with
        sets := fun x => if x = w.set then w.on (s.sets x) else s.sets x
        seen := fun u => if u = t ∧ w.sees = true then some (s.sets w.set) else s.seen u
        begun := if t ∈ s.begun then s.begun else s.begun ++ [t] }
    | .rel a :: p => { s.set t p with queue := fun x => if x = a then (s.queue x).filter (· != t) else s.queue x }
  | .drop t =>
    if (c t).isAsync && s.suspended c t then
      { s.set t [] with
        queue := fun x => (s.queue x).filter (· != t)
        dropped := fun u => if u = t then true else s.dropped u }
    else s

/-- The calls `c` after a history, all link sets being empty at first (`src/actor/spawn.rs` L308). -/
def after (c : Nat → Call) (ops : List Op) : St := ops.foldl (St.step c) { rest := fun t => (c t).prog }

end Verif.Atomic
