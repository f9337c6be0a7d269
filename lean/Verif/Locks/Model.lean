import Verif.Util

/-
Model of how calls that change link sets take the locks of those sets (`Links` is an
`Arc<tokio::sync::Mutex<HashMap<..>>>`, `src/actor/actor_ref.rs` L1357):

* `ActorRef::link` and `unlink` (L514-526, L637-646) take the two locks of both actors with
  `tokio::join!(a.links.lock(), b.links.lock())`: the first poll requests the first lock and then, whether
  or not it was free, the second one;
* `blocking_link` and `blocking_unlink` (L553-565, L675-684) take the first lock and, holding it, wait for
  the second;
* the draining of the links of a stopping actor (`src/actor/spawn.rs` L517-520), `handle_link_died`
  (`src/actor/kind.rs` L140) and `link_remote` / `unlink_remote` (`src/actor/actor_ref.rs` L610, L720) take
  one lock for a moment.

No other code waits for anything while it holds such a lock. The swarm's reaction to a closed connection
(`src/remote/swarm.rs` L791-818) waits for such locks while it holds the registry's: Verif.Locks.Registry.

tokio's mutex is fair: requests are served first come, first served, and a released lock belongs to the
next one waiting at once. So a lock is a queue of requests whose head holds the lock. (tokio is not part
of /repo; this is an assumption.)
-/

namespace Verif.Locks

/-- A call (locks, that is actors, and calls are named by numbers): the lock it takes first, the
other lock if any, and whether it waits for the first before it requests the second
(`blocking_*`). The callers: `link` L514-526, `blocking_link` L553-565, `unlink` L637-646,
`blocking_unlink` L675-684 of `src/actor/actor_ref.rs`. -/
structure Call where
  fst : Nat
  snd : Option Nat
  blocking : Bool
  deriving DecidableEq, Repr

/-- The call made by `a.link(&b)` and `a.unlink(&b)`; nothing is done for `a = b`:
`src/actor/actor_ref.rs` L515-517, L638-640. -/
def linkCall (a b : Nat) : Option Call := if a = b then none else some ⟨a, some b, false⟩

/-- The call made by `a.blocking_link(&b)` and `a.blocking_unlink(&b)`, `src/actor/actor_ref.rs` L553-558, L675-680. -/
def blockingCall (a b : Nat) : Option Call := if a = b then none else some ⟨a, some b, true⟩

/-- A call that takes one lock only. `handle_link_died`, `src/actor/kind.rs` L140; the end of an
actor, `src/actor/spawn.rs` L517-560; `link_remote` and `unlink_remote`, `src/actor/actor_ref.rs`
L610, L720. -/
def oneLock (a : Nat) : Call := ⟨a, none, false⟩

/-- How far a call is. The suspension points of `src/actor/actor_ref.rs` L519-520 and L558-559. -/
inductive Stage where
  | new
  /-- has requested the first lock. -/
  | one
  /-- has requested both locks. -/
  | two
  | done
  deriving DecidableEq, Repr

/-- Who requested each lock, oldest request (the holder) first; and how far each call is. The
queue is that of `tokio::sync::Mutex`, the type of `links` (`src/actor/actor_ref.rs` L47-55,
L1357). -/
structure St where
  queue : Nat → List Nat := fun _ => []
  stage : Nat → Stage := fun _ => .new

/-- What can happen. The steps of the calls at `src/actor/actor_ref.rs` L514-526, L553-565,
L637-646, L675-684. -/
inductive Op where
  /-- the call requests its first lock. -/
  | req1 (t : Nat)
  /-- the call requests its second lock. -/
  | req2 (t : Nat)
  /-- the call has its locks, does its work, and releases them. -/
  | fin (t : Nat)
  /-- the future of an async call is dropped: it gives up its locks and requests. -/
  | drop (t : Nat)
  deriving DecidableEq, Repr

/-- Does the call hold the lock? The guard of `tokio::sync::Mutex`, `src/actor/actor_ref.rs`
L519-520. -/
def St.holds (s : St) (t : Nat) (l : Nat) : Bool := (s.queue l).head? == some t

/-- Can it happen? `lock().await` resumes only for the holder, `src/actor/actor_ref.rs` L519-520,
L558-559. -/
def St.enabled (c : Nat → Call) (s : St) : Op → Bool
  | .req1 t => s.stage t == .new
  | .req2 t => s.stage t == .one && (c t).snd.isSome && (!(c t).blocking || s.holds t (c t).fst)
  | .fin t =>
    match (c t).snd with
    | none => s.stage t == .one && s.holds t (c t).fst
    | some b => s.stage t == .two && s.holds t (c t).fst && s.holds t b
  | .drop t => (s.stage t == .one || s.stage t == .two) && !(c t).blocking

/-- A new request for a lock. The first poll of `lock()`, `src/actor/actor_ref.rs` L520, L558. -/
def St.request (s : St) (t : Nat) (l : Nat) : St :=
  { s with queue := fun x => if x = l then s.queue x ++ [t] else s.queue x }

/-- A call gives up all its locks and requests and is over. The guards are dropped at the end of
the function, `src/actor/actor_ref.rs` L526, L565, L646, L684. -/
def St.leave (s : St) (t : Nat) : St :=
  { queue := fun x => (s.queue x).filter (· != t)
    stage := fun u => if u = t then .done else s.stage u }

/-- Note how far a call is. Bookkeeping of the suspension points, `src/actor/actor_ref.rs`
L519-520, L558-559. -/
def St.mark (s : St) (t : Nat) (g : Stage) : St :=
  { s with stage := fun u => if u = t then g else s.stage u }

/-- One step; nothing happens if it is not enabled. `src/actor/actor_ref.rs` L514-526, L553-565.
-/
def St.step (c : Nat → Call) (s : St) (op : Op) : St :=
  if s.enabled c op then
    match op with
    | .req1 t => (s.request t (c t).fst).mark t .one
    | .req2 t =>
      match (c t).snd with
      | some b => (s.request t b).mark t .two
      | none => s
    | .fin t => s.leave t
    | .drop t => s.leave t
  else s

/-- A history. `St.step` along a list (`src/actor/actor_ref.rs` L514-684). -/
def St.exec (c : Nat → Call) (s : St) (ops : List Op) : St := ops.foldl (St.step c) s

/-- The locks after a history of the calls `c`. (`src/actor/actor_ref.rs` L514-684.) -/
def after (c : Nat → Call) (ops : List Op) : St := St.exec c {} ops

end Verif.Locks
