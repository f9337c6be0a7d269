/-
Model of `ActorRef::is_current` (`src/actor/actor_ref.rs` L198-203), of the task-local variable
`CURRENT_ACTOR_ID` (L35-37) it reads, and of the ways to start an actor (`src/actor/spawn.rs` L367-411).
-/

namespace Verif.Current

/-- What encloses a piece of running code, from the inside out. Scopes are opened at
`src/actor/spawn.rs` L380-411 and nowhere else; the tasks without one are those of `tokio::spawn`,
as at `src/actor/actor_ref.rs` L783. -/
inductive Frame where
  /-- the code is polled as (part of) its own task. -/
  | task
  /-- `CURRENT_ACTOR_ID.scope(a, ..)`. -/
  | scope (a : Nat)
  /-- `run_actor_lifecycle` of actor `a`: everything inside is code of `a` (hooks and handlers). -/
  | actor (a : Nat)
  deriving DecidableEq, Repr

/-- The frames around a piece of code, innermost first. Bookkeeping for `CURRENT_ACTOR_ID`,
`src/actor/actor_ref.rs` L35-37. -/
abbrev Stack := List Frame

/-- The value of the task-local: that of the innermost scope around the code, whatever the task.
`tokio` keeps it in a thread-local while the future inside the scope is polled, so a future polled
by that future sees it too. It is read by `CURRENT_ACTOR_ID.try_with` in `is_current`,
`src/actor/actor_ref.rs` L198-203. -/
def current : Stack → Option Nat
  | [] => none
  | .scope a :: _ => some a
  | _ :: st => current st

/-- `is_current`, `src/actor/actor_ref.rs` L198-203: `try_with` gives an error if there is no scope.
Simplification: two ids are equal iff they are the same number (`Verif/ActorId/Props.lean` shows when that
is so). Every tell and ask uses it for `sent_within_actor` (`src/request/tell.rs` L86, L114, L129,
`src/request/ask.rs` L122, L196, L263, L305, L338, L406, L461, L497, L551). -/
def isCurrent (st : Stack) (a : Nat) : Bool :=
  match current st with
  | some b => b == a
  | none => false

/-- All the code that is running or has run: an entry per activity. Bookkeeping: the futures given
to the executor, `src/actor/spawn.rs` L367-411. -/
structure St where
  /-- the first entry is `main`. -/
  places : List Stack := [[]]
  /-- the next id, `ActorID::generate`. -/
  next : Nat := 0

/-- What code can do: start an actor (`spawn`, `spawn_in_thread`, `run`: `src/actor/spawn.rs`
L367-411), start a plain task or thread (no code of kameo), or await a future in place. -/
inductive Op where
  /-- activity `i` starts a task with `tokio::spawn`, `spawn_blocking` or a thread. -/
  | spawnTask (i : Nat)
  /-- activity `i` starts an actor with `spawn`, `spawn_with`, `spawn_link`, `spawn_in_thread`,
  `PreparedActor::spawn` or `PreparedActor::spawn_in_thread` (`src/actor/spawn.rs` L380-411). -/
  | spawnActor (i : Nat)
  /-- activity `i` runs an actor itself with `PreparedActor::run` (`src/actor/spawn.rs` L367-375). -/
  | runActor (i : Nat)
  /-- activity `i` polls another task itself, as `LocalSet::run_until` does for tasks made by
  `spawn_local`. -/
  | pollLocal (i : Nat)
  deriving DecidableEq, Repr

/-- The activity started by an operation from code with stack `st`. `spawn` and `spawn_in_thread` scope the
actor's id (`src/actor/spawn.rs` L383, L390, L408) and start a task or thread of their own; `run` does neither. -/
def St.step (s : St) : Op → St
  | .spawnTask i =>
    match s.places[i]? with
    | some _ => { s with places := s.places ++ [[.task]] }
    | none => s
  | .spawnActor i =>
    match s.places[i]? with
    | some _ => { places := s.places ++ [[.actor s.next, .scope s.next, .task]], next := s.next + 1 }
    | none => s
  | .runActor i =>
    match s.places[i]? with
    | some st => { places := s.places ++ [.actor s.next :: st], next := s.next + 1 }
    | none => s
  | .pollLocal i =>
    match s.places[i]? with
    | some st => { s with places := s.places ++ [.task :: st] }
    | none => s

/-- The activities after a history of calls (`src/actor/spawn.rs` L367-411). -/
def after (ops : List Op) : St := ops.foldl St.step {}

end Verif.Current
