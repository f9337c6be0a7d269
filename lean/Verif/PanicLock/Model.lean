import Verif.Lifecycle.Outcome

/-
Model of the lock around the error in a `PanicError`: `src/error.rs` L679-743. All clones of a `PanicError` share one
`std::sync::Mutex`; `with`, `with_str`, `with_downcast_ref` and `downcast` hold it while they run a closure of the program.
-/

namespace Verif.PanicLock

open Verif.Lifecycle

/-- The ways to look at the error: `with` (`src/error.rs` L735-743), `with_str` (L702-713), `with_downcast_ref`
(L724-733; also `downcast`, L716-721). -/
inductive How where
  | any
  | str
  | ty (t : PTy)
  deriving DecidableEq, Repr

/-- Is the closure called? `src/error.rs` L706-711, L728-731, L740. -/
def How.shows : How → Pay → Bool
  | .any, _ => true
  | .str, p => (PanicError.withStr ⟨p⟩).isSome
  | .ty t, p => (PanicError.downcast ⟨p⟩ t).isSome

/-- What a thread of the program does, as far as `PanicError`s go: nothing more, a panic, or a look at error `e` with the
closure `f`, and then `rest`. Clones of one `PanicError` have the same number. The user code of `src/error.rs` L702-743:
the closures, and the `Clone` (L720) and `Debug` (L769) of the error itself. Simplification: a panic is not caught by the
program before it has left all closures (kameo catches those of hooks and handlers, `src/actor/kind.rs` L116, L138). -/
inductive Prog where
  | ret
  | panic
  | look (how : How) (e : Nat) (f rest : Prog)
  deriving DecidableEq, Repr

/-- `to_string()` of an error, with the sink that the formatter writes to doing nothing of interest: `Display`,
`src/error.rs` L746-751. -/
def display (e : Nat) : Prog := .look .str e .ret .ret

/-- `wait_for_startup_result` (and `…shutdown…`) on an error of type `t`: `src/actor/actor_ref.rs` L307-317, L396-406. -/
def readResult (t : PTy) (e : Nat) : Prog := .look (.ty t) e .ret .ret

/-- A thread: what it does now, and the closures it is in: whose error each looks at, and what comes after it. The guard of
`src/error.rs` L728 or L740 lives as long as the closure runs. -/
structure Th where
  now : Prog
  stack : List (Nat × Prog) := []
  deriving DecidableEq, Repr

/-- The mutex of an error, `src/error.rs` L682. -/
structure Cell where
  val : Pay
  holder : Option Nat := none
  poisoned : Bool := false
  deriving DecidableEq, Repr

/-- The errors and the threads of a program; `seen` is a history: the looks a thread has had, with the value shown to the
closure, if the closure was called. `src/error.rs` L682. -/
structure St where
  cell : Nat → Cell
  th : Nat → Th
  seen : Nat → List (Nat × Option Pay)

/-- Replace one entry. Bookkeeping, models no code of its own (the errors are those of `src/error.rs` L682-744). -/
def upd (f : Nat → α) (i : Nat) (x : α) : Nat → α := fun j => if j = i then x else f j

/-- `Mutex::lock`, as `src/error.rs` L728 and L740 call it: `none` if the thread has to wait, which it also has to if it
holds the lock itself (the standard library promises no more than that the call does not return); else whether the lock
was poisoned. -/
def Cell.lock (c : Cell) : Option (Except Unit Unit) :=
  match c.holder with
  | some _ => none
  | none => some (if c.poisoned then .error () else .ok ())

/-- `with`, `with_str`, `with_downcast_ref` up to the call of the closure: `src/error.rs` L728-731, L740-742. Whether the
lock is poisoned makes no difference: `Err(err)` has the guard in it. The value the closure is called with. -/
def enter (how : How) (c : Cell) : Except Unit Unit → Option Pay
  | .ok () => if how.shows c.val then some c.val else none
  | .error () => if how.shows c.val then some c.val else none

/-- The guard is dropped, at the end of `src/error.rs` L728-731 or L740-742 or when a panic passes by: then the lock is
poisoned. -/
def Cell.unlock (c : Cell) (panicking : Bool) : Cell :=
  { c with holder := none, poisoned := c.poisoned || panicking }

/-- One step of thread `t`, `none` if it has to wait or is at its end; `src/error.rs` L702-743. -/
def St.step? (s : St) (t : Nat) : Option St :=
  match (s.th t).now, (s.th t).stack with
  | .look how e f rest, st =>
    match (s.cell e).lock with
    | none => none
    | some r =>
      let shown := enter how (s.cell e) r
      some { cell := upd s.cell e { s.cell e with holder := some t },
             th := upd s.th t ⟨if shown.isSome then f else .ret, (e, rest) :: st⟩,
             seen := upd s.seen t (s.seen t ++ [(e, shown)]) }
  | .ret, (e, k) :: st =>
    some { s with cell := upd s.cell e ((s.cell e).unlock false), th := upd s.th t ⟨k, st⟩ }
  | .panic, (e, _) :: st =>
    some { s with cell := upd s.cell e ((s.cell e).unlock true), th := upd s.th t ⟨.panic, st⟩ }
  | .ret, [] => none
  | .panic, [] => none

/-- A step, if there is one. `src/error.rs` L702-743. -/
def St.step (s : St) (t : Nat) : St := (s.step? t).getD s

/-- The threads run in this order: any order in which threads call `with` and its kin, `src/error.rs` L701-744. -/
def St.run (s : St) : List Nat → St
  | [] => s
  | t :: ts => (s.step t).run ts

/-- Threads with these programs, errors with these values: `PanicError::new`, `src/error.rs` L685-687. -/
def start (val : Nat → Pay) (ps : List Prog) : St where
  cell e := ⟨val e, none, false⟩
  th t := ⟨ps.getD t .ret, []⟩
  seen _ := []

/-- The thread has come to its end, or to its panic; no call of `src/error.rs` L701-744 is under way. -/
def St.ended (s : St) (t : Nat) : Prop := (s.th t).stack = [] ∧ ((s.th t).now = .ret ∨ (s.th t).now = .panic)

/-- The thread waits for the lock of an error whose lock it has itself: at `src/error.rs` L728 or L740. -/
def St.jammed (s : St) (t e : Nat) : Prop :=
  (∃ how f rest, (s.th t).now = .look how e f rest) ∧ e ∈ (s.th t).stack.map (·.1)

end Verif.PanicLock
