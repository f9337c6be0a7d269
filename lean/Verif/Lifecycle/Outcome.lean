import Verif.Lifecycle.PropsResult
import Verif.Lifecycle.PropsStop

/-!
How the outcome of `on_start` and `on_stop` reaches the program: `PanicError` (`src/error.rs` L679-743),
`wait_for_startup_result` and `wait_for_shutdown_result` (`src/actor/actor_ref.rs` L302-318, L391-407), and the
error hook (`src/error.rs` L26-80). C63, C64, C65.
-/

set_option linter.unusedSimpArgs false

namespace Verif.Lifecycle

open Verif.Mailbox

/-! ### Model -/

/-- The types that matter to `PanicError`, `src/error.rs` L689-743: `&'static str`, `String`, any other type
(by a number), and `Box<dyn Any + Send>`. -/
inductive PTy where
  | str
  | string
  | user (n : Nat)
  | boxAny
  deriving DecidableEq, Repr

/-- A value of one of these types; `boxed p` is the box with `p` in it. `src/error.rs` L682, L689-698. -/
inductive Pay where
  | str (s : String)
  | string (s : String)
  | user (ty v : Nat)
  | boxed (p : Pay)
  deriving DecidableEq, Repr

/-- The type of a value, what `downcast_ref` compares; `src/error.rs` L724-733. -/
def Pay.ty : Pay → PTy
  | .str _ => .str
  | .string _ => .string
  | .user n _ => .user n
  | .boxed _ => .boxAny

/-- `PanicError`, `src/error.rs` L682. Simplification: the mutex around the value is left out
(`Verif.PanicLock` has it). -/
structure PanicError where
  held : Pay
  deriving DecidableEq, Repr

/-- `PanicError::new`, `src/error.rs` L685-687. -/
def PanicError.new (p : Pay) : PanicError := ⟨p⟩

/-- `PanicError::new_from_panic_any`, `src/error.rs` L689-698: strings are taken out of the box the panic
came in; anything else is kept with its box. -/
def PanicError.newFromPanicAny : Pay → PanicError
  | .str s => .new (.str s)
  | .string s => .new (.string s)
  | .user n v => .new (.boxed (.user n v))
  | .boxed p => .new (.boxed (.boxed p))

/-- `PanicError::with_str`, `src/error.rs` L702-713, with the identity. -/
def PanicError.withStr (e : PanicError) : Option String :=
  match e.held with
  | .str s => some s
  | .string s => some s
  | _ => none

/-- `PanicError::with_downcast_ref`, `src/error.rs` L724-733, with the identity, and `downcast` (L716-721):
the value if it is of type `t`. -/
def PanicError.downcast (e : PanicError) (t : PTy) : Option Pay :=
  if e.held.ty = t then some e.held else none

/-- What one poll of a result observer gives; `src/actor/actor_ref.rs` L302-318, L391-407. -/
inductive Seen where
  /-- still waiting. -/
  | pending
  /-- the function panics in one of its `expect`s. -/
  | panics
  | ok
  | err (p : Pay)
  deriving DecidableEq, Repr

/-- Reading a published result: the two `expect`s, `src/actor/actor_ref.rs` L307-317 and L396-406.
`errTy` is `A::Error`; the lifecycle model names errors by numbers, `pe` gives the `PanicError`. -/
def readResult (errTy : PTy) (pe : Err → PanicError) : Option (Option Err) → Seen
  | none => .panics
  | some none => .ok
  | some (some e) =>
    match (pe e).downcast errTy with
    | some p => .err p
    | none => .panics

/-- `wait_for_startup_result`, `src/actor/actor_ref.rs` L302-318: acquire the semaphore, then read. -/
def St.startupResult (s : St) (errTy : PTy) (pe : Err → PanicError) : Seen :=
  if s.permits = 0 then .pending else readResult errTy pe s.startupErr

/-- `wait_for_shutdown_result`, `src/actor/actor_ref.rs` L391-407: wait until the mailbox is closed, then
read. -/
def St.shutdownResult (s : St) (errTy : PTy) (pe : Err → PanicError) : Seen :=
  if s.mb.closed = false then .pending else readResult errTy pe s.shutdownErr

/-- The call of the error hook in one step, if there is one: `invoke_actor_error_hook` at `src/actor/spawn.rs`
L445 (after `on_start`), L487 (`on_stop` after a failed start) and L580 (after the links have been notified). -/
def St.hookCall (s : St) (op : Op) : List Err :=
  match op, s.phase with
  | .startEnd (.err e), .starting => [e]
  | .startEnd (.panic e), .starting => [e]
  | .stopEnd (.err e), .stopping _ _ false => [e]
  | .finish, .notifying _ [] (some e) => [e]
  | _, _ => []

/-- All calls of the error hook along a history, `src/error.rs` L73-80. -/
def St.hookCalls (s : St) : List Op → List Err
  | [] => []
  | op :: ops => s.hookCall op ++ (s.step op).hookCalls ops

/-- The calls of the error hook for the actor with history `ops`; as `after`. `src/error.rs` L73-80. -/
def hookCalls (cap : Option Nat) (ops : List Op) : List Err :=
  St.hookCalls { St.fresh cap with ext := 1 } ops

/-! ### C65: `PanicError` -/

/-- **C65** An error a hook returned is got back by its own type, and by no other. -/
theorem error_downcasts (p : Pay) (t : PTy) :
    (PanicError.new p).downcast t = some p ↔ t = p.ty := by
  unfold PanicError.downcast PanicError.new
  split
  · rename_i h; exact ⟨fun _ => h.symm, fun _ => rfl⟩
  · rename_i h
    exact ⟨fun hc => by simp at hc, fun hc => (h hc.symm).elim⟩

example : (PanicError.new (.user 3 5)).downcast (.user 3) = some (.user 3 5) := by decide

/-- **C65** (the types are kept apart): what is got back by a type is a value of that type; a `String` is not got back as a
`&'static str`, nor the other way round, and neither is the box of a panic taken for its contents. -/
theorem downcast_by_type (p q : Pay) :
    ((PanicError.new p).downcast .str = some q ↔ q = p ∧ ∃ s, p = .str s) ∧
    ((PanicError.new p).downcast .string = some q ↔ q = p ∧ ∃ s, p = .string s) ∧
    (∀ n, (PanicError.new p).downcast (.user n) = some q ↔ q = p ∧ ∃ v, p = .user n v) ∧
    ((PanicError.new p).downcast .boxAny = some q ↔ q = p ∧ ∃ x, p = .boxed x) := by
  cases p <;> simp [PanicError.downcast, PanicError.new, Pay.ty, eq_comm]
  rename_i n v
  intro m
  constructor
  · rintro ⟨rfl, h⟩; exact ⟨h, rfl⟩
  · rintro ⟨h, rfl⟩; exact ⟨rfl, h⟩

example : (PanicError.new (.string "a")).downcast .str = none ∧
    (PanicError.new (.string "a")).downcast .string = some (.string "a") := by decide

/-- Is the value a string (`&'static str` or `String`)? (Specification.) -/
def Pay.text : Pay → Option String
  | .str s => some s
  | .string s => some s
  | _ => none

/-- **C65** The text of a panic with a string is got back; for any other panic there is no text. -/
theorem panic_text (p : Pay) : (PanicError.newFromPanicAny p).withStr = p.text := by
  cases p <;> rfl

example : (PanicError.newFromPanicAny (.string "boom")).withStr = some "boom" := by decide

/-- **C65**, part: the payload of a panic is got back by its own type if it is a string. What is missing: any
other payload (`panic_payload_hidden`). -/
theorem panic_payload_partial (p : Pay) (h : p.text ≠ none) :
    (PanicError.newFromPanicAny p).downcast p.ty = some p := by
  cases p <;> simp_all [Pay.text, PanicError.newFromPanicAny, PanicError.new, PanicError.downcast, Pay.ty]

example : (Pay.str "boom").text ≠ none := by decide

/-- **C65 is false**: the payload of a panic that is no string (`std::panic::panic_any`) is never got back by
its own type: it can only be seen inside of the box it was thrown in. -/
theorem panic_payload_hidden (n v : Nat) :
    (PanicError.newFromPanicAny (.user n v)).downcast (.user n) = none ∧
    ∀ t p, (PanicError.newFromPanicAny (.user n v)).downcast t = some p →
      t = .boxAny ∧ p = .boxed (.user n v) := by
  refine ⟨by simp [PanicError.newFromPanicAny, PanicError.new, PanicError.downcast, Pay.ty], ?_⟩
  intro t p h
  by_cases ht : PTy.boxAny = t
  · subst ht
    simp [PanicError.newFromPanicAny, PanicError.new, PanicError.downcast, Pay.ty] at h
    exact ⟨rfl, h.symm⟩
  · simp [PanicError.newFromPanicAny, PanicError.new, PanicError.downcast, Pay.ty, ht] at h

/-- `panic_any(5)`, and a panic with a message, which is got back. -/
example : (PanicError.newFromPanicAny (.user 3 5)).downcast (.user 3) = none ∧
    (PanicError.newFromPanicAny (.user 3 5)).downcast .boxAny = some (.boxed (.user 3 5)) ∧
    (PanicError.newFromPanicAny (.str "boom")).downcast .str = some (.str "boom") := by decide

/-! ### C63: the result observers -/

/-- How errors of the lifecycle model and `PanicError`s fit together in the code of an actor whose error type
is `errTy`: what a hook returns is of that type, what it panics with is anything. (Specification.) -/
structure Fits (errTy : PTy) (pe : Err → PanicError) (log : List Ev) : Prop where
  start : ∀ e, .startEnd (.err e) ∈ log → ∃ p, p.ty = errTy ∧ pe e = .new p
  startPanic : ∀ e, .startEnd (.panic e) ∈ log → ∃ p, pe e = .newFromPanicAny p
  stop : ∀ r e, .sEnd r (.err e) ∈ log → ∃ p, p.ty = errTy ∧ pe e = .new p

/-- **C63**, part: when `wait_for_startup_result` has anything to say and `on_start` did not panic, it returns
what `on_start` returned. What is missing: panics (`startup_result_panics`), and that it has anything to say
(C28). -/
theorem startup_result_true_partial (cap : Option Nat) (ops : List Op) (errTy : PTy)
    (pe : Err → PanicError) (hf : Fits errTy pe (after cap ops).log)
    (hn : ∀ e, .startEnd (.panic e) ∉ (after cap ops).log)
    (hw : (after cap ops).startupResult errTy pe ≠ .pending) :
    (.startEnd .ok ∈ (after cap ops).log ∧ (after cap ops).startupResult errTy pe = .ok) ∨
    ∃ e, .startEnd (.err e) ∈ (after cap ops).log ∧
      (after cap ops).startupResult errTy pe = .err (pe e).held := by
  have hs := start_after cap ops
  have ht := (results_true cap ops).1
  generalize after cap ops = s at *
  have hp : s.permits ≠ 0 := by
    intro h0; simp [St.startupResult, h0] at hw
  have hx : s.startupErr ≠ none := fun h0 => hp (hs.noRes h0).1
  simp only [St.startupResult, hp, if_false]
  cases hc : s.startupErr with
  | none => exact (hx hc).elim
  | some x =>
    obtain ⟨o, ho, hr⟩ := (ht x).mp hc
    subst hr
    cases o with
    | ok => exact Or.inl ⟨ho, rfl⟩
    | panic e => exact (hn e ho).elim
    | err e =>
      refine Or.inr ⟨e, ho, ?_⟩
      obtain ⟨p, hp, he⟩ := hf.start e ho
      simp [hookError, readResult, he, PanicError.downcast, PanicError.new, hp]

example : Fits (.user 1) (fun e => .new (.user 1 e)) (after none [.run, .startEnd (.err 3)]).log ∧
    (after none [.run, .startEnd (.err 3)]).startupResult (.user 1) (fun e => .new (.user 1 e)) =
      .err (.user 1 3) := by
  have hl : (after none [.run, .startEnd (.err 3)]).log = [.startBegin, .startEnd (.err 3), .pBegin 3] := by
    decide
  refine ⟨⟨fun e _ => ⟨.user 1 e, rfl, rfl⟩, ?_, fun _ e _ => ⟨.user 1 e, rfl, rfl⟩⟩, by decide⟩
  rw [hl]; simp

/-- **C63 is false**: if `on_start` panics, `wait_for_startup_result` panics too, in every actor whose error type
is not itself a string type (or a box of anything). -/
theorem startup_result_panics (cap : Option Nat) (ops : List Op) (n : Nat) (pe : Err → PanicError)
    (hf : Fits (.user n) pe (after cap ops).log) (e : Err)
    (h : .startEnd (.panic e) ∈ (after cap ops).log) :
    (after cap ops).startupResult (.user n) pe = .panics := by
  have h1 := startup_wait_returns_on_failure_partial cap ops e (Or.inr h)
  have h2 := ((results_true cap ops).1 (some e)).mpr ⟨_, h, rfl⟩
  obtain ⟨p, hp⟩ := hf.startPanic e h
  simp only [St.startupResult, h1, h2, readResult, hp]
  cases p <;> simp [PanicError.newFromPanicAny, PanicError.new, PanicError.downcast, Pay.ty]

example : .startEnd (.panic 3) ∈ (after none [.run, .startEnd (.panic 3)]).log ∧
    Fits (.user 1) (fun _ => .newFromPanicAny (.str "no")) (after none [.run, .startEnd (.panic 3)]).log ∧
    (after none [.run, .startEnd (.panic 3)]).startupResult (.user 1)
      (fun _ => .newFromPanicAny (.str "no")) = .panics := by
  have hl : (after none [.run, .startEnd (.panic 3)]).log =
      [.startBegin, .startEnd (.panic 3), .pBegin 3] := by decide
  refine ⟨by decide, ⟨?_, ?_, ?_⟩, by decide⟩ <;> rw [hl]
  · simp
  · intro e _; exact ⟨_, rfl⟩
  · simp

theorem dead_after_panic {log : List Ev} {l : Life} (h : Life.notStarted.run log = some l)
    (hp : ∃ r e, .sEnd r (.panic e) ∈ log) : l = .dead := by
  revert hp
  refine run_induct (P := fun log l => (∃ r e, .sEnd r (.panic e) ∈ log) → l = .dead) (by simp) ?_ h
  intro log l e l' ih ht
  rintro ⟨r, e', he⟩
  rcases List.mem_append.mp he with he | he
  · have := ih ⟨r, e', he⟩
    subst this
    cases ht <;> rfl
  · simp at he; subst he
    cases ht; rfl

/-- **C63**, part: when the actor's task has returned, `wait_for_shutdown_result` returns what `on_stop`
returned. What is missing: tasks that were torn down (`shutdown_result_panics`). -/
theorem shutdown_result_true_partial (cap : Option Nat) (ops : List Op) (errTy : PTy)
    (pe : Err → PanicError) (hf : Fits errTy pe (after cap ops).log) (r : Reason)
    (h : (after cap ops).phase = .stopped r) :
    (.sEnd r .ok ∈ (after cap ops).log ∧ (after cap ops).shutdownResult errTy pe = .ok) ∨
    ∃ e, .sEnd r (.err e) ∈ (after cap ops).log ∧
      (after cap ops).shutdownResult errTy pe = .err (pe e).held := by
  have hcl := (alive_until_ended cap ops).mpr (Or.inl ⟨r, h⟩)
  have h2 := (results_true cap ops).2
  have hnp : ∀ r' e, .sEnd r' (.panic e) ∉ (after cap ops).log := by
    intro r' e hm
    obtain ⟨l, hl, hml⟩ := logOk_after cap ops
    rw [h] at hml
    have := dead_after_panic hl ⟨r', e, hm⟩
    simp [matchLife, this] at hml
  generalize after cap ops = s at *
  simp only [St.shutdownResult, hcl, Bool.true_eq_false, if_false]
  cases hc : s.shutdownErr with
  | none => exact (h2.2 r h hc).elim
  | some x =>
    obtain ⟨r', o, ho, hr, hp⟩ := h2.1 x hc
    rw [h] at hp; injection hp with hp; subst hp; subst hr
    cases o with
    | ok => exact Or.inl ⟨ho, rfl⟩
    | panic e => exact (hnp _ e ho).elim
    | err e =>
      refine Or.inr ⟨e, ho, ?_⟩
      obtain ⟨p, hp, he⟩ := hf.stop r e ho
      simp [hookError, readResult, he, PanicError.downcast, PanicError.new, hp]

example : (after none (stopDemo ++ [.stopEnd (.err 4), .finish])).phase = .stopped .normal ∧
    (after none (stopDemo ++ [.stopEnd (.err 4), .finish])).shutdownResult (.user 1)
      (fun e => .new (.user 1 e)) = .err (.user 1 4) ∧
    Fits (.user 1) (fun e => .new (.user 1 e)) (after none (stopDemo ++ [.stopEnd (.err 4), .finish])).log := by
  have hl : ∀ e, .startEnd (.panic e) ∉ (after none (stopDemo ++ [.stopEnd (.err 4), .finish])).log := by
    have : (after none (stopDemo ++ [.stopEnd (.err 4), .finish])).log.all
        (fun x => match x with | .startEnd (.panic _) => false | _ => true) = true := by decide
    intro e he
    have := List.all_eq_true.mp this _ he
    simp at this
  exact ⟨by decide, by decide, fun e _ => ⟨.user 1 e, rfl, rfl⟩, fun e he => (hl e he).elim,
    fun _ e _ => ⟨.user 1 e, rfl, rfl⟩⟩

/-- **C63** `wait_for_shutdown_result` does not return before the actor's task has ended, and does when it has. -/
theorem shutdown_result_waits (cap : Option Nat) (ops : List Op) (errTy : PTy) (pe : Err → PanicError) :
    (after cap ops).shutdownResult errTy pe = .pending ↔
      (∀ r, (after cap ops).phase ≠ .stopped r) ∧ (after cap ops).phase ≠ .crashed := by
  have h := alive_until_ended cap ops
  constructor
  · intro hp
    have hcl : (after cap ops).mb.closed ≠ true := by
      intro hc
      simp only [St.shutdownResult, hc, Bool.true_eq_false, if_false] at hp
      revert hp
      unfold readResult
      split
      · simp
      · simp
      · split <;> simp
    exact ⟨fun r hr => hcl (h.mpr (Or.inl ⟨r, hr⟩)), fun hr => hcl (h.mpr (Or.inr hr))⟩
  · rintro ⟨h1, h2⟩
    have hcl : (after cap ops).mb.closed = false := by
      cases hc : (after cap ops).mb.closed with
      | false => rfl
      | true =>
        rcases h.mp hc with ⟨r, hr⟩ | hr
        · exact absurd hr (h1 r)
        · exact absurd hr h2
    simp [St.shutdownResult, hcl]

/-- `on_stop` has returned but the links have not been told yet. -/
example : (after none [.run, .startEnd .ok, .link 3, .kill, .pollBegin, .stopEnd (.err 4)]).phase =
      .notifying .killed [3] (some 4) ∧
    (after none [.run, .startEnd .ok, .link 3, .kill, .pollBegin, .stopEnd (.err 4)]).shutdownResult (.user 1)
      (fun e => .new (.user 1 e)) = .pending := by decide

/-- **C63 is false**: if the actor's task was torn down, in particular because `on_stop` or `on_panic` panicked,
`wait_for_shutdown_result` panics. -/
theorem shutdown_result_panics (cap : Option Nat) (ops : List Op) (errTy : PTy) (pe : Err → PanicError)
    (h : (after cap ops).phase = .crashed) :
    (after cap ops).shutdownResult errTy pe = .panics := by
  have hcl := (alive_until_ended cap ops).mpr (Or.inr h)
  have h2 := (results_true cap ops).2.1
  simp only [St.shutdownResult, hcl, Bool.true_eq_false, if_false]
  cases hc : (after cap ops).shutdownErr with
  | none => rfl
  | some x => obtain ⟨r, o, _, _, hp⟩ := h2 x hc; rw [h] at hp; simp at hp

example : .sEnd .killed (.panic 4) ∈
      (after none [.run, .startEnd .ok, .kill, .pollBegin, .stopEnd (.panic 4)]).log ∧
    (after none [.run, .startEnd .ok, .kill, .pollBegin, .stopEnd (.panic 4)]).phase = .crashed := by decide

/-! ### C64: the error hook -/

/-- The error the hook should be told about, if the event is one: a failed `on_start`, an error of `on_stop`
(specification). -/
def failure : Ev → Option Err
  | .startEnd (.err e) => some e
  | .startEnd (.panic e) => some e
  | .sEnd _ (.err e) => some e
  | _ => none

/-- All of them in a history (specification). -/
def failures (log : List Ev) : List Err := log.filterMap failure

/-- The error of `on_stop` that is kept back while links are notified. -/
def Phase.keptBack : Phase → List Err
  | .notifying _ _ (some e) => [e]
  | _ => []

@[simp] theorem failure_startOk : failure (.startEnd .ok) = none := rfl
@[simp] theorem failure_startBegin : failure .startBegin = none := rfl
@[simp] theorem failure_startCancel : failure .startCancel = none := rfl
@[simp] theorem failure_sCancel : failure .sCancel = none := rfl
@[simp] theorem failure_lCancel : failure .lCancel = none := rfl
@[simp] theorem failure_pCancel : failure .pCancel = none := rfl
@[simp] theorem failure_killCalled : failure .killCalled = none := rfl
@[simp] theorem failure_stopTaken : failure .stopTaken = none := rfl
@[simp] theorem failure_noRefs : failure .noRefs = none := rfl
@[simp] theorem failure_hBegin (m : Msg) : failure (.hBegin m) = none := rfl
@[simp] theorem failure_hEnd (m : Msg) (t : Bool) (o : HOut) : failure (.hEnd m t o) = none := rfl
@[simp] theorem failure_hCancel (m : Msg) : failure (.hCancel m) = none := rfl
@[simp] theorem failure_lBegin (id : Id) (r : Reason) : failure (.lBegin id r) = none := rfl
@[simp] theorem failure_lEnd (id : Id) (r : Reason) (o : FOut) : failure (.lEnd id r o) = none := rfl
@[simp] theorem failure_pBegin (e : Err) : failure (.pBegin e) = none := rfl
@[simp] theorem failure_pEnd (e : Err) (o : FOut) : failure (.pEnd e o) = none := rfl
@[simp] theorem failure_sBegin (r : Reason) : failure (.sBegin r) = none := rfl
@[simp] theorem failure_sOk (r : Reason) : failure (.sEnd r .ok) = none := rfl
@[simp] theorem failure_sPanic (r : Reason) (e : Err) : failure (.sEnd r (.panic e)) = none := rfl
@[simp] theorem failure_notified (id : Id) (r : Reason) : failure (.notified id r) = none := rfl
@[simp] theorem failure_returned (r : Reason) : failure (.returned r) = none := rfl
@[simp] theorem failure_replySent (t : Nat) (r : Res) : failure (.replySent t r) = none := rfl
@[simp] theorem failure_startErr (e : Err) : failure (.startEnd (.err e)) = some e := rfl
@[simp] theorem failure_startPanic (e : Err) : failure (.startEnd (.panic e)) = some e := rfl
@[simp] theorem failure_sErr (r : Reason) (e : Err) : failure (.sEnd r (.err e)) = some e := rfl

theorem failures_drainEv (rest : List Msg) (ts : Bool) : ∀ e ∈ drainEv rest ts, failure e = none := by
  intro e he
  rcases drainEv_mem he with ⟨m, rfl⟩ | rfl <;> rfl

theorem failures_cancelEv (p : Phase) : ∀ e ∈ p.cancelEv, failure e = none := by
  cases p <;> simp [Phase.cancelEv]

theorem keptBack_drain (s : St) (rest : List Msg) (ts : Bool) : (s.drain rest ts).phase.keptBack = [] := by
  cases rest with
  | cons m ms => rfl
  | nil => cases ts <;> simp [St.drain, Phase.keptBack]

/-- Phases in which no step calls the hook. -/
def Phase.plain : Phase → Bool
  | .starting => false
  | .stopping .. => false
  | .notifying .. => false
  | _ => true

theorem plain_tr {s s' : St} (ht : Tr s s') (hp : s.phase.plain = true) :
    failures s'.log = failures s.log ∧ s'.phase.keptBack = [] := by
  have hk : s.phase.keptBack = [] := by
    revert hp; cases s.phase <;> simp [Phase.plain, Phase.keptBack]
  have hno : ∀ p, s.phase = p → p.plain = false → False := by
    rintro p rfl h'; simp_all
  have hd := failures_drainEv
  have hc := failures_cancelEv
  unfold failures
  cases ht with
  | startOk h => exact (hno _ h rfl).elim
  | startFail _ _ h => exact (hno _ h rfl).elim
  | stopNotify _ _ _ _ h => exact (hno _ h rfl).elim
  | stopFinish _ _ _ _ h => exact (hno _ h rfl).elim
  | stopDie _ _ _ _ h => exact (hno _ h rfl).elim
  | notify _ _ _ _ h => exact (hno _ h rfl).elim
  | finish _ _ h => exact (hno _ h rfl).elim
  | teardown =>
    refine ⟨?_, rfl⟩
    simpa [St.crash] using hc _
  | abort =>
    refine ⟨?_, rfl⟩
    simpa [St.abortSeen] using hc _
  | recvNone => exact ⟨by simpa using hd _ _, keptBack_drain _ _ _⟩
  | recvStartup => exact ⟨by simpa using hd _ _, keptBack_drain _ _ _⟩
  | recvStop => exact ⟨by simpa using hd _ _, keptBack_drain _ _ _⟩
  | handlerReply => exact ⟨by simpa using hd _ _, keptBack_drain _ _ _⟩
  | handlerOk => exact ⟨by simpa using hd _ _, keptBack_drain _ _ _⟩
  | _ =>
    first
      | (simp [St.step, St.stopFailed, hk]; done)
      | simp [St.step, St.stopFailed, Phase.keptBack]

theorem crashed_stays (s : St) (op : Op) (h : s.phase = .crashed) : (s.step op).phase = .crashed := by
  cases op <;> simp [St.step, h, Phase.inLoop] <;> (repeat' split) <;> simp [h]

theorem hook_step (s : St) (op : Op) (h : List Err)
    (hi : s.phase ≠ .crashed → h ++ s.phase.keptBack = failures s.log)
    (hq : h <+: failures s.log) :
    ((s.step op).phase ≠ .crashed →
      (h ++ s.hookCall op) ++ (s.step op).phase.keptBack = failures (s.step op).log) ∧
    h ++ s.hookCall op <+: failures (s.step op).log := by
  cases hp : s.phase.plain with
  | true =>
    obtain ⟨h1, h2⟩ := plain_tr (step_tr s op) hp
    have h3 : s.hookCall op = [] := by
      revert hp
      unfold St.hookCall
      split <;> simp_all [Phase.plain]
    have hk : s.phase.keptBack = [] := by
      revert hp; cases s.phase <;> simp [Phase.plain, Phase.keptBack]
    rw [h1, h2, h3]
    refine ⟨fun hc => ?_, by simpa using hq⟩
    have hc' : s.phase ≠ .crashed := fun hcr => hc (crashed_stays s op hcr)
    simpa [hk] using hi hc'
  | false =>
    have hcr : s.phase ≠ .crashed := by intro hc; simp [hc, Phase.plain] at hp
    have hi := hi hcr
    -- the step keeps all, or is one of those that do something
    have key : ∃ y, failures (s.step op).log = failures s.log ++ y ∧
        ((s.step op).phase ≠ .crashed →
          s.phase.keptBack ++ y = s.hookCall op ++ (s.step op).phase.keptBack) ∧
        s.hookCall op <+: s.phase.keptBack ++ y := by
      have same : (s.step op).phase = s.phase → s.hookCall op = [] →
          failures (s.step op).log = failures s.log → ∃ y, failures (s.step op).log = failures s.log ++ y ∧
            ((s.step op).phase ≠ .crashed →
              s.phase.keptBack ++ y = s.hookCall op ++ (s.step op).phase.keptBack) ∧
            s.hookCall op <+: s.phase.keptBack ++ y := by
        intro h1 h2 h3; exact ⟨[], by simp [h3], by simp [h1, h2], by simp [h2]⟩
      have hl : s.phase.inLoop = false := by
        revert hp; cases s.phase <;> simp [Phase.plain]
      have skip : s.step op = s → s.hookCall op = [] → ∃ y, failures (s.step op).log = failures s.log ++ y ∧
            ((s.step op).phase ≠ .crashed →
              s.phase.keptBack ++ y = s.hookCall op ++ (s.step op).phase.keptBack) ∧
            s.hookCall op <+: s.phase.keptBack ++ y := by
        intro h1 h2; exact same (by rw [h1]) h2 (by rw [h1])
      cases op with
      | startEnd o =>
        by_cases hph : s.phase = .starting
        · have hok : s.startOk.phase = .idle := by unfold St.startOk; dsimp only; split <;> rfl
          refine ⟨(match o with | .ok => [] | .err e => [e] | .panic e => [e]), ?_, fun _ => ?_, ?_⟩ <;>
            cases o <;> simp [hok, St.step, hph, St.startEnd, St.startFail, St.hookCall, failures, Phase.keptBack]
        · refine skip ?_ ?_
          · simp only [St.step]
          · unfold St.hookCall; split <;> simp_all
      | stopEnd o =>
        by_cases hph : ∃ r p b, s.phase = .stopping r p b
        · obtain ⟨r, p, b, hph⟩ := hph
          refine ⟨(match o with | .ok => [] | .err e => [e] | .panic _ => []), ?_, fun hc => ?_, ?_⟩ <;>
            cases o <;> cases b <;>
            simp [St.step, hph, St.stopEnd, St.stopDone, St.hookCall, failures, Phase.keptBack, St.die] at *
        · refine skip ?_ ?_
          · simp only [St.step]; split <;> simp_all
          · unfold St.hookCall; split <;> simp_all
      | teardown =>
        have hn : ∀ r, s.phase ≠ .stopped r := by intro r hc; simp [hc, Phase.plain] at hp
        have hst : s.step .teardown = s.crash := by simp only [St.step]
        have hcl := failures_cancelEv s.phase
        rw [hst]
        refine ⟨[], ?_, fun hc => (hc rfl).elim, by simp [St.hookCall]⟩
        simpa [failures, St.crash] using hcl
      | notifyEnd id =>
        by_cases hph : ∃ r p x, s.phase = .notifying r p x ∧ id ∈ p
        · obtain ⟨r, p, x, hph, hid⟩ := hph
          refine ⟨[], ?_, fun hc => ?_, ?_⟩ <;>
            simp [St.step, hph, hid, St.hookCall, failures, Phase.keptBack]
          cases x <;> simp
        · refine skip ?_ rfl
          simp only [St.step]; (repeat' split) <;> simp_all
      | finish =>
        by_cases hph : ∃ r x, s.phase = .notifying r [] x
        · obtain ⟨r, x, hph⟩ := hph
          refine ⟨[], ?_, fun hc => ?_, ?_⟩ <;> cases x <;>
            simp [St.step, hph, St.hookCall, failures, Phase.keptBack]
        · refine skip ?_ ?_
          · simp only [St.step]; split <;> simp_all
          · unfold St.hookCall; split <;> simp_all
      | run =>
        refine skip ?_ rfl
        simp only [St.step]; split <;> simp_all [Phase.plain]
      | _ =>
        first
          | (refine skip ?_ rfl
             simp only [St.step, hl]; (repeat' split) <;> simp_all [Phase.plain]
             done)
          | (refine same ?_ rfl ?_ <;> simp only [St.step, failures] <;> (repeat' split) <;> simp_all
             done)
    obtain ⟨y, h1, h2, h3⟩ := key
    rw [h1, ← hi]
    refine ⟨fun hc => ?_, ?_⟩
    · rw [List.append_assoc, List.append_assoc, h2 hc]
    · rw [List.append_assoc]; exact (List.prefix_append_right_inj h).mpr h3

theorem hookCalls_exec (s : St) (ops : List Op) (op : Op) :
    s.hookCalls (ops ++ [op]) = s.hookCalls ops ++ (s.exec ops).hookCall op := by
  induction ops generalizing s with
  | nil => simp [St.hookCalls, St.exec]
  | cons o ops ih => simp [St.hookCalls, ih, St.exec]

theorem hook_after (cap : Option Nat) (ops : List Op) :
    ((after cap ops).phase ≠ .crashed →
      hookCalls cap ops ++ (after cap ops).phase.keptBack = failures (after cap ops).log) ∧
    hookCalls cap ops <+: failures (after cap ops).log := by
  refine after_induct cap (P := fun ops s => (s.phase ≠ .crashed →
    hookCalls cap ops ++ s.phase.keptBack = failures s.log) ∧ hookCalls cap ops <+: failures s.log) ?_ ?_ ops
  · simp [hookCalls, St.hookCalls, after, St.exec, St.fresh, Phase.keptBack, failures]
  · intro ops op ih
    have : hookCalls cap (ops ++ [op]) = hookCalls cap ops ++ (after cap ops).hookCall op :=
      hookCalls_exec _ ops op
    rw [this]
    exact hook_step _ op _ ih.1 ih.2

/-- **C64** The hook is called for nothing but failures of `on_start` and errors of `on_stop`, in their order,
at most once for each. -/
theorem hook_only_for_failures (cap : Option Nat) (ops : List Op) :
    hookCalls cap ops <+: failures (after cap ops).log := (hook_after cap ops).2

example : hookCalls none [.run, .startEnd (.err 3), .panicEnd .cont, .stopEnd (.err 4)] = [3, 4] := by decide

/-- **C64** An actor whose task has returned has told the hook about every one of them. -/
theorem hook_told_all (cap : Option Nat) (ops : List Op) (r : Reason)
    (h : (after cap ops).phase = .stopped r) :
    hookCalls cap ops = failures (after cap ops).log := by
  have := (hook_after cap ops).1 (by simp [h])
  simpa [h, Phase.keptBack] using this

example : (after none (stopDemo ++ [.stopEnd (.err 4), .finish])).phase = .stopped .normal ∧
    hookCalls none (stopDemo ++ [.stopEnd (.err 4), .finish]) = [4] := by decide

/-- **C64**, part: the hook is called in the same step in which `on_start` fails, or `on_stop` fails after a
failed start; more exactly, at every moment nothing is outstanding but the error of an `on_stop` whose actor is
still notifying its links. What is missing: that error (`hook_waits_for_links`), and tasks that were torn
down. -/
theorem hook_at_once_partial (cap : Option Nat) (ops : List Op) (hc : (after cap ops).phase ≠ .crashed)
    (hn : ∀ r p x, (after cap ops).phase ≠ .notifying r p x) :
    hookCalls cap ops = failures (after cap ops).log := by
  have := (hook_after cap ops).1 hc
  have hk : (after cap ops).phase.keptBack = [] := by
    revert hn; cases (after cap ops).phase <;> simp [Phase.keptBack]
  simpa [hk] using this

example : (after none [.run, .startEnd (.panic 3)]).phase ≠ .crashed ∧
    hookCalls none [.run, .startEnd (.panic 3)] = [3] := by decide

/-- An actor that still has to notify `l` of its end, or whose task was torn down. -/
def WaitsFor (l : Id) (s : St) : Prop := (∃ r pend x, s.phase = .notifying r pend x ∧ l ∈ pend) ∨ s.phase = .crashed

theorem waitsFor_step {l : Id} {s : St} (h : WaitsFor l s) (op : Op) (hop : op ≠ .notifyEnd l) :
    s.hookCall op = [] ∧ WaitsFor l (s.step op) := by
  rcases h with ⟨r, pend, x, hs, hl⟩ | hs
  · have hne : pend ≠ [] := by rintro rfl; simp at hl
    refine ⟨?_, ?_⟩
    · unfold St.hookCall; split <;> simp_all
    · cases op with
      | notifyEnd id =>
        left
        have hid : l ≠ id := by rintro rfl; exact hop rfl
        by_cases hm : id ∈ pend
        · exact ⟨r, pend.erase id, x, by simp [St.step, hs, hm], (List.mem_erase_of_ne hid).2 hl⟩
        · exact ⟨r, pend, x, by simp [St.step, hs, hm], hl⟩
      | teardown => right; simp [St.step, hs, St.crash]
      | finish => left; exact ⟨r, pend, x, by cases pend <;> simp_all [St.step], hl⟩
      | _ => left; refine ⟨r, pend, x, ?_, hl⟩; simp only [St.step, hs, Phase.inLoop] <;> (repeat' split) <;> simp_all
  · refine ⟨?_, Or.inr (crashed_stays s op hs)⟩
    unfold St.hookCall; split <;> simp_all

theorem hookCalls_append (a b : List Op) (s : St) : s.hookCalls (a ++ b) = s.hookCalls a ++ (s.exec a).hookCalls b := by
  induction a generalizing s with
  | nil => rfl
  | cons o a ih => simp [St.hookCalls, ih, St.exec]

/-- **C64 is false** for every actor with links whose `on_stop` fails: the hook is not called at once, but only when all
linked actors have taken their notification; if one of them never does, it is never called, whatever happens. -/
theorem hook_waits_for_links (cap : Option Nat) (ops ops' : List Op) (r : Reason) (pend : List Id) (l : Id) (e : Err)
    (hp : (after cap ops).phase = .stopping r pend true) (hl : l ∈ pend) (h : .notifyEnd l ∉ ops') :
    failures (after cap (ops ++ [.stopEnd (.err e)])).log = failures (after cap ops).log ++ [e] ∧
      hookCalls cap (ops ++ .stopEnd (.err e) :: ops') = hookCalls cap ops := by
  have key : ∀ (ops' : List Op) (s : St), .notifyEnd l ∉ ops' → WaitsFor l s → s.hookCalls ops' = [] := by
    intro ops'
    induction ops' with
    | nil => intro s _ _; rfl
    | cons op ops' ih =>
      intro s hn hs
      have h1 := waitsFor_step hs op (fun e => by subst e; simp at hn)
      simp only [St.hookCalls, h1.1, List.nil_append]
      exact ih _ (by simp at hn; exact hn.2) h1.2
  refine ⟨?_, ?_⟩
  · have : after cap (ops ++ [.stopEnd (.err e)]) = (after cap ops).step (.stopEnd (.err e)) := by
      simp [after, St.exec]
    rw [this]
    simp [St.step, hp, St.stopEnd, St.stopDone, failures, failure]
  · unfold hookCalls
    rw [hookCalls_append]
    have h0 : ∀ s : St, s.phase = .stopping r pend true → s.hookCalls (.stopEnd (.err e) :: ops') = [] := by
      intro s hs
      have h1 : s.hookCall (.stopEnd (.err e)) = [] := by simp [St.hookCall, hs]
      simp only [St.hookCalls, h1, List.nil_append]
      exact key _ _ h (Or.inl ⟨r, pend, some e, by simp [St.step, hs, St.stopEnd, St.stopDone], hl⟩)
    exact (congrArg _ (h0 _ hp)).trans (List.append_nil _)

/-- `on_stop` is running in an actor with a link. -/
def hookDemo : List Op := [.run, .startEnd .ok, .link 7, .kill, .pollBegin]

example : (after none hookDemo).phase = .stopping .killed [7] true ∧ .notifyEnd 7 ∉ ([.sendStop, .pollBegin] : List Op) ∧
    hookCalls none (hookDemo ++ [.stopEnd (.err 4), .notifyEnd 7, .finish]) = [4] := by decide

end Verif.Lifecycle
