import Verif.Lifecycle.Live

/-!
Fair executions to show beside the theorems about them: a finite list of operations after which nothing more
happens. `fairB` decides whether that is fair.
-/

set_option linter.unusedSimpArgs false

namespace Verif.Lifecycle

open Verif.Mailbox

/-- The operations of `l`, and then nothing any more: polling a send that was never made has no effect.
No code in /repo corresponds to it; it is the idle rest of an execution. -/
def quiet (l : List Op) : Nat → Op := fun n => (l[n]?).getD (.poll 0)

theorem quiet_take (cap : Option Nat) (l : List Op) {n : Nat} (h : n ≤ l.length) :
    upto cap (quiet l) n = after cap (l.take n) := by
  induction n with
  | zero => rfl
  | succ n ih =>
    have hn : n < l.length := by omega
    have hq : quiet l n = l[n] := by simp [quiet, List.getElem?_eq_getElem hn]
    rw [upto_succ, ih (by omega), hq]
    unfold after St.exec
    rw [List.take_succ_eq_append_getElem hn, List.foldl_append]
    rfl

theorem quiet_rest (cap : Option Nat) (l : List Op) (hg : (after cap l).mb.granted = []) {n : Nat}
    (h : l.length ≤ n) : upto cap (quiet l) n = after cap l := by
  induction h with
  | refl => rw [quiet_take cap l (Nat.le_refl _), List.take_length]
  | @step n h ih =>
    have hn : l.length ≤ n := h
    rw [upto_succ, ih]
    simp [quiet, List.getElem?_eq_none hn, St.step, Mb.poll, hg]

/-- `Own` as a test. `src/actor/spawn.rs` L431-590, `src/actor/kind.rs` L76-182. -/
def ownB (s : St) (op : Op) : Bool :=
  match s.phase, op with
  | .prepared, .run => true
  | .starting, .startEnd _ => true
  | .idle, .recv => s.polling
  | .handling _ _ _ _, .handlerEnd _ => s.polling
  | .linkDying _ _, .linkEnd _ => s.polling
  | .panicking _, .panicEnd _ => s.polling
  | .startPanicking _, .panicEnd _ => true
  | .stopping _ _ _, .stopEnd _ => true
  | .notifying _ pend _, .notifyEnd id => decide (id ∈ pend)
  | .notifying _ pend _, .finish => pend.isEmpty
  | _, _ => false

theorem own_of_ownB {s : St} {op : Op} (h : ownB s op = true) : Own s op := by
  revert h
  unfold ownB Own
  cases s.phase <;> cases op <;> simp

/-- `Busy` as a test. `src/actor/spawn.rs` L431-590. -/
def busyB (s : St) : Bool :=
  match s.phase with
  | .idle => !s.mb.queue.isEmpty
  | .stopped _ => false
  | .crashed => false
  | _ => true

theorem busyB_of_busy {s : St} (h : Busy s) : busyB s = true := by
  revert h
  unfold busyB Busy
  cases s.phase <;> simp

/-- The task takes a step of its own during `l`. `src/actor/spawn.rs` L431-590. -/
def turnIn (s : St) : List Op → Bool
  | [] => false
  | op :: l => ownB s op || turnIn (s.step op) l

/-- Whenever the task has something to do during `l`, it takes a step of its own later on in `l`.
`src/actor/spawn.rs` L431-590. -/
def turns (s : St) : List Op → Bool
  | [] => !busyB s
  | op :: l => (!busyB s || turnIn s (op :: l)) && turns (s.step op) l

theorem turnIn_get {s : St} {l : List Op} (h : turnIn s l = true) :
    ∃ i, ∃ hi : i < l.length, Own (s.exec (l.take i)) l[i] := by
  induction l generalizing s with
  | nil => cases h
  | cons op l ih =>
    simp only [turnIn, Bool.or_eq_true] at h
    rcases h with h | h
    · exact ⟨0, by simp, own_of_ownB h⟩
    · obtain ⟨i, hi, h1⟩ := ih h
      exact ⟨i + 1, by simp; omega, by simpa [St.exec] using h1⟩

theorem turns_get {s : St} {l : List Op} (h : turns s l = true) {n : Nat} (hn : n ≤ l.length)
    (hb : Busy (s.exec (l.take n))) : ∃ i, n ≤ i ∧ ∃ hi : i < l.length, Own (s.exec (l.take i)) l[i] := by
  induction l generalizing s n with
  | nil =>
    have := busyB_of_busy hb
    simp [turns] at h
    simp [St.exec, h] at this
  | cons op l ih =>
    simp only [turns, Bool.and_eq_true, Bool.or_eq_true, Bool.not_eq_true'] at h
    cases n with
    | zero =>
      have := busyB_of_busy hb
      simp only [List.take_zero, St.exec, List.foldl_nil] at this
      rcases h.1 with h1 | h1
      · rw [h1] at this; cases this
      · obtain ⟨i, hi, h2⟩ := turnIn_get h1
        exact ⟨i, Nat.zero_le _, hi, h2⟩
    | succ n =>
      obtain ⟨i, h1, h2, h3⟩ := ih h.2 (n := n) (by simpa using hn) (by simpa [St.exec] using hb)
      exact ⟨i + 1, by omega, by simp; omega, by simpa [St.exec] using h3⟩

/-- The execution `quiet l` is fair: checked on `l`. `src/actor/spawn.rs` L431-590. -/
def fairB (cap : Option Nat) (l : List Op) : Bool :=
  turns (after cap []) l && (after cap l).mb.granted.isEmpty &&
    (!(after cap l).phase.inLoop || !(after cap l).aborted)

theorem aborted_mono {cap : Option Nat} {ops : Nat → Op} {n k : Nat} (h : n ≤ k)
    (ha : (upto cap ops n).aborted = true) : (upto cap ops k).aborted = true := by
  induction h with
  | refl => exact ha
  | @step k _ ih =>
    rw [upto_succ]
    have ht := step_tr (upto cap ops k) (ops k)
    generalize upto cap ops k = s at *
    generalize s.step (ops k) = s' at *
    cases ht with
    | startOk hp => unfold St.startOk; simp only; split <;> simp [ih, St.finishStartup]
    | _ => simp [St.step, St.crash, St.abortSeen, St.stopFailed, St.startFail, ih, St.finishStartup]

theorem fair_of_fairB {cap : Option Nat} {l : List Op} (h : fairB cap l = true) : Fair cap (quiet l) := by
  simp only [fairB, Bool.and_eq_true, List.isEmpty_iff, Bool.or_eq_true, Bool.not_eq_true'] at h
  obtain ⟨⟨h1, h2⟩, h3⟩ := h
  constructor
  · intro n hb
    by_cases hn : n ≤ l.length
    · rw [quiet_take cap l hn] at hb
      obtain ⟨i, hi, hl, ho⟩ := turns_get h1 hn hb
      refine ⟨i, hi, Or.inl ?_⟩
      have hq : quiet l i = l[i] := by simp [quiet, List.getElem?_eq_getElem hl]
      rw [quiet_take cap l (by omega), hq]
      exact ho
    · rw [quiet_rest cap l h2 (by omega), ← List.take_length (l := l)] at hb
      obtain ⟨i, hi, hl, _⟩ := turns_get h1 (Nat.le_refl _) hb
      omega
  · intro n ha hl
    refine ⟨max n l.length, by omega, Or.inr (Or.inr ?_)⟩
    have h4 := aborted_mono (k := max n l.length) (by omega) ha
    rw [quiet_rest cap l h2 (by omega)] at h4 ⊢
    rcases h3 with h3 | h3
    · exact h3
    · rw [h3] at h4; cases h4
  · intro n t ht
    refine ⟨max n l.length, by omega, Or.inr ?_⟩
    rw [quiet_rest cap l h2 (by omega), h2]
    simp

/-- `DrainFail` as a test. `src/actor/spawn.rs` L515-560, `src/actor/kind.rs` L76-124. -/
def drainFailB (s : St) : Bool :=
  match s.cut with
  | none => false
  | some k => s.log.any fun e =>
    match e with
    | .hEnd m tk o => !m.2.within && decide (m ∈ msgsOf (s.mb.received.take k)) && failing m tk o
    | _ => false

theorem drainFailB_of {s : St} (h : DrainFail s) : drainFailB s = true := by
  obtain ⟨k, m, tk, o, h1, h2, h3, h4, h5⟩ := h
  simp only [drainFailB, h1, List.any_eq_true]
  exact ⟨_, h4, by simp [h2, h3, h5]⟩

/-- `DrainFail` does not hold at any point of `quiet l`: checked on `l`. `src/actor/spawn.rs` L515-560. -/
def neverDrainFail (cap : Option Nat) (l : List Op) : Bool :=
  (List.range (l.length + 1)).all fun n => !drainFailB (after cap (l.take n))

theorem never_drainFail {cap : Option Nat} {l : List Op} (h : neverDrainFail cap l = true)
    (hg : (after cap l).mb.granted = []) (n : Nat) : ¬ DrainFail (upto cap (quiet l) n) := by
  intro hd
  have := drainFailB_of hd
  simp only [neverDrainFail, List.all_eq_true, List.mem_range, Bool.not_eq_true'] at h
  by_cases hn : n ≤ l.length
  · rw [quiet_take cap l hn, h n (by omega)] at this
    cases this
  · have h' := h l.length (by omega)
    rw [List.take_length] at h'
    rw [quiet_rest cap l hg (by omega), h'] at this
    cases this

end Verif.Lifecycle
