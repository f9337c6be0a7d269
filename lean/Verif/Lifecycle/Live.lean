import Verif.Lifecycle.PropsStop
import Verif.Lifecycle.PropsReply

/-!
Infinite executions of one actor, and what a fair scheduler owes it.

An execution is a sequence `ops : Nat → Op`; `cap` is the capacity of the mailbox. Between the steps of
the actor's own task anything may happen. `Fair` says that a task with something to do is eventually
given a turn and that user code it runs eventually returns (tokio's scheduler, and the user, are not
part of /repo).
-/

set_option linter.unusedSimpArgs false

namespace Verif.Lifecycle

open Verif.Mailbox

/-- The actor after the first `n` operations of an execution; `src/actor/spawn.rs` L415-658. -/
def upto (cap : Option Nat) (ops : Nat → Op) (n : Nat) : St := after cap ((List.range n).map ops)

theorem upto_succ (cap : Option Nat) (ops : Nat → Op) (n : Nat) :
    upto cap ops (n + 1) = (upto cap ops n).step (ops n) := by
  simp [upto, after, List.range_succ, St.exec]

theorem upto_tr (cap : Option Nat) (ops : Nat → Op) (n : Nat) :
    Tr (upto cap ops n) (upto cap ops (n + 1)) := by
  rw [upto_succ]; exact step_tr _ _

theorem upto_good (cap : Option Nat) (ops : Nat → Op) (n : Nat) : Good (upto cap ops n) :=
  good_after _ _

/-- `op` is the next step of the actor's own task in state `s`: it takes a signal, or the user code that
is running returns, or the task takes the next step of starting or stopping.
`src/actor/spawn.rs` L431-590, `src/actor/kind.rs` L76-182. -/
def Own (s : St) (op : Op) : Prop :=
  match s.phase with
  | .prepared => op = .run
  | .starting => ∃ o, op = .startEnd o
  | .idle => s.polling = true ∧ op = .recv
  | .handling _ _ _ _ => s.polling = true ∧ ∃ o, op = .handlerEnd o
  | .linkDying _ _ => s.polling = true ∧ ∃ o, op = .linkEnd o
  | .panicking _ => s.polling = true ∧ ∃ o, op = .panicEnd o
  | .startPanicking _ => ∃ o, op = .panicEnd o
  | .stopping _ _ _ => ∃ o, op = .stopEnd o
  | .notifying _ pend _ => (∃ id ∈ pend, op = .notifyEnd id) ∨ (pend = [] ∧ op = .finish)
  | .stopped _ => False
  | .crashed => False

/-- The actor's task has something to do: it is running user code, starting or stopping, or its mailbox is
not empty. `src/actor/spawn.rs` L431-590. -/
def Busy (s : St) : Prop :=
  match s.phase with
  | .idle => s.mb.queue ≠ []
  | .stopped _ => False
  | .crashed => False
  | _ => True

/-- A fair execution. `task`: a task with something to do takes its next step sooner or later, unless the
actor ends. `kill`: `AbortHandle::abort` wakes the task, so that the beginning or the end of a poll sees
the flag (`src/actor/spawn.rs` L503-513). `sender`: a sender that was given a slot of the mailbox runs
sooner or later (`src/mailbox.rs` L59-64). -/
structure Fair (cap : Option Nat) (ops : Nat → Op) : Prop where
  task : ∀ n, Busy (upto cap ops n) →
    ∃ m, n ≤ m ∧ (Own (upto cap ops m) (ops m) ∨ (upto cap ops m).phase.ended = true)
  kill : ∀ n, (upto cap ops n).aborted = true → (upto cap ops n).phase.inLoop = true →
    ∃ m, n ≤ m ∧ (((upto cap ops m).polling = false ∧ ops m = .pollBegin) ∨
      ((upto cap ops m).polling = true ∧ ops m = .pollEnd) ∨ (upto cap ops m).phase.inLoop = false)
  sender : ∀ n t, t ∈ K (upto cap ops n).mb.granted →
    ∃ m, n ≤ m ∧ (ops m = .poll t ∨ t ∉ K (upto cap ops m).mb.granted)

/-- How many steps of its own the task still takes before it looks at its mailbox again. -/
def Phase.weight : Phase → Nat
  | .handling _ _ rest _ => rest.length + 2
  | .linkDying _ _ => 2
  | .panicking _ => 1
  | _ => 0

section
variable (m : Msg) (tk ts b : Bool) (rs : List Msg) (i : Id) (r : Reason) (e : Err)
  (p : List Id)
@[simp] theorem weight_of_idle : Phase.idle.weight = 0 := rfl
@[simp] theorem weight_handling : (Phase.handling m tk rs ts).weight = rs.length + 2 := rfl
@[simp] theorem weight_linkDying : (Phase.linkDying i r).weight = 2 := rfl
@[simp] theorem weight_panicking : (Phase.panicking e).weight = 1 := rfl
@[simp] theorem weight_stopping : (Phase.stopping r p b).weight = 0 := rfl
@[simp] theorem weight_crashed : Phase.crashed.weight = 0 := rfl
end

theorem weight_idle {p : Phase} (h : p.inLoop = true) : p.weight = 0 ↔ p = .idle := by
  cases p <;> simp_all

@[simp] theorem abortSeen_out (s : St) : s.abortSeen.phase.inLoop = false := by
  simp [St.abortSeen]
@[simp] theorem crash_out (s : St) : s.crash.phase = .crashed := by
  simp [St.crash, St.die]

/-- A step that is not the task's own leaves it where it is. -/
theorem other_step {s : St} {op : Op} (hl : s.phase.inLoop = true)
    (hl' : (s.step op).phase.inLoop = true) (hn : ¬ Own s op) :
    (s.step op).phase.weight = s.phase.weight ∧ (s.step op).mb.received = s.mb.received := by
  cases hp : s.phase <;> simp [hp] at hl <;> cases op <;> simp [Own, hp] at hn <;>
    simp [St.step, hp] at hl' ⊢ <;> (try (repeat' split)) <;> simp_all

/-- A step of its own brings the task closer to its mailbox, or takes a signal from it. -/
theorem own_step {s : St} {op : Op} (hl : s.phase.inLoop = true)
    (hl' : (s.step op).phase.inLoop = true) (hn : Own s op) :
    (s.phase ≠ .idle ∧ (s.step op).phase.weight < s.phase.weight ∧
      (s.step op).mb.received = s.mb.received) ∨
    (s.phase = .idle ∧ (s.mb.queue ≠ [] → ∃ p, (s.step op).mb.received = s.mb.received ++ [p])) := by
  cases hp : s.phase <;> simp [hp] at hl <;> simp [Own, hp] at hn
  case idle =>
    obtain ⟨h1, rfl⟩ := hn
    refine Or.inr ⟨rfl, fun hq => ?_⟩
    cases hq' : s.mb.queue with
    | nil => exact absurd hq' hq
    | cons p q =>
      refine ⟨p, ?_⟩
      obtain ⟨t, sg⟩ := p
      simp only [St.step, hp, h1, if_true, St.recvStep, hq']
      have := recv_received s.mb hq'
      cases sg <;> simp only [St.onSignal] <;> (try split) <;> simp [this]
  all_goals
    obtain ⟨h1, o, rfl⟩ := hn
    refine Or.inl ⟨by simp, ?_⟩
  case handling m tk rest ts =>
    simp only [St.step, hp, h1, if_true, St.handlerEnd] at hl' ⊢
    by_cases hc : (m.2.ask && !tk) = true
    · cases rest <;> cases ts <;> cases o <;> simp only [hc, if_true] at hl' ⊢ <;>
        simp_all [St.drain]
    · cases rest <;> cases ts <;> cases o with
      | ret r => cases r <;> simp only [if_neg hc] at hl' ⊢ <;> simp_all [St.drain]
      | panic e => simp_all
  case linkDying id r =>
    simp only [St.step, hp, h1, if_true, St.linkEnd] at hl' ⊢
    cases o with
    | brk r' => cases r' <;> simp_all [St.onShutdown]
    | _ => simp_all
  case panicking e =>
    simp only [St.step, hp, h1, if_true, St.panicEnd] at hl' ⊢
    cases o <;> simp_all

/-! ### Executions that stay in the message loop -/

/-- From `n` on the actor is in its message loop. -/
def Stays (cap : Option Nat) (ops : Nat → Op) (n : Nat) : Prop :=
  ∀ k, n ≤ k → (upto cap ops k).phase.inLoop = true

theorem not_ended_of_inLoop {p : Phase} (h : p.inLoop = true) : p.ended = false := by
  cases p <;> simp_all

theorem received_step (cap : Option Nat) (ops : Nat → Op) (n : Nat) :
    (upto cap ops n).mb.received <+: (upto cap ops (n + 1)).mb.received :=
  tr_received (upto_tr cap ops n)

theorem received_mono (cap : Option Nat) (ops : Nat → Op) {n k : Nat} (h : n ≤ k) :
    (upto cap ops n).mb.received <+: (upto cap ops k).mb.received := by
  induction h with
  | refl => exact List.prefix_rfl
  | step _ ih => exact ih.trans (received_step cap ops _)

theorem pushed_mono (cap : Option Nat) (ops : Nat → Op) {n k : Nat} (h : n ≤ k) :
    (upto cap ops n).mb.pushed <+: (upto cap ops k).mb.pushed := by
  induction h with
  | refl => exact List.prefix_rfl
  | step _ ih =>
    refine ih.trans ?_
    rw [upto_succ]
    obtain ⟨mops, hm⟩ := step_mb (upto cap ops _) (ops _)
    rw [hm]
    clear hm ih
    generalize (upto cap ops _).mb = m
    induction mops generalizing m with
    | nil => exact List.prefix_rfl
    | cons o os ih => exact (step_pushed m o).trans (ih (m.step o))

/-- The next own step at or after `n`, with nothing else of the task happening before it. -/
theorem next_own {cap : Option Nat} {ops : Nat → Op} (hf : Fair cap ops) {n : Nat}
    (hs : Stays cap ops n) (hb : Busy (upto cap ops n)) :
    ∃ k, n ≤ k ∧ Own (upto cap ops k) (ops k) ∧
      (upto cap ops k).phase.weight = (upto cap ops n).phase.weight ∧
      (upto cap ops k).mb.received = (upto cap ops n).mb.received := by
  obtain ⟨m, hm, ho⟩ := hf.task n hb
  rw [not_ended_of_inLoop (hs m hm)] at ho
  simp only [Bool.false_eq_true, or_false] at ho
  obtain ⟨d, rfl⟩ := Nat.exists_eq_add_of_le hm
  clear hm hb
  induction d generalizing n with
  | zero => exact ⟨n, Nat.le_refl _, ho, rfl, rfl⟩
  | succ d ih =>
    by_cases h : Own (upto cap ops n) (ops n)
    · exact ⟨n, Nat.le_refl _, h, rfl, rfl⟩
    · have h1 := hs n (Nat.le_refl _)
      have h2 := hs (n + 1) (Nat.le_succ _)
      rw [upto_succ] at h2
      have h3 := other_step h1 h2 h
      rw [← upto_succ] at h3
      obtain ⟨k, hk, hk1, hk2, hk3⟩ := ih (n := n + 1) (fun k hk => hs k (by omega))
        (by rw [show n + 1 + d = n + (d + 1) by omega]; exact ho)
      exact ⟨k, by omega, hk1, hk2.trans h3.1, hk3.trans h3.2⟩

theorem weight_succ (cap : Option Nat) (ops : Nat → Op) {n : Nat} (hs : Stays cap ops n)
    (ho : Own (upto cap ops n) (ops n)) :
    ((upto cap ops n).phase ≠ .idle ∧
      (upto cap ops (n + 1)).phase.weight < (upto cap ops n).phase.weight ∧
      (upto cap ops (n + 1)).mb.received = (upto cap ops n).mb.received) ∨
    ((upto cap ops n).phase = .idle ∧ ((upto cap ops n).mb.queue ≠ [] →
      ∃ p, (upto cap ops (n + 1)).mb.received = (upto cap ops n).mb.received ++ [p])) := by
  have h2 := hs (n + 1) (Nat.le_succ _)
  rw [upto_succ] at h2 ⊢
  exact own_step (hs n (Nat.le_refl _)) h2 ho

/-- The actor comes back to its mailbox, having taken nothing from it in between. -/
theorem settles {cap : Option Nat} {ops : Nat → Op} (hf : Fair cap ops) {n : Nat}
    (hs : Stays cap ops n) : ∃ k, n ≤ k ∧ (upto cap ops k).phase = .idle ∧
      (upto cap ops k).mb.received = (upto cap ops n).mb.received := by
  generalize hw : (upto cap ops n).phase.weight = w
  induction w using Nat.strongRecOn generalizing n with
  | _ w ih =>
    by_cases h0 : (upto cap ops n).phase = .idle
    · exact ⟨n, Nat.le_refl _, h0, rfl⟩
    · have hl := hs n (Nat.le_refl _)
      have hb : Busy (upto cap ops n) := by
        revert h0 hl
        unfold Busy
        cases (upto cap ops n).phase <;> simp
      obtain ⟨k, hk, hk1, hk2, hk3⟩ := next_own hf hs hb
      have hsk : Stays cap ops k := fun j hj => hs j (by omega)
      rcases weight_succ cap ops hsk hk1 with ⟨_, h5, h6⟩ | ⟨h5, _⟩
      · obtain ⟨j, hj, hj1, hj2⟩ := ih _ (by omega) (n := k + 1) (fun j hj => hs j (by omega)) rfl
        exact ⟨j, by omega, hj1, hj2.trans (h6.trans hk3)⟩
      · exact ⟨k, hk, h5, hk3⟩

/-- In the loop, what was accepted is what was received and what is queued. -/
theorem loop_hist {s : St} (hg : Good s) (hl : s.phase.inLoop = true) :
    s.mb.pushed = s.mb.received ++ s.mb.queue := by
  have hc := (hg.shape.alive (not_ended_of_inLoop hl)).1
  rw [hg.shape.mb.hist, hg.shape.mb.openLost hc, List.append_nil]

/-- Everything accepted is received. -/
theorem all_received {cap : Option Nat} {ops : Nat → Op} (hf : Fair cap ops) {n : Nat}
    (hs : Stays cap ops n) (L : Nat) (hL : L ≤ (upto cap ops n).mb.pushed.length) :
    ∃ k, n ≤ k ∧ (upto cap ops k).phase = .idle ∧ L ≤ (upto cap ops k).mb.received.length := by
  induction L with
  | zero =>
    obtain ⟨k, hk, h1, _⟩ := settles hf hs
    exact ⟨k, hk, h1, Nat.zero_le _⟩
  | succ L ih =>
    obtain ⟨k, hk, h1, h2⟩ := ih (by omega)
    by_cases hlt : L < (upto cap ops k).mb.received.length
    · exact ⟨k, hk, h1, hlt⟩
    · have hsk : Stays cap ops k := fun j hj => hs j (by omega)
      have hq : (upto cap ops k).mb.queue ≠ [] := by
        intro h
        have h3 := loop_hist (upto_good cap ops k) (hs k hk)
        have h4 := (pushed_mono cap ops hk).length_le
        rw [h3, h, List.append_nil] at h4
        omega
      obtain ⟨j, hj, hj1, hj2, hj3⟩ := next_own hf hsk (by unfold Busy; rw [h1]; exact hq)
      have hsj : Stays cap ops j := fun i hi => hs i (by omega)
      have hji : (upto cap ops j).phase = .idle := by
        rw [← weight_idle (hs j (by omega)), hj2, h1]; rfl
      have hjq : (upto cap ops j).mb.queue ≠ [] := by
        intro h
        have h3 := loop_hist (upto_good cap ops j) (hs j (by omega))
        have h4 := (pushed_mono cap ops (Nat.le_trans hk hj)).length_le
        rw [h3, h, List.append_nil, hj3] at h4
        omega
      rcases weight_succ cap ops hsj hj1 with ⟨h5, _⟩ | ⟨_, h5⟩
      · exact absurd hji h5
      · obtain ⟨p, hp⟩ := h5 hjq
        obtain ⟨i, hi, hi1, hi2⟩ := settles hf (n := j + 1) (fun i hi => hs i (by omega))
        refine ⟨i, by omega, hi1, ?_⟩
        rw [hi2, hp, hj3]
        simp only [List.length_append, List.length_singleton]
        omega

end Verif.Lifecycle
