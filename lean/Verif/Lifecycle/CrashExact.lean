import Verif.Lifecycle.PropsExact
import Verif.Lifecycle.Outcome

/-!
C54, exactly: what makes an actor's task die without an orderly end. C63, exactly: when the result observers panic.
C64, exactly: which errors the error hook has not heard of. C65, exactly: which payloads are got back.
-/

namespace Verif.Lifecycle

/-! ### Specification -/

/-- The step `op` in state `s` is one of the three by which a task can die: `on_panic` is running and panics
(`src/actor/kind.rs` L166-174, `src/actor/spawn.rs` L469-475), `on_stop` is running and panics (`src/actor/spawn.rs`
L475-499, L562-565), or the task, not yet over, is dropped by its runtime. -/
def Fatal (s : St) (op : Op) : Prop :=
  (∃ e x, op = .panicEnd (.panic x) ∧ ((s.phase = .panicking e ∧ s.polling = true) ∨ s.phase = .startPanicking e)) ∨
  (∃ r pend st x, op = .stopEnd (.panic x) ∧ s.phase = .stopping r pend st) ∨
  (op = .teardown ∧ s.phase ≠ .crashed ∧ ∀ r, s.phase ≠ .stopped r)

/-! ### C54 -/

theorem fatal_step (s : St) (op : Op) : (s.step op).phase = .crashed ↔ s.phase = .crashed ∨ Fatal s op := by
  constructor
  · intro h
    rcases crashed_step s op h with h1 | rfl | ⟨x, rfl⟩ | ⟨x, rfl⟩
    · exact Or.inl h1
    · by_cases hc : s.phase = .crashed
      · exact Or.inl hc
      · refine Or.inr (Or.inr (Or.inr ⟨rfl, hc, fun r hr => ?_⟩))
        simp [St.step, hr] at h
    · by_cases hc : s.phase = .crashed
      · exact Or.inl hc
      · right; left
        cases hp : s.phase with
        | panicking e =>
          refine ⟨e, x, rfl, Or.inl ⟨rfl, ?_⟩⟩
          cases hq : s.polling
          · simp [St.step, hp, hq] at h
          · rfl
        | startPanicking e => exact ⟨e, x, rfl, Or.inr rfl⟩
        | _ => simp [St.step, hp] at h hc
    · by_cases hc : s.phase = .crashed
      · exact Or.inl hc
      · right; right; left
        cases hp : s.phase with
        | stopping r pend st => exact ⟨r, pend, st, x, rfl, rfl⟩
        | _ => simp [St.step, hp] at h hc
  · rintro (h | ⟨e, x, rfl, ⟨h, hq⟩ | h⟩ | ⟨r, pend, st, x, rfl, h⟩ | ⟨rfl, h1, h2⟩)
    · exact crashed_stays s op h
    · simp [St.step, h, hq, St.panicEnd, St.die]
    · simp [St.step, h, St.startPanicEnd, St.die]
    · simp [St.step, h, St.stopEnd, St.die]
    · cases hp : s.phase <;> simp [St.step, hp, St.crash, St.die] at h1 h2 ⊢

/-- **C54** Exactly when an actor's task dies instead of ending in an orderly way: at some moment `on_panic` or `on_stop`
panicked, or the runtime dropped the task before it was over. No other panic of user code does it. -/
theorem task_dies_iff (cap : Option Nat) (ops : List Op) :
    (after cap ops).phase = .crashed ↔ ∃ pre op post, ops = pre ++ op :: post ∧ Fatal (after cap pre) op := by
  constructor
  · refine after_induct cap (P := fun ops s => s.phase = .crashed →
      ∃ pre op post, ops = pre ++ op :: post ∧ Fatal (after cap pre) op) ?_ ?_ ops
    · intro h; simp [after, St.exec, St.fresh] at h
    · intro ops op ih h
      rcases (fatal_step _ op).mp h with h1 | h1
      · obtain ⟨pre, o, post, h2, h3⟩ := ih h1
        exact ⟨pre, o, post ++ [op], by simp [h2], h3⟩
      · exact ⟨ops, op, [], rfl, h1⟩
  · rintro ⟨pre, op, post, rfl, h⟩
    have h1 : (after cap (pre ++ [op])).phase = .crashed := by
      rw [after_append]
      exact (fatal_step _ op).mpr (Or.inr h)
    have := (crashed_is_silent cap (pre ++ [op]) post h1).1
    simpa using this

/-- A handler and `on_panic` both panic; `on_stop` panics; the runtime drops the task while a handler runs; and a handler
that panics under a well-behaved `on_panic`, which is not fatal. -/
example : (after none panicTwice).phase = .crashed ∧ (after none panicInStop).phase = .crashed ∧
    (after none (panicDemo ++ [.teardown])).phase = .crashed ∧ (after none (panicDemo ++ [.panicEnd .cont])).phase = .idle := by
  decide

/-! ### C63 -/

/-- **C63** Exactly when `wait_for_startup_result` panics, for every error type: `on_start` panicked, with something of which
the `PanicError` made from it is not of the actor's error type. (For an error type that is not a string type or a box this
is every panic.) -/
theorem startup_result_panics_iff (cap : Option Nat) (ops : List Op) (errTy : PTy) (pe : Err → PanicError)
    (hf : Fits errTy pe (after cap ops).log) :
    (after cap ops).startupResult errTy pe = .panics ↔
      ∃ e, .startEnd (.panic e) ∈ (after cap ops).log ∧ (pe e).held.ty ≠ errTy := by
  constructor
  · intro h
    have hs := start_after cap ops
    have ht := (results_true cap ops).1
    have hno : (∃ e, .startEnd (.panic e) ∈ (after cap ops).log) := by
      apply Classical.byContradiction
      intro hn
      rcases startup_result_true_partial cap ops errTy pe hf (fun e he => hn ⟨e, he⟩) (by rw [h]; simp) with
        ⟨_, h1⟩ | ⟨e, _, h1⟩ <;> rw [h] at h1 <;> cases h1
    obtain ⟨e, he⟩ := hno
    refine ⟨e, he, fun hty => ?_⟩
    have h1 := startup_wait_returns_on_failure_partial cap ops e (Or.inr he)
    have h2 := (ht (some e)).mpr ⟨_, he, rfl⟩
    simp [St.startupResult, h1, h2, readResult, PanicError.downcast, hty] at h
  · rintro ⟨e, he, hty⟩
    have h1 := startup_wait_returns_on_failure_partial cap ops e (Or.inr he)
    have h2 := ((results_true cap ops).1 (some e)).mpr ⟨_, he, rfl⟩
    simp [St.startupResult, h1, h2, readResult, PanicError.downcast, hty]

/-- `on_start` panics with a string: an actor whose errors are `String`s is told the string, others panic. -/
example : Fits (.user 1) (fun _ => .newFromPanicAny (.string "no")) (after none [.run, .startEnd (.panic 3)]).log ∧
    (after none [.run, .startEnd (.panic 3)]).startupResult (.user 1) (fun _ => .newFromPanicAny (.string "no")) = .panics ∧
    (after none [.run, .startEnd (.panic 3)]).startupResult .string (fun _ => .newFromPanicAny (.string "no")) =
      .err (.string "no") := by
  have hl : (after none [.run, .startEnd (.panic 3)]).log = [.startBegin, .startEnd (.panic 3), .pBegin 3] := by decide
  refine ⟨⟨?_, ?_, ?_⟩, by decide, by decide⟩ <;> rw [hl]
  · simp
  · intro e _; exact ⟨_, rfl⟩
  · simp

/-- **C63** Exactly when `wait_for_shutdown_result` panics: the actor's task has died, by one of the causes of
`task_dies_iff`. -/
theorem shutdown_result_panics_iff (cap : Option Nat) (ops : List Op) (errTy : PTy) (pe : Err → PanicError)
    (hf : Fits errTy pe (after cap ops).log) :
    (after cap ops).shutdownResult errTy pe = .panics ↔
      ∃ pre op post, ops = pre ++ op :: post ∧ Fatal (after cap pre) op := by
  rw [← task_dies_iff]
  constructor
  · intro h
    have hcl : (after cap ops).mb.closed = true := by
      cases hc : (after cap ops).mb.closed
      · simp [St.shutdownResult, hc] at h
      · rfl
    rcases (alive_until_ended cap ops).mp hcl with ⟨r, hr⟩ | hr
    · rcases shutdown_result_true_partial cap ops errTy pe hf r hr with ⟨_, h1⟩ | ⟨e, _, h1⟩ <;> rw [h] at h1 <;> cases h1
    · exact hr
  · exact shutdown_result_panics cap ops errTy pe

example : (after none panicInStop).shutdownResult (.user 1) (fun e => .new (.user 1 e)) = .panics ∧
    (after none (notifyDemo ++ [.stopEnd (.err 2), .notifyEnd 7, .notifyEnd 8, .finish])).shutdownResult (.user 1)
      (fun e => .new (.user 1 e)) = .err (.user 1 2) := by decide

/-! ### C64 -/

/-- The error `e` of `on_stop` is waiting for the links to be notified, or was when the runtime dropped the task.
(Specification: `src/actor/spawn.rs` L562-580, `on_stop` returns at L562, the hook is called at L580.) -/
def Waiting (cap : Option Nat) (ops : List Op) (e : Err) : Prop :=
  (∃ r p, (after cap ops).phase = .notifying r p (some e)) ∨
  ∃ pre post r p, ops = pre ++ .teardown :: post ∧ (after cap pre).phase = .notifying r p (some e)

theorem hook_crashed_step (s : St) (op : Op) (h : s.phase = .crashed) :
    s.hookCall op = [] ∧ failures (s.step op).log = failures s.log := by
  refine ⟨?_, (plain_tr (step_tr s op) (by simp [h, Phase.plain])).1⟩
  unfold St.hookCall; split <;> simp_all

theorem hook_fatal_step (s : St) (op : Op) (h : Fatal s op) :
    s.hookCall op = [] ∧ failures (s.step op).log = failures s.log ∧ (s.phase.keptBack ≠ [] → op = .teardown) := by
  rcases h with ⟨e, x, rfl, ⟨h, hq⟩ | h⟩ | ⟨r, pend, st, x, rfl, h⟩ | ⟨rfl, h1, h2⟩
  · exact ⟨rfl, (plain_tr (step_tr s _) (by simp [h, Phase.plain])).1, by simp [h, Phase.keptBack]⟩
  · exact ⟨rfl, (plain_tr (step_tr s _) (by simp [h, Phase.plain])).1, by simp [h, Phase.keptBack]⟩
  · refine ⟨?_, ?_, by simp [h, Phase.keptBack]⟩
    · simp [St.hookCall]
    · simp [St.step, h, St.stopEnd, St.die, failures]
  · refine ⟨rfl, ?_, fun _ => rfl⟩
    have hst : s.step .teardown = s.crash := by
      cases hp : s.phase <;> simp [St.step, hp] at h1 h2 ⊢
    rw [hst]
    simpa [failures, St.crash] using failures_cancelEv s.phase

theorem hook_left (cap : Option Nat) (ops : List Op) :
    ∃ x, failures (after cap ops).log = hookCalls cap ops ++ x ∧ x.length ≤ 1 ∧ ∀ e, e ∈ x ↔ Waiting cap ops e := by
  by_cases hc : (after cap ops).phase = .crashed
  · revert hc
    refine after_induct cap (P := fun ops s => s.phase = .crashed → ∃ x, failures s.log = hookCalls cap ops ++ x ∧
      x.length ≤ 1 ∧ ∀ e, e ∈ x ↔ Waiting cap ops e) ?_ ?_ ops
    · intro h; simp [after, St.exec, St.fresh] at h
    · intro ops op ih hcr
      have hh : hookCalls cap (ops ++ [op]) = hookCalls cap ops ++ (after cap ops).hookCall op := hookCalls_exec _ ops op
      have hnow : ∀ e r p, (after cap (ops ++ [op])).phase ≠ .notifying r p (some e) := by
        intro e r p h
        rw [after_append] at h
        have h' : ((after cap ops).step op).phase = .notifying r p (some e) := h
        rw [hcr] at h'
        cases h'
      rcases (fatal_step _ op).mp hcr with h1 | h1
      · obtain ⟨x, hx, hl, he⟩ := ih h1
        obtain ⟨h2, h3⟩ := hook_crashed_step _ op h1
        refine ⟨x, by rw [hh, h2, h3, hx]; simp, hl, fun e => ?_⟩
        rw [he]
        constructor
        · rintro (⟨r, p, h⟩ | ⟨pre, post, r, p, rfl, h⟩)
          · rw [h1] at h; cases h
          · exact Or.inr ⟨pre, post ++ [op], r, p, by simp, h⟩
        · rintro (⟨r, p, h⟩ | ⟨pre, post, r, p, ho, h⟩)
          · exact absurd h (hnow e r p)
          · rcases List.eq_nil_or_concat post with rfl | ⟨post', o, rfl⟩
            · obtain ⟨rfl, -⟩ := List.append_inj' ho rfl
              rw [h1] at h; cases h
            · have : ops ++ [op] = (pre ++ .teardown :: post') ++ [o] := by simpa using ho
              obtain ⟨rfl, -⟩ := List.append_inj' this rfl
              exact Or.inr ⟨pre, post', r, p, rfl, h⟩
      · obtain ⟨h2, h3, h4⟩ := hook_fatal_step _ op h1
        have hnc : (after cap ops).phase ≠ .crashed := by
          rcases h1 with ⟨e, x, -, ⟨h, -⟩ | h⟩ | ⟨r, p, st, x, -, h⟩ | ⟨-, h, -⟩
          · rw [h]; simp
          · rw [h]; simp
          · rw [h]; simp
          · exact h
        refine ⟨(after cap ops).phase.keptBack, ?_, ?_, fun e => ?_⟩
        · rw [hh, h2, h3, List.append_nil]; exact ((hook_after cap ops).1 hnc).symm
        · unfold Phase.keptBack; split <;> simp
        · constructor
          · intro he
            have ht := h4 (List.ne_nil_of_mem he)
            subst ht
            cases hp : (after cap ops).phase with
            | notifying r p y =>
              cases y with
              | none => simp [hp, Phase.keptBack] at he
              | some e' =>
                simp only [hp, Phase.keptBack, List.mem_singleton] at he
                subst he
                exact Or.inr ⟨ops, [], r, p, rfl, hp⟩
            | _ => simp [hp, Phase.keptBack] at he
          · rintro (⟨r, p, h⟩ | ⟨pre, post, r, p, ho, h⟩)
            · exact absurd h (hnow e r p)
            · rcases List.eq_nil_or_concat post with rfl | ⟨post', o, rfl⟩
              · obtain ⟨rfl, -⟩ := List.append_inj' ho rfl
                simp [h, Phase.keptBack]
              · have : ops ++ [op] = (pre ++ .teardown :: post') ++ [o] := by simpa using ho
                obtain ⟨rfl, -⟩ := List.append_inj' this rfl
                exact absurd ((task_dies_iff cap _).mpr ⟨pre, .teardown, post', rfl,
                  Or.inr (Or.inr ⟨rfl, by rw [h]; simp, by rw [h]; simp⟩)⟩) hnc
  · refine ⟨(after cap ops).phase.keptBack, ((hook_after cap ops).1 hc).symm, ?_, fun e => ?_⟩
    · unfold Phase.keptBack; split <;> simp
    · constructor
      · intro he
        cases hp : (after cap ops).phase with
        | notifying r p y =>
          cases y with
          | none => simp [hp, Phase.keptBack] at he
          | some e' =>
            simp only [hp, Phase.keptBack, List.mem_singleton] at he
            subst he
            exact Or.inl ⟨r, p, hp⟩
        | _ => simp [hp, Phase.keptBack] at he
      · rintro (⟨r, p, h⟩ | ⟨pre, post, r, p, rfl, h⟩)
        · simp [h, Phase.keptBack]
        · exact absurd ((task_dies_iff cap _).mpr ⟨pre, .teardown, post, rfl,
            Or.inr (Or.inr ⟨rfl, by rw [h]; simp, by rw [h]; simp⟩)⟩) hc

/-- **C64** Exactly when the hook has not heard of an error: the error is that of an `on_stop` after which links are still
being notified, or the runtime dropped the task while they were. It is then the last error and the only one missing. -/
theorem hook_missed_iff (cap : Option Nat) (ops : List Op) (e : Err) :
    failures (after cap ops).log = hookCalls cap ops ++ [e] ↔
      (∃ r p, (after cap ops).phase = .notifying r p (some e)) ∨
      ∃ pre post r p, ops = pre ++ .teardown :: post ∧ (after cap pre).phase = .notifying r p (some e) := by
  obtain ⟨x, hx, hl, he⟩ := hook_left cap ops
  show _ ↔ Waiting cap ops e
  rw [← he, hx, List.append_right_inj]
  match x, hl with
  | [], _ => simp
  | [y], _ => simp [eq_comm]

/-- **C64** Exactly when the hook has heard of every error there was. -/
theorem hook_heard_all_iff (cap : Option Nat) (ops : List Op) :
    hookCalls cap ops = failures (after cap ops).log ↔
      ∀ e, ¬ ((∃ r p, (after cap ops).phase = .notifying r p (some e)) ∨
        ∃ pre post r p, ops = pre ++ .teardown :: post ∧ (after cap pre).phase = .notifying r p (some e)) := by
  obtain ⟨x, hx, -, he⟩ := hook_left cap ops
  have : (∀ e, ¬ Waiting cap ops e) ↔ x = [] := by
    constructor
    · intro h; exact List.eq_nil_iff_forall_not_mem.mpr fun e hm => h e ((he e).mp hm)
    · rintro rfl e hw; simpa using (he e).mpr hw
  show _ ↔ ∀ e, ¬ Waiting cap ops e
  rw [this, hx]
  constructor
  · intro h
    have := congrArg List.length h
    simpa using this
  · rintro rfl; simp

/-- `on_stop` fails with a link still to be notified; the link takes its notice and the hook is called; or the runtime drops
the task before. -/
example : let stop : List Op := [.run, .startEnd .ok, .link 3, .kill, .pollBegin, .stopEnd (.err 4)]
    (after none stop).phase = .notifying .killed [3] (some 4) ∧ hookCalls none stop = [] ∧
    hookCalls none (stop ++ [.notifyEnd 3, .finish]) = [4] ∧
    hookCalls none (stop ++ [.teardown, .notifyEnd 3, .finish]) = [] ∧
    failures (after none (stop ++ [.teardown, .notifyEnd 3, .finish])).log = [4] := by decide

/-! ### C65 -/

/-- **C65** Exactly which payloads of a panic are got back by their own type: strings, and nothing else, a box neither. -/
theorem panic_payload_iff (p : Pay) : (PanicError.newFromPanicAny p).downcast p.ty = some p ↔ p.text ≠ none := by
  cases p with
  | boxed p =>
    simp only [PanicError.newFromPanicAny, PanicError.new, PanicError.downcast, Pay.ty, Pay.text, if_true, ne_eq,
      not_true_eq_false, iff_false, Option.some.injEq, Pay.boxed.injEq]
    intro h
    have := congrArg sizeOf h
    simp at this
  | _ => simp [PanicError.newFromPanicAny, PanicError.new, PanicError.downcast, Pay.ty, Pay.text]

example : (PanicError.newFromPanicAny (.string "a")).downcast .string = some (.string "a") ∧
    (PanicError.newFromPanicAny (.boxed (.str "a"))).downcast .boxAny = some (.boxed (.boxed (.str "a"))) := by decide

end Verif.Lifecycle
