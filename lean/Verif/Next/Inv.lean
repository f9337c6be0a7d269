import Verif.Next.Model

/-! Invariants of `Verif.Next`. -/

set_option linter.unusedSimpArgs false
set_option linter.unusedVariables false

namespace Verif.Next

/-- The part of the start-up buffer that is being gone through. `src/actor/kind.rs` L78. -/
def Phase.rest : Phase → List Item
  | .handling _ rest _ => rest
  | _ => []

section
@[simp] theorem rest_starting : Phase.starting.rest = [] := rfl
@[simp] theorem rest_doomed : Phase.doomed.rest = [] := rfl
@[simp] theorem rest_next : Phase.next.rest = [] := rfl
@[simp] theorem rest_handling (it : Item) (l : List Item) (f : Bool) : (Phase.handling it l f).rest = l := rfl
@[simp] theorem rest_link : Phase.link.rest = [] := rfl
@[simp] theorem rest_onPanic (b : Bool) : (Phase.onPanic b).rest = [] := rfl
@[simp] theorem rest_stopping (r : Reason) : (Phase.stopping r).rest = [] := rfl
@[simp] theorem rest_stopped (r : Reason) : (Phase.stopped r).rest = [] := rfl
@[simp] theorem rest_crashed : Phase.crashed.rest = [] := rfl
end

section lemmas
variable (s : St) (l : List Item) (ev : List Ev) (x : Nat) (o : Out)

@[simp] theorem tell_queue : (s.tell ev).queue = s.queue := rfl
@[simp] theorem tell_held : (s.tell ev).held = s.held := rfl
@[simp] theorem tell_buffer : (s.tell ev).buffer = s.buffer := rfl
@[simp] theorem tell_phase : (s.tell ev).phase = s.phase := rfl
@[simp] theorem tell_slot : (s.tell ev).slot = s.slot := rfl
@[simp] theorem tell_fresh : (s.tell ev).fresh = s.fresh := rfl
@[simp] theorem tell_returned : (s.tell ev).returned = s.returned := rfl
@[simp] theorem tell_started : (s.tell ev).started = s.started := rfl
@[simp] theorem tell_gone : (s.tell ev).gone = s.gone := rfl
@[simp] theorem tell_asks : (s.tell ev).asks = s.asks := rfl
@[simp] theorem tell_closed : (s.tell ev).closed = s.closed := rfl
@[simp] theorem tell_finished : (s.tell ev).finished = s.finished := rfl
@[simp] theorem tell_permits : (s.tell ev).permits = s.permits := rfl
@[simp] theorem tell_aborted : (s.tell ev).aborted = s.aborted := rfl
@[simp] theorem tell_taken : (s.tell ev).taken = s.taken := rfl
@[simp] theorem tell_delegated : (s.tell ev).delegated = s.delegated := rfl
@[simp] theorem tell_gaveUp : (s.tell ev).gaveUp = s.gaveUp := rfl
@[simp] theorem tell_log : (s.tell ev).log = s.log ++ ev := rfl

@[simp] theorem drop_queue : (s.drop l).queue = s.queue := rfl
@[simp] theorem drop_held : (s.drop l).held = s.held := rfl
@[simp] theorem drop_buffer : (s.drop l).buffer = s.buffer := rfl
@[simp] theorem drop_phase : (s.drop l).phase = s.phase := rfl
@[simp] theorem drop_fresh : (s.drop l).fresh = s.fresh := rfl
@[simp] theorem drop_returned : (s.drop l).returned = s.returned := rfl
@[simp] theorem drop_started : (s.drop l).started = s.started := rfl
@[simp] theorem drop_gone : (s.drop l).gone = s.gone ++ l := rfl
@[simp] theorem drop_asks : (s.drop l).asks = s.asks := rfl
@[simp] theorem drop_closed : (s.drop l).closed = s.closed := rfl
@[simp] theorem drop_finished : (s.drop l).finished = s.finished := rfl
@[simp] theorem drop_permits : (s.drop l).permits = s.permits := rfl
@[simp] theorem drop_aborted : (s.drop l).aborted = s.aborted := rfl
@[simp] theorem drop_taken : (s.drop l).taken = s.taken := rfl
@[simp] theorem drop_delegated : (s.drop l).delegated = s.delegated := rfl
@[simp] theorem drop_gaveUp : (s.drop l).gaveUp = s.gaveUp := rfl
@[simp] theorem drop_log : (s.drop l).log = s.log := rfl

@[simp] theorem resolve_queue : (s.resolve x o).queue = s.queue := rfl
@[simp] theorem resolve_held : (s.resolve x o).held = s.held := rfl
@[simp] theorem resolve_buffer : (s.resolve x o).buffer = s.buffer := rfl
@[simp] theorem resolve_phase : (s.resolve x o).phase = s.phase := rfl
@[simp] theorem resolve_fresh : (s.resolve x o).fresh = s.fresh := rfl
@[simp] theorem resolve_returned : (s.resolve x o).returned = s.returned := rfl
@[simp] theorem resolve_started : (s.resolve x o).started = s.started := rfl
@[simp] theorem resolve_gone : (s.resolve x o).gone = s.gone := rfl
@[simp] theorem resolve_asks : (s.resolve x o).asks = s.asks := rfl
@[simp] theorem resolve_closed : (s.resolve x o).closed = s.closed := rfl
@[simp] theorem resolve_finished : (s.resolve x o).finished = s.finished := rfl
@[simp] theorem resolve_permits : (s.resolve x o).permits = s.permits := rfl
@[simp] theorem resolve_aborted : (s.resolve x o).aborted = s.aborted := rfl
@[simp] theorem resolve_taken : (s.resolve x o).taken = s.taken := rfl
@[simp] theorem resolve_delegated : (s.resolve x o).delegated = s.delegated := rfl
@[simp] theorem resolve_gaveUp : (s.resolve x o).gaveUp = s.gaveUp := rfl
@[simp] theorem resolve_log : (s.resolve x o).log = s.log := rfl

variable (it : Item)

@[simp] theorem settle_queue : (s.settle it o).queue = s.queue := by unfold St.settle; split <;> rfl
@[simp] theorem settle_held : (s.settle it o).held = s.held := by unfold St.settle; split <;> rfl
@[simp] theorem settle_buffer : (s.settle it o).buffer = s.buffer := by unfold St.settle; split <;> rfl
@[simp] theorem settle_phase : (s.settle it o).phase = s.phase := by unfold St.settle; split <;> rfl
@[simp] theorem settle_fresh : (s.settle it o).fresh = s.fresh := by unfold St.settle; split <;> rfl
@[simp] theorem settle_returned : (s.settle it o).returned = s.returned := by unfold St.settle; split <;> rfl
@[simp] theorem settle_started : (s.settle it o).started = s.started := by unfold St.settle; split <;> rfl
@[simp] theorem settle_gone : (s.settle it o).gone = s.gone := by unfold St.settle; split <;> rfl
@[simp] theorem settle_asks : (s.settle it o).asks = s.asks := by unfold St.settle; split <;> rfl
@[simp] theorem settle_closed : (s.settle it o).closed = s.closed := by unfold St.settle; split <;> rfl
@[simp] theorem settle_finished : (s.settle it o).finished = s.finished := by unfold St.settle; split <;> rfl
@[simp] theorem settle_permits : (s.settle it o).permits = s.permits := by unfold St.settle; split <;> rfl
@[simp] theorem settle_aborted : (s.settle it o).aborted = s.aborted := by unfold St.settle; split <;> rfl
@[simp] theorem settle_log : (s.settle it o).log = s.log := by unfold St.settle; split <;> rfl
@[simp] theorem settle_taken : (s.settle it o).taken = s.taken := by unfold St.settle; split <;> rfl
@[simp] theorem settle_delegated : (s.settle it o).delegated = s.delegated := by unfold St.settle; split <;> rfl
@[simp] theorem settle_gaveUp : (s.settle it o).gaveUp = s.gaveUp := by unfold St.settle; split <;> rfl
@[simp] theorem settle_spent : (s.settle it o).spent = s.spent := by unfold St.settle; split <;> rfl

end lemmas

/-! ### Every signal is in one place -/

/-- How often a signal is somewhere. -/
def St.cnt (s : St) (x : Nat) : Nat :=
  (s.queue.map (·.id)).count x + (s.held.map (·.id)).count x + (s.buffer.map (·.id)).count x +
  (s.phase.rest.map (·.id)).count x + (s.started.map (·.id)).count x + (s.gone.map (·.id)).count x

theorem cnt_stop (s : St) (r : Reason) (h : s.phase.rest = []) (x : Nat) : (s.stop r).cnt x = s.cnt x := by
  simp [St.stop, St.cnt, h, List.count_append]; omega

theorem cnt_fall (s : St) (e : Ev) (x : Nat) : (s.fall e).cnt x = s.cnt x := by
  unfold St.fall
  cases e : s.phase <;> simp [St.cnt, e, List.count_append] <;> omega

theorem cnt_crash (s : St) (x : Nat) : s.crash.cnt x = s.cnt x := cnt_fall s _ x

theorem cnt_go (s : St) (l : List Item) (fin : Bool) (x : Nat) (h : s.phase.rest = []) :
    (s.go l fin).cnt x = s.cnt x + (l.map (·.id)).count x := by
  cases l with
  | nil =>
    cases fin with
    | false => simp [St.go, St.cnt, h]
    | true => simp [St.go, cnt_stop, h]
  | cons it rest => simp [St.go, St.cnt, h, List.count_append, List.count_cons]; omega

theorem cnt_drain (s : St) (fin : Bool) (x : Nat) (h : s.phase.rest = []) : (s.drain fin).cnt x = s.cnt x := by
  have := cnt_go { s with finished := true, buffer := [] } s.buffer fin x h
  rw [St.drain, this]
  simp only [St.cnt, List.map_nil, List.count_nil]; omega

theorem fresh_stop (s : St) (r : Reason) : (s.stop r).fresh = s.fresh := rfl
theorem fresh_fall (s : St) (e : Ev) : (s.fall e).fresh = s.fresh := by
  unfold St.fall; cases e : s.phase <;> simp
theorem fresh_crash (s : St) : s.crash.fresh = s.fresh := fresh_fall s _
theorem fresh_go (s : St) (l : List Item) (fin : Bool) : (s.go l fin).fresh = s.fresh := by
  cases l <;> cases fin <;> rfl
theorem fresh_drain (s : St) (fin : Bool) : (s.drain fin).fresh = s.fresh := by
  rw [St.drain, fresh_go]

theorem cnt_dispatch (s : St) (it : Item) (x : Nat) (h : s.phase = .next) :
    (s.dispatch it).cnt x = s.cnt x + (if it.id = x then 1 else 0) ∧ (s.dispatch it).fresh = s.fresh := by
  unfold St.dispatch
  split
  · split
    · rw [cnt_crash, fresh_crash]; refine ⟨?_, rfl⟩
      simp [St.cnt, List.count_append, List.count_cons]; omega
    · rw [cnt_drain _ _ _ (by simp [h]), fresh_drain]; refine ⟨?_, rfl⟩
      simp [St.cnt, List.count_append, List.count_cons]; omega
  · simp only []
    split
    · refine ⟨?_, rfl⟩; simp [St.cnt, h, List.count_append, List.count_cons]; omega
    · refine ⟨?_, rfl⟩; simp [St.cnt, h, List.count_append, List.count_cons]; omega
  · refine ⟨?_, rfl⟩; simp [St.cnt, h, List.count_append, List.count_cons]; omega
  · rw [cnt_drain _ _ _ (by simp [h]), fresh_drain]; refine ⟨?_, rfl⟩
    simp [St.cnt, List.count_append, List.count_cons]; omega

theorem count_eraseIdx {l : List Item} {i : Nat} {it : Item} (h : l[i]? = some it) (x : Nat) :
    (l.map (·.id)).count x = ((l.eraseIdx i).map (·.id)).count x + (if it.id = x then 1 else 0) := by
  induction l generalizing i with
  | nil => simp at h
  | cons a t ih =>
    cases i with
    | zero => simp at h; subst h; simp [List.count_cons]
    | succ i =>
      simp at h
      simp [List.count_cons, ih h]; omega

/-- One signal more. -/
theorem cnt_make (s : St) (b : Body) (ask : Bool) (x : Nat) :
    ((s.make b ask).cnt x = s.cnt x ∧ (s.make b ask).fresh = s.fresh) ∨
    ((s.make b ask).cnt x = s.cnt x + (if s.fresh = x then 1 else 0) ∧ (s.make b ask).fresh = s.fresh + 1) := by
  unfold St.make
  split
  · right; refine ⟨?_, rfl⟩; simp [St.cnt, List.count_append, List.count_cons]; omega
  · left; exact ⟨rfl, rfl⟩

theorem cnt_push (s : St) (b : Body) (ask : Bool) (x : Nat) :
    ((s.push b ask).cnt x = s.cnt x ∧ (s.push b ask).fresh = s.fresh) ∨
    ((s.push b ask).cnt x = s.cnt x + (if s.fresh = x then 1 else 0) ∧ (s.push b ask).fresh = s.fresh + 1) := by
  unfold St.push
  split
  · left; exact ⟨rfl, rfl⟩
  · right; refine ⟨?_, rfl⟩; simp [St.cnt, List.count_append, List.count_cons]; omega

theorem push_phase (s : St) (b : Body) (ask : Bool) : (s.push b ask).phase = s.phase := by
  unfold St.push; split <;> rfl

theorem cnt_step (s : St) (op : Op) (x : Nat) :
    ((s.step op).cnt x = s.cnt x ∧ (s.step op).fresh = s.fresh) ∨
    ((s.step op).cnt x = s.cnt x + (if s.fresh = x then 1 else 0) ∧ (s.step op).fresh = s.fresh + 1) := by
  cases op with
  | send b ask => exact cnt_push s b ask x
  | make b ask => exact cnt_make s b ask x
  | startEnd r full =>
    simp only [St.step, St.startEnd]
    generalize startHow r full = k
    split
    · rename_i hp
      cases full with
      | true =>
        left
        cases r with
        | ok =>
          simp only [if_true, St.enter]
          split
          · simp [St.cnt, hp]
          · rw [cnt_drain _ _ _ (by simp [hp]), fresh_drain]; exact ⟨rfl, rfl⟩
        | err => simp [St.cnt, hp]
        | panic => simp [St.cnt, hp]
      | false =>
        have e1 : (s.tell [.e .start k]).cnt x = s.cnt x := rfl
        have := cnt_push (s.tell [.e .start k]) .startup false x
        have e2 := push_phase (s.tell [.e .start k]) .startup false
        simp only [tell_phase, hp] at e2
        rw [e1] at this
        have e3 : ∀ (t : St) (p : Phase) (pm : Bool) (ev : List Ev), t.phase.rest = [] → p.rest = [] →
            ({ t.tell ev with permits := pm, phase := p } : St).cnt x = t.cnt x := by
          intro t p pm ev h1 h2; simp [St.cnt, h1, h2]
        cases r with
        | ok =>
          have e4 : ∀ (t : St), t.phase.rest = [] → ({ t.tell [.b .next] with phase := .next } : St).cnt x = t.cnt x := by
            intro t h1; simp [St.cnt, h1]
          have e5 : ∀ (t : St) (f : Bool), t.phase.rest = [] → ({ t with finished := f, phase := .doomed } : St).cnt x = t.cnt x := by
            intro t f h1; simp [St.cnt, h1]
          simp only [Bool.false_eq_true, if_false, St.enter]
          split
          · rw [e5 _ _ (by rw [e2]; rfl)]; exact this
          · rw [e4 _ (by rw [e2]; rfl)]
            exact this
        | err =>
          simp only [Bool.false_eq_true, if_false]
          rw [e3 _ _ _ _ (by rw [e2]; rfl) rfl]; exact this
        | panic =>
          simp only [Bool.false_eq_true, if_false]
          rw [e3 _ _ _ _ (by rw [e2]; rfl) rfl]; exact this
    · exact Or.inl ⟨rfl, rfl⟩
  | take n =>
    left; simp only [St.step, St.take]
    split
    · refine ⟨?_, rfl⟩
      have : (s.queue.map (·.id)).count x =
          ((s.queue.take n).map (·.id)).count x + ((s.queue.drop n).map (·.id)).count x := by
        rw [← List.count_append, ← List.map_append, List.take_append_drop]
      simp only [St.cnt, List.map_append, List.count_append]; omega
    · exact ⟨rfl, rfl⟩
  | close => left; simp only [St.step, St.close]; split <;> exact ⟨rfl, rfl⟩
  | spend i o =>
    left; simp only [St.step, St.spend]
    split
    · rename_i it hi
      refine ⟨?_, rfl⟩
      have := count_eraseIdx hi x
      simp only [St.cnt, resolve_queue, resolve_buffer, resolve_phase, resolve_started, resolve_gone, resolve_held,
        List.map_append, List.count_append, List.map_cons, List.map_nil, List.count_cons, List.count_nil]
      simp only [beq_iff_eq]; omega
    · exact ⟨rfl, rfl⟩
  | ret i =>
    left; simp only [St.step, St.ret]
    split
    · rename_i it hp hi
      have h1 := cnt_dispatch { s.tell [.got (some it.body)] with held := s.held.eraseIdx i } it x hp
      have := count_eraseIdx hi x
      refine ⟨h1.1.trans ?_, h1.2⟩
      simp only [St.cnt, tell_queue, tell_buffer, tell_phase, tell_started, tell_gone, tell_held]
      omega
    · exact ⟨rfl, rfl⟩
  | retNone =>
    left; simp only [St.step, St.retNone]
    split
    · rename_i hp
      rw [cnt_drain _ _ _ (by simp [hp]), fresh_drain]; exact ⟨rfl, rfl⟩
    · exact ⟨rfl, rfl⟩
  | nextPanic =>
    left; simp only [St.step, St.nextPanic]
    split
    · exact ⟨cnt_crash s x, fresh_crash s⟩
    · exact ⟨rfl, rfl⟩
  | handleEnd r =>
    left; simp only [St.step, St.handleEnd]
    split
    · rename_i it rest fin hp
      generalize handleHow r (it.ask && !s.taken) = k
      have key : ∀ (t : St), t.phase = .handling it rest fin → ∀ x, ({ t with phase := .next } : St).cnt x +
          (rest.map (·.id)).count x = t.cnt x := by
        intro t ht x; simp [St.cnt, ht]; omega
      have gophase : ∀ (t : St), t.go rest fin = ({ t with phase := .next } : St).go rest fin := by
        intro t; cases rest <;> cases fin <;> rfl
      split
      · rw [gophase, cnt_go _ _ _ _ rfl, fresh_go]
        refine ⟨?_, by simp⟩
        have := key ((s.tell [.e .handle k]).settle it .value) (by simp [hp]) x
        rw [this]; simp [St.cnt]
      · rw [gophase, cnt_go _ _ _ _ rfl, fresh_go]
        refine ⟨?_, by simp⟩
        have := key ((s.tell [.e .handle k]).settle it .err) (by simp [hp]) x
        rw [this]; simp [St.cnt]
      · refine ⟨?_, by simp [St.panicked]⟩
        simp [St.panicked, St.cnt, hp, List.count_append]; omega
    · exact ⟨rfl, rfl⟩
  | linkEnd f =>
    left; simp only [St.step, St.linkEnd]
    generalize f.linkHow = k
    split
    · rename_i hp
      split
      · simp [St.cnt, hp]
      · simp [St.panicked, St.cnt, hp]
      · rw [cnt_stop _ _ (by simp [hp])]; exact ⟨rfl, rfl⟩
      · simp [St.panicked, St.cnt, hp]
    · exact ⟨rfl, rfl⟩
  | panicEnd f =>
    left; simp only [St.step, St.panicEnd]
    generalize f.panicHow = k
    split
    · rename_i st hp
      split
      · exact ⟨cnt_crash s x, fresh_crash s⟩
      · split
        · rw [cnt_stop _ _ (by simp [hp])]; exact ⟨rfl, rfl⟩
        · simp [St.cnt, hp]
      · rw [cnt_stop _ _ (by simp [hp])]; exact ⟨rfl, rfl⟩
      · rw [cnt_stop _ _ (by simp [hp])]; exact ⟨rfl, rfl⟩
    · exact ⟨rfl, rfl⟩
  | stopEnd r =>
    left; simp only [St.step, St.stopEnd]
    split
    · rename_i q hp
      split
      · exact ⟨cnt_crash s x, fresh_crash s⟩
      · refine ⟨?_, rfl⟩
        simp [St.cnt, hp, List.count_append]; omega
    · exact ⟨rfl, rfl⟩
  | kill => exact Or.inl ⟨rfl, rfl⟩
  | abort =>
    left; simp only [St.step, St.abort]
    split
    · split
      · rename_i it rest fin hp
        have : ∀ (t : St), t.stop .killed = ({ t with phase := .next } : St).stop .killed := fun t => rfl
        rw [this, cnt_stop _ _ rfl]
        refine ⟨?_, by simp [fresh_stop]⟩
        simp [St.cnt, hp, List.count_append]; omega
      · rename_i hn
        have : s.phase.rest = [] := by
          cases e : s.phase <;> simp
          rename_i it rest fin; exact (hn it rest fin e).elim
        rw [cnt_stop _ _ (by simpa using this)]; exact ⟨rfl, rfl⟩
    · exact ⟨rfl, rfl⟩
  | takeReply =>
    left; simp only [St.step, St.takeReply]
    split
    · split <;> exact ⟨rfl, rfl⟩
    · exact ⟨rfl, rfl⟩
  | later y o => left; simp only [St.step, St.later]; split <;> exact ⟨rfl, rfl⟩
  | giveUp y => left; simp only [St.step, St.giveUp]; split <;> exact ⟨rfl, rfl⟩
  | teardown =>
    left; simp only [St.step, St.teardown]
    split
    · exact ⟨rfl, rfl⟩
    · exact ⟨rfl, rfl⟩
    · exact ⟨cnt_fall s _ x, fresh_fall s _⟩

/-- Every signal ever made is in exactly one place. -/
theorem cnt_after (ops : List Op) (x : Nat) : (after ops).cnt x = if x < (after ops).fresh then 1 else 0 := by
  unfold after
  have : ∀ (ops : List Op) (s : St), (∀ x, s.cnt x = if x < s.fresh then 1 else 0) →
      ∀ x, (ops.foldl St.step s).cnt x = if x < (ops.foldl St.step s).fresh then 1 else 0 := by
    intro ops
    induction ops with
    | nil => intro s h; exact h
    | cons o os ih =>
      intro s h
      refine ih (s.step o) fun x => ?_
      have h1 := h x
      rcases cnt_step s o x with ⟨e1, e2⟩ | ⟨e1, e2⟩
      · rw [e1, e2, h1]
      · rw [e1, e2, h1]; (repeat' split) <;> omega
  exact this ops {} (fun x => rfl) x

end Verif.Next
