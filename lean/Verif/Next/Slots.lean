import Verif.Next.Log

/-! Invariants of `Verif.Next`: why someone who asked got an outcome. -/

set_option linter.unusedSimpArgs false
set_option linter.unusedVariables false

namespace Verif.Next

variable {s : St}

/-- An outcome has a reason: the signal was dropped, or used up by the user's code, or its handler was begun. -/
def Why (s : St) : Prop :=
  ∀ x o, s.slot x = some o →
    (x ∈ s.gone.map (·.id) ∧ (o = .dropped ∨ x ∈ s.spent)) ∨ x ∈ s.started.map (·.id)

theorem Why.same {s' : St} (h : Why s) (h1 : s'.slot = s.slot := by rfl) (h2 : s.gone ⊆ s'.gone := by exact fun _ h => h)
    (h3 : s.started ⊆ s'.started := by exact fun _ h => h) (h4 : s'.spent = s.spent := by rfl) : Why s' := by
  intro x o e
  rw [h1] at e
  rw [h4]
  rcases h x o e with ⟨ha, hb⟩ | hc
  · obtain ⟨it, hi, rfl⟩ := List.mem_map.mp ha
    exact Or.inl ⟨List.mem_map_of_mem (h2 hi), hb⟩
  · obtain ⟨it, hi, rfl⟩ := List.mem_map.mp hc
    exact Or.inr (List.mem_map_of_mem (h3 hi))

theorem Why.resolve (h : Why s) {it : Item} (hi : it ∈ s.started) (o : Out) : Why (s.resolve it.id o) := by
  intro x o' e
  simp only [St.resolve] at e
  split at e
  · rename_i hx; rw [hx.1]; exact Or.inr (List.mem_map_of_mem hi)
  · exact h x o' e

theorem Why.settle (h : Why s) {it : Item} (hi : it ∈ s.started) (o : Out) : Why (s.settle it o) := by
  unfold St.settle; split
  · exact h
  · exact h.resolve hi o

theorem Why.drop (h : Why s) (l : List Item) : Why (s.drop l) := by
  intro x o' e
  simp only [St.drop] at e
  split at e
  · rename_i hx
    simp only [Option.some.injEq] at e; subst e
    refine Or.inl ⟨?_, Or.inl rfl⟩
    simp only [drop_gone, List.map_append, List.mem_append]; exact Or.inr hx.1
  · rcases h x o' e with ⟨ha, hb⟩ | hc
    · refine Or.inl ⟨?_, hb⟩
      simp only [drop_gone, List.map_append, List.mem_append]; exact Or.inl ha
    · exact Or.inr hc

theorem stop_why (h : Why s) (r : Reason) : Why (s.stop r) := (h.drop s.buffer).same

theorem go_why (h : Why s) (l : List Item) (fin : Bool) : Why (s.go l fin) := by
  cases l with
  | nil => cases fin with
    | false => exact h.same
    | true => exact stop_why h _
  | cons it rest => exact h.same rfl (fun _ h => h) (fun _ h => List.mem_append.mpr (Or.inl h))

theorem drain_why (h : Why s) (fin : Bool) : Why (s.drain fin) :=
  go_why (s := { s with finished := true, buffer := [] }) h.same _ _

theorem fall_why (h : Why s) (hc : ∀ it, s.phase.cur = some it → it ∈ s.started) (ev : Ev) : Why (s.fall ev) := by
  unfold St.fall
  cases e : s.phase with
  | handling it rest fin =>
    have h1 := (h.settle (hc it (by simp [e, Phase.cur])) .dropped).drop rest
    exact (((h1.drop _).drop _).drop _).same
  | _ => exact (((h.drop _).drop _).drop _).same

/-- The invariant: `Why`, and the message whose handler runs was begun to be handled. -/
structure Well (s : St) : Prop where
  why : Why s
  cur : ∀ it, s.phase.cur = some it → it ∈ s.started
  calls : s.log.count (.b .handle) = s.started.length

theorem stop_cur (s : St) (r : Reason) : (s.stop r).phase.cur = none := rfl

theorem stop_well (h : Why s) (hl : s.log.count (.b .handle) = s.started.length) (r : Reason) : Well (s.stop r) :=
  ⟨stop_why h r, by simp [stop_cur], by simpa [St.stop, List.count_append] using hl⟩

theorem go_well (h : Why s) (hl : s.log.count (.b .handle) = s.started.length) (l : List Item) (fin : Bool) :
    Well (s.go l fin) := by
  refine ⟨go_why h l fin, ?_, ?_⟩
  · cases l with
    | nil => cases fin <;> simp [St.go, Phase.cur, St.stop]
    | cons it rest => intro a ha; simp [St.go, Phase.cur] at ha ⊢; exact Or.inr ha.symm
  · cases l with
    | nil => cases fin <;> simpa [St.go, St.stop, List.count_append] using hl
    | cons it rest => simpa [St.go, St.stop, List.count_append] using hl

theorem drain_well (h : Why s) (hl : s.log.count (.b .handle) = s.started.length) (fin : Bool) : Well (s.drain fin) :=
  go_well (s := { s with finished := true, buffer := [] }) h.same hl _ _

theorem fall_well (h : Well s) (ev : Ev) (he : ev ≠ .b .handle) : Well (s.fall ev) := by
  refine ⟨fall_why h.why h.cur ev, ?_, ?_⟩
  · simp [fall_phase, Phase.cur]
  · have := h.calls
    rw [fall_log]
    unfold St.fall; cases e : s.phase <;> simpa [List.count_append, he] using this

theorem crash_well (h : Well s) : Well s.crash := fall_well h _ (by simp)

theorem Well.tell (h : Well s) {l : List Ev} (hl : l.count (.b .handle) = 0) {s' : St} (h0 : s' = { s.tell l with phase := s'.phase })
    (hp : s'.phase.cur = none) : Well s' := by
  refine ⟨?_, by simp [hp], ?_⟩
  · rw [h0]; exact h.why.same
  · rw [h0]; simp [List.count_append, hl, h.calls]

theorem dispatch_well (h : Well s) (it : Item) (hp : s.phase = .next) : Well (s.dispatch it) := by
  have hg : Why { s with gone := s.gone ++ [it] } := h.why.same rfl (fun _ h => List.mem_append.mpr (Or.inl h))
  have hc := h.calls
  unfold St.dispatch
  split
  · split
    · exact crash_well ⟨hg, by simp [hp, Phase.cur], hc⟩
    · exact drain_well (s := { s with gone := s.gone ++ [it], permits := true }) hg.same hc _
  · simp only []
    split
    · exact ⟨h.why.same, by simp [Phase.cur], by simpa [List.count_append] using hc⟩
    · refine ⟨h.why.same rfl (fun _ h => h) (fun _ h => List.mem_append.mpr (Or.inl h)), ?_, ?_⟩
      · intro a ha; simp [Phase.cur] at ha ⊢; exact Or.inr ha.symm
      · simpa [List.count_append] using hc
  · exact ⟨hg.same, by simp [Phase.cur], by simpa [List.count_append] using hc⟩
  · exact drain_well hg hc _

/-- A reply sender that a handler took belongs to a message that was begun to be handled. -/
def Del (s : St) : Prop := ∀ x ∈ s.delegated, x ∈ s.started.map (·.id)

theorem step_well (h : Well s) (hd : Del s) (op : Op) : Well (s.step op) := by
  have hc := h.calls
  cases op with
  | send b ask =>
    simp only [St.step, St.push]; split
    · exact h
    · exact ⟨h.why.same, h.cur, h.calls⟩
  | make b ask =>
    simp only [St.step, St.make]; split
    · exact ⟨h.why.same, h.cur, h.calls⟩
    · exact h
  | startEnd r full =>
    simp only [St.step, St.startEnd]
    generalize startHow r full = k
    split
    · rename_i hp
      have hw : Why ((s.tell [.e .start k]).push .startup false) := by
        unfold St.push; split <;> exact h.why.same
      have hl : ((s.tell [.e .start k]).push .startup false).log.count (.b .handle) =
          ((s.tell [.e .start k]).push .startup false).started.length := by
        unfold St.push; split <;> simpa [List.count_append] using hc
      cases full with
      | true =>
        cases r with
        | ok =>
          simp only [St.enter, if_true]; split
          · exact ⟨h.why.same, by simp [Phase.cur], by simpa [List.count_append] using hc⟩
          · exact drain_well (s := s.tell [.e .start k]) h.why.same (by simpa [List.count_append] using hc) _
        | err => exact ⟨h.why.same, by simp [Phase.cur], by simpa [List.count_append] using hc⟩
        | panic => exact ⟨h.why.same, by simp [Phase.cur], by simpa [List.count_append] using hc⟩
      | false =>
        cases r with
        | ok =>
          simp only [St.enter, Bool.false_eq_true, if_false]
          split <;> exact ⟨hw.same, by simp [Phase.cur], by simpa [List.count_append] using hl⟩
        | err => exact ⟨hw.same, by simp [Phase.cur], by simpa [List.count_append] using hl⟩
        | panic => exact ⟨hw.same, by simp [Phase.cur], by simpa [List.count_append] using hl⟩
    · exact h
  | take n => simp only [St.step, St.take]; split <;> first | exact h | exact ⟨h.why.same, h.cur, h.calls⟩
  | close => simp only [St.step, St.close]; split <;> first | exact h | exact ⟨h.why.same, h.cur, h.calls⟩
  | spend i o =>
    simp only [St.step, St.spend]; split
    · rename_i it hi
      refine ⟨?_, h.cur, h.calls⟩
      intro x o' e
      simp only [St.resolve] at e
      split at e
      · rename_i hx
        rw [hx.1]
        exact Or.inl ⟨by simp, Or.inr (by simp)⟩
      · rcases h.why x o' e with ⟨ha, hb⟩ | hd
        · refine Or.inl ⟨?_, ?_⟩
          · simp only [List.map_append, List.mem_append]; exact Or.inl ha
          · rcases hb with hb | hb
            · exact Or.inl hb
            · exact Or.inr (by simp [hb])
        · exact Or.inr hd
    · exact h
  | ret i =>
    simp only [St.step, St.ret]
    split
    · rename_i it hp hi
      exact dispatch_well (s := { s.tell [.got (some it.body)] with held := s.held.eraseIdx i })
        ⟨h.why.same, by simp [hp, Phase.cur], by simpa [List.count_append] using hc⟩ it hp
    · exact h
  | retNone =>
    simp only [St.step, St.retNone]
    split
    · exact drain_well (s := s.tell [.got none]) h.why.same (by simpa [List.count_append] using hc) _
    · exact h
  | nextPanic =>
    simp only [St.step, St.nextPanic]
    split
    · exact crash_well h
    · exact h
  | handleEnd r =>
    simp only [St.step, St.handleEnd]
    split
    · rename_i it rest fin hp
      generalize handleHow r (it.ask && !s.taken) = k
      have hi : it ∈ s.started := h.cur it (by simp [hp, Phase.cur])
      have hw : Why (s.tell [.e .handle k]) := h.why.same
      have hl : s.log.count (.b .handle) = s.started.length := hc
      split
      · exact go_well (hw.settle hi _) (by simpa [List.count_append] using hl) _ _
      · exact go_well (hw.settle hi _) (by simpa [List.count_append] using hl) _ _
      · exact ⟨((hw.settle hi .dropped).drop rest).same, by simp [St.panicked, Phase.cur],
          by simpa [St.panicked, List.count_append] using hl⟩
    · exact h
  | linkEnd f =>
    simp only [St.step, St.linkEnd]
    generalize f.linkHow = k
    split
    · split
      · exact ⟨h.why.same, by simp [Phase.cur], by simpa [List.count_append] using hc⟩
      · exact ⟨h.why.same, by simp [St.panicked, Phase.cur], by simpa [St.panicked, List.count_append] using hc⟩
      · exact stop_well h.why.same (by simpa [List.count_append] using hc) _
      · exact ⟨h.why.same, by simp [St.panicked, Phase.cur], by simpa [St.panicked, List.count_append] using hc⟩
    · exact h
  | panicEnd f =>
    simp only [St.step, St.panicEnd]
    generalize f.panicHow = k
    split
    · split
      · exact crash_well h
      · split
        · exact stop_well h.why.same (by simpa [List.count_append] using hc) _
        · exact ⟨h.why.same, by simp [Phase.cur], by simpa [List.count_append] using hc⟩
      · exact stop_well h.why.same (by simpa [List.count_append] using hc) _
      · exact stop_well h.why.same (by simpa [List.count_append] using hc) _
    · exact h
  | stopEnd r =>
    simp only [St.step, St.stopEnd]
    split
    · split
      · exact crash_well h
      · exact ⟨(h.why.drop s.queue).same, by simp [Phase.cur], by simpa [List.count_append] using hc⟩
    · exact h
  | kill => exact ⟨h.why.same, h.cur, h.calls⟩
  | abort =>
    simp only [St.step, St.abort]
    split
    · split
      · rename_i it rest fin hp
        have hi : it ∈ s.started := h.cur it (by simp [hp, Phase.cur])
        have hw : Why (s.tell [.abort]) := h.why.same
        exact stop_well ((hw.settle hi .dropped).drop rest) (by simpa [List.count_append] using hc) _
      · exact stop_well h.why.same (by simpa [List.count_append] using hc) _
    · exact h
  | takeReply =>
    simp only [St.step, St.takeReply]
    split
    · rename_i it rest fin hp
      have hi : it ∈ s.started := h.cur it (by simp [hp, Phase.cur])
      split
      · refine ⟨h.why.same, ?_, h.calls⟩
        intro a ha; rw [hp] at ha; simp [Phase.cur] at ha; subst ha; exact hi
      · exact h
    · exact h
  | later x o =>
    simp only [St.step, St.later]
    split
    · rename_i hx
      obtain ⟨it, hi, rfl⟩ := List.mem_map.mp (hd x hx)
      exact ⟨(h.why.resolve hi o).same, h.cur, h.calls⟩
    · exact h
  | giveUp x => simp only [St.step, St.giveUp]; split <;> first | exact h | exact ⟨h.why.same, h.cur, h.calls⟩
  | teardown =>
    simp only [St.step, St.teardown]
    split
    · exact h
    · exact h
    · exact fall_well h _ (by simp)

theorem Del.same {s' : St} (h : Del s) (h1 : s'.delegated = s.delegated) (h2 : s.started ⊆ s'.started) : Del s' := by
  intro x hx
  rw [h1] at hx
  obtain ⟨it, hi, rfl⟩ := List.mem_map.mp (h x hx)
  exact List.mem_map_of_mem (h2 hi)

theorem go_keeps (s : St) (l : List Item) (fin : Bool) :
    (s.go l fin).delegated = s.delegated ∧ s.started ⊆ (s.go l fin).started := by
  cases l with
  | nil => cases fin <;> exact ⟨rfl, fun _ h => h⟩
  | cons it rest => exact ⟨rfl, fun _ h => List.mem_append.mpr (Or.inl h)⟩

theorem drain_keeps (s : St) (fin : Bool) :
    (s.drain fin).delegated = s.delegated ∧ s.started ⊆ (s.drain fin).started :=
  go_keeps { s with finished := true, buffer := [] } _ _

theorem fall_keeps (s : St) (ev : Ev) :
    (s.fall ev).delegated = s.delegated ∧ (s.fall ev).started = s.started := by
  unfold St.fall; cases e : s.phase <;> simp

theorem dispatch_keeps (s : St) (it : Item) :
    (s.dispatch it).delegated = s.delegated ∧ s.started ⊆ (s.dispatch it).started := by
  unfold St.dispatch
  split
  · split
    · have := fall_keeps { s with gone := s.gone ++ [it] } .crash
      refine ⟨this.1, ?_⟩
      simp only [St.crash, this.2]; exact fun _ h => h
    · exact drain_keeps { s with gone := s.gone ++ [it], permits := true } _
  · simp only []
    split
    · exact ⟨rfl, fun _ h => h⟩
    · exact ⟨rfl, fun _ h => List.mem_append.mpr (Or.inl h)⟩
  · exact ⟨rfl, fun _ h => h⟩
  · exact drain_keeps { s with gone := s.gone ++ [it] } _

theorem push_started (s : St) (b : Body) (a : Bool) : (s.push b a).started = s.started := by
  unfold St.push; split <;> rfl

theorem push_delegated (s : St) (b : Body) (a : Bool) : (s.push b a).delegated = s.delegated := by
  unfold St.push; split <;> rfl

/-- What is handled stays so; and only two steps change which reply senders are taken. -/
theorem step_keeps (s : St) (op : Op) :
    s.started ⊆ (s.step op).started ∧
    ((s.step op).delegated = s.delegated ∨ op = .takeReply ∨ ∃ x o, op = .later x o) := by
  cases op with
  | send b ask => exact ⟨by simp [St.step, push_started], Or.inl (push_delegated ..)⟩
  | make b ask => simp only [St.step, St.make]; split <;> exact ⟨fun _ h => h, Or.inl rfl⟩
  | startEnd r full =>
    simp only [St.step, St.startEnd]
    generalize startHow r full = k
    split
    · cases full <;> cases r <;> simp only [St.enter, if_true, Bool.false_eq_true, if_false]
      · split <;> simp [push_started, push_delegated]
      · simp [push_started, push_delegated]
      · simp [push_started, push_delegated]
      · split
        · exact ⟨fun _ h => h, Or.inl rfl⟩
        · exact ⟨(drain_keeps (s.tell [.e .start k]) _).2, Or.inl (drain_keeps (s.tell [.e .start k]) _).1⟩
      · exact ⟨fun _ h => h, Or.inl rfl⟩
      · exact ⟨fun _ h => h, Or.inl rfl⟩
    · exact ⟨fun _ h => h, Or.inl rfl⟩
  | take n => simp only [St.step, St.take]; split <;> exact ⟨fun _ h => h, Or.inl rfl⟩
  | close => simp only [St.step, St.close]; split <;> exact ⟨fun _ h => h, Or.inl rfl⟩
  | spend i o => simp only [St.step, St.spend]; split <;> exact ⟨fun _ h => h, Or.inl rfl⟩
  | ret i =>
    simp only [St.step, St.ret]
    split
    · rename_i it hp hi
      have := dispatch_keeps { s.tell [.got (some it.body)] with held := s.held.eraseIdx i } it
      exact ⟨this.2, Or.inl this.1⟩
    · exact ⟨fun _ h => h, Or.inl rfl⟩
  | retNone =>
    simp only [St.step, St.retNone]
    split
    · have := drain_keeps (s.tell [.got none]) true
      exact ⟨this.2, Or.inl this.1⟩
    · exact ⟨fun _ h => h, Or.inl rfl⟩
  | nextPanic =>
    simp only [St.step, St.nextPanic]
    split
    · have := fall_keeps s .crash
      exact ⟨by simp [St.crash, this.2], Or.inl this.1⟩
    · exact ⟨fun _ h => h, Or.inl rfl⟩
  | handleEnd r =>
    simp only [St.step, St.handleEnd]
    split
    · rename_i it rest fin hp
      generalize handleHow r (it.ask && !s.taken) = k
      have key : ∀ o, s.started ⊆ (((s.tell [.e .handle k]).settle it o).go rest fin).started ∧
          (((s.tell [.e .handle k]).settle it o).go rest fin).delegated = s.delegated := by
        intro o
        have := go_keeps ((s.tell [.e .handle k]).settle it o) rest fin
        simp only [settle_started, settle_delegated, tell_started, tell_delegated] at this
        exact ⟨this.2, this.1⟩
      split
      · exact ⟨(key _).1, Or.inl (key _).2⟩
      · exact ⟨(key _).1, Or.inl (key _).2⟩
      · simp [St.panicked]
    · exact ⟨fun _ h => h, Or.inl rfl⟩
  | linkEnd f =>
    simp only [St.step, St.linkEnd]
    split
    · split <;> exact ⟨fun _ h => h, Or.inl rfl⟩
    · exact ⟨fun _ h => h, Or.inl rfl⟩
  | panicEnd f =>
    simp only [St.step, St.panicEnd]
    split
    · split
      · have := fall_keeps s .crash
        exact ⟨by simp [St.crash, this.2], Or.inl this.1⟩
      · split <;> exact ⟨fun _ h => h, Or.inl rfl⟩
      · exact ⟨fun _ h => h, Or.inl rfl⟩
      · exact ⟨fun _ h => h, Or.inl rfl⟩
    · exact ⟨fun _ h => h, Or.inl rfl⟩
  | stopEnd r =>
    simp only [St.step, St.stopEnd]
    split
    · split
      · have := fall_keeps s .crash
        exact ⟨by simp [St.crash, this.2], Or.inl this.1⟩
      · exact ⟨fun _ h => h, Or.inl rfl⟩
    · exact ⟨fun _ h => h, Or.inl rfl⟩
  | kill => exact ⟨fun _ h => h, Or.inl rfl⟩
  | abort =>
    simp only [St.step, St.abort]
    split
    · split <;> simp [St.stop]
    · exact ⟨fun _ h => h, Or.inl rfl⟩
  | takeReply =>
    refine ⟨?_, Or.inr (Or.inl rfl)⟩
    simp only [St.step, St.takeReply]
    split
    · split <;> exact fun _ h => h
    · exact fun _ h => h
  | later x o =>
    refine ⟨?_, Or.inr (Or.inr ⟨x, o, rfl⟩)⟩
    simp only [St.step, St.later]; split <;> exact fun _ h => h
  | giveUp x => simp only [St.step, St.giveUp]; split <;> exact ⟨fun _ h => h, Or.inl rfl⟩
  | teardown =>
    simp only [St.step, St.teardown]
    have := fall_keeps s .torn
    split
    · exact ⟨fun _ h => h, Or.inl rfl⟩
    · exact ⟨fun _ h => h, Or.inl rfl⟩
    · exact ⟨by simp [this.2], Or.inl this.1⟩

theorem step_del (h : Well s) (hd : Del s) (op : Op) : Del (s.step op) := by
  have hk := step_keeps s op
  rcases hk.2 with e | rfl | ⟨x, o, rfl⟩
  · exact hd.same e hk.1
  · simp only [St.step, St.takeReply]
    split
    · rename_i it rest fin hp
      split
      · intro x hx
        rcases List.mem_append.mp hx with hx | hx
        · exact hd x hx
        · simp only [List.mem_singleton] at hx; subst hx
          exact List.mem_map_of_mem (h.cur it (by simp [hp, Phase.cur]))
      · exact hd
    · exact hd
  · simp only [St.step, St.later]
    split
    · intro y hy
      exact hd y (List.mem_filter.mp hy).1
    · exact hd

theorem well_del (ops : List Op) : Well (after ops) ∧ Del (after ops) := by
  unfold after
  have : ∀ (ops : List Op) (s : St), Well s → Del s → Well (ops.foldl St.step s) ∧ Del (ops.foldl St.step s) := by
    intro ops
    induction ops with
    | nil => intro s h hd; exact ⟨h, hd⟩
    | cons o os ih => intro s h hd; exact ih _ (step_well h hd o) (step_del h hd o)
  refine this ops {} ⟨?_, by simp [Phase.cur], rfl⟩ ?_
  · intro x o e
    simp at e
  · intro x hx; simp at hx

theorem well_after (ops : List Op) : Well (after ops) := (well_del ops).1

/-! ### The message whose handler runs has no outcome yet -/

/-- Has it an outcome, or is its reply sender taken, although the handler did not take it? -/
def NoOut (s : St) : Prop :=
  ∀ it, s.phase.cur = some it → s.taken = false → s.slot it.id = none ∧ it.id ∉ s.delegated

theorem del_free {ops : List Op} {x : Nat}
    (h : x ∈ (after ops).queue.map (·.id) ∨ x ∈ (after ops).held.map (·.id) ∨ x ∈ (after ops).buffer.map (·.id) ∨
      x ∈ (after ops).phase.rest.map (·.id)) : x ∉ (after ops).delegated := by
  intro e
  have hc := cnt_after ops x
  have hw := (well_del ops).2 x e
  have hpos : 1 ≤ ((after ops).queue.map (·.id)).count x + ((after ops).held.map (·.id)).count x +
      ((after ops).buffer.map (·.id)).count x + ((after ops).phase.rest.map (·.id)).count x := by
    rcases h with h | h | h | h <;> have := List.count_pos_iff.mpr h <;> omega
  have hpos2 := List.count_pos_iff.mpr hw
  simp only [St.cnt] at hc
  split at hc <;> omega

theorem slot_free {ops : List Op} {x : Nat}
    (h : x ∈ (after ops).queue.map (·.id) ∨ x ∈ (after ops).held.map (·.id) ∨ x ∈ (after ops).buffer.map (·.id) ∨
      x ∈ (after ops).phase.rest.map (·.id)) : (after ops).slot x = none := by
  cases e : (after ops).slot x with
  | none => rfl
  | some o =>
    exfalso
    have hc := cnt_after ops x
    have hw := (well_after ops).why x o e
    have hpos : 1 ≤ ((after ops).queue.map (·.id)).count x + ((after ops).held.map (·.id)).count x +
        ((after ops).buffer.map (·.id)).count x + ((after ops).phase.rest.map (·.id)).count x := by
      rcases h with h | h | h | h <;> have := List.count_pos_iff.mpr h <;> omega
    have hpos2 : 1 ≤ ((after ops).started.map (·.id)).count x + ((after ops).gone.map (·.id)).count x := by
      rcases hw with ⟨h, _⟩ | h <;> have := List.count_pos_iff.mpr h <;> omega
    simp only [St.cnt] at hc
    split at hc <;> omega

/-- The message whose handler runs is not waiting anywhere. -/
theorem cur_ne {ops : List Op} {it : Item} {x : Nat} (hc : (after ops).phase.cur = some it)
    (h : x ∈ (after ops).held.map (·.id) ∨ x ∈ (after ops).phase.rest.map (·.id)) : x ≠ it.id := by
  intro e
  have hs := List.count_pos_iff.mpr (List.mem_map_of_mem (f := (·.id)) ((well_after ops).cur it hc))
  rw [← e] at hs
  have hn := cnt_after ops x
  simp only [St.cnt] at hn
  rcases h with h | h <;> have := List.count_pos_iff.mpr h <;> split at hn <;> omega

theorem go_noOut {l : List Item} (h : ∀ it ∈ l, s.slot it.id = none ∧ it.id ∉ s.delegated) (fin : Bool) : NoOut (s.go l fin) := by
  cases l with
  | nil => cases fin <;> intro a ha <;> simp [St.go, Phase.cur, St.stop] at ha
  | cons it rest =>
    intro a ha _
    simp [St.go, Phase.cur] at ha
    subst ha
    exact h _ (by simp)

theorem drain_noOut (h : ∀ it ∈ s.buffer, s.slot it.id = none ∧ it.id ∉ s.delegated) (fin : Bool) : NoOut (s.drain fin) :=
  go_noOut (s := { s with finished := true, buffer := [] }) h fin

theorem noOut_of_cur (h : s.phase.cur = none) : NoOut s := by
  intro a ha; rw [h] at ha; simp at ha

theorem after_snoc (ops : List Op) (op : Op) : after (ops ++ [op]) = (after ops).step op := by
  simp [after]

theorem noOut_step {ops : List Op} (h : NoOut (after ops)) (op : Op) : NoOut ((after ops).step op) := by
  have hbuf : ∀ it ∈ (after ops).buffer, (after ops).slot it.id = none ∧ it.id ∉ (after ops).delegated :=
    fun it hi => ⟨slot_free (Or.inr (Or.inr (Or.inl (List.mem_map_of_mem hi)))),
      del_free (Or.inr (Or.inr (Or.inl (List.mem_map_of_mem hi))))⟩
  have hheld : ∀ it ∈ (after ops).held, (after ops).slot it.id = none ∧ it.id ∉ (after ops).delegated :=
    fun it hi => ⟨slot_free (Or.inr (Or.inl (List.mem_map_of_mem hi))), del_free (Or.inr (Or.inl (List.mem_map_of_mem hi)))⟩
  have hrest : ∀ it ∈ (after ops).phase.rest, (after ops).slot it.id = none ∧ it.id ∉ (after ops).delegated :=
    fun it hi => ⟨slot_free (Or.inr (Or.inr (Or.inr (List.mem_map_of_mem hi)))),
      del_free (Or.inr (Or.inr (Or.inr (List.mem_map_of_mem hi))))⟩
  have hne := @cur_ne ops
  generalize after ops = s at *
  cases op with
  | send b ask => simp only [St.step, St.push]; split <;> exact h
  | make b ask => simp only [St.step, St.make]; split <;> exact h
  | startEnd r full =>
    simp only [St.step, St.startEnd]
    generalize startHow r full = k
    split
    · cases full <;> cases r <;> simp only [St.enter, if_true, Bool.false_eq_true, if_false] <;> (try split) <;> first
        | exact noOut_of_cur rfl
        | exact drain_noOut (s := s.tell [.e .start k]) hbuf _
    · exact h
  | take n => simp only [St.step, St.take]; split <;> exact h
  | close => simp only [St.step, St.close]; split <;> exact h
  | spend i o =>
    simp only [St.step, St.spend]; split
    · rename_i it hi
      intro a ha ht
      have : it.id ≠ a.id := hne ha (Or.inl (List.mem_map_of_mem (List.mem_of_getElem? hi)))
      simp only [St.resolve]
      rw [if_neg (fun e => this e.1.symm)]
      exact h a ha ht
    · exact h
  | ret i =>
    simp only [St.step, St.ret]
    split
    · rename_i it hp hi
      have hit := hheld it (List.mem_of_getElem? hi)
      unfold St.dispatch
      split
      · split
        · exact noOut_of_cur (by rw [crash_phase]; rfl)
        · refine drain_noOut ?_ _
          exact hbuf
      · simp only []
        split
        · exact noOut_of_cur rfl
        · intro a ha _
          simp [Phase.cur] at ha
          subst ha; exact hit
      · exact noOut_of_cur rfl
      · refine drain_noOut ?_ _
        exact hbuf
    · exact h
  | retNone =>
    simp only [St.step, St.retNone]
    split
    · exact drain_noOut (s := s.tell [.got none]) hbuf _
    · exact h
  | nextPanic =>
    simp only [St.step, St.nextPanic]
    split
    · exact noOut_of_cur (by rw [crash_phase]; rfl)
    · exact h
  | handleEnd r =>
    simp only [St.step, St.handleEnd]
    split
    · rename_i it rest fin hp
      generalize handleHow r (it.ask && !s.taken) = k
      have hr : ∀ o, ∀ a ∈ rest, ((s.tell [.e .handle k]).settle it o).slot a.id = none ∧
          a.id ∉ ((s.tell [.e .handle k]).settle it o).delegated := by
        intro o a ha
        have h1 : a.id ≠ it.id := hne (by simp [hp, Phase.cur]) (Or.inr (by rw [hp]; exact List.mem_map_of_mem ha))
        have h2 := hrest a (by rw [hp]; exact ha)
        refine ⟨?_, by simpa using h2.2⟩
        unfold St.settle; split
        · exact h2.1
        simp only [St.resolve]
        rw [if_neg (fun e => h1 e.1)]
        exact h2.1
      split
      · exact go_noOut (hr _) _
      · exact go_noOut (hr _) _
      · exact noOut_of_cur rfl
    · exact h
  | linkEnd f =>
    simp only [St.step, St.linkEnd]
    generalize f.linkHow = k
    split
    · split <;> exact noOut_of_cur rfl
    · exact h
  | panicEnd f =>
    simp only [St.step, St.panicEnd]
    generalize f.panicHow = k
    split
    · split
      · exact noOut_of_cur (by rw [crash_phase]; rfl)
      · split <;> exact noOut_of_cur rfl
      · exact noOut_of_cur rfl
      · exact noOut_of_cur rfl
    · exact h
  | stopEnd r =>
    simp only [St.step, St.stopEnd]
    split
    · split
      · exact noOut_of_cur (by rw [crash_phase]; rfl)
      · exact noOut_of_cur rfl
    · exact h
  | kill => exact h
  | abort =>
    simp only [St.step, St.abort]
    split
    · split <;> exact noOut_of_cur rfl
    · exact h
  | takeReply =>
    simp only [St.step, St.takeReply]
    split
    · split
      · intro a ha ht; simp at ht
      · exact h
    · exact h
  | later x o =>
    simp only [St.step, St.later]
    split
    · rename_i hx
      intro a ha ht
      have := h a ha ht
      have hne : a.id ≠ x := fun e => this.2 (e ▸ hx)
      refine ⟨?_, fun e => this.2 (List.mem_filter.mp e).1⟩
      simp only [St.resolve]
      rw [if_neg (fun e => hne e.1)]
      exact this.1
    · exact h
  | giveUp x => simp only [St.step, St.giveUp]; split <;> exact h
  | teardown =>
    simp only [St.step, St.teardown]
    split
    · exact h
    · exact h
    · exact noOut_of_cur (by rw [fall_phase]; rfl)

theorem noOut_after (ops : List Op) : NoOut (after ops) := by
  have : ∀ (l : List Op) (ops : List Op), NoOut (after ops) → NoOut (after (ops ++ l)) := by
    intro l
    induction l with
    | nil => intro ops h; simpa using h
    | cons o os ih =>
      intro ops h
      have := ih (ops ++ [o]) (by rw [after_snoc]; exact noOut_step h o)
      simpa using this
  simpa using this ops [] (noOut_of_cur rfl)

end Verif.Next
