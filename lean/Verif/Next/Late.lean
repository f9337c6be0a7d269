import Verif.Next.Slots

/-! Invariants of `Verif.Next`: what `next` returned is handled; what is held back until the start-up is finished. -/

set_option linter.unusedSimpArgs false
set_option linter.unusedVariables false

namespace Verif.Next

variable {s : St}

/-- Was a function of the last resort called, or did the task panic, or was it torn down? -/
def Bad (l : List Ev) : Prop := .b .panic ∈ l ∨ .b .stop ∈ l ∨ .crash ∈ l ∨ .torn ∈ l

theorem Bad.more {l : List Ev} (h : Bad l) (m : List Ev) : Bad (l ++ m) := by
  simp only [Bad, List.mem_append] at h ⊢
  rcases h with h | h | h | h <;> simp [h]

/-- The invariant, with the rest of the buffer that is being gone through. -/
structure Late (s : St) (rest : List Item) : Prop where
  kept : Bad s.log ∨ ∀ it ∈ s.returned, it ∈ s.started ∨ it ∈ s.buffer ∨ it ∈ rest
  early : s.finished = false → ∀ it ∈ s.started, it.body = .msg true

theorem Late.same {s' : St} {rest : List Item} (h : Late s rest) {m : List Ev} (h1 : s'.log = s.log ++ m)
    (h2 : s'.returned = s.returned := by rfl) (h3 : s'.started = s.started := by rfl) (h4 : s'.buffer = s.buffer := by rfl)
    (h5 : s'.finished = s.finished := by rfl) : Late s' rest := by
  refine ⟨?_, ?_⟩
  · rw [h1, h2, h3, h4]
    exact h.kept.imp (fun e => e.more m) id
  · rw [h3, h5]; exact h.early

theorem stop_late {rest : List Item} (h : Late s rest) (r : Reason) : Late (s.stop r) [] :=
  ⟨Or.inl (by simp [Bad, St.stop]), h.early⟩

theorem fall_late {rest : List Item} (h : Late s rest) {ev : Ev} (he : ev = .crash ∨ ev = .torn) : Late (s.fall ev) [] := by
  have e2 : (s.fall ev).finished = s.finished := by unfold St.fall; cases e : s.phase <;> simp
  refine ⟨Or.inl (by rcases he with rfl | rfl <;> simp [Bad, fall_log]), ?_⟩
  rw [e2, (fall_keeps s ev).2]; exact h.early

theorem crash_late {rest : List Item} (h : Late s rest) : Late s.crash [] := fall_late h (Or.inl rfl)

theorem go_late {l : List Item} (h : Late s l) (hf : l ≠ [] → s.finished = true) (fin : Bool) :
    Late (s.go l fin) (s.go l fin).phase.rest := by
  cases l with
  | nil =>
    cases fin with
    | false => exact h.same (m := [.b .next]) rfl
    | true => exact stop_late h _
  | cons it rest =>
    refine ⟨?_, ?_⟩
    · rcases h.kept with hb | hk
      · exact Or.inl (hb.more [.b .handle])
      · right
        intro a ha
        simp only [St.go, tell_started, tell_buffer, rest_handling, List.mem_append, List.mem_singleton]
        rcases hk a ha with e | e | e
        · exact Or.inl (Or.inl e)
        · exact Or.inr (Or.inl e)
        · rcases List.mem_cons.mp e with e | e
          · exact Or.inl (Or.inr e)
          · exact Or.inr (Or.inr e)
    · intro e; simp [St.go, hf (by simp)] at e

theorem drain_late (h : Late s []) (fin : Bool) : Late (s.drain fin) (s.drain fin).phase.rest := by
  refine go_late (s := { s with finished := true, buffer := [] }) ⟨?_, ?_⟩ (fun _ => rfl) fin
  · rcases h.kept with hb | hk
    · exact Or.inl hb
    · right; intro a ha
      rcases hk a ha with e | e | e
      · exact Or.inl e
      · exact Or.inr (Or.inr e)
      · simp at e
  · intro e; simp at e

theorem dispatch_late (h : Late s []) (it : Item) : Late (s.dispatch it) (s.dispatch it).phase.rest := by
  have hg : Late { s with gone := s.gone ++ [it] } [] := ⟨h.kept, h.early⟩
  unfold St.dispatch
  split
  · split
    · rw [crash_phase]; exact crash_late hg
    · exact drain_late (s := { s with gone := s.gone ++ [it], permits := true }) ⟨h.kept, h.early⟩ _
  · rename_i within hb
    simp only []
    split
    · refine ⟨?_, h.early⟩
      rcases h.kept with hb | hk
      · exact Or.inl (hb.more [.b .next])
      · right; intro a ha
        simp only [tell_returned, List.mem_append, List.mem_singleton] at ha
        simp only [tell_started, tell_buffer, List.mem_append, List.mem_singleton]
        rcases ha with ha | ha
        · rcases hk a ha with e | e | e
          · exact Or.inl e
          · exact Or.inr (Or.inl (Or.inl e))
          · simp at e
        · exact Or.inr (Or.inl (Or.inr ha))
    · rename_i hw
      refine ⟨?_, ?_⟩
      · rcases h.kept with hb | hk
        · exact Or.inl (hb.more [.b .handle])
        · right; intro a ha
          simp only [tell_returned, List.mem_append, List.mem_singleton] at ha
          simp only [tell_started, tell_buffer, List.mem_append, List.mem_singleton]
          rcases ha with ha | ha
          · rcases hk a ha with e | e | e
            · exact Or.inl (Or.inl e)
            · exact Or.inr (Or.inl e)
            · simp at e
          · exact Or.inl (Or.inr ha)
      · intro e a ha
        simp only [tell_started, List.mem_append, List.mem_singleton] at ha
        rcases ha with ha | ha
        · exact h.early e a ha
        · have e' : s.finished = false := e
          simp [e'] at hw
          rw [ha, hb, hw]
  · exact hg.same (m := [.b .link]) rfl
  · exact drain_late hg _

theorem step_late (h : Late s s.phase.rest) (hok : Ok s) (op : Op) : Late (s.step op) (s.step op).phase.rest := by
  cases op with
  | send b ask =>
    simp only [St.step, push_phase]
    refine h.same (m := []) (by simp [push_log]) ?_ ?_ ?_ ?_ <;> unfold St.push <;> split <;> rfl
  | make b ask =>
    simp only [St.step, make_phase]
    refine h.same (m := []) (by simp [make_log]) ?_ ?_ ?_ ?_ <;> unfold St.make <;> split <;> rfl
  | startEnd r full =>
    simp only [St.step, St.startEnd]
    generalize startHow r full = k
    split
    · rename_i hp
      rw [hp] at h
      have h1 : Late (s.tell [.e .start k]) [] := h.same rfl
      have h2 : Late ((s.tell [.e .start k]).push .startup false) [] := by
        refine h1.same (m := []) (by simp [push_log]) ?_ ?_ ?_ ?_ <;> unfold St.push <;> split <;> rfl
      cases full with
      | true =>
        cases r with
        | ok =>
          simp only [St.enter, if_true]; split
          · exact ⟨h1.kept, fun e => by simp at e⟩
          · exact drain_late h1 _
        | err => exact h1.same (m := [.b .panic]) rfl
        | panic => exact h1.same (m := [.b .panic]) rfl
      | false =>
        cases r with
        | ok =>
          simp only [St.enter, Bool.false_eq_true, if_false]; split
          · exact ⟨h2.kept, fun e => h2.early (by simpa using e)⟩
          · exact h2.same (m := [.b .next]) rfl
        | err => exact h2.same (m := [.b .panic]) rfl
        | panic => exact h2.same (m := [.b .panic]) rfl
    · exact h
  | take n =>
    simp only [St.step, St.take]; split
    · exact h.same (m := []) (by simp)
    · exact h
  | close =>
    simp only [St.step, St.close]; split
    · exact h.same (m := []) (by simp)
    · exact h
  | spend i o =>
    simp only [St.step, St.spend]; split
    · exact h.same (m := []) (by simp)
    · exact h
  | ret i =>
    simp only [St.step, St.ret]
    split
    · rename_i it hp hi
      rw [hp] at h
      exact dispatch_late (h.same rfl) it
    · exact h
  | retNone =>
    simp only [St.step, St.retNone]
    split
    · rename_i hp
      rw [hp] at h
      exact drain_late (h.same rfl) _
    · exact h
  | nextPanic =>
    simp only [St.step, St.nextPanic]
    split
    · rw [crash_phase]; exact crash_late h
    · exact h
  | handleEnd r =>
    simp only [St.step, St.handleEnd]
    split
    · rename_i it rest fin hp
      generalize handleHow r (it.ask && !s.taken) = k
      rw [hp, rest_handling] at h
      have hr : rest ≠ [] → s.finished = true := by
        have := hok.core.restFin; rw [hp] at this; exact this
      split
      · exact go_late (s := (s.tell [.e .handle k]).settle it .value) (h.same (m := [.e .handle k]) (by simp) (by simp) (by simp) (by simp) (by simp)) (by simpa using hr) _
      · exact go_late (s := (s.tell [.e .handle k]).settle it .err) (h.same (m := [.e .handle k]) (by simp) (by simp) (by simp) (by simp) (by simp)) (by simpa using hr) _
      · exact ⟨Or.inl (by simp [Bad, St.panicked]), by simpa [St.panicked] using h.early⟩
    · exact h
  | linkEnd f =>
    simp only [St.step, St.linkEnd]
    generalize f.linkHow = k
    split
    · rename_i hp
      rw [hp] at h
      split
      · exact h.same (m := [.e .link k, .b .next]) (by simp)
      · exact h.same (m := [.e .link k, .b .panic]) (by simp [St.panicked])
      · exact stop_late (h.same (m := [_]) rfl) _
      · exact h.same (m := [.e .link k, .b .panic]) (by simp [St.panicked])
    · exact h
  | panicEnd f =>
    simp only [St.step, St.panicEnd]
    generalize f.panicHow = k
    split
    · rename_i st hp
      split
      · rw [crash_phase]; exact crash_late h
      all_goals rw [hp] at h
      · split
        · exact stop_late (h.same (m := [_]) rfl) _
        · exact h.same (m := [.e .panic k, .b .next]) (by simp)
      · exact stop_late (h.same (m := [_]) rfl) _
      · exact stop_late (h.same (m := [_]) rfl) _
    · exact h
  | stopEnd r =>
    simp only [St.step, St.stopEnd]
    split
    · rename_i q hp
      split
      · rw [crash_phase]; exact crash_late h
      · rw [hp] at h
        exact h.same (m := [_]) rfl
    · exact h
  | kill => exact h.same (m := []) (by simp [St.step, St.kill])
  | abort =>
    simp only [St.step, St.abort]
    split
    · split
      · rename_i it rest fin hp
        exact stop_late (s := ((s.tell [.abort]).settle it .dropped).drop rest)
          (h.same (m := [.abort]) (by simp) (by simp) (by simp) (by simp) (by simp)) _
      · exact stop_late (s := s.tell [.abort]) (h.same (m := [.abort]) rfl) _
    · exact h
  | takeReply =>
    simp only [St.step, St.takeReply]; split
    · split
      · exact h.same (m := []) (by simp)
      · exact h
    · exact h
  | later x o => simp only [St.step, St.later]; split <;> first | exact h | exact h.same (m := []) (by simp)
  | giveUp x => simp only [St.step, St.giveUp]; split <;> first | exact h | exact h.same (m := []) (by simp)
  | teardown =>
    simp only [St.step, St.teardown]
    split
    · exact h
    · exact h
    · rw [fall_phase]; exact fall_late h (Or.inr rfl)

theorem late_after (ops : List Op) : Late (after ops) (after ops).phase.rest := by
  have : ∀ (l : List Op) (ops : List Op), Late (after ops) (after ops).phase.rest →
      Late (after (ops ++ l)) (after (ops ++ l)).phase.rest := by
    intro l
    induction l with
    | nil => intro ops h; simpa using h
    | cons o os ih =>
      intro ops h
      have := ih (ops ++ [o]) (by rw [after_snoc]; exact step_late h (ok_after ops) o)
      simpa using this
  simpa using this ops [] ⟨Or.inr (by intro it hi; simp [after] at hi), by intro _ it hi; simp [after] at hi⟩

/-! ### After the end -/

/-- Once over, nothing more happens. -/
theorem over_step (h : (∃ r, s.phase = .stopped r) ∨ s.phase = .crashed) (op : Op) :
    (s.step op).phase = s.phase ∧ (s.step op).log = s.log := by
  rcases h with ⟨r, h⟩ | h
  all_goals
    cases op <;> simp only [St.step, St.startEnd, St.take, St.close, St.ret, St.retNone, St.nextPanic, St.handleEnd,
      St.linkEnd, St.panicEnd, St.stopEnd, St.kill, St.abort, h, push_phase, push_log, make_phase, make_log,
      Phase.abortable, Bool.and_false, Bool.false_eq_true, if_false, and_self]
    case spend => unfold St.spend; split <;> simp [h]
    case takeReply => simp [St.takeReply, h]
    case later => unfold St.later; split <;> simp [h]
    case giveUp => unfold St.giveUp; split <;> simp [h]
    case teardown => simp [St.teardown, h]

theorem over_steps (h : (∃ r, s.phase = .stopped r) ∨ s.phase = .crashed) (ops : List Op) :
    (ops.foldl St.step s).phase = s.phase ∧ (ops.foldl St.step s).log = s.log := by
  induction ops generalizing s with
  | nil => exact ⟨rfl, rfl⟩
  | cons o os ih =>
    have h1 := over_step h o
    have h2 := ih (s := s.step o) (by rw [h1.1]; exact h)
    exact ⟨h2.1.trans h1.1, h2.2.trans h1.2⟩

end Verif.Next
