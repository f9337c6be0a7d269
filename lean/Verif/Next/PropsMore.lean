import Verif.Next.PropsBad

/-!
An actor with a `next` of its own: reply senders that a handler took, askers that give up, and a kill while `on_start` runs.
-/

set_option linter.unusedSimpArgs false
set_option linter.unusedVariables false

namespace Verif.Next

/-! ### Which step gives an outcome -/

/-- Is it somewhere in the actor or in its mailbox? -/
def St.waits (s : St) (x : Nat) : Prop :=
  x ∈ s.queue.map (·.id) ∨ x ∈ s.held.map (·.id) ∨ x ∈ s.buffer.map (·.id) ∨ x ∈ s.phase.rest.map (·.id)

theorem drop_slot_ne {s : St} {l : List Item} {x : Nat} (h : x ∉ l.map (·.id)) : (s.drop l).slot x = s.slot x := by
  simp only [St.drop]; rw [if_neg (fun e => h e.1)]

theorem resolve_slot_ne {s : St} {x y : Nat} {o : Out} (h : x ≠ y) : (s.resolve y o).slot x = s.slot x := by
  simp only [St.resolve]; rw [if_neg (fun e => h e.1)]

theorem settle_slot_ne {s : St} {it : Item} {x : Nat} {o : Out} (h : it.id = x → s.taken = true) :
    (s.settle it o).slot x = s.slot x := by
  unfold St.settle
  split
  · rfl
  · rename_i ht
    exact resolve_slot_ne (fun e => ht (h e.symm))

theorem stop_slot_ne {s : St} {r : Reason} {x : Nat} (h : x ∉ s.buffer.map (·.id)) : (s.stop r).slot x = s.slot x := by
  simp only [St.stop, tell_slot]; exact drop_slot_ne h

theorem go_slot_ne {s : St} {l : List Item} {fin : Bool} {x : Nat} (h : x ∉ s.buffer.map (·.id)) :
    (s.go l fin).slot x = s.slot x := by
  cases l with
  | nil => cases fin with
    | false => rfl
    | true => exact stop_slot_ne h
  | cons it rest => rfl

theorem drain_slot_ne {s : St} {fin : Bool} {x : Nat} : (s.drain fin).slot x = s.slot x :=
  go_slot_ne (s := { s with finished := true, buffer := [] }) (by simp)

theorem fall_slot_ne {s : St} {e : Ev} {x : Nat} (h : ¬ s.waits x)
    (hc : ∀ it, s.phase.cur = some it → it.id = x → s.taken = true) : (s.fall e).slot x = s.slot x := by
  simp only [St.waits, not_or] at h
  obtain ⟨h1, h2, h3, h4⟩ := h
  unfold St.fall
  cases hp : s.phase with
  | handling it rest fin =>
    rw [hp] at h4
    have hs : ((s.settle it .dropped).drop rest).slot x = s.slot x :=
      (drop_slot_ne h4).trans (settle_slot_ne (hc it (by simp [hp, Phase.cur])))
    simp only [tell_slot]
    rw [drop_slot_ne (by simpa using h3), drop_slot_ne (by simpa using h2), drop_slot_ne (by simpa using h1), hs]
  | _ =>
    simp only [tell_slot]
    rw [drop_slot_ne (by simpa using h3), drop_slot_ne (by simpa using h2), drop_slot_ne h1]

theorem push_slot (s : St) (b : Body) (a : Bool) : (s.push b a).slot = s.slot := by
  unfold St.push; split <;> rfl

theorem step_slot_ne {s : St} {op : Op} {x : Nat} (h : ¬ s.waits x)
    (hc : ∀ it, s.phase.cur = some it → it.id = x → s.taken = true) (hl : ∀ o, op ≠ .later x o) :
    (s.step op).slot x = s.slot x := by
  have hf := @fall_slot_ne s
  have hw := h
  simp only [St.waits, not_or] at h
  obtain ⟨h1, h2, h3, h4⟩ := h
  cases op with
  | send b ask => simp [St.step, push_slot]
  | make b ask => simp only [St.step, St.make]; split <;> rfl
  | startEnd r full =>
    simp only [St.step, St.startEnd]
    generalize startHow r full = k
    split
    · cases full <;> cases r <;> simp only [St.enter, if_true, Bool.false_eq_true, if_false] <;> (try split) <;>
        first | rfl | exact drain_slot_ne | simp [push_slot]
    · rfl
  | take n => simp only [St.step, St.take]; split <;> rfl
  | close => simp only [St.step, St.close]; split <;> rfl
  | spend i o =>
    simp only [St.step, St.spend]; split
    · rename_i it hi
      exact resolve_slot_ne (fun e => h2 (e ▸ List.mem_map_of_mem (List.mem_of_getElem? hi)))
    · rfl
  | ret i =>
    simp only [St.step, St.ret]
    split
    · rename_i it hp hi
      unfold St.dispatch
      split
      · split
        · refine (fall_slot_ne (s := { s.tell [.got (some it.body)] with held := s.held.eraseIdx i, gone := s.gone ++ [it] })
            ?_ ?_).trans rfl
          · simp only [St.waits, not_or]
            refine ⟨h1, ?_, h3, h4⟩
            intro hx
            obtain ⟨a, ha, rfl⟩ := List.mem_map.mp hx
            exact h2 (List.mem_map_of_mem (List.mem_of_mem_eraseIdx ha))
          · exact hc
        · exact drain_slot_ne
      · simp only []
        split <;> rfl
      · rfl
      · exact drain_slot_ne
    · rfl
  | retNone =>
    simp only [St.step, St.retNone]
    split
    · exact drain_slot_ne
    · rfl
  | nextPanic => simp only [St.step, St.nextPanic]; split <;> first | rfl | exact hf hw hc
  | handleEnd r =>
    simp only [St.step, St.handleEnd]
    split
    · rename_i it rest fin hp
      generalize handleHow r (it.ask && !s.taken) = k
      rw [hp, rest_handling] at h4
      have hs : ∀ o, ((s.tell [.e .handle k]).settle it o).slot x = s.slot x := fun o =>
        (settle_slot_ne (s := s.tell [.e .handle k]) (hc it (by simp [hp, Phase.cur]))).trans rfl
      split
      · exact (go_slot_ne (by simpa using h3)).trans (hs _)
      · exact (go_slot_ne (by simpa using h3)).trans (hs _)
      · simp only [St.panicked, tell_slot]; exact (drop_slot_ne h4).trans (hs _)
    · rfl
  | linkEnd f =>
    simp only [St.step, St.linkEnd]
    split
    · split
      · rfl
      · rfl
      · exact stop_slot_ne (by simpa using h3)
      · rfl
    · rfl
  | panicEnd f =>
    simp only [St.step, St.panicEnd]
    split
    · split
      · exact hf hw hc
      · split
        · exact stop_slot_ne (by simpa using h3)
        · rfl
      · exact stop_slot_ne (by simpa using h3)
      · exact stop_slot_ne (by simpa using h3)
    · rfl
  | stopEnd r =>
    simp only [St.step, St.stopEnd]
    split
    · split
      · exact hf hw hc
      · exact drop_slot_ne h1
    · rfl
  | kill => rfl
  | abort =>
    simp only [St.step, St.abort]
    split
    · split
      · rename_i it rest fin hp
        rw [hp, rest_handling] at h4
        refine (stop_slot_ne (by simpa using h3)).trans ((drop_slot_ne h4).trans ?_)
        exact (settle_slot_ne (s := s.tell [.abort]) (hc it (by simp [hp, Phase.cur]))).trans rfl
      · exact stop_slot_ne (by simpa using h3)
    · rfl
  | takeReply =>
    simp only [St.step, St.takeReply]
    split
    · split <;> rfl
    · rfl
  | later y o =>
    simp only [St.step, St.later]
    split
    · exact resolve_slot_ne (fun e => hl o (by rw [e]))
    · rfl
  | giveUp y => simp only [St.step, St.giveUp]; split <;> rfl
  | teardown =>
    simp only [St.step, St.teardown]
    split
    · rfl
    · rfl
    · exact hf hw hc

/-! ### A reply sender that a handler took -/

theorem del_step {ops : List Op} {op : Op} {x : Nat} (h : x ∈ (after ops).delegated) (hl : ∀ o, op ≠ .later x o) :
    x ∈ (after (ops ++ [op])).delegated := by
  rw [after_snoc]
  rcases (step_keeps (after ops) op).2 with e | rfl | ⟨y, o, rfl⟩
  · rw [e]; exact h
  · simp only [St.step, St.takeReply]
    split
    · split
      · exact List.mem_append.mpr (Or.inl h)
      · exact h
    · exact h
  · simp only [St.step, St.later]
    split
    · refine List.mem_filter.mpr ⟨h, ?_⟩
      have : x ≠ y := fun e => hl o (by rw [e])
      simpa using this
    · exact h

theorem del_slot_step {ops : List Op} {op : Op} {x : Nat} (h : x ∈ (after ops).delegated) (hl : ∀ o, op ≠ .later x o) :
    (after (ops ++ [op])).slot x = (after ops).slot x := by
  rw [after_snoc]
  refine step_slot_ne (fun e => del_free e h) ?_ hl
  intro it hc hi
  cases ht : (after ops).taken with
  | true => rfl
  | false => exact absurd (hi ▸ h) (noOut_after ops it hc ht).2

theorem del_none (ops : List Op) : ∀ x ∈ (after ops).delegated, (after ops).slot x = none := by
  have : ∀ (l ops : List Op), (∀ x ∈ (after ops).delegated, (after ops).slot x = none) →
      ∀ x ∈ (after (ops ++ l)).delegated, (after (ops ++ l)).slot x = none := by
    intro l
    induction l with
    | nil => intro ops h; simpa using h
    | cons o os ih =>
      intro ops h
      have := ih (ops ++ [o]) ?_
      · simpa using this
      intro x hx
      by_cases hd : x ∈ (after ops).delegated
      · by_cases hl : ∀ o', o ≠ .later x o'
        · rw [del_slot_step hd hl]; exact h x hd
        · obtain ⟨o', e⟩ := Classical.not_forall.mp hl
          rw [Classical.not_not] at e
          subst e
          rw [after_snoc] at hx
          simp only [St.step, St.later, hd, if_true] at hx
          have := (List.mem_filter.mp hx).2
          simp at this
      · rw [after_snoc] at hx ⊢
        rcases (step_keeps (after ops) o).2 with e | rfl | ⟨y, o', rfl⟩
        · rw [e] at hx; exact absurd hx hd
        · simp only [St.step, St.takeReply] at hx ⊢
          split at hx
          · rename_i it rest fin hp
            split at hx
            · rename_i hc
              rcases List.mem_append.mp hx with hx | hx
              · exact absurd hx hd
              · simp only [List.mem_singleton] at hx
                simp only [Bool.and_eq_true, Bool.not_eq_eq_eq_not, Bool.not_true] at hc
                subst hx
                rw [if_pos (by simp [hc])]
                exact (noOut_after ops it (by simp [hp, Phase.cur]) hc.2).1
            · exact absurd hx hd
          · exact absurd hx hd
        · simp only [St.step, St.later] at hx
          split at hx
          · exact absurd (List.mem_filter.mp hx).1 hd
          · exact absurd hx hd
  have h0 := this ops [] (by intro x hx; simp [after] at hx)
  simpa using h0

/-- **C76.** The handler of an ask may take the reply sender. From then on nothing but its user gives the outcome: not the end
of the handler, whatever it is; not a kill, nor the end of the actor or of its task. -/
theorem taken_reply_waits (ops more : List Op) (it : Item) (rest : List Item) (fin : Bool)
    (h : (after ops).phase = .handling it rest fin) (ha : it.ask = true) (ht : (after ops).taken = false)
    (hm : ∀ o, .later it.id o ∉ more) (o : Out) :
    (after (ops ++ .takeReply :: more)).slot it.id = none ∧
    (after (ops ++ .takeReply :: more ++ [.later it.id o])).slot it.id = some o := by
  have h0 : it.id ∈ (after (ops ++ [.takeReply])).delegated := by
    rw [after_snoc]
    simp [St.step, St.takeReply, h, ha, ht]
  have key : ∀ (l ops : List Op), it.id ∈ (after ops).delegated → (∀ o, .later it.id o ∉ l) →
      it.id ∈ (after (ops ++ l)).delegated := by
    intro l
    induction l with
    | nil => intro ops h _; simpa using h
    | cons a as ih =>
      intro ops h hm
      have := ih (ops ++ [a]) (del_step h (fun o e => hm o (by simp [e]))) (fun o hx => hm o (by simp [hx]))
      simpa using this
  have hd := key more (ops ++ [.takeReply]) h0 hm
  simp only [List.append_assoc, List.singleton_append] at hd
  have hn := del_none _ _ hd
  refine ⟨hn, ?_⟩
  rw [after_snoc]
  simp only [St.step, St.later, hd, if_true, St.resolve]
  simp [hn]

example : let ops : List Op := asked.take 7
    (after ops).phase = .handling ⟨1, .msg false, true⟩ [] false ∧ (after ops).taken = false ∧
    (after (ops ++ [.takeReply, .handleEnd .ok, .kill, .abort, .stopEnd .ok, .later 1 .value])).slot 1 = some .value ∧
    (after (ops ++ [.takeReply, .handleEnd .err, .panicEnd .cont])).slot 1 = none := by decide

/-- **C76.** A handler that took the reply sender of an ask and then fails is treated as one nobody asked: `on_panic` is
called. -/
theorem taken_error_panics (ops : List Op) (it : Item) (rest : List Item) (fin : Bool)
    (h : (after ops).phase = .handling it rest fin) (ha : it.ask = true) (ht : (after ops).taken = false) :
    (after (ops ++ [.takeReply, .handleEnd .err])).phase = .onPanic false ∧
    (after (ops ++ [.takeReply, .handleEnd .err])).log = (after ops).log ++ [.e .handle .fail, .b .panic] ∧
    .e .handle .ok ∈ (after (ops ++ [.handleEnd .err])).log := by
  have e : after (ops ++ [.takeReply, .handleEnd .err]) = ((after ops).step .takeReply).step (.handleEnd .err) := by
    simp [after]
  refine ⟨?_, ?_, ?_⟩
  · rw [e]; simp [St.step, St.takeReply, h, ha, ht, St.handleEnd, St.panicked]
  · rw [e]; simp [St.step, St.takeReply, h, ha, ht, St.handleEnd, St.panicked, handleHow]
  · rw [after_snoc]
    simp only [St.step, St.handleEnd, h, ha, ht, tell_taken, Bool.true_and, Bool.not_false, handleHow]
    cases rest with
    | nil => cases fin <;> simp [St.go, St.stop]
    | cons a as => simp [St.go]

example : (after (asked.take 7)).phase = .handling ⟨1, .msg false, true⟩ [] false := by decide

/-! ### Killed while `on_start` runs -/

/-- Was the actor killed before `on_start` ended: may the loop still be entered? -/
def Early (s : St) : Prop :=
  s.aborted = true ∧ (∀ h, .b h ∈ s.log → h = .start ∨ h = .panic ∨ h = .stop) ∧
  (match s.phase with
    | .next | .handling _ _ _ | .link | .onPanic false => False
    | _ => True)

theorem fall_aborted (s : St) (e : Ev) : (s.fall e).aborted = s.aborted := by
  unfold St.fall; cases e : s.phase <;> simp

theorem early_fall {s : St} (h : Early s) {e : Ev} (he : ∀ h, e ≠ .b h) : Early (s.fall e) := by
  refine ⟨by rw [fall_aborted]; exact h.1, ?_, by rw [fall_phase]; trivial⟩
  intro k hk
  rw [fall_log] at hk
  rcases List.mem_append.mp hk with hk | hk
  · exact h.2.1 k hk
  · simp only [List.mem_singleton] at hk; exact absurd hk.symm (he k)

theorem early_tell {s s' : St} (h : Early s) {l : List Ev} (h1 : s'.aborted = s.aborted) (h2 : s'.log = s.log ++ l)
    (hl : ∀ k, .b k ∈ l → k = .start ∨ k = .panic ∨ k = .stop)
    (hp : match s'.phase with
      | .next | .handling _ _ _ | .link | .onPanic false => False
      | _ => True) : Early s' := by
  refine ⟨by rw [h1]; exact h.1, ?_, hp⟩
  intro k hk
  rw [h2] at hk
  rcases List.mem_append.mp hk with hk | hk
  · exact h.2.1 k hk
  · exact hl k hk

theorem push_aborted (s : St) (b : Body) (a : Bool) : (s.push b a).aborted = s.aborted := by
  unfold St.push; split <;> rfl

theorem early_step {s : St} (h : Early s) (op : Op) : Early (s.step op) := by
  have hb := h.2.2
  cases op with
  | send b ask => exact early_tell (l := []) h (push_aborted ..) (by simp [St.step, push_log]) (by simp) (by simp [St.step, push_phase]; exact hb)
  | make b ask =>
    simp only [St.step, St.make]; split
    · exact h
    · exact h
  | startEnd r full =>
    simp only [St.step, St.startEnd]
    split
    · rename_i hp
      have ha := h.1
      cases full <;> cases r <;> simp only [St.enter, if_true, Bool.false_eq_true, if_false, push_aborted, tell_aborted, ha]
      · exact early_tell (l := [.e .start _]) h (by simp [push_aborted, ha]) (by simp [push_log]; rfl) (by simp) (by simp)
      · exact early_tell (l := [.e .start _, .b .panic]) h (by simp [push_aborted, ha]) (by simp [push_log]; rfl) (by simp) (by simp)
      · exact early_tell (l := [.e .start _, .b .panic]) h (by simp [push_aborted, ha]) (by simp [push_log]; rfl) (by simp) (by simp)
      · exact early_tell (l := [.e .start _]) h (by simp [ha]) (by simp; rfl) (by simp) (by simp)
      · exact early_tell (l := [.e .start _, .b .panic]) h (by simp [ha]) (by simp; rfl) (by simp) (by simp)
      · exact early_tell (l := [.e .start _, .b .panic]) h (by simp [ha]) (by simp; rfl) (by simp) (by simp)
    · exact h
  | take n =>
    simp only [St.step, St.take]; split
    · rename_i hp; rw [hp] at hb; exact hb.elim
    · exact h
  | close =>
    simp only [St.step, St.close]; split
    · rename_i hp; rw [hp] at hb; exact hb.elim
    · exact h
  | spend i o => simp only [St.step, St.spend]; split <;> exact h
  | ret i =>
    simp only [St.step, St.ret]; split
    · rename_i hp _; rw [hp] at hb; exact hb.elim
    · exact h
  | retNone =>
    simp only [St.step, St.retNone]; split
    · rename_i hp; rw [hp] at hb; exact hb.elim
    · exact h
  | nextPanic =>
    simp only [St.step, St.nextPanic]; split
    · rename_i hp; rw [hp] at hb; exact hb.elim
    · exact h
  | handleEnd r =>
    simp only [St.step, St.handleEnd]; split
    · rename_i hp; rw [hp] at hb; exact hb.elim
    · exact h
  | linkEnd f =>
    simp only [St.step, St.linkEnd]; split
    · rename_i hp; rw [hp] at hb; exact hb.elim
    · exact h
  | panicEnd f =>
    simp only [St.step, St.panicEnd]; split
    · rename_i st hp
      cases st with
      | false => rw [hp] at hb; exact hb.elim
      | true =>
        split
        · exact early_fall h (by simp)
        · exact early_tell (l := [.e .panic _, .b .stop]) h (by simp [St.stop]) (by simp [St.stop]; rfl) (by simp) (by simp [St.stop])
        · exact early_tell (l := [.e .panic _, .b .stop]) h (by simp [St.stop]) (by simp [St.stop]; rfl) (by simp) (by simp [St.stop])
        · exact early_tell (l := [.e .panic _, .b .stop]) h (by simp [St.stop]) (by simp [St.stop]; rfl) (by simp) (by simp [St.stop])
    · exact h
  | stopEnd r =>
    simp only [St.step, St.stopEnd]; split
    · split
      · exact early_fall h (by simp)
      · exact early_tell (l := [.e .stop .ok]) h (by simp) (by simp) (by simp) (by simp)
    · exact h
  | kill => exact ⟨rfl, h.2⟩
  | abort =>
    simp only [St.step, St.abort]; split
    · split
      · rename_i hp; rw [hp] at hb; exact hb.elim
      · exact early_tell (l := [.abort, .b .stop]) h (by simp [St.stop]) (by simp [St.stop]) (by simp) (by simp [St.stop])
    · exact h
  | takeReply =>
    simp only [St.step, St.takeReply]; split
    · rename_i hp; rw [hp] at hb; exact hb.elim
    · exact h
  | later x o => simp only [St.step, St.later]; split <;> exact h
  | giveUp x => simp only [St.step, St.giveUp]; split <;> exact h
  | teardown =>
    simp only [St.step, St.teardown]
    split
    · exact h
    · exact h
    · exact early_fall h (by simp)

theorem aborted_of_kill (ops : List Op) (h : .kill ∈ ops) : (after ops).aborted = true := by
  have key : ∀ (l : List Op) (s : St), s.aborted = true ∨ .kill ∈ l → (l.foldl St.step s).aborted = true := by
    intro l
    induction l with
    | nil => intro s h; simpa using h
    | cons o os ih =>
      intro s h
      rw [List.foldl_cons]
      refine ih _ ?_
      rcases h with h | h
      · left
        by_cases h1 : o = .kill
        · subst h1; rfl
        by_cases h2 : o = .abort
        · subst h2; exact (abort_aborted s).trans h
        exact (step_quiet s o h1 h2).1.trans h
      · rcases List.mem_cons.mp h with h | h
        · subst h; exact Or.inl rfl
        · exact Or.inr h
  exact key ops {} (Or.inr h)

theorem starting_of_log (ops : List Op) (h : (after ops).log = [.b .start]) : (after ops).phase = .starting := by
  obtain ⟨q, hq, hm⟩ := seen_after ops
  rw [h] at hq
  simp [reads, Rd.read, Rd.due] at hq
  subst hq
  simp only [Match] at hm
  cases hp : (after ops).phase with
  | onPanic st => rw [hp] at hm; simp [Phase.hook] at hm
  | starting => rfl
  | _ => rw [hp] at hm; simp [Phase.hook] at hm

/-- **C76.** An actor that was killed while its `on_start` ran never gets to its `next`, nor to a handler or `on_link_died`,
whatever waits in the mailbox: `on_start` is let come to its end, and if that is a good one, the abort is the next thing that
happens to the task, and then `on_stop`. -/
theorem killed_before_start (ops more : List Op) (hl : (after ops).log = [.b .start]) (hk : .kill ∈ ops) :
    (∀ h, .b h ∈ (after (ops ++ more)).log → h = .start ∨ h = .panic ∨ h = .stop) ∧
    (∀ full, (after (ops ++ [.startEnd .ok full, .abort])).phase = .stopping .killed ∧
      (after (ops ++ [.startEnd .ok full, .abort])).log =
        [.b .start, .e .start (if full then .full else .ok), .abort, .b .stop]) := by
  have hp := starting_of_log ops hl
  have ha := aborted_of_kill ops hk
  refine ⟨?_, ?_⟩
  · have h0 : Early (after ops) := by
      refine ⟨ha, ?_, by rw [hp]; trivial⟩
      intro k hk; rw [hl] at hk; simp at hk; exact Or.inl hk
    have key : ∀ (l : List Op) (s : St), Early s → Early (l.foldl St.step s) := by
      intro l
      induction l with
      | nil => intro s h; exact h
      | cons o os ih => intro s h; exact ih _ (early_step h o)
    have := key more _ h0
    intro k hk
    exact this.2.1 k (by simpa [after] using hk)
  · intro full
    have e : after (ops ++ [.startEnd .ok full, .abort]) = ((after ops).step (.startEnd .ok full)).step .abort := by
      simp [after]
    rw [e]
    cases full <;>
      simp [St.step, St.startEnd, hp, St.enter, ha, push_aborted, St.abort, Phase.abortable, St.stop, push_log, hl, startHow]

example : (after [.send (.msg false) true, .kill]).log = [.b .start] ∧
    (after [.send (.msg false) true, .kill, .startEnd .ok false, .take 1, .ret 0, .abort, .stopEnd .ok]).log =
      [.b .start, .e .start .ok, .abort, .b .stop, .e .stop .ok] ∧
    (after [.send (.msg false) true, .kill, .startEnd .ok false, .take 1, .ret 0, .abort, .stopEnd .ok]).slot 0 =
      some .dropped := by decide

/-! ### One who asked waits no more -/

/-- The same but for who gave up. -/
def St.ups (s : St) (g : List Nat) : St := { s with gaveUp := g }

theorem go_ups (s : St) (l : List Item) (fin : Bool) (g : List Nat) : (s.ups g).go l fin = (s.go l fin).ups g := by
  cases l <;> cases fin <;> rfl

theorem drain_ups (s : St) (fin : Bool) (g : List Nat) : (s.ups g).drain fin = (s.drain fin).ups g :=
  go_ups { s with finished := true, buffer := [] } _ _ _

theorem settle_ups (s : St) (it : Item) (o : Out) (g : List Nat) : (s.ups g).settle it o = (s.settle it o).ups g := by
  have : (s.ups g).taken = s.taken := rfl
  unfold St.settle; rw [this]; by_cases h : s.taken = true <;> simp only [h, if_true, if_false, Bool.false_eq_true] <;> rfl

theorem push_ups (s : St) (b : Body) (a : Bool) (g : List Nat) : (s.ups g).push b a = (s.push b a).ups g := by
  have : (s.ups g).closed = s.closed := rfl
  unfold St.push; rw [this]; by_cases h : s.closed = true <;> simp only [h, if_true, if_false, Bool.false_eq_true] <;> rfl

theorem fall_ups (s : St) (e : Ev) (g : List Nat) : (s.ups g).fall e = (s.fall e).ups g := by
  unfold St.fall
  have : (s.ups g).phase = s.phase := rfl
  rw [this]
  cases hp : s.phase with
  | handling it rest fin => simp only [settle_ups]; rfl
  | _ => rfl

theorem enter_ups (s : St) (full : Bool) (g : List Nat) : (s.ups g).enter full = (s.enter full).ups g := by
  unfold St.enter
  have : (s.ups g).aborted = s.aborted := rfl
  rw [this]
  split
  · rfl
  · split
    · exact drain_ups ..
    · rfl

theorem dispatch_ups (s : St) (it : Item) (g : List Nat) : (s.ups g).dispatch it = (s.dispatch it).ups g := by
  have h1 : (s.ups g).permits = s.permits := rfl
  have h2 : ∀ within : Bool, (!within && !({ s.ups g with returned := (s.ups g).returned ++ [it] } : St).finished) =
    (!within && !({ s with returned := s.returned ++ [it] } : St).finished) := fun _ => rfl
  unfold St.dispatch
  split
  · rw [h1]
    by_cases h : s.permits = true
    · simp only [h, if_true]
      exact fall_ups { s with gone := s.gone ++ [it], permits := true } .crash g
    · simp only [h, if_false, Bool.false_eq_true]
      exact drain_ups { s with gone := s.gone ++ [it], permits := true } _ g
  · rename_i within _
    simp only [h2]
    by_cases h : (!within && !s.finished) = true <;> simp only [h, if_true, if_false, Bool.false_eq_true] <;> rfl
  · rfl
  · exact drain_ups { s with gone := s.gone ++ [it] } _ g

theorem step_ups (s : St) (op : Op) (g : List Nat) (h : ∀ x, op ≠ .giveUp x) : (s.ups g).step op = (s.step op).ups g := by
  have hp : (s.ups g).phase = s.phase := rfl
  cases op with
  | send b a => exact push_ups ..
  | startEnd r full =>
    simp only [St.step, St.startEnd, hp]
    split
    · have ht : (s.ups g).tell [.e .start (startHow r full)] = (s.tell [.e .start (startHow r full)]).ups g := rfl
      rw [ht]
      cases full with
      | true => cases r with
        | ok => exact enter_ups ..
        | _ => rfl
      | false => cases r with
        | ok => simp only [Bool.false_eq_true, if_false, push_ups]; exact enter_ups ..
        | _ => simp only [Bool.false_eq_true, if_false, push_ups]; rfl
    · rfl
  | take n => simp only [St.step, St.take, hp]; split <;> rfl
  | close => simp only [St.step, St.close, hp]; split <;> rfl
  | make b a => simp only [St.step, St.make, hp]; split <;> rfl
  | spend i o =>
    have hh : (s.ups g).held = s.held := rfl
    simp only [St.step, St.spend, hh]; split <;> rfl
  | ret i =>
    have hh : (s.ups g).held = s.held := rfl
    simp only [St.step, St.ret, hp, hh]
    split
    · exact dispatch_ups { s.tell _ with held := _ } _ g
    · rfl
  | retNone =>
    simp only [St.step, St.retNone, hp]
    split
    · exact drain_ups (s.tell _) _ g
    · rfl
  | nextPanic => simp only [St.step, St.nextPanic, hp]; split <;> first | rfl | exact fall_ups ..
  | handleEnd r =>
    have hh : (s.ups g).taken = s.taken := rfl
    simp only [St.step, St.handleEnd, hp, hh]
    split
    · rename_i it rest fin _
      generalize handleHow r (it.ask && !s.taken) = k
      have ht : (s.ups g).tell [.e .handle k] = (s.tell [.e .handle k]).ups g := rfl
      have hh2 : ((s.tell [.e .handle k]).ups g).taken = s.taken := rfl
      simp only [ht, settle_ups, hh2, tell_taken]
      split
      · exact go_ups ..
      · exact go_ups ..
      · rfl
    · rfl
  | linkEnd f => simp only [St.step, St.linkEnd, hp]; split <;> first | rfl | (split <;> rfl)
  | panicEnd f =>
    simp only [St.step, St.panicEnd, hp]
    split
    · split
      · exact fall_ups ..
      · split <;> rfl
      · rfl
      · rfl
    · rfl
  | stopEnd r =>
    simp only [St.step, St.stopEnd, hp]
    split
    · split
      · exact fall_ups ..
      · rfl
    · rfl
  | kill => rfl
  | abort =>
    have hh : (s.ups g).aborted = s.aborted := rfl
    simp only [St.step, St.abort, hp, hh]
    split
    · split
      · have ht : (s.ups g).tell [.abort] = (s.tell [.abort]).ups g := rfl
        simp only [ht, settle_ups]; rfl
      · rfl
    · rfl
  | takeReply =>
    have hh : (s.ups g).taken = s.taken := rfl
    simp only [St.step, St.takeReply, hp, hh]
    split
    · split <;> rfl
    · rfl
  | later x o =>
    have hh : (s.ups g).delegated = s.delegated := rfl
    simp only [St.step, St.later, hh]; split <;> rfl
  | giveUp x => exact absurd rfl (h x)
  | teardown =>
    simp only [St.step, St.teardown, hp]
    split
    · rfl
    · rfl
    · exact fall_ups ..

/-- Leave out who gives up. -/
def calmOps (ops : List Op) : List Op := ops.filter fun o => match o with | .giveUp _ => false | _ => true

/-- **C76.** That someone who asked waits no more — a reply time-out, a dropped future — makes no difference to the actor: its
functions are called as if they waited, and everyone's outcome is the same. -/
theorem give_up_harmless (ops : List Op) :
    after ops = { after (calmOps ops) with gaveUp := (after ops).gaveUp } := by
  have key : ∀ (l : List Op) (s t : St) (g : List Nat), s = t.ups g →
      ∃ g', l.foldl St.step s = ((calmOps l).foldl St.step t).ups g' := by
    intro l
    induction l with
    | nil => intro s t g h; exact ⟨g, h⟩
    | cons o os ih =>
      intro s t g h
      by_cases ho : ∀ x, o ≠ .giveUp x
      · have : calmOps (o :: os) = o :: calmOps os := by
          cases o <;> first | rfl | exact absurd rfl (ho _)
        rw [this, List.foldl_cons, List.foldl_cons]
        exact ih _ _ g (by rw [h]; exact step_ups t o g ho)
      · obtain ⟨x, hx⟩ := Classical.not_forall.mp ho
        rw [Classical.not_not] at hx
        subst hx
        rw [List.foldl_cons]
        have e : ∃ g', s.step (.giveUp x) = t.ups g' := by
          rw [h]
          simp only [St.step, St.giveUp]
          split
          · exact ⟨_, rfl⟩
          · exact ⟨g, rfl⟩
        obtain ⟨g', e⟩ := e
        exact ih _ t g' e
  obtain ⟨g', e⟩ := key ops {} {} [] rfl
  have : (after ops).gaveUp = g' := by unfold after; rw [e]; rfl
  rw [this]; exact e

example : let ops : List Op := asked.take 7 ++ .giveUp 1 :: asked.drop 7
    (after ops).gaveUp = [1] ∧ (after ops).slot 1 = some .value ∧ calmOps ops = asked := by decide

end Verif.Next
