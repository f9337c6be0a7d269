import Verif.Next.Props

/-!
What an actor with a `next` of its own cannot rely on: a panic in `next` is caught by nobody, `StartupFinished` must be
returned once, the receiver must not be closed, and signals must not be kept beyond the end.
-/

set_option linter.unusedSimpArgs false
set_option linter.unusedVariables false

namespace Verif.Next

/-! ### Panics -/

/-- **C76, not what the documentation of `on_panic` says** ("Called when the actor encounters a panic or an error during
message handling"; `on_stop`: "Called before the actor stops"): a panic in `next` goes through the task. Neither `on_panic`
nor `on_stop` is called, then or later; the links hear nothing, as they are notified beside `on_stop`. -/
theorem next_panic_no_hooks (ops more : List Op) (h : (after ops).phase = .next) :
    (after (ops ++ .nextPanic :: more)).phase = .crashed ∧
    (after (ops ++ .nextPanic :: more)).log = (after ops).log ++ [.crash] ∧
    .b .stop ∉ (after (ops ++ .nextPanic :: more)).log := by
  have e : after (ops ++ .nextPanic :: more) = more.foldl St.step ((after ops).step .nextPanic) := by simp [after]
  have e1 : (after ops).step .nextPanic = (after ops).crash := by simp [St.step, St.nextPanic, h]
  have ho := over_steps (s := (after ops).crash) (Or.inr (crash_phase _)) more
  rw [e, e1]
  refine ⟨by rw [ho.1, crash_phase], by rw [ho.2, crash_log], ?_⟩
  rw [ho.2, crash_log]
  obtain ⟨q, hq, hm⟩ := seen_after ops
  have hm := (match_next hm h).1
  have := ((reads_count _ _ _ hq).2.2 (by simp [hm])).1
  simp only [At.stopped, hm] at this
  simp only [List.mem_append, List.mem_singleton, not_or]
  exact ⟨List.count_eq_zero.mp (by omega), by simp⟩

example : (after [.startEnd .ok false]).phase = .next := by decide

/-- In contrast: a panic in a handler. -/
example : (after [.startEnd .ok false, .make (.msg true) false, .ret 0, .handleEnd .panic, .panicEnd (.brk .panicked),
    .stopEnd .ok]).log = [.b .start, .e .start .ok, .b .next, .got (some (.msg true)), .b .handle, .e .handle .fail, .b .panic,
    .e .panic .leave, .b .stop, .e .stop .ok] := by decide

/-- **C76, not so.** A `next` that returns `StartupFinished` a second time — it can make one, or keep the one it was
given — panics the task: `Semaphore::add_permits` beyond `MAX_PERMITS` (`src/actor/spawn.rs` L630). -/
theorem second_startup_crashes (ops more : List Op) (i : Nat) (it : Item) (h : (after ops).phase = .next)
    (hp : (after ops).permits = true) (hi : (after ops).held[i]? = some it) (hb : it.body = .startup) :
    (after (ops ++ .ret i :: more)).phase = .crashed := by
  have e : after (ops ++ .ret i :: more) = more.foldl St.step ((after ops).step (.ret i)) := by simp [after]
  have e1 : ((after ops).step (.ret i)).phase = .crashed := by
    simp [St.step, St.ret, h, hi, St.dispatch, hb, hp, crash_phase]
  rw [e, (over_steps (Or.inr e1) more).1, e1]

example : let ops : List Op := [.startEnd .ok false, .take 1, .ret 0, .make .startup false]
    (after ops).phase = .next ∧ (after ops).permits = true ∧ (after ops).held[0]? = some ⟨1, .startup, false⟩ := by decide

theorem go_not_crashed (s : St) (l : List Item) (fin : Bool) : (s.go l fin).phase ≠ .crashed := by
  cases l <;> cases fin <;> simp [St.go, St.stop]

/-- What makes the task panic in this state, or ends it from outside. -/
def St.fatal (s : St) : Op → Prop
  | .nextPanic => s.phase = .next
  | .ret i => s.phase = .next ∧ s.permits = true ∧ ∃ it, s.held[i]? = some it ∧ it.body = .startup
  | .panicEnd .panic => ∃ st, s.phase = .onPanic st
  | .stopEnd .panic => ∃ r, s.phase = .stopping r
  | .teardown => True
  | _ => False

/-- **C76.** Nothing else makes the task panic: but for a panic in `next`, in `on_panic` or in `on_stop`, a second
`StartupFinished`, and a task that is torn down from outside, the actor goes on or comes to its `on_stop`. -/
theorem crash_causes (ops : List Op) (op : Op) (h0 : (after ops).phase ≠ .crashed)
    (h : (after (ops ++ [op])).phase = .crashed) : (after ops).fatal op := by
  rw [after_snoc] at h
  generalize after ops = s at *
  cases op with
  | send b ask => simp only [St.step, push_phase] at h; exact h0 h
  | make b ask => simp only [St.step, make_phase] at h; exact h0 h
  | startEnd r full =>
    simp only [St.step, St.startEnd] at h
    generalize startHow r full = k at h
    split at h
    · cases full <;> cases r <;> simp only [St.enter, if_true, Bool.false_eq_true, if_false] at h <;> (try split at h) <;> first
        | (exfalso; revert h; exact go_not_crashed _ _ _)
        | simp at h
    · exact h0 h
  | take n =>
    simp only [St.step, St.take] at h
    split at h <;> exact h0 h
  | close =>
    simp only [St.step, St.close] at h
    split at h <;> exact h0 h
  | spend i o =>
    simp only [St.step, St.spend] at h
    split at h <;> exact h0 h
  | ret i =>
    simp only [St.step, St.ret] at h
    split at h
    · rename_i it hp hi
      unfold St.dispatch at h
      split at h
      · rename_i hb
        split at h
        · rename_i hpe
          exact ⟨hp, hpe, it, hi, hb⟩
        · exact (go_not_crashed _ _ _ h).elim
      · simp only [] at h
        split at h <;> simp at h
      · simp at h
      · exact (go_not_crashed _ _ _ h).elim
    · exact (h0 h).elim
  | retNone =>
    simp only [St.step, St.retNone] at h
    split at h
    · exact go_not_crashed _ _ _ h
    · exact h0 h
  | nextPanic =>
    simp only [St.step, St.nextPanic] at h
    split at h
    · assumption
    · exact (h0 h).elim
  | handleEnd r =>
    simp only [St.step, St.handleEnd] at h
    split at h
    · rename_i it rest fin hp
      generalize handleHow r (it.ask && !s.taken) = k at h
      split at h
      · exact go_not_crashed _ _ _ h
      · exact go_not_crashed _ _ _ h
      · simp [St.panicked] at h
    · exact h0 h
  | linkEnd f =>
    simp only [St.step, St.linkEnd] at h
    generalize f.linkHow = k at h
    split at h
    · split at h <;> simp [St.panicked, St.stop] at h
    · exact h0 h
  | panicEnd f =>
    simp only [St.step, St.panicEnd] at h
    generalize f.panicHow = k at h
    split at h
    · rename_i st hp
      split at h
      · exact ⟨st, hp⟩
      · split at h <;> simp [St.stop] at h
      · simp [St.stop] at h
      · simp [St.stop] at h
    · exact (h0 h).elim
  | stopEnd r =>
    simp only [St.step, St.stopEnd] at h
    split at h
    · rename_i q hp
      split at h
      · exact ⟨q, hp⟩
      · simp at h
    · exact (h0 h).elim
  | kill => exact h0 h
  | abort =>
    simp only [St.step, St.abort] at h
    split at h
    · split at h <;> simp [St.stop] at h
    · exact h0 h
  | takeReply =>
    simp only [St.step, St.takeReply] at h
    split at h
    · rename_i hp
      split at h
      · exact h0 h
      · exact h0 h
    · exact h0 h
  | later x o => simp only [St.step, St.later] at h; split at h <;> exact h0 h
  | giveUp x => simp only [St.step, St.giveUp] at h; split at h <;> exact h0 h
  | teardown => trivial

example : (after [.startEnd .ok false]).phase ≠ .crashed ∧ (after ([.startEnd .ok false] ++ [.nextPanic])).phase = .crashed := by
  decide

/-! ### Is it alive? -/

theorem go_closed (s : St) (l : List Item) (fin : Bool) : (s.go l fin).closed = s.closed := by
  cases l <;> cases fin <;> rfl

theorem drain_closed (s : St) (fin : Bool) : (s.drain fin).closed = s.closed := go_closed _ _ _

theorem stop_closed (s : St) (r : Reason) : (s.stop r).closed = s.closed := rfl

theorem push_closed (s : St) (b : Body) (ask : Bool) : (s.push b ask).closed = s.closed := by
  unfold St.push; split <;> rfl

theorem make_closed (s : St) (b : Body) (ask : Bool) : (s.make b ask).closed = s.closed := by
  unfold St.make; split <;> rfl

theorem crash_over (s : St) : s.crash.over := Or.inr (crash_phase s)

theorem enter_closed (s : St) (full : Bool) : (s.enter full).closed = s.closed := by
  unfold St.enter
  split
  · rfl
  · split
    · exact drain_closed _ _
    · rfl

theorem dispatch_closed (s : St) (it : Item) : (s.dispatch it).closed = s.closed ∨ (s.dispatch it).over := by
  unfold St.dispatch
  split
  · split
    · exact Or.inr (crash_over _)
    · exact Or.inl (drain_closed _ _)
  · simp only []
    split <;> exact Or.inl rfl
  · exact Or.inl rfl
  · exact Or.inl (drain_closed _ _)

theorem closed_step (s : St) (op : Op) (ho : op ≠ .close) :
    (s.step op).closed = s.closed ∨ (s.step op).over := by
  cases op with
  | send b ask => exact Or.inl (push_closed s b ask)
  | make b ask => exact Or.inl (make_closed s b ask)
  | close => exact absurd rfl ho
  | startEnd r full =>
    left
    simp only [St.step, St.startEnd]
    generalize startHow r full = k
    split
    · cases full <;> cases r <;> simp [enter_closed, push_closed]
    · rfl
  | take n => simp only [St.step, St.take]; split <;> exact Or.inl rfl
  | spend i o => simp only [St.step, St.spend]; split <;> exact Or.inl rfl
  | ret i =>
    simp only [St.step, St.ret]
    split
    · rename_i it hp hi
      rcases dispatch_closed { s.tell [.got (some it.body)] with held := s.held.eraseIdx i } it with e | e
      · exact Or.inl e
      · exact Or.inr e
    · exact Or.inl rfl
  | retNone =>
    left
    simp only [St.step, St.retNone]
    split
    · simp [drain_closed]
    · rfl
  | nextPanic =>
    simp only [St.step, St.nextPanic]
    split
    · exact Or.inr (crash_over _)
    · exact Or.inl rfl
  | handleEnd r =>
    left
    simp only [St.step, St.handleEnd]
    split
    · rename_i it rest fin hp
      generalize handleHow r (it.ask && !s.taken) = k
      split <;> simp [go_closed, St.panicked]
    · rfl
  | linkEnd f =>
    left
    simp only [St.step, St.linkEnd]
    generalize f.linkHow = k
    split
    · split <;> rfl
    · rfl
  | panicEnd f =>
    simp only [St.step, St.panicEnd]
    generalize f.panicHow = k
    split
    · split
      · exact Or.inr (crash_over _)
      · left; split <;> rfl
      · exact Or.inl rfl
      · exact Or.inl rfl
    · exact Or.inl rfl
  | stopEnd r =>
    simp only [St.step, St.stopEnd]
    split
    · split
      · exact Or.inr (crash_over _)
      · exact Or.inr (Or.inl ⟨_, rfl⟩)
    · exact Or.inl rfl
  | kill => exact Or.inl rfl
  | abort =>
    left
    simp only [St.step, St.abort]
    split
    · split <;> simp [stop_closed]
    · rfl
  | takeReply =>
    left
    simp only [St.step, St.takeReply]
    split
    · split <;> rfl
    · rfl
  | later x o => left; simp only [St.step, St.later]; split <;> rfl
  | giveUp x => left; simp only [St.step, St.giveUp]; split <;> rfl
  | teardown =>
    simp only [St.step, St.teardown]
    split
    · exact Or.inl rfl
    · exact Or.inl rfl
    · exact Or.inr (Or.inr (fall_phase _ _))

/-- **C76, `is_alive` says what it says, in part**: if `next` never closes the receiver, `is_alive` is true until the actor
is over, and false from then on. Missing: a `next` that closes it (`closed_while_running`). -/
theorem alive_until_over_partial (ops : List Op) (h : .close ∉ ops) :
    (after ops).alive = false ↔ (after ops).over := by
  constructor
  · have : ∀ (l ops : List Op), .close ∉ l → ((after ops).closed = true → (after ops).over) →
        ((after (ops ++ l)).closed = true → (after (ops ++ l)).over) := by
      intro l
      induction l with
      | nil => intro ops _ h; simpa using h
      | cons o os ih =>
        intro ops hn h
        simp only [List.mem_cons, not_or] at hn
        have := ih (ops ++ [o]) hn.2 ?_
        · simpa using this
        · rw [after_snoc]
          intro hc
          rcases closed_step (after ops) o (fun e => hn.1 e.symm) with e | e
          · have h1 := h (e ▸ hc)
            have h2 := (over_step h1 o).1
            simp only [St.over, h2]; exact h1
          · exact e
    intro ha
    have h1 := this ops [] h (by intro e; simp [after] at e)
    rw [List.nil_append] at h1
    exact h1 (by simpa [St.alive] using ha)
  · intro ho
    have hs := (ok_after ops).shape
    rcases ho with ⟨r, ho⟩ | ho
    · simp only [Shape, ho] at hs; simp [St.alive, hs]
    · simp only [Shape, ho] at hs; simp [St.alive, hs]

example : (after swap).alive = true ∧ .close ∉ swap ∧
    (after (swap ++ [.handleEnd .ok, .retNone, .stopEnd .ok])).alive = false := by decide

/-- **C76, not so.** A `next` that closes the receiver ends nothing but the sends: whatever state it is called in, from then
on `is_alive` is false and `wait_for_shutdown` returns, although `next` still runs and may go on to return signals. -/
theorem closed_while_running (ops : List Op) (h : (after ops).phase = .next) :
    (after (ops ++ [.close])).alive = false ∧ (after (ops ++ [.close])).phase = .next ∧
    ∀ it i, (after ops).held[i]? = some it → it.body = .msg true →
      (after (ops ++ [.close, .ret i])).alive = false ∧
      (after (ops ++ [.close, .ret i])).phase = .handling it [] false := by
  refine ⟨?_, ?_, ?_⟩
  · simp [after_snoc, St.step, St.close, h, St.alive]
  · simp [after_snoc, St.step, St.close, h]
  · intro it i hi hb
    have e : after (ops ++ [.close, .ret i]) = ((after ops).step .close).step (.ret i) := by simp [after]
    rw [e]
    simp [St.step, St.close, h, St.ret, hi, St.dispatch, hb, St.alive]

example : let ops : List Op := [.startEnd .ok false, .make (.msg true) false]
    (after ops).phase = .next ∧ (after ops).held[0]? = some ⟨1, .msg true, false⟩ := by decide

theorem go_queue (s : St) (l : List Item) (fin : Bool) : (s.go l fin).queue = s.queue := by
  cases l <;> cases fin <;> rfl

theorem drain_queue (s : St) (fin : Bool) : (s.drain fin).queue = s.queue := go_queue _ _ _

theorem fall_queue (s : St) (e : Ev) : (s.fall e).queue = [] := by unfold St.fall; cases e : s.phase <;> simp

theorem fall_closed (s : St) (e : Ev) : (s.fall e).closed = true := by unfold St.fall; cases e : s.phase <;> simp

/-- Closed, and no more in the mailbox than before. -/
def Shut (q : List Item) (s : St) : Prop := s.closed = true ∧ s.queue.Sublist q

theorem shut_fall (q : List Item) (s : St) (e : Ev) : Shut q (s.fall e) :=
  ⟨fall_closed s e, by rw [fall_queue]; exact List.nil_sublist _⟩

theorem shut_crash (q : List Item) (s : St) : Shut q s.crash := shut_fall q s _

theorem shut_go {q : List Item} {s : St} (h : Shut q s) (l : List Item) (fin : Bool) : Shut q (s.go l fin) :=
  ⟨by rw [go_closed]; exact h.1, by rw [go_queue]; exact h.2⟩

theorem shut_step {q : List Item} {s : St} (h : Shut q s) (op : Op) : Shut q (s.step op) := by
  cases op with
  | send b ask => simp only [St.step, St.push, h.1]; exact h
  | make b ask => simp only [St.step, St.make]; split <;> exact h
  | close => simp only [St.step, St.close]; split <;> exact ⟨by first | rfl | exact h.1, h.2⟩
  | startEnd r full =>
    simp only [St.step, St.startEnd]
    generalize startHow r full = k
    split
    · have hp : (s.tell [.e .start k]).push .startup false = s.tell [.e .start k] := by simp [St.push, h.1]
      rw [hp]
      cases full <;> cases r <;> simp only [St.enter, if_true, Bool.false_eq_true, if_false] <;> (try split) <;> first
        | exact h
        | exact shut_go (s := { s.tell [.e .start k] with finished := true, buffer := [] }) h _ _
    · exact h
  | take n =>
    simp only [St.step, St.take]; split
    · exact ⟨h.1, (List.drop_sublist n _).trans h.2⟩
    · exact h
  | spend i o => simp only [St.step, St.spend]; split <;> exact h
  | ret i =>
    simp only [St.step, St.ret]
    split
    · unfold St.dispatch
      split
      · split
        · exact shut_crash _ _
        · refine shut_go ?_ _ _
          exact h
      · simp only []
        split <;> exact h
      · exact h
      · refine shut_go ?_ _ _
        exact h
    · exact h
  | retNone =>
    simp only [St.step, St.retNone]
    split
    · refine shut_go ?_ _ _
      exact h
    · exact h
  | nextPanic =>
    simp only [St.step, St.nextPanic]
    split
    · exact shut_crash _ _
    · exact h
  | handleEnd r =>
    simp only [St.step, St.handleEnd]
    split
    · rename_i it rest fin hp
      generalize handleHow r (it.ask && !s.taken) = k
      have hs : ∀ o, Shut q ((s.tell [.e .handle k]).settle it o) := fun o => by simpa [Shut] using h
      split
      · exact shut_go (hs _) _ _
      · exact shut_go (hs _) _ _
      · exact hs .dropped
    · exact h
  | linkEnd f =>
    simp only [St.step, St.linkEnd]
    generalize f.linkHow = k
    split
    · split <;> exact h
    · exact h
  | panicEnd f =>
    simp only [St.step, St.panicEnd]
    generalize f.panicHow = k
    split
    · split
      · exact shut_crash _ _
      · split <;> exact h
      · exact h
      · exact h
    · exact h
  | stopEnd r =>
    simp only [St.step, St.stopEnd]
    split
    · split
      · exact shut_crash _ _
      · exact ⟨rfl, List.nil_sublist _⟩
    · exact h
  | kill => exact h
  | abort =>
    simp only [St.step, St.abort]
    split
    · split <;> exact ⟨by simp [St.stop, h.1], by simpa [St.stop] using h.2⟩
    · exact h
  | takeReply =>
    simp only [St.step, St.takeReply]
    split
    · split <;> exact h
    · exact h
  | later x o => simp only [St.step, St.later]; split <;> exact h
  | giveUp x => simp only [St.step, St.giveUp]; split <;> exact h
  | teardown =>
    simp only [St.step, St.teardown]
    split
    · exact h
    · exact h
    · exact shut_fall _ _ _

/-- **C76.** A closed receiver stays closed, and nothing is put into the mailbox any more: not a message, nor a `Stop`, nor
the `LinkDied` of someone linked, nor `StartupFinished`. What is in it can still be taken. -/
theorem closed_for_good (ops more : List Op) (h : (after ops).closed = true) :
    (after (ops ++ more)).closed = true ∧ (after (ops ++ more)).queue.Sublist (after ops).queue := by
  have : ∀ (l : List Op) (s : St), Shut (after ops).queue s → Shut (after ops).queue (l.foldl St.step s) := by
    intro l
    induction l with
    | nil => intro s h; exact h
    | cons o os ih => intro s h; exact ih _ (shut_step h o)
  have := this more (after ops) ⟨h, List.Sublist.refl _⟩
  simpa [after, Shut] using this

example : let ops : List Op := [.startEnd .ok false, .send (.msg false) true, .close]
    (after ops).closed = true ∧ (after ops).queue.length = 2 ∧
    (after (ops ++ [.send .stop false, .take 1, .ret 0])).queue.length = 1 := by decide

/-! ### Signals kept beyond the end -/

/-- **C76, not so.** Whoever asked, and whose signal is in a field of the actor when it stops, goes on waiting for as long
as nobody touches the actor that `run` returned: nothing that happens gives an outcome. -/
theorem kept_ask_hangs (ops more : List Op) (h : ∃ r, (after ops).phase = .stopped r) (it : Item)
    (hi : it ∈ (after ops).held) (hm : ∀ i o, .spend i o ∉ more) :
    (after (ops ++ more)).slot it.id = none ∧ it ∈ (after (ops ++ more)).held := by
  have key : it ∈ (after (ops ++ more)).held := by
    induction more generalizing ops with
    | nil => simpa using hi
    | cons o os ih =>
      have h1 : ∃ r, (after (ops ++ [o])).phase = .stopped r := by
        obtain ⟨r, hr⟩ := h
        exact ⟨r, by rw [after_snoc, (over_step (Or.inl ⟨r, hr⟩) o).1, hr]⟩
      have h2 : it ∈ (after (ops ++ [o])).held := by
        obtain ⟨r, hr⟩ := h
        rw [after_snoc]
        cases o with
        | spend i o => exact (hm i o (by simp)).elim
        | send b ask => simp only [St.step, St.push]; split <;> exact hi
        | make b ask =>
          simp only [St.step, St.make]; split
          · exact List.mem_append.mpr (Or.inl hi)
          · exact hi
        | later x o => simp only [St.step, St.later]; split <;> exact hi
        | giveUp x => simp only [St.step, St.giveUp]; split <;> exact hi
        | _ => simpa [St.step, St.takeReply, St.teardown, St.startEnd, St.take, St.close, St.ret, St.retNone, St.nextPanic, St.handleEnd, St.linkEnd,
            St.panicEnd, St.stopEnd, St.kill, St.abort, Phase.abortable, hr] using hi
      have := ih (ops ++ [o]) h1 h2 (fun i o' hx => hm i o' (by simp [hx]))
      simpa using this
  exact ⟨(no_outcome_yet _).1 it (by simp [key]), key⟩

example : (∃ r, (after asked).phase = .stopped r) ∧ ⟨2, .msg false, true⟩ ∈ (after asked).held := by
  exact ⟨⟨.normal, by decide⟩, by decide⟩

end Verif.Next
