import Verif.Calls.PropsWarn

/-!
Property theorems C75, more: an actor that tells itself within a handler, more often than there is room.
-/

set_option linter.unusedSimpArgs false

namespace Verif.Calls

open Verif.Mailbox

/-- A handler that tells `a` each of `ms` by `send`, without a time-out, and then does `p`, which may depend on how the
tells came back. Specification (`src/request/tell.rs` L81-100). -/
def tellsTo (a : Nat) (p : List Ans → Prog) : List Nat → List Ans → Prog
  | [], l => p l
  | m :: ms, l => .call { tgt := a, ask := false, msg := m } fun x => tellsTo a p ms (l ++ [x])

/-- The handler of `a` is at its tells, `ms` are left. Specification. -/
def Telling (w : World) (a : Nat) (r : Option Nat) (p : List Ans → Prog) (ms : List Nat) : Prop :=
  (∃ l, w.hand a = .busy r (.go (tellsTo a p ms l))) ∨
  ∃ m ms' l t ch, ms = m :: ms' ∧ w.hand a =
    .busy r (.sending { tgt := a, ask := false, msg := m } t ch fun x => tellsTo a p ms' (l ++ [x]))

theorem Telling.busy {w : World} {a : Nat} {r : Option Nat} {p : List Ans → Prog} {ms : List Nat}
    (h : Telling w a r p ms) : ∃ pc, w.hand a = .busy r pc := by
  rcases h with ⟨l, h⟩ | ⟨_, _, _, _, _, _, h⟩ <;> exact ⟨_, h⟩

/-- The mailbox of an actor that is busy does not get shorter. -/
theorem queue_grows {w : World} (h : Inv w) {op : Op} {a : Nat} {r r' : Option Nat} {pc pc' : Pc}
    (hb : w.hand a = .busy r pc) (hb' : (w.step op).hand a = .busy r' pc') :
    (w.mb a).queue.length ≤ ((w.step op).mb a).queue.length := by
  have opn : ∀ {w : World} {r pc}, Inv w → w.hand a = .busy r pc → (w.mb a).closed = false := by
    intro w r pc hi hb
    cases hc : (w.mb a).closed with
    | false => rfl
    | true => rw [(hi.ended a).mpr hc] at hb; cases hb
  have h' := inv_step h op
  have o := opn h hb
  have o' := opn h' hb'
  have e := congrArg List.length (h.mb a).hist
  have e' := congrArg List.length (h'.mb a).hist
  rw [(h.mb a).openLost o] at e
  rw [(h'.mb a).openLost o'] at e'
  have hr : ((w.step op).mb a).received = (w.mb a).received := by
    rcases received_own w a op with hr | ⟨_, hi, _⟩
    · exact hr
    · rw [hi] at hb; cases hb
  have hp : (w.mb a).pushed.length ≤ ((w.step op).mb a).pushed.length := by
    rcases step_one w a op with h1 | ⟨mop, h1⟩ | h1
    · rw [h1]; exact Nat.le_refl _
    · rw [h1]; exact (pushed_step _ _).length_le
    · rw [h1] at o'; cases o'
  rw [hr] at e'
  simp only [List.length_append, List.length_nil] at e e'
  omega

theorem telling_step {w : World} (h : Inv w) {a c : Nat} (hc : (w.mb a).cap = some c) {r : Option Nat}
    {p : List Ans → Prog} {ms : List Nat} (ht : Telling w a r p ms) (hl : c < (w.mb a).queue.length + ms.length)
    {op : Op} (hk : op ≠ .kill a) (hf : op ≠ .fail a) :
    ∃ ms', Telling (w.step op) a r p ms' ∧ ms' <:+ ms ∧ c < ((w.step op).mb a).queue.length + ms'.length := by
  obtain ⟨pc, hb⟩ := ht.busy
  have hopen : (w.mb a).closed = false := by
    cases hc : (w.mb a).closed with
    | false => rfl
    | true => rw [(h.ended a).mpr hc] at hb; cases hb
  have same : (w.step op).hand a = w.hand a →
      ∃ ms', Telling (w.step op) a r p ms' ∧ ms' <:+ ms ∧ c < ((w.step op).mb a).queue.length + ms'.length := by
    intro e
    have hq := queue_grows h hb (e.trans hb)
    refine ⟨ms, ?_, List.suffix_refl _, by omega⟩
    unfold Telling
    rw [e]
    exact ht
  rcases hand_step w op a with h1 | ⟨q, h1⟩ | h1 | h1 | h1 | h1
  · exact same h1
  · subst h1; exact same (by simp [World.step, World.recv, hb])
  · subst h1
    have hcap := (h.mb a).capOk c hc
    rcases ht with ⟨l, hh⟩ | ⟨m, ms', l, t, ch, rfl, hh⟩
    · cases ms with
      | nil => simp only [List.length_nil] at hl; omega
      | cons m ms =>
        simp only [tellsTo] at hh
        cases hroom : (w.mb a).hasRoom with
        | true =>
          refine ⟨ms, Or.inl ⟨l ++ [.sent], ?_⟩, List.suffix_cons _ _, ?_⟩
          · simp [World.step, World.poll, hh, World.call, hopen, hroom]
          · simp only [World.step, World.poll, hh, World.call, setHand_mb, if_true]
            rw [(put_taken true (w.mb a) _ hopen hroom).1]
            simp only [List.length_append, List.length_cons, List.length_nil] at hl ⊢
            omega
        | false =>
          refine ⟨m :: ms, Or.inr ⟨m, ms, l, (w.mb a).next, w.calls, rfl, ?_⟩, List.suffix_refl _, ?_⟩
          · simp [World.step, World.poll, hh, World.call, hopen, hroom]
          · simp only [World.step, World.poll, hh, World.call, setHand_mb, if_true]
            rw [(put_not_taken true (w.mb a) _ (Or.inr hroom)).1]
            exact hl
    · by_cases hg : t ∈ (w.mb a).granted.map (·.1)
      · refine ⟨ms', Or.inl ⟨l ++ [.sent], ?_⟩, List.suffix_cons _ _, ?_⟩
        · simp only [World.step, World.poll, hh, hopen, hg, Bool.false_eq_true, if_false, if_true, setHand_hand]
        · simp only [World.step, World.poll, hh, hopen, hg, Bool.false_eq_true, if_false, if_true, setHand_mb, setMb_mb]
          obtain ⟨q, _, _, hq, _⟩ := poll_granted hg
          rw [hq]
          simp only [List.length_append, List.length_cons, List.length_nil] at hl ⊢
          omega
      · refine same ?_
        simp only [World.step, World.poll, hh, hopen, hg, Bool.false_eq_true, if_false]
  · subst h1
    refine same ?_
    rcases ht with ⟨l, hh⟩ | ⟨m, ms', l, t, ch, rfl, hh⟩
    · simp [World.step, World.expire, hh]
    · simp [World.step, World.expire, hh]
  · exact (hf h1).elim
  · exact (hk h1).elim

theorem cap_stays (w : World) (op : Op) (a : Nat) : ((w.step op).mb a).cap = (w.mb a).cap := by
  obtain ⟨mops, h⟩ := step_mb w a op
  rw [h, cap_run]

theorem cap_fix {w : World} (ops : List Op) (a : Nat) : ((w.run ops).mb a).cap = (w.mb a).cap := by
  induction ops generalizing w with
  | nil => rfl
  | cons op ops ih => exact (ih (w := w.step op)).trans (cap_stays w op a)

/-- **C75** (what the code does): the warning for an ask says to tell instead, but an actor whose handler tells itself more
messages than its mailbox has room for never gets past its tells, whatever happens, short of killing it or a panic. (`tell`
has its own warning.) -/
theorem self_tells_hang (caps : Nat → Option Nat) (pre ops : List Op) (a c : Nat) (hc : caps a = some c) (r : Option Nat)
    (p : List Ans → Prog) (ms : List Nat) (l : List Ans)
    (hh : ((World.fresh caps).run pre).hand a = .busy r (.go (tellsTo a p ms l)))
    (hl : c < (((World.fresh caps).run pre).mb a).queue.length + ms.length)
    (hk : Op.kill a ∉ ops) (hf : Op.fail a ∉ ops) :
    ∃ ms', ms' ≠ [] ∧ ms' <:+ ms ∧ Telling ((World.fresh caps).run (pre ++ ops)) a r p ms' := by
  have hi := inv_run (inv_fresh caps) pre
  have hcap : (((World.fresh caps).run pre).mb a).cap = some c := by
    rw [cap_fix, ← hc]; rfl
  have e : (World.fresh caps).run (pre ++ ops) = ((World.fresh caps).run pre).run ops := by simp [World.run]
  rw [e]
  have ht : Telling ((World.fresh caps).run pre) a r p ms := Or.inl ⟨l, hh⟩
  clear hh e
  generalize (World.fresh caps).run pre = w at *
  suffices hs : ∃ ms', ms' <:+ ms ∧ Telling (w.run ops) a r p ms' ∧ c < ((w.run ops).mb a).queue.length + ms'.length ∧
      Inv (w.run ops) ∧ ((w.run ops).mb a).cap = some c by
    obtain ⟨ms', h1, h2, h3, h4, h5⟩ := hs
    refine ⟨ms', ?_, h1, h2⟩
    rintro rfl
    have := (h4.mb a).capOk c h5
    simp only [List.length_nil] at h3
    omega
  induction ops generalizing w ms with
  | nil => exact ⟨ms, List.suffix_refl _, ht, hl, hi, hcap⟩
  | cons op ops ih =>
    simp only [List.mem_cons, not_or] at hk hf
    obtain ⟨ms', h1, h2, h3⟩ := telling_step hi hcap ht hl (Ne.symm hk.1) (Ne.symm hf.1)
    obtain ⟨ms'', h4, h5⟩ := ih ms' hk.2 hf.2 (w.step op) h3 (inv_step hi op) ((cap_stays w op a).trans hcap) h1
    exact ⟨ms'', h4.trans h2, h5⟩

/-- Actor 0, with room for two, tells itself four times. -/
example : two 0 = some 2 ∧ (∃ l, ((World.fresh two).run [.out 0 false 5, .recv 0 (tellsTo 0 (fun _ => .ret 0) [1, 2, 3, 4] [])]).hand 0 =
      .busy none (.go (tellsTo 0 (fun _ => .ret 0) [1, 2, 3, 4] l))) ∧
    ∀ ops, Op.kill 0 ∉ ops → Op.fail 0 ∉ ops → ∃ ms', ms' ≠ [] ∧ ms' <:+ [1, 2, 3, 4] ∧
      Telling ((World.fresh two).run ([.out 0 false 5, .recv 0 (tellsTo 0 (fun _ => .ret 0) [1, 2, 3, 4] [])] ++ ops)) 0 none
        (fun _ => .ret 0) ms' := by
  refine ⟨rfl, ⟨[], rfl⟩, fun ops hk hf => ?_⟩
  exact self_tells_hang two _ ops 0 2 rfl none _ [1, 2, 3, 4] [] rfl (by decide) hk hf

/-- **C75** If there is room for all of them, the tells are over after as many steps of the actor, if it is the only one
that runs. -/
theorem self_tells_pass (caps : Nat → Option Nat) (pre : List Op) (a : Nat) (r : Option Nat)
    (p : List Ans → Prog) (ms : List Nat) (l : List Ans)
    (hh : ((World.fresh caps).run pre).hand a = .busy r (.go (tellsTo a p ms l)))
    (hl : ∀ c, caps a = some c → (((World.fresh caps).run pre).mb a).queue.length +
      (((World.fresh caps).run pre).mb a).granted.length + ms.length ≤ c) :
    ((World.fresh caps).run (pre ++ List.replicate ms.length (.poll a))).hand a =
      .busy r (.go (p (l ++ ms.map fun _ => .sent))) := by
  have hi := inv_run (inv_fresh caps) pre
  have hcap : (((World.fresh caps).run pre).mb a).cap = caps a := by rw [cap_fix]; rfl
  have e : (World.fresh caps).run (pre ++ List.replicate ms.length (.poll a)) =
    ((World.fresh caps).run pre).run (List.replicate ms.length (.poll a)) := by simp [World.run]
  rw [e]
  clear e
  generalize (World.fresh caps).run pre = w at *
  induction ms generalizing w l with
  | nil => simpa [World.run, tellsTo] using hh
  | cons m ms ih =>
    have hopen : (w.mb a).closed = false := by
      cases hc : (w.mb a).closed with
      | false => rfl
      | true => rw [(hi.ended a).mpr hc] at hh; cases hh
    have hroom : (w.mb a).hasRoom = true := by
      cases hc : caps a with
      | none => simp [Mb.hasRoom, hcap, hc]
      | some c =>
        have := hl c hc
        simp only [List.length_cons] at this
        simp only [Mb.hasRoom, hcap, hc, decide_eq_true_eq]
        omega
    simp only [tellsTo] at hh
    have h1 : (w.step (.poll a)).hand a = .busy r (.go (tellsTo a p ms (l ++ [.sent]))) := by
      simp [World.step, World.poll, hh, World.call, hopen, hroom]
    have h2 : ((w.step (.poll a)).mb a).queue.length = (w.mb a).queue.length + 1 ∧
        ((w.step (.poll a)).mb a).granted = (w.mb a).granted := by
      simp only [World.step, World.poll, hh, World.call, setHand_mb, if_true]
      rw [(put_taken true (w.mb a) _ hopen hroom).1]
      simp
    have := ih (l ++ [.sent]) (w.step (.poll a)) h1 (fun c hc => by
      have := hl c hc
      simp only [List.length_cons] at this
      rw [h2.1, h2.2]
      omega) (inv_step hi _) ((cap_stays w _ a).trans hcap)
    simp only [List.length_cons, List.replicate_succ]
    simpa [World.run] using this

example : ((World.fresh two).run ([.out 0 false 5, .recv 0 (tellsTo 0 (fun _ => .ret 0) [1, 2] [])] ++
    List.replicate 2 (.poll 0))).hand 0 = .busy none (.go (.ret 0)) :=
  self_tells_pass two [.out 0 false 5, .recv 0 (tellsTo 0 (fun _ => .ret 0) [1, 2] [])] 0 none (fun _ => .ret 0) [1, 2] []
    rfl (by intro c hc; cases hc; decide)

end Verif.Calls
