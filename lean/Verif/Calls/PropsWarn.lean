import Verif.Calls.PropsCircle

/-!
Property theorems C75, the end: which deadlocks the code warns of.
-/

set_option linter.unusedSimpArgs false

namespace Verif.Calls

open Verif.Mailbox

/-! ### What the code warns of -/

/-- A handler hangs: whatever happens after `pre`, except that the actor is killed, it does not go on. Specification. -/
def Hangs (caps : Nat → Option Nat) (pre : List Op) (a : Nat) : Prop :=
  ∀ ops, (∀ b, Op.kill b ∉ ops) →
    ∃ r pc c, ((World.fresh caps).run (pre ++ ops)).hand a = .busy r pc ∧ pc.call? = some c

theorem hangs_of_blocked {caps : Nat → Option Nat} {pre : List Op} {D : Nat → Prop}
    (hD : ∀ a, D a → Blocked ((World.fresh caps).run pre) D a) {a : Nat} (ha : D a) : Hangs caps pre a := by
  intro ops hk
  have h := circle_stays caps pre ops D hD (fun b _ => hk b) a ha
  have e : (World.fresh caps).run (pre ++ ops) = ((World.fresh caps).run pre).run ops := by simp [World.run]
  rw [e, h]
  obtain ⟨r, c, k, _, ⟨ch, h1, _⟩ | ⟨t, ch, h1, _⟩⟩ := hD a ha
  · exact ⟨r, _, c, h1, rfl⟩
  · exact ⟨r, _, c, h1, rfl⟩

/-- **C75**: of the requests of an actor to itself that can block for ever, the code warns of all that are made by `send`.
Requests made by `try_send`, and requests to other actors, it does not warn of: see `hang_by_try_send_unwarned` and
`hang_by_others_unwarned`. -/
theorem self_send_warned_partial (caps : Nat → Option Nat) (a : Nat) (c : Call) (hb : c.canBlock caps) (ht : c.tgt = a)
    (hw : c.wait = true) : warns caps a c = true := by
  simp only [warns, hw, ht, beq_self_eq_true, Bool.and_true, Bool.true_and, Bool.or_eq_true, Option.isSome_iff_ne_none]
  rcases hb with ⟨_, _, h⟩ | ⟨h, _⟩
  · right; rw [← ht]; exact h
  · exact Or.inl h

example : Call.canBlock two { tgt := 3 } ∧ Call.canBlock two { tgt := 3, ask := false } ∧
    warns two 3 { tgt := 3, ask := false } = true :=
  ⟨Or.inr ⟨rfl, rfl⟩, Or.inl ⟨rfl, rfl, by decide⟩, rfl⟩

/-- **C75**, exactly: of the requests that can block for ever the code warns of those that an actor makes to itself by
`send`, and of no others. -/
theorem blocking_warned_iff (caps : Nat → Option Nat) (a : Nat) (c : Call) (hb : c.canBlock caps) :
    warns caps a c = true ↔ c.tgt = a ∧ c.wait = true := by
  refine ⟨fun h => ?_, fun ⟨ht, hw⟩ => self_send_warned_partial caps a c hb ht hw⟩
  simp only [warns, Bool.and_eq_true, beq_iff_eq] at h
  exact ⟨h.2, h.1.1⟩

/-- An ask of another actor and an ask of oneself by `try_send` can block for ever, without a warning. -/
example : Call.canBlock two { tgt := 3 } ∧ warns two 1 { tgt := 3 } = false ∧
    Call.canBlock two { tgt := 3, wait := false } ∧ warns two 3 { tgt := 3, wait := false } = false ∧
    warns two 3 { tgt := 3 } = true :=
  ⟨Or.inr ⟨rfl, rfl⟩, rfl, Or.inr ⟨rfl, rfl⟩, rfl, rfl⟩

/-- **C75** (what the code does): an actor that asks itself by `try_send`, with room in its mailbox and no time-out, hangs,
and nothing warns of it. -/
theorem hang_by_try_send_unwarned (caps : Nat → Option Nat) (pre : List Op) (a : Nat) (r : Option Nat) (c : Call)
    (k : Ans → Prog) (hh : ((World.fresh caps).run pre).hand a = .busy r (.go (.call c k))) (ht : c.tgt = a)
    (hq : c.ask = true) (hw : c.wait = false) (hr : (((World.fresh caps).run pre).mb a).hasRoom = true)
    (hmt : c.mt = false) (hrt : c.rt = false) :
    warns caps a c = false ∧ Hangs caps (pre ++ [.poll a]) a := by
  refine ⟨by simp [warns, hw], fun ops hk => ?_⟩
  obtain ⟨pc, h1, h2⟩ := self_ask_hangs caps pre ops a r c k hh ht hq (Or.inr hr) hmt hrt (hk a)
  exact ⟨r, pc, c, by simpa using h1, h2⟩

/-- Actor 0 asks itself by `try_send`. -/
example : warns two 0 { tgt := 0, wait := false } = false ∧
    Hangs two ([.out 0 false 5, .recv 0 (.call { tgt := 0, wait := false } fun _ => .ret 0)] ++ [.poll 0]) 0 :=
  hang_by_try_send_unwarned two _ 0 none { tgt := 0, wait := false } (fun _ => .ret 0) rfl rfl rfl rfl rfl rfl rfl

/-- **C75** (what the code does): actors that wait for each other, each for another one, hang, and of none of the requests
they wait for there was a warning. -/
theorem hang_by_others_unwarned (caps : Nat → Option Nat) (pre : List Op) (D : Nat → Prop)
    (hD : ∀ a, D a → Blocked ((World.fresh caps).run pre) D a)
    (ho : ∀ a r pc c, D a → ((World.fresh caps).run pre).hand a = .busy r pc → pc.call? = some c → c.tgt ≠ a)
    (a : Nat) (ha : D a) :
    Hangs caps pre a ∧
    ∃ r pc c, ((World.fresh caps).run pre).hand a = .busy r pc ∧ pc.call? = some c ∧ warns caps a c = false := by
  refine ⟨hangs_of_blocked hD ha, ?_⟩
  obtain ⟨r, pc, c, h1, h2⟩ : ∃ r pc c, ((World.fresh caps).run pre).hand a = .busy r pc ∧ pc.call? = some c := by
    simpa using hangs_of_blocked hD ha [] (by simp)
  have := ho a r pc c ha h1 h2
  exact ⟨r, pc, c, h1, h2, by simp [warns, this]⟩

/-- Two actors that ask each other by `send`. -/
example (a : Nat) (ha : a < 2) : Hangs two circle a ∧
    ∃ r pc c, ((World.fresh two).run circle).hand a = .busy r pc ∧ pc.call? = some c ∧ warns two a c = false := by
  refine hang_by_others_unwarned two circle (· < 2) circle_blocked ?_ a ha
  intro a r pc c ha hh hc
  have h2 : a = 0 ∨ a = 1 := by omega
  rcases h2 with rfl | rfl
  · obtain ⟨k, h⟩ : ∃ k, ((World.fresh two).run circle).hand 0 = .busy none (.awaiting { tgt := 1 } 1 k) := ⟨_, rfl⟩
    rw [h] at hh; cases hh; cases hc; decide
  · obtain ⟨k, h⟩ : ∃ k, ((World.fresh two).run circle).hand 1 = .busy (some 1) (.awaiting { tgt := 0 } 2 k) := ⟨_, rfl⟩
    rw [h] at hh; cases hh; cases hc; decide

end Verif.Calls
