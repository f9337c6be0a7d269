import Verif.Calls.Stuck

/-!
C75: the specification of the requests handlers make, and executions that meet the hypotheses of the theorems.
-/

set_option linter.unusedSimpArgs false

namespace Verif.Calls

open Verif.Mailbox

/-- Every request the program may make satisfies `P`. Specification. -/
def Prog.All (P : Call → Prop) : Prog → Prop
  | .ret _ => True
  | .call c k => P c ∧ ∀ x, (k x).All P

/-- A request that may wait for ever: without a time-out for room in a bounded mailbox, or without a time-out for the
reply. Specification. -/
def Call.canBlock (caps : Nat → Option Nat) (c : Call) : Prop :=
  (c.wait = true ∧ c.mt = false ∧ caps c.tgt ≠ none) ∨ (c.ask = true ∧ c.rt = false)

/-- What is left of a handler makes requests with `P` only. -/
def Pc.Ok (P : Call → Prop) : Pc → Prop
  | .go p => p.All P
  | .sending c _ _ k => c.wait = true ∧ P c ∧ ∀ x, (k x).All P
  | .awaiting c _ k => c.ask = true ∧ P c ∧ ∀ x, (k x).All P

/-- The handlers of actor `a` make requests with `P a` only. Specification. -/
def Handlers (ops : Nat → Op) (P : Nat → Call → Prop) : Prop := ∀ n a p, ops n = .recv a p → p.All (P a)

theorem ok_step {w : World} {P : Nat → Call → Prop} {op : Op} (hop : ∀ a p, op = .recv a p → p.All (P a))
    (h : ∀ a r pc, w.hand a = .busy r pc → pc.Ok (P a)) (a : Nat) (r : Option Nat) (pc : Pc)
    (hh : (w.step op).hand a = .busy r pc) : pc.Ok (P a) := by
  cases e : w.hand a with
  | ended => rw [hand_from_ended e] at hh; simp at hh
  | idle =>
    rcases hand_from_idle (op := op) e with h1 | h1 | ⟨p, rfl, hq⟩
    · rw [h1] at hh; simp at hh
    · rw [h1] at hh; simp at hh
    · simp only [World.step, World.recv, e] at hh
      split at hh
      · simp only [setHand_hand, if_true, Hand.busy.injEq] at hh
        rw [← hh.2]; exact hop a p rfl
      · simp at hh
      · rw [e] at hh; simp at hh
  | busy r' pc' =>
    have h0 := h a r' pc' e
    cases pc' with
    | go p =>
      rcases hand_from_go (op := op) e with ⟨h1, _⟩ | h1 | h1 | h1
      · rw [h1] at hh; simp only [Hand.busy.injEq] at hh; rw [← hh.2]; exact h0
      · subst h1
        cases p with
        | ret v => rw [hand_poll_ret e] at hh; simp at hh
        | call c k =>
          simp only [Pc.Ok, Prog.All] at h0
          rcases hand_poll_call e with ⟨x, h1⟩ | ⟨ch, h1, h2⟩ | ⟨t, ch, h1, h2⟩ <;>
            (rw [h1] at hh; simp only [Hand.busy.injEq] at hh; rw [← hh.2])
          · exact h0.2 x
          · exact ⟨h2, h0⟩
          · exact ⟨h2, h0⟩
      · rw [h1] at hh; simp at hh
      · rw [h1] at hh; simp at hh
    | awaiting c ch k =>
      rcases hand_from_awaiting (op := op) e with h1 | h1 | ⟨x, h1⟩
      · rw [h1] at hh; simp only [Hand.busy.injEq] at hh; rw [← hh.2]; exact h0
      · rw [h1] at hh; simp at hh
      · rw [h1] at hh; simp only [Hand.busy.injEq] at hh; rw [← hh.2]; exact h0.2.2 x
    | sending c t ch k =>
      rcases hand_from_sending (op := op) e with h1 | h1 | ⟨x, h1⟩ | ⟨h1, h2⟩
      · rw [h1] at hh; simp only [Hand.busy.injEq] at hh; rw [← hh.2]; exact h0
      · rw [h1] at hh; simp at hh
      · rw [h1] at hh; simp only [Hand.busy.injEq] at hh; rw [← hh.2]; exact h0.2.2 x
      · rw [h1] at hh; simp only [Hand.busy.injEq] at hh; rw [← hh.2]; exact ⟨h2, h0.2⟩

/-- The requests that may block for ever go down. Specification. -/
def Descends (caps : Nat → Option Nat) (ops : Nat → Op) (rank : Nat → Nat) : Prop :=
  Handlers ops (fun a c => c.canBlock caps → rank c.tgt < rank a)

/-! ### Executions that come to rest -/

/-- A finite history, and then nothing any more. Example data (`World.step`, `src/actor/kind.rs` L97-156). -/
def rest (l : List Op) (n : Nat) : Op := l.getD n (.expire 0)

theorem at_rest {caps : Nat → Option Nat} {l : List Op}
    (h : ((World.fresh caps).run l).step (.expire 0) = (World.fresh caps).run l) (n : Nat) :
    at_ caps (rest l) n = (World.fresh caps).run (l.take n) := by
  induction n with
  | zero => simp [at_, World.run]
  | succ n ih =>
    simp only [at_, ih]
    by_cases hn : n < l.length
    · simp only [World.run]
      rw [← List.take_append_getElem hn, List.foldl_append]
      simp [rest, List.getD, hn]
    · rw [List.take_of_length_le (by omega), List.take_of_length_le (by omega)]
      simp only [rest, List.getD, List.getElem?_eq_none (Nat.le_of_not_lt hn), Option.getD_none]
      exact h

theorem fair_rest {caps : Nat → Option Nat} {l : List Op}
    (h : ((World.fresh caps).run l).step (.expire 0) = (World.fresh caps).run l)
    (hq : ∀ a, ¬ ((World.fresh caps).run l).ready a ∧ ¬ ((World.fresh caps).run l).timed a ∧
      (((World.fresh caps).run l).hand a = .idle → (((World.fresh caps).run l).mb a).queue = []) ∧
      (((World.fresh caps).run l).mb a).granted = []) : Fair caps (rest l) := by
  have hend : ∀ n, n ≤ max n l.length ∧ at_ caps (rest l) (max n l.length) = (World.fresh caps).run l := by
    intro n
    exact ⟨Nat.le_max_left _ _, by rw [at_rest h, List.take_of_length_le (Nat.le_max_right _ _)]⟩
  constructor
  · intro n a hh
    have := hh _ (hend n).1
    rw [(hend n).2] at this; exact ((hq a).1 this).elim
  · intro n a hh
    have := hh _ (hend n).1
    rw [(hend n).2] at this; exact (this.2 ((hq a).2.2.1 this.1)).elim
  · intro n a hh
    have := hh _ (hend n).1
    rw [(hend n).2] at this; exact ((hq a).2.1 this).elim
  · intro n b t s _ hh
    have := hh _ (hend n).1
    rw [(hend n).2, (hq b).2.2.2] at this; simp at this

/-- Only actors below `K` take part. Example data (`World.step`, `src/actor/kind.rs` L97-156). -/
def Op.low (K : Nat) : Op → Prop
  | .recv a p => a < K ∧ p.All (·.tgt < K)
  | .poll a | .expire a | .fail a | .kill a => a < K
  | .out b _ _ | .stop b | .outPoll b _ | .outCancel b _ => b < K

theorem far_step {caps : Nat → Option Nat} {K : Nat} {w : World} {op : Op} (ho : op.low K)
    (h1 : ∀ a r pc, w.hand a = .busy r pc → pc.Ok (·.tgt < K))
    (h2 : ∀ x, K ≤ x → w.hand x = .idle ∧ w.mb x = Mb.fresh (caps x)) :
    (∀ a r pc, (w.step op).hand a = .busy r pc → pc.Ok (·.tgt < K)) ∧
    ∀ x, K ≤ x → (w.step op).hand x = .idle ∧ (w.step op).mb x = Mb.fresh (caps x) := by
  have ne : ∀ {b x : Nat}, b < K → K ≤ x → x ≠ b := fun h h' e => by omega
  refine ⟨fun a r pc hh => ok_step (P := fun _ c => c.tgt < K) ?_ h1 a r pc hh, fun x hx => ⟨?_, ?_⟩⟩
  · intro a p e; subst e; exact ho.2
  · rcases hand_step w op x with e | ⟨p, e⟩ | e | e | e | e
    · rw [e]; exact (h2 x hx).1
    all_goals subst e; simp only [Op.low] at ho; omega
  · have := (h2 x hx).2
    cases op with
    | recv a p =>
      have := ne ho.1 hx
      simp only [World.step, World.recv]
      split <;> simp [World.finish, World.dropReplies, World.setMb, World.setHand, *]
    | poll a =>
      simp only [World.step, World.poll]
      split
      · simp [*]
      · rename_i r c k hh
        have := ne (h1 _ _ _ hh).1 hx
        simp [World.call, World.setHand, *]
      · rename_i r c t ch k hh
        have := ne (h1 _ _ _ hh).2.1 hx
        (repeat' split) <;> simp [*]
      · split <;> simp [*]
      · exact this
    | expire a =>
      simp only [World.step, World.expire]
      split
      · rename_i r c t ch k hh
        have := ne (h1 _ _ _ hh).2.1 hx
        split <;> simp [*]
      · split <;> simp [*]
      · exact this
    | fail a => simp only [World.step, World.fail]; split <;> simp [*]
    | kill a =>
      have hne := ne ho hx
      simp only [World.step, World.kill]
      split
      · exact this
      · simp [World.finish, World.dropReplies, World.setMb, World.setHand, *]
      · rename_i r c t ch k hh
        have := ne (h1 _ _ _ hh).2.1 hx
        simp [World.finish, World.dropReplies, World.setMb, World.setHand, *]
      · simp [World.finish, World.dropReplies, World.setMb, World.setHand, *]
    | out b q m => have := ne ho hx; simp [World.step, World.out, *]
    | stop b => have := ne ho hx; simp [World.step, World.stop, *]
    | outPoll b t => have := ne ho hx; simp only [World.step, World.outPoll]; split <;> simp [*]
    | outCancel b t => have := ne ho hx; simp only [World.step, World.outCancel]; split <;> simp [*]

theorem far_run {caps : Nat → Option Nat} {K : Nat} (l : List Op) (hl : ∀ op ∈ l, op.low K) (x : Nat) (hx : K ≤ x) :
    ((World.fresh caps).run l).hand x = .idle ∧ ((World.fresh caps).run l).mb x = Mb.fresh (caps x) := by
  have : ∀ (l : List Op) (w : World), (∀ op ∈ l, op.low K) → (∀ a r pc, w.hand a = .busy r pc → pc.Ok (·.tgt < K)) →
      (∀ x, K ≤ x → w.hand x = .idle ∧ w.mb x = Mb.fresh (caps x)) →
      ∀ x, K ≤ x → (w.run l).hand x = .idle ∧ (w.run l).mb x = Mb.fresh (caps x) := by
    intro l
    induction l with
    | nil => intro w _ _ h2; exact h2
    | cons o os ih =>
      intro w hl h1 h2
      obtain ⟨h3, h4⟩ := far_step (hl o (by simp)) h1 h2
      exact ih (w.step o) (fun op h => hl op (by simp [h])) h3 h4
  exact this l _ hl (by simp [World.fresh]) (fun x _ => ⟨rfl, rfl⟩) x hx

/-- Nothing is left to do for the actor, in a form that can be computed. Example data (`World.ready`; `src/actor/kind.rs`
L97-156). -/
def World.quiet (w : World) (a : Nat) : Bool :=
  (w.mb a).granted.isEmpty &&
  match w.hand a with
  | .idle => (w.mb a).queue.isEmpty
  | .ended => true
  | .busy _ (.go _) => false
  | .busy _ (.sending c t _ _) => !c.mt && !(w.mb c.tgt).closed && !((w.mb c.tgt).granted.map (·.1)).contains t
  | .busy _ (.awaiting c ch _) => !c.rt && w.chan ch == .opn

theorem quiet_spec {w : World} {a : Nat} (h : w.quiet a = true) :
    ¬ w.ready a ∧ ¬ w.timed a ∧ (w.hand a = .idle → (w.mb a).queue = []) ∧ (w.mb a).granted = [] := by
  simp only [World.quiet, Bool.and_eq_true, List.isEmpty_iff] at h
  obtain ⟨h1, h2⟩ := h
  simp only [World.ready, World.timed]
  refine ⟨?_, ?_, ?_, h1⟩
  all_goals
    split at h2 <;> rename_i e <;> simp_all

theorem fair_low {caps : Nat → Option Nat} {K : Nat} {l : List Op} (hl : ∀ op ∈ l, op.low K)
    (h : ((World.fresh caps).run l).step (.expire 0) = (World.fresh caps).run l)
    (hq : ∀ a, a < K → ((World.fresh caps).run l).quiet a = true) : Fair caps (rest l) := by
  refine fair_rest h fun a => ?_
  by_cases ha : a < K
  · exact quiet_spec (hq a ha)
  · obtain ⟨h1, h2⟩ := far_run (caps := caps) l hl a (by omega)
    refine quiet_spec ?_
    simp [World.quiet, h1, h2, Mb.fresh]

/-! ### One actor asks another -/

/-- Actor 0 asks actor 1, and returns what it got. Example data (`src/message.rs` L34-58). -/
def asks1 : Prog := .call { tgt := 1 } fun x => match x with
  | .value v => .ret (v + 1)
  | _ => .ret 0

/-- Someone asks actor 0, which asks actor 1. Example data (`src/request/ask.rs` L107-157). -/
def chain : List Op :=
  [.out 0 true 5, .recv 0 asks1, .poll 0, .recv 1 (.ret 7), .poll 1, .poll 0, .poll 0]

/-- Bounded mailboxes. Example data (`src/mailbox.rs` L27-33). -/
def two : Nat → Option Nat := fun _ => some 2

theorem asks1_all {P : Call → Prop} (h : P { tgt := 1 }) : asks1.All P := by
  refine ⟨h, fun x => ?_⟩
  cases x <;> trivial

theorem chain_fair : Fair two (rest chain) := by
  refine fair_low (K := 2) ?_ ?_ ?_
  · simp [chain, Op.low, Prog.All, asks1_all]
  · rfl
  · intro a ha
    rcases show a = 0 ∨ a = 1 by omega with rfl | rfl <;> decide

theorem handlers_rest {l : List Op} {P : Nat → Call → Prop} (h : ∀ a p, Op.recv a p ∈ l → p.All (P a)) :
    Handlers (rest l) P := by
  intro n a p e
  by_cases hn : n < l.length
  · simp only [rest, List.getD, List.getElem?_eq_getElem hn, Option.getD_some] at e
    exact h a p (e ▸ List.getElem_mem hn)
  · simp [rest, List.getD, List.getElem?_eq_none (Nat.le_of_not_lt hn)] at e

theorem chain_descends : Descends two (rest chain) (fun a => 1 - a) := by
  refine handlers_rest fun a p hp => ?_
  simp only [chain, List.mem_cons, Op.recv.injEq, List.not_mem_nil, or_false, false_or, reduceCtorEq] at hp
  rcases hp with ⟨rfl, rfl⟩ | ⟨rfl, rfl⟩
  · exact asks1_all fun _ => by decide
  · trivial

/-! ### Two actors ask each other -/

/-- Actor 1 asks actor 0. Example data (`src/message.rs` L34-58). -/
def asks0 : Prog := .call { tgt := 0 } fun _ => .ret 0

/-- Someone tells actor 0, which asks actor 1, which asks actor 0. Example data (`src/request/ask.rs` L107-157). -/
def circle : List Op := [.out 0 false 5, .recv 0 asks1, .poll 0, .recv 1 asks0, .poll 1]

theorem circle_fair : Fair two (rest circle) := by
  refine fair_low (K := 2) ?_ ?_ ?_
  · simp [circle, Op.low, Prog.All, asks1_all, asks0]
  · rfl
  · intro a ha
    rcases show a = 0 ∨ a = 1 by omega with rfl | rfl <;> decide

end Verif.Calls
