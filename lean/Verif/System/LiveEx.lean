import Verif.System.PropsLive

/-!
A fair execution in which two actors wait for each other for ever: the deadlock of C27 is not the fault of the scheduler.
`sysFairB` decides whether a finite list of operations after which nothing more happens is fair.
-/

set_option linter.unusedSimpArgs false

namespace Verif.System

open Verif.Mailbox Verif.Lifecycle

/-- A step of the task of actor `x`. `src/actor/spawn.rs` L431-590. -/
def ownAt (S : Sys) (x : Id) : SOp → Bool
  | .loc y op => y == x && isLocal op && ownB (S.act x) op
  | _ => false

/-- The task of `x` takes a step of its own during `l`, or has ended after it. `src/actor/spawn.rs` L431-590. -/
def sysTurnIn (S : Sys) (x : Id) : List SOp → Bool
  | [] => (S.act x).phase.ended
  | op :: l => ownAt S x op || sysTurnIn (S.step op) x l

/-- Something a task has to do by itself. `src/actor/spawn.rs` L431-590. -/
def dueB (s : St) : Bool :=
  busyB s && match s.phase with
    | .prepared => false
    | .notifying _ p _ => p.isEmpty
    | _ => true

/-- Whenever one of the first `N` tasks has something to do during `l`, it takes a step later on in `l`, or ends.
`src/actor/spawn.rs` L431-590. -/
def sysTurns (S : Sys) (N : Nat) : List SOp → Bool
  | [] => (List.range N).all fun x => !dueB (S.act x) || sysTurnIn S x []
  | op :: l => ((List.range N).all fun x => !dueB (S.act x) || sysTurnIn S x (op :: l)) && sysTurns (S.step op) N l

/-- What is left in flight after `l` waits for room. `src/mailbox.rs` L498-511. -/
def restB (S : Sys) (N : Nat) : Bool :=
  S.flight.all (fun q => pendingIn (S.act q.2.1) q.2.2) &&
  (List.range N).all fun x => (S.act x).mb.granted.isEmpty && (!(S.act x).phase.inLoop || !(S.act x).aborted) &&
    match (S.act x).phase with
    | .notifying _ p _ => p.all fun j => decide ((x, j) ∈ keys S)
    | _ => true

theorem sysTurnIn_get {S : Sys} {x : Id} {l : List SOp} (h : sysTurnIn S x l = true) :
    (∃ i, ∃ hi : i < l.length, ∃ op, isLocal op = true ∧ l[i] = .loc x op ∧ Own ((S.exec (l.take i)).act x) op) ∨
      ((S.exec l).act x).phase.ended = true := by
  induction l generalizing S with
  | nil => exact Or.inr h
  | cons op l ih =>
    simp only [sysTurnIn, Bool.or_eq_true] at h
    rcases h with h | h
    · left
      refine ⟨0, by simp, ?_⟩
      cases op with
      | loc y o =>
        simp only [ownAt, Bool.and_eq_true, beq_iff_eq] at h
        obtain ⟨⟨rfl, h1⟩, h2⟩ := h
        exact ⟨o, h1, rfl, own_of_ownB h2⟩
      | _ => simp [ownAt] at h
    · rcases ih h with ⟨i, hi, o, h1, h2, h3⟩ | h1
      · exact Or.inl ⟨i + 1, by simpa using hi, o, h1, by simpa using h2, by simpa [Sys.exec] using h3⟩
      · exact Or.inr h1

theorem sysTurns_get {S : Sys} {N : Nat} {l : List SOp} (h : sysTurns S N l = true) {n : Nat} (hn : n ≤ l.length)
    {x : Id} (hx : x < N) (hd : dueB ((S.exec (l.take n)).act x) = true) :
    (∃ i, n ≤ i ∧ ∃ hi : i < l.length, ∃ op, isLocal op = true ∧ l[i] = .loc x op ∧
      Own ((S.exec (l.take i)).act x) op) ∨ ((S.exec l).act x).phase.ended = true := by
  induction l generalizing S n with
  | nil =>
    simp only [sysTurns, List.all_eq_true, List.mem_range, Bool.or_eq_true, Bool.not_eq_true'] at h
    right
    rcases h x hx with h1 | h1
    · simp [Sys.exec] at hd; rw [hd] at h1; cases h1
    · exact h1
  | cons op l ih =>
    simp only [sysTurns, Bool.and_eq_true, List.all_eq_true, List.mem_range, Bool.or_eq_true, Bool.not_eq_true'] at h
    obtain ⟨h1, h2⟩ := h
    cases n with
    | zero =>
      rcases h1 x hx with h3 | h3
      · simp [Sys.exec] at hd; rw [hd] at h3; cases h3
      · rcases sysTurnIn_get h3 with ⟨i, hi, h4⟩ | h4
        · exact Or.inl ⟨i, by omega, hi, h4⟩
        · exact Or.inr h4
    | succ n =>
      rcases ih h2 (n := n) (by simpa using hn) (by simpa [Sys.exec] using hd) with ⟨i, hi, hl, o, h3, h4, h5⟩ | h3
      · exact Or.inl ⟨i + 1, by omega, by simpa using hl, o, h3, by simpa using h4, by simpa [Sys.exec] using h5⟩
      · exact Or.inr h3

theorem sys_aborted_mono {cap : Id → Option Nat} {ops : Nat → SOp} {n k : Nat} (h : n ≤ k) {x : Id}
    (ha : ((sysUpto cap ops n).act x).aborted = true) : ((sysUpto cap ops k).act x).aborted = true := by
  rw [← proj_upto] at ha ⊢
  exact aborted_mono h ha

theorem sys_ended_mono {cap : Id → Option Nat} {ops : Nat → SOp} {n k : Nat} (h : n ≤ k) {x : Id}
    (he : ((sysUpto cap ops n).act x).phase.ended = true) : ((sysUpto cap ops k).act x).phase.ended = true := by
  rw [← (sysUpto_good cap ops n x).shape.closed] at he
  rw [← (sysUpto_good cap ops k x).shape.closed]
  induction h with
  | refl => exact he
  | @step k _ ih =>
    rw [sysUpto_succ]
    rcases (view (sysUpto cap ops k) (ops k) x).ops with e | ⟨o, e⟩
    · rw [e]; exact ih
    · rw [e]; exact closed_step _ o ih

/-- The execution `sysQuiet l` is fair, if it concerns only the first `N` actors: checked on `l`. -/
theorem sysFair_of_tests {cap : Id → Option Nat} {l : List SOp} (N : Nat) (hN : 0 < N)
    (hids : ∀ op ∈ l, ∀ x ∈ op.ids, x < N) (ht : sysTurns (Sys.fresh cap) N l = true)
    (hr : restB (sysAfter cap l) N = true) : SysFair cap (sysQuiet l) := by
  simp only [restB, Bool.and_eq_true, List.all_eq_true, List.mem_range, List.isEmpty_iff, Bool.or_eq_true,
    Bool.not_eq_true'] at hr
  obtain ⟨hfl, hr⟩ := hr
  have hg0 : ((sysAfter cap l).act 0).mb.granted = [] := (hr 0 hN).1.1
  have hrest : ∀ n, l.length ≤ n → sysUpto cap (sysQuiet l) n = sysAfter cap l :=
    fun n hn => sysQuiet_rest cap l hg0 hn
  have hoth : ∀ n x, ¬ x < N → (sysUpto cap (sysQuiet l) n).act x = after (cap x) [] := by
    intro n x hx
    by_cases hn : n ≤ l.length
    · rw [sysQuiet_take _ _ hn]
      exact untouched _ _ x (fun op ho hm => hx (hids op (List.mem_of_mem_take ho) x hm))
    · rw [hrest n (by omega)]
      exact untouched _ _ x (fun op ho hm => hx (hids op ho x hm))
  constructor
  · intro n x hb hp hno
    by_cases hx : x < N
    · have hdue : dueB ((sysUpto cap (sysQuiet l) n).act x) = true := by
        simp only [dueB, Bool.and_eq_true]
        refine ⟨busyB_of_busy hb, ?_⟩
        split
        · next e => exact absurd e hp
        · next e => simp [hno _ _ _ e]
        · rfl
      have key : ∀ n, n ≤ l.length → dueB ((sysUpto cap (sysQuiet l) n).act x) = true → _ := fun n hn hd => by
        rw [sysQuiet_take _ _ hn] at hd
        exact sysTurns_get ht hn hx hd
      have conv : ∀ n, n ≤ l.length → dueB ((sysUpto cap (sysQuiet l) n).act x) = true →
          ∃ m, n ≤ m ∧ ((∃ op, isLocal op = true ∧ sysQuiet l m = .loc x op ∧
            Own ((sysUpto cap (sysQuiet l) m).act x) op) ∨
            ((sysUpto cap (sysQuiet l) m).act x).phase.ended = true) := by
        intro n hn hd
        rcases key n hn hd with ⟨i, hi, hl, o, h1, h2, h3⟩ | h1
        · refine ⟨i, hi, Or.inl ⟨o, h1, ?_, ?_⟩⟩
          · simp [sysQuiet, List.getElem?_eq_getElem hl, h2]
          · rw [sysQuiet_take _ _ (by omega)]; exact h3
        · exact ⟨l.length, hn, Or.inr (by rw [hrest _ (Nat.le_refl _)]; exact h1)⟩
      by_cases hn : n ≤ l.length
      · exact conv n hn hdue
      · have hsame : sysUpto cap (sysQuiet l) n = sysUpto cap (sysQuiet l) l.length := by
          rw [hrest n (by omega), hrest _ (Nat.le_refl _)]
        rw [hsame] at hdue
        rcases key l.length (Nat.le_refl _) hdue with ⟨i, hi, hl, _⟩ | h1
        · omega
        · exact ⟨n, Nat.le_refl _, Or.inr (by rw [hrest n (by omega)]; exact h1)⟩
    · rw [hoth n x hx] at hp
      exact absurd rfl hp
  · intro n i j r p res hp hj
    refine ⟨max n l.length, by omega, ?_⟩
    rw [hrest _ (by omega)]
    by_cases hx : i < N
    · by_cases he : ((sysAfter cap l).act i).phase = .notifying r p res
      · left
        have := (hr i hx).2
        rw [he] at this
        simp only [List.all_eq_true, decide_eq_true_eq] at this
        exact this j hj
      · exact Or.inr he
    · rw [hoth n i hx] at hp; cases hp
  · intro n i j t hm hpe
    refine ⟨max n l.length, by omega, ?_⟩
    by_cases hin : (i, j, t) ∈ (sysUpto cap (sysQuiet l) (max n l.length)).flight
    · right; right
      by_cases hc : ((sysUpto cap (sysQuiet l) n).act i).phase = .crashed
      · exact sys_ended_mono (n := n) (by omega) (by rw [hc]; rfl)
      · have h1 := through_stays (k := max n l.length) (by omega) hm hc hpe
        rw [hrest _ (by omega)] at hin h1
        have h2 := hfl _ hin
        simp only at h2
        rw [h1] at h2; cases h2
    · exact Or.inr (Or.inl hin)
  · intro n x ha hl
    refine ⟨max n l.length, by omega, Or.inr (Or.inr ?_)⟩
    by_cases hx : x < N
    · have h4 := sys_aborted_mono (k := max n l.length) (by omega) ha
      rw [hrest _ (by omega)] at h4 ⊢
      rcases (hr x hx).1.2 with h | h
      · exact h
      · rw [h] at h4; cases h4
    · rw [hoth n x hx] at hl; cases hl
  · intro n x t hg
    refine ⟨max n l.length, by omega, Or.inr ?_⟩
    by_cases hx : x < N
    · rw [hrest _ (by omega), (hr x hx).1.1]; simp
    · rw [hoth _ x hx]; simp [after, St.exec]; intro h; cases h

/-- The chain with mailboxes for one message: its execution is fair, and actor 0 stops although actor 1 has a full mailbox
when the notification is sent. -/
def fullDemo : List SOp := chainDemo ++ [.loc 1 (.send (tell 9)), .loc 0 .kill, .loc 0 .pollEnd, .loc 0 (.stopEnd .ok),
  .notifyStart 0 1, .loc 1 .recv, .loc 1 (.poll 2), .notifyEnd 0 1, .loc 0 .finish, .loc 1 (.handlerEnd (.ret (.ok 0))),
  .loc 1 .recv, .loc 1 (.linkEnd .cont)]

example : SysFair (fun _ => some 1) (sysQuiet fullDemo) ∧
    pendingIn ((sysAfter (fun _ => some 1) (fullDemo.take (chainDemo.length + 5))).act 1) 2 = true ∧
    ((sysAfter (fun _ => some 1) fullDemo).act 0).phase = .stopped .killed ∧
    ((sysAfter (fun _ => some 1) fullDemo).act 1).phase = .idle :=
  ⟨sysFair_of_tests 3 (by omega) (by decide) (by decide) (by decide), by decide, by decide, by decide⟩

theorem embrace_fair : SysFair (fun _ => some 1) (sysQuiet embraceDemo) :=
  sysFair_of_tests 2 (by omega) (by decide) (by decide) (by decide)

theorem embrace_all {P : St → Prop} (h0 : P (after (some 1) []))
    (h : ∀ n, n ≤ embraceDemo.length → ∀ x, x < 2 → P ((sysAfter (fun _ => some 1) (embraceDemo.take n)).act x))
    (n : Nat) (x : Id) : P ((sysUpto (fun _ => some 1) (sysQuiet embraceDemo) n).act x) := by
  have hids : ∀ op ∈ embraceDemo, ∀ x ∈ op.ids, x < 2 := by decide
  have hg : ((sysAfter (fun _ => some 1) embraceDemo).act 0).mb.granted = [] := by decide
  by_cases hn : n ≤ embraceDemo.length
  · rw [sysQuiet_take _ _ hn]
    by_cases hx : x < 2
    · exact h n hn x hx
    · rw [untouched _ _ x (fun op ho hm => hx (hids op (List.mem_of_mem_take ho) x hm))]; exact h0
  · rw [sysQuiet_rest _ _ hg (by omega)]
    by_cases hx : x < 2
    · have := h _ (Nat.le_refl _) x hx
      rwa [List.take_length] at this
    · rw [untouched _ _ x (fun op ho hm => hx (hids op ho x hm))]; exact h0

theorem embrace_not_crashed (n : Nat) (x : Id) :
    ((sysUpto (fun _ => some 1) (sysQuiet embraceDemo) n).act x).phase ≠ .crashed :=
  embrace_all (P := fun s => s.phase ≠ .crashed) (by decide) (by decide) n x

/-- **C27** The deadlock of `stopping_actors_deadlock` in a fair execution: both actors wait for the other for ever. -/
theorem fair_deadlock : ∃ (cap : Id → Option Nat) (ops : Nat → SOp), (∀ x, cap x ≠ some 0) ∧ SysFair cap ops ∧
    (∀ n x, ((sysUpto cap ops n).act x).phase ≠ .crashed) ∧
    ∃ n, ∀ k, n ≤ k → ((sysUpto cap ops k).act 0).phase = .notifying .killed [1] none ∧
      ((sysUpto cap ops k).act 1).phase = .notifying .killed [0] none := by
  have hg : ((sysAfter (fun _ => some 1) embraceDemo).act 0).mb.granted = [] := by decide
  refine ⟨fun _ => some 1, sysQuiet embraceDemo, by simp, embrace_fair, embrace_not_crashed, embraceDemo.length, ?_⟩
  intro k hk
  rw [sysQuiet_rest _ _ hg hk]
  decide

end Verif.System
