import Verif.Boot.Model

/-
Invariants of bootstrapping.
-/

namespace Verif.Boot

/-- The event is the return of call `c`. -/
def Event.isReturn (c : Nat) : Event → Bool
  | .returned c' _ => c' == c
  | _ => false

/-- The commands sent, in order. -/
def sentOf : List Event → List Nat
  | [] => []
  | .sent x :: l => x :: sentOf l
  | _ :: l => sentOf l

/-- The commands taken, in order, by whichever handler. -/
def tookOf : List Event → List Nat
  | [] => []
  | .took _ x :: l => x :: tookOf l
  | _ :: l => tookOf l

theorem tookOf_append (l l' : List Event) : tookOf (l ++ l') = tookOf l ++ tookOf l' := by
  induction l with
  | nil => rfl
  | cons e l ih => cases e <;> simp [tookOf, ih]

theorem sentOf_append (l l' : List Event) : sentOf (l ++ l') = sentOf l ++ sentOf l' := by
  induction l with
  | nil => rfl
  | cons e l ih => cases e <;> simp [sentOf, ih]

/-- What may have happened while the cell is empty. -/
def Quiet : Event → Prop
  | .started _ _ _ => True
  | .returned _ r => r = .notBuilt
  | .saw p => p = none
  | .refused _ => True
  | .sent _ => False
  | .crashed _ => False
  | .took _ _ => False
  | .ended _ => False

/-- What may have happened when `w` is the cell. -/
def Fits (w : Cell) : Event → Prop
  | .returned c (.ok p) => c = w.call ∧ p = w.peer
  | .returned c .panicked => c = w.call
  | .returned _ (.already q _) => q = w.peer
  | .saw (some p) => p = w.peer
  | .took c _ => c = w.call
  | .ended c => c = w.call
  | _ => True

structure Inv (s : State) : Prop where
  fresh : ∀ c, s.next ≤ c → s.call c = none
  lt : ∀ c k p, .started c k p ∈ s.log → c < s.next
  one : ∀ c k p k' p', .started c k p ∈ s.log → .started c k' p' ∈ s.log → k = k' ∧ p = p'
  known : ∀ c k p a, s.call c = some ⟨k, p, a⟩ → .started c k p ∈ s.log
  place : ∀ c k p a, s.call c = some ⟨k, p, a⟩ → (a = .make → k = .identity) ∧
    (a = .check → k = .identity ∨ k = .behaviour)
  lost : ∀ c q b, .returned c (.already q b) ∈ s.log →
    ∃ k p, .started c k p ∈ s.log ∧ k ≠ .manual ∧ (b = some p ∨ b = none ∧ k ≠ .swarm)
  nothing : ∀ c, .returned c .nothing ∈ s.log → ∃ p, .started c .manual p ∈ s.log
  notBuilt : ∀ c, .returned c .notBuilt ∈ s.log → ∃ k p, .started c k p ∈ s.log ∧ k ≠ .manual ∧ k ≠ .swarm
  panicked : ∀ c, .returned c .panicked ∈ s.log → ∃ k p, .started c k p ∈ s.log ∧ k ≠ .manual
  spawn : ∀ c k p, s.call c = some ⟨k, p, .spawn⟩ → s.cell = some ⟨c, p⟩
  empty : s.cell = none → ∀ e ∈ s.log, Quiet e
  fits : ∀ w, s.cell = some w → ∀ e ∈ s.log, Fits w e
  winner : ∀ w, s.cell = some w → ∃ k, .started w.call k w.peer ∈ s.log ∧
    ((s.call w.call = some ⟨k, w.peer, .spawn⟩ ∧ (s.chan w.call).alive = true) ∨
      .returned w.call (.ok w.peer) ∈ s.log ∨
      (.returned w.call .panicked ∈ s.log ∧ (s.chan w.call).alive = false ∧ tookOf s.log = []))
  others : ∀ c, (∀ w, s.cell = some w → w.call ≠ c) → s.chan c = {}
  fifo : ∀ w, s.cell = some w → tookOf s.log ++ (s.chan w.call).queue = sentOf s.log
  over : ∀ c r, .returned c r ∈ s.log → c < s.next ∧ s.call c = none
  held : ∀ w, s.cell = some w → s.call w.call ≠ none → tookOf s.log = []
  ended : ∀ w, s.cell = some w → (s.chan w.call).alive = false →
    .ended w.call ∈ s.log ∨ .returned w.call .panicked ∈ s.log
  gone : ∀ e ∈ s.log, (∃ c, e = .ended c ∨ e = .returned c .panicked) ∨ (∃ x, e = .crashed x) →
    ∃ w, s.cell = some w ∧ (s.chan w.call).alive = false ∧ s.call w.call = none

theorem inv_init : Inv {} := by
  constructor <;> simp

theorem sentOf_quiet {l : List Event} (h : ∀ e ∈ l, Quiet e) : sentOf l = [] ∧ tookOf l = [] := by
  induction l with
  | nil => exact ⟨rfl, rfl⟩
  | cons e l ih =>
    have := h e (by simp)
    cases e <;> simp_all [sentOf, tookOf, Quiet]

theorem quiet_fits {e : Event} (w : Cell) (h : Quiet e) : Fits w e := by
  cases e with
  | returned c r => simp only [Quiet] at h; subst h; exact trivial
  | saw p => simp only [Quiet] at h; subst h; exact trivial
  | started => exact trivial
  | sent => exact h.elim
  | crashed => exact h.elim
  | took => exact h.elim
  | ended => exact h.elim
  | refused => exact trivial

theorem inv_start {s : State} (h : Inv s) (k : Kind) (p : Nat) : Inv (s.step (.start k p)) := by
  obtain ⟨h1, h2, h3, h4, h5, h6, h7, h8, h9, h10, h11, h12, h13, h14, h15, h16, h17, h18, h19⟩ := h
  have hk : (k.first = .make → k = .identity) ∧ (k.first = .check → k = .identity ∨ k = .behaviour) ∧
      k.first ≠ .spawn := by cases k <;> simp [Kind.first]
  simp only [State.step]
  generalize k.first = a at hk
  constructor <;> grind [set, Quiet, Fits, sentOf_append, sentOf, tookOf_append, tookOf, sentOf_quiet]

theorem inv_make {s : State} (h : Inv s) (c : Nat) (ok : Bool) : Inv (s.step (.make c ok)) := by
  obtain ⟨h1, h2, h3, h4, h5, h6, h7, h8, h9, h10, h11, h12, h13, h14, h15, h16, h17, h18, h19⟩ := h
  simp only [State.step, State.finish]
  repeat' split
  all_goals constructor <;> grind [set, Quiet, Fits, sentOf_append, sentOf, tookOf_append, tookOf, sentOf_quiet]

theorem inv_check {s : State} (h : Inv s) (c : Nat) (built : Bool) : Inv (s.step (.check c built)) := by
  obtain ⟨h1, h2, h3, h4, h5, h6, h7, h8, h9, h10, h11, h12, h13, h14, h15, h16, h17, h18, h19⟩ := h
  simp only [State.step, State.finish]
  repeat' split
  all_goals constructor <;> grind [set, Quiet, Fits, sentOf_append, sentOf, tookOf_append, tookOf, sentOf_quiet]

theorem inv_insert {s : State} (h : Inv s) (c : Nat) : Inv (s.step (.insert c)) := by
  obtain ⟨h1, h2, h3, h4, h5, h6, h7, h8, h9, h10, h11, h12, h13, h14, h15, h16, h17, h18, h19⟩ := h
  simp only [State.step, State.finish]
  repeat' split
  · constructor <;> grind [set, Quiet, Fits, sentOf_append, sentOf, tookOf_append, tookOf]
  · constructor <;> grind [set, Quiet, Fits, sentOf_append, sentOf, tookOf_append, tookOf]
  · next k p hc hn =>
    have hq := h11 hn
    have hs := sentOf_quiet hq
    constructor
    case fits =>
      intro w hw e he
      exact quiet_fits w (hq e he)
    case others =>
      intro c' hc'
      have := hc' _ rfl
      simp only at this
      simp only [set, if_neg (Ne.symm this)]
      exact h14 c' (fun w hw => by rw [hn] at hw; cases hw)
    all_goals grind [set]
  · constructor <;> assumption

theorem inv_spawn {s : State} (h : Inv s) (c : Nat) (rt : Bool) : Inv (s.step (.spawn c rt)) := by
  obtain ⟨h1, h2, h3, h4, h5, h6, h7, h8, h9, h10, h11, h12, h13, h14, h15, h16, h17, h18, h19⟩ := h
  simp only [State.step, State.finish]
  repeat' split
  all_goals constructor <;> grind [set, Quiet, Fits, sentOf_append, sentOf, tookOf_append, tookOf, sentOf_quiet]

/-- A channel whose receiver is not that of the cell is empty and has no receiver; a step at it changes nothing. -/
theorem not_cell {s : State} (h : Inv s) {c : Nat} (hc : ∀ w, s.cell = some w → w.call ≠ c) :
    s.step (.ends c) = s ∧ s.step (.take c) = s := by
  have h0 := h.others c hc
  constructor <;> simp [State.step, h0]

theorem inv_ends {s : State} (h : Inv s) (c : Nat) : Inv (s.step (.ends c)) := by
  by_cases hc : ∀ w, s.cell = some w → w.call ≠ c
  · rw [(not_cell h hc).1]
    exact h
  · have hw : ∃ w, s.cell = some w ∧ w.call = c := by grind
    obtain ⟨w, hw, rfl⟩ := hw
    clear hc
    cases hh : s.holds w.call
    · cases ha : (s.chan w.call).alive
      · simp only [State.step, hh, ha]
        exact h
      · obtain ⟨h1, h2, h3, h4, h5, h6, h7, h8, h9, h10, h11, h12, h13, h14, h15, h16, h17, h18, h19⟩ := h
        simp only [State.step, hh, ha, if_true]
        simp only [State.holds, Option.isSome_eq_false_iff, Option.isNone_iff_eq_none] at hh
        constructor <;> grind [set, Quiet, Fits, sentOf_append, sentOf, tookOf_append, tookOf]
    · simp only [State.step, hh, if_true]
      exact h

theorem inv_take {s : State} (h : Inv s) (c : Nat) : Inv (s.step (.take c)) := by
  by_cases hc : ∀ w, s.cell = some w → w.call ≠ c
  · rw [(not_cell h hc).2]
    exact h
  · have hw : ∃ w, s.cell = some w ∧ w.call = c := by grind
    obtain ⟨w, hw, rfl⟩ := hw
    clear hc
    cases hh : s.holds w.call
    · cases ha : (s.chan w.call).alive
      · simp only [State.step, hh, ha]
        exact h
      · cases hq : (s.chan w.call).queue with
        | nil =>
          simp only [State.step, hh, ha, hq]
          exact h
        | cons x q =>
          obtain ⟨h1, h2, h3, h4, h5, h6, h7, h8, h9, h10, h11, h12, h13, h14, h15, h16, h17, h18, h19⟩ := h
          simp only [State.step, hh, ha, hq]
          simp only [State.holds, Option.isSome_eq_false_iff, Option.isNone_iff_eq_none] at hh
          constructor <;> grind [set, Quiet, Fits, sentOf_append, sentOf, tookOf_append, tookOf]
    · simp only [State.step, hh, if_true]
      exact h

theorem inv_get {s : State} (h : Inv s) : Inv (s.step .get) := by
  obtain ⟨h1, h2, h3, h4, h5, h6, h7, h8, h9, h10, h11, h12, h13, h14, h15, h16, h17, h18, h19⟩ := h
  simp only [State.step]
  skip
  all_goals constructor <;> grind [set, Quiet, Fits, sentOf_append, sentOf, tookOf_append, tookOf, sentOf_quiet]

/-- When the receiver of the cell's channel is gone, the call that set the cell is over. -/
theorem dead_over {s : State} (h : Inv s) {w : Cell} (hw : s.cell = some w) (hd : (s.chan w.call).alive = false) :
    s.call w.call = none := by
  rcases h.ended w hw hd with h' | h'
  · obtain ⟨w', hw', _, hc⟩ := h.gone _ h' (.inl ⟨_, .inl rfl⟩)
    rw [hw] at hw'
    cases hw'
    exact hc
  · obtain ⟨w', hw', _, hc⟩ := h.gone _ h' (.inl ⟨_, .inr rfl⟩)
    rw [hw] at hw'
    cases hw'
    exact hc

theorem inv_send {s : State} (h : Inv s) (x : Nat) : Inv (s.step (.send x)) := by
  have hd := fun w => dead_over (w := w) h
  obtain ⟨h1, h2, h3, h4, h5, h6, h7, h8, h9, h10, h11, h12, h13, h14, h15, h16, h17, h18, h19⟩ := h
  simp only [State.step]
  repeat' split
  all_goals constructor <;> grind [set, Quiet, Fits, sentOf_append, sentOf, tookOf_append, tookOf]

theorem inv_step {s : State} (h : Inv s) (op : Op) : Inv (s.step op) := by
  cases op with
  | start k p => exact inv_start h k p
  | make c ok => exact inv_make h c ok
  | check c built => exact inv_check h c built
  | insert c => exact inv_insert h c
  | spawn c rt => exact inv_spawn h c rt
  | ends c => exact inv_ends h c
  | take c => exact inv_take h c
  | get => exact inv_get h
  | send x => exact inv_send h x

theorem inv_run (ops : List Op) : Inv (run ops) := by
  suffices ∀ s, Inv s → Inv (ops.foldl State.step s) from this _ inv_init
  induction ops with
  | nil => exact fun _ h => h
  | cons op ops ih => exact fun s h => ih _ (inv_step h op)

/-- A call that is over has returned once; one under way, or not yet made, has not. -/
def Returns (c : Nat) (s : State) : Prop :=
  (s.log.filter (Event.isReturn c)).length = if c < s.next ∧ s.call c = none then 1 else 0

theorem returns_finish {s : State} {c c' : Nat} (hi : Inv s) (h : Returns c s) (hn : s.call c' ≠ none) (r : Res)
    (ch : Nat → Chan) : Returns c { s.finish c' r with chan := ch } := by
  have hc := h
  have hf := hi.fresh
  simp only [Returns, State.finish, List.filter_append, List.length_append] at hc ⊢
  rw [hc]
  grind [set, Event.isReturn]

theorem returns_step {s : State} {c : Nat} (hi : Inv s) (h : Returns c s) (op : Op) : Returns c (s.step op) := by
  have hf := hi.fresh
  have key := fun c' hn r => returns_finish (c' := c') hi h hn r s.chan
  cases op with
  | start k p =>
    simp only [Returns, State.step, List.filter_append, List.length_append] at h ⊢
    rw [h]
    grind [set, Event.isReturn]
  | make c' ok =>
    simp only [State.step]
    split
    · next hc =>
      split
      · simp only [Returns] at h ⊢
        rw [h]
        grind [set]
      · exact key c' (by simp [hc]) _
    · exact h
  | check c' ok =>
    simp only [State.step]
    split
    · next hc =>
      split
      · exact key c' (by simp [hc]) _
      · split
        · simp only [Returns] at h ⊢
          rw [h]
          grind [set]
        · exact key c' (by simp [hc]) _
    · exact h
  | insert c' =>
    simp only [State.step]
    split
    · next hc =>
      split
      · exact key c' (by simp [hc]) _
      · simp only [Returns] at h ⊢
        rw [h]
        grind [set]
    · exact h
  | spawn c' rt =>
    simp only [State.step]
    split
    · next hc =>
      split
      · exact key c' (by simp [hc]) _
      · exact returns_finish hi h (by simp [hc]) _ _
    · exact h
  | ends c' =>
    simp only [State.step]
    split
    · exact h
    · split
      · simp only [Returns, List.filter_append, List.length_append] at h ⊢
        rw [h]
        grind [Event.isReturn]
      · exact h
  | take c' =>
    simp only [State.step]
    split
    · exact h
    · split
      · simp only [Returns, List.filter_append, List.length_append] at h ⊢
        rw [h]
        grind [Event.isReturn]
      · exact h
  | get =>
    simp only [Returns, State.step, List.filter_append, List.length_append] at h ⊢
    rw [h]
    grind [Event.isReturn]
  | send x =>
    simp only [State.step]
    split
    · simp only [Returns, List.filter_append, List.length_append] at h ⊢
      rw [h]
      simp [Event.isReturn]
    · split <;>
      · simp only [Returns, List.filter_append, List.length_append] at h ⊢
        rw [h]
        simp [Event.isReturn]

theorem returns_run (ops : List Op) (c : Nat) : Returns c (run ops) := by
  suffices ∀ s, Inv s → Returns c s → Returns c (ops.foldl State.step s) from
    this _ inv_init (by simp [Returns])
  induction ops with
  | nil => exact fun _ _ h => h
  | cons op ops ih => exact fun s hi h => ih _ (inv_step hi op) (returns_step hi h op)

/-- A call that has returned is over. -/
theorem returned_none {s : State} (h : Inv s) {c : Nat} {r : Res} (hr : .returned c r ∈ s.log) : s.call c = none :=
  (h.over c r hr).2

end Verif.Boot
