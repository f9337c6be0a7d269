import Verif.Boot.Props

/-
More property theorems about bootstrapping (C92): what becomes of a call on a node that is not bootstrapped, and of the
handler of the call that succeeded.
-/

namespace Verif.Boot

/-- What a call returns that nobody gets ahead of: `ok` says whether the behaviour could be made, `built` whether the swarm
could be built, `rt` whether it is made in a runtime. -/
def alone (k : Kind) (p : Nat) (ok built rt : Bool) : Res :=
  match k with
  | .manual => .ok p
  | .swarm => if rt then .ok p else .panicked
  | .behaviour => if !built then .notBuilt else if rt then .ok p else .panicked
  | .identity => if !ok || !built then .notBuilt else if rt then .ok p else .panicked

/-- **C92**: whatever happened before, on a node whose swarm nobody would see a call that is not overtaken succeeds, if its
behaviour and swarm can be made and it is in a runtime; and a call that fails in making them leaves the node as it was: the
next one can succeed. -/
theorem first_call_succeeds (ops : List Op) (hn : (run (ops ++ [.get])).log = (run ops).log ++ [.saw none]) {c : Nat}
    (hc : c = (run ops).next) (k : Kind) (p : Nat) (ok built rt : Bool) :
    let ops' := ops ++ [.start k p, .make c ok, .check c built, .insert c, .spawn c rt]
    (run ops').log = (run ops).log ++ [.started c k p, .returned c (alone k p ok built rt)] ∧
      (run (ops' ++ [.get])).log = (run ops').log ++ [.saw (if alone k p ok built rt = .notBuilt then none else some p)] := by
  have happ : ∀ l, run (ops ++ l) = l.foldl State.step (run ops) := fun l => by simp [run]
  have hcell : (run ops).cell = none := by
    rw [happ] at hn
    simpa [State.step] using hn
  subst hc
  dsimp only
  rw [List.append_assoc, happ, happ]
  cases k <;> cases ok <;> cases built <;> cases rt <;>
    simp [State.step, State.finish, Kind.first, set, hcell, alone]

/-- A call failed in making its behaviour, the next one succeeds. -/
example : (run ([.start .identity 4, .make 0 false] ++ [.get])).log =
      (run [.start .identity 4, .make 0 false]).log ++ [.saw none] ∧
    (run ([.start .identity 4, .make 0 false] ++ [.start .behaviour 5, .make 1 true, .check 1 true, .insert 1, .spawn 1 true])).log
      = [.started 0 .identity 4, .returned 0 .notBuilt, .started 1 .behaviour 5, .returned 1 (.ok 5)] := by decide

/-- **C92**: the handler of the call that succeeded can end at any time, once, and the handler of no other call can. -/
theorem winner_can_end (ops : List Op) {c p : Nat} (h : .returned c (.ok p) ∈ (run ops).log) :
    (run (ops ++ [.ends c])).log = (run ops).log ++ (if .ended c ∈ (run ops).log then [] else [.ended c]) ∧
      ∀ c', c' ≠ c → (run (ops ++ [.ends c'])).log = (run ops).log := by
  have hi := inv_run ops
  have happ : ∀ l, run (ops ++ l) = l.foldl State.step (run ops) := fun l => by simp [run]
  have hcell : ∃ w, (run ops).cell = some w ∧ w.call = c := by
    cases hw : (run ops).cell with
    | none => exact absurd (hi.empty hw _ h) (by simp [Quiet])
    | some w => exact ⟨w, rfl, (hi.fits w hw _ h).1.symm⟩
  obtain ⟨w, hw, rfl⟩ := hcell
  have hcall := (hi.over _ _ h).2
  constructor
  · rw [happ]
    cases ha : ((run ops).chan w.call).alive with
    | true =>
      have hne : .ended w.call ∉ (run ops).log := by
        intro hm
        obtain ⟨w', hw', hd, _⟩ := hi.gone _ hm (.inl ⟨_, .inl rfl⟩)
        rw [hw, Option.some.injEq] at hw'
        rw [← hw', ha] at hd
        cases hd
      simp [State.step, State.holds, hcall, ha, hne]
    | false =>
      have he : .ended w.call ∈ (run ops).log := by
        rcases hi.ended w hw ha with he | he
        · exact he
        · have := (one_winner ops h (.inr rfl) he).2
          cases this
      simp [State.step, State.holds, hcall, ha, he]
  · intro c' hne
    rw [happ]
    have := hi.others c' (fun w' hw' heq => hne (by rw [hw, Option.some.injEq] at hw'; rw [hw', heq]))
    simp [State.step, this]

/-- The handler of a node ends; a second time nothing happens, and a call that lost has no handler. -/
example : Event.returned 0 (.ok 8) ∈ (run [.start .swarm 8, .insert 0, .spawn 0 true, .start .swarm 9, .insert 1]).log ∧
    (run [.start .swarm 8, .insert 0, .spawn 0 true, .start .swarm 9, .insert 1, .ends 1, .ends 0, .ends 0]).log =
      [.started 0 .swarm 8, .returned 0 (.ok 8), .started 1 .swarm 9, .returned 1 (.already 8 (some 9)), .ended 0] := by
  decide

/-- What is known of the calls from number `n` on, all made after the cell was set to `w`. -/
structure LateInv (w : Cell) (n : Nat) (s : State) : Prop where
  cell : s.cell = some w
  next : n ≤ s.next
  under : ∀ c k p a, n ≤ c → s.call c = some ⟨k, p, a⟩ → c < s.next ∧ .started c k p ∈ s.log ∧
    ((k = .manual ∨ k = .swarm) ∧ a = .insert ∨ k = .behaviour ∧ a = .check ∨ k = .identity ∧ (a = .make ∨ a = .check))
  over : ∀ c r, n ≤ c → .returned c r ∈ s.log → ∃ k p, .started c k p ∈ s.log ∧
    (r = told w.peer k p ∨ k = .identity ∧ r = .notBuilt)

theorem lateInv_step {w : Cell} {n : Nat} {s : State} (h : LateInv w n s) (op : Op) : LateInv w n (s.step op) := by
  obtain ⟨h1, h2, h3, h4⟩ := h
  cases op with
  | start k p =>
    have hk : (k = .manual ∨ k = .swarm) ∧ k.first = .insert ∨ k = .behaviour ∧ k.first = .check ∨
        k = .identity ∧ (k.first = .make ∨ k.first = .check) := by cases k <;> simp [Kind.first]
    simp only [State.step]
    constructor <;> grind [set]
  | _ =>
    simp only [State.step, State.finish]
    (repeat' split) <;> constructor <;> grind [set, told]

/-- **C92** (negation of a clause, for every history): whatever happened before, once somebody would see a swarm, every call
made from then on, however many and however interleaved, returns what `told` says, or fails in making its behaviour. In
particular no behaviour is ever handed back: `bootstrap_with_behaviour` and `bootstrap_with_identity` look at the cell
before they build a swarm of it. -/
theorem late_call_told (ops rest : List Op) (q : Nat)
    (hs : (run (ops ++ [.get])).log = (run ops).log ++ [.saw (some q)]) {c : Nat} {k : Kind} {p : Nat} {r : Res}
    (hc : .started c k p ∉ (run ops).log) (hk : .started c k p ∈ (run (ops ++ rest)).log)
    (hr : .returned c r ∈ (run (ops ++ rest)).log) :
    r = told q k p ∨ k = .identity ∧ r = .notBuilt := by
  have happ : ∀ l, run (ops ++ l) = l.foldl State.step (run ops) := fun l => by simp [run]
  have hi := inv_run ops
  obtain ⟨w, hw, rfl⟩ : ∃ w, (run ops).cell = some w ∧ w.peer = q := by
    rw [happ] at hs
    simpa [State.step] using hs
  have hstart : ∀ (l : List Op) (s : State), (LateInv w (run ops).next s ∧
      ∀ c k p, .started c k p ∈ s.log → .started c k p ∈ (run ops).log ∨ (run ops).next ≤ c) →
      (LateInv w (run ops).next (l.foldl State.step s) ∧ ∀ c k p, .started c k p ∈ (l.foldl State.step s).log →
        .started c k p ∈ (run ops).log ∨ (run ops).next ≤ c) := by
    intro l
    induction l with
    | nil => exact fun s h => h
    | cons op l ih =>
      rintro s ⟨h1, h2⟩
      refine ih _ ⟨lateInv_step h1 op, ?_⟩
      have hn := h1.next
      intro c k p
      cases op <;> simp only [State.step, State.finish] <;> (repeat' split) <;> grind
  have hinit : LateInv w (run ops).next (run ops) := by
    refine ⟨hw, Nat.le_refl _, ?_, ?_⟩
    · intro c k p a hn hc
      rw [hi.fresh c hn] at hc
      cases hc
    · intro c r hn hr
      exact absurd (hi.over c r hr).1 (by omega)
  have hall := hstart rest (run ops) ⟨hinit, fun _ _ _ h => .inl h⟩
  rw [← happ] at hall
  obtain ⟨hl, hst⟩ := hall
  have hn : (run ops).next ≤ c := (hst c k p hk).resolve_left hc
  obtain ⟨k', p', hk', hres⟩ := hl.over c r hn hr
  obtain ⟨rfl, rfl⟩ := (inv_run (ops ++ rest)).one _ _ _ _ _ hk hk'
  exact hres

/-- A node is bootstrapped; then three calls run at the same time. -/
example :
    let ops : List Op := [.start .swarm 8, .insert 0, .spawn 0 true]
    let rest : List Op := [.start .behaviour 7, .start .identity 6, .start .swarm 5, .make 2 false, .insert 3, .check 1 true]
    (run (ops ++ [.get])).log = (run ops).log ++ [.saw (some 8)] ∧
      .started 1 .behaviour 7 ∉ (run ops).log ∧ .started 1 .behaviour 7 ∈ (run (ops ++ rest)).log ∧
      .returned 1 (.already 8 none) ∈ (run (ops ++ rest)).log ∧ .returned 2 .notBuilt ∈ (run (ops ++ rest)).log ∧
      .returned 3 (.already 8 (some 5)) ∈ (run (ops ++ rest)).log := by decide

end Verif.Boot
