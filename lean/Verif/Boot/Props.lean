import Verif.Boot.Order

/-
Property theorems about bootstrapping (C92). They speak of the history only: which calls were made, what they returned,
what people saw and sent, and what the handlers took.
-/

namespace Verif.Boot

/-- A history used in the examples: three calls at once, of which the second sets the cell first; the others are told; a
command is sent and taken. -/
def race : List Op :=
  [.start .behaviour 7, .start .swarm 8, .start .manual 9, .get, .check 0 true, .insert 1, .send 41, .insert 0, .spawn 1 true,
    .insert 2, .send 42, .take 1, .get]

/-- **C92**: no two calls succeed, and no call succeeds when another has brought the swarm up and panicked over it. -/
theorem one_winner (ops : List Op) {c c' p : Nat} {r : Res} (h : .returned c (.ok p) ∈ (run ops).log)
    (hr : (∃ p', r = .ok p') ∨ r = .panicked) (h' : .returned c' r ∈ (run ops).log) : c' = c ∧ r = .ok p := by
  have hi := inv_run ops
  cases hc : (run ops).cell with
  | none => exact nomatch hi.empty hc _ h
  | some w =>
    obtain ⟨rfl, rfl⟩ := hi.fits w hc _ h
    rcases hr with ⟨p', rfl⟩ | rfl
    · obtain ⟨rfl, rfl⟩ := hi.fits w hc _ h'
      exact ⟨rfl, rfl⟩
    · have e : c' = w.call := hi.fits w hc _ h'
      subst e
      exfalso
      have hlen := returns_run ops w.call
      unfold Returns at hlen
      have hle : ((run ops).log.filter (Event.isReturn w.call)).length ≤ 1 := by rw [hlen]; split <;> omega
      have m1 : Event.returned w.call (.ok w.peer) ∈ (run ops).log.filter (Event.isReturn w.call) := by
        simp [h, Event.isReturn]
      have m2 : Event.returned w.call .panicked ∈ (run ops).log.filter (Event.isReturn w.call) := by
        simp [h', Event.isReturn]
      match hl : (run ops).log.filter (Event.isReturn w.call), hle with
      | [], _ => rw [hl] at m1; cases m1
      | [e], _ =>
        rw [hl] at m1 m2
        simp only [List.mem_singleton] at m1 m2
        rw [← m1] at m2
        cases m2

example : (run race).log.filter (fun e => match e with | .returned _ (.ok _) => true | _ => false) = [.returned 1 (.ok 8)] := by
  decide

/-- **C92**: when all the calls made are over, exactly one has set the cell — it succeeded, or panicked — unless all of
them failed for want of a behaviour. -/
theorem exactly_one_partial (ops : List Op) (hall : ∀ c k p, .started c k p ∈ (run ops).log →
      ∃ r, .returned c r ∈ (run ops).log) {c : Nat} {r : Res} (hc : .returned c r ∈ (run ops).log) (hr : r ≠ .notBuilt) :
    ∃ w k p, .started w k p ∈ (run ops).log ∧
      (.returned w (.ok p) ∈ (run ops).log ∨ .returned w .panicked ∈ (run ops).log) ∧
      ∀ c', ((∃ p', .returned c' (.ok p') ∈ (run ops).log) ∨ .returned c' .panicked ∈ (run ops).log) → c' = w := by
  have hi := inv_run ops
  cases hcell : (run ops).cell with
  | none => exact absurd (hi.empty hcell _ hc) hr
  | some w =>
    obtain ⟨k, hk, hs⟩ := hi.winner w hcell
    refine ⟨w.call, k, w.peer, hk, ?_, ?_⟩
    · rcases hs with hs | hs | hs
      · obtain ⟨r', hr'⟩ := hall _ _ _ hk
        have := returned_none hi hr'
        rw [hs.1] at this
        cases this
      · exact .inl hs
      · exact .inr hs.1
    · rintro c' (⟨p', h'⟩ | h')
      · exact (hi.fits w hcell _ h').1
      · exact hi.fits w hcell _ h'

example : (∀ c, c < 3 → ∃ r, Event.returned c r ∈ (run race).log) ∧ Event.returned 1 (.ok 8) ∈ (run race).log := by
  refine ⟨fun c hc => ?_, by decide⟩
  match c, hc with
  | 0, _ => exact ⟨.already 8 (some 7), by decide⟩
  | 1, _ => exact ⟨.ok 8, by decide⟩
  | 2, _ => exact ⟨.nothing, by decide⟩

/-- **C92**: a call returns at most once. -/
theorem returns_once (ops : List Op) (c : Nat) (l1 l2 : List Event) (r r' : Res)
    (h : (run ops).log = l1 ++ .returned c r :: l2) : Event.returned c r' ∉ l1 ∧ Event.returned c r' ∉ l2 := by
  have hlen := returns_run ops c
  unfold Returns at hlen
  have hle : ((run ops).log.filter (Event.isReturn c)).length ≤ 1 := by rw [hlen]; split <;> omega
  rw [h, List.filter_append, List.length_append, List.filter_cons_of_pos (by simp [Event.isReturn])] at hle
  simp only [List.length_cons] at hle
  have hz1 : (l1.filter (Event.isReturn c)) = [] := List.eq_nil_of_length_eq_zero (by omega)
  have hz2 : (l2.filter (Event.isReturn c)) = [] := List.eq_nil_of_length_eq_zero (by omega)
  rw [List.filter_eq_nil_iff] at hz1 hz2
  exact ⟨fun hm => hz1 _ hm (by simp [Event.isReturn]), fun hm => hz2 _ hm (by simp [Event.isReturn])⟩

example : ∃ l1 l2, (run race).log = l1 ++ .returned 0 (.already 8 (some 7)) :: l2 ∧ l1.length = 5 ∧ l2 ≠ [] :=
  ⟨(run race).log.take 5, (run race).log.drop 6, by decide, by decide, by decide⟩

/-- **C92**: a call that is told that the node is bootstrapped already is told the peer of another call, made before; and
whoever succeeded, then or later, is the call it was told of. -/
theorem loser_told (ops : List Op) (l1 l2 : List Event) {c q : Nat} {b : Option Nat}
    (h : (run ops).log = l1 ++ .returned c (.already q b) :: l2) :
    (∃ w k, w ≠ c ∧ .started w k q ∈ l1) ∧ ∀ w p, .returned w (.ok p) ∈ (run ops).log → p = q ∧ w ≠ c := by
  have hi := inv_run ops
  refine ⟨ordered_run ops l1 _ l2 h, fun w p hw => ?_⟩
  have hm : Event.returned c (.already q b) ∈ (run ops).log := by rw [h]; simp
  cases hcell : (run ops).cell with
  | none => exact absurd (hi.empty hcell _ hm) (by simp [Quiet])
  | some w' =>
    have h1 := hi.fits w' hcell _ hm
    have h2 := hi.fits w' hcell _ hw
    refine ⟨h2.2.trans h1.symm, ?_⟩
    rintro rfl
    have := returns_once ops w l1 l2 _ (.ok p) h
    rw [h] at hw
    simp only [List.mem_append, List.mem_cons, reduceCtorEq, Event.returned.injEq, and_false, false_or] at hw
    rcases hw with hw | hw
    · exact this.1 hw
    · exact this.2 hw

example : ∃ l1 l2, (run race).log = l1 ++ .returned 0 (.already 8 (some 7)) :: l2 ∧ .started 1 .swarm 8 ∈ l1 ∧
    .returned 1 (.ok 8) ∈ l2 :=
  ⟨(run race).log.take 5, (run race).log.drop 6, by decide, by decide, by decide⟩

/-- **C92**: a call that loses gets the swarm it passed back, or, when it passed a behaviour, the swarm made of it;
`bootstrap_manual`, which passes none, gets `None`. Missing: where `bootstrap_with_behaviour` finds the cell set before it
builds a swarm, the behaviour and the key pair are gone (`behaviour_not_handed_back`). -/
theorem loser_gets_back_partial (ops : List Op) {c p : Nat} {k : Kind} (hs : .started c k p ∈ (run ops).log) {r : Res}
    (hr : .returned c r ∈ (run ops).log) :
    r = .ok p ∨ (k ≠ .manual ∧ r = .panicked) ∨ (k = .manual ∧ r = .nothing) ∨
      (k ≠ .manual ∧ ∃ q, r = .already q (some p)) ∨
      ((k = .behaviour ∨ k = .identity) ∧ (r = .notBuilt ∨ ∃ q, r = .already q none)) := by
  have hi := inv_run ops
  cases r with
  | ok p' =>
    cases hcell : (run ops).cell with
    | none => exact nomatch hi.empty hcell _ hr
    | some w =>
      obtain ⟨rfl, rfl⟩ := hi.fits w hcell _ hr
      obtain ⟨k', hk', _⟩ := hi.winner w hcell
      obtain ⟨_, rfl⟩ := hi.one _ _ _ _ _ hs hk'
      exact .inl rfl
  | already q b =>
    obtain ⟨k', p', hk', hm, hb⟩ := hi.lost _ _ _ hr
    obtain ⟨rfl, rfl⟩ := hi.one _ _ _ _ _ hs hk'
    rcases hb with rfl | ⟨rfl, hb⟩
    · exact .inr (.inr (.inr (.inl ⟨hm, q, rfl⟩)))
    · refine .inr (.inr (.inr (.inr ⟨?_, .inr ⟨q, rfl⟩⟩)))
      cases k <;> simp_all
  | nothing =>
    obtain ⟨p', hk'⟩ := hi.nothing _ hr
    obtain ⟨rfl, rfl⟩ := hi.one _ _ _ _ _ hs hk'
    exact .inr (.inr (.inl ⟨rfl, rfl⟩))
  | notBuilt =>
    obtain ⟨k', p', hk', h1, h2⟩ := hi.notBuilt _ hr
    obtain ⟨rfl, rfl⟩ := hi.one _ _ _ _ _ hs hk'
    refine .inr (.inr (.inr (.inr ⟨?_, .inl rfl⟩)))
    cases k <;> simp_all
  | panicked =>
    obtain ⟨k', p', hk', h1⟩ := hi.panicked _ hr
    obtain ⟨rfl, rfl⟩ := hi.one _ _ _ _ _ hs hk'
    exact .inr (.inl ⟨h1, rfl⟩)

example : .started 0 .behaviour 7 ∈ (run race).log ∧ .returned 0 (.already 8 (some 7)) ∈ (run race).log ∧
    .started 2 .manual 9 ∈ (run race).log ∧ .returned 2 .nothing ∈ (run race).log := by decide

/-- **C92** (negation of a clause): a behaviour passed to a node that is bootstrapped already is not handed back. -/
theorem behaviour_not_handed_back : ∃ ops, .started 1 .behaviour 7 ∈ (run ops).log ∧
    .returned 1 (.already 8 none) ∈ (run ops).log :=
  ⟨[.start .swarm 8, .insert 0, .spawn 0 true, .start .behaviour 7, .check 1 true], by decide⟩

/-- **C92**: once anything shows that the node is bootstrapped — a call succeeded, or was told, or somebody saw the swarm
or sent a command — everybody sees the swarm, and always the same: that of the call that everybody is told of. -/
theorem get_stable (ops : List Op) (l1 l2 : List Event) {e : Event} (h : (run ops).log = l1 ++ e :: l2)
    (he : (∃ p, e = .saw (some p)) ∨ (∃ c r, e = .returned c r ∧ r ≠ .notBuilt) ∨ (∃ x, e = .sent x ∨ e = .crashed x)) :
    (∀ o, .saw o ∈ l2 → o ≠ none) ∧ (∀ x, .refused x ∉ l2) ∧
      ∀ p p', .saw (some p) ∈ (run ops).log → (.saw (some p') ∈ (run ops).log ∨
        (∃ c, .returned c (.ok p') ∈ (run ops).log) ∨ ∃ c b, .returned c (.already p' b) ∈ (run ops).log) → p' = p := by
  have hi := inv_run ops
  have hne : ¬ Quiet e := by
    rcases he with ⟨p, rfl⟩ | ⟨c, r, rfl, hr⟩ | ⟨x, rfl | rfl⟩
    · simp [Quiet]
    · exact hr
    · simp [Quiet]
    · simp [Quiet]
  have hcut : ∀ e', e' ∈ l2 → ∃ l3 l4, (run ops).log = (l1 ++ e :: l3) ++ e' :: l4 := by
    intro e' he'
    obtain ⟨l3, l4, rfl⟩ := List.append_of_mem he'
    exact ⟨l3, l4, by rw [h]; simp⟩
  refine ⟨?_, ?_, ?_⟩
  · rintro o ho rfl
    obtain ⟨l3, l4, hl⟩ := hcut _ ho
    exact hne (ordered_run ops _ _ _ hl e (by simp))
  · intro x ho
    obtain ⟨l3, l4, hl⟩ := hcut _ ho
    exact hne (ordered_run ops _ _ _ hl e (by simp))
  · intro p p' hp hp'
    cases hcell : (run ops).cell with
    | none => exact absurd (hi.empty hcell _ hp) (by simp [Quiet])
    | some w =>
      have h1 := hi.fits w hcell _ hp
      rcases hp' with h2 | ⟨c, h2⟩ | ⟨c, b, h2⟩
      · exact (hi.fits w hcell _ h2 : p' = w.peer).trans h1.symm
      · exact (hi.fits w hcell _ h2 : c = w.call ∧ p' = w.peer).2.trans h1.symm
      · exact (hi.fits w hcell _ h2 : p' = w.peer).trans h1.symm

example : ∃ l1 l2, (run race).log = l1 ++ .sent 41 :: l2 ∧ .saw (some 8) ∈ l2 ∧ .saw none ∈ l1 :=
  ⟨(run race).log.take 4, (run race).log.drop 5, by decide, by decide, by decide⟩

/-- **C92**: commands are taken by the handler of the call that succeeded, and by no other, and in the order sent: those
taken are the first of those sent. -/
theorem commands_in_order (ops : List Op) :
    tookOf (run ops).log <+: sentOf (run ops).log ∧
      ∀ c x, .took c x ∈ (run ops).log → ∃ p, .returned c (.ok p) ∈ (run ops).log := by
  have hi := inv_run ops
  cases hcell : (run ops).cell with
  | none =>
    have hq := hi.empty hcell
    rw [(sentOf_quiet hq).1, (sentOf_quiet hq).2]
    exact ⟨List.prefix_rfl, fun c x hx => absurd (hq _ hx) (by simp [Quiet])⟩
  | some w =>
    refine ⟨⟨_, hi.fifo w hcell⟩, fun c x hx => ?_⟩
    obtain rfl : c = w.call := hi.fits w hcell _ hx
    have hne : tookOf (run ops).log ≠ [] := by
      obtain ⟨l1, l2, hl⟩ := List.append_of_mem hx
      rw [hl, tookOf_append]
      simp [tookOf]
    obtain ⟨k, hk, hs | hs | hs⟩ := hi.winner w hcell
    · exact absurd (hi.held w hcell (by simp [hs.1])) hne
    · exact ⟨_, hs⟩
    · exact absurd hs.2.2 hne

example : tookOf (run race).log = [41] ∧ sentOf (run race).log = [41, 42] := by decide

/-- **C92**: nothing sent is lost as long as the handler is there: it has taken it or has it to take. -/
theorem sent_not_lost (ops : List Op) (hg : ∀ c, .ended c ∉ (run ops).log ∧ .returned c .panicked ∉ (run ops).log) :
    (∀ x, .crashed x ∉ (run ops).log) ∧ ∀ c p, .returned c (.ok p) ∈ (run ops).log →
      ∃ takes, tookOf (run (ops ++ takes)).log = sentOf (run ops).log := by
  have hi := inv_run ops
  refine ⟨fun x hx => ?_, fun c p hok => ?_⟩
  · obtain ⟨l1, l2, hl⟩ := List.append_of_mem hx
    obtain ⟨c, hc⟩ := ordered_run ops l1 _ l2 hl
    have := hg c
    rw [hl] at this
    rcases hc with hc | hc
    · exact this.1 (by simp [hc])
    · exact this.2 (by simp [hc])
  · cases hcell : (run ops).cell with
    | none => exact absurd (hi.empty hcell _ hok) (by simp [Quiet])
    | some w =>
      obtain ⟨rfl, rfl⟩ := hi.fits w hcell _ hok
      have hcall := returned_none hi hok
      have hal : ((run ops).chan w.call).alive = true := by
        cases ha : ((run ops).chan w.call).alive with
        | true => rfl
        | false =>
          rcases hi.ended w hcell ha with h | h
          · exact absurd h (hg _).1
          · exact absurd h (hg _).2
      have key : ∀ (q : List Nat) (s : State), (s.chan w.call).alive = true → s.call w.call = none →
          (s.chan w.call).queue = q → ∃ takes : List Op, tookOf (takes.foldl State.step s).log = tookOf s.log ++ q := by
        intro q
        induction q with
        | nil => exact fun s _ _ _ => ⟨[], by simp⟩
        | cons x q ih =>
          intro s h1 h2 h3
          have hstep : s.step (.take w.call) =
              { s with chan := set s.chan w.call { s.chan w.call with queue := q }, log := s.log ++ [.took w.call x] } := by
            simp [State.step, State.holds, h1, h2, h3]
          obtain ⟨takes, ht⟩ := ih (s.step (.take w.call)) (by rw [hstep]; simp [set, h1]) (by rw [hstep]; exact h2)
            (by rw [hstep]; simp [set])
          refine ⟨.take w.call :: takes, ?_⟩
          rw [List.foldl_cons, ht, hstep, tookOf_append]
          simp [tookOf]
      obtain ⟨takes, ht⟩ := key _ (run ops) hal hcall rfl
      refine ⟨takes, ?_⟩
      simp only [run, List.foldl_append] at ht ⊢
      rw [ht]
      exact hi.fifo w hcell

example : (∀ c, Event.ended c ∉ (run race).log ∧ Event.returned c .panicked ∉ (run race).log) ∧
    Event.returned 1 (.ok 8) ∈ (run race).log := by
  have hl : (run race).log = [.started 0 .behaviour 7, .started 1 .swarm 8, .started 2 .manual 9, .saw none, .sent 41,
    .returned 0 (.already 8 (some 7)), .returned 1 (.ok 8), .returned 2 .nothing, .sent 42, .took 1 41, .saw (some 8)] := by
    decide
  rw [hl]
  simp

/-- **C92** (negation of the last clause): once the handler is gone — it ended, or the call that set the cell panicked where
no runtime was, or somebody's command found nobody — it is gone for good: no call ever succeeds, no command is ever
accepted, nothing sent before is ever taken; and a command is refused with an error only before. -/
theorem gone_for_good (ops : List Op) (l1 l2 : List Event) {e : Event} (h : (run ops).log = l1 ++ e :: l2)
    (he : (∃ c, e = .ended c ∨ e = .returned c .panicked) ∨ ∃ x, e = .crashed x) :
    (∀ c p, .returned c (.ok p) ∉ l2) ∧ (∀ x, .sent x ∉ l2) ∧ (∀ c x, .took c x ∉ l2) ∧ (∀ x, .refused x ∉ l2) ∧
      ∀ c p, .returned c (.ok p) ∈ l1 → ∀ c', .returned c' .panicked ∉ (run ops).log := by
  have hcut : ∀ e', e' ∈ l2 → ∃ l3 l4, (run ops).log = (l1 ++ e :: l3) ++ e' :: l4 := by
    intro e' he'
    obtain ⟨l3, l4, rfl⟩ := List.append_of_mem he'
    exact ⟨l3, l4, by rw [h]; simp⟩
  have hg : Gone e := by
    rcases he with ⟨c, rfl | rfl⟩ | ⟨x, rfl⟩ <;> trivial
  have hq : ¬ Quiet e := by
    rcases he with ⟨c, rfl | rfl⟩ | ⟨x, rfl⟩ <;> simp [Quiet]
  refine ⟨?_, ?_, ?_, ?_, ?_⟩
  · intro c p hm
    obtain ⟨l3, l4, hl⟩ := hcut _ hm
    exact ordered_run ops _ _ _ hl e (by simp) hg
  · intro x hm
    obtain ⟨l3, l4, hl⟩ := hcut _ hm
    exact ordered_run ops _ _ _ hl e (by simp) hg
  · intro c x hm
    obtain ⟨l3, l4, hl⟩ := hcut _ hm
    exact ordered_run ops _ _ _ hl e (by simp) hg
  · intro x hm
    obtain ⟨l3, l4, hl⟩ := hcut _ hm
    exact hq (ordered_run ops _ _ _ hl e (by simp))
  · intro c p hok c' hp
    have := one_winner ops (c := c) (p := p) (by rw [h]; simp [hok]) (.inr rfl) hp
    cases this.2

/-- What a call that comes too late is told: the peer `q` of the swarm that is there, with the swarm it passed. -/
def told (q : Nat) (k : Kind) (p : Nat) : Res :=
  match k with
  | .manual => .nothing
  | .swarm => .already q (some p)
  | .behaviour => .already q none
  | .identity => .already q none

/-- **C92** (negation of the last clause): after the handler has gone, every command panics in the task of its sender, and
every attempt at bootstrapping is told that the node is bootstrapped. -/
theorem gone_what_happens (ops : List Op) {e : Event} (hm : e ∈ (run ops).log)
    (he : (∃ c, e = .ended c ∨ e = .returned c .panicked) ∨ ∃ x, e = .crashed x) :
    (∀ x, (run (ops ++ [.send x])).log = (run ops).log ++ [.crashed x]) ∧
    (∃ q, (run (ops ++ [.get])).log = (run ops).log ++ [.saw (some q)] ∧
      ∀ c k p, c = (run ops).next →
        (run (ops ++ [.start k p, .make c true, .check c true, .insert c])).log = (run ops).log ++
          [.started c k p, .returned c (told q k p)]) := by
  have hi := inv_run ops
  obtain ⟨w, hw, hd, _⟩ := hi.gone e hm he
  have happ : ∀ l, run (ops ++ l) = l.foldl State.step (run ops) := fun l => by simp [run]
  refine ⟨fun x => ?_, w.peer, ?_, ?_⟩
  · rw [happ]
    simp [State.step, hw, hd]
  · rw [happ]
    simp [State.step, hw]
  · rintro c k p rfl
    rw [happ]
    cases k <;> simp [State.step, State.finish, Kind.first, set, hw, told]

/-- The handler of a node ends. -/
example : Event.ended 0 ∈ (run [.start .swarm 8, .insert 0, .spawn 0 true, .ends 0]).log ∧
    ∃ l1, (run [.start .swarm 8, .insert 0, .spawn 0 true, .ends 0, .send 3, .start .identity 4, .make 1 true,
      .check 1 true]).log = l1 ++ .ended 0 :: [.crashed 3, .started 1 .identity 4, .returned 1 (.already 8 none)] :=
  ⟨by decide, [.started 0 .swarm 8, .returned 0 (.ok 8)], by decide⟩

/-- A call outside a runtime: it fails, and leaves the node bootstrapped. -/
example : (run [.start .swarm 8, .insert 0, .spawn 0 false, .get, .send 3, .start .swarm 4, .insert 1]).log =
    [.started 0 .swarm 8, .returned 0 .panicked, .saw (some 8), .crashed 3, .started 1 .swarm 4,
      .returned 1 (.already 8 (some 4))] := by decide

end Verif.Boot
