import Verif.Lifecycle.Spec

/-! Consequences of being accepted by the specification automaton `Life`. -/

set_option linter.unusedSimpArgs false

namespace Verif.Lifecycle

/-- `Life.step` as a relation, one constructor per kind of move. -/
inductive LTr : Life → Ev → Life → Prop where
  | killCalled (l : Life) : LTr l .killCalled l
  | replySent (l : Life) (t : Nat) (r : Res) : LTr l (.replySent t r) l
  | startBegin : LTr .notStarted .startBegin .inStart
  | startOk : LTr .inStart (.startEnd .ok) (.ready false)
  | startErr (e : Err) : LTr .inStart (.startEnd (.err e)) (.failing e false)
  | startPanic (e : Err) : LTr .inStart (.startEnd (.panic e)) (.failing e false)
  | startCancel : LTr .inStart .startCancel .dead
  | hBegin (st : Bool) (m : Msg) : LTr (.ready st) (.hBegin m) (.inHandler m st)
  | lBegin (id : Id) (r : Reason) : LTr (.ready false) (.lBegin id r) (.inLink id r)
  | stopTaken : LTr (.ready false) .stopTaken (.ready true)
  | noRefs : LTr (.ready false) .noRefs (.ready true)
  | stopNormal : LTr (.ready true) (.sBegin .normal) (.inStop .normal)
  | stopKilled : LTr (.ready false) (.sBegin .killed) (.inStop .killed)
  | hEnd (m : Msg) (st tk : Bool) (o : HOut) :
      LTr (.inHandler m st) (.hEnd m tk o) (afterHandler m tk o st)
  | hCancel (m : Msg) (st : Bool) : LTr (.inHandler m st) (.hCancel m) (.stopDue .killed)
  | lEnd (id : Id) (r : Reason) (o : FOut) : LTr (.inLink id r) (.lEnd id r o) (afterLink o)
  | lCancel (id : Id) (r : Reason) : LTr (.inLink id r) .lCancel (.stopDue .killed)
  | pBegin (e : Err) (st : Bool) : LTr (.failing e st) (.pBegin e) (.inPanic e st)
  | pEnd (e : Err) (st : Bool) (o : FOut) : LTr (.inPanic e st) (.pEnd e o) (afterPanic e st o)
  | pCancel (e : Err) (st : Bool) :
      LTr (.inPanic e st) .pCancel (if st then .stopDue .killed else .dead)
  | sBegin (r : Reason) : LTr (.stopDue r) (.sBegin r) (.inStop r)
  | sEndOk (r : Reason) : LTr (.inStop r) (.sEnd r .ok) (.done r)
  | sEndErr (r : Reason) (e : Err) : LTr (.inStop r) (.sEnd r (.err e)) (.done r)
  | sEndPanic (r : Reason) (e : Err) : LTr (.inStop r) (.sEnd r (.panic e)) .dead
  | sCancel (r : Reason) : LTr (.inStop r) .sCancel .dead
  | notified (r : Reason) (id : Id) : LTr (.done r) (.notified id r) (.done r)
  | returned (r : Reason) : LTr (.done r) (.returned r) (.returned r)

theorem ltr_of_step {l l' : Life} {e : Ev} (h : l.step e = some l') : LTr l e l' := by
  unfold Life.step at h
  split at h <;> first
    | (injection h with h; subst h; constructor)
    | (split at h <;> first
        | (next hc => first
            | (obtain ⟨rfl, rfl⟩ := hc; injection h with h; subst h; constructor)
            | (subst hc
               first
                 | (injection h with h; subst h; constructor)
                 | (split at h <;> (injection h with h; subst h)
                    · constructor
                    · next o _ => cases o <;> first | constructor | contradiction | simp_all)))
        | contradiction)
    | (next r r' o =>
        by_cases hc : r = r'
        · subst hc; cases o <;> simp at h <;> subst h <;> constructor
        · simp [hc] at h)
    | contradiction

theorem step_of_ltr {l l' : Life} {e : Ev} (h : LTr l e l') : l.step e = some l' := by
  cases h <;> (try cases l) <;> simp [Life.step]

theorem Life.run_split {l l' : Life} {a b : List Ev} (h : l.run (a ++ b) = some l') :
    ∃ m, l.run a = some m ∧ m.run b = some l' := by
  induction a generalizing l with
  | nil => exact ⟨l, rfl, h⟩
  | cons e es ih =>
    simp only [List.cons_append, Life.run] at h ⊢
    cases hs : l.step e with
    | none => simp [hs] at h
    | some l1 =>
      simp only [hs, Option.bind_some] at h ⊢
      exact ih h

theorem Life.run_cons {l l' : Life} {e : Ev} {es : List Ev} (h : l.run (e :: es) = some l') :
    ∃ m, LTr l e m ∧ m.run es = some l' := by
  simp only [Life.run] at h
  cases hs : l.step e with
  | none => simp [hs] at h
  | some l1 => exact ⟨l1, ltr_of_step hs, by simpa [hs] using h⟩

/-- Forward induction over an accepted history, looking at the state before each event. -/
theorem run_induct {P : List Ev → Life → Prop} {l0 : Life} (h0 : P [] l0)
    (hstep : ∀ log l e l', P log l → LTr l e l' → P (log ++ [e]) l')
    {log : List Ev} {l : Life} (h : l0.run log = some l) : P log l := by
  have gen : ∀ (done todo : List Ev) (m l : Life), P done m → m.run todo = some l → P (done ++ todo) l := by
    intro done todo
    induction todo generalizing done with
    | nil => intro m l hp hr; simp [Life.run] at hr; subst hr; simpa using hp
    | cons e es ih =>
      intro m l hp hr
      obtain ⟨m', ht, hr'⟩ := Life.run_cons hr
      have := ih (done ++ [e]) m' l (hstep _ _ _ _ hp ht) hr'
      simpa using this
  simpa using gen [] log l0 l h0 h

/-- Invariant of the states passed by a run. -/
theorem run_inv {P : Life → Prop} {Q : Ev → Prop} {l0 : Life} (h0 : P l0)
    (hstep : ∀ l e l', P l → LTr l e l' → P l' ∧ Q e)
    {log : List Ev} {l : Life} (h : l0.run log = some l) : P l ∧ ∀ e ∈ log, Q e := by
  refine run_induct (P := fun log l => P l ∧ ∀ e ∈ log, Q e) ⟨h0, by simp⟩ ?_ h
  intro log l e l' hp ht
  obtain ⟨a, b⟩ := hstep l e l' hp.1 ht
  refine ⟨a, ?_⟩
  intro x hx
  simp at hx
  rcases hx with hx | rfl
  · exact hp.2 x hx
  · exact b

/-- Events that neither start nor end a handler or hook. -/
def Ev.isPlain (e : Ev) : Bool := !e.isBegin && !e.isEnd

theorem afterHandler_current (m : Msg) (tk : Bool) (o : HOut) (st : Bool) :
    (afterHandler m tk o st).current = none := by
  unfold afterHandler; (repeat' split) <;> rfl
theorem afterLink_current (o : FOut) : (afterLink o).current = none := by
  unfold afterLink; split <;> rfl
theorem afterPanic_current (e : Err) (st : Bool) (o : FOut) : (afterPanic e st o).current = none := by
  unfold afterPanic; (repeat' split) <;> rfl

/-- A start happens only when nothing is running, and then it is what is running. -/
theorem begin_step {l l' : Life} {e : Ev} (h : LTr l e l') (hb : e.isBegin = true) :
    l.current = none ∧ l'.current = some e := by
  cases h <;> simp_all [Ev.isBegin, Life.current]

/-- An end happens only while what it closes is running, and then nothing is running. -/
theorem end_step {l l' : Life} {e : Ev} (h : LTr l e l') (hb : e.isEnd = true) :
    (∃ b, l.current = some b ∧ closes b e = true) ∧ l'.current = none := by
  cases h with
  | hEnd m st tk o => exact ⟨⟨_, rfl, by simp [closes]⟩, afterHandler_current _ _ _ _⟩
  | lEnd id r o => exact ⟨⟨_, rfl, by simp [closes]⟩, afterLink_current _⟩
  | pEnd e st o => exact ⟨⟨_, rfl, by simp [closes]⟩, afterPanic_current _ _ _⟩
  | pCancel e st => exact ⟨⟨_, rfl, by simp [closes]⟩, by cases st <;> rfl⟩
  | _ => simp_all [Ev.isEnd, Life.current, closes]

/-- Other events leave what is running alone. -/
theorem plain_step {l l' : Life} {e : Ev} (h : LTr l e l') (hb : e.isBegin = false)
    (he : e.isEnd = false) : l'.current = l.current := by
  cases h <;> simp_all [Ev.isEnd, Ev.isBegin, Life.current]

/-- What is running was started earlier, and since then nothing started or ended. -/
theorem run_current {log : List Ev} {l : Life} (h : Life.notStarted.run log = some l) :
    ∀ b, l.current = some b → ∃ pre mid, log = pre ++ b :: mid ∧
      ∀ x ∈ mid, x.isBegin = false ∧ x.isEnd = false := by
  refine run_induct (P := fun log l => ∀ b, l.current = some b → ∃ pre mid, log = pre ++ b :: mid ∧
      ∀ x ∈ mid, x.isBegin = false ∧ x.isEnd = false) (by simp [Life.current]) ?_ h
  intro log l e l' ih ht b hb
  cases hbe : e.isBegin with
  | true =>
    have := (begin_step ht hbe).2
    rw [this] at hb
    cases hb
    exact ⟨log, [], by simp, by simp⟩
  | false =>
    cases hen : e.isEnd with
    | true => rw [(end_step ht hen).2] at hb; cases hb
    | false =>
      rw [plain_step ht hbe hen] at hb
      obtain ⟨pre, mid, h1, h2⟩ := ih b hb
      refine ⟨pre, mid ++ [e], by simp [h1], ?_⟩
      intro x hx
      simp at hx
      rcases hx with hx | rfl
      · exact h2 x hx
      · exact ⟨hbe, hen⟩

/-- From a state where `b` is running: either it is closed on the way, or it is still running
and nothing has started. -/
theorem run_open {l l' : Life} {b : Ev} (hb : l.current = some b) {log : List Ev}
    (h : l.run log = some l') :
    (∃ e ∈ log, closes b e = true) ∨
      (l'.current = some b ∧ ∀ x ∈ log, x.isBegin = false ∧ x.isEnd = false) := by
  refine run_induct (P := fun log l' => (∃ e ∈ log, closes b e = true) ∨
      (l'.current = some b ∧ ∀ x ∈ log, x.isBegin = false ∧ x.isEnd = false))
      (Or.inr ⟨hb, by simp⟩) ?_ h
  intro log l e l' ih ht
  rcases ih with ⟨x, hx, hc⟩ | ⟨h1, h2⟩
  · exact Or.inl ⟨x, by simp [hx], hc⟩
  · cases hbe : e.isBegin with
    | true => rw [(begin_step ht hbe).1] at h1; cases h1
    | false =>
      cases hen : e.isEnd with
      | true =>
        obtain ⟨⟨b', h3, h4⟩, _⟩ := end_step ht hen
        rw [h1] at h3; cases h3
        exact Or.inl ⟨e, by simp, h4⟩
      | false =>
        refine Or.inr ⟨by rw [plain_step ht hbe hen]; exact h1, ?_⟩
        intro x hx
        simp at hx
        rcases hx with hx | rfl
        · exact h2 x hx
        · exact ⟨hbe, hen⟩

/-- Two starts have a completion of the first between them. -/
theorem begins_separated {l0 l : Life} {pre mid post : List Ev} {b b' : Ev}
    (h : l0.run (pre ++ b :: mid ++ b' :: post) = some l) (hb : b.isBegin = true)
    (hb' : b'.isBegin = true) : ∃ e ∈ mid, closes b e = true := by
  obtain ⟨l1, h1, h2⟩ := Life.run_split (a := pre ++ b :: mid) h
  obtain ⟨l2, h3, h4⟩ := Life.run_split h1
  obtain ⟨l3, h5, h6⟩ := Life.run_cons h4
  obtain ⟨l4, h7, _⟩ := Life.run_cons h2
  rcases run_open (begin_step h5 hb).2 h6 with h | h
  · exact h
  · rw [(begin_step h7 hb').1] at h; cases h.1

/-- Every completion closes the last start before it, with nothing in between. -/
theorem end_closes_last {l : Life} {pre post : List Ev} {e : Ev}
    (h : Life.notStarted.run (pre ++ e :: post) = some l) (he : e.isEnd = true) :
    ∃ pre' b mid, pre = pre' ++ b :: mid ∧ closes b e = true ∧
      ∀ x ∈ mid, x.isBegin = false ∧ x.isEnd = false := by
  obtain ⟨l1, h1, h2⟩ := Life.run_split h
  obtain ⟨l2, h3, _⟩ := Life.run_cons h2
  obtain ⟨⟨b, hb, hc⟩, _⟩ := end_step h3 he
  obtain ⟨pre', mid, h4, h5⟩ := run_current h1 b hb
  exact ⟨pre', b, mid, h4, hc, h5⟩

/-- `on_start` first. -/
theorem start_first {log : List Ev} {l : Life} (h : Life.notStarted.run log = some l) :
    (l = .notStarted → ∀ e ∈ log, e.isBegin = false ∧ e.isEnd = false) ∧
    (l ≠ .notStarted → log.count .startBegin = 1) ∧
    (l ≠ .notStarted → l ≠ .inStart → l ≠ .dead → ∃ o, Ev.startEnd o ∈ log) ∧
    ((∃ st, l = .ready st) ∨ (∃ m st, l = .inHandler m st) ∨ (∃ id r, l = .inLink id r) ∨
      (∃ e, l = .failing e true) ∨ (∃ e, l = .inPanic e true) → Ev.startEnd .ok ∈ log) := by
  refine run_induct (P := fun log l => (l = .notStarted → ∀ e ∈ log, e.isBegin = false ∧ e.isEnd = false) ∧
    (l ≠ .notStarted → log.count .startBegin = 1) ∧
    (l ≠ .notStarted → l ≠ .inStart → l ≠ .dead → ∃ o, Ev.startEnd o ∈ log) ∧
    ((∃ st, l = .ready st) ∨ (∃ m st, l = .inHandler m st) ∨ (∃ id r, l = .inLink id r) ∨
      (∃ e, l = .failing e true) ∨ (∃ e, l = .inPanic e true) → Ev.startEnd .ok ∈ log)) (by simp) ?_ h
  intro log l e l' ih ht
  obtain ⟨i1, i2, i3, i4⟩ := ih
  have hc0 : l = .notStarted → log.count .startBegin = 0 := by
    intro hl
    rw [List.count_eq_zero]
    intro hm
    have := i1 hl _ hm
    simp [Ev.isBegin] at this
  cases ht with
  | hEnd m st tk o =>
    refine ⟨?_, ?_, ?_, ?_⟩
    · intro hh; unfold afterHandler at hh; (repeat' split at hh) <;> cases hh
    · intro _; simp [i2, List.count_append]
    · intro _ _ _; have := i3 (by simp) (by simp) (by simp); obtain ⟨o, ho⟩ := this; exact ⟨o, by simp [ho]⟩
    · intro _; have := i4 (by simp); simp [this]
  | lEnd id r o =>
    refine ⟨?_, ?_, ?_, ?_⟩
    · intro hh; unfold afterLink at hh; split at hh <;> cases hh
    · intro _; simp [i2, List.count_append]
    · intro _ _ _; have := i3 (by simp) (by simp) (by simp); obtain ⟨o, ho⟩ := this; exact ⟨o, by simp [ho]⟩
    · intro _; have := i4 (by simp); simp [this]
  | pEnd e st o =>
    refine ⟨?_, ?_, ?_, ?_⟩
    · intro hh; unfold afterPanic at hh; (repeat' split at hh) <;> cases hh
    · intro _; simp [i2, List.count_append]
    · intro _ _ _; have := i3 (by simp) (by simp) (by simp); obtain ⟨o, ho⟩ := this; exact ⟨o, by simp [ho]⟩
    · intro hh
      cases st with
      | true => have := i4 (by simp); simp [this]
      | false => exfalso; revert hh; unfold afterPanic; (repeat' split) <;> simp_all
  | pCancel e st => cases st <;> simp_all [List.count_append] <;> grind
  | killCalled => simp_all [List.count_append, Ev.isBegin, Ev.isEnd] <;> grind [Ev.isBegin, Ev.isEnd]
  | replySent => simp_all [List.count_append, Ev.isBegin, Ev.isEnd] <;> grind [Ev.isBegin, Ev.isEnd]
  | _ => simp_all [List.count_append] <;> grind

/-- After `on_stop` has begun. -/
def Life.closing (r : Reason) (l : Life) : Prop :=
  l = .inStop r ∨ l = .done r ∨ l = .returned r ∨ l = .dead

theorem closing_run {r : Reason} {l l' : Life} (hl : l.closing r) {log : List Ev}
    (h : l.run log = some l') : l'.closing r ∧ ∀ e ∈ log, e.isBegin = false ∧
      (∀ r', e = .returned r' → r' = r) ∧ (∀ id r', e = .notified id r' → r' = r) ∧
      (∀ r' o, e = .sEnd r' o → r' = r) := by
  refine run_inv (P := fun l => l.closing r) (Q := fun e => e.isBegin = false ∧
      (∀ r', e = .returned r' → r' = r) ∧ (∀ id r', e = .notified id r' → r' = r) ∧
      (∀ r' o, e = .sEnd r' o → r' = r)) hl ?_ h
  intro l e l' hl ht
  unfold Life.closing at *
  cases ht <;> simp_all [Ev.isBegin]

/-- The reason was decided: by what. `Source pre r` says which earlier event accounts for
`on_stop` being called with `r`. -/
def Source (log : List Ev) (r : Reason) : Prop :=
  (r = .normal ∧ (.stopTaken ∈ log ∨ .noRefs ∈ log)) ∨ r = .killed ∨
  (∃ id r0, .lEnd id r0 (.brk r) ∈ log) ∨ (∃ e, .pEnd e (.brk r) ∈ log) ∨
  (∃ e e', .pEnd e (.err e') ∈ log ∧ r = .panicked e') ∨
  (∃ e, .startEnd (.err e) ∈ log ∧ r = .panicked e) ∨
  (∃ e, .startEnd (.panic e) ∈ log ∧ r = .panicked e)

/-- Where the failure handed to `on_panic` comes from. -/
def Failure (log : List Ev) (e : Err) : Prop :=
  (∃ m tk, .hEnd m tk (.panic e) ∈ log) ∨
  (∃ m tk, .hEnd m tk (.ret (.err e)) ∈ log ∧ (m.2.ask = false ∨ tk = true)) ∨
  (∃ id r, .lEnd id r (.err e) ∈ log) ∨ (∃ id r, .lEnd id r (.panic e) ∈ log) ∨
  (∃ id r, .lEnd id r (.brk (.panicked e)) ∈ log) ∨
  .startEnd (.err e) ∈ log ∨ .startEnd (.panic e) ∈ log

theorem Source.mono {log : List Ev} {r : Reason} (h : Source log r) (e : Ev) : Source (log ++ [e]) r := by
  unfold Source at *; simp only [List.mem_append]; grind

theorem Failure.mono {log : List Ev} {x : Err} (h : Failure log x) (e : Ev) : Failure (log ++ [e]) x := by
  unfold Failure at *; simp only [List.mem_append]; grind

theorem run_source {log : List Ev} {l : Life} (h : Life.notStarted.run log = some l) :
    (∀ r, l = .stopDue r ∨ l = .inStop r ∨ l = .done r ∨ l = .returned r → Source log r) ∧
    (∀ st, l = .ready st → st = true → .stopTaken ∈ log ∨ .noRefs ∈ log) ∧
    (∀ m st, l = .inHandler m st → st = true → .stopTaken ∈ log ∨ .noRefs ∈ log) ∧
    (∀ e st, l = .failing e st ∨ l = .inPanic e st → Failure log e ∧
      (st = false → .startEnd (.err e) ∈ log ∨ .startEnd (.panic e) ∈ log)) ∧
    (∀ e, .pBegin e ∈ log → Failure log e) := by
  refine run_induct (P := fun log l => 
    (∀ r, l = .stopDue r ∨ l = .inStop r ∨ l = .done r ∨ l = .returned r → Source log r) ∧
    (∀ st, l = .ready st → st = true → .stopTaken ∈ log ∨ .noRefs ∈ log) ∧
    (∀ m st, l = .inHandler m st → st = true → .stopTaken ∈ log ∨ .noRefs ∈ log) ∧
    (∀ e st, l = .failing e st ∨ l = .inPanic e st → Failure log e ∧
      (st = false → .startEnd (.err e) ∈ log ∨ .startEnd (.panic e) ∈ log)) ∧
    (∀ e, .pBegin e ∈ log → Failure log e)) (by simp) ?_ h
  intro log l e l' ih ht
  obtain ⟨i1, i2, i3, i4, i5⟩ := ih
  have m1 := fun r (h : Source log r) => h.mono e
  have m2 := fun x (h : Failure log x) => h.mono e
  cases ht with
  | hEnd m st tk o =>
    refine ⟨?_, ?_, ?_, ?_, by simp; grind⟩
    · unfold afterHandler; (repeat' split) <;> simp
    · intro st' h1 h2
      have : st = true := by revert h1; unfold afterHandler; (repeat' split) <;> simp_all
      have := i3 m st rfl this
      simp; grind
    · unfold afterHandler; (repeat' split) <;> simp
    · intro e' st' h1
      revert h1
      unfold afterHandler
      split
      · next e'' => simp; rintro rfl rfl; exact ⟨Or.inl ⟨m, tk, by simp⟩, by simp⟩
      · next e'' =>
        split
        · simp
        · next hc =>
          simp at hc ⊢; rintro rfl rfl
          refine ⟨Or.inr (Or.inl ⟨m, tk, by simp, ?_⟩), by simp⟩
          cases hm : m.2.ask
          · simp
          · simp [hc hm]
      · simp
  | lEnd id r o =>
    refine ⟨?_, ?_, ?_, ?_, by simp; grind⟩
    · intro r' h1
      revert h1
      unfold afterLink
      split <;> simp
      rintro rfl
      exact Or.inr (Or.inr (Or.inl ⟨id, r, by simp⟩))
    · unfold afterLink; split <;> simp
    · unfold afterLink; split <;> simp
    · intro e' st' h1
      revert h1
      unfold afterLink
      split
      · simp
      · simp; rintro rfl rfl; exact ⟨Or.inr (Or.inr (Or.inr (Or.inr (Or.inl ⟨id, r, by simp⟩)))), by simp⟩
      · simp
      · simp; rintro rfl rfl; exact ⟨Or.inr (Or.inr (Or.inl ⟨id, r, by simp⟩)), by simp⟩
      · simp; rintro rfl rfl; exact ⟨Or.inr (Or.inr (Or.inr (Or.inl ⟨id, r, by simp⟩))), by simp⟩
  | pEnd e st o =>
    refine ⟨?_, ?_, ?_, ?_, by simp; grind⟩
    · intro r' h1
      revert h1
      unfold afterPanic
      split
      · cases st with
        | true => simp
        | false =>
          simp
          rintro rfl
          have := (i4 e false (Or.inr rfl)).2 rfl
          unfold Source
          simp; grind
      · simp; rintro rfl; exact Or.inr (Or.inr (Or.inr (Or.inl ⟨e, by simp⟩)))
      · next e' => simp; rintro rfl; exact Or.inr (Or.inr (Or.inr (Or.inr (Or.inl ⟨e, e', by simp, rfl⟩))))
      · simp
    · unfold afterPanic; (repeat' split) <;> simp
    · unfold afterPanic; (repeat' split) <;> simp
    · unfold afterPanic; (repeat' split) <;> simp
  | pCancel e st =>
    refine ⟨?_, by cases st <;> simp, by cases st <;> simp, by cases st <;> simp, by simp; grind⟩
    cases st <;> simp [Source]
  | hCancel => refine ⟨by simp [Source], by simp, by simp, by simp, by simp; grind⟩
  | lCancel => refine ⟨by simp [Source], by simp, by simp, by simp, by simp; grind⟩
  | stopKilled => refine ⟨by simp [Source], by simp, by simp, by simp, by simp; grind⟩
  | startErr e => refine ⟨by simp, by simp, by simp, by simp [Failure], by simp; grind⟩
  | startPanic e => refine ⟨by simp, by simp, by simp, by simp [Failure], by simp; grind⟩
  | stopNormal =>
    refine ⟨?_, by simp, by simp, by simp, by simp; grind⟩
    have := i2 true rfl rfl
    simp [Source]; grind
  | pBegin e st =>
    have := i4 e st (Or.inl rfl)
    refine ⟨by simp, by simp, by simp, ?_, ?_⟩
    · rintro e' st' h
      simp at h
      obtain ⟨rfl, rfl⟩ := h
      refine ⟨m2 _ this.1, ?_⟩
      intro h; have := this.2 h; simp; grind
    · intro e' he
      simp at he
      rcases he with he | rfl
      · exact m2 _ (i5 _ he)
      · exact m2 _ this.1
  | _ =>
    refine ⟨?_, ?_, ?_, ?_, ?_⟩ <;> simp_all <;> grind

/-- A taken stop is forgotten only if `on_panic` says `Continue`. -/
theorem stop_sticks {l l' : Life} {log : List Ev} (hl : l = .ready true) (h : l.run log = some l') :
    (∃ e, .pEnd e .cont ∈ log) ∨ (l' = .ready true ∨ (∃ m, l' = .inHandler m true) ∨
      (∃ e, l' = .failing e true) ∨ (∃ e, l' = .inPanic e true) ∨ (∃ r, l' = .stopDue r) ∨ ∃ r, l'.closing r) := by
  refine run_induct (P := fun log l' => (∃ e, .pEnd e .cont ∈ log) ∨ (l' = .ready true ∨ (∃ m, l' = .inHandler m true) ∨
      (∃ e, l' = .failing e true) ∨ (∃ e, l' = .inPanic e true) ∨ (∃ r, l' = .stopDue r) ∨ ∃ r, l'.closing r)) (by simp [hl]) ?_ h
  intro log l e l' ih ht
  rcases ih with ⟨x, hx⟩ | ih
  · exact Or.inl ⟨x, by simp [hx]⟩
  · unfold Life.closing at *
    cases ht with
    | hEnd m st tk o =>
      right
      have : st = true := by simpa using ih
      subst this
      unfold afterHandler; (repeat' split) <;> simp
    | pEnd e st o =>
      have : st = true := by simpa using ih
      subst this
      unfold afterPanic; split <;> simp
      exact Or.inr ⟨.normal, trivial⟩
    | lEnd => simp at ih
    | pCancel e st => cases st <;> simp_all
    | sEndPanic => exact Or.inr (by simp; exact ⟨.normal, trivial⟩)
    | sCancel => exact Or.inr (by simp; exact ⟨.normal, trivial⟩)
    | _ => simp_all

/-- After a failure was reported the next thing that happens is `on_panic` with that failure. -/
theorem failing_next {e : Err} {st : Bool} {log : List Ev} {l : Life}
    (h : (Life.failing e st).run log = some l) :
    (l = .failing e st ∧ ∀ x ∈ log, x.isBegin = false ∧ x.isEnd = false) ∨
    ∃ mid post, log = mid ++ .pBegin e :: post ∧ ∀ x ∈ mid, x.isBegin = false ∧ x.isEnd = false := by
  refine run_induct (P := fun log l => (l = .failing e st ∧ ∀ x ∈ log, x.isBegin = false ∧ x.isEnd = false) ∨
    ∃ mid post, log = mid ++ .pBegin e :: post ∧ ∀ x ∈ mid, x.isBegin = false ∧ x.isEnd = false) (by simp) ?_ h
  intro log l x l' ih ht
  rcases ih with ⟨rfl, h2⟩ | ⟨mid, post, h1, h2⟩
  · cases ht with
    | killCalled => left; simp; grind [Ev.isBegin, Ev.isEnd]
    | replySent => left; simp; grind [Ev.isBegin, Ev.isEnd]
    | pBegin => right; exact ⟨log, [], rfl, h2⟩
  · right; exact ⟨mid, post ++ [x], by simp [h1], h2⟩

/-- While the actor is ready, `on_panic` does not start before some handler or hook ran. -/
theorem ready_next {st : Bool} {mid post : List Ev} {x : Ev} {l : Life}
    (h : (Life.ready st).run (mid ++ x :: post) = some l)
    (hm : ∀ y ∈ mid, y.isBegin = false ∧ y.isEnd = false) (hx : x.isBegin = true) :
    ∀ e, x ≠ .pBegin e := by
  obtain ⟨l1, h1, h2⟩ := Life.run_split h
  obtain ⟨l2, h3, _⟩ := Life.run_cons h2
  have : ∃ st', l1 = .ready st' := by
    have := run_induct (P := fun log l => (∀ y ∈ log, y.isBegin = false ∧ y.isEnd = false) →
      ∃ st', l = .ready st') (l0 := .ready st) (fun _ => ⟨st, rfl⟩) ?_ h1
    · exact this hm
    · intro log l e l' ih ht hy
      have hy' := hy e (by simp)
      obtain ⟨st', rfl⟩ := ih (fun y hyy => hy y (by simp [hyy]))
      cases ht <;> simp_all [Ev.isBegin, Ev.isEnd]
  obtain ⟨st', rfl⟩ := this
  rintro e rfl
  cases h3

end Verif.Lifecycle
