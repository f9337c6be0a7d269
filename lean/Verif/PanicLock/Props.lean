import Verif.PanicLock.Model

/-! C89: looking into a `PanicError`. -/

set_option linter.unusedSimpArgs false

namespace Verif.PanicLock

open Verif.Lifecycle

/-! ### Specification: a thread that is alone -/

/-- Is the error of the kind asked for: anything, a text, a value of the type? (Specification.) -/
def How.fits : How → Pay → Bool
  | .any, _ => true
  | .str, p => p.text != none
  | .ty t, p => p.ty == t

theorem shows_fits (how : How) (p : Pay) : how.shows p = how.fits p := by
  cases how with
  | any => rfl
  | str => cases p <;> simp [How.shows, How.fits, PanicError.withStr, Pay.text]
  | ty t =>
    simp only [How.shows, How.fits, PanicError.downcast]
    by_cases h : p.ty = t <;> simp [h]

/-- How a thread ends that nobody else is in the way of. -/
inductive Fin where
  | done | panicked | hangs
  deriving DecidableEq, Repr

/-- The looks of a program that runs alone, and how it ends. No lock, no poison: it looks at an error it is already
looking at and hangs, or it sees the error. (Specification.) -/
def Prog.alone (val : Nat → Pay) : List Nat → Prog → List (Nat × Option Pay) × Fin
  | _, .ret => ([], .done)
  | _, .panic => ([], .panicked)
  | held, .look how e f rest =>
    if e ∈ held then ([], .hangs)
    else if how.fits (val e) then
      let a := f.alone val (e :: held)
      if a.2 = .done then
        let b := rest.alone val held
        ((e, some (val e)) :: (a.1 ++ b.1), b.2)
      else ((e, some (val e)) :: a.1, a.2)
    else
      let b := rest.alone val held
      ((e, none) :: b.1, b.2)

/-- What is left of a thread, run alone. -/
def left (val : Nat → Pay) : Prog → List (Nat × Prog) → List (Nat × Option Pay) × Fin
  | p, [] => p.alone val []
  | p, (e, k) :: st =>
    let a := p.alone val (e :: st.map (·.1))
    if a.2 = .done then
      let b := left val k st
      (a.1 ++ b.1, b.2)
    else a

theorem left_panic (val : Nat → Pay) (st : List (Nat × Prog)) : left val .panic st = ([], .panicked) := by
  cases st with
  | nil => rfl
  | cons x st => simp [left, Prog.alone]

theorem left_ret (val : Nat → Pay) (e : Nat) (k : Prog) (st : List (Nat × Prog)) :
    left val .ret ((e, k) :: st) = left val k st := by
  simp [left, Prog.alone]

/-- A look that the thread does not jam on: what is left before and after. -/
theorem left_look (val : Nat → Pay) (how : How) (e : Nat) (f rest : Prog) (st : List (Nat × Prog))
    (h : e ∉ st.map (·.1)) :
    left val (.look how e f rest) st =
      let n := left val (if how.fits (val e) then f else .ret) ((e, rest) :: st)
      ((e, if how.fits (val e) then some (val e) else none) :: n.1, n.2) := by
  cases st with
  | nil =>
    simp only [left, Prog.alone, List.map_nil, List.not_mem_nil, if_false]
    by_cases hs : how.fits (val e)
    · simp only [hs, if_true]; split <;> simp
    · simp [hs, Prog.alone]
  | cons x st =>
    obtain ⟨e', k⟩ := x
    have h' : e ∉ e' :: st.map (·.1) := by simpa using h
    simp only [left, Prog.alone, h', if_false, List.map_cons]
    by_cases hs : how.fits (val e)
    · simp only [hs, if_true]
      by_cases ha : (f.alone val (e :: e' :: st.map (·.1))).2 = .done
      · simp only [ha, if_true]
        split <;> simp
      · simp [ha]
    · simp only [hs, Bool.false_eq_true, if_false, Prog.alone, if_true, List.nil_append]
      split <;> simp

/-! ### Invariant -/

/-- The locks and the stacks of the threads fit together; values do not change; a thread's past and future are those of its
program alone. -/
structure Inv (val : Nat → Pay) (ps : List Prog) (s : St) : Prop where
  vals : ∀ e, (s.cell e).val = val e
  held : ∀ e t, (s.cell e).holder = some t ↔ e ∈ (s.th t).stack.map (·.1)
  nodup : ∀ t, ((s.th t).stack.map (·.1)).Nodup
  alone : ∀ t, (s.seen t ++ (left val (s.th t).now (s.th t).stack).1, (left val (s.th t).now (s.th t).stack).2) =
    (ps.getD t .ret).alone val []

theorem inv_start (val : Nat → Pay) (ps : List Prog) : Inv val ps (start val ps) where
  vals _ := rfl
  held := by simp [start]
  nodup := by simp [start]
  alone := by intro t; simp [start, left]

theorem upd_self (f : Nat → α) (i : Nat) (x : α) : upd f i x i = x := by simp [upd]

theorem upd_ne (f : Nat → α) {i j : Nat} (x : α) (h : j ≠ i) : upd f i x j = f j := by simp [upd, h]

theorem inv_enter {val : Nat → Pay} {ps : List Prog} {s : St} (h : Inv val ps s) {t : Nat} {how : How} {e : Nat}
    {f rest : Prog} (hn : (s.th t).now = .look how e f rest) (hh : (s.cell e).holder = none)
    {shown : Option Pay} (hs : shown = if how.fits (val e) then some (val e) else none) :
    Inv val ps { cell := upd s.cell e { s.cell e with holder := some t },
                 th := upd s.th t ⟨if shown.isSome then f else .ret, (e, rest) :: (s.th t).stack⟩,
                 seen := upd s.seen t (s.seen t ++ [(e, shown)]) } := by
  have hno : ∀ t', e ∉ (s.th t').stack.map (·.1) := by
    intro t' hm
    rw [(h.held e t').mpr hm] at hh; simp at hh
  constructor
  · intro e'
    by_cases he : e' = e
    · subst he; simp [upd, h.vals]
    · simp [upd, he, h.vals]
  · intro e' t'
    by_cases he : e' = e
    · subst he
      by_cases ht : t' = t
      · subst ht; simp [upd]
      · simp only [upd, if_true, ht, if_false]
        constructor
        · intro hx; exact absurd (Option.some.inj hx).symm ht
        · intro hx; exact absurd hx (hno t')
    · by_cases ht : t' = t
      · subst ht; simpa [upd, he] using h.held e' t'
      · simpa [upd, he, ht] using h.held e' t'
  · intro t'
    by_cases ht : t' = t
    · subst ht
      simp only [upd_self, List.map_cons, List.nodup_cons]
      exact ⟨hno _, h.nodup _⟩
    · simp only [upd_ne _ _ ht]; exact h.nodup t'
  · intro t'
    by_cases ht : t' = t
    · subst ht
      have ha := h.alone t'
      rw [hn, left_look val how e f rest _ (hno t')] at ha
      simp only [upd_self]
      rw [← ha, hs]
      by_cases hw : how.fits (val e) <;> simp [hw]
    · simp only [upd_ne _ _ ht]; exact h.alone t'

theorem inv_leave {val : Nat → Pay} {ps : List Prog} {s : St} (h : Inv val ps s) {t : Nat} {e : Nat} {k p : Prog}
    {st : List (Nat × Prog)} (hst : (s.th t).stack = (e, k) :: st) (b : Bool)
    (hl : left val p st = left val (s.th t).now (s.th t).stack) :
    Inv val ps { s with cell := upd s.cell e ((s.cell e).unlock b), th := upd s.th t ⟨p, st⟩ } := by
  have hnd := h.nodup t
  rw [hst] at hnd
  simp only [List.map_cons, List.nodup_cons] at hnd
  have he : (s.cell e).holder = some t := (h.held e t).mpr (by simp [hst])
  constructor
  · intro e'
    by_cases hx : e' = e
    · subst hx; simp [upd, Cell.unlock, h.vals]
    · simp [upd, hx, h.vals]
  · intro e' t'
    by_cases hx : e' = e
    · subst hx
      by_cases ht : t' = t
      · subst ht; simpa [upd, Cell.unlock] using hnd.1
      · simp only [upd, if_true, ht, if_false, Cell.unlock]
        constructor
        · intro hc; simp at hc
        · intro hc
          rw [(h.held e' t').mpr hc] at he
          exact absurd (Option.some.inj he) ht
    · by_cases ht : t' = t
      · subst ht
        have := h.held e' t'
        rw [hst] at this
        simpa [upd, hx] using this
      · simpa [upd, hx, ht] using h.held e' t'
  · intro t'
    by_cases ht : t' = t
    · subst ht; simpa [upd] using hnd.2
    · simp only [upd_ne _ _ ht]; exact h.nodup t'
  · intro t'
    by_cases ht : t' = t
    · subst ht
      simp only [upd_self, hl]
      exact h.alone t'
    · simp only [upd_ne _ _ ht]; exact h.alone t'

theorem inv_step? {val : Nat → Pay} {ps : List Prog} {s s' : St} (h : Inv val ps s) {t : Nat}
    (hs : s.step? t = some s') : Inv val ps s' := by
  unfold St.step? at hs
  split at hs
  · rename_i how e f rest hn
    cases hh : (s.cell e).holder with
    | some x => simp [Cell.lock, hh] at hs
    | none =>
      simp only [Cell.lock, hh] at hs
      cases hs
      refine inv_enter h hn hh ?_
      cases (s.cell e).poisoned <;> simp [enter, h.vals, shows_fits]
  · rename_i e k st hn hst
    cases hs
    exact inv_leave h hst _ (by rw [hn, hst, left_ret])
  · rename_i e k st hn hst
    cases hs
    exact inv_leave h hst _ (by rw [hn, left_panic, left_panic])
  · cases hs
  · cases hs

theorem inv_step {val : Nat → Pay} {ps : List Prog} {s : St} (h : Inv val ps s) (t : Nat) : Inv val ps (s.step t) := by
  unfold St.step
  cases hs : s.step? t with
  | none => exact h
  | some s' => exact inv_step? h hs

theorem inv_run {val : Nat → Pay} {ps : List Prog} {s : St} (h : Inv val ps s) (ts : List Nat) :
    Inv val ps (s.run ts) := by
  induction ts generalizing s with
  | nil => exact h
  | cons t ts ih => exact ih (inv_step h t)

theorem inv_reach (val : Nat → Pay) (ps : List Prog) (ts : List Nat) : Inv val ps ((start val ps).run ts) :=
  inv_run (inv_start val ps) ts

theorem left_ended {val : Nat → Pay} {s : St} {t : Nat} (h : s.ended t) :
    left val (s.th t).now (s.th t).stack = ([], if (s.th t).now = .ret then .done else .panicked) := by
  obtain ⟨hs, hn | hn⟩ := h <;> simp [hs, hn, left, Prog.alone]

/-! ### What is seen -/

/-- **C89** (what is seen): whatever other threads do with the same errors, and whichever closures have panicked before: the
looks a thread has had are the first of those it would have had alone, each with the error itself; and a thread that has
come to its end has had all of them and ends as it would have alone. -/
theorem looks_true (val : Nat → Pay) (ps : List Prog) (ts : List Nat) (t : Nat) :
    (∃ more, (((ps.getD t .ret).alone val []).1 = ((start val ps).run ts).seen t ++ more)) ∧
    (((start val ps).run ts).ended t →
      (ps.getD t .ret).alone val [] = (((start val ps).run ts).seen t,
        if (((start val ps).run ts).th t).now = .ret then .done else .panicked)) := by
  have h := (inv_reach val ps ts).alone t
  refine ⟨⟨_, by rw [← h]⟩, fun he => ?_⟩
  rw [← h, left_ended he]
  simp

/-- Thread 0 panics while it looks at error 7; the lock is poisoned, and thread 1 still sees the error. -/
example :
    let s := (start (fun _ => .str "boom") [.look .any 7 .panic .ret, .look .str 7 .ret .ret]).run [0, 1, 0, 1, 1]
    (s.cell 7).poisoned = true ∧ s.ended 0 ∧ s.ended 1 ∧ s.seen 1 = [(7, some (.str "boom"))] := by
  refine ⟨rfl, ⟨rfl, .inr rfl⟩, ⟨rfl, .inl rfl⟩, rfl⟩

/-- **C89** (what is printed): somebody who prints an error, or reads it as a result of type `ty`, and comes to their end has
had one look, at the error they asked for: its text if it is a string, its value if it has that type, and nothing otherwise;
whatever others do with it, and whoever panicked at it. -/
theorem printed (val : Nat → Pay) (ps : List Prog) (ts : List Nat) (t e : Nat) (ty : PTy)
    (he : ((start val ps).run ts).ended t) :
    (ps.getD t .ret = display e → ((start val ps).run ts).seen t = [(e, if How.str.fits (val e) then some (val e) else none)] ∧
      (((start val ps).run ts).th t).now = .ret) ∧
    (ps.getD t .ret = readResult ty e →
      ((start val ps).run ts).seen t = [(e, if (How.ty ty).fits (val e) then some (val e) else none)] ∧
      (((start val ps).run ts).th t).now = .ret) := by
  have h := (looks_true val ps ts t).2 he
  constructor <;> intro hp <;> rw [hp] at h
  · have hn : (((start val ps).run ts).th t).now = .ret := by
      refine Classical.byContradiction fun hne => ?_
      rw [if_neg hne] at h
      simp [display, Prog.alone] at h
      split at h <;> simp at h
    rw [if_pos hn] at h
    refine ⟨?_, hn⟩
    have := congrArg Prod.fst h
    simp only at this
    rw [← this]
    simp [display, Prog.alone]
    split <;> rfl
  · have hn : (((start val ps).run ts).th t).now = .ret := by
      refine Classical.byContradiction fun hne => ?_
      rw [if_neg hne] at h
      simp [readResult, Prog.alone] at h
      split at h <;> simp at h
    rw [if_pos hn] at h
    refine ⟨?_, hn⟩
    have := congrArg Prod.fst h
    simp only at this
    rw [← this]
    simp [readResult, Prog.alone]
    split <;> rfl

/-- One thread panics at the error, another prints it afterwards. -/
example :
    let s := (start (fun _ => .str "boom") [.look .any 7 .panic .ret, display 7]).run [0, 1, 0, 1, 1]
    s.ended 1 ∧ s.seen 1 = [(7, some (.str "boom"))] := ⟨⟨rfl, .inl rfl⟩, rfl⟩

/-- **C89** (one at a time): no two closures look at one error at the same time, not even two of one thread. The error need
not be `Sync`. -/
theorem one_at_a_time (val : Nat → Pay) (ps : List Prog) (ts : List Nat) (e t t' : Nat)
    (h : e ∈ ((((start val ps).run ts).th t).stack.map (·.1)))
    (h' : e ∈ ((((start val ps).run ts).th t').stack.map (·.1))) :
    t = t' ∧ ((((start val ps).run ts).th t).stack.map (·.1)).count e = 1 := by
  have hi := inv_reach val ps ts
  have h1 := (hi.held e t).mpr h
  have h2 := (hi.held e t').mpr h'
  rw [h1] at h2
  refine ⟨Option.some.inj h2, ?_⟩
  have := List.nodup_iff_count.mp (hi.nodup t) e
  have := List.count_pos_iff.mpr h
  omega

/-- Thread 0 is in the closures for errors 7 and 8. -/
example : ((((start (fun _ => .str "boom") [.look .any 7 (.look .any 8 .ret .ret) .ret, display 7]).run [0, 1, 0, 1]).th
    0).stack.map (·.1)) = [8, 7] := rfl

/-! ### Looks within looks -/

/-- **C89 is false**: a program that looks at an error while it is looking at that error, in itself or in a clone, never
gets on, whatever the other threads do. -/
theorem nested_look_hangs (val : Nat → Pay) (ps : List Prog) (t : Nat) (h : ((ps.getD t .ret).alone val []).2 = .hangs)
    (ts : List Nat) : ¬ ((start val ps).run ts).ended t := by
  intro he
  have := (looks_true val ps ts t).2 he
  rw [this] at h
  split at h <;> cases h

/-- `err.with(|_| println!("{err}"))`: for every error. -/
example (val : Nat → Pay) (e : Nat) : ((Prog.look .any e (display e) .ret).alone val []).2 = .hangs := by
  simp [Prog.alone, display, How.fits]

theorem jammed_step {val : Nat → Pay} {ps : List Prog} {s : St} (hi : Inv val ps s) {t e : Nat} (h : s.jammed t e)
    (t' : Nat) : (s.step t').jammed t e ∧
      ∀ t'', ((s.step t').seen t'').filter (fun x => x.1 == e) = (s.seen t'').filter (fun x => x.1 == e) := by
  obtain ⟨⟨how, f, rest, hn⟩, hm⟩ := h
  have hh : (s.cell e).holder = some t := (hi.held e t).mpr hm
  by_cases ht : t' = t
  · subst ht
    have : s.step? t' = none := by simp [St.step?, hn, Cell.lock, hh]
    simp only [St.step, this, Option.getD_none]
    exact ⟨⟨⟨how, f, rest, hn⟩, hm⟩, fun _ => by trivial⟩
  · unfold St.step St.step?
    split
    · rename_i how' e' f' rest' hn'
      cases hl : (s.cell e').lock with
      | none => exact ⟨⟨⟨how, f, rest, hn⟩, hm⟩, fun _ => rfl⟩
      | some r =>
        have hne : e' ≠ e := by
          rintro rfl
          simp [Cell.lock, hh] at hl
        refine ⟨⟨⟨how, f, rest, ?_⟩, ?_⟩, ?_⟩
        · simp [upd, Ne.symm ht, hn]
        · simpa [upd, Ne.symm ht] using hm
        · intro t''
          by_cases hx : t'' = t'
          · subst hx; simp [upd, hne]
          · simp [upd, hx]
    · refine ⟨⟨⟨how, f, rest, ?_⟩, ?_⟩, fun _ => rfl⟩
      · simp [upd, Ne.symm ht, hn]
      · simpa [upd, Ne.symm ht] using hm
    · refine ⟨⟨⟨how, f, rest, ?_⟩, ?_⟩, fun _ => rfl⟩
      · simp [upd, Ne.symm ht, hn]
      · simpa [upd, Ne.symm ht] using hm
    · exact ⟨⟨⟨how, f, rest, hn⟩, hm⟩, fun _ => rfl⟩
    · exact ⟨⟨⟨how, f, rest, hn⟩, hm⟩, fun _ => rfl⟩

theorem jammed_run {val : Nat → Pay} {ps : List Prog} {s : St} (hi : Inv val ps s) {t e : Nat} (h : s.jammed t e)
    (ts : List Nat) : (s.run ts).jammed t e ∧
      ∀ t', ((s.run ts).seen t').filter (fun x => x.1 == e) = (s.seen t').filter (fun x => x.1 == e) := by
  induction ts generalizing s with
  | nil => exact ⟨h, fun _ => rfl⟩
  | cons a ts ih =>
    obtain ⟨h1, h2⟩ := jammed_step hi h a
    obtain ⟨h3, h4⟩ := ih (inv_step hi a) h1
    exact ⟨h3, fun t' => (h4 t').trans (h2 t')⟩

theorem run_append (s : St) (ts us : List Nat) : s.run (ts ++ us) = (s.run ts).run us := by
  induction ts generalizing s with
  | nil => rfl
  | cons t ts ih => exact ih _

/-- **C89 is false** (for others too): once a thread is caught in this way, nobody looks at the error any more, in any clone
of it: every thread that still has to, say that of another actor that was told of the death, hangs as well. -/
theorem hang_spreads (val : Nat → Pay) (ps : List Prog) (ts us : List Nat) (t e t' : Nat)
    (h : ((start val ps).run ts).jammed t e)
    (hl : (((ps.getD t' .ret).alone val []).1.filter (fun x => x.1 == e)) ≠
      (((start val ps).run ts).seen t').filter (fun x => x.1 == e)) :
    ¬ ((start val ps).run (ts ++ us)).ended t' := by
  intro he
  have h1 := (looks_true val ps (ts ++ us) t').2 he
  have h2 := (jammed_run (inv_reach val ps ts) h us).2 t'
  rw [h1] at hl
  rw [run_append] at hl
  exact hl h2

/-- Thread 0 prints error 7 while it looks at it; thread 1 waits for the result of the startup, whose error is the same. -/
example :
    let ps := [Prog.look .any 7 (display 7) .ret, readResult (.user 1) 7]
    let s := (start (fun _ => .user 1 5) ps).run [0]
    s.jammed 0 7 ∧ (((ps.getD 1 .ret).alone (fun _ => .user 1 5) []).1.filter (fun x => x.1 == 7)) ≠
      (s.seen 1).filter (fun x => x.1 == 7) := by
  refine ⟨⟨⟨_, _, _, rfl⟩, by decide⟩, by decide⟩

/-- **C89 is false** (in a circle): two threads that look at two errors, one within the other, in different orders may both
hang, though each would come to its end alone. -/
theorem crossed_looks_hang : ∃ (ps : List Prog), (∀ p ∈ ps, ∀ val, (p.alone val []).2 = .done) ∧
    ∃ ts, ∀ val us, ¬ ((start val ps).run (ts ++ us)).ended 0 ∧ ¬ ((start val ps).run (ts ++ us)).ended 1 := by
  refine ⟨[.look .any 0 (.look .any 1 .ret .ret) .ret, .look .any 1 (.look .any 0 .ret .ret) .ret], ?_, [0, 1], ?_⟩
  · simp [Prog.alone, How.fits]
  · intro val us
    rw [run_append]
    have key : ∀ (us : List Nat) (s : St), (s.cell 0).holder = some 0 → (s.cell 1).holder = some 1 →
        (s.th 0).now = .look .any 1 .ret .ret → (s.th 1).now = .look .any 0 .ret .ret →
        (∀ t, t ≠ 0 → t ≠ 1 → s.th t = ⟨.ret, []⟩) → ¬ (s.run us).ended 0 ∧ ¬ (s.run us).ended 1 := by
      intro us
      induction us with
      | nil =>
        intro s _ _ h3 h4 _
        constructor <;> rintro ⟨_, h | h⟩ <;> simp [St.run, h3, h4] at h
      | cons u us ih =>
        intro s h1 h2 h3 h4 h5
        have : s.step u = s := by
          by_cases hu : u = 0
          · subst hu; simp [St.step, St.step?, h3, Cell.lock, h2]
          · by_cases hu1 : u = 1
            · subst hu1; simp [St.step, St.step?, h4, Cell.lock, h1]
            · simp [St.step, St.step?, h5 u hu hu1]
        simp only [St.run, this]
        exact ih s h1 h2 h3 h4 h5
    refine key us _ rfl rfl rfl rfl ?_
    intro t h0 h1
    have : t = (t - 2) + 2 := by omega
    rw [this]
    rfl

/-- The same two programs, one after the other: both come to their ends. -/
example :
    let s := (start (fun _ => .str "x") [.look .any 0 (.look .any 1 .ret .ret) .ret,
      .look .any 1 (.look .any 0 .ret .ret) .ret]).run [0, 0, 0, 0, 1, 1, 1, 1]
    s.ended 0 ∧ s.ended 1 := ⟨⟨rfl, .inl rfl⟩, ⟨rfl, .inl rfl⟩⟩

/-! ### Looks that go one way -/

/-- The errors a program looks at within one another go strictly up in `rank`, from the errors in `held` on; a program that
never looks within a look is of this kind for every `rank`. (Specification.) -/
def Prog.upward (rank : Nat → Nat) : List Nat → Prog → Prop
  | _, .ret => True
  | _, .panic => True
  | held, .look _ e f rest =>
    (∀ h ∈ held, rank h < rank e) ∧ f.upward rank (e :: held) ∧ rest.upward rank held

/-- No look within a look. (Specification.) -/
def Prog.flat : Prog → Bool
  | .ret => true
  | .panic => true
  | .look _ _ f rest => (f == .ret || f == .panic) && rest.flat

theorem upward_flat (rank : Nat → Nat) (p : Prog) (h : p.flat = true) : p.upward rank [] := by
  induction p with
  | ret => trivial
  | panic => trivial
  | look how e f rest ihf ihr =>
    simp only [Prog.flat, Bool.and_eq_true, Bool.or_eq_true, beq_iff_eq] at h
    refine ⟨by simp, ?_, ihr h.2⟩
    rcases h.1 with h | h <;> subst h <;> trivial

/-- The looks left in a thread go up. -/
def upStack (rank : Nat → Nat) : List (Nat × Prog) → Prop
  | [] => True
  | (_, k) :: st => k.upward rank (st.map (·.1)) ∧ upStack rank st

/-- An upper bound on the ranks in a program. -/
def Prog.top (rank : Nat → Nat) : Prog → Nat
  | .ret => 0
  | .panic => 0
  | .look _ e f rest => max (rank e) (max (f.top rank) (rest.top rank))

structure Up (rank : Nat → Nat) (B n : Nat) (s : St) : Prop where
  now : ∀ t, (s.th t).now.upward rank ((s.th t).stack.map (·.1))
  stack : ∀ t, upStack rank (s.th t).stack
  topNow : ∀ t, (s.th t).now.top rank ≤ B
  topStack : ∀ t, ∀ x ∈ (s.th t).stack, x.2.top rank ≤ B
  idle : ∀ t, n ≤ t → s.th t = ⟨.ret, []⟩

theorem up_upd {rank : Nat → Nat} {B n : Nat} {s : St} (h : Up rank B n s) {t : Nat} {x : Th} {c : Nat → Cell}
    {sn : Nat → List (Nat × Option Pay)} (h1 : x.now.upward rank (x.stack.map (·.1))) (h2 : upStack rank x.stack)
    (h3 : x.now.top rank ≤ B) (h4 : ∀ y ∈ x.stack, y.2.top rank ≤ B) (h5 : t < n) :
    Up rank B n ⟨c, upd s.th t x, sn⟩ := by
  constructor <;> intro t' <;> by_cases ht : t' = t
  · subst ht; simpa [upd] using h1
  · simpa [upd, ht] using h.now t'
  · subst ht; simpa [upd] using h2
  · simpa [upd, ht] using h.stack t'
  · subst ht; simpa [upd] using h3
  · simpa [upd, ht] using h.topNow t'
  · subst ht; simpa [upd] using h4
  · simpa [upd, ht] using h.topStack t'
  · subst ht; intro hn; omega
  · intro hn; simpa [upd, ht] using h.idle t' hn

theorem up_step? {rank : Nat → Nat} {B n : Nat} {s s' : St} (h : Up rank B n s) {t : Nat}
    (hs : s.step? t = some s') : t < n ∧ Up rank B n s' := by
  have hlt : t < n := by
    rcases Nat.lt_or_ge t n with hx | hx
    · exact hx
    · have := h.idle t hx
      simp [St.step?, this] at hs
  refine ⟨hlt, ?_⟩
  have a1 := h.now t
  have a2 := h.stack t
  have a3 := h.topNow t
  have a4 := h.topStack t
  unfold St.step? at hs
  split at hs
  · rename_i how e f rest hn
    rw [hn] at a1 a3
    simp only [Prog.upward] at a1
    simp only [Prog.top] at a3
    cases hl : (s.cell e).lock with
    | none => simp [hl] at hs
    | some r =>
      simp only [hl] at hs
      cases hs
      refine up_upd h ?_ ?_ ?_ ?_ hlt
      · simp only [List.map_cons]
        split
        · exact a1.2.1
        · trivial
      · exact ⟨a1.2.2, a2⟩
      · simp only
        split
        · omega
        · exact Nat.zero_le _
      · intro y hy
        simp only [List.mem_cons] at hy
        rcases hy with rfl | hy
        · simp only; omega
        · exact a4 y hy
  · rename_i e k st hn hst
    cases hs
    rw [hst] at a2 a4
    exact up_upd h a2.1 a2.2 (a4 (e, k) (by simp)) (fun y hy => a4 y (by simp [hy])) hlt
  · rename_i e k st hn hst
    cases hs
    rw [hst] at a2 a4
    exact up_upd h trivial a2.2 (Nat.zero_le _) (fun y hy => a4 y (by simp [hy])) hlt
  · cases hs
  · cases hs

/-- If nobody can go on, everybody is at the end. -/
theorem up_progress {val : Nat → Pay} {ps : List Prog} {rank : Nat → Nat} {B n : Nat} {s : St} (hi : Inv val ps s)
    (h : Up rank B n s) (hstuck : ∀ t, s.step? t = none) (t : Nat) : s.ended t := by
  -- a thread that is not at its end waits for an error that another thread looks at which itself waits, for a higher one
  have key : ∀ (d t : Nat) (how : How) (e : Nat) (f rest : Prog), (s.th t).now = .look how e f rest →
      B - rank e ≤ d → False := by
    intro d
    induction d with
    | zero =>
      intro t how e f rest hn hd
      have hs := hstuck t
      simp only [St.step?, hn] at hs
      cases hh : (s.cell e).holder with
      | none => simp [Cell.lock, hh] at hs
      | some t' =>
        have hm := (hi.held e t').mp hh
        have hs' := hstuck t'
        unfold St.step? at hs'
        split at hs'
        · rename_i how' e' f' rest' hn'
          have hu := h.now t'
          rw [hn'] at hu
          have hr := hu.1 e hm
          have ht := h.topNow t'
          rw [hn'] at ht
          simp only [Prog.top] at ht
          omega
        · cases hs'
        · cases hs'
        · rename_i hn' hst; rw [hst] at hm; simp at hm
        · rename_i hn' hst; rw [hst] at hm; simp at hm
    | succ d ih =>
      intro t how e f rest hn hd
      have hs := hstuck t
      simp only [St.step?, hn] at hs
      cases hh : (s.cell e).holder with
      | none => simp [Cell.lock, hh] at hs
      | some t' =>
        have hm := (hi.held e t').mp hh
        have hs' := hstuck t'
        unfold St.step? at hs'
        split at hs'
        · rename_i how' e' f' rest' hn'
          have hu := h.now t'
          rw [hn'] at hu
          have hr := hu.1 e hm
          exact ih t' how' e' f' rest' hn' (by omega)
        · cases hs'
        · cases hs'
        · rename_i hn' hst; rw [hst] at hm; simp at hm
        · rename_i hn' hst; rw [hst] at hm; simp at hm
  have hs := hstuck t
  unfold St.step? at hs
  split at hs
  · rename_i how e f rest hn
    exact (key _ t how e f rest hn (Nat.le_refl _)).elim
  · cases hs
  · cases hs
  · rename_i hn hst; exact ⟨hst, .inl hn⟩
  · rename_i hn hst; exact ⟨hst, .inr hn⟩

/-- The steps a program may take. -/
def Prog.size : Prog → Nat
  | .ret => 0
  | .panic => 0
  | .look _ _ f rest => 2 + f.size + rest.size

def stackSize : List (Nat × Prog) → Nat
  | [] => 0
  | (_, k) :: st => 1 + k.size + stackSize st

def Th.size (x : Th) : Nat := x.now.size + stackSize x.stack

def total (f : Nat → Th) : Nat → Nat
  | 0 => 0
  | n + 1 => total f n + (f n).size

theorem total_upd (f : Nat → Th) (t : Nat) (x : Th) (n : Nat) (ht : t < n) (hx : x.size < (f t).size) :
    total (upd f t x) n < total f n := by
  have hge : ∀ m, m ≤ t → total (upd f t x) m = total f m := by
    intro m
    induction m with
    | zero => intro _; rfl
    | succ m ih =>
      intro hm
      simp only [total, ih (by omega)]
      rw [upd_ne _ _ (by omega)]
  induction n with
  | zero => omega
  | succ n ih =>
    simp only [total]
    rcases Nat.lt_or_ge t n with h | h
    · have := ih h
      rw [upd_ne _ _ (by omega)]
      omega
    · have : t = n := by omega
      subst this
      rw [hge _ (Nat.le_refl _), upd_self]
      omega

theorem total_step? {s s' : St} {t n : Nat} (hs : s.step? t = some s') (ht : t < n) :
    total s'.th n < total s.th n := by
  unfold St.step? at hs
  split at hs
  · rename_i how e f rest hn
    cases hl : (s.cell e).lock with
    | none => simp [hl] at hs
    | some r =>
      simp only [hl] at hs
      cases hs
      refine total_upd _ _ _ _ ht ?_
      simp only [Th.size, hn, stackSize, Prog.size]
      split
      · omega
      · simp only [Prog.size]; omega
  · rename_i e k st hn hst
    cases hs
    refine total_upd _ _ _ _ ht ?_
    simp only [Th.size, hn, hst, stackSize, Prog.size]
    omega
  · rename_i e k st hn hst
    cases hs
    refine total_upd _ _ _ _ ht ?_
    simp only [Th.size, hn, hst, stackSize, Prog.size]
    omega
  · cases hs
  · cases hs

/-- `n` steps, each by the thread that the scheduler picks. -/
def St.go (pick : St → Nat) (s : St) : Nat → St
  | 0 => s
  | n + 1 => (s.step (pick s)).go pick n

/-- A scheduler that lets some thread run as long as there is one that can. (Specification.) -/
def Fair (pick : St → Nat) : Prop := ∀ s : St, (∃ t, s.step? t ≠ none) → s.step? (pick s) ≠ none

theorem go_ended {val : Nat → Pay} {ps : List Prog} {rank : Nat → Nat} {B n : Nat} {pick : St → Nat} (hp : Fair pick)
    (m : Nat) {s : St} (hi : Inv val ps s) (h : Up rank B n s) (hm : total s.th n ≤ m) (t : Nat) :
    (s.go pick m).ended t := by
  have stuck : ∀ s : St, s.step? (pick s) = none → ∀ t, s.step? t = none := by
    intro s hs t
    cases ht : s.step? t with
    | none => rfl
    | some x => exact absurd hs (hp s ⟨t, by simp [ht]⟩)
  induction m generalizing s with
  | zero =>
    refine up_progress hi h ?_ t
    intro t'
    cases hs : s.step? t' with
    | none => rfl
    | some s' =>
      have := total_step? hs (up_step? h hs).1
      omega
  | succ m ih =>
    simp only [St.go]
    cases hs : s.step? (pick s) with
    | some s' =>
      simp only [St.step, hs, Option.getD_some]
      have hu := up_step? h hs
      have := total_step? hs hu.1
      exact ih (inv_step? hi hs) hu.2 (by omega)
    | none =>
      have hst := stuck s hs
      have hgo : ∀ k, (s.go pick k) = s := by
        intro k
        induction k with
        | zero => rfl
        | succ k ihk => simp only [St.go, St.step, hs, Option.getD_none, ihk]
      simp only [St.step, hs, Option.getD_none, hgo]
      exact up_progress hi h hst t

/-- The number of looks in all programs, each counted for its beginning and its end. (Specification.) -/
def work (ps : List Prog) : Nat := total (fun t => ⟨ps.getD t .ret, []⟩) ps.length

theorem up_start (val : Nat → Pay) (ps : List Prog) (rank : Nat → Nat) (h : ∀ p ∈ ps, p.upward rank []) :
    ∃ B, Up rank B ps.length (start val ps) := by
  have hB : ∃ B, ∀ p ∈ ps, p.top rank ≤ B := by
    clear h
    induction ps with
    | nil => exact ⟨0, by simp⟩
    | cons p ps ih =>
      obtain ⟨B, hB⟩ := ih
      refine ⟨max (p.top rank) B, ?_⟩
      intro q hq
      rcases List.mem_cons.mp hq with rfl | hq
      · omega
      · have := hB q hq; omega
  obtain ⟨B, hB⟩ := hB
  refine ⟨B, ?_⟩
  have cases' : ∀ t, (ps.getD t .ret) = .ret ∨ (ps.getD t .ret) ∈ ps := by
    intro t
    rcases Nat.lt_or_ge t ps.length with ht | ht
    · right; simp [List.getD_eq_getElem?_getD, ht]
    · left; simp [List.getD_eq_getElem?_getD, ht]
  constructor
  · intro t
    simp only [start, List.map_nil]
    rcases cases' t with hc | hc
    · rw [hc]; trivial
    · exact h _ hc
  · intro t; trivial
  · intro t
    simp only [start]
    rcases cases' t with hc | hc
    · rw [hc]; exact Nat.zero_le _
    · exact hB _ hc
  · intro t x hx; simp [start] at hx
  · intro t ht
    simp [start, List.getD_eq_getElem?_getD, ht]

/-- **C89**, part: if looks within looks go one way only (as they do if there are none), then, whatever the scheduler does
and whichever closures panic, every thread comes to its end, after at most two steps for each look, and has seen all that
it would have seen alone. What is missing: all other programs (`nested_look_hangs`, `crossed_looks_hang`). -/
theorem looks_return_partial (val : Nat → Pay) (ps : List Prog) (rank : Nat → Nat) (h : ∀ p ∈ ps, p.upward rank [])
    (pick : St → Nat) (hp : Fair pick) (t : Nat) :
    ((start val ps).go pick (work ps)).ended t ∧
    ((start val ps).go pick (work ps)).seen t = ((ps.getD t .ret).alone val []).1 := by
  obtain ⟨B, hB⟩ := up_start val ps rank h
  have he := go_ended hp (work ps) (inv_start val ps) hB (Nat.le_refl _) t
  refine ⟨he, ?_⟩
  have hgo : ∀ m (s : St), ∃ us, s.go pick m = s.run us := by
    intro m
    induction m with
    | zero => intro s; exact ⟨[], rfl⟩
    | succ m ih =>
      intro s
      obtain ⟨us, hu⟩ := ih (s.step (pick s))
      exact ⟨pick s :: us, hu⟩
  obtain ⟨us, hu⟩ := hgo (work ps) (start val ps)
  rw [hu] at he ⊢
  rw [(looks_true val ps us t).2 he]

open Classical in
/-- There are such schedulers, and such programs: two that look at errors 1 and 2 in this order, the second with a panic. -/
example : (∃ pick, Fair pick) ∧
    ∀ p ∈ [Prog.look .any 1 (.look .any 2 .ret .ret) .ret, .look .any 1 (.look .str 2 .panic .ret) (display 2)],
      p.upward id [] := by
  refine ⟨⟨fun s => if h : ∃ t, s.step? t ≠ none then h.choose else 0, ?_⟩, ?_⟩
  · intro s h
    simp only [h, dite_true]
    exact h.choose_spec
  · simp [Prog.upward, display]

/-- **C89**, part: looks that are not within one another always return. What is missing: the others. -/
theorem flat_looks_return_partial (val : Nat → Pay) (ps : List Prog) (h : ∀ p ∈ ps, p.flat = true) (pick : St → Nat)
    (hp : Fair pick) (t : Nat) : ((start val ps).go pick (work ps)).ended t :=
  (looks_return_partial val ps id (fun p hm => upward_flat id p (h p hm)) pick hp t).1

example : ∀ p ∈ [display 3, readResult .str 3, .look .any 3 .panic (display 3)], p.flat = true := by decide

end Verif.PanicLock
