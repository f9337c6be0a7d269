import Verif.Listed.Props

/-! Which actors are in the remote registry after their end (C66), exactly. -/

namespace Verif.Listed

open Verif.Mailbox Verif.Lifecycle

/-! ## Specification -/

/-- The operation enters actor `i` in the registry: the swarm confirms a registration that is still waited for, or somebody
who holds a reference links the actor to a remote one. -/
def Enters (R : Reg) (op : ROp) (i : Id) : Prop :=
  (op = .answer i true ∧ i ∈ R.waiting) ∨ (op = .linkRemote i ∧ R.listed.count i + R.waiting.count i < (R.act i).ext)

/-- `on_start` of the actor has failed. -/
def FailedStart (s : St) : Prop := ∃ o, .startEnd o ∈ s.log ∧ o ≠ .ok

/-! ## Lemmas -/

theorem enters_of_lists {R : Reg} {op : ROp} {i : Id} (h : op.lists i = true) : Enters R op i ∨ R.step op = R := by
  cases op with
  | answer j ok =>
    simp only [ROp.lists, Bool.and_eq_true, beq_iff_eq] at h
    obtain ⟨rfl, rfl⟩ := h
    by_cases hw : j ∈ R.waiting
    · exact .inl (.inl ⟨rfl, hw⟩)
    · right; simp [Reg.step, hw]
  | linkRemote j =>
    simp only [ROp.lists, beq_iff_eq] at h
    subst h
    by_cases hw : R.share j < (R.act j).ext
    · exact .inl (.inr ⟨rfl, hw⟩)
    · right; simp [Reg.step, hw]
  | _ => cases h

theorem listed_of_enters {R : Reg} {op : ROp} {i : Id} (h : Enters R op i) : i ∈ (R.step op).listed := by
  have ins : ∀ R : Reg, i ∈ (R.insert i).listed := by
    intro R; unfold Reg.insert; split
    · next h => exact h
    · simp
  rcases h with ⟨rfl, hw⟩ | ⟨rfl, hw⟩
  · simp only [Reg.step, hw, if_true]; exact ins _
  · have hw : R.share i < (R.act i).ext := hw
    simp only [Reg.step, hw, if_true]; exact ins _

theorem entered_before (cap : Id → Option Nat) (pre ops : List ROp) (i : Id) (h0 : i ∉ (regAfter cap pre).listed)
    (h : i ∈ (regAfter cap (pre ++ ops)).listed) :
    ∃ a op b, ops = a ++ op :: b ∧ Enters (regAfter cap (pre ++ a)) op i := by
  induction ops generalizing pre with
  | nil => simp at h; exact absurd h h0
  | cons op ops ih =>
    rw [List.append_cons] at h
    have hs : regAfter cap (pre ++ [op]) = (regAfter cap pre).step op := by
      simp [regAfter, Reg.exec]
    by_cases h1 : i ∈ (regAfter cap (pre ++ [op])).listed
    · have h2 := h1
      rw [hs] at h2
      rcases enters_of_lists (R := regAfter cap pre) (listed_step _ _ _ h0 h2) with h3 | h3
      · exact ⟨[], op, ops, rfl, by simpa using h3⟩
      · rw [h3] at h2; exact absurd h2 h0
    · obtain ⟨a, o, b, he, hen⟩ := ih _ h1 h
      exact ⟨op :: a, o, b, by simp [he], by simpa using hen⟩

theorem clean_after' (cap : Id → Option Nat) (i : Id) (pre ops : List ROp) (h : Clean i (regAfter cap pre))
    (hb : ∀ a op b, ops = a ++ op :: b → Enters (regAfter cap (pre ++ a)) op i →
      ¬ Ended ((regAfter cap (pre ++ a)).act i)) : Clean i (regAfter cap (pre ++ ops)) := by
  induction ops generalizing pre with
  | nil => simpa using h
  | cons op ops ih =>
    rw [List.append_cons]
    have hs : regAfter cap (pre ++ [op]) = (regAfter cap pre).step op := by
      simp [regAfter, Reg.exec]
    refine ih (pre ++ [op]) ?_ ?_
    · obtain ⟨l, hl⟩ := act_after cap pre i
      rw [hs]
      by_cases hn : (regAfter cap pre).step op = regAfter cap pre
      · rw [hn]; exact h
      · refine clean_step h (by rw [hl]; exact start_after _ _) (nodup_after cap pre) op fun hlists => ?_
        rcases enters_of_lists (R := regAfter cap pre) hlists with h3 | h3
        · simpa using hb [] op ops rfl (by simpa using h3)
        · exact absurd h3 hn
    · intro a op' b he hl
      have := hb (op :: a) op' b (by simp [he]) (by simpa using hl)
      simpa using this

/-- Taken out of the registry: the task has returned after a successful start. -/
theorem taken_out (cap : Id → Option Nat) (pre ops : List ROp) (i : Id) (h0 : i ∈ (regAfter cap pre).listed)
    (h : i ∉ (regAfter cap (pre ++ ops)).listed) :
    (∃ r, ((regAfter cap (pre ++ ops)).act i).phase = .stopped r) ∧
      ((regAfter cap (pre ++ ops)).act i).startupErr = some none := by
  induction ops generalizing pre with
  | nil => simp at h; exact absurd h0 h
  | cons op ops ih =>
    rw [List.append_cons] at h ⊢
    have hs : regAfter cap (pre ++ [op]) = (regAfter cap pre).step op := by
      simp [regAfter, Reg.exec]
    by_cases h1 : i ∈ (regAfter cap (pre ++ [op])).listed
    · exact ih _ h1 h
    · rw [hs] at h1
      obtain ⟨rfl, r, res, hp⟩ := unlisted_step _ _ _ h0 h1
      obtain ⟨l, hl⟩ := act_after cap pre i
      have hst : Start ((regAfter cap pre).act i) := by rw [hl]; exact start_after _ _
      have hok := hst.nott r _ res hp
      have key : (((regAfter cap pre).step (.loc i .finish)).act i).phase = .stopped r ∧
          (((regAfter cap pre).step (.loc i .finish)).act i).startupErr = some none := by
        rcases step_finish (regAfter cap pre) i with ⟨r', res', hp', heq⟩ | ⟨hp', _⟩
        · have e : ((regAfter cap pre).remove i).act i = ((regAfter cap pre).act i).step .dropRef := by
            rw [Reg.remove, if_pos h0]
            show ((regAfter cap pre).on i .dropRef).act i = _
            rw [on_act, if_pos rfl]
          rw [heq, on_act, if_pos rfl, e]
          have e1 : (((regAfter cap pre).act i).step .dropRef).phase = .notifying r [] res := hp
          have e2 : (((regAfter cap pre).act i).step .dropRef).startupErr = some none := hok
          generalize ((regAfter cap pre).act i).step .dropRef = s at e1 e2
          constructor
          · simp [St.step, e1]
          · simpa [St.step, e1] using e2
        · exact absurd hp (hp' r res)
      have hfin : ∃ l, (regAfter cap (pre ++ [.loc i .finish] ++ ops)).act i
          = (((regAfter cap pre).step (.loc i .finish)).act i).exec l := by
        rw [← hs, regAfter, exec_append]
        exact act_exec _ _ _
      obtain ⟨l', hl'⟩ := hfin
      have hen : (((regAfter cap pre).step (.loc i .finish)).act i).phase.ended = true := by rw [key.1]; rfl
      rw [hl', ended_exec hen, startupErr_exec hen]
      exact ⟨⟨r, key.1⟩, key.2⟩

theorem startupErr_of_log {s : St} (hst : Start s) {o : UOut} (h : .startEnd o ∈ s.log) :
    s.startupErr = some none ↔ o = .ok := by
  cases hx : s.startupErr with
  | none => exact absurd h ((hst.noRes hx).2.2.1 _)
  | some x =>
    have := (hst.res x hx).2.1 _ h
    subst this
    cases o <;> simp [resOf]

/-! ## C66 -/

/-- **C66** Exactly which actors the registry lists after their end: those that were entered after it, and those that were
entered at any time and whose `on_start` failed or whose task was torn down. All the others are gone. -/
theorem listed_after_end_iff (cap : Id → Option Nat) (ops : List ROp) (i : Id) (he : Ended ((regAfter cap ops).act i)) :
    i ∈ (regAfter cap ops).listed ↔
      ∃ pre op post, ops = pre ++ op :: post ∧ Enters (regAfter cap pre) op i ∧
        (Ended ((regAfter cap pre).act i) ∨ FailedStart ((regAfter cap ops).act i) ∨
          ((regAfter cap ops).act i).phase = .crashed) := by
  obtain ⟨l, hl⟩ := act_after cap ops i
  have hst : Start ((regAfter cap ops).act i) := by rw [hl]; exact start_after _ _
  constructor
  · intro h
    by_cases hbad : FailedStart ((regAfter cap ops).act i) ∨ ((regAfter cap ops).act i).phase = .crashed
    · obtain ⟨a, op, b, e, hen⟩ := entered_before cap [] ops i (by simp [regAfter, Reg.exec, Reg.fresh]) (by simpa using h)
      exact ⟨a, op, b, e, by simpa using hen, .inr hbad⟩
    · refine Classical.byContradiction fun hno => ?_
      rcases he with ⟨r, hr⟩ | hc
      · have hc := clean_after' cap i [] ops
          (by intro r h; simp [regAfter, Reg.exec, Reg.fresh, after, St.exec, St.fresh] at h)
          (by
            intro a op b e hen hended
            simp only [List.nil_append] at hen hended
            exact hno ⟨a, op, b, e, hen, .inl hended⟩)
        simp only [List.nil_append] at hc
        refine hc r hr ?_ h
        cases hx : ((regAfter cap ops).act i).startupErr with
        | none => exact absurd hx (hst.stopped r hr).2
        | some x =>
          obtain ⟨o, ho⟩ := (hst.res x hx).2.2
          refine Classical.byContradiction fun hne => hbad (.inl ⟨o, ho, fun ok => ?_⟩)
          exact hne (by rw [← hx]; exact (startupErr_of_log hst ho).mpr ok)
      · exact hbad (.inr hc)
  · rintro ⟨pre, op, post, rfl, hen, hend⟩
    have hs : regAfter cap (pre ++ [op]) = (regAfter cap pre).step op := by
      simp [regAfter, Reg.exec]
    have h1 := listed_of_enters hen
    rcases hend with hend | hend
    · have : regAfter cap (pre ++ op :: post) = ((regAfter cap pre).step op).exec post := by
        simp [regAfter, Reg.exec]
      rw [this]
      refine listed_exec h1 ?_ post
      obtain ⟨l', hl'⟩ := act_step (regAfter cap pre) op i
      rw [hl']
      exact dead_exec (dead_of_ended ((ended_iff _).mp hend)) l'
    · refine Classical.byContradiction fun hn => ?_
      rw [← hs] at h1
      rw [List.append_cons] at hn
      obtain ⟨⟨r, h2⟩, h3⟩ := taken_out cap _ post i h1 hn
      rw [← List.append_cons] at h2 h3
      rcases hend with ⟨o, ho, hne⟩ | hc
      · exact hne ((startupErr_of_log hst ho).mp h3)
      · rw [hc] at h2; cases h2

/-- Three actors end while the registry knows them: 0 in order, and a second registration of it is confirmed too late; 1 by a
failed `on_start`; 2 in order, without more. -/
def threeEnds : List ROp :=
  [.loc 0 .run, .loc 0 (.startEnd .ok), .register 0, .answer 0 true, .register 0,
   .loc 1 .run, .register 1, .answer 1 true, .loc 1 (.startEnd (.err 5)), .loc 1 (.panicEnd .cont), .loc 1 (.stopEnd .ok),
   .loc 2 .run, .loc 2 (.startEnd .ok), .linkRemote 2,
   .loc 0 .kill, .loc 0 .pollBegin, .loc 0 (.stopEnd .ok), .loc 0 .finish, .answer 0 true,
   .loc 2 .kill, .loc 2 .pollBegin, .loc 2 (.stopEnd .ok), .loc 2 .finish]

example : (regAfter (fun _ => none) (threeEnds.take 14)).listed = [0, 1, 2] ∧
    (regAfter (fun _ => none) (threeEnds.take 18)).listed = [1, 2] ∧ (regAfter (fun _ => none) threeEnds).listed = [1, 0] ∧
    ((regAfter (fun _ => none) threeEnds).act 0).phase = .stopped .killed ∧
    ((regAfter (fun _ => none) threeEnds).act 1).phase = .stopped (.panicked 5) ∧
    ((regAfter (fun _ => none) threeEnds).act 2).phase = .stopped .killed := by decide

end Verif.Listed
