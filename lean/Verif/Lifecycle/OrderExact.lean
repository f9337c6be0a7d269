import Verif.Lifecycle.LostExact
import Verif.Lifecycle.Prefix

/-!
C01, exactly: the messages from outside are handled in the order in which the mailbox accepted them and without gaps, but
for those that have fallen behind a failing handler while the start-up buffer was emptied.
-/

set_option linter.unusedSimpArgs false

namespace Verif.Lifecycle

open Verif.Mailbox

/-- Specification: in the course of `ops` the message `m` has fallen behind a message of the start-up buffer whose handler failed. -/
def Fell (cap : Option Nat) (ops : List Op) (m : Msg) : Prop :=
  ∃ pre op post, ops = pre ++ op :: post ∧ Falls (after cap pre) (after cap (pre ++ [op])) m

theorem lost_of_fell {cap : Option Nat} {ops : List Op} {m : Msg} (h : Fell cap ops m) : m ∈ (after cap ops).lost := by
  obtain ⟨pre, op, post, rfl, x, tk, rest, ts, o, e, hp, hm, _, hq, _⟩ := h
  have h1 : m ∈ (after cap (pre ++ [op])).lost := by
    rw [after_snoc] at hq ⊢
    exact fell_lost (step_tr _ _) hp hq hm
  have : pre ++ op :: post = (pre ++ [op]) ++ post := by simp
  rw [this, after_append]
  exact exec_inv (P := fun s => m ∈ s.lost) (fun s s' h ht => (tr_lost ht).subset h) h1 _

theorem fell_of_lost (cap : Option Nat) (ops : List Op) (ho : (after cap ops).phase.over = false) {m : Msg}
    (hm : m ∈ (after cap ops).lost) : Fell cap ops m := by
  suffices h : ∀ r ops : List Op, ops = r.reverse → (after cap ops).phase.over = false → m ∈ (after cap ops).lost →
      Fell cap ops m from h ops.reverse ops (by simp) ho hm
  clear ho hm ops
  intro r
  induction r with
  | nil => rintro ops rfl _ hm; cases hm
  | cons op r ih =>
    rintro ops rfl ho hm
    rw [List.reverse_cons] at ho hm ⊢
    by_cases h0 : m ∈ (after cap r.reverse).lost
    · have : (after cap r.reverse).phase.over = false := by
        cases h : (after cap r.reverse).phase.over with
        | false => rfl
        | true => rw [after_snoc, (over_step op h).1] at ho; cases ho
      obtain ⟨pre, op', post, e, hf⟩ := ih _ rfl this h0
      exact ⟨pre, op', post ++ [op], by rw [e]; simp, hf⟩
    · refine ⟨r.reverse, op, [], rfl, lost_tr ?_ ho h0 hm⟩
      rw [after_snoc]; exact step_tr _ _

theorem fell_snoc {cap : Option Nat} {ops : List Op} {op : Op} (hl : (after cap (ops ++ [op])).phase.inLoop = false)
    (m : Msg) : Fell cap (ops ++ [op]) m ↔ Fell cap ops m := by
  constructor
  · rintro ⟨pre, op', post, e, hf⟩
    rcases List.eq_nil_or_concat post with rfl | ⟨post', z, rfl⟩
    · obtain ⟨rfl, h2⟩ := List.append_inj' e rfl
      cases h2
      obtain ⟨x, tk, rest, ts, o, e, _, _, _, hq, _⟩ := hf
      rw [hq] at hl; cases hl
    · rw [List.concat_eq_append, ← List.cons_append, ← List.append_assoc] at e
      obtain ⟨h1, _⟩ := List.append_inj' e rfl
      exact ⟨pre, op', post', h1, hf⟩
  · rintro ⟨pre, op', post, e, hf⟩
    exact ⟨pre, op', post ++ [op], by rw [e]; simp, hf⟩

theorem nodup_of_map {β γ : Type} {f : β → γ} {l : List β} (h : (l.map f).Nodup) : l.Nodup := by
  induction l with
  | nil => simp
  | cons x l ih =>
    simp only [List.map_cons, List.nodup_cons] at h ⊢
    exact ⟨fun hx => h.1 (List.mem_map.mpr ⟨x, hx, rfl⟩), ih h.2⟩

theorem startupOrder_perm (k : Nat) (R : List (Nat × Sig)) : (startupOrder k R).Perm (msgsOf R) := by
  have h3 : msgsOf R = msgsOf (R.take k) ++ msgsOf (R.drop k) := by
    rw [← msgsOf_append, List.take_append_drop]
  rw [h3]
  exact (List.filter_append_perm _ _).append_right _

theorem filter_of_perm {l k d : List Msg} (hs : k.Sublist l) (hp : l.Perm (k ++ d)) (hn : l.Nodup) :
    l.filter (fun m => m ∉ d) = k := by
  have hkd : (k ++ d).Nodup := hp.nodup_iff.mp hn
  have h1 : k.filter (fun m => m ∉ d) = k := by
    rw [List.filter_eq_self]
    intro m hm
    simp only [decide_eq_true_eq]
    intro hd
    exact (List.nodup_append.mp hkd).2.2 m hm m hd rfl
  have h2 : (k.filter (fun m => m ∉ d)).Sublist (l.filter (fun m => m ∉ d)) := hs.filter _
  rw [h1] at h2
  refine (h2.eq_of_length ?_).symm
  have h3 := (hp.filter (fun m => m ∉ d)).length_eq
  rw [h3, List.filter_append, h1]
  simp

/-- In the message loop nothing is missing but what has fallen behind. -/
theorem outside_in_loop_exact (cap : Option Nat) (ops : List Op) (hl : (after cap ops).phase.inLoop = true) :
    (outside (msgsOf (after cap ops).mb.received)).filter (fun m => m ∉ (after cap ops).lost) =
      outside (after cap ops).handled ++ outside (after cap ops).phase.rest ++ outside (after cap ops).buffer := by
  have hg := good_after cap ops
  have hnd : (msgsOf (after cap ops).mb.received).Nodup := by
    have h1 : (msgsOf (after cap ops).mb.pushed).Nodup := nodup_of_map (pushed_nodup cap ops)
    obtain ⟨x, hx⟩ := received_sublist_pushed hg.shape
    rw [← hx, msgsOf_append] at h1
    exact (List.nodup_append.mp h1).1
  generalize after cap ops = s at *
  have hacct := hg.acct
  unfold Acct at hacct
  cases hc : s.cut with
  | none =>
    obtain ⟨h1, h2⟩ := hg.ord.none hc
    have hf : s.finished = false := by rw [hg.shape.cut, hc]; rfl
    have hr : s.phase.rest = [] := by
      by_cases h : s.phase.rest = []
      · exact h
      · have := hg.shape.rest h; simp [hf] at this
    have hlost : s.lost = [] := by
      have h3 := hacct.length_eq
      rw [h1, h2 hl, hr] at h3
      have := length_filter_split (fun m : Msg => m.2.within) (msgsOf s.mb.received)
      simp only [List.length_append, List.append_nil] at h3
      exact List.eq_nil_of_length_eq_zero (by omega)
    have e1 : outside ((msgsOf s.mb.received).filter (·.2.within)) = [] := by
      simp [outside, List.filter_filter]
    rw [hr, h1, h2 hl, e1, hlost]
    simp [outside, List.filter_filter]
  | some k =>
    obtain ⟨_, h2, _⟩ := hg.ord.some k hc
    have hbuf : s.buffer = [] := by
      by_cases h : s.buffer = []
      · exact h
      · have := (hg.shape.buf h).1
        rw [hg.shape.cut, hc] at this
        simp at this
    rw [hbuf] at hacct ⊢
    simp only [List.append_nil] at hacct
    have hperm : (startupOrder k s.mb.received).Perm (msgsOf s.mb.received) := startupOrder_perm k _
    have := filter_of_perm h2 (hperm.trans hacct) (hperm.nodup_iff.mpr hnd)
    rw [← outside_startupOrder k]
    have e : outside ([] : List Msg) = [] := rfl
    rw [e, List.append_nil, ← outside_append, ← this]
    simp only [outside, List.filter_filter]
    congr 1; funext m; exact Bool.and_comm _ _

/-- **C01**, exactly. The messages from outside are handled in exactly the order in which the mailbox accepted them, and
without gaps but for those that have fallen behind a message of the start-up buffer whose handler failed. -/
theorem outside_handled_exact (cap : Option Nat) (ops : List Op) :
    ∃ fallen : List Msg, (∀ m, m ∈ fallen ↔ Fell cap ops m) ∧
      outside (after cap ops).handled <+: (outside (msgsOf (after cap ops).mb.pushed)).filter (fun m => m ∉ fallen) := by
  have key : ∃ fallen : List Msg, (∀ m, m ∈ fallen ↔ Fell cap ops m) ∧
      outside (after cap ops).handled <+: (outside (msgsOf (after cap ops).mb.received)).filter (fun m => m ∉ fallen) := by
    refine after_induct cap (P := fun ops s => ∃ fallen : List Msg, (∀ m, m ∈ fallen ↔ Fell cap ops m) ∧
      outside s.handled <+: (outside (msgsOf s.mb.received)).filter (fun m => m ∉ fallen)) ?_ ?_ ops
    · refine ⟨[], fun m => ⟨(by simp), ?_⟩, ?_⟩
      · rintro ⟨pre, op, post, e, _⟩; simp at e
      · have : (after cap []).handled = [] := rfl
        rw [this]; exact List.nil_prefix
    · rintro ops op ⟨fallen, h1, h2⟩
      have hsnoc : (after cap ops).step op = after cap (ops ++ [op]) := (after_snoc cap ops op).symm
      cases hl : ((after cap ops).step op).phase.inLoop with
      | true =>
        rw [hsnoc] at hl ⊢
        refine ⟨(after cap (ops ++ [op])).lost, fun m => ⟨fell_of_lost cap _ ?_, lost_of_fell⟩, ?_⟩
        · revert hl; cases (after cap (ops ++ [op])).phase <;> simp [Phase.over]
        · rw [outside_in_loop_exact cap _ hl, List.append_assoc]
          exact List.prefix_append _ _
      | false =>
        have ht := step_tr (after cap ops) op
        refine ⟨fallen, fun m => (h1 m).trans (fell_snoc (by rw [← hsnoc]; exact hl) m).symm, ?_⟩
        rw [tr_handled_out ht hl]
        refine h2.trans ?_
        obtain ⟨x, hx⟩ := tr_received ht
        rw [← hx]
        simp
  obtain ⟨fallen, h1, h2⟩ := key
  refine ⟨fallen, h1, h2.trans ?_⟩
  obtain ⟨x, hx⟩ := received_sublist_pushed (good_after cap ops).shape
  rw [← hx]
  simp

example : outside (after none behindDemo).handled = [(0, tell 10), (3, tell 12)] ∧
    outside (msgsOf (after none behindDemo).mb.pushed) = [(0, tell 10), (1, tell 11), (3, tell 12)] ∧
    Fell none behindDemo (1, tell 11) :=
  ⟨by decide, by decide, behindDemo.take 8, .handlerEnd (.panic 1), behindDemo.drop 9, rfl, (0, tell 10), false, [(1, tell 11)],
    false, .panic 1, 1, by decide⟩

end Verif.Lifecycle
