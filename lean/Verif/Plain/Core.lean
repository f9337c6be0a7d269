import Verif.Plain.Sim

/-! What the parts of a step do to the parts of the two states that do not depend on where the task is. -/

set_option linter.unusedSimpArgs false

namespace Verif.Plain

open Verif.Mailbox

variable {s s' : Lifecycle.St} {n n' : Next.St}

theorem Core.sim (h : Core s n) (ha : At s n) : Sim s n := ⟨h, ha⟩

theorem Core.congr (h : Core s n) (h1 : s'.mb = s.mb := by simp) (h2 : s'.buffer = s.buffer := by simp)
    (h3 : s'.finished = s.finished := by simp) (h4 : s'.aborted = s.aborted := by simp)
    (h5 : s'.permits = s.permits := by simp) (h6 : s'.handled = s.handled := by simp)
    (h7 : sees s'.log = sees s.log := by simp) (h8 : s'.slots = s.slots := by simp)
    (h9 : s'.delegated = s.delegated := by simp)
    (k1 : n'.queue = n.queue := by simp) (k2 : n'.fresh = n.fresh := by simp) (k3 : n'.closed = n.closed := by simp)
    (k4 : n'.held = n.held := by simp) (k5 : n'.buffer = n.buffer := by simp) (k6 : n'.finished = n.finished := by simp)
    (k7 : n'.aborted = n.aborted := by simp) (k8 : n'.permits = n.permits := by simp)
    (k9 : n'.started = n.started := by simp) (k10 : shows n'.log = shows n.log := by simp)
    (k11 : n'.slot = n.slot := by simp) (k12 : n'.delegated = n.delegated := by simp)
    (k13 : n'.gaveUp = n.gaveUp := by simp) (k14 : n'.asks = n.asks := by simp) : Core s' n' := by
  constructor
  · rw [h1, k1]; exact h.queue
  · rw [h1, k2]; exact h.fresh
  · rw [h1, k3]; exact h.closed
  · rw [k4]; exact h.held
  · rw [h1, k5, h2]; exact h.buffer
  · rw [k6, h3]; exact h.finished
  · rw [k7, h4]; exact h.aborted
  · rw [k8, h5]; exact h.permits
  · rw [h1, k9, h6]; exact h.started
  · rw [k10, h7]; exact h.log
  · rw [h1, k11, h8, h9, k12, k13, k14]; exact h.talk

theorem Core.tell (h : Core s n) (a : List Lifecycle.Ev) (b : List Next.Ev) (hab : shows b = sees a)
    (hs : .b .start ∉ shows b := by simp [shows, shown]) : Core { s with log := s.log ++ a } (n.tell b) := by
  refine ⟨h.queue, h.fresh, h.closed, h.held, h.buffer, h.finished, h.aborted, h.permits, h.started, ?_, h.talk⟩
  rw [Next.tell_log, shows_append, sees_append, h.log, hab, whole_append (hab ▸ hs)]

theorem same_lt {p : List (Nat × Lifecycle.Sig)} {l : List Next.Item} {q : List (Nat × Lifecycle.Sig)} (h : Same p l q)
    {i : Nat} (hi : i ∈ l.map (·.id)) : i < p.length := by
  induction l generalizing q with
  | nil => simp at hi
  | cons it l ih =>
    cases q with
    | nil => simp [Same] at h
    | cons x q =>
      rw [same_cons] at h
      simp only [List.map_cons, List.mem_cons] at hi
      rcases hi with rfl | hi
      · have := h.1
        simp only [tag, mark, Prod.mk.injEq] at this
        exact (List.getElem?_eq_some_iff.mp this.2.2).1
      · exact ih h.2 hi

theorem Talk.drop {p : List (Nat × Lifecycle.Sig)} {σ : Nat → Lifecycle.Slot} {d e g a : List Nat} {ν : Nat → Option Next.Out}
    (h : Talk p σ d ν e g a) (hp : (p.map (·.1)).Nodup) {l : List Next.Item} {q : List (Nat × Lifecycle.Sig)}
    (hl : Same p l q) :
    Talk p (fun t => if σ t = .waiting ∧ t ∈ q.map (·.1) then .failed .actorStopped else σ t) d
      (fun y => if y ∈ l.map (·.id) ∧ ν y = none then some .dropped else ν y) e g a := by
  refine ⟨?_, h.later, h.asks, h.gave, answers_drop hp hl h.answers⟩
  intro y hy
  rw [if_neg, h.new y hy]
  rintro ⟨h1, -⟩
  exact absurd (same_lt hl h1) (by omega)

/-- Signals are dropped. -/
theorem Core.lose (h : Core s n) (hi : Inv s.mb) {l : List Next.Item} {ms : List Lifecycle.Msg}
    (hl : Same s.mb.pushed l (sigs ms)) : Core (s.lose ms) (n.drop l) := by
  refine ⟨h.queue, h.fresh, h.closed, h.held, h.buffer, h.finished, h.aborted, h.permits, h.started, h.log, ?_⟩
  have := h.talk.drop (pushed_nodup hi) hl
  rw [sigs_keys] at this
  exact this

theorem id_of_tag {p : List (Nat × Lifecycle.Sig)} {it : Next.Item} {x : Nat × Lifecycle.Sig} (ht : tag p it = mark x) :
    p[it.id]? = some x := by
  simp only [tag, mark, Prod.mk.injEq] at ht; exact ht.2.2

theorem ask_of_tag {p : List (Nat × Lifecycle.Sig)} {it : Next.Item} {x : Nat × Lifecycle.Sig} (ht : tag p it = mark x) :
    it.ask = askOf x.2 := by
  simp only [tag, mark, Prod.mk.injEq] at ht; exact ht.2.1

/-- The reply sender of a message is dropped, or used. -/
theorem Core.resolve (h : Core s n) {j : Nat} (hj : j < s.mb.pushed.length) {σ : Nat → Lifecycle.Slot} {o : Next.Out}
    (ha : Answers s.mb.pushed σ (n.resolve j o).slot n.gaveUp) :
    Core { s with slots := σ } (n.resolve j o) := by
  refine ⟨h.queue, h.fresh, h.closed, h.held, h.buffer, h.finished, h.aborted, h.permits, h.started, h.log, ?_⟩
  refine ⟨?_, h.talk.later, h.talk.asks, h.talk.gave, ha⟩
  intro y hy
  have hy : s.mb.pushed.length ≤ y := hy
  simp only [Next.St.resolve]
  rw [if_neg, h.talk.new y hy]
  rintro ⟨h1, -⟩
  omega

/-- The handler that ends, or is dropped, takes its reply sender along, if it did not take it out. -/
theorem Core.settle (h : Core s n) (hi : Inv s.mb) {it : Next.Item} {m : Lifecycle.Msg} {taken : Bool}
    (ht : tag s.mb.pushed it = mark (m.1, .msg m.2)) (hk : n.taken = taken) {v : Lifecycle.Slot} {o : Next.Out}
    (hv : outOf v = some (some o)) :
    Core { s with slots := fun u => if s.slots u = .waiting ∧ u ∈ (if taken then [] else [m.1]) then v else s.slots u }
      (n.settle it o) := by
  cases taken with
  | true =>
    simp only [if_true, Next.St.settle, hk, List.not_mem_nil, and_false, if_false]
    exact h
  | false =>
    simp only [Next.St.settle, hk, Bool.false_eq_true, if_false, List.mem_singleton]
    have h1 := id_of_tag ht
    exact h.resolve (List.getElem?_eq_some_iff.mp h1).1 (answers_resolve (pushed_nodup hi) h1 hv h.talk.answers)

/-- The handler of a message that nobody waits for, or that took its reply sender, ends. -/
theorem Core.settle_no (h : Core s n) {it : Next.Item} {m : Lifecycle.Msg} {taken : Bool}
    (ht : tag s.mb.pushed it = mark (m.1, .msg m.2)) (hk : n.taken = taken) (ha : m.2.ask = false ∨ taken = true)
    (o : Next.Out) : Core s (n.settle it o) := by
  cases taken with
  | true =>
    simp only [Next.St.settle, hk, if_true]
    exact h
  | false =>
    simp only [Next.St.settle, hk, Bool.false_eq_true, if_false]
    have h1 := id_of_tag ht
    exact h.resolve (List.getElem?_eq_some_iff.mp h1).1 (answers_tell ht (by simpa using ha) o h.talk.answers)

theorem Core.stop (h : Core s n) (hi : Inv s.mb) (r : Lifecycle.Reason) :
    Sim (s.leave r) (n.stop (reasonOf r)) := by
  apply Core.sim
  · have h1 := (h.lose hi h.buffer).tell [.sBegin r] [.b .stop] rfl
    exact ⟨h1.queue, h1.fresh, h1.closed, h1.held, same_nil, h1.finished, h1.aborted, h1.permits, h1.started, h1.log, h1.talk⟩
  · rfl

/-- The rest of the start-up buffer is gone through. -/
theorem Core.go (h : Core s n) (hi : Inv s.mb) {rest : List Lifecycle.Msg} {l : List Next.Item}
    (hl : Same s.mb.pushed l (sigs rest)) (ts : Bool) : Sim (s.drain rest ts) (n.go l ts) := by
  cases rest with
  | cons m ms =>
    obtain ⟨it, l', rfl, h1, h2⟩ := same_cons_right hl
    have h3 := h.tell [.hBegin m] [.b .handle] rfl
    apply Core.sim
    · refine ⟨h3.queue, h3.fresh, h3.closed, h3.held, h3.buffer, h3.finished, h3.aborted, h3.permits, ?_, h3.log, h3.talk⟩
      simp only [Lifecycle.St.drain, Next.St.go, Lifecycle.St.beginHandle, sigs_append, sigs_cons, sigs_nil]
      exact same_append h.started (by rw [same_cons]; exact ⟨h1, same_nil⟩)
    · exact ⟨it, l', rfl, h1, h2, rfl⟩
  | nil =>
    rw [sigs_nil, same_nil_right] at hl
    subst hl
    cases ts with
    | false =>
      have h3 := h.tell [] [.b .next] rfl
      apply Core.sim
      · simp only [Lifecycle.St.drain, Next.St.go, Bool.false_eq_true, if_false]
        exact h3.congr (h7 := by simp)
      · exact .inl rfl
    | true => exact h.stop hi .normal

/-- Start-up is over. -/
theorem Core.drain (h : Core s n) (hi : Inv s.mb) (ts : Bool) :
    Sim (s.finishStartup.drain s.buffer ts) (n.drain ts) := by
  have h1 : Core s.finishStartup { n with finished := true, buffer := [] } :=
    ⟨h.queue, h.fresh, h.closed, h.held, same_nil, rfl, h.aborted, h.permits, h.started, h.log, h.talk⟩
  exact h1.go hi h.buffer ts

/-- The receiver is dropped. -/
theorem Core.close (h : Core s n) (hi : Inv s.mb) :
    Core s.closeMb { n.drop n.queue with queue := [], closed := true } := by
  constructor
  · simp [Mb.close]
  · exact h.fresh
  · rfl
  · exact h.held
  · exact h.buffer
  · exact h.finished
  · exact h.aborted
  · exact h.permits
  · exact h.started
  · exact h.log
  · have h1 := h.talk.drop (pushed_nodup hi) h.queue
    refine ⟨h1.new, h1.later, h1.asks, h1.gave, answers_congr h1.answers ?_⟩
    intro t ht
    have ht : t ∈ s.mb.pushed.map (·.1) := ht
    have h2 := pushed_apart hi ht
    exact if_neg (fun h3 => h2 h3.2)

theorem drop_nil (n : Next.St) : n.drop [] = n := by
  simp [Next.St.drop]

theorem drop_comm (n : Next.St) (a b : List Next.Item) : ((n.drop a).drop b).slot = ((n.drop b).drop a).slot := by
  funext y
  simp only [Next.St.drop]
  by_cases h1 : y ∈ a.map (·.id) <;> by_cases h2 : y ∈ b.map (·.id) <;> by_cases h3 : n.slot y = none <;> simp [h1, h2, h3]

/-- The task ends without having returned, outside of a handler. -/
theorem Core.fall0 (h : Core s n) (hi : Inv s.mb) (a : List Lifecycle.Ev) (e : Next.Ev) (ha : shows [e] = sees a)
    (hs : .b .start ∉ shows [e]) :
    Sim ({ s with log := s.log ++ a }).die { (((n.drop n.queue).drop n.held).drop n.buffer).tell [e] with
      queue := [], held := [], buffer := [], closed := true, phase := .crashed } := by
  have h1 := (((h.lose hi h.buffer).close (by simpa using hi)).tell a [e] ha hs)
  apply Core.sim
  · refine ⟨h1.queue, h1.fresh, h1.closed, rfl, same_nil, h1.finished, h1.aborted, h1.permits, h1.started, h1.log, ?_⟩
    have := h1.talk
    simp only [Next.tell_slot, h.held] at this ⊢
    have h3 : (((n.drop n.queue).drop []).drop n.buffer).slot = ((n.drop n.buffer).drop n.queue).slot := by
      rw [drop_nil, drop_comm]
    rw [h3]
    exact this
  · rfl

/-- The task panics. -/
theorem Core.crash (h : Core s n) (hi : Inv s.mb) (hp : ∀ it l f, n.phase ≠ .handling it l f)
    (a : List Lifecycle.Ev) (ha : sees a = [.crash]) :
    Sim ({ s with log := s.log ++ a }).die n.crash := by
  have hc : n.crash = { (((n.drop n.queue).drop n.held).drop n.buffer).tell [.crash] with
    queue := [], held := [], buffer := [], closed := true, phase := .crashed } := by
    unfold Next.St.crash Next.St.fall
    split
    · next it l f hh => exact absurd hh (hp it l f)
    · rfl
  rw [hc]
  exact h.fall0 hi a .crash (by rw [ha]; rfl) (by simp [shows, shown])

end Verif.Plain
