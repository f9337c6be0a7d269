import Verif.Mailbox.Model
import Verif.Util

/-! Helper lemmas about the mailbox model: the invariant and its preservation. -/

namespace Verif.Mailbox

variable {α : Type}

/-- Drop the cause from a failed send. -/
def unwhy (f : Nat × α × Why) : Nat × α := (f.1, f.2.1)

/-- The mailbox invariant. -/
structure Inv (m : Mb α) : Prop where
  hist : m.pushed = m.received ++ m.lost ++ m.queue
  openLost : m.closed = false → m.lost = []
  closedEmpty : m.closed = true → m.queue = [] ∧ m.granted = [] ∧ m.waiting = []
  capOk : ∀ c, m.cap = some c → m.queue.length + m.granted.length ≤ c
  full : ∀ c, m.cap = some c → m.waiting ≠ [] → m.queue.length + m.granted.length = c
  unb : m.cap = none → m.granted = [] ∧ m.waiting = []
  part : (m.pushed ++ m.granted ++ m.waiting ++ m.failed.map unwhy).Perm m.sent
  tick : m.sent.map (·.1) = List.range m.next
  order : (m.granted ++ m.waiting).Pairwise (fun a b => a.1 < b.1)
  noOvertake : ∀ w ∈ m.waiting, ∀ p ∈ m.pushed, p.1 < w.1

theorem Inv.sent_lt {m : Mb α} (h : Inv m) : ∀ p ∈ m.sent, p.1 < m.next := by
  intro p hp
  have : p.1 ∈ m.sent.map (·.1) := List.mem_map_of_mem hp
  rw [h.tick] at this
  simpa using this

theorem Inv.sent_nodup {m : Mb α} (h : Inv m) : (m.sent.map (·.1)).Nodup := by
  rw [h.tick]; exact List.nodup_range

theorem Inv.mem_sent {m : Mb α} (h : Inv m) {p : Nat × α}
    (hp : p ∈ m.pushed ++ m.granted ++ m.waiting ++ m.failed.map unwhy) : p ∈ m.sent :=
  h.part.mem_iff.mp hp

theorem Inv.part_nodup {m : Mb α} (h : Inv m) :
    ((m.pushed ++ m.granted ++ m.waiting ++ m.failed.map unwhy).map (·.1)).Nodup :=
  (h.part.map (·.1)).nodup_iff.mpr h.sent_nodup

theorem inv_fresh (cap : Option Nat) : Inv (Mb.fresh cap : Mb α) := by
  constructor <;> simp [Mb.fresh]

theorem filter_find_perm {l : List (Nat × α)} {t : Nat} {p : Nat × α}
    (hn : (l.map (·.1)).Nodup) (hf : l.find? (fun p => p.1 == t) = some p) :
    l.Perm (p :: l.filter (fun p => p.1 != t)) := by
  induction l with
  | nil => simp at hf
  | cons q l ih =>
    simp only [List.map_cons, List.nodup_cons] at hn
    by_cases hq : q.1 = t
    · have : q = p := by simpa [List.find?_cons, hq] using hf
      subst this
      have hfil : l.filter (fun p => p.1 != t) = l := by
        apply List.filter_eq_self.mpr
        intro a ha
        have : a.1 ∈ l.map (·.1) := List.mem_map_of_mem ha
        have hne : a.1 ≠ t := by intro h; apply hn.1; rw [hq, ← h]; exact this
        simpa using hne
      simp [hq, hfil]
    · have hf' : l.find? (fun p => p.1 == t) = some p := by
        simpa [List.find?_cons, hq] using hf
      have := ih hn.2 hf'
      have hq' : (q.1 != t) = true := by simpa using hq
      rw [List.filter_cons_of_pos (by simpa using hq)]
      exact (this.cons q).trans (List.Perm.swap _ _ _)

theorem find_key {l : List (Nat × α)} {t : Nat} {p : Nat × α}
    (hf : l.find? (fun p => p.1 == t) = some p) : p.1 = t ∧ p ∈ l := by
  constructor
  · simpa using List.find?_some hf
  · exact List.mem_of_find?_eq_some hf

/-- Fields shared by every proof that starts a new send: bump the counter. -/
theorem inv_send {m : Mb α} (h : Inv m) (a : α) : Inv (m.send a) := by
  have hlt := h.sent_lt
  have hpl : ∀ p ∈ m.pushed, p.1 < m.next := fun p hp => hlt p (h.mem_sent (by simp [hp]))
  have hgw : ∀ p ∈ m.granted ++ m.waiting, p.1 < m.next := fun p hp =>
    hlt p (h.mem_sent (by
      rcases List.mem_append.mp hp with hp | hp <;> simp [hp]))
  have hpart := h.part
  simp only [Mb.send, Mb.bump]
  split
  · next hc =>
    have hc : m.closed = true := hc
    constructor
    · exact h.hist
    · exact h.openLost
    · exact h.closedEmpty
    · exact h.capOk
    · exact h.full
    · exact h.unb
    · simp only [List.map_append, List.map_cons, List.map_nil, unwhy]
      rw [← List.append_assoc]
      exact hpart.append_right _
    · simp [h.tick, List.range_succ]
    · exact h.order
    · exact h.noOvertake
  · next hc =>
    have hc : m.closed = false := by simpa using hc
    split
    · next hr =>
      have hw : m.waiting = [] := by
        by_cases hw : m.waiting = []
        · exact hw
        · unfold Mb.hasRoom at hr
          cases hcap : m.cap with
          | none => exact (h.unb hcap).2
          | some c =>
            have := h.full c hcap hw
            simp [hcap] at hr; omega
      constructor
      · simp [Mb.push, h.hist]
      · exact h.openLost
      · intro hc'; simp [Mb.push, hc] at hc'
      · intro c hcap
        have hcap : m.cap = some c := hcap
        simp [Mb.hasRoom, hcap] at hr
        simp [Mb.push]; omega
      · intro c hcap hw'; simp [Mb.push, hw] at hw'
      · exact h.unb
      · simp only [Mb.push]
        have : (m.pushed ++ [(m.next, a)] ++ m.granted ++ m.waiting ++ m.failed.map unwhy).Perm
            (m.pushed ++ m.granted ++ m.waiting ++ m.failed.map unwhy ++ [(m.next, a)]) := by
          simp only [List.append_assoc]
          apply List.Perm.append_left
          simp only [← List.append_assoc]
          simp only [List.append_assoc, List.cons_append, List.nil_append]
          rw [← List.append_assoc, ← List.append_assoc]
          exact (List.perm_append_singleton (m.next, a) _).symm.trans (by simp)
        exact this.trans (hpart.append_right _)
      · simp [Mb.push, h.tick, List.range_succ]
      · exact h.order
      · simp [Mb.push, hw]
    · next hr =>
      have hfull : ∀ c, m.cap = some c → m.queue.length + m.granted.length = c := by
        intro c hcap
        have := h.capOk c hcap
        simp [Mb.hasRoom, hcap] at hr; omega
      constructor
      · exact h.hist
      · exact h.openLost
      · intro hc'; simp [hc] at hc'
      · exact h.capOk
      · intro c hcap _; exact hfull c hcap
      · intro hcap; have hcap : m.cap = none := hcap
        simp [Mb.hasRoom, hcap] at hr
      · simp only
        have : (m.pushed ++ m.granted ++ (m.waiting ++ [(m.next, a)]) ++ m.failed.map unwhy).Perm
            (m.pushed ++ m.granted ++ m.waiting ++ m.failed.map unwhy ++ [(m.next, a)]) := by
          simp only [List.append_assoc]
          apply List.Perm.append_left
          apply List.Perm.append_left
          apply List.Perm.append_left
          simpa using (List.perm_append_singleton (m.next, a) (m.failed.map unwhy)).symm
        exact this.trans (hpart.append_right _)
      · simp [h.tick, List.range_succ]
      · simp only
        rw [← List.append_assoc, List.pairwise_append]
        refine ⟨h.order, by simp, ?_⟩
        intro p hp q hq
        simp at hq; subst hq
        exact hgw p hp
      · intro w hw p hp
        simp only [List.mem_append, List.mem_singleton] at hw
        rcases hw with hw | hw
        · exact h.noOvertake w hw p hp
        · subst hw; exact hpl p hp

theorem inv_trySend {m : Mb α} (h : Inv m) (a : α) : Inv (m.trySend a) := by
  cases hc : m.closed with
  | true =>
    have : m.trySend a = m.send a := by simp [Mb.trySend, Mb.send, hc]
    rw [this]; exact inv_send h a
  | false =>
    cases hr : m.hasRoom with
    | true =>
      have : m.trySend a = m.send a := by simp [Mb.trySend, Mb.send, hc, hr]
      rw [this]; exact inv_send h a
    | false =>
      simp only [Mb.trySend, hc, hr, Mb.bump, Bool.false_eq_true, if_false]
      constructor
      · exact h.hist
      · intro _; exact h.openLost hc
      · intro hc'; simp at hc'
      · exact h.capOk
      · exact h.full
      · exact h.unb
      · simp only [List.map_append, List.map_cons, List.map_nil, unwhy]
        rw [← List.append_assoc]
        exact h.part.append_right _
      · simp [h.tick, List.range_succ]
      · exact h.order
      · exact h.noOvertake

/-- The invariant between freeing a slot and handing it on. -/
structure PreInv (m : Mb α) : Prop where
  hist : m.pushed = m.received ++ m.lost ++ m.queue
  openLost : m.closed = false → m.lost = []
  closedEmpty : m.closed = true → m.queue = [] ∧ m.granted = [] ∧ m.waiting = []
  capOk : ∀ c, m.cap = some c → m.queue.length + m.granted.length ≤ c
  full : ∀ c, m.cap = some c → m.waiting ≠ [] → m.queue.length + m.granted.length + 1 = c
  unb : m.cap = none → m.granted = [] ∧ m.waiting = []
  part : (m.pushed ++ m.granted ++ m.waiting ++ m.failed.map unwhy).Perm m.sent
  tick : m.sent.map (·.1) = List.range m.next
  order : (m.granted ++ m.waiting).Pairwise (fun a b => a.1 < b.1)
  noOvertake : ∀ w ∈ m.waiting, ∀ p ∈ m.pushed, p.1 < w.1

theorem inv_release {m : Mb α} (h : PreInv m) : Inv m.release := by
  unfold Mb.release
  cases hw : m.waiting with
  | nil =>
    simp only
    exact ⟨h.hist, h.openLost, h.closedEmpty, h.capOk, fun c _ hne => absurd hw hne, h.unb,
      h.part, h.tick, h.order, h.noOvertake⟩
  | cons w ws =>
    simp only
    have hne : m.waiting ≠ [] := by simp [hw]
    constructor
    · exact h.hist
    · exact h.openLost
    · intro hc; have := h.closedEmpty hc; simp [hw] at this
    · intro c hcap; have := h.full c hcap hne; simp; omega
    · intro c hcap _; have := h.full c hcap hne; simp; omega
    · intro hcap; have := h.unb hcap; simp [hw] at this
    · have := h.part
      rw [hw] at this
      simpa using this
    · exact h.tick
    · have := h.order
      rw [hw] at this
      simpa using this
    · intro x hx
      exact h.noOvertake x (by simp [hw] at hx ⊢; exact Or.inr hx)

theorem granted_nodup {m : Mb α} (h : Inv m) : (m.granted.map (·.1)).Nodup := by
  have := h.part_nodup
  simp only [List.map_append, List.nodup_append] at this
  exact this.1.1.2.1

theorem waiting_nodup {m : Mb α} (h : Inv m) : (m.waiting.map (·.1)).Nodup := by
  have := h.part_nodup
  simp only [List.map_append, List.nodup_append] at this
  exact this.1.2.1

theorem inv_poll {m : Mb α} (h : Inv m) (t : Nat) : Inv (m.poll t) := by
  unfold Mb.poll
  split
  · exact h
  · next p hf =>
    obtain ⟨hk, hm⟩ := find_key hf
    have hperm := filter_find_perm (granted_nodup h) hf
    have hlen : m.granted.length = (m.granted.filter (fun p => p.1 != t)).length + 1 := by
      simpa using hperm.length_eq
    have hp : (t, p.2) = p := by rw [← hk]
    have hc : m.closed = false := by
      cases hcl : m.closed
      · rfl
      · have := (h.closedEmpty hcl).2.1; simp [this] at hm
    have hsub : (m.granted.filter (fun p => p.1 != t)).Sublist m.granted := List.filter_sublist
    constructor
    · simp [Mb.push, h.hist]
    · exact h.openLost
    · intro hc'; simp [Mb.push, hc] at hc'
    · intro c hcap; have := h.capOk c hcap; simp [Mb.push]; omega
    · intro c hcap hw; have := h.full c hcap hw; simp [Mb.push]; omega
    · intro hcap; have := (h.unb hcap).1; simp [this] at hm
    · simp only [Mb.push, hp]
      refine List.Perm.trans ?_ h.part
      simp only [List.append_assoc]
      apply List.Perm.append_left
      simp only [← List.append_assoc]
      apply List.Perm.append_right
      apply List.Perm.append_right
      exact hperm.symm
    · exact h.tick
    · exact h.order.sublist (hsub.append (List.Sublist.refl _))
    · intro w hw q hq
      simp only [Mb.push, List.mem_append, List.mem_singleton] at hq
      rcases hq with hq | hq
      · exact h.noOvertake w hw q hq
      · have := h.order
        rw [List.pairwise_append] at this
        have := this.2.2 p hm w hw
        rw [hq, hp]; exact this

theorem inv_cancel {m : Mb α} (h : Inv m) (t : Nat) : Inv (m.cancel t) := by
  unfold Mb.cancel
  split
  · next p hf =>
    obtain ⟨hk, hm⟩ := find_key hf
    have hperm := filter_find_perm (waiting_nodup h) hf
    have hp : (t, p.2) = p := by rw [← hk]
    have hsub : (m.waiting.filter (fun p => p.1 != t)).Sublist m.waiting := List.filter_sublist
    have hne : m.waiting ≠ [] := by intro h0; simp [h0] at hm
    constructor
    · exact h.hist
    · exact h.openLost
    · intro hc; have := h.closedEmpty hc; simp [this.2.2] at hm
    · exact h.capOk
    · intro c hcap _; exact h.full c hcap hne
    · intro hcap; have := h.unb hcap; simp [this.2] at hm
    · simp only [List.map_append, List.map_cons, List.map_nil, unwhy, hp]
      refine List.Perm.trans ?_ h.part
      simp only [List.append_assoc]
      apply List.Perm.append_left
      apply List.Perm.append_left
      refine List.Perm.trans ?_ (hperm.symm.append_right _)
      rw [← List.append_assoc]
      refine (List.perm_append_singleton p _).trans ?_
      simp
    · exact h.tick
    · exact h.order.sublist ((List.Sublist.refl _).append hsub)
    · intro w hw; exact h.noOvertake w (hsub.subset hw)
  · split
    · next p hf =>
      obtain ⟨hk, hm⟩ := find_key hf
      have hperm := filter_find_perm (granted_nodup h) hf
      have hlen : m.granted.length = (m.granted.filter (fun p => p.1 != t)).length + 1 := by
        simpa using hperm.length_eq
      have hp : (t, p.2) = p := by rw [← hk]
      have hsub : (m.granted.filter (fun p => p.1 != t)).Sublist m.granted := List.filter_sublist
      apply inv_release
      constructor
      · exact h.hist
      · exact h.openLost
      · intro hc; have := h.closedEmpty hc; simp [this.2.1] at hm
      · intro c hcap; have := h.capOk c hcap; simp only; omega
      · intro c hcap hw; have := h.full c hcap hw; simp only; omega
      · intro hcap; have := h.unb hcap; simp [this.1] at hm
      · simp only [List.map_append, List.map_cons, List.map_nil, unwhy, hp]
        refine List.Perm.trans ?_ h.part
        simp only [List.append_assoc]
        apply List.Perm.append_left
        refine List.Perm.trans ?_ (hperm.symm.append_right _)
        simp only [← List.append_assoc]
        refine (List.perm_append_singleton p _).trans ?_
        simp
      · exact h.tick
      · exact h.order.sublist (hsub.append (List.Sublist.refl _))
      · exact h.noOvertake
    · exact h

theorem inv_recv {m : Mb α} (h : Inv m) : Inv m.recv := by
  unfold Mb.recv
  split
  · exact h
  · next p ps hq =>
    have hc : m.closed = false := by
      cases hcl : m.closed
      · rfl
      · have := (h.closedEmpty hcl).1; simp [this] at hq
    apply inv_release
    constructor
    · simp [h.hist, h.openLost hc, hq]
    · exact h.openLost
    · intro hc'; simp [hc] at hc'
    · intro c hcap; have := h.capOk c hcap; simp [hq] at this; simp only; omega
    · intro c hcap hw; have := h.full c hcap hw; simp [hq] at this; simp only; omega
    · exact h.unb
    · exact h.part
    · exact h.tick
    · exact h.order
    · exact h.noOvertake

theorem inv_close {m : Mb α} (h : Inv m) : Inv m.close := by
  unfold Mb.close
  constructor
  · simp [h.hist]
  · simp
  · simp
  · intro c _; simp
  · simp
  · simp
  · have hu : (unwhy ∘ fun p : Nat × α => (p.1, p.2, Why.closed)) = id := by
      funext p; rfl
    simp only [List.map_append, List.map_map, hu, List.map_id, List.append_nil]
    refine List.Perm.trans ?_ h.part
    simp only [List.append_assoc]
    apply List.Perm.append_left
    refine List.perm_append_comm.trans ?_
    simp
  · exact h.tick
  · simp
  · simp

theorem inv_step {m : Mb α} (h : Inv m) (op : Op α) : Inv (m.step op) := by
  cases op with
  | send a => exact inv_send h a
  | trySend a => exact inv_trySend h a
  | poll t => exact inv_poll h t
  | cancel t => exact inv_cancel h t
  | recv => exact inv_recv h
  | close => exact inv_close h

theorem inv_run {m : Mb α} (h : Inv m) (ops : List (Op α)) : Inv (m.run ops) := by
  induction ops generalizing m with
  | nil => exact h
  | cons op ops ih => exact ih (inv_step h op)

end Verif.Mailbox

namespace Verif.Mailbox

variable {α : Type}

@[simp] theorem release_failed (m : Mb α) : m.release.failed = m.failed := by
  unfold Mb.release; split <;> rfl
@[simp] theorem release_cap (m : Mb α) : m.release.cap = m.cap := by
  unfold Mb.release; split <;> rfl
@[simp] theorem release_queue (m : Mb α) : m.release.queue = m.queue := by
  unfold Mb.release; split <;> rfl
@[simp] theorem release_pushed (m : Mb α) : m.release.pushed = m.pushed := by
  unfold Mb.release; split <;> rfl
@[simp] theorem release_received (m : Mb α) : m.release.received = m.received := by
  unfold Mb.release; split <;> rfl
@[simp] theorem release_closed (m : Mb α) : m.release.closed = m.closed := by
  unfold Mb.release; split <;> rfl
@[simp] theorem release_lost (m : Mb α) : m.release.lost = m.lost := by
  unfold Mb.release; split <;> rfl
@[simp] theorem release_next (m : Mb α) : m.release.next = m.next := by
  unfold Mb.release; split <;> rfl
@[simp] theorem release_sent (m : Mb α) : m.release.sent = m.sent := by
  unfold Mb.release; split <;> rfl

theorem step_cap (m : Mb α) (op : Op α) : (m.step op).cap = m.cap := by
  cases op <;> simp only [Mb.step, Mb.send, Mb.trySend, Mb.poll, Mb.cancel, Mb.recv, Mb.close,
    Mb.push, Mb.bump] <;> (repeat' split) <;> simp

theorem run_cap (m : Mb α) (ops : List (Op α)) : (m.run ops).cap = m.cap := by
  induction ops generalizing m with
  | nil => rfl
  | cons op ops ih => exact (ih _).trans (step_cap m op)

theorem step_failed (m : Mb α) (op : Op α) : m.failed <+: (m.step op).failed := by
  cases op <;> simp only [Mb.step, Mb.send, Mb.trySend, Mb.poll, Mb.cancel, Mb.recv, Mb.close,
    Mb.push, Mb.bump] <;> (repeat' split) <;> simp

theorem run_failed (m : Mb α) (ops : List (Op α)) : m.failed <+: (m.run ops).failed := by
  induction ops generalizing m with
  | nil => simp [Mb.run]
  | cons op ops ih => exact (step_failed m op).trans (ih _)

theorem step_pushed (m : Mb α) (op : Op α) : m.pushed <+: (m.step op).pushed := by
  cases op <;> simp only [Mb.step, Mb.send, Mb.trySend, Mb.poll, Mb.cancel, Mb.recv, Mb.close,
    Mb.push, Mb.bump] <;> (repeat' split) <;> simp

theorem step_sent (m : Mb α) (op : Op α) : m.sent <+: (m.step op).sent := by
  cases op <;> simp only [Mb.step, Mb.send, Mb.trySend, Mb.poll, Mb.cancel, Mb.recv, Mb.close,
    Mb.push, Mb.bump] <;> (repeat' split) <;> simp

theorem run_append (m : Mb α) (a b : List (Op α)) : m.run (a ++ b) = (m.run a).run b := by
  simp [Mb.run, List.foldl_append]

end Verif.Mailbox

namespace Verif.Mailbox

variable {α : Type}

section fields
variable (m : Mb α) (a : α) (t : Nat)

@[simp] theorem send_closed : (m.send a).closed = m.closed := by
  simp only [Mb.send, Mb.bump, Mb.push]; (repeat' split) <;> simp [*]
@[simp] theorem trySend_closed : (m.trySend a).closed = m.closed := by
  simp only [Mb.trySend, Mb.bump, Mb.push]; (repeat' split) <;> simp [*]
@[simp] theorem poll_closed : (m.poll t).closed = m.closed := by
  simp only [Mb.poll, Mb.push]; split <;> rfl
@[simp] theorem cancel_closed : (m.cancel t).closed = m.closed := by
  simp only [Mb.cancel]; (repeat' split) <;> simp
@[simp] theorem recv_closed : m.recv.closed = m.closed := by
  simp only [Mb.recv]; split <;> simp
@[simp] theorem close_closed : m.close.closed = true := rfl
@[simp] theorem send_received : (m.send a).received = m.received := by
  simp only [Mb.send, Mb.bump, Mb.push]; (repeat' split) <;> simp
@[simp] theorem trySend_received : (m.trySend a).received = m.received := by
  simp only [Mb.trySend, Mb.bump, Mb.push]; (repeat' split) <;> simp
@[simp] theorem poll_received : (m.poll t).received = m.received := by
  simp only [Mb.poll, Mb.push]; split <;> rfl
@[simp] theorem cancel_received : (m.cancel t).received = m.received := by
  simp only [Mb.cancel]; (repeat' split) <;> simp
@[simp] theorem close_received : m.close.received = m.received := rfl
theorem recv_received {p : Nat × α} {q : List (Nat × α)} (h : m.queue = p :: q) :
    m.recv.received = m.received ++ [p] := by
  simp [Mb.recv, h]
theorem recv_queue {p : Nat × α} {q : List (Nat × α)} (h : m.queue = p :: q) :
    m.recv.queue = q := by
  simp [Mb.recv, h]
end fields

end Verif.Mailbox
