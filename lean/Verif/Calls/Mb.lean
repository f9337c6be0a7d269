import Verif.Calls.Model

/-! What the operations of a mailbox do to its parts, as needed for `Verif.Calls`. -/

namespace Verif.Calls

open Verif.Mailbox

variable {α : Type}

/-- The pending send operations of a mailbox. -/
def pend (m : Mb α) : List (Nat × α) := m.granted ++ m.waiting

theorem inv_put {m : Mb α} (h : Mailbox.Inv m) (w : Bool) (a : α) : Mailbox.Inv (put w m a) := by
  unfold put; split
  · exact inv_send h a
  · exact inv_trySend h a

section
variable (w : Bool) (m : Mb α) (a : α)

@[simp] theorem put_sent : (put w m a).sent = m.sent ++ [(m.next, a)] := by
  simp only [put, Mb.send, Mb.trySend, Mb.bump, Mb.push]; (repeat' split) <;> rfl
@[simp] theorem put_received : (put w m a).received = m.received := by
  simp only [put, Mb.send, Mb.trySend, Mb.bump, Mb.push]; (repeat' split) <;> rfl
@[simp] theorem put_closed : (put w m a).closed = m.closed := by
  simp only [put, Mb.send, Mb.trySend, Mb.bump, Mb.push]; (repeat' split) <;> simp_all
@[simp] theorem put_cap : (put w m a).cap = m.cap := by
  simp only [put, Mb.send, Mb.trySend, Mb.bump, Mb.push]; (repeat' split) <;> rfl
@[simp] theorem put_granted : (put w m a).granted = m.granted := by
  simp only [put, Mb.send, Mb.trySend, Mb.bump, Mb.push]; (repeat' split) <;> rfl

theorem put_taken (hc : m.closed = false) (hr : m.hasRoom = true) :
    (put w m a).queue = m.queue ++ [(m.next, a)] ∧ (put w m a).pushed = m.pushed ++ [(m.next, a)] ∧
    (put w m a).waiting = m.waiting := by
  simp [put, Mb.send, Mb.trySend, Mb.bump, Mb.push, hc, hr]

theorem put_not_taken (h : m.closed = true ∨ m.hasRoom = false) :
    (put w m a).queue = m.queue ∧ (put w m a).pushed = m.pushed := by
  by_cases hc : m.closed = true
  · simp [put, Mb.send, Mb.trySend, Mb.bump, hc]
  · have hr : m.hasRoom = false := h.resolve_left hc
    simp [put, Mb.send, Mb.trySend, Mb.bump, hc, hr]; split <;> simp

theorem put_waiting :
    (put w m a).waiting =
      if m.closed = false ∧ m.hasRoom = false ∧ w = true then m.waiting ++ [(m.next, a)] else m.waiting := by
  cases hc : m.closed <;> cases hr : m.hasRoom <;> cases w <;>
    simp [put, Mb.send, Mb.trySend, Mb.bump, Mb.push, hc, hr]

theorem put_queue_ext : ∃ e, (put w m a).queue = m.queue ++ e := by
  by_cases h : m.closed = false ∧ m.hasRoom = true
  · exact ⟨_, (put_taken w m a h.1 h.2).1⟩
  · refine ⟨[], ?_⟩
    rw [(put_not_taken w m a ?_).1, List.append_nil]
    cases hc : m.closed
    · cases hr : m.hasRoom
      · exact Or.inr rfl
      · exact (h ⟨hc, hr⟩).elim
    · exact Or.inl rfl
end

theorem key_unique {m : Mb α} (h : Mailbox.Inv m) {p q : Nat × α} (hp : p ∈ m.sent) (hq : q ∈ m.sent)
    (he : p.1 = q.1) : p = q := key_inj h.sent_nodup hp hq he

theorem pushed_sent {m : Mb α} (h : Mailbox.Inv m) {p : Nat × α} (hp : p ∈ m.pushed) : p ∈ m.sent :=
  h.mem_sent (by simp [hp])

theorem pend_sent {m : Mb α} (h : Mailbox.Inv m) {p : Nat × α} (hp : p ∈ pend m) : p ∈ m.sent :=
  h.mem_sent (by simp only [pend, List.mem_append] at *; rcases hp with hp | hp <;> simp [hp])

theorem pushed_not_pend {m : Mb α} (h : Mailbox.Inv m) {p q : Nat × α} (hp : p ∈ m.pushed) (hq : q ∈ pend m) :
    p.1 ≠ q.1 := by
  have hn := h.part_nodup
  simp only [List.append_assoc, List.map_append] at hn
  rw [List.nodup_append] at hn
  refine hn.2.2 _ (List.mem_map_of_mem hp) _ ?_
  simp only [pend, List.mem_append, List.mem_map] at *
  rcases hq with hq | hq
  · exact Or.inl ⟨q, hq, rfl⟩
  · exact Or.inr (Or.inl ⟨q, hq, rfl⟩)

theorem queue_pushed {m : Mb α} (h : Mailbox.Inv m) {p : Nat × α} (hp : p ∈ m.queue) : p ∈ m.pushed := by
  rw [h.hist]; simp [hp]

theorem received_pushed {m : Mb α} (h : Mailbox.Inv m) {p : Nat × α} (hp : p ∈ m.received) : p ∈ m.pushed := by
  rw [h.hist]; simp [hp]

theorem received_not_queue {m : Mb α} (h : Mailbox.Inv m) {p q : Nat × α} (hp : p ∈ m.received) (hq : q ∈ m.queue) :
    p.1 ≠ q.1 := by
  have hn := h.part_nodup
  rw [h.hist] at hn
  simp only [List.append_assoc, List.map_append] at hn
  rw [List.nodup_append] at hn
  refine hn.2.2 _ (List.mem_map_of_mem hp) _ ?_
  simp only [List.mem_append, List.mem_map]
  exact Or.inr (Or.inl ⟨q, hq, rfl⟩)

theorem granted_not_waiting {m : Mb α} (h : Mailbox.Inv m) {p q : Nat × α} (hp : p ∈ m.granted) (hq : q ∈ m.waiting) :
    p.1 ≠ q.1 := by
  have := (List.pairwise_append.mp h.order).2.2 p hp q hq
  omega

theorem release_pend (m : Mb α) : pend m.release = pend m := by
  unfold Mb.release pend; split <;> simp_all

theorem mem_pend_release (m : Mb α) (p : Nat × α) : p ∈ pend m.release ↔ p ∈ pend m := by rw [release_pend]

theorem find_some_of_mem {l : List (Nat × α)} {t : Nat} (h : t ∈ l.map (·.1)) :
    ∃ p, l.find? (fun p => p.1 == t) = some p ∧ p ∈ l ∧ p.1 = t := by
  obtain ⟨q, hq, rfl⟩ := List.mem_map.mp h
  cases hf : l.find? (fun p => p.1 == q.1) with
  | none => have := List.find?_eq_none.mp hf q hq; simp at this
  | some p =>
    refine ⟨p, rfl, List.mem_of_find?_eq_some hf, ?_⟩
    have := List.find?_some hf; simpa using this

theorem find_none_of_not_mem {l : List (Nat × α)} {t : Nat} (h : t ∉ l.map (·.1)) :
    l.find? (fun p => p.1 == t) = none := by
  rw [List.find?_eq_none]; intro p hp; simp only [beq_iff_eq]; rintro rfl
  exact h (List.mem_map_of_mem hp)

theorem cancel_pend {m : Mb α} (h : Mailbox.Inv m) (t : Nat) :
    pend (m.cancel t) = (pend m).filter (fun p => p.1 != t) := by
  by_cases hw : t ∈ m.waiting.map (·.1)
  · obtain ⟨p, hf, hp, rfl⟩ := find_some_of_mem hw
    have hg : m.granted.filter (fun q => q.1 != p.1) = m.granted := by
      apply List.filter_eq_self.mpr
      intro q hq; have := granted_not_waiting h hq hp; simpa using this
    simp [Mb.cancel, hf, pend, List.filter_append, hg]
  · have hwf : m.waiting.filter (fun q => q.1 != t) = m.waiting := by
      apply List.filter_eq_self.mpr
      intro q hq; simp only [bne_iff_ne, ne_eq]; rintro rfl; exact hw (List.mem_map_of_mem hq)
    by_cases hg : t ∈ m.granted.map (·.1)
    · obtain ⟨p, hf, hp, rfl⟩ := find_some_of_mem hg
      simp only [Mb.cancel, find_none_of_not_mem hw, hf]
      rw [release_pend]; simp [pend, List.filter_append, hwf]
    · have hgf : m.granted.filter (fun q => q.1 != t) = m.granted := by
        apply List.filter_eq_self.mpr
        intro q hq; simp only [bne_iff_ne, ne_eq]; rintro rfl; exact hg (List.mem_map_of_mem hq)
      simp [Mb.cancel, find_none_of_not_mem hw, find_none_of_not_mem hg, pend, List.filter_append, hwf, hgf]

@[simp] theorem cancel_queue (m : Mb α) (t : Nat) : (m.cancel t).queue = m.queue := by
  simp only [Mb.cancel]; (repeat' split) <;> simp
@[simp] theorem cancel_pushed (m : Mb α) (t : Nat) : (m.cancel t).pushed = m.pushed := by
  simp only [Mb.cancel]; (repeat' split) <;> simp
@[simp] theorem cancel_sent (m : Mb α) (t : Nat) : (m.cancel t).sent = m.sent := by
  simp only [Mb.cancel]; (repeat' split) <;> simp

theorem poll_granted {m : Mb α} {t : Nat} (h : t ∈ m.granted.map (·.1)) :
    ∃ p, p ∈ m.granted ∧ p.1 = t ∧ (m.poll t).queue = m.queue ++ [p] ∧ (m.poll t).pushed = m.pushed ++ [p] ∧
      pend (m.poll t) = m.granted.filter (fun p => p.1 != t) ++ m.waiting := by
  obtain ⟨p, hf, hp, rfl⟩ := find_some_of_mem h
  exact ⟨p, hp, rfl, by simp [Mb.poll, hf, Mb.push, pend]⟩

theorem poll_pend {m : Mb α} (h : Mailbox.Inv m) {t : Nat} (ht : t ∈ m.granted.map (·.1)) :
    pend (m.poll t) = (pend m).filter (fun p => p.1 != t) := by
  obtain ⟨p, hp, rfl, _, _, he⟩ := poll_granted ht
  have hwf : m.waiting.filter (fun q => q.1 != p.1) = m.waiting := by
    apply List.filter_eq_self.mpr
    intro q hq; have := granted_not_waiting h hp hq
    simp only [bne_iff_ne, ne_eq]; exact fun e => this e.symm
  rw [he]; simp [pend, List.filter_append, hwf]

@[simp] theorem poll_sent (m : Mb α) (t : Nat) : (m.poll t).sent = m.sent := by
  simp only [Mb.poll, Mb.push]; split <;> rfl

@[simp] theorem recv_pushed (m : Mb α) : m.recv.pushed = m.pushed := by
  simp only [Mb.recv]; split <;> simp
@[simp] theorem recv_sent (m : Mb α) : m.recv.sent = m.sent := by
  simp only [Mb.recv]; split <;> simp
theorem recv_pend (m : Mb α) : pend m.recv = pend m := by
  simp only [Mb.recv]; split
  · rfl
  · rw [release_pend]; rfl

@[simp] theorem close_queue (m : Mb α) : m.close.queue = [] := rfl
@[simp] theorem close_pushed (m : Mb α) : m.close.pushed = m.pushed := rfl
@[simp] theorem close_sent (m : Mb α) : m.close.sent = m.sent := rfl
@[simp] theorem close_pend (m : Mb α) : pend m.close = [] := rfl

end Verif.Calls
