import Verif.Mailbox.Lemmas

/-!
Property theorems about mailboxes: C17 (capacity), C18 (fair back-pressure), the mailbox
part of C01 (order), C16 and C19 (a failed or timed-out send has no effect).

Every theorem is about `(Mb.fresh cap).run ops`: the mailbox after an arbitrary history
`ops` of sends, tries, wake-ups, cancellations, receives and closing.
-/

namespace Verif.Mailbox

variable {α : Type}

/-- A concrete busy history: capacity 1, one queued signal, two waiters, one refused try. -/
def sampleOps : List (Op Nat) := [.send 10, .send 11, .send 12, .trySend 13]

/-- **C17** A bounded mailbox never holds (or has promised) more than its capacity. -/
theorem capacity_never_exceeded (c : Nat) (ops : List (Op α)) :
    ((Mb.fresh (some c)).run ops).queue.length
      + ((Mb.fresh (some c)).run ops).granted.length ≤ c :=
  (inv_run (inv_fresh _) ops).capOk c (run_cap _ ops)

example : ((Mb.fresh (some 1)).run sampleOps).queue.length = 1 := by decide

/-- **C17** `try_send` reports a full mailbox exactly when the mailbox is open, bounded and
every slot is taken or promised; in that case nothing else changes. -/
theorem trySend_full_iff (cap : Option Nat) (ops : List (Op α)) (a : α) :
    let m := (Mb.fresh cap).run ops
    ((m.next, a, Why.full) ∈ (m.trySend a).failed ↔
      m.closed = false ∧ ∃ c, cap = some c ∧ m.queue.length + m.granted.length = c) := by
  intro m
  have h : Inv m := inv_run (inv_fresh _) ops
  have hcap : m.cap = cap := run_cap _ ops
  have hnew : ∀ w, (m.next, a, w) ∉ m.failed := by
    intro w hw
    have : unwhy (m.next, a, w) ∈ m.failed.map unwhy := List.mem_map_of_mem hw
    have := h.sent_lt _ (h.mem_sent (p := unwhy (m.next, a, w))
      (List.mem_append_right _ this))
    simp [unwhy] at this
  unfold Mb.trySend
  simp only [Mb.bump, Mb.push]
  cases hc : m.closed with
  | true => simp [hnew]
  | false =>
    cases hr : m.hasRoom with
    | true =>
      simp only [Bool.false_eq_true, if_false, if_true, true_and]
      constructor
      · intro hh; exact absurd hh (hnew _)
      · rintro ⟨c, hc', hlen⟩
        rw [hc'] at hcap
        simp [Mb.hasRoom, hcap] at hr
        omega
    | false =>
      simp only [Bool.false_eq_true, if_false, List.mem_append, List.mem_singleton, or_true,
        true_and, true_iff]
      cases hcap' : cap with
      | none => rw [hcap'] at hcap; simp [Mb.hasRoom, hcap] at hr
      | some c =>
        rw [hcap'] at hcap
        have := h.capOk c hcap
        simp [Mb.hasRoom, hcap] at hr
        exact ⟨c, rfl, by omega⟩

example : ((3, 13, Why.full) : Nat × Nat × Why) ∈ ((Mb.fresh (some 1)).run sampleOps).failed := by
  decide

/-- **C17** A refused `try_send` leaves queue, promised slots and waiters untouched. -/
theorem trySend_refused_no_effect (m : Mb α) (a : α)
    (h : (m.trySend a).pushed = m.pushed) :
    (m.trySend a).queue = m.queue ∧ (m.trySend a).granted = m.granted
      ∧ (m.trySend a).waiting = m.waiting ∧ (m.trySend a).received = m.received := by
  unfold Mb.trySend at *
  simp only [Mb.bump, Mb.push] at *
  split at h
  · simp [*]
  · split at h
    · simp at h
    · simp [*]

example : (((Mb.fresh (some 1)).run [.send 1]).trySend 2).pushed
    = ((Mb.fresh (some 1)).run [.send 1]).pushed := by decide

/-- **C01 (mailbox part)** Signals are received in the order in which they were accepted:
what was received is always a prefix of what was accepted. -/
theorem received_prefix_of_accepted (cap : Option Nat) (ops : List (Op α)) :
    ((Mb.fresh cap).run ops).received <+: ((Mb.fresh cap).run ops).pushed := by
  have h := (inv_run (inv_fresh cap) ops : Inv ((Mb.fresh cap).run ops))
  rw [h.hist, List.append_assoc]
  exact List.prefix_append _ _

example : ((Mb.fresh (some 1)).run (sampleOps ++ [.recv, .poll 1, .recv, .poll 2])).received = [(0, 10), (1, 11)] ∧
    ((Mb.fresh (some 1)).run (sampleOps ++ [.recv, .poll 1, .recv, .poll 2])).pushed = [(0, 10), (1, 11), (2, 12)] := by
  decide

/-- **C01/C03 (mailbox part)** While the receiver exists nothing accepted is lost: what was
accepted is what was received followed by what is still queued. -/
theorem accepted_eq_received_append_queue (cap : Option Nat) (ops : List (Op α))
    (hopen : ((Mb.fresh cap).run ops).closed = false) :
    ((Mb.fresh cap).run ops).pushed =
      ((Mb.fresh cap).run ops).received ++ ((Mb.fresh cap).run ops).queue := by
  have h := (inv_run (inv_fresh cap) ops : Inv ((Mb.fresh cap).run ops))
  rw [h.hist, h.openLost hopen]; simp

example : ((Mb.fresh (some 1)).run (sampleOps ++ [.recv, .poll 1])).closed = false ∧
    ((Mb.fresh (some 1)).run (sampleOps ++ [.recv, .poll 1])).received = [(0, 10)] ∧
    ((Mb.fresh (some 1)).run (sampleOps ++ [.recv, .poll 1])).queue = [(1, 11)] := by decide

/-- **C18** While a sender is waiting for capacity, no send started later has been accepted
or given a slot: waiters are served in the order they started waiting and a later
`try_send` cannot overtake them. -/
theorem waiting_not_overtaken (cap : Option Nat) (ops : List (Op α)) :
    let m := (Mb.fresh cap).run ops
    ∀ w ∈ m.waiting, ∀ p ∈ m.pushed ++ m.granted, p.1 < w.1 := by
  intro m w hw p hp
  have h : Inv m := inv_run (inv_fresh _) ops
  rcases List.mem_append.mp hp with hp | hp
  · exact h.noOvertake w hw p hp
  · exact (List.pairwise_append.mp h.order).2.2 p hp w hw

example : ((Mb.fresh (some 1)).run sampleOps).waiting = [(1, 11), (2, 12)] := by decide

/-- **C18** Each send operation is at every moment in exactly one place: accepted, holding a
promised slot, waiting, or failed. `n` send operations make the tickets `0 … n-1`, each
occurring exactly once, with the value it was started with. -/
theorem every_send_accounted_once (cap : Option Nat) (ops : List (Op α)) :
    let m := (Mb.fresh cap).run ops
    (m.pushed ++ m.granted ++ m.waiting ++ m.failed.map unwhy).Perm m.sent
      ∧ m.sent.map (·.1) = List.range m.next :=
  ⟨(inv_run (inv_fresh _) ops).part, (inv_run (inv_fresh _) ops).tick⟩

/-- One accepted, one with a promised slot, one waiting, one failed. -/
example : ((Mb.fresh (some 1)).run (sampleOps ++ [.recv])).pushed = [(0, 10)] ∧
    ((Mb.fresh (some 1)).run (sampleOps ++ [.recv])).granted = [(1, 11)] ∧
    ((Mb.fresh (some 1)).run (sampleOps ++ [.recv])).waiting = [(2, 12)] ∧
    ((Mb.fresh (some 1)).run (sampleOps ++ [.recv])).failed = [(3, 13, .full)] := by decide

/-- **C18** When the receiver is gone nobody is left waiting: every send operation has been
accepted or has failed. -/
theorem closed_resolves_every_send (cap : Option Nat) (ops : List (Op α))
    (hc : ((Mb.fresh cap).run ops).closed = true) (p : Nat × α)
    (hp : p ∈ ((Mb.fresh cap).run ops).sent) :
    p ∈ ((Mb.fresh cap).run ops).pushed ∨
      ∃ why, (p.1, p.2, why) ∈ ((Mb.fresh cap).run ops).failed := by
  have h := (inv_run (inv_fresh cap) ops : Inv ((Mb.fresh cap).run ops))
  have he := h.closedEmpty hc
  have := h.part.mem_iff.mpr hp
  rw [he.2.1, he.2.2] at this
  simp only [List.append_nil, List.mem_append, List.mem_map] at this
  rcases this with hh | ⟨f, hf, rfl⟩
  · exact Or.inl hh
  · exact Or.inr ⟨f.2.2, hf⟩

example : ((Mb.fresh (some 1)).run (sampleOps ++ [.close])).closed = true ∧
    (2, 12) ∈ ((Mb.fresh (some 1)).run (sampleOps ++ [.close])).sent := by decide

/-- **C18** Back-pressure never gets stuck: if somebody is waiting then either there is a
signal for the receiver to take or a promised slot whose owner can run. -/
theorem waiting_not_stuck (c : Nat) (hc : 0 < c) (ops : List (Op α))
    (hw : ((Mb.fresh (some c)).run ops).waiting ≠ []) :
    ((Mb.fresh (some c)).run ops).queue ≠ [] ∨ ((Mb.fresh (some c)).run ops).granted ≠ [] := by
  have h := (inv_run (inv_fresh (some c)) ops : Inv ((Mb.fresh (some c)).run ops))
  have := h.full c (run_cap _ ops) hw
  generalize (Mb.fresh (some c)).run ops = m at *
  cases hq : m.queue with
  | cons => simp
  | nil =>
    cases hg : m.granted with
    | cons => simp
    | nil => simp [hq, hg] at this; omega

example : ((Mb.fresh (some 1)).run sampleOps).waiting ≠ [] := by decide

/-- **C18** Whoever waits gets in: from every reachable state of an open bounded mailbox, a
schedule made only of receives and wake-ups admits any given waiter. -/
theorem waiter_can_be_admitted (c : Nat) (hc : 0 < c) (ops : List (Op α)) (w : Nat × α)
    (hw : w ∈ ((Mb.fresh (some c)).run ops).waiting) :
    ∃ more : List (Op α), (∀ o ∈ more, o = .recv ∨ ∃ t, o = .poll t) ∧
      w ∈ ((Mb.fresh (some c)).run (ops ++ more)).pushed := by
  -- generalise to any state satisfying the invariant; induct on the number of pending sends
  suffices H : ∀ (n : Nat) (m : Mb α), Inv m → m.cap = some c →
      2 * m.waiting.length + m.granted.length = n → w ∈ m.granted ++ m.waiting →
      ∃ more : List (Op α), (∀ o ∈ more, o = .recv ∨ ∃ t, o = .poll t) ∧
        w ∈ (m.run more).pushed by
    have h := (inv_run (inv_fresh (some c)) ops : Inv ((Mb.fresh (some c)).run ops))
    obtain ⟨more, h1, h2⟩ := H _ _ h (run_cap _ ops) rfl (List.mem_append_right _ hw)
    exact ⟨more, h1, by rw [run_append]; exact h2⟩
  intro n
  induction n using Nat.strongRecOn with
  | _ n ih =>
    intro m h hcap hn hmem
    by_cases hg : w ∈ m.granted
    · refine ⟨[.poll w.1], by simp, ?_⟩
      simp only [Mb.run, List.foldl_cons, List.foldl_nil, Mb.step, Mb.poll]
      cases hf : m.granted.find? (fun p => p.1 == w.1) with
      | none => exact absurd (List.find?_eq_none.mp hf w hg) (by simp)
      | some p =>
        obtain ⟨hk, hm⟩ := find_key hf
        have : p = w := key_inj (granted_nodup h) hm hg hk
        subst this
        simp [Mb.push]
    · have hwait : w ∈ m.waiting := by
        rcases List.mem_append.mp hmem with h1 | h1
        · exact absurd h1 hg
        · exact h1
      have hne : m.waiting ≠ [] := by intro h0; simp [h0] at hwait
      have hfull := h.full c hcap hne
      cases hgr : m.granted with
      | cons g gs =>
        -- let the owner of the first promised slot run
        have hf : m.granted.find? (fun p => p.1 == g.1) = some g := by simp [hgr]
        have hperm := filter_find_perm (granted_nodup h) hf
        have hlen : m.granted.length = (m.granted.filter (fun p => p.1 != g.1)).length + 1 := by
          simpa using hperm.length_eq
        have hst : m.poll g.1 =
            Mb.push { m with granted := m.granted.filter (fun p => p.1 != g.1) } g.1 g.2 := by
          simp [Mb.poll, hf]
        obtain ⟨more, h1, h2⟩ := ih (2 * (m.poll g.1).waiting.length + (m.poll g.1).granted.length)
          (by rw [hst]; simp only [Mb.push]; omega) (m.poll g.1) (inv_poll h _)
          ((step_cap m (.poll g.1)).trans hcap) rfl
          (List.mem_append_right _ (by rw [hst]; exact hwait))
        refine ⟨.poll g.1 :: more, ?_, h2⟩
        intro o ho
        rcases List.mem_cons.mp ho with rfl | ho
        · exact Or.inr ⟨_, rfl⟩
        · exact h1 o ho
      | nil =>
        cases hq : m.queue with
        | nil => simp [hq, hgr] at hfull; omega
        | cons p ps =>
          cases hws : m.waiting with
          | nil => exact absurd hws hne
          | cons w0 ws =>
            have hst : m.recv = { m with
                queue := ps
                received := m.received ++ [p]
                granted := m.granted ++ [w0]
                waiting := ws } := by
              simp [Mb.recv, hq, Mb.release, hws]
            obtain ⟨more, h1, h2⟩ := ih (2 * m.recv.waiting.length + m.recv.granted.length)
              (by rw [hst, ← hn, hws]; simp; omega) m.recv (inv_recv h)
              ((step_cap m .recv).trans hcap) rfl
              (by
                rw [hst]; simp only [List.mem_append, List.mem_singleton]
                rw [hws] at hwait
                rcases List.mem_cons.mp hwait with hh | hh
                · exact Or.inl (Or.inr hh)
                · exact Or.inr hh)
            refine ⟨.recv :: more, ?_, h2⟩
            intro o ho
            rcases List.mem_cons.mp ho with rfl | ho
            · exact Or.inl rfl
            · exact h1 o ho

example : ((2, 12) : Nat × Nat) ∈ ((Mb.fresh (some 1)).run sampleOps).waiting := by decide

/-- **C16/C19 (mailbox part)** A send which failed — receiver gone, mailbox full, or timed
out / cancelled while waiting — hands back exactly the value it was started with, and
whatever happens later the value is never accepted. -/
theorem failed_send_returns_value_and_never_delivers (cap : Option Nat) (ops more : List (Op α))
    (t : Nat) (a : α) (why : Why)
    (hf : (t, a, why) ∈ ((Mb.fresh cap).run ops).failed) :
    (t, a) ∈ ((Mb.fresh cap).run ops).sent ∧
      (∀ b, (t, b) ∈ ((Mb.fresh cap).run ops).sent → b = a) ∧
      ∀ p ∈ ((Mb.fresh cap).run (ops ++ more)).pushed, p.1 ≠ t := by
  have h := (inv_run (inv_fresh cap) ops : Inv ((Mb.fresh cap).run ops))
  have hmem : (t, a) ∈ ((Mb.fresh cap).run ops).sent := by
    apply h.mem_sent
    apply List.mem_append_right
    exact List.mem_map.mpr ⟨(t, a, why), hf, rfl⟩
  refine ⟨hmem, ?_, ?_⟩
  · intro b hb
    exact (Prod.mk.inj (key_inj h.sent_nodup hb hmem rfl)).2
  · have h' := (inv_run (inv_fresh cap) (ops ++ more) : Inv ((Mb.fresh cap).run (ops ++ more)))
    have hf' : (t, a, why) ∈ ((Mb.fresh cap).run (ops ++ more)).failed := by
      rw [run_append]
      exact (run_failed _ more).subset hf
    intro p hp heq
    have hnd := h'.part_nodup
    rw [List.map_append, List.nodup_append] at hnd
    refine hnd.2.2 p.1 ?_ t ?_ heq
    · apply List.mem_map_of_mem
      simp [hp]
    · have : unwhy (t, a, why) ∈ (((Mb.fresh cap).run (ops ++ more)).failed).map unwhy :=
        List.mem_map_of_mem hf'
      exact List.mem_map.mpr ⟨_, this, rfl⟩

example : ((1, 11, Why.timeout) : Nat × Nat × Why) ∈
    ((Mb.fresh (some 1)).run (sampleOps ++ [.cancel 1])).failed := by decide

/-- Induction over a history, one operation more at its end. -/
theorem snocRec {β : Type} {P : List β → Prop} (nil : P []) (snoc : ∀ l x, P l → P (l ++ [x])) (l : List β) : P l := by
  rw [← l.reverse_reverse]
  induction l.reverse with
  | nil => exact nil
  | cons x xs ih => rw [List.reverse_cons]; exact snoc _ _ ih

/-- A send fails with "closed" only on a closed mailbox, and a mailbox once closed stays closed. -/
theorem step_failed_closed {m : Mb α} (h : ∀ t a, (t, a, Why.closed) ∈ m.failed → m.closed = true) (op : Op α) :
    ∀ t a, (t, a, Why.closed) ∈ (m.step op).failed → (m.step op).closed = true := by
  intro t a hm
  cases op with
  | send b =>
    simp only [Mb.step, Mb.send, Mb.bump, Mb.push] at hm ⊢
    split at hm
    · next hc => simp [hc]
    · split at hm <;> simp_all [h t a]
  | trySend b =>
    simp only [Mb.step, Mb.trySend, Mb.bump, Mb.push] at hm ⊢
    split at hm
    · next hc => simp [hc]
    · split at hm <;> simp_all [h t a]
  | poll x =>
    simp only [Mb.step, Mb.poll, Mb.push] at hm ⊢
    split at hm <;> simp_all [h t a]
  | cancel x =>
    simp only [Mb.step, Mb.cancel, Mb.release] at hm ⊢
    split at hm
    · simp at hm; simp_all [h t a]
    · split at hm
      · split at hm <;> simp at hm <;> simp_all [h t a]
      · simp_all [h t a]
  | recv =>
    simp only [Mb.step, Mb.recv, Mb.release] at hm ⊢
    split at hm
    · simp_all [h t a]
    · split at hm <;> simp_all [h t a]
  | close => rfl

theorem run_failed_closed {m : Mb α} (ops : List (Op α)) (h : ∀ t a, (t, a, Why.closed) ∈ m.failed → m.closed = true) :
    ∀ t a, (t, a, Why.closed) ∈ (m.run ops).failed → (m.run ops).closed = true := by
  induction ops generalizing m with
  | nil => exact h
  | cons op ops ih => exact ih (m := m.step op) (step_failed_closed h op)

/-- The operation that makes a send fail as "full". -/
theorem new_full {m : Mb α} {op : Op α} {t : Nat} {a : α} (hold : (t, a, Why.full) ∉ m.failed)
    (h : (t, a, Why.full) ∈ (m.step op).failed) :
    op = .trySend a ∧ t = m.next ∧ m.closed = false ∧ m.hasRoom = false := by
  cases op with
  | trySend b =>
    simp only [Mb.step, Mb.trySend, Mb.bump, Mb.push] at h
    split at h
    · simp [hold] at h
    · split at h <;> simp [hold] at h
      simp_all
  | _ =>
    exfalso
    simp only [Mb.step, Mb.send, Mb.poll, Mb.cancel, Mb.recv, Mb.close, Mb.release, Mb.bump, Mb.push] at h
    repeat' split at h
    all_goals simp [hold] at h

/-- The operation that makes a send fail as "timed out". -/
theorem new_timeout {m : Mb α} {op : Op α} {t : Nat} {a : α} (hold : (t, a, Why.timeout) ∉ m.failed)
    (h : (t, a, Why.timeout) ∈ (m.step op).failed) :
    op = .cancel t ∧ (t, a) ∈ m.waiting ++ m.granted := by
  cases op with
  | cancel x =>
    simp only [Mb.step, Mb.cancel] at h
    split at h
    · next p hp =>
      simp [hold] at h
      obtain ⟨rfl, rfl⟩ := h
      have h1 := List.mem_of_find?_eq_some hp
      have h2 := List.find?_some hp
      obtain ⟨y, z⟩ := p
      simp at h2
      subst h2
      exact ⟨rfl, by simp [h1]⟩
    · split at h
      · next p hp =>
        have h : (t, a, Why.timeout) ∈ m.failed ++ [(x, p.2, Why.timeout)] := by
          simp only [Mb.release] at h
          split at h <;> exact h
        simp [hold] at h
        obtain ⟨rfl, rfl⟩ := h
        have h1 := List.mem_of_find?_eq_some hp
        have h2 := List.find?_some hp
        obtain ⟨y, z⟩ := p
        simp at h2
        subst h2
        exact ⟨rfl, by simp [h1]⟩
      · exact absurd h hold
  | _ =>
    exfalso
    simp only [Mb.step, Mb.send, Mb.trySend, Mb.poll, Mb.recv, Mb.close, Mb.release, Mb.bump, Mb.push] at h
    repeat' split at h
    all_goals simp [hold] at h

/-- Every slot is taken or promised when there is no room. -/
theorem noRoom_full {m : Mb α} (hi : Inv m) (h : m.hasRoom = false) :
    ∃ c, m.cap = some c ∧ m.queue.length + m.granted.length = c := by
  cases hc : m.cap with
  | none => simp [Mb.hasRoom, hc] at h
  | some c =>
    have := hi.capOk c hc
    simp [Mb.hasRoom, hc] at h
    exact ⟨c, rfl, by omega⟩

/-- **C16 (mailbox part)** The reason given for the failure of a send is the true one. A send fails as "closed" only if the
receiver is gone; as "full" only if it was a `try_send` on an open bounded mailbox all slots of which were taken or
promised; as "timed out" only if it was given up, while it was waiting for a slot or held one it had not used yet. -/
theorem failure_reason_true (cap : Option Nat) (ops : List (Op α)) (t : Nat) (a : α) (w : Why)
    (h : (t, a, w) ∈ ((Mb.fresh cap).run ops).failed) :
    (w = .closed ∧ ((Mb.fresh cap).run ops).closed = true) ∨
    (w = .full ∧ ∃ pre post c, ops = pre ++ .trySend a :: post ∧ ((Mb.fresh cap).run pre).closed = false ∧
      cap = some c ∧ ((Mb.fresh cap).run pre).queue.length + ((Mb.fresh cap).run pre).granted.length = c ∧
      t = ((Mb.fresh cap).run pre).next) ∨
    (w = .timeout ∧ ∃ pre post, ops = pre ++ .cancel t :: post ∧
      (t, a) ∈ ((Mb.fresh cap).run pre).waiting ++ ((Mb.fresh cap).run pre).granted) := by
  have hf : w ≠ .closed → ∃ pre op post, ops = pre ++ op :: post ∧ (t, a, w) ∉ ((Mb.fresh cap).run pre).failed ∧
      (t, a, w) ∈ (((Mb.fresh cap).run pre).step op).failed := by
    intro _
    induction ops using snocRec with
    | nil => simp [Mb.run, Mb.fresh] at h
    | snoc ops op ih =>
      by_cases hold : (t, a, w) ∈ ((Mb.fresh cap).run ops).failed
      · obtain ⟨pre, x, post, h1, h2⟩ := ih hold
        exact ⟨pre, x, post ++ [op], by simp [h1], h2⟩
      · rw [run_append] at h
        exact ⟨ops, op, [], rfl, hold, h⟩
  cases w with
  | closed => exact Or.inl ⟨rfl, run_failed_closed ops (by simp [Mb.fresh]) t a h⟩
  | full =>
    obtain ⟨pre, op, post, h1, h2, h3⟩ := hf (by simp)
    obtain ⟨rfl, h4, h5, h6⟩ := new_full h2 h3
    obtain ⟨c, h7, h8⟩ := noRoom_full (inv_run (inv_fresh _) pre) h6
    exact Or.inr (Or.inl ⟨rfl, pre, post, c, h1, h5, (run_cap _ pre).symm.trans h7, h8, h4⟩)
  | timeout =>
    obtain ⟨pre, op, post, h1, h2, h3⟩ := hf (by simp)
    obtain ⟨rfl, h4⟩ := new_timeout h2 h3
    exact Or.inr (Or.inr ⟨rfl, pre, post, h1, h4⟩)

/-- One send is refused as full, one times out while it waits, one when it already holds a slot, one finds the mailbox
closed. -/
example : ((Mb.fresh (some 1)).run (sampleOps ++ [.cancel 2, .recv, .cancel 1, .close, .send 14])).failed =
    [(3, 13, .full), (2, 12, .timeout), (1, 11, .timeout), (4, 14, .closed)] := by decide

end Verif.Mailbox
