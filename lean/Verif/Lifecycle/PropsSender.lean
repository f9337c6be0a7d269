import Verif.Lifecycle.PropsLive

/-!
Property theorems about senders that wait for capacity in a fair execution: the liveness part of C18.
-/

set_option linter.unusedSimpArgs false

namespace Verif.Mailbox

variable {α : Type}

/-- How many sends that wait for capacity started before send `t`. -/
def Mb.ahead (m : Mb α) (t : Nat) : Nat := (m.waiting.filter (fun p => decide (p.1 < t))).length

/-- What one operation of an open mailbox does to a send that waits. -/
structure Waits (m m' : Mb α) (p : Nat × α) : Prop where
  back : p ∈ m'.waiting → p ∈ m.waiting ∨ m.next ≤ p.1
  le : p ∈ m'.waiting → m'.ahead p.1 ≤ m.ahead p.1
  grant : ∀ g, g ∈ m.granted.map (·.1) → g ∉ m'.granted.map (·.1) → p ∈ m'.waiting →
    m'.queue ≠ [] ∨ m'.ahead p.1 < m.ahead p.1

theorem release_waiting (m : Mb α) : m.release.waiting = m.waiting.tail := by
  unfold Mb.release; cases h : m.waiting <;> simp [h]

theorem release_granted (m : Mb α) : m.granted <+: m.release.granted := by
  unfold Mb.release; cases m.waiting <;> simp

/-- The first waiter is the oldest. -/
theorem release_ahead {m : Mb α} (ho : (m.waiting).Pairwise (fun a b => a.1 < b.1)) {p : Nat × α}
    (hp : p ∈ m.release.waiting) : m.release.ahead p.1 < m.ahead p.1 := by
  rw [release_waiting] at hp
  unfold Mb.ahead
  rw [release_waiting]
  cases hw : m.waiting with
  | nil => simp [hw] at hp
  | cons w ws =>
    rw [hw] at hp ho
    have : w.1 < p.1 := (List.pairwise_cons.mp ho).1 p hp
    simp [List.filter_cons, this]

theorem Inv.waiting_sorted {m : Mb α} (h : Inv m) : (m.waiting).Pairwise (fun a b => a.1 < b.1) :=
  (List.pairwise_append.mp h.order).2.1

theorem Waits.of {m m' : Mb α} {p : Nat × α} (hlt : p.1 < m.next) (x : List (Nat × α))
    (hw : m'.waiting.Sublist (m.waiting ++ x)) (hx : ∀ y ∈ x, m.next ≤ y.1)
    (hg : (∀ g, g ∈ m.granted.map (·.1) → g ∈ m'.granted.map (·.1)) ∨ m'.queue ≠ [] ∨
      (p ∈ m'.waiting → m'.ahead p.1 < m.ahead p.1)) : Waits m m' p := by
  refine ⟨fun h => ?_, fun _ => ?_, fun g h1 h2 h3 => ?_⟩
  · rcases List.mem_append.mp (hw.subset h) with h | h
    · exact Or.inl h
    · exact Or.inr (hx p h)
  · have h1 := (hw.filter (fun q => decide (q.1 < p.1))).length_le
    have h2 : x.filter (fun q => decide (q.1 < p.1)) = [] := by
      rw [List.filter_eq_nil_iff]
      intro y hy
      have := hx y hy
      simp only [decide_eq_true_eq]
      omega
    rw [List.filter_append, h2, List.append_nil] at h1
    exact h1
  · rcases hg with h | h | h
    · exact absurd (h g h1) h2
    · exact Or.inl h
    · exact Or.inr (h h3)

theorem waits_step {m : Mb α} (h : Inv m) (p : Nat × α) (hp : p ∈ m.sent) (o : Op α) :
    Waits m (m.step o) p := by
  have hlt : p.1 < m.next := h.sent_lt p hp
  cases o with
  | send a =>
    refine Waits.of hlt [(m.next, a)] ?_ (by simp) (Or.inl ?_) <;>
      simp only [Mb.step, Mb.send, Mb.bump, Mb.push] <;> (repeat' split) <;> simp
  | trySend a =>
    refine Waits.of hlt [] ?_ (by simp) (Or.inl ?_) <;>
      simp only [Mb.step, Mb.trySend, Mb.bump, Mb.push] <;> (repeat' split) <;> simp
  | poll t =>
    refine Waits.of hlt [] ?_ (by simp) ?_ <;> simp only [Mb.step, Mb.poll, Mb.push] <;> split <;> simp
  | cancel t =>
    simp only [Mb.step, Mb.cancel]
    split
    · exact Waits.of hlt [] (by simp) (by simp) (Or.inl (by simp))
    · split
      · refine Waits.of hlt [] ?_ (by simp) (Or.inr (Or.inr fun h' => ?_))
        · rw [release_waiting]; simpa using List.tail_sublist _
        · exact release_ahead (m := { m with
            granted := m.granted.filter (fun p => p.1 != t)
            failed := _ }) h.waiting_sorted h'
      · exact Waits.of hlt [] (by simp) (by simp) (Or.inl (by simp))
  | recv =>
    simp only [Mb.step, Mb.recv]
    split
    · exact Waits.of hlt [] (by simp) (by simp) (Or.inl (by simp))
    · refine Waits.of hlt [] ?_ (by simp) (Or.inl fun g hg => ?_)
      · rw [release_waiting]; simpa using List.tail_sublist _
      · exact ((release_granted _).map _).subset hg
  | close => exact ⟨by simp [Mb.step, Mb.close], by simp [Mb.step, Mb.close], by simp [Mb.step, Mb.close]⟩

/-- Receiving a signal lets the oldest waiter go. -/
theorem recv_ahead {m : Mb α} (h : Inv m) {p : Nat × α} (hq : m.queue ≠ []) (hp : p ∈ m.recv.waiting) :
    m.recv.ahead p.1 < m.ahead p.1 := by
  unfold Mb.recv at hp ⊢
  split at hp
  · next h' => exact absurd h' hq
  · next q qs _ =>
    exact release_ahead (m := { m with queue := qs, received := m.received ++ [q] }) h.waiting_sorted hp

end Verif.Mailbox

namespace Verif.Lifecycle

open Verif.Mailbox

/-- The mailbox of an actor in its loop sees at most one operation per step. -/
theorem step_mb_one {s : St} (op : Op) (hl : s.phase.inLoop = true)
    (hl' : (s.step op).phase.inLoop = true) :
    (s.step op).mb = s.mb ∨ ∃ o, (s.step op).mb = s.mb.step o := by
  have ht := step_tr s op
  generalize s.step op = s' at *
  cases ht with
  | send b => exact Or.inr ⟨.send _, rfl⟩
  | trySend b => exact Or.inr ⟨.trySend _, rfl⟩
  | poll t => exact Or.inr ⟨.poll t, rfl⟩
  | cancel t => exact Or.inr ⟨.cancel t, rfl⟩
  | sendStop => exact Or.inr ⟨.send _, rfl⟩
  | sendLinkDied => exact Or.inr ⟨.send _, rfl⟩
  | recvStartup => exact Or.inr ⟨.recv, by simp [Mb.step]⟩
  | recvBuffer => exact Or.inr ⟨.recv, by simp [Mb.step]⟩
  | recvMsg => exact Or.inr ⟨.recv, by simp [Mb.step]⟩
  | recvLink => exact Or.inr ⟨.recv, by simp [Mb.step]⟩
  | recvStop => exact Or.inr ⟨.recv, by simp [Mb.step]⟩
  | _ => simp_all [St.step, St.crash, St.abortSeen, St.stopFailed, St.startFail]

/-- A step that receives a signal is a receive operation of the mailbox. -/
theorem received_recv {s s' : St} (ht : Tr s s') (hn : s'.mb.received ≠ s.mb.received) :
    s'.mb = s.mb.recv ∧ s.mb.queue ≠ [] := by
  cases ht with
  | startOk hp => exact absurd (by rw [(startOk_fields2 s).2.2.2.2]; simp) hn
  | recvStartup h hp t q hq => simp [hq]
  | recvBuffer h hp t b q hq hw hf => simp [hq]
  | recvMsg h hp t b q hq hw => simp [hq]
  | recvLink h hp t id r q hq => simp [hq]
  | recvStop h hp t q hq => simp [hq]
  | _ => simp [St.step, St.crash, St.abortSeen, St.stopFailed, St.startFail] at hn

theorem waits_sent {cap : Option Nat} {ops : Nat → Op} {n : Nat} (hs : Stays cap ops n)
    {p : Nat × Sig} (hp : p ∈ (upto cap ops n).mb.sent) :
    Waits (upto cap ops n).mb (upto cap ops (n + 1)).mb p := by
  have h1 := hs n (Nat.le_refl _)
  have h2 := hs (n + 1) (by omega)
  have hg := upto_good cap ops n
  rw [upto_succ] at h2 ⊢
  rcases step_mb_one (ops n) h1 h2 with h | ⟨o, h⟩
  · rw [h]
    exact Waits.of (hg.shape.mb.sent_lt p hp) [] (by simp) (by simp) (Or.inl (by simp))
  · rw [h]
    exact waits_step hg.shape.mb p hp o

theorem waits_upto {cap : Option Nat} {ops : Nat → Op} {n : Nat} (hs : Stays cap ops n)
    {p : Nat × Sig} (hp : p ∈ (upto cap ops n).mb.waiting) :
    Waits (upto cap ops n).mb (upto cap ops (n + 1)).mb p :=
  waits_sent hs ((upto_good cap ops n).shape.mb.mem_sent (by simp [hp]))

theorem upto_cap (cap : Option Nat) (ops : Nat → Op) (n : Nat) : (upto cap ops n).mb.cap = cap := by
  induction n with
  | zero => rfl
  | succ n ih =>
    rw [upto_succ]
    obtain ⟨mops, hm⟩ := step_mb (upto cap ops n) (ops n)
    rw [hm, run_cap, ih]

/-- A waiting send is let go, or fewer sends are ahead of it, or something is in the mailbox. -/
theorem wait_moves {cap : Option Nat} {ops : Nat → Op} (hc : cap ≠ some 0) (hf : Fair cap ops) {n : Nat}
    (hs : Stays cap ops n) {p : Nat × Sig} (hp : p ∈ (upto cap ops n).mb.waiting) :
    ∃ k, n ≤ k ∧ (p ∉ (upto cap ops k).mb.waiting ∨
      (upto cap ops k).mb.ahead p.1 < (upto cap ops n).mb.ahead p.1 ∨
      ((upto cap ops k).mb.queue ≠ [] ∧ p ∈ (upto cap ops k).mb.waiting ∧
        (upto cap ops k).mb.ahead p.1 ≤ (upto cap ops n).mb.ahead p.1)) := by
  apply Classical.byContradiction
  intro hcon
  have hno : ∀ k, n ≤ k → p ∈ (upto cap ops k).mb.waiting ∧
      (upto cap ops k).mb.ahead p.1 = (upto cap ops n).mb.ahead p.1 ∧ (upto cap ops k).mb.queue = [] := by
    intro k hk
    have hw : p ∈ (upto cap ops k).mb.waiting := by
      apply Classical.byContradiction
      intro h
      exact hcon ⟨k, hk, Or.inl h⟩
    have h1 : ¬ (upto cap ops k).mb.ahead p.1 < (upto cap ops n).mb.ahead p.1 :=
      fun h => hcon ⟨k, hk, Or.inr (Or.inl h)⟩
    have hle : (upto cap ops k).mb.ahead p.1 ≤ (upto cap ops n).mb.ahead p.1 := by
      clear h1 hw
      induction hk with
      | refl => exact Nat.le_refl _
      | @step j hj ih =>
        have hj : n ≤ j := hj
        have hwj : p ∈ (upto cap ops j).mb.waiting := by
          apply Classical.byContradiction
          intro h
          exact hcon ⟨j, hj, Or.inl h⟩
        have hwj' : p ∈ (upto cap ops (j + 1)).mb.waiting := by
          apply Classical.byContradiction
          intro h
          exact hcon ⟨j + 1, by omega, Or.inl h⟩
        exact Nat.le_trans ((waits_upto (fun i hi => hs i (by omega)) hwj).le hwj') ih
    refine ⟨hw, by omega, ?_⟩
    apply Classical.byContradiction
    intro h
    exact hcon ⟨k, hk, Or.inr (Or.inr ⟨h, hw, hle⟩)⟩
  -- a slot was handed to some sender
  have hg := upto_good cap ops n
  have hcap : (upto cap ops n).mb.cap = cap := upto_cap _ _ _
  obtain ⟨hw, _, hq⟩ := hno n (Nat.le_refl _)
  have hgr : (upto cap ops n).mb.granted ≠ [] := by
    cases hc' : cap with
    | none =>
      have := (hg.shape.mb.unb (hcap.trans hc')).2
      rw [this] at hw
      simp at hw
    | some c =>
      have := hg.shape.mb.full c (hcap.trans hc') (List.ne_nil_of_mem hw)
      intro h
      rw [← hc'] at h
      rw [hq, h] at this
      simp at this
      exact hc (by rw [hc', ← this])
  obtain ⟨g, hg1⟩ := List.exists_mem_of_ne_nil _ hgr
  -- it keeps the slot for ever
  have hkeep : ∀ k, n ≤ k → g.1 ∈ K (upto cap ops k).mb.granted := by
    intro k hk
    induction hk with
    | refl => exact List.mem_map_of_mem hg1
    | @step j hj ih =>
      have hj : n ≤ j := hj
      apply Classical.byContradiction
      intro h
      obtain ⟨h1, h2, _⟩ := hno j hj
      obtain ⟨h3, h4, h5⟩ := hno (j + 1) (by omega)
      rcases (waits_upto (fun i hi => hs i (by omega)) h1).grant g.1 ih h h3 with h6 | h6
      · exact h6 h5
      · omega
  obtain ⟨m, hm, h⟩ := hf.sender n g.1 (hkeep n (Nat.le_refl _))
  rcases h with h | h
  · have h1 := hkeep m hm
    have h2 := (hno (m + 1) (by omega)).2.2
    rw [upto_succ, h] at h2
    simp only [St.step, Mb.poll] at h2
    split at h2
    · next hn =>
      rw [List.find?_eq_none] at hn
      obtain ⟨a, ha⟩ := mem_K.mp h1
      exact hn _ ha (by simp)
    · simp [Mb.push] at h2
  · exact h (hkeep m hm)

/-- A send that waits for capacity does not wait for ever. -/
theorem wait_ends {cap : Option Nat} {ops : Nat → Op} (hc : cap ≠ some 0) (hf : Fair cap ops) {n : Nat}
    (hs : Stays cap ops n) {p : Nat × Sig} (hp : p ∈ (upto cap ops n).mb.waiting) :
    ∃ k, n ≤ k ∧ p ∉ (upto cap ops k).mb.waiting := by
  generalize hw : (upto cap ops n).mb.ahead p.1 = w
  induction w using Nat.strongRecOn generalizing n with
  | _ w ih =>
    have hlow : ∀ k, n ≤ k → (upto cap ops k).mb.ahead p.1 < w → ∃ k, n ≤ k ∧ p ∉ (upto cap ops k).mb.waiting := by
      intro k hk h
      by_cases h1 : p ∈ (upto cap ops k).mb.waiting
      · obtain ⟨j, hj, h2⟩ := ih _ h (n := k) (fun i hi => hs i (by omega)) h1 rfl
        exact ⟨j, by omega, h2⟩
      · exact ⟨k, hk, h1⟩
    obtain ⟨k, hk, h | h | ⟨hq, h1, hle⟩⟩ := wait_moves hc hf hs hp
    · exact ⟨k, hk, h⟩
    · exact hlow k hk (by omega)
    · have hsk : Stays cap ops k := fun i hi => hs i (by omega)
      have hhist := loop_hist (upto_good cap ops k) (hs k hk)
      obtain ⟨j, hj, _, hL⟩ := all_received hf hsk ((upto cap ops k).mb.received.length + 1) (by
        rw [hhist, List.length_append]
        have := List.length_pos_iff.mpr hq
        omega)
      -- follow the send until the first signal is received
      have : ∀ i, k ≤ i → (∃ k, n ≤ k ∧ p ∉ (upto cap ops k).mb.waiting) ∨
          ((upto cap ops i).mb.received = (upto cap ops k).mb.received ∧
            p ∈ (upto cap ops i).mb.waiting ∧ (upto cap ops i).mb.ahead p.1 ≤ w) := by
        intro i hi
        induction hi with
        | refl => exact Or.inr ⟨rfl, h1, by omega⟩
        | @step i hi ih' =>
          have hi : k ≤ i := hi
          rcases ih' with h | ⟨h2, h3, h4⟩
          · exact Or.inl h
          · have hsi : Stays cap ops i := fun i' hi' => hs i' (by omega)
            by_cases h5 : p ∈ (upto cap ops (i + 1)).mb.waiting
            · have h6 := (waits_upto hsi h3).le h5
              by_cases h7 : (upto cap ops (i + 1)).mb.received = (upto cap ops i).mb.received
              · exact Or.inr ⟨h7.trans h2, h5, Nat.le_trans h6 h4⟩
              · left
                obtain ⟨h8, h9⟩ := received_recv (upto_tr cap ops i) h7
                have h10 := recv_ahead (upto_good cap ops i).shape.mb h9 (h8 ▸ h5)
                rw [← h8] at h10
                exact hlow (i + 1) (by omega) (by omega)
            · exact Or.inl ⟨i + 1, by omega, h5⟩
      rcases this j hj with h | ⟨h, _⟩
      · exact h
      · rw [h] at hL; omega

theorem sent_mono (cap : Option Nat) (ops : Nat → Op) {n k : Nat} (h : n ≤ k) :
    (upto cap ops n).mb.sent <+: (upto cap ops k).mb.sent := by
  induction h with
  | refl => exact List.prefix_rfl
  | step _ ih =>
    refine ih.trans ?_
    rw [upto_succ]
    obtain ⟨mops, hm⟩ := step_mb (upto cap ops _) (ops _)
    rw [hm]
    clear hm ih
    generalize (upto cap ops _).mb = m
    induction mops generalizing m with
    | nil => exact List.prefix_rfl
    | cons o os ih => exact (step_sent m o).trans (ih (m.step o))

/-- **C18** (liveness). In a fair execution no send waits for ever: it is accepted by the mailbox or it fails
(time-out, or the actor has ended). tokio does not make mailboxes of capacity 0. -/
theorem send_resolved (cap : Option Nat) (ops : Nat → Op) (hc : cap ≠ some 0) (hf : Fair cap ops) (n : Nat)
    (p : Nat × Sig) (hp : p ∈ (upto cap ops n).mb.sent) :
    ∃ k, n ≤ k ∧ (p ∈ (upto cap ops k).mb.pushed ∨
      ∃ w, (p.1, p.2, w) ∈ (upto cap ops k).mb.failed) := by
  have hsent : ∀ k, n ≤ k → p ∈ (upto cap ops k).mb.sent := fun k hk => (sent_mono cap ops hk).subset hp
  have hcases : ∀ k, n ≤ k → p ∈ (upto cap ops k).mb.pushed ∨ p ∈ (upto cap ops k).mb.granted ∨
      p ∈ (upto cap ops k).mb.waiting ∨ ∃ w, (p.1, p.2, w) ∈ (upto cap ops k).mb.failed := by
    intro k hk
    have h := (upto_good cap ops k).shape.mb.part.mem_iff.mpr (hsent k hk)
    simp only [List.mem_append, List.mem_map] at h
    rcases h with ((h | h) | h) | ⟨⟨t, a, w⟩, h, rfl⟩
    · exact Or.inl h
    · exact Or.inr (Or.inl h)
    · exact Or.inr (Or.inr (Or.inl h))
    · exact Or.inr (Or.inr (Or.inr ⟨w, h⟩))
  rcases over_or_stays hf n with ⟨k, hk, h⟩ | ⟨k, hk, hs⟩
  · obtain ⟨j, hj, _, h1⟩ := stopping_comes_to_end cap ops hf k h
    have h2 := (upto_good cap ops j).shape.mb.closedEmpty h1
    refine ⟨j, by omega, ?_⟩
    rcases hcases j (by omega) with h | h | h | h
    · exact Or.inl h
    · rw [h2.2.1] at h; cases h
    · rw [h2.2.2] at h; cases h
    · exact Or.inr h
  · -- it stops waiting
    obtain ⟨i, hi, hw⟩ : ∃ i, k ≤ i ∧ p ∉ (upto cap ops i).mb.waiting := by
      by_cases h : p ∈ (upto cap ops k).mb.waiting
      · exact wait_ends hc hf hs h
      · exact ⟨k, Nat.le_refl _, h⟩
    have hnw : ∀ j, i ≤ j → p ∉ (upto cap ops j).mb.waiting := by
      intro j hj
      induction hj with
      | refl => exact hw
      | @step j hj ih =>
        have hj : i ≤ j := hj
        intro h
        rcases (waits_sent (fun j' hj' => hs j' (by omega)) (hsent j (by omega))).back h with h1 | h1
        · exact ih h1
        · have := (upto_good cap ops j).shape.mb.sent_lt p (hsent j (by omega))
          omega
    apply Classical.byContradiction
    intro hcon
    have hgr : ∀ j, i ≤ j → p ∈ (upto cap ops j).mb.granted := by
      intro j hj
      rcases hcases j (by omega) with h | h | h | h
      · exact absurd ⟨j, by omega, Or.inl h⟩ hcon
      · exact h
      · exact absurd h (hnw j hj)
      · exact absurd ⟨j, by omega, Or.inr h⟩ hcon
    obtain ⟨m, hm, h⟩ := hf.sender i p.1 (List.mem_map_of_mem (hgr i (Nat.le_refl _)))
    rcases h with h | h
    · have h1 := hgr (m + 1) (by omega)
      rw [upto_succ, h] at h1
      simp only [St.step, Mb.poll] at h1
      split at h1
      · next hn =>
        rw [List.find?_eq_none] at hn
        exact hn _ (hgr m hm) (by simp)
      · simp [Mb.push] at h1
    · exact h (List.mem_map_of_mem (hgr m hm))

/-- A mailbox for one message: the second send waits until the first message has been taken, and is accepted. -/
def waitDemo : List Op :=
  [.run, .startEnd .ok, .pollBegin, .recv, .send (tell 10), .send (tell 11), .recv, .poll 2,
   .handlerEnd (.ret (.ok 0)), .recv, .handlerEnd (.ret (.ok 0))]

example : Fair (some 1) (quiet waitDemo) ∧
    (2, Sig.msg (tell 11)) ∈ (upto (some 1) (quiet waitDemo) 6).mb.waiting ∧
    (2, Sig.msg (tell 11)) ∈ (upto (some 1) (quiet waitDemo) 7).mb.granted ∧
    (2, Sig.msg (tell 11)) ∈ (upto (some 1) (quiet waitDemo) 8).mb.pushed :=
  ⟨fair_of_fairB (by decide), by decide, by decide, by decide⟩

end Verif.Lifecycle
