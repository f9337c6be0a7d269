import Verif.Calls.Live

/-! What happens to one mailbox and one reply channel along an execution of `Verif.Calls`. -/

set_option linter.unusedSimpArgs false

namespace Verif.Calls

open Verif.Mailbox

/-! ### One mailbox -/

section
variable {α : Type}

/-- How many wait before ticket `t`. -/
def before (t : Nat) (m : Mb α) : Nat := (m.waiting.filter (fun p => p.1 < t)).length

theorem release_waiting (m : Mb α) : m.release.waiting = m.waiting.tail := by
  unfold Mb.release; split <;> simp_all

theorem cancel_waiting_sub (m : Mb α) (t : Nat) : (m.cancel t).waiting.Sublist m.waiting := by
  unfold Mb.cancel
  split
  · exact List.filter_sublist
  · split
    · rw [release_waiting]; exact List.tail_sublist _
    · exact List.Sublist.refl _

/-- One step of a mailbox: what waits waited before, or is new. -/
theorem waiting_step (m : Mb α) (op : Mailbox.Op α) :
    (m.step op).waiting.Sublist m.waiting ∨ ∃ x, (m.step op).waiting = m.waiting ++ [(m.next, x)] := by
  cases op with
  | send x => simp only [Mb.step, Mb.send, Mb.bump, Mb.push]
              (repeat' split)
              · exact Or.inl (List.Sublist.refl _)
              · exact Or.inl (List.Sublist.refl _)
              · exact Or.inr ⟨x, rfl⟩
  | trySend x => left; simp only [Mb.step, Mb.trySend, Mb.bump, Mb.push]; (repeat' split) <;> exact List.Sublist.refl _
  | poll t => left; simp only [Mb.step, Mb.poll, Mb.push]; split <;> exact List.Sublist.refl _
  | cancel t => exact Or.inl (cancel_waiting_sub m t)
  | recv => left; simp only [Mb.step, Mb.recv]; split
            · exact List.Sublist.refl _
            · rw [release_waiting]; exact List.tail_sublist _
  | close => left; simp [Mb.step, Mb.close]

theorem next_step (m : Mb α) (op : Mailbox.Op α) : m.next ≤ (m.step op).next := by
  cases op <;> simp only [Mb.step, Mb.send, Mb.trySend, Mb.bump, Mb.push, Mb.poll, Mb.cancel, Mb.recv, Mb.close,
    Mb.release] <;> (repeat' split) <;> simp

theorem next_run (m : Mb α) (ops : List (Mailbox.Op α)) : m.next ≤ (m.run ops).next := by
  induction ops generalizing m with
  | nil => exact Nat.le_refl _
  | cons o os ih => exact Nat.le_trans (next_step m o) (ih _)

theorem waiting_run (m : Mb α) (ops : List (Mailbox.Op α)) {p : Nat × α} (hp : p ∈ (m.run ops).waiting) :
    p ∈ m.waiting ∨ m.next ≤ p.1 := by
  induction ops generalizing m with
  | nil => exact Or.inl hp
  | cons o os ih =>
    rcases ih (m.step o) hp with h | h
    · rcases waiting_step m o with h1 | ⟨x, h1⟩
      · exact Or.inl (h1.subset h)
      · rw [h1] at h
        rcases List.mem_append.mp h with h | h
        · exact Or.inl h
        · right; simp at h; rw [h]; exact Nat.le_refl _
    · right; exact Nat.le_trans (next_step m o) h

theorem before_run (m : Mb α) (ops : List (Mailbox.Op α)) {t : Nat} (ht : t ≤ m.next) :
    before t (m.run ops) ≤ before t m := by
  induction ops generalizing m with
  | nil => exact Nat.le_refl _
  | cons o os ih =>
    refine Nat.le_trans (ih (m.step o) (Nat.le_trans ht (next_step m o))) ?_
    unfold before
    rcases waiting_step m o with h1 | ⟨x, h1⟩
    · exact (h1.filter _).length_le
    · rw [h1, List.filter_append]
      have : [(m.next, x)].filter (fun p => decide (p.1 < t)) = [] := by simp; omega
      rw [this]; simp

theorem cap_step (m : Mb α) (op : Mailbox.Op α) : (m.step op).cap = m.cap := by
  cases op <;> simp only [Mb.step, Mb.send, Mb.trySend, Mb.bump, Mb.push, Mb.poll, Mb.cancel, Mb.recv, Mb.close,
    Mb.release] <;> (repeat' split) <;> simp

theorem cap_run (m : Mb α) (ops : List (Mailbox.Op α)) : (m.run ops).cap = m.cap := by
  induction ops generalizing m with
  | nil => rfl
  | cons o os ih => exact (ih _).trans (cap_step m o)

theorem closed_step (m : Mb α) (op : Mailbox.Op α) (h : m.closed = true) : (m.step op).closed = true := by
  cases op <;> simp only [Mb.step, Mb.send, Mb.trySend, Mb.bump, Mb.push, Mb.poll, Mb.cancel, Mb.recv, Mb.close,
    Mb.release] <;> (repeat' split) <;> simp_all

theorem closed_run (m : Mb α) (ops : List (Mailbox.Op α)) (h : m.closed = true) : (m.run ops).closed = true := by
  induction ops generalizing m with
  | nil => exact h
  | cons o os ih => exact ih _ (closed_step m o h)

theorem pushed_step (m : Mb α) (op : Mailbox.Op α) : m.pushed <+: (m.step op).pushed := by
  cases op <;> simp only [Mb.step, Mb.send, Mb.trySend, Mb.bump, Mb.push, Mb.poll, Mb.cancel, Mb.recv, Mb.close,
    Mb.release] <;> (repeat' split) <;> simp

theorem pushed_run (m : Mb α) (ops : List (Mailbox.Op α)) : m.pushed <+: (m.run ops).pushed := by
  induction ops generalizing m with
  | nil => exact List.prefix_refl _
  | cons o os ih => exact (pushed_step m o).trans (ih _)

theorem received_step (m : Mb α) (op : Mailbox.Op α) : m.received <+: (m.step op).received := by
  cases op <;> simp only [Mb.step, Mb.send, Mb.trySend, Mb.bump, Mb.push, Mb.poll, Mb.cancel, Mb.recv, Mb.close,
    Mb.release] <;> (repeat' split) <;> simp

theorem received_run (m : Mb α) (ops : List (Mailbox.Op α)) : m.received <+: (m.run ops).received := by
  induction ops generalizing m with
  | nil => exact List.prefix_refl _
  | cons o os ih => exact (received_step m o).trans (ih _)

/-- The first that waits leaves, if a slot becomes free. -/
theorem before_tail {m m' : Mb α} (h : Mailbox.Inv m) {t : Nat} {x : α} (hw : (t, x) ∈ m.waiting)
    (hm : m'.waiting = m.waiting.tail) : (t, x) ∉ m'.waiting ∨ before t m' < before t m := by
  have ho := (List.pairwise_append.mp h.order).2.1
  unfold before
  rw [hm]
  cases hq : m.waiting with
  | nil => rw [hq] at hw; simp at hw
  | cons q l =>
    rw [hq] at hw ho
    rw [List.pairwise_cons] at ho
    rcases List.mem_cons.mp hw with e | e
    · left; simp only [List.tail_cons]; intro hc
      have := ho.1 _ hc; rw [← e] at this; simp at this
    · right
      have := ho.1 _ e
      simp only [List.tail_cons]
      rw [List.filter_cons_of_pos (by simpa using this)]
      simp
end

/-! ### Every step acts on a mailbox by operations of the mailbox -/

section
variable (w : World) (b : Nat)

theorem mb_nil {m : Mb Sig} (h : m = w.mb b) : ∃ mops, m = (w.mb b).run mops := ⟨[], h⟩

theorem put_run (wait : Bool) (m : Mb Sig) (s : Sig) : ∃ mops, put wait m s = m.run mops := by
  cases wait
  · exact ⟨[.trySend s], rfl⟩
  · exact ⟨[.send s], rfl⟩

theorem finish_run {w' : World} (h : ∃ mops, w'.mb b = (w.mb b).run mops) (a : Nat) :
    ∃ mops, (w'.finish a).mb b = (w.mb b).run mops := by
  simp only [finish_mb]; split
  · rename_i e; subst e
    obtain ⟨mops, h⟩ := h
    exact ⟨mops ++ [.close], by rw [h]; simp [Mb.run, Mb.step]⟩
  · exact h

theorem step_mb (op : Op) : ∃ mops, (w.step op).mb b = (w.mb b).run mops := by
  cases op with
  | recv a p =>
    simp only [World.step, World.recv]
    split
    · simp only [setHand_mb, setMb_mb]; split
      · rename_i e; subst e; exact ⟨[.recv], rfl⟩
      · exact mb_nil w b rfl
    · refine finish_run w b ?_ a
      simp only [setMb_mb]; split
      · rename_i e; subst e; exact ⟨[.recv], rfl⟩
      · exact mb_nil w b rfl
    · exact mb_nil w b rfl
  | poll a =>
    simp only [World.step, World.poll]
    split
    · exact mb_nil w b (by simp)
    · simp only [World.call, setHand_mb]; split
      · rename_i e; subst e; exact put_run _ _ _
      · exact mb_nil w b rfl
    · split
      · exact mb_nil w b (by simp)
      · split
        · simp only [setHand_mb, setMb_mb]; split
          · rename_i t _ _ _ _ _ e; subst e; exact ⟨[.poll _], rfl⟩
          · exact mb_nil w b rfl
        · exact mb_nil w b rfl
    · split <;> exact mb_nil w b (by simp)
    · exact mb_nil w b rfl
  | expire a =>
    simp only [World.step, World.expire]
    split
    · split
      · simp only [setHand_mb, setMb_mb]; split
        · rename_i e; subst e; exact ⟨[.cancel _], rfl⟩
        · exact mb_nil w b rfl
      · exact mb_nil w b rfl
    · split <;> exact mb_nil w b (by simp)
    · exact mb_nil w b rfl
  | fail a =>
    simp only [World.step, World.fail]
    split <;> exact mb_nil w b (by simp)
  | kill a =>
    simp only [World.step, World.kill]
    split
    · exact mb_nil w b rfl
    · exact finish_run w b (mb_nil w b rfl) a
    · refine finish_run w b ?_ a
      simp only [answer_mb, setMb_mb]; split
      · rename_i e; subst e; exact ⟨[.cancel _], rfl⟩
      · exact mb_nil w b rfl
    · exact finish_run w b (mb_nil w b (by simp)) a
  | out x q m =>
    simp only [World.step, World.out]; split
    · rename_i e; subst e; exact put_run _ _ _
    · exact mb_nil w b rfl
  | stop x =>
    simp only [World.step, World.stop, setMb_mb]; split
    · rename_i e; subst e; exact put_run _ _ _
    · exact mb_nil w b rfl
  | outPoll x t =>
    simp only [World.step, World.outPoll]; split
    · simp only [setMb_mb]; split
      · rename_i e; subst e; exact ⟨[.poll _], rfl⟩
      · exact mb_nil w b rfl
    · exact mb_nil w b rfl
  | outCancel x t =>
    simp only [World.step, World.outCancel]; split
    · simp only [setMb_mb]; split
      · rename_i e; subst e; exact ⟨[.cancel _], rfl⟩
      · exact mb_nil w b rfl
    · exact mb_nil w b rfl
end

/-! ### One reply channel -/

theorem finish_chan_opn {w : World} {a ch : Nat} (h : (w.finish a).chan ch = .opn) : w.chan ch = .opn := by
  simp only [finish_chan] at h; exact dropReplies_opn h

/-- A reply channel that has been made is not opened again. -/
theorem chan_step {w : World} {op : Op} {ch : Nat} (hch : ch < w.calls) (h : (w.step op).chan ch = .opn) :
    w.chan ch = .opn := by
  cases op with
  | recv a p =>
    simp only [World.step, World.recv] at h
    split at h
    · exact h
    · exact finish_chan_opn (w := w.setMb a (w.mb a).recv) h
    · exact h
  | poll a =>
    simp only [World.step, World.poll] at h
    split at h
    · exact answer_chan_opn (v := .value _) (by simp) h
    · simp only [World.call, setHand_chan] at h; split at h
      · omega
      · exact h
    · (repeat' split at h) <;> exact h
    · split at h <;> exact h
    · exact h
  | expire a =>
    simp only [World.step, World.expire] at h
    (repeat' split at h) <;> exact h
  | fail a =>
    simp only [World.step, World.fail] at h
    split at h
    · exact answer_chan_opn (v := .dropped) (by simp) h
    · exact h
  | kill a =>
    simp only [World.step, World.kill] at h
    split at h
    · exact h
    · exact finish_chan_opn h
    · rename_i c t _ _ _
      exact answer_chan_opn (w := w.setMb c.tgt ((w.mb c.tgt).cancel t)) (v := .dropped) (by simp) (finish_chan_opn h)
    · exact answer_chan_opn (v := .dropped) (by simp) (finish_chan_opn h)
  | out x q m =>
    simp only [World.step, World.out] at h; split at h
    · omega
    · exact h
  | stop x => exact h
  | outPoll x t => simp only [World.step, World.outPoll] at h; split at h <;> exact h
  | outCancel x t => simp only [World.step, World.outCancel] at h; split at h <;> exact h

theorem calls_step (w : World) (op : Op) : w.calls ≤ (w.step op).calls := by
  cases op with
  | recv a p => simp only [World.step, World.recv]; split <;> simp
  | poll a => simp only [World.step, World.poll]; (repeat' split) <;> simp [World.call]
  | expire a => simp only [World.step, World.expire]; (repeat' split) <;> simp
  | fail a => simp only [World.step, World.fail]; split <;> simp
  | kill a => simp only [World.step, World.kill]; split <;> simp
  | out x q m => simp [World.step, World.out]
  | stop x => simp [World.step, World.stop]
  | outPoll x t => simp only [World.step, World.outPoll]; split <;> simp
  | outCancel x t => simp only [World.step, World.outCancel]; split <;> simp

/-! ### Along an execution -/

section
variable {caps : Nat → Option Nat} {ops : Nat → Op}

theorem at_mono {P : World → World → Prop} (hr : ∀ w, P w w) (ht : ∀ {x y z}, P x y → P y z → P x z)
    (hs : ∀ n, P (at_ caps ops n) (at_ caps ops (n + 1))) {n m : Nat} (h : n ≤ m) : P (at_ caps ops n) (at_ caps ops m) := by
  induction m with
  | zero => rw [show n = 0 by omega]; exact hr _
  | succ m ih =>
    by_cases e : n = m + 1
    · rw [e]; exact hr _
    · exact ht (ih (by omega)) (hs m)

theorem run_append {α : Type} (m : Mb α) (x y : List (Mailbox.Op α)) : (m.run x).run y = m.run (x ++ y) := by
  simp [Mb.run]

theorem at_run (b : Nat) {n m : Nat} (h : n ≤ m) :
    ∃ mops, (at_ caps ops m).mb b = ((at_ caps ops n).mb b).run mops := by
  refine at_mono (P := fun w w' => ∃ mops, w'.mb b = (w.mb b).run mops) (fun w => ⟨[], rfl⟩) ?_ ?_ h
  · rintro x y z ⟨o1, h1⟩ ⟨o2, h2⟩; exact ⟨o1 ++ o2, by rw [h2, h1, run_append]⟩
  · intro n; exact step_mb _ b _

theorem at_cap (b n : Nat) : ((at_ caps ops n).mb b).cap = caps b := by
  obtain ⟨mops, h⟩ := at_run (caps := caps) (ops := ops) b (Nat.zero_le n)
  rw [h, cap_run]; rfl

theorem at_closed {b n m : Nat} (h : n ≤ m) (hc : ((at_ caps ops n).mb b).closed = true) :
    ((at_ caps ops m).mb b).closed = true := by
  obtain ⟨mops, e⟩ := at_run (caps := caps) (ops := ops) b h
  rw [e]; exact closed_run _ _ hc

theorem at_before {b n m t : Nat} (h : n ≤ m) (ht : t ≤ ((at_ caps ops n).mb b).next) :
    before t ((at_ caps ops m).mb b) ≤ before t ((at_ caps ops n).mb b) := by
  obtain ⟨mops, e⟩ := at_run (caps := caps) (ops := ops) b h
  rw [e]; exact before_run _ _ ht

theorem at_waiting {b n m : Nat} (h : n ≤ m) {p : Nat × Sig} (hp : p ∈ ((at_ caps ops m).mb b).waiting) :
    p ∈ ((at_ caps ops n).mb b).waiting ∨ ((at_ caps ops n).mb b).next ≤ p.1 := by
  obtain ⟨mops, e⟩ := at_run (caps := caps) (ops := ops) b h
  rw [e] at hp; exact waiting_run _ _ hp

theorem at_pushed (b : Nat) {n m : Nat} (h : n ≤ m) :
    ((at_ caps ops n).mb b).pushed <+: ((at_ caps ops m).mb b).pushed := by
  obtain ⟨mops, e⟩ := at_run (caps := caps) (ops := ops) b h
  rw [e]; exact pushed_run _ _

theorem at_received (b : Nat) {n m : Nat} (h : n ≤ m) :
    ((at_ caps ops n).mb b).received <+: ((at_ caps ops m).mb b).received := by
  obtain ⟨mops, e⟩ := at_run (caps := caps) (ops := ops) b h
  rw [e]; exact received_run _ _

theorem at_calls {n m : Nat} (h : n ≤ m) : (at_ caps ops n).calls ≤ (at_ caps ops m).calls :=
  at_mono (P := fun w w' => w.calls ≤ w'.calls) (fun _ => Nat.le_refl _) (fun h h' => Nat.le_trans h h')
    (fun _ => calls_step _ _) h

theorem at_chan {n m ch : Nat} (h : n ≤ m) (hch : ch < (at_ caps ops n).calls)
    (ho : (at_ caps ops n).chan ch ≠ .opn) : (at_ caps ops m).chan ch ≠ .opn := by
  induction m with
  | zero => rw [show n = 0 by omega] at ho; exact ho
  | succ m ih =>
    by_cases e : n = m + 1
    · subst e; exact ho
    · intro hc
      have hm : n ≤ m := by omega
      exact ih hm (chan_step (Nat.lt_of_lt_of_le hch (at_calls hm)) hc)

theorem at_ended {a n m : Nat} (h : n ≤ m) (hc : (at_ caps ops n).hand a = .ended) :
    (at_ caps ops m).hand a = .ended :=
  ((inv_at caps ops m).ended a).mpr (at_closed h (((inv_at caps ops n).ended a).mp hc))
end

end Verif.Calls
