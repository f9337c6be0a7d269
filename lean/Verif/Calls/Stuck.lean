import Verif.Calls.Trace

/-! In a fair execution a handler that stays at one place for ever waits, without a time-out, for an actor whose handler
also stays at one place for ever. -/

set_option linter.unusedSimpArgs false

namespace Verif.Calls

open Verif.Mailbox

/-- The request a handler waits for. -/
def Pc.call? : Pc → Option Call
  | .go _ => none
  | .sending c _ _ _ => some c
  | .awaiting c _ _ => some c

theorem prog_ne (p : Prog) : ∀ c k x, p = .call c k → k x ≠ .call c k := by
  induction p with
  | ret v => intro c k x h; simp at h
  | call c' k' ih =>
    intro c k x h e
    simp only [Prog.call.injEq] at h
    obtain ⟨rfl, rfl⟩ := h
    exact ih x c' k' x e e

/-! ### Mailbox steps, one at a time -/

section
variable (w : World) (b : Nat)

def One (m m' : Mb Sig) : Prop := m' = m ∨ (∃ mop, m' = m.step mop) ∨ m'.closed = true

theorem put_one (wait : Bool) (m : Mb Sig) (s : Sig) : One m (put wait m s) := by
  cases wait
  · exact Or.inr (Or.inl ⟨.trySend s, rfl⟩)
  · exact Or.inr (Or.inl ⟨.send s, rfl⟩)

theorem finish_one {w' : World} (h : One (w.mb b) (w'.mb b)) (a : Nat) : One (w.mb b) ((w'.finish a).mb b) := by
  simp only [finish_mb]; split
  · rename_i e; subst e; exact Or.inr (Or.inr rfl)
  · exact h

theorem step_one (op : Op) : One (w.mb b) ((w.step op).mb b) := by
  have same : One (w.mb b) (w.mb b) := Or.inl rfl
  have setm : ∀ x (mop : Mailbox.Op Sig), One (w.mb b) (if b = x then (w.mb x).step mop else w.mb b) := by
    intro x mop; split
    · rename_i e; subst e; exact Or.inr (Or.inl ⟨mop, rfl⟩)
    · exact Or.inl rfl
  have putm : ∀ x wait s, One (w.mb b) (if b = x then put wait (w.mb x) s else w.mb b) := by
    intro x wait s; split
    · rename_i e; subst e; exact put_one _ _ _
    · exact Or.inl rfl
  cases op with
  | recv a p =>
    simp only [World.step, World.recv]
    split
    · simp only [setHand_mb, setMb_mb]; exact setm a .recv
    · refine finish_one w b ?_ a
      simp only [setMb_mb]; exact setm a .recv
    · exact same
  | poll a =>
    simp only [World.step, World.poll]
    split
    · simpa using same
    · simp only [World.call, setHand_mb]; exact putm _ _ _
    · split
      · simpa using same
      · split
        · simp only [setHand_mb, setMb_mb]; exact setm _ (.poll _)
        · exact same
    · split <;> simpa using same
    · exact same
  | expire a =>
    simp only [World.step, World.expire]
    split
    · split
      · simp only [setHand_mb, setMb_mb]; exact setm _ (.cancel _)
      · exact same
    · split <;> simpa using same
    · exact same
  | fail a =>
    simp only [World.step, World.fail]
    split <;> simpa using same
  | kill a =>
    simp only [World.step, World.kill]
    split
    · exact same
    · exact finish_one w b same a
    · refine finish_one w b ?_ a
      simp only [answer_mb, setMb_mb]; exact setm _ (.cancel _)
    · exact finish_one w b (by simpa using same) a
  | out x q m => simp only [World.step, World.out]; exact putm _ _ _
  | stop x => simp only [World.step, World.stop, setMb_mb]; exact putm _ _ _
  | outPoll x t =>
    simp only [World.step, World.outPoll]; split
    · simp only [setMb_mb]; exact setm _ (.poll _)
    · exact same
  | outCancel x t =>
    simp only [World.step, World.outCancel]; split
    · simp only [setMb_mb]; exact setm _ (.cancel _)
    · exact same
end

/-- Only the actor takes from its mailbox, when it is idle. -/
theorem received_own (w : World) (b : Nat) (op : Op) : ((w.step op).mb b).received = (w.mb b).received ∨
    (∃ p, op = .recv b p) ∧ w.hand b = .idle ∧ (w.mb b).queue ≠ [] := by
  have cn : ∀ (m : Mb Sig) t, (m.cancel t).received = m.received := by
    intro m t; simp only [Mb.cancel, Mb.release]; (repeat' split) <;> rfl
  have po : ∀ (m : Mb Sig) t, (m.poll t).received = m.received := by
    intro m t; simp only [Mb.poll, Mb.push]; (repeat' split) <;> rfl
  have cl : ∀ (m : Mb Sig), m.close.received = m.received := fun m => rfl
  cases op with
  | recv a p =>
    by_cases ha : b = a
    · subst ha
      simp only [World.step, World.recv]
      split
      · right; rename_i h1 h2; exact ⟨⟨p, rfl⟩, h1, by rw [h2]; simp⟩
      · right; rename_i h1 h2; exact ⟨⟨p, rfl⟩, h1, by rw [h2]; simp⟩
      · exact Or.inl rfl
    · left; simp only [World.step, World.recv]; split <;> simp [ha]
  | poll a =>
    left; simp only [World.step, World.poll]
    split
    · simp
    · simp only [World.call, setHand_mb]; split
      · rename_i e; subst e; simp
      · rfl
    · split
      · simp
      · split
        · simp only [setHand_mb, setMb_mb]; split
          · rename_i e; rw [e]; exact po _ _
          · rfl
        · rfl
    · split <;> simp
    · rfl
  | expire a =>
    left; simp only [World.step, World.expire]
    split
    · split
      · simp only [setHand_mb, setMb_mb]; split
        · rename_i e; rw [e]; exact cn _ _
        · rfl
      · rfl
    · split <;> simp
    · rfl
  | fail a => left; simp only [World.step, World.fail]; split <;> simp
  | kill a =>
    left; simp only [World.step, World.kill]
    split
    · rfl
    · simp only [finish_mb]; split
      · rename_i e; rw [e]; exact cl _
      · rfl
    · simp only [finish_mb, answer_mb, setMb_mb]
      (repeat' split) <;> simp_all
    · simp only [finish_mb, answer_mb]; split
      · rename_i e; rw [e]; exact cl _
      · rfl
  | out x q m => left; simp only [World.step, World.out]; split <;> simp_all
  | stop x => left; simp only [World.step, World.stop, setMb_mb]; split <;> simp_all
  | outPoll x t =>
    left; simp only [World.step, World.outPoll]; split
    · simp only [setMb_mb]; split
      · rename_i e; rw [e]; exact po _ _
      · rfl
    · rfl
  | outCancel x t =>
    left; simp only [World.step, World.outCancel]; split
    · simp only [setMb_mb]; split
      · rename_i e; rw [e]; exact cn _ _
      · rfl
    · rfl

theorem granted_leave {m : Mb Sig} {mop : Mailbox.Op Sig} {g : Nat × Sig} (hg : g ∈ m.granted)
    (hq : m.queue = []) (hq' : (m.step mop).queue = []) (hc : (m.step mop).closed = false)
    (hg' : g ∉ (m.step mop).granted) : (m.step mop).waiting = m.waiting.tail := by
  cases mop with
  | send x => exfalso; apply hg'; have : (m.send x).granted = m.granted := put_granted true m x
              simp only [Mb.step, this]; exact hg
  | trySend x => exfalso; apply hg'; have : (m.trySend x).granted = m.granted := put_granted false m x
                 simp only [Mb.step, this]; exact hg
  | poll t =>
    exfalso
    simp only [Mb.step, Mb.poll, Mb.push] at hq' hg'
    split at hq'
    · rename_i h; rw [h] at hg'; exact hg' hg
    · simp at hq'
  | cancel t =>
    simp only [Mb.step, Mb.cancel] at hg' ⊢
    split at hg'
    · exact (hg' hg).elim
    · rename_i h1
      split at hg'
      · rename_i h2; rw [release_waiting]
      · exact (hg' hg).elim
  | recv => exfalso; simp only [Mb.step, Mb.recv, hq] at hg'; exact hg' hg
  | close => simp [Mb.step, Mb.close] at hc

section
variable {caps : Nat → Option Nat} {ops : Nat → Op}

/-! ### What a stuck handler waits for -/

theorem stuck_not_go (hf : Fair caps ops) {n a : Nat} {r : Option Nat} {p : Prog}
    (h : StuckFrom caps ops n a r (.go p)) : False := by
  obtain ⟨m, m1, m2⟩ := hf.poll n a (fun m hm => by simp [World.ready, h m hm])
  have h0 := h m m1
  have h1 := h (m + 1) (by omega)
  have he : at_ caps ops (m + 1) = (at_ caps ops m).step (.poll a) := by rw [← m2]; rfl
  rw [he] at h1
  cases p with
  | ret v => rw [hand_poll_ret h0] at h1; simp at h1
  | call c k =>
    rcases hand_poll_call h0 with ⟨x, e⟩ | ⟨ch, e, _⟩ | ⟨t, ch, e, _⟩ <;> rw [h1] at e
    · simp only [Hand.busy.injEq, Pc.go.injEq, true_and] at e; exact prog_ne _ c k x rfl e.symm
    · simp at e
    · simp at e

theorem stuck_sending_open (hf : Fair caps ops) {n a : Nat} {r : Option Nat} {c : Call} {t ch : Nat} {k : Ans → Prog}
    (h : StuckFrom caps ops n a r (.sending c t ch k)) {m : Nat} (hm : n ≤ m) :
    ((at_ caps ops m).mb c.tgt).closed = false ∧ t ∉ ((at_ caps ops m).mb c.tgt).granted.map (·.1) := by
  -- from a moment at which a poll has an effect on, it always has
  have key : (((at_ caps ops m).mb c.tgt).closed = true ∨ t ∈ ((at_ caps ops m).mb c.tgt).granted.map (·.1)) → False := by
    intro h1
    have hall : ∀ j, m ≤ j → ((at_ caps ops j).mb c.tgt).closed = true ∨
        t ∈ ((at_ caps ops j).mb c.tgt).granted.map (·.1) := by
      intro j hj
      by_cases hc : ((at_ caps ops j).mb c.tgt).closed = true
      · exact Or.inl hc
      have hc : ((at_ caps ops j).mb c.tgt).closed = false := by simpa using hc
      rcases h1 with h1 | h1
      · left; exact at_closed hj h1
      · right
        obtain ⟨sg, hs, _⟩ := (inv_at caps ops j).send a r c t ch k (h j (by omega)) hc
        rcases List.mem_append.mp hs with hs | hs
        · exact List.mem_map.mpr ⟨_, hs, rfl⟩
        · exfalso
          obtain ⟨q, hq, hqt⟩ := List.mem_map.mp h1
          have hI := (inv_at caps ops m).mb c.tgt
          rcases at_waiting hj hs with e | e
          · exact granted_not_waiting hI hq e hqt
          · have := hI.sent_lt q (pend_sent hI (by simp [pend, hq]))
            simp only at e hqt; omega
    obtain ⟨i, i1, i2⟩ := hf.poll m a (fun j hj => by simp only [World.ready, h j (by omega)]; exact hall j hj)
    have h0 := h i (by omega)
    have h2 := h (i + 1) (by omega)
    have he : at_ caps ops (i + 1) = (at_ caps ops i).step (.poll a) := by rw [← i2]; rfl
    rw [he] at h2
    simp only [World.step, World.poll, h0] at h2
    split at h2
    · simp at h2
    · rename_i hc
      rcases hall i i1 with e | e
      · exact hc e
      · rw [if_pos e] at h2
        simp only [setHand_hand, if_true, Hand.busy.injEq, true_and] at h2
        split at h2 <;> simp at h2
  constructor
  · cases e : ((at_ caps ops m).mb c.tgt).closed
    · rfl
    · exact (key (Or.inl e)).elim
  · exact fun e => key (Or.inr e)

theorem stuck_sending_untimed (hf : Fair caps ops) {n a : Nat} {r : Option Nat} {c : Call} {t ch : Nat} {k : Ans → Prog}
    (h : StuckFrom caps ops n a r (.sending c t ch k)) : c.mt = false := by
  cases e : c.mt
  · rfl
  · exfalso
    obtain ⟨i, i1, i2⟩ := hf.expire n a (fun j hj => by simp only [World.timed, h j hj]; exact e)
    have h2 := h (i + 1) (by omega)
    have he : at_ caps ops (i + 1) = (at_ caps ops i).step (.expire a) := by rw [← i2]; rfl
    rw [he] at h2
    simp only [World.step, World.expire, h i i1] at h2
    rw [if_pos ⟨e, stuck_sending_open hf h i1⟩] at h2
    simp at h2

/-- Its ticket waits in the mailbox. -/
theorem stuck_sending_waits (hf : Fair caps ops) {n a : Nat} {r : Option Nat} {c : Call} {t ch : Nat} {k : Ans → Prog}
    (h : StuckFrom caps ops n a r (.sending c t ch k)) : ∃ sg, ∀ m, n ≤ m →
    (t, sg) ∈ ((at_ caps ops m).mb c.tgt).waiting := by
  have hw : ∀ m, n ≤ m → ∃ sg, (t, sg) ∈ ((at_ caps ops m).mb c.tgt).waiting := by
    intro m hm
    obtain ⟨h1, h2⟩ := stuck_sending_open hf h hm
    obtain ⟨sg, hs, _⟩ := (inv_at caps ops m).send a r c t ch k (h m hm) h1
    rcases List.mem_append.mp hs with hs | hs
    · exact (h2 (List.mem_map.mpr ⟨_, hs, rfl⟩)).elim
    · exact ⟨sg, hs⟩
  obtain ⟨sg, hsg⟩ := hw n (Nat.le_refl _)
  refine ⟨sg, fun m hm => ?_⟩
  obtain ⟨sg', hsg'⟩ := hw m hm
  have hI := (inv_at caps ops n).mb c.tgt
  have h0 := hI.sent_lt _ (pend_sent hI (by simp [pend, hsg]; exact Or.inr hsg))
  rcases at_waiting hm hsg' with e | e
  · have := key_unique hI (p := (t, sg')) (q := (t, sg))
      (pend_sent hI (by simp only [pend, List.mem_append]; exact Or.inr e))
      (pend_sent hI (by simp only [pend, List.mem_append]; exact Or.inr hsg)) rfl
    rw [← this]; exact hsg'
  · simp only at e h0; omega

theorem stuck_awaiting_open (hf : Fair caps ops) {n a : Nat} {r : Option Nat} {c : Call} {ch : Nat} {k : Ans → Prog}
    (h : StuckFrom caps ops n a r (.awaiting c ch k)) {m : Nat} (hm : n ≤ m) : (at_ caps ops m).chan ch = .opn := by
  refine Classical.byContradiction fun h1 => ?_
  have hI := inv_at caps ops m
  obtain ⟨p, hp, hr⟩ := hI.await a r c ch k (h m hm)
  have hlt := hI.issued _ p ch (pushed_sent (hI.mb _) hp) hr
  have hall : ∀ j, m ≤ j → (at_ caps ops j).chan ch ≠ .opn := fun j hj => at_chan hj hlt h1
  obtain ⟨i, i1, i2⟩ := hf.poll m a (fun j hj => by simp only [World.ready, h j (by omega)]; exact hall j hj)
  have h0 := h i (by omega)
  have h2 := h (i + 1) (by omega)
  have he : at_ caps ops (i + 1) = (at_ caps ops i).step (.poll a) := by rw [← i2]; rfl
  rw [he] at h2
  have hI' := inv_at caps ops i
  obtain ⟨p', hp', hr'⟩ := hI'.await a r c ch k h0
  have hmade := hI'.made _ p' ch (pushed_sent (hI'.mb _) hp') hr'
  have hno := hall i i1
  simp only [World.step, World.poll, h0] at h2
  cases e : (at_ caps ops i).chan ch with
  | none => exact hmade e
  | opn => exact hno e
  | value v => simp [e] at h2
  | dropped => simp [e] at h2

theorem stuck_awaiting_untimed (hf : Fair caps ops) {n a : Nat} {r : Option Nat} {c : Call} {ch : Nat} {k : Ans → Prog}
    (h : StuckFrom caps ops n a r (.awaiting c ch k)) : c.rt = false := by
  cases e : c.rt
  · rfl
  · exfalso
    obtain ⟨i, i1, i2⟩ := hf.expire n a (fun j hj => by simp only [World.timed, h j hj]; exact e)
    have h2 := h (i + 1) (by omega)
    have he : at_ caps ops (i + 1) = (at_ caps ops i).step (.expire a) := by rw [← i2]; rfl
    rw [he] at h2
    simp only [World.step, World.expire, h i i1] at h2
    rw [if_pos ⟨e, stuck_awaiting_open hf h i1⟩] at h2
    simp at h2

/-! ### An actor that is not stuck takes what is in its mailbox -/

/-- From `n` on the actor's mailbox is open, and its handlers come to their ends. -/
structure Working (caps : Nat → Option Nat) (ops : Nat → Op) (n b : Nat) : Prop where
  opened : ∀ m, n ≤ m → ((at_ caps ops m).mb b).closed = false
  free : ∀ m, n ≤ m → ∀ r pc, ¬ StuckFrom caps ops m b r pc

theorem Working.not_ended {n b m : Nat} (hw : Working caps ops n b) (hm : n ≤ m) : (at_ caps ops m).hand b ≠ .ended := by
  intro e
  have := ((inv_at caps ops m).ended b).mp e
  rw [hw.opened m hm] at this; simp at this

theorem Working.idle (hf : Fair caps ops) {n b m : Nat} (hw : Working caps ops n b) (hm : n ≤ m) :
    ∃ j, m ≤ j ∧ (at_ caps ops j).hand b = .idle := by
  obtain ⟨j, j1, j2⟩ := ends_always hf m b
  rcases j2 with j2 | ⟨r, pc, j2⟩
  · refine ⟨j, j1, ?_⟩
    cases e : (at_ caps ops j).hand b with
    | idle => rfl
    | ended => exact (hw.not_ended (m := j) (by omega) e).elim
    | busy r pc => exact (j2 r pc e).elim
  · exact (hw.free j (by omega) r pc j2).elim

theorem idle_recv {w : World} {b : Nat} {p : Prog} (h : w.hand b = .idle) (hq : (w.mb b).queue ≠ []) :
    (w.step (.recv b p)).hand b ≠ .idle ∧
    ((w.step (.recv b p)).mb b = (w.mb b).recv ∨ ((w.step (.recv b p)).mb b).closed = true) := by
  cases e : (w.mb b).queue with
  | nil => exact (hq e).elim
  | cons q l =>
    obtain ⟨t, s⟩ := q
    cases s <;> simp [World.step, World.recv, h, e]

theorem Working.takes (hf : Fair caps ops) {n b m : Nat} (hw : Working caps ops n b) (hm : n ≤ m) :
    (∃ j, m ≤ j ∧ (∃ p, ops j = .recv b p) ∧ ((at_ caps ops j).mb b).queue ≠ [] ∧
      ((at_ caps ops (j + 1)).mb b) = ((at_ caps ops j).mb b).recv) ∨
    ∃ j, m ≤ j ∧ ∀ i, j ≤ i → (at_ caps ops i).hand b = .idle ∧ ((at_ caps ops i).mb b).queue = [] := by
  obtain ⟨m1, hm1, hid⟩ := hw.idle hf hm
  rcases until_change (P := fun m => (at_ caps ops m).hand b = .idle) hid with hall | ⟨i, i1, i2, i3⟩
  · right
    refine ⟨m1, hm1, fun i hi => ⟨hall i hi, ?_⟩⟩
    refine Classical.byContradiction fun hq => ?_
    have hno : ∀ j, m1 ≤ j → ∀ p, ops j = .recv b p → ((at_ caps ops j).mb b).queue = [] := by
      intro j hj p hp
      refine Classical.byContradiction fun hq' => ?_
      have h1 := hall (j + 1) (by omega)
      have he : at_ caps ops (j + 1) = (at_ caps ops j).step (.recv b p) := by rw [← hp]; rfl
      rw [he] at h1
      exact (idle_recv (hall j hj) hq').1 h1
    have hrec : ∀ j, m1 ≤ j → ((at_ caps ops (j + 1)).mb b).received = ((at_ caps ops j).mb b).received := by
      intro j hj
      rcases received_own (at_ caps ops j) b (ops j) with e | ⟨⟨p, e⟩, _, e'⟩
      · exact e
      · exact (e' (hno j hj p e)).elim
    have hrec' : ∀ j, i ≤ j → ((at_ caps ops j).mb b).received = ((at_ caps ops i).mb b).received := by
      intro j hj
      induction j with
      | zero => rw [show i = 0 by omega]
      | succ j ih =>
        by_cases e : i = j + 1
        · rw [e]
        · rw [hrec j (by omega), ih (by omega)]
    have hlen : ∀ j, i ≤ j → ((at_ caps ops j).mb b).pushed.length =
        ((at_ caps ops j).mb b).received.length + ((at_ caps ops j).mb b).queue.length := by
      intro j hj
      have hI := (inv_at caps ops j).mb b
      rw [hI.hist, hI.openLost (hw.opened j (by omega))]; simp
    have hqall : ∀ j, i ≤ j → ((at_ caps ops j).mb b).queue ≠ [] := by
      intro j hj e
      have h1 := hlen j hj
      have h2 := hlen i (Nat.le_refl _)
      have h3 := (at_pushed (caps := caps) (ops := ops) b hj).length_le
      have h4 : 0 < ((at_ caps ops i).mb b).queue.length := List.length_pos_iff.mpr hq
      rw [hrec' j hj, e] at h1
      simp only [List.length_nil] at h1; omega
    obtain ⟨j, p, j1, j2⟩ := hf.recv i b (fun j hj => ⟨hall j (by omega), hqall j hj⟩)
    exact hqall j j1 (hno j (by omega) p j2)
  · left
    have h1 := i2 i i1 (Nat.le_refl _)
    rcases hand_from_idle (op := ops i) h1 with e | e | ⟨p, e, hq⟩
    · exact (i3 e).elim
    · exact (hw.not_ended (m := i + 1) (by omega) e).elim
    · refine ⟨i, by omega, ⟨p, e⟩, hq, ?_⟩
      have he : at_ caps ops (i + 1) = (at_ caps ops i).step (.recv b p) := by rw [← e]; rfl
      rcases (idle_recv (p := p) h1 hq).2 with e' | e'
      · rw [he]; exact e'
      · rw [← he, hw.opened (i + 1) (by omega)] at e'; simp at e'

/-- If its mailbox is never empty, it takes any number of signals. -/
theorem Working.takes_all (hf : Fair caps ops) {n b : Nat} (hw : Working caps ops n b)
    (hq : ∀ m, n ≤ m → ((at_ caps ops m).mb b).queue ≠ []) (d : Nat) :
    ∃ m, n ≤ m ∧ d ≤ ((at_ caps ops m).mb b).received.length := by
  induction d with
  | zero => exact ⟨n, Nat.le_refl _, Nat.zero_le _⟩
  | succ d ih =>
    obtain ⟨m, m1, m2⟩ := ih
    rcases hw.takes hf m1 with ⟨j, j1, _, j3, j4⟩ | ⟨j, j1, j2⟩
    · refine ⟨j + 1, by omega, ?_⟩
      have h1 := (at_received (caps := caps) (ops := ops) b j1).length_le
      rw [j4]
      cases e : ((at_ caps ops j).mb b).queue with
      | nil => exact (j3 e).elim
      | cons q l =>
        have : ((at_ caps ops j).mb b).recv.received = ((at_ caps ops j).mb b).received ++ [q] := by simp [Mb.recv, e]
        rw [this]; simp; omega
    · exact (hq j (by omega) (j2 j (Nat.le_refl _)).2).elim

/-- What is in the queue is taken. -/
theorem Working.served (hf : Fair caps ops) {n b : Nat} (hw : Working caps ops n b) {p : Nat × Sig}
    (hp : p ∈ ((at_ caps ops n).mb b).pushed) : ∃ m, n ≤ m ∧ p ∈ ((at_ caps ops m).mb b).received := by
  refine Classical.byContradiction fun hno => ?_
  have hno : ∀ m, n ≤ m → p ∉ ((at_ caps ops m).mb b).received := fun m hm e => hno ⟨m, hm, e⟩
  have hin : ∀ m, n ≤ m → p ∈ ((at_ caps ops m).mb b).queue := by
    intro m hm
    have h1 := (at_pushed (caps := caps) (ops := ops) b hm).subset hp
    have hI := (inv_at caps ops m).mb b
    rw [hI.hist, hI.openLost (hw.opened m hm)] at h1
    simp only [List.append_nil] at h1
    rcases List.mem_append.mp h1 with e | e
    · exact (hno m hm e).elim
    · exact e
  obtain ⟨m, hm, hd⟩ := hw.takes_all hf (fun m hm e => by have := hin m hm; rw [e] at this; simp at this)
    ((at_ caps ops n).mb b).pushed.length
  have hI := (inv_at caps ops m).mb b
  have h1 : ((at_ caps ops m).mb b).received <+: ((at_ caps ops m).mb b).pushed := by
    rw [hI.hist, hI.openLost (hw.opened m hm)]; simp
  have h2 := List.prefix_of_prefix_length_le (at_pushed (caps := caps) (ops := ops) b hm) h1 hd
  exact hno m hm (h2.subset hp)

/-- Whoever waits for room in the mailbox gets it. -/
theorem Working.admits (hf : Fair caps ops) {n b : Nat} (hw : Working caps ops n b) (hcap : caps b ≠ some 0)
    {t : Nat} {s : Sig} (hin : ∀ m, n ≤ m → (t, s) ∈ ((at_ caps ops m).mb b).waiting) : False := by
  have step : ∀ d m, n ≤ m → before t ((at_ caps ops m).mb b) = d → False := by
    intro d
    induction d using Nat.strongRecOn with
    | ind d ih =>
      intro m hm hd
      have ht : ∀ j, n ≤ j → t ≤ ((at_ caps ops j).mb b).next := by
        intro j hj
        have hI := (inv_at caps ops j).mb b
        have := hI.sent_lt _ (pend_sent hI (p := (t, s)) (by simp only [pend, List.mem_append]; exact Or.inr (hin j hj)))
        simp only at this; omega
      -- a slot that becomes free at `j` brings it forward
      have fwd : ∀ j, m ≤ j → ((at_ caps ops (j + 1)).mb b).waiting = ((at_ caps ops j).mb b).waiting.tail → False := by
        intro j hj e
        rcases before_tail ((inv_at caps ops j).mb b) (hin j (by omega)) e with h1 | h1
        · exact h1 (hin (j + 1) (by omega))
        · have h2 := at_before (caps := caps) (ops := ops) (b := b) hj (ht m hm)
          exact ih _ (by omega) (j + 1) (by omega) rfl
      rcases hw.takes hf hm with ⟨j, j1, _, j3, j4⟩ | ⟨j, j1, j2⟩
      · refine fwd j j1 ?_
        rw [j4]
        cases e : ((at_ caps ops j).mb b).queue with
        | nil => exact (j3 e).elim
        | cons q l => simp [Mb.recv, e, release_waiting]
      · -- the mailbox is empty and all slots are handed out
        have hI := (inv_at caps ops j).mb b
        have hwne : ((at_ caps ops j).mb b).waiting ≠ [] := fun e => by
          have := hin j (by omega); rw [e] at this; simp at this
        have hg : ((at_ caps ops j).mb b).granted ≠ [] := by
          cases ec : caps b with
          | none => exact (hwne (hI.unb ((at_cap b j).trans ec)).2).elim
          | some c =>
            have := hI.full c ((at_cap b j).trans ec) hwne
            rw [(j2 j (Nat.le_refl _)).2] at this
            intro e; rw [e] at this; simp at this
            rw [← this] at ec; exact hcap ec
        obtain ⟨g, hg⟩ := List.exists_mem_of_ne_nil _ hg
        rcases until_change (P := fun m => g ∈ ((at_ caps ops m).mb b).granted) hg with hall | ⟨i, i1, i2, i3⟩
        · have hpoll : ∀ i, j ≤ i → ((at_ caps ops (i + 1)).mb b) = ((at_ caps ops i).mb b).poll g.1 → False := by
            intro i hi e
            obtain ⟨q, _, _, hq, _⟩ := poll_granted (m := (at_ caps ops i).mb b) (t := g.1) (List.mem_map_of_mem (hall i hi))
            rw [← e, (j2 (i + 1) (by omega)).2] at hq; simp at hq
          cases hs : g.2.src with
          | none =>
            obtain ⟨i, h1, h2⟩ := hf.outside j b g.1 g.2 hs (fun i hi => hall i hi)
            have hany : ((at_ caps ops i).mb b).granted.any (fun p => p.1 == g.1 && p.2.src == none) = true :=
              List.any_eq_true.mpr ⟨g, hall i h1, by simp [hs]⟩
            rcases h2 with h2 | h2
            · refine hpoll i h1 ?_
              show ((at_ caps ops i).step (ops i)).mb b = _
              rw [h2]; simp only [World.step, World.outPoll, hany, if_true, setMb_mb]
            · have he : ((at_ caps ops (i + 1)).mb b) = ((at_ caps ops i).mb b).cancel g.1 := by
                show ((at_ caps ops i).step (ops i)).mb b = _
                have hany' : (((at_ caps ops i).mb b).granted ++ ((at_ caps ops i).mb b).waiting).any
                    (fun p => p.1 == g.1 && p.2.src == none) = true := by
                  rw [List.any_append, hany]; rfl
                rw [h2]; simp only [World.step, World.outCancel, hany', if_true, setMb_mb]
              have h3 : g ∈ pend ((at_ caps ops (i + 1)).mb b) := by
                simp only [pend, List.mem_append]; exact Or.inl (hall (i + 1) (by omega))
              rw [he, cancel_pend ((inv_at caps ops i).mb b)] at h3
              simpa using (List.mem_filter.mp h3).2
          | some x =>
            have hown : ∀ i, j ≤ i → ∃ r c ch k, (at_ caps ops i).hand x = .busy r (.sending c g.1 ch k) ∧ c.tgt = b :=
              fun i hi => (inv_at caps ops i).owner b g x
                (by simp only [pend, List.mem_append]; exact Or.inl (hall i hi)) hs
            obtain ⟨i, h1, h2⟩ := hf.poll j x (by
              intro i hi
              obtain ⟨r, c, ch, k, e1, e2⟩ := hown i hi
              simp only [World.ready, e1]; right; rw [e2]; exact List.mem_map_of_mem (hall i hi))
            obtain ⟨r, c, ch, k, e1, e2⟩ := hown i h1
            refine hpoll i h1 ?_
            show ((at_ caps ops i).step (ops i)).mb b = _
            rw [h2]
            have hgm : g.1 ∈ ((at_ caps ops i).mb b).granted.map (·.1) := List.mem_map_of_mem (hall i h1)
            simp only [World.step, World.poll, e1, e2, hw.opened i (by omega)]
            simp [hgm]
        · have hgi := i2 i i1 (Nat.le_refl _)
          rcases step_one (at_ caps ops i) b (ops i) with e | ⟨mop, e⟩ | e
          · exact i3 (by show g ∈ (((at_ caps ops i).step (ops i)).mb b).granted; rw [e]; exact hgi)
          · have h1 := (j2 i (by omega)).2
            have h2 := (j2 (i + 1) (by omega)).2
            have h3 := hw.opened (i + 1) (by omega)
            have e : (at_ caps ops (i + 1)).mb b = ((at_ caps ops i).mb b).step mop := e
            rw [e] at h2 h3 i3
            have := granted_leave hgi h1 h2 h3 i3
            exact fwd i (by omega) (by rw [e]; exact this)
          · have e : ((at_ caps ops (i + 1)).mb b).closed = true := e
            rw [hw.opened (i + 1) (by omega)] at e; simp at e
  exact step _ n (Nat.le_refl _) rfl

/-! ### A stuck handler waits for an actor that is stuck too -/

theorem stuck_target (hf : Fair caps ops) (hcap : ∀ b, caps b ≠ some 0) {n a : Nat} {r : Option Nat} {pc : Pc}
    (h : StuckFrom caps ops n a r pc) :
    ∃ c, pc.call? = some c ∧ ∃ m r' pc', n ≤ m ∧ StuckFrom caps ops m c.tgt r' pc' := by
  cases pc with
  | go p => exact (stuck_not_go hf h).elim
  | sending c t ch k =>
    refine ⟨c, rfl, Classical.byContradiction fun hno => ?_⟩
    have hw : Working caps ops n c.tgt :=
      ⟨fun m hm => (stuck_sending_open hf h hm).1, fun m hm r' pc' e => hno ⟨m, r', pc', hm, e⟩⟩
    obtain ⟨sg, hsg⟩ := stuck_sending_waits hf h
    exact hw.admits hf (hcap _) hsg
  | awaiting c ch k =>
    refine ⟨c, rfl, Classical.byContradiction fun hno => ?_⟩
    have hopn : ∀ m, n ≤ m → (at_ caps ops m).chan ch = .opn := fun m hm => stuck_awaiting_open hf h hm
    obtain ⟨p, hp, hr⟩ := (inv_at caps ops n).await a r c ch k (h n (Nat.le_refl _))
    have hplace : ∀ m, n ≤ m → p ∈ ((at_ caps ops m).mb c.tgt).queue ∨
        ∃ pc, (at_ caps ops m).hand c.tgt = .busy (some ch) pc := by
      intro m hm
      rcases (inv_at caps ops m).place c.tgt p ch ((at_pushed (caps := caps) (ops := ops) _ hm).subset hp) hr with e | e
      · exact (e (hopn m hm)).elim
      · exact e
    have hw : Working caps ops n c.tgt := by
      refine ⟨fun m hm => ?_, fun m hm r' pc' e => hno ⟨m, r', pc', hm, e⟩⟩
      cases ec : ((at_ caps ops m).mb c.tgt).closed with
      | false => rfl
      | true =>
        exfalso
        rcases hplace m hm with e | ⟨pc, e⟩
        · rw [((inv_at caps ops m).mb _).closedEmpty ec |>.1] at e; simp at e
        · rw [((inv_at caps ops m).ended _).mpr ec] at e; simp at e
    obtain ⟨m, hm, hrec⟩ := hw.served hf hp
    obtain ⟨j, hj, hid⟩ := hw.idle hf hm
    rcases hplace j (by omega) with e | ⟨pc, e⟩
    · have h1 := (at_received (caps := caps) (ops := ops) c.tgt hj).subset hrec
      exact received_not_queue ((inv_at caps ops j).mb _) h1 e rfl
    · rw [hid] at e; simp at e

end

end Verif.Calls
