import Verif.Calls.Inv

/-! Every step of `Verif.Calls` keeps the invariant. -/

set_option linter.unusedSimpArgs false

namespace Verif.Calls

open Verif.Mailbox

section
variable (w : World) (a x : Nat) (h : Hand) (m : Mb Sig) (r : Option Nat) (v : Chan) (l : List (Nat × Sig))

@[simp] theorem setHand_mb : (w.setHand a h).mb = w.mb := rfl
@[simp] theorem setHand_chan : (w.setHand a h).chan = w.chan := rfl
@[simp] theorem setHand_calls : (w.setHand a h).calls = w.calls := rfl
@[simp] theorem setHand_hand : (w.setHand a h).hand x = if x = a then h else w.hand x := rfl
@[simp] theorem setMb_mb : (w.setMb a m).mb x = if x = a then m else w.mb x := rfl
@[simp] theorem setMb_chan : (w.setMb a m).chan = w.chan := rfl
@[simp] theorem setMb_calls : (w.setMb a m).calls = w.calls := rfl
@[simp] theorem setMb_hand : (w.setMb a m).hand = w.hand := rfl
@[simp] theorem answer_mb : (w.answer r v).mb = w.mb := by cases r <;> rfl
@[simp] theorem answer_hand : (w.answer r v).hand = w.hand := by cases r <;> rfl
@[simp] theorem answer_calls : (w.answer r v).calls = w.calls := by cases r <;> rfl
@[simp] theorem dropReplies_mb : (w.dropReplies l).mb = w.mb := rfl
@[simp] theorem dropReplies_hand : (w.dropReplies l).hand = w.hand := rfl
@[simp] theorem dropReplies_calls : (w.dropReplies l).calls = w.calls := rfl
@[simp] theorem finish_hand : (w.finish a).hand x = if x = a then .ended else w.hand x := rfl
@[simp] theorem finish_mb : (w.finish a).mb x = if x = a then (w.mb a).close else w.mb x := rfl
@[simp] theorem finish_calls : (w.finish a).calls = w.calls := rfl
@[simp] theorem finish_chan : (w.finish a).chan = (w.dropReplies (w.mb a).queue).chan := rfl

theorem answer_chan_opn {w : World} {r v ch} (hv : v ≠ .opn) (h : (w.answer r v).chan ch = .opn) : w.chan ch = .opn := by
  cases r with
  | none => exact h
  | some c => simp only [World.answer] at h; split at h <;> simp_all

theorem answer_chan_none {w : World} {r v ch} (hv : v ≠ .none) : (w.answer r v).chan ch = .none ↔ w.chan ch = .none := by
  cases r with
  | none => rfl
  | some c =>
    simp only [World.answer]
    split
    · rename_i h; obtain ⟨rfl, h⟩ := h; simp [h, hv]
    · rfl

theorem answer_chan_self {w : World} {v ch} (hv : v ≠ .opn) : (w.answer (some ch) v).chan ch ≠ .opn := by
  simp only [World.answer, true_and]
  split
  · exact hv
  · assumption

theorem dropReplies_opn {w : World} {l ch} (h : (w.dropReplies l).chan ch = .opn) : w.chan ch = .opn := by
  simp only [World.dropReplies] at h; split at h <;> simp_all

theorem dropReplies_none {w : World} {l ch} : (w.dropReplies l).chan ch = .none ↔ w.chan ch = .none := by
  simp only [World.dropReplies]; split <;> simp_all

theorem dropReplies_mem {w : World} {l p ch} (hp : p ∈ l) (hr : p.2.reply = some ch) :
    (w.dropReplies l).chan ch ≠ .opn := by
  simp only [World.dropReplies]
  split
  · simp
  · rename_i h1
    intro h2
    refine h1 ⟨h2, ?_⟩
    rw [List.any_eq_true]; exact ⟨p, hp, by simp [hr]⟩
end

/-- Nothing pending is `a`'s, if its handler is not sending. -/
theorem Inv.not_sending {w : World} (h : Inv w) {a : Nat} (hs : ¬ (w.hand a).Sending) :
    ∀ x, ∀ p ∈ pend (w.mb x), p.2.src ≠ some a := by
  intro x p hp he
  obtain ⟨r, c, ch, k, h1, _⟩ := h.owner x p a hp he
  exact hs ⟨r, c, p.1, ch, k, h1⟩

theorem pend_closed {w : World} (h : Inv w) {b : Nat} (hc : (w.mb b).closed = true) : pend (w.mb b) = [] := by
  obtain ⟨_, h2, h3⟩ := (h.mb b).closedEmpty hc
  simp [pend, h2, h3]

theorem not_sending_go {r : Option Nat} {p : Prog} : ¬ (Hand.busy r (.go p)).Sending := by
  rintro ⟨_, _, _, _, _, h⟩; simp at h
theorem not_sending_awaiting {r : Option Nat} {c : Call} {ch : Nat} {k : Ans → Prog} :
    ¬ (Hand.busy r (.awaiting c ch k)).Sending := by
  rintro ⟨_, _, _, _, _, h⟩; simp at h
theorem not_sending_idle : ¬ Hand.idle.Sending := by rintro ⟨_, _, _, _, _, h⟩; simp at h
theorem not_sending_ended : ¬ Hand.ended.Sending := by rintro ⟨_, _, _, _, _, h⟩; simp at h

/-- Only what `a` does changes, and some reply channels are closed. -/
theorem inv_hand {w w' : World} (h : Inv w) (a : Nat) (hmb : w'.mb = w.mb) (hh : ∀ x, x ≠ a → w'.hand x = w.hand x)
    (hcalls : w'.calls = w.calls) (hcm : ∀ ch, w'.chan ch = .opn → w.chan ch = .opn)
    (hcn : ∀ ch, w'.chan ch = .none ↔ w.chan ch = .none)
    (hne : w.hand a ≠ .ended) (hne' : w'.hand a ≠ .ended)
    (hs' : ¬ (w'.hand a).Sending) (hp : ∀ x, ∀ p ∈ pend (w.mb x), p.2.src ≠ some a)
    (hhold : ∀ ch pc, w'.hand a = .busy (some ch) pc → ∃ pc', w.hand a = .busy (some ch) pc')
    (hlose : ∀ ch pc, w.hand a = .busy (some ch) pc → (∃ pc', w'.hand a = .busy (some ch) pc') ∨ w'.chan ch ≠ .opn)
    (haw : ∀ r c ch k, w'.hand a = .busy r (.awaiting c ch k) → ∃ p ∈ (w.mb c.tgt).pushed, p.2.reply = some ch) :
    Inv w' := by
  have hcl : (w.mb a).closed ≠ true := fun hc => hne ((h.ended a).mpr hc)
  refine inv_upd (a := a) (b := a) h ?_
  constructor
  · intro x _; rw [hmb]
  · exact hh
  · exact hcalls
  · rw [hmb]; exact h.mb a
  · rw [hmb]
  · rw [hmb]; exact fun p hp => Or.inl hp
  · rw [hmb]; exact fun p hp => hp
  · rw [hmb]; exact fun p ch hp _ => Or.inl hp
  · rw [hmb]; exact fun p hp => hp
  · rw [hmb]; exact fun p hp => hp
  · rw [hmb]; exact fun p hp => Or.inl hp
  · rw [hmb]; exact Or.inr hp
  · rw [hmb]; exact id
  · intro x hx; rcases hx with rfl | rfl <;> (rw [hmb]; exact ⟨fun e => (hne' e).elim, fun e => (hcl e).elim⟩)
  · exact hcm
  · exact hcn
  · intro ch pc e; obtain ⟨pc', e'⟩ := hhold ch pc e; rw [hmb]; exact h.hold a ch pc' e'
  · exact hlose
  · exact fun e => (hs' e).elim
  · rw [hmb]; exact haw

/-- A mailbox is polled or cancelled for the actor whose handler sends. -/
theorem inv_sender {w w' : World} (h : Inv w) (a : Nat) {r : Option Nat} {c : Call} {t ch : Nat} {k : Ans → Prog}
    (hh0 : w.hand a = .busy r (.sending c t ch k)) (hc : (w.mb c.tgt).closed = false)
    (m : Mb Sig) (pc : Pc) (hw : w' = (w.setMb c.tgt m).setHand a (.busy r pc))
    (hm : Mailbox.Inv m) (hsent : m.sent = (w.mb c.tgt).sent)
    (hpush : ∀ p ∈ m.pushed, p ∈ (w.mb c.tgt).pushed ∨ p ∈ m.queue) (hpm : ∀ p ∈ (w.mb c.tgt).pushed, p ∈ m.pushed)
    (hq : ∀ p ∈ (w.mb c.tgt).queue, p ∈ m.queue) (hr : m.received = (w.mb c.tgt).received)
    (hpend : pend m = (pend (w.mb c.tgt)).filter (fun p => p.1 != t))
    (hcl : m.closed = (w.mb c.tgt).closed)
    (hpc : (∃ p, pc = .go p) ∨ (∃ k', pc = .awaiting c ch k' ∧ ∃ p ∈ m.pushed, p.2.reply = some ch)) : Inv w' := by
  have hns : ¬ (Hand.busy r pc).Sending := by
    rcases hpc with ⟨p, rfl⟩ | ⟨k', rfl, _⟩
    · exact not_sending_go
    · exact not_sending_awaiting
  have hne : w.hand a ≠ .ended := by rw [hh0]; simp
  have hacl : (w.mb a).closed ≠ true := fun e => hne ((h.ended a).mpr e)
  obtain ⟨sg, hsg, hsrc, _⟩ := h.send a r c t ch k hh0 hc
  subst hw
  refine inv_upd (a := a) (b := c.tgt) h ?_
  constructor
  · intro x hx; simp [hx]
  · intro x hx; simp [hx]
  · simp
  · simpa using hm
  · simpa using hsent
  · simpa using hpush
  · simpa using hpm
  · intro p ch' hp _; left; simpa using hq p hp
  · simp [hr]
  · intro p hp
    simp only [setHand_mb, setMb_mb, if_true] at hp
    rw [hpend] at hp; exact (List.mem_filter.mp hp).1
  · intro p hp
    simp only [setHand_mb, setMb_mb, if_true]
    by_cases ht : p.1 = t
    · refine Or.inr (Or.inr (Or.inr ⟨?_, by simpa using hns⟩))
      have := key_unique (h.mb c.tgt) (pend_sent (h.mb _) hp) (pend_sent (h.mb _) hsg) ht
      rw [this]; exact hsrc
    · left; rw [hpend]; exact List.mem_filter.mpr ⟨hp, by simpa using ht⟩
  · right
    intro x p hp hs
    simp only [setHand_mb, setMb_mb] at hp
    have hp0 : p ∈ pend (w.mb x) ∧ (x = c.tgt → p.1 ≠ t) := by
      split at hp
      · rename_i hx; subst hx; rw [hpend] at hp
        obtain ⟨h1, h2⟩ := List.mem_filter.mp hp
        exact ⟨h1, fun _ => by simpa using h2⟩
      · rename_i hx; exact ⟨hp, fun e => (hx e).elim⟩
    obtain ⟨r', c', ch', k', h1, h2⟩ := h.owner x p a hp0.1 hs
    rw [hh0] at h1
    simp only [Hand.busy.injEq, Pc.sending.injEq] at h1
    obtain ⟨_, rfl, rfl, _⟩ := h1
    exact hp0.2 h2.symm rfl
  · intro e; rw [hc] at e; simp at e
  · intro x hx
    have : (((w.setMb c.tgt m).setHand a (.busy r pc)).mb x).closed = (w.mb x).closed := by
      simp only [setHand_mb, setMb_mb]; split
      · rename_i e; rw [e, hcl]
      · rfl
    rw [this]
    by_cases hxa : x = a
    · subst hxa; simp [hacl]
    · simp only [setHand_hand, hxa, if_false, setMb_hand]; exact h.ended x
  · simp
  · simp
  · intro ch' pc' e
    simp only [setHand_hand, if_true, Hand.busy.injEq] at e
    obtain ⟨rfl, _⟩ := e
    obtain ⟨p, hp, hp'⟩ := h.hold a ch' _ hh0
    refine ⟨p, ?_, hp'⟩
    simp only [setHand_mb, setMb_mb]; split
    · rename_i e; rw [hr, ← e]; exact hp
    · exact hp
  · intro ch' pc' e
    rw [hh0] at e; simp only [Hand.busy.injEq] at e
    left; simp [e.1]
  · intro e; simp only [setHand_hand, if_true] at e; exact (hns e).elim
  · intro r' c' ch' k' e
    simp only [setHand_hand, if_true, Hand.busy.injEq] at e
    obtain ⟨_, rfl⟩ := e
    rcases hpc with ⟨p, h1⟩ | ⟨k'', h1, p, hp, hp'⟩
    · simp at h1
    · simp only [Pc.awaiting.injEq] at h1
      obtain ⟨rfl, rfl, _⟩ := h1
      exact ⟨p, by simpa using hp, hp'⟩

/-- The actor ends. -/
theorem inv_finish {w : World} (h : Inv w) (a : Nat) (hp : ∀ x, ∀ p ∈ pend (w.mb x), p.2.src ≠ some a ∨ x = a)
    (hl : ∀ ch pc, w.hand a = .busy (some ch) pc → w.chan ch ≠ .opn) : Inv (w.finish a) := by
  refine inv_upd (a := a) (b := a) h ?_
  constructor
  · intro x hx; simp [hx]
  · intro x hx; simp [hx]
  · simp
  · simpa using inv_close (h.mb a)
  · simp
  · intro p hp'; left; simpa using hp'
  · simp
  · intro p ch hp' hr; right; left
    simp only [finish_chan]; exact dropReplies_mem hp' hr
  · simp
  · simp
  · intro p _; right; left; simp
  · right; intro x p hp' hs
    simp only [finish_mb] at hp'
    split at hp'
    · simp at hp'
    · rename_i hx
      rcases hp x p hp' with h1 | h1
      · exact h1 hs
      · exact hx h1
  · simp
  · intro x hx; rcases hx with rfl | rfl <;> simp
  · intro ch e; simp only [finish_chan] at e; exact dropReplies_opn e
  · intro ch; simp only [finish_chan]; exact dropReplies_none
  · intro ch pc e; simp at e
  · intro ch pc e; right
    intro e'; simp only [finish_chan] at e'; exact hl ch pc e (dropReplies_opn e')
  · intro e; simp only [finish_hand, if_true] at e; exact (not_sending_ended e).elim
  · intro r c ch k e; simp at e

/-- The actor's reply sender is used or dropped. -/
theorem inv_answer {w : World} (h : Inv w) (r : Option Nat) {v : Chan} (hv : v ≠ .opn) (hv' : v ≠ .none) :
    Inv (w.answer r v) := by
  refine inv_upd (a := 0) (b := 0) h ?_
  constructor
  case owner => exact Or.inl (by simp)
  case ended => intro x _; simp only [answer_hand, answer_mb]; exact h.ended x
  case mInv => simpa using h.mb 0
  case hold => intro ch pc e; simp only [answer_hand, answer_mb] at *; exact h.hold 0 ch pc e
  case lose => intro ch pc e; left; exact ⟨pc, by simpa using e⟩
  case awaitA => intro r c ch k e; simp only [answer_hand, answer_mb] at *; exact h.await 0 r c ch k e
  case chanM => intro ch e; exact answer_chan_opn hv e
  case chanN => intro ch; exact answer_chan_none hv'
  all_goals simp (config := {contextual := true})

/-- A send operation that is nobody's handler's is polled or cancelled. -/
theorem inv_outside {w : World} (h : Inv w) (b t : Nat) (m : Mb Sig) (s : Sig) (hs : (t, s) ∈ pend (w.mb b))
    (hs' : s.src = none)
    (hm : Mailbox.Inv m) (hsent : m.sent = (w.mb b).sent)
    (hpush : ∀ p ∈ m.pushed, p ∈ (w.mb b).pushed ∨ p ∈ m.queue) (hpm : ∀ p ∈ (w.mb b).pushed, p ∈ m.pushed)
    (hq : ∀ p ∈ (w.mb b).queue, p ∈ m.queue) (hr : m.received = (w.mb b).received)
    (hpend : pend m = (pend (w.mb b)).filter (fun p => p.1 != t))
    (hcl : m.closed = (w.mb b).closed) : Inv (w.setMb b m) := by
  refine inv_upd (a := b) (b := b) h ?_
  constructor
  case owner => left; rfl
  case mInv => simpa using hm
  case sent => simpa using hsent
  case pushed => simpa using hpush
  case pushedM => simpa using hpm
  case queue => intro p ch hp _; left; simpa using hq p hp
  case recv => simp [hr]
  case pendS => intro p hp; simp only [setMb_mb, if_true, hpend] at hp; exact (List.mem_filter.mp hp).1
  case pendM =>
    intro p hp
    simp only [setMb_mb, if_true]
    by_cases ht : p.1 = t
    · refine Or.inr (Or.inr (Or.inl ?_))
      have := key_unique (h.mb b) (pend_sent (h.mb _) hp) (pend_sent (h.mb _) hs) ht
      rw [this]; exact hs'
    · left; rw [hpend]; exact List.mem_filter.mpr ⟨hp, by simpa using ht⟩
  case closedM => simp [hcl]
  case ended => intro x hx; have hx : x = b := by simpa using hx
                subst hx; simp only [setMb_hand, setMb_mb, if_true, hcl]; exact h.ended x
  case hold => intro ch pc e; simp only [setMb_hand, setMb_mb, if_true, hr] at *; exact h.hold b ch pc e
  case lose => intro ch pc e; left; exact ⟨pc, e⟩
  case awaitA =>
    intro r c ch k e
    obtain ⟨p, hp, hp'⟩ := h.await b r c ch k e
    refine ⟨p, ?_, hp'⟩
    simp only [setMb_mb]; split
    · rename_i e; rw [e] at hp; exact hpm p hp
    · exact hp
  all_goals simp (config := {contextual := true})

theorem setMb_self (w : World) (b : Nat) : w.setMb b (w.mb b) = w := by
  have : (fun x => if x = b then w.mb b else w.mb x) = w.mb := by
    funext x; split
    · rename_i h; rw [h]
    · rfl
  simp only [World.setMb, this]

theorem finish_setHand (w : World) (a : Nat) (h : Hand) : (w.setHand a h).finish a = w.finish a := by
  have : (fun x => if x = a then Hand.ended else if x = a then h else w.hand x) =
      (fun x => if x = a then Hand.ended else w.hand x) := by funext x; split <;> rfl
  simp only [World.finish, World.setHand, World.setMb, World.dropReplies, this]
  rfl

theorem answer_setHand (w : World) (a : Nat) (h : Hand) (r : Option Nat) (v : Chan) :
    (w.setHand a h).answer r v = (w.answer r v).setHand a h := by cases r <;> rfl

theorem inv_out_mb {w w' : World} (h : Inv w) (b : Nat) (sig : Sig) (hs : sig.src = none)
    (hmb : ∀ x, w'.mb x = if x = b then put true (w.mb b) sig else w.mb x) (hh : w'.hand = w.hand)
    (hf : ∀ ch, sig.reply = some ch → ch = w.calls ∧ w'.calls = w.calls + 1 ∧ w'.chan ch ≠ .none)
    (hc : w.calls ≤ w'.calls) (hu : ∀ ch, w'.calls ≤ ch → w'.chan ch = .none)
    (ho : ∀ ch, ch < w.calls → w'.chan ch = w.chan ch) : Inv w' := by
  refine inv_snd (a := b) (b := b) (wait := true) (sig := sig) h ?_
  constructor
  · intro x hx; simp [hmb, hx]
  · simp [hmb]
  · intro x _; rw [hh]
  · exact hf
  · exact hc
  · exact hu
  · exact ho
  · intro ch pc e; rw [hh]; exact ⟨pc, e⟩
  · intro ch pc e; rw [hh] at e; exact ⟨pc, e⟩
  · rw [hh]
  · intro r c t ch k _; left; rw [hh]
  · intro r c ch k _; left; rw [hh]
  · left; rw [hh]
  · intro _ _ _ x e; rw [hs] at e; simp at e

theorem inv_out {w : World} (h : Inv w) (b : Nat) (ask : Bool) (m : Nat) : Inv (w.out b ask m) := by
  refine inv_out_mb h b (.msg none m (if ask then some w.calls else none)) rfl (fun x => rfl) rfl ?_ ?_ ?_ ?_
  · intro ch hr
    cases ask <;> simp [Sig.reply] at hr
    subst hr; simp [World.out]
  · simp [World.out]
  · intro ch hc
    simp only [World.out] at hc ⊢
    split
    · rename_i e; omega
    · exact h.unmade ch (by omega)
  · intro ch hc; simp only [World.out]; split
    · rename_i e; omega
    · rfl

theorem inv_stop {w : World} (h : Inv w) (b : Nat) : Inv (w.stop b) := by
  refine inv_out_mb h b .stop rfl (fun x => rfl) rfl ?_ (Nat.le_refl _) h.unmade (fun _ _ => rfl)
  intro ch hr; simp [Sig.reply] at hr

theorem inv_call {w : World} (h : Inv w) (a : Nat) {r : Option Nat} {c : Call} {k : Ans → Prog}
    (hh : w.hand a = .busy r (.go (.call c k))) : Inv (w.call a r c k) := by
  refine inv_snd (a := a) (b := c.tgt) (wait := c.wait)
    (sig := .msg (some a) c.msg (if c.ask then some w.calls else none)) h ?_
  have hca : (w.call a r c k).hand a = .busy r
      (if (w.mb c.tgt).closed then .go (k .notRunning)
       else if (w.mb c.tgt).hasRoom then (if c.ask then .awaiting c w.calls k else .go (k .sent))
       else if c.wait then .sending c (w.mb c.tgt).next w.calls k
       else .go (k .full)) := by simp [World.call]
  constructor
  · intro x hx; simp [World.call, hx]
  · simp [World.call]
  · intro x hx; simp [World.call, hx]
  · intro ch hr
    cases hq : c.ask <;> simp [Sig.reply, hq] at hr
    subst hr; simp [World.call, hq]
  · simp [World.call]
  · intro ch hc
    simp only [World.call, setHand_chan, setHand_calls] at hc ⊢
    split
    · rename_i e; omega
    · exact h.unmade ch (by omega)
  · intro ch hc
    simp only [World.call, setHand_chan]; split
    · rename_i e; omega
    · rfl
  · intro ch pc e; rw [hh] at e; simp only [Hand.busy.injEq] at e; rw [hca, e.1]; exact ⟨_, rfl⟩
  · intro ch pc e; rw [hca] at e; simp only [Hand.busy.injEq] at e; rw [hh, e.1]; exact ⟨_, rfl⟩
  · rw [hca, hh]; simp
  · intro r' c' t ch k' e
    rw [hca] at e; simp only [Hand.busy.injEq] at e
    obtain ⟨_, e⟩ := e
    right
    split at e
    · simp at e
    · split at e
      · split at e <;> simp at e
      · split at e
        · simp only [Pc.sending.injEq] at e
          obtain ⟨rfl, rfl, rfl, _⟩ := e
          rename_i h1 h2 h3 _
          exact ⟨rfl, rfl, rfl, rfl, h3, by simpa using h2⟩
        · simp at e
  · intro r' c' ch k' e
    rw [hca] at e; simp only [Hand.busy.injEq] at e
    obtain ⟨_, e⟩ := e
    right
    split at e
    · simp at e
    · split at e
      · split at e
        · simp only [Pc.awaiting.injEq] at e
          obtain ⟨rfl, rfl, _⟩ := e
          rename_i h1 h2 h3 _
          exact ⟨rfl, by simp [Sig.reply, h3], by simpa using h1, h2⟩
        · simp at e
      · split at e <;> simp at e
  · right; rw [hh]; exact not_sending_go
  · intro hw hcl hroom x hx
    simp only [Sig.src, Option.some.injEq] at hx
    exact ⟨hx.symm, r, c, w.calls, k, by rw [hca]; simp [hcl, hroom, hw], rfl⟩

/-- The actor takes the first signal of its queue. -/
theorem inv_take {w : World} (h : Inv w) (a : Nat) {t : Nat} {s : Sig} {q : List (Nat × Sig)} (hi : w.hand a = .idle)
    (hq : (w.mb a).queue = (t, s) :: q) (hd : Hand)
    (hhd : (hd = .idle ∧ s.reply = none) ∨ ∃ p, hd = .busy s.reply (.go p)) :
    Inv ((w.setMb a (w.mb a).recv).setHand a hd) := by
  have hcl : (w.mb a).closed = false := by
    cases e : (w.mb a).closed
    · rfl
    · have := (h.ended a).mpr e; rw [hi] at this; simp at this
  have hns : ¬ hd.Sending := by
    rcases hhd with ⟨rfl, _⟩ | ⟨p, rfl⟩
    · exact not_sending_idle
    · exact not_sending_go
  have hne : hd ≠ .ended := by rcases hhd with ⟨rfl, _⟩ | ⟨p, rfl⟩ <;> simp
  have hrq : (w.mb a).recv.queue = q := by simp [Mb.recv, hq]
  have hrr : (w.mb a).recv.received = (w.mb a).received ++ [(t, s)] := by simp [Mb.recv, hq]
  have hrc : (w.mb a).recv.closed = false := by simp [Mb.recv, hq, hcl]
  have hne0 := h.not_sending (a := a) (by rw [hi]; exact not_sending_idle)
  refine inv_upd (a := a) (b := a) h ?_
  constructor
  · intro x hx; simp [hx]
  · intro x hx; simp [hx]
  · rfl
  · simpa using inv_recv (h.mb a)
  · simp
  · intro p hp; left; simpa using hp
  · intro p hp; simpa using hp
  · intro p ch hp hr
    simp only [setHand_mb, setMb_mb, if_true, hrq, setHand_hand]
    rw [hq] at hp
    rcases List.mem_cons.mp hp with rfl | hp
    · right; right
      rcases hhd with ⟨_, e⟩ | ⟨p, rfl⟩
      · simp only at hr; rw [e] at hr; simp at hr
      · exact ⟨_, by rw [show s.reply = some ch from hr]⟩
    · exact Or.inl hp
  · intro p hp; simp [hrr, hp]
  · intro p hp; simpa [recv_pend] using hp
  · intro p hp; left; simpa [recv_pend] using hp
  · right; intro x p hp
    have : p ∈ pend (w.mb x) := by
      simp only [setHand_mb, setMb_mb] at hp; split at hp
      · rename_i e; rw [recv_pend] at hp; rw [e]; exact hp
      · exact hp
    exact hne0 x p this
  · intro e; rw [hcl] at e; simp at e
  · intro x hx
    have hx : x = a := by simpa using hx
    subst hx; simp [hrc, hne, hcl]
  · intro ch e; exact e
  · intro ch; rfl
  · intro ch pc e
    simp only [setHand_hand, if_true] at e
    rcases hhd with ⟨e', _⟩ | ⟨p, e'⟩
    · rw [e'] at e; simp at e
    · rw [e'] at e; simp only [Hand.busy.injEq] at e
      exact ⟨(t, s), by simp [hrr], e.1⟩
  · intro ch pc e; rw [hi] at e; simp at e
  · intro e; simp only [setHand_hand, if_true] at e; exact (hns e).elim
  · intro r c ch k e
    simp only [setHand_hand, if_true] at e
    rcases hhd with ⟨e', _⟩ | ⟨p, e'⟩ <;> rw [e'] at e <;> simp at e

theorem setHand_eq_self {w : World} {a : Nat} {h : Hand} (e : w.hand a = h) : w.setHand a h = w := by
  have : (fun x => if x = a then h else w.hand x) = w.hand := by
    funext x; split
    · rename_i hx; rw [hx, e]
    · rfl
  simp only [World.setHand, this]

theorem inv_recvW {w : World} (h : Inv w) (a : Nat) (p : Prog) : Inv (w.recv a p) := by
  unfold World.recv
  split
  · rename_i hi hq; exact inv_take h a hi hq _ (Or.inr ⟨p, rfl⟩)
  · rename_i hi hq
    have h1 := inv_take h a hi hq .idle (Or.inl ⟨rfl, rfl⟩)
    rw [setHand_eq_self (by simpa using hi)] at h1
    refine inv_finish h1 a ?_ ?_
    · intro x q hp
      left; exact h1.not_sending (a := a) (by simp only [setMb_hand, hi]; exact not_sending_idle) x q hp
    · intro ch pc e; simp [hi] at e
  · exact h

theorem sending_closed_none {w : World} (h : Inv w) {a : Nat} {r : Option Nat} {c : Call} {t ch : Nat} {k : Ans → Prog}
    (hh0 : w.hand a = .busy r (.sending c t ch k)) (hc : (w.mb c.tgt).closed = true) :
    ∀ x, ∀ p ∈ pend (w.mb x), p.2.src ≠ some a := by
  intro x p hp e
  obtain ⟨r', c', ch', k', h1, h2⟩ := h.owner x p a hp e
  rw [hh0] at h1
  simp only [Hand.busy.injEq, Pc.sending.injEq] at h1
  obtain ⟨_, rfl, _⟩ := h1
  rw [← h2, pend_closed h hc] at hp; simp at hp

/-- The handler goes on, without a change to the mailboxes. -/
theorem inv_go {w : World} (h : Inv w) (a : Nat) {r : Option Nat} {pc : Pc} (p : Prog) (hh : w.hand a = .busy r pc)
    (hs : ∀ x, ∀ p ∈ pend (w.mb x), p.2.src ≠ some a) : Inv (w.setHand a (.busy r (.go p))) := by
  refine inv_hand h a rfl (fun x hx => by simp [hx]) rfl (fun _ e => e) (fun _ => Iff.rfl) (by rw [hh]; simp) (by simp)
    (by simpa using not_sending_go) hs ?_ ?_ (by simp)
  · intro ch pc' e; simp only [setHand_hand, if_true, Hand.busy.injEq] at e; rw [hh, e.1]; exact ⟨_, rfl⟩
  · intro ch pc' e; rw [hh] at e; simp only [Hand.busy.injEq] at e; left; exact ⟨_, by simp [e.1]; rfl⟩

theorem inv_leave {w : World} (h : Inv w) (a : Nat) {r : Option Nat} {pc : Pc} {v : Chan} (hv : v ≠ .opn) (hv' : v ≠ .none)
    (hh : w.hand a = .busy r pc) (hs : ¬ (w.hand a).Sending) : Inv ((w.answer r v).setHand a .idle) := by
  refine inv_hand h a (by simp) (fun x hx => by simp [hx]) (by simp) (fun _ e => answer_chan_opn hv e)
    (fun _ => answer_chan_none hv') (by rw [hh]; simp) (by simp)
    (by simpa using not_sending_idle) (h.not_sending hs) (by simp) ?_ (by simp)
  intro ch pc' e; rw [hh] at e; simp only [Hand.busy.injEq] at e
  right; rw [e.1]; simp only [setHand_chan]; exact answer_chan_self hv

theorem inv_cancelled {w : World} (h : Inv w) {a : Nat} {r : Option Nat} {c : Call} {t ch : Nat} {k : Ans → Prog}
    (hh0 : w.hand a = .busy r (.sending c t ch k)) (p : Prog) :
    Inv ((w.setMb c.tgt ((w.mb c.tgt).cancel t)).setHand a (.busy r (.go p))) := by
  cases hc : (w.mb c.tgt).closed with
  | false =>
    have hx := (h.mb c.tgt)
    exact inv_sender h a hh0 hc _ (.go p) rfl (Mailbox.inv_cancel hx t) (by simp) (fun p hp => Or.inl (by simpa using hp))
      (fun p hp => by simpa using hp) (fun p hp => by simpa using hp) (by simp) (cancel_pend hx t) (by simp)
      (Or.inl ⟨p, rfl⟩)
  | true =>
    have hn : (w.mb c.tgt).cancel t = w.mb c.tgt := by
      obtain ⟨_, h2, h3⟩ := (h.mb c.tgt).closedEmpty hc
      simp [Mb.cancel, h2, h3]
    rw [hn, setMb_self]
    exact inv_go h a p hh0 (sending_closed_none h hh0 hc)

theorem inv_poll {w : World} (h : Inv w) (a : Nat) : Inv (w.poll a) := by
  unfold World.poll
  split
  · rename_i r v hh; exact inv_leave h a (by simp) (by simp) hh (by rw [hh]; exact not_sending_go)
  · rename_i r c k hh; exact inv_call h a hh
  · rename_i r c t ch k hh
    dsimp only
    split
    · rename_i hc; exact inv_go h a _ hh (sending_closed_none h hh hc)
    · split
      · rename_i hc hg
        have hc : (w.mb c.tgt).closed = false := by simpa using hc
        obtain ⟨q, hq, hqt, h1, h2, _⟩ := poll_granted hg
        obtain ⟨sg, hsg, hsrc, hrep⟩ := h.send a r c t ch k hh hc
        have hqe : q = (t, sg) := key_unique (h.mb _) (pend_sent (h.mb _) (by simp [pend, hq])) (pend_sent (h.mb _) hsg) hqt
        refine inv_sender h a hh hc _ _ rfl (Mailbox.inv_poll (h.mb _) t) (by simp) ?_ ?_ ?_ ?_ (poll_pend (h.mb _) hg) ?_ ?_
        · intro p hp; rw [h2] at hp; rw [h1]
          rcases List.mem_append.mp hp with hp | hp
          · exact Or.inl hp
          · right; exact List.mem_append.mpr (Or.inr hp)
        · intro p hp; rw [h2]; simp [hp]
        · intro p hp; rw [h1]; simp [hp]
        · simp only [Mb.poll, Mb.push]; split <;> rfl
        · simp only [Mb.poll, Mb.push]; split <;> rfl
        · by_cases ha : c.ask = true
          · right; refine ⟨k, by simp [ha], q, by rw [h2]; simp, ?_⟩
            rw [hqe]; simp [hrep, ha]
          · left; exact ⟨_, by simp [ha]; rfl⟩
      · exact h
  · rename_i r c ch k hh
    have hs := h.not_sending (a := a) (by rw [hh]; exact not_sending_awaiting)
    split
    · exact inv_go h a _ hh hs
    · exact inv_go h a _ hh hs
    · exact h
  · exact h

theorem inv_expire {w : World} (h : Inv w) (a : Nat) : Inv (w.expire a) := by
  unfold World.expire
  split
  · rename_i r c t ch k hh
    dsimp only
    split
    · exact inv_cancelled h hh _
    · exact h
  · rename_i r c ch k hh
    split
    · exact inv_go h a _ hh (h.not_sending (a := a) (by rw [hh]; exact not_sending_awaiting))
    · exact h
  · exact h

theorem inv_fail {w : World} (h : Inv w) (a : Nat) : Inv (w.fail a) := by
  unfold World.fail
  split
  · rename_i r p hh; exact inv_leave h a (by simp) (by simp) hh (by rw [hh]; exact not_sending_go)
  · exact h

theorem inv_kill {w : World} (h : Inv w) (a : Nat) : Inv (w.kill a) := by
  have key : ∀ {w : World}, Inv w → ∀ r pc, w.hand a = .busy r pc → ¬ (w.hand a).Sending →
      Inv ((w.answer r .dropped).finish a) := by
    intro w h r pc hh hs
    have h1 := inv_answer h r (v := .dropped) (by simp) (by simp)
    refine inv_finish h1 a ?_ ?_
    · intro x p hp; left
      exact h1.not_sending (a := a) (by simpa using hs) x p hp
    · intro ch pc' e
      simp only [answer_hand] at e; rw [hh] at e; simp only [Hand.busy.injEq] at e
      rw [e.1]; exact answer_chan_self (by simp)
  unfold World.kill
  split
  · exact h
  · rename_i hh
    exact inv_finish h a (fun x p hp => Or.inl (h.not_sending (a := a) (by rw [hh]; exact not_sending_idle) x p hp))
      (by intro ch pc e; rw [hh] at e; simp at e)
  · rename_i r c t ch k hh
    have h1 := inv_cancelled h hh (.ret 0)
    have h2 := key h1 r (.go (.ret 0)) (by simp) (by simpa using not_sending_go)
    rwa [answer_setHand, finish_setHand] at h2
  · rename_i r pc hn hh
    refine key h r pc hh ?_
    rintro ⟨r', c, t, ch, k, e⟩
    rw [hh] at e
    simp only [Hand.busy.injEq] at e
    exact hn _ _ _ _ e.2

theorem inv_outPoll {w : World} (h : Inv w) (b t : Nat) : Inv (w.outPoll b t) := by
  unfold World.outPoll
  split
  · rename_i hg
    obtain ⟨q, hq, hq'⟩ := List.any_eq_true.mp hg
    simp only [Bool.and_eq_true, beq_iff_eq] at hq'
    obtain ⟨rfl, hsrc⟩ := hq'
    have hgm : q.1 ∈ (w.mb b).granted.map (·.1) := List.mem_map_of_mem hq
    obtain ⟨q', hq', hqt, h1, h2, _⟩ := poll_granted hgm
    refine inv_outside h b q.1 _ q.2 (by simp [pend, hq]) hsrc (Mailbox.inv_poll (h.mb _) _) (by simp) ?_ ?_ ?_ ?_
      (poll_pend (h.mb _) hgm) ?_
    · intro p hp; rw [h2] at hp; rw [h1]
      rcases List.mem_append.mp hp with hp | hp
      · exact Or.inl hp
      · right; exact List.mem_append.mpr (Or.inr hp)
    · intro p hp; rw [h2]; simp [hp]
    · intro p hp; rw [h1]; simp [hp]
    · simp only [Mb.poll, Mb.push]; split <;> rfl
    · simp only [Mb.poll, Mb.push]; split <;> rfl
  · exact h

theorem inv_outCancel {w : World} (h : Inv w) (b t : Nat) : Inv (w.outCancel b t) := by
  unfold World.outCancel
  split
  · rename_i hg
    obtain ⟨q, hq, hq'⟩ := List.any_eq_true.mp hg
    simp only [Bool.and_eq_true, beq_iff_eq] at hq'
    obtain ⟨rfl, hsrc⟩ := hq'
    exact inv_outside h b q.1 _ q.2 hq hsrc (Mailbox.inv_cancel (h.mb _) _) (by simp) (fun p hp => Or.inl (by simpa using hp))
      (fun p hp => by simpa using hp) (fun p hp => by simpa using hp) (by simp) (cancel_pend (h.mb _) _) (by simp)
  · exact h

theorem inv_step {w : World} (h : Inv w) (op : Op) : Inv (w.step op) := by
  cases op with
  | recv a p => exact inv_recvW h a p
  | poll a => exact inv_poll h a
  | expire a => exact inv_expire h a
  | fail a => exact inv_fail h a
  | kill a => exact inv_kill h a
  | out b q m => exact inv_out h b q m
  | stop b => exact inv_stop h b
  | outPoll b t => exact inv_outPoll h b t
  | outCancel b t => exact inv_outCancel h b t

theorem inv_run {w : World} (h : Inv w) (ops : List Op) : Inv (w.run ops) := by
  induction ops generalizing w with
  | nil => exact h
  | cons o os ih => exact ih (inv_step h o)

end Verif.Calls
