import Verif.Calls.Mb

/-! The invariant of `Verif.Calls`: where each message, reply channel and pending send operation is. -/

set_option linter.unusedSimpArgs false

namespace Verif.Calls

open Verif.Mailbox

/-- The handler waits in `send` of a mailbox. -/
def Hand.Sending (h : Hand) : Prop := ∃ r c t ch k, h = .busy r (.sending c t ch k)

structure Inv (w : World) : Prop where
  mb : ∀ b, Mailbox.Inv (w.mb b)
  ended : ∀ a, w.hand a = .ended ↔ (w.mb a).closed = true
  issued : ∀ b p ch, p ∈ (w.mb b).sent → p.2.reply = some ch → ch < w.calls
  uniq : ∀ b b' p p' ch, p ∈ (w.mb b).sent → p' ∈ (w.mb b').sent → p.2.reply = some ch → p'.2.reply = some ch →
    b = b' ∧ p = p'
  unmade : ∀ ch, w.calls ≤ ch → w.chan ch = .none
  made : ∀ b p ch, p ∈ (w.mb b).sent → p.2.reply = some ch → w.chan ch ≠ .none
  place : ∀ b p ch, p ∈ (w.mb b).pushed → p.2.reply = some ch →
    w.chan ch ≠ .opn ∨ p ∈ (w.mb b).queue ∨ ∃ pc, w.hand b = .busy (some ch) pc
  hold : ∀ a ch pc, w.hand a = .busy (some ch) pc → ∃ p ∈ (w.mb a).received, p.2.reply = some ch
  send : ∀ a r c t ch k, w.hand a = .busy r (.sending c t ch k) → (w.mb c.tgt).closed = false →
    ∃ sig, (t, sig) ∈ pend (w.mb c.tgt) ∧ sig.src = some a ∧ sig.reply = if c.ask then some ch else none
  await : ∀ a r c ch k, w.hand a = .busy r (.awaiting c ch k) →
    ∃ p ∈ (w.mb c.tgt).pushed, p.2.reply = some ch
  owner : ∀ b p a, p ∈ pend (w.mb b) → p.2.src = some a →
    ∃ r c ch k, w.hand a = .busy r (.sending c p.1 ch k) ∧ c.tgt = b

theorem inv_fresh (caps : Nat → Option Nat) : Inv (World.fresh caps) := by
  constructor
  · intro b; exact Mailbox.inv_fresh _
  all_goals simp [World.fresh, Mb.fresh, pend]

/-- A step in which no new send operation begins: the mailbox of `b` and what `a` does change. -/
structure Upd (w w' : World) (a b : Nat) : Prop where
  mbO : ∀ x, x ≠ b → w'.mb x = w.mb x
  handO : ∀ x, x ≠ a → w'.hand x = w.hand x
  calls : w'.calls = w.calls
  mInv : Mailbox.Inv (w'.mb b)
  sent : (w'.mb b).sent = (w.mb b).sent
  pushed : ∀ p, p ∈ (w'.mb b).pushed → p ∈ (w.mb b).pushed ∨ p ∈ (w'.mb b).queue
  pushedM : ∀ p, p ∈ (w.mb b).pushed → p ∈ (w'.mb b).pushed
  queue : ∀ p ch, p ∈ (w.mb b).queue → p.2.reply = some ch →
    p ∈ (w'.mb b).queue ∨ w'.chan ch ≠ .opn ∨ ∃ pc, w'.hand b = .busy (some ch) pc
  recv : ∀ p, p ∈ (w.mb b).received → p ∈ (w'.mb b).received
  pendS : ∀ p, p ∈ pend (w'.mb b) → p ∈ pend (w.mb b)
  pendM : ∀ p, p ∈ pend (w.mb b) → p ∈ pend (w'.mb b) ∨ (w'.mb b).closed = true ∨ p.2.src = none ∨
    (p.2.src = some a ∧ ¬ (w'.hand a).Sending)
  owner : w'.hand a = w.hand a ∨ ∀ x, ∀ p ∈ pend (w'.mb x), p.2.src ≠ some a
  closedM : (w.mb b).closed = true → (w'.mb b).closed = true
  ended : ∀ x, x = a ∨ x = b → (w'.hand x = .ended ↔ (w'.mb x).closed = true)
  chanM : ∀ ch, w'.chan ch = .opn → w.chan ch = .opn
  chanN : ∀ ch, w'.chan ch = .none ↔ w.chan ch = .none
  hold : ∀ ch pc, w'.hand a = .busy (some ch) pc → ∃ p ∈ (w'.mb a).received, p.2.reply = some ch
  lose : ∀ ch pc, w.hand a = .busy (some ch) pc → (∃ pc', w'.hand a = .busy (some ch) pc') ∨ w'.chan ch ≠ .opn
  sendA : (w'.hand a).Sending → w'.hand a = w.hand a
  awaitA : ∀ r c ch k, w'.hand a = .busy r (.awaiting c ch k) → ∃ p ∈ (w'.mb c.tgt).pushed, p.2.reply = some ch

theorem inv_upd {w w' : World} {a b : Nat} (h : Inv w) (u : Upd w w' a b) : Inv w' := by
  have hsent : ∀ x, (w'.mb x).sent = (w.mb x).sent := by
    intro x; by_cases hx : x = b
    · subst hx; exact u.sent
    · rw [u.mbO x hx]
  have hpm : ∀ x p, p ∈ (w.mb x).pushed → p ∈ (w'.mb x).pushed := by
    intro x; by_cases hx : x = b
    · subst hx; exact u.pushedM
    · rw [u.mbO x hx]; exact fun _ h => h
  have hps : ∀ x p, p ∈ pend (w'.mb x) → p ∈ pend (w.mb x) := by
    intro x; by_cases hx : x = b
    · subst hx; exact u.pendS
    · rw [u.mbO x hx]; exact fun _ h => h
  constructor
  · intro x; by_cases hx : x = b
    · subst hx; exact u.mInv
    · rw [u.mbO x hx]; exact h.mb x
  · intro x
    by_cases hx : x = a ∨ x = b
    · exact u.ended x hx
    · rw [u.mbO x (fun e => hx (Or.inr e)), u.handO x (fun e => hx (Or.inl e))]; exact h.ended x
  · intro x p ch hp hr; rw [hsent] at hp; rw [u.calls]; exact h.issued x p ch hp hr
  · intro x y p q ch hp hq; rw [hsent] at hp hq; exact h.uniq x y p q ch hp hq
  · intro ch hc; rw [u.calls] at hc; exact (u.chanN ch).mpr (h.unmade ch hc)
  · intro x p ch hp hr hn; rw [hsent] at hp; exact h.made x p ch hp hr ((u.chanN ch).mp hn)
  · intro x p ch hp hr
    -- where was it before?
    have key : p ∈ (w.mb x).pushed → w'.chan ch ≠ .opn ∨ p ∈ (w'.mb x).queue ∨ ∃ pc, w'.hand x = .busy (some ch) pc := by
      intro hp0
      rcases h.place x p ch hp0 hr with h1 | h1 | ⟨pc, h1⟩
      · exact Or.inl (fun e => h1 (u.chanM ch e))
      · by_cases hx : x = b
        · subst hx
          rcases u.queue p ch h1 hr with h2 | h2 | h2
          · exact Or.inr (Or.inl h2)
          · exact Or.inl h2
          · exact Or.inr (Or.inr h2)
        · rw [u.mbO x hx]; exact Or.inr (Or.inl h1)
      · by_cases hx : x = a
        · subst hx
          rcases u.lose ch pc h1 with h2 | h2
          · exact Or.inr (Or.inr h2)
          · exact Or.inl h2
        · rw [u.handO x hx]; exact Or.inr (Or.inr ⟨pc, h1⟩)
    by_cases hx : x = b
    · subst hx
      rcases u.pushed p hp with h1 | h1
      · exact key h1
      · exact Or.inr (Or.inl h1)
    · rw [u.mbO x hx] at hp; exact key hp
  · intro x ch pc hh
    by_cases hx : x = a
    · subst hx; exact u.hold ch pc hh
    · rw [u.handO x hx] at hh
      obtain ⟨p, hp, hr⟩ := h.hold x ch pc hh
      refine ⟨p, ?_, hr⟩
      by_cases hb : x = b
      · subst hb; exact u.recv p hp
      · rw [u.mbO x hb]; exact hp
  · intro x r c t ch k hh hc
    have hh0 : w.hand x = .busy r (.sending c t ch k) := by
      by_cases hx : x = a
      · subst hx; rw [← u.sendA ⟨r, c, t, ch, k, hh⟩]; exact hh
      · rw [← u.handO x hx]; exact hh
    have hc0 : (w.mb c.tgt).closed = false := by
      by_cases hb : c.tgt = b
      · rw [hb] at hc ⊢
        cases hcl : (w.mb b).closed
        · rfl
        · rw [u.closedM hcl] at hc; simp at hc
      · rw [← u.mbO _ hb]; exact hc
    obtain ⟨sig, hp, hs, hr⟩ := h.send x r c t ch k hh0 hc0
    refine ⟨sig, ?_, hs, hr⟩
    by_cases hb : c.tgt = b
    · rw [hb] at hp hc ⊢
      rcases u.pendM _ hp with h1 | h1 | h1 | ⟨h1, h2⟩
      · exact h1
      · rw [h1] at hc; simp at hc
      · simp only at h1; rw [hs] at h1; simp at h1
      · simp only at h1; rw [hs] at h1
        have hxa : x = a := by simpa using h1
        subst hxa
        exact (h2 ⟨r, c, t, ch, k, hh⟩).elim
    · rw [u.mbO _ hb]; exact hp
  · intro x r c ch k hh
    by_cases hx : x = a
    · subst hx; exact u.awaitA r c ch k hh
    · rw [u.handO x hx] at hh
      obtain ⟨p, hp, hr⟩ := h.await x r c ch k hh
      exact ⟨p, hpm _ _ hp, hr⟩
  · intro x p y hp hs
    obtain ⟨r, c, ch, k, hh, hb⟩ := h.owner x p y (hps x p hp) hs
    refine ⟨r, c, ch, k, ?_, hb⟩
    by_cases hy : y = a
    · subst hy
      rcases u.owner with h1 | h1
      · rw [h1]; exact hh
      · exact (h1 x p hp hs).elim
    · rw [u.handO y hy]; exact hh

/-- A step in which a send operation begins at `b`; if it is a handler's, it is `a`'s. -/
structure Snd (w w' : World) (a b : Nat) (wait : Bool) (sig : Sig) : Prop where
  mbO : ∀ x, x ≠ b → w'.mb x = w.mb x
  mbB : w'.mb b = put wait (w.mb b) sig
  handO : ∀ x, x ≠ a → w'.hand x = w.hand x
  fresh : ∀ ch, sig.reply = some ch → ch = w.calls ∧ w'.calls = w.calls + 1 ∧ w'.chan ch ≠ .none
  calls : w.calls ≤ w'.calls
  chanU : ∀ ch, w'.calls ≤ ch → w'.chan ch = .none
  chanO : ∀ ch, ch < w.calls → w'.chan ch = w.chan ch
  keep : ∀ ch pc, w.hand a = .busy (some ch) pc → ∃ pc', w'.hand a = .busy (some ch) pc'
  keep' : ∀ ch pc, w'.hand a = .busy (some ch) pc → ∃ pc', w.hand a = .busy (some ch) pc'
  ended : w'.hand a = .ended ↔ w.hand a = .ended
  sendA : ∀ r c t ch k, w'.hand a = .busy r (.sending c t ch k) → w'.hand a = w.hand a ∨
    (c.tgt = b ∧ t = (w.mb b).next ∧ sig.src = some a ∧ (sig.reply = if c.ask then some ch else none) ∧
      wait = true ∧ (w.mb b).hasRoom = false)
  awaitA : ∀ r c ch k, w'.hand a = .busy r (.awaiting c ch k) → w'.hand a = w.hand a ∨
    (c.tgt = b ∧ sig.reply = some ch ∧ (w.mb b).closed = false ∧ (w.mb b).hasRoom = true)
  owner : w'.hand a = w.hand a ∨ ¬ (w.hand a).Sending
  ownerN : wait = true → (w.mb b).closed = false → (w.mb b).hasRoom = false → ∀ x, sig.src = some x →
    x = a ∧ ∃ r c ch k, w'.hand a = .busy r (.sending c (w.mb b).next ch k) ∧ c.tgt = b

theorem inv_snd {w w' : World} {a b : Nat} {wait : Bool} {sig : Sig} (h : Inv w) (u : Snd w w' a b wait sig) :
    Inv w' := by
  have hmem : ∀ x p, p ∈ (w'.mb x).sent → p ∈ (w.mb x).sent ∨ (x = b ∧ p = ((w.mb b).next, sig)) := by
    intro x p hp; by_cases hx : x = b
    · subst hx; rw [u.mbB, put_sent] at hp
      rcases List.mem_append.mp hp with h1 | h1
      · exact Or.inl h1
      · exact Or.inr ⟨rfl, by simpa using h1⟩
    · rw [u.mbO x hx] at hp; exact Or.inl hp
  have hnew : ∀ x p ch, p ∈ (w.mb x).sent → p.2.reply = some ch → sig.reply = some ch → False := by
    intro x p ch hp h1 h2
    have := h.issued x p ch hp h1
    have := (u.fresh ch h2).1
    omega
  have hpm : ∀ x p, p ∈ (w.mb x).pushed → p ∈ (w'.mb x).pushed := by
    intro x p hp; by_cases hx : x = b
    · subst hx; rw [u.mbB]
      by_cases hc : (w.mb x).closed = false ∧ (w.mb x).hasRoom = true
      · rw [(put_taken wait _ sig hc.1 hc.2).2.1]; simp [hp]
      · rw [(put_not_taken wait _ sig ?_).2]; exact hp
        cases h1 : (w.mb x).closed <;> cases h2 : (w.mb x).hasRoom <;> simp_all
    · rw [u.mbO x hx]; exact hp
  have hqm : ∀ x p, p ∈ (w.mb x).queue → p ∈ (w'.mb x).queue := by
    intro x p hp; by_cases hx : x = b
    · subst hx; rw [u.mbB]
      obtain ⟨e, he⟩ := put_queue_ext wait (w.mb x) sig
      rw [he]; simp [hp]
    · rw [u.mbO x hx]; exact hp
  have hcl : ∀ x, (w'.mb x).closed = (w.mb x).closed := by
    intro x; by_cases hx : x = b
    · subst hx; rw [u.mbB, put_closed]
    · rw [u.mbO x hx]
  have hrv : ∀ x, (w'.mb x).received = (w.mb x).received := by
    intro x; by_cases hx : x = b
    · subst hx; rw [u.mbB, put_received]
    · rw [u.mbO x hx]
  have hpm' : ∀ x p, p ∈ pend (w.mb x) → p ∈ pend (w'.mb x) := by
    intro x p hp; by_cases hx : x = b
    · subst hx; rw [u.mbB]; simp only [pend, put_granted, put_waiting] at *
      split <;> simp_all; rcases hp with hp | hp <;> simp [hp]
    · rw [u.mbO x hx]; exact hp
  constructor
  · intro x; by_cases hx : x = b
    · subst hx; rw [u.mbB]; exact inv_put (h.mb x) _ _
    · rw [u.mbO x hx]; exact h.mb x
  · intro x; rw [hcl, ← h.ended x]
    by_cases hx : x = a
    · subst hx; exact u.ended
    · rw [u.handO x hx]
  · intro x p ch hp hr
    rcases hmem x p hp with h1 | ⟨_, h1⟩
    · have := h.issued x p ch h1 hr; have := u.calls; omega
    · subst h1; obtain ⟨h2, h3, _⟩ := u.fresh ch hr; omega
  · intro x y p q ch hp hq hr hr'
    rcases hmem x p hp with h1 | ⟨h0, h1⟩ <;> rcases hmem y q hq with h2 | ⟨h0', h2⟩
    · exact h.uniq x y p q ch h1 h2 hr hr'
    · subst h2; exact (hnew x p ch h1 hr hr').elim
    · subst h1; exact (hnew y q ch h2 hr' hr).elim
    · subst h1 h2 h0 h0'; exact ⟨rfl, rfl⟩
  · exact u.chanU
  · intro x p ch hp hr
    rcases hmem x p hp with h1 | ⟨_, h1⟩
    · have hlt := h.issued x p ch h1 hr
      rw [u.chanO ch hlt]; exact h.made x p ch h1 hr
    · subst h1; exact (u.fresh ch hr).2.2
  · intro x p ch hp hr
    by_cases hold : p ∈ (w.mb x).pushed
    · have hlt := h.issued x p ch (pushed_sent (h.mb x) hold) hr
      rw [u.chanO ch hlt]
      rcases h.place x p ch hold hr with h1 | h1 | ⟨pc, h1⟩
      · exact Or.inl h1
      · exact Or.inr (Or.inl (hqm x p h1))
      · by_cases hx : x = a
        · subst hx; exact Or.inr (Or.inr (u.keep ch pc h1))
        · rw [u.handO x hx]; exact Or.inr (Or.inr ⟨pc, h1⟩)
    · by_cases hx : x = b
      · subst hx
        refine Or.inr (Or.inl ?_)
        rw [u.mbB] at hp ⊢
        by_cases hc : (w.mb x).closed = false ∧ (w.mb x).hasRoom = true
        · rw [(put_taken wait _ sig hc.1 hc.2).2.1] at hp
          rw [(put_taken wait _ sig hc.1 hc.2).1]
          rcases List.mem_append.mp hp with h1 | h1
          · exact (hold h1).elim
          · simp [List.mem_singleton.mp h1]
        · rw [(put_not_taken wait _ sig ?_).2] at hp
          · exact (hold hp).elim
          · cases h1 : (w.mb x).closed <;> cases h2 : (w.mb x).hasRoom <;> simp_all
      · rw [u.mbO x hx] at hp; exact (hold hp).elim
  · intro x ch pc hh
    rw [hrv]
    by_cases hx : x = a
    · subst hx; obtain ⟨pc', h1⟩ := u.keep' ch pc hh; exact h.hold x ch pc' h1
    · rw [u.handO x hx] at hh; exact h.hold x ch pc hh
  · intro x r c t ch k hh hc
    rw [hcl] at hc
    have old : w.hand x = .busy r (.sending c t ch k) → ∃ sig, (t, sig) ∈ pend (w'.mb c.tgt) ∧ sig.src = some x ∧
        sig.reply = if c.ask then some ch else none := by
      intro hh0
      obtain ⟨sg, h1, h2⟩ := h.send x r c t ch k hh0 hc
      exact ⟨sg, hpm' _ _ h1, h2⟩
    by_cases hx : x = a
    · subst hx
      rcases u.sendA r c t ch k hh with h1 | ⟨h1, h2, h3, h4, h5, h6⟩
      · exact old (h1 ▸ hh)
      · refine ⟨sig, ?_, h3, h4⟩
        rw [h1] at hc ⊢
        rw [u.mbB]; simp only [pend, put_granted, put_waiting, hc, h5, h6, and_self, if_true]
        simp [h2]
    · rw [u.handO x hx] at hh; exact old hh
  · intro x r c ch k hh
    have old : w.hand x = .busy r (.awaiting c ch k) → ∃ p ∈ (w'.mb c.tgt).pushed, p.2.reply = some ch := by
      intro hh0
      obtain ⟨p, hp, hr⟩ := h.await x r c ch k hh0
      exact ⟨p, hpm _ _ hp, hr⟩
    by_cases hx : x = a
    · subst hx
      rcases u.awaitA r c ch k hh with h1 | ⟨h1, h2, h3, h4⟩
      · exact old (h1 ▸ hh)
      · refine ⟨((w.mb b).next, sig), ?_, h2⟩
        rw [h1, u.mbB, (put_taken wait _ sig h3 h4).2.1]; simp
    · rw [u.handO x hx] at hh; exact old hh
  · intro x p y hp hs
    have old : p ∈ pend (w.mb x) → ∃ r c ch k, w'.hand y = .busy r (.sending c p.1 ch k) ∧ c.tgt = x := by
      intro hp0
      obtain ⟨r, c, ch, k, hh, hb⟩ := h.owner x p y hp0 hs
      refine ⟨r, c, ch, k, ?_, hb⟩
      by_cases hy : y = a
      · subst hy
        rcases u.owner with h1 | h1
        · rw [h1]; exact hh
        · exact (h1 ⟨r, c, p.1, ch, k, hh⟩).elim
      · rw [u.handO y hy]; exact hh
    by_cases hx : x = b
    · subst hx
      rw [u.mbB] at hp
      simp only [pend, put_granted, put_waiting] at hp
      split at hp
      · rename_i hcond
        rw [← List.append_assoc] at hp
        rcases List.mem_append.mp hp with h1 | h1
        · exact old h1
        · have h1 := List.mem_singleton.mp h1
          subst h1
          obtain ⟨e1, r, c, ch, k, e2, e3⟩ := u.ownerN hcond.2.2 hcond.1 hcond.2.1 y hs
          subst e1
          exact ⟨r, c, ch, k, e2, e3⟩
      · exact old hp
    · rw [u.mbO x hx] at hp; exact old hp

end Verif.Calls
