import Verif.Calls.Props

/-!
Property theorems C75, continued: actors that wait for one another in a circle, and an actor that asks itself, wait until
one is killed; which of this the code warns of.
-/

set_option linter.unusedSimpArgs false

namespace Verif.Calls

open Verif.Mailbox

/-- The handler of `a` waits, without a time-out, for an actor of `D`: for the reply, which has not been given; or for
room in a full mailbox, no slot of which is handed out. Specification. -/
def Blocked (w : World) (D : Nat → Prop) (a : Nat) : Prop :=
  ∃ r c k, D c.tgt ∧
    ((∃ ch, w.hand a = .busy r (.awaiting c ch k) ∧ c.rt = false ∧ w.chan ch = .opn) ∨
     (∃ t ch, w.hand a = .busy r (.sending c t ch k) ∧ c.mt = false ∧ (w.mb c.tgt).closed = false ∧
        (w.mb c.tgt).granted = []))

/-- Who closes a reply channel. -/
theorem chan_close {w : World} {op : Op} {ch : Nat} (h : w.chan ch = .opn) (h' : (w.step op).chan ch ≠ .opn) :
    ∃ x, ((∃ pc, w.hand x = .busy (some ch) pc) ∨ ∃ p ∈ (w.mb x).queue, p.2.reply = some ch) ∧
      (op = .kill x ∨ (∃ p, op = .recv x p ∧ w.hand x = .idle) ∨
       (∃ r p, w.hand x = .busy r (.go p) ∧ (op = .poll x ∨ op = .fail x)) ∨ ch = w.calls) := by
  have ans : ∀ {w : World} {r v}, w.chan ch = .opn → (w.answer r v).chan ch ≠ .opn → r = some ch := by
    intro w r v h h'
    cases r with
    | none => exact (h' h).elim
    | some c =>
      simp only [World.answer] at h'
      split at h'
      · rename_i e; rw [e.1]
      · exact (h' h).elim
  have drp : ∀ {w : World} {l}, w.chan ch = .opn → (w.dropReplies l).chan ch ≠ .opn → ∃ p ∈ l, p.2.reply = some ch := by
    intro w l h h'
    simp only [World.dropReplies] at h'
    split at h'
    · rename_i e
      obtain ⟨p, hp, hr⟩ := List.any_eq_true.mp e.2
      exact ⟨p, hp, by simpa using hr⟩
    · exact (h' h).elim
  cases op with
  | recv a p =>
    simp only [World.step, World.recv] at h'
    split at h'
    · exact (h' h).elim
    · rename_i hi hq
      simp only [finish_chan] at h'
      obtain ⟨q, hq1, hq2⟩ := drp (w := w.setMb a (w.mb a).recv) h h'
      refine ⟨a, Or.inr ⟨q, ?_, hq2⟩, Or.inr (Or.inl ⟨p, rfl, hi⟩)⟩
      simp only [setMb_mb, if_true, Mb.recv, hq] at hq1
      rw [hq]
      simp at hq1
      exact List.mem_cons_of_mem _ hq1
    · exact (h' h).elim
  | poll a =>
    simp only [World.step, World.poll] at h'
    split at h'
    · rename_i r v hh
      have := ans h h'
      exact ⟨a, Or.inl ⟨_, by rw [hh, this]⟩, Or.inr (Or.inr (Or.inl ⟨_, _, hh, Or.inl rfl⟩))⟩
    · simp only [World.call, setHand_chan] at h'
      split at h'
      · exact (h' rfl).elim
      · exact (h' h).elim
    · (repeat' split at h') <;> exact (h' h).elim
    · (repeat' split at h') <;> exact (h' h).elim
    · exact (h' h).elim
  | expire a =>
    simp only [World.step, World.expire] at h'
    (repeat' split at h') <;> exact (h' h).elim
  | fail a =>
    simp only [World.step, World.fail] at h'
    split at h'
    · rename_i r p hh
      have := ans h h'
      exact ⟨a, Or.inl ⟨_, by rw [hh, this]⟩, Or.inr (Or.inr (Or.inl ⟨_, _, hh, Or.inr rfl⟩))⟩
    · exact (h' h).elim
  | kill a =>
    have fin : ∀ {w' : World} {r pc}, w.hand a = .busy r pc → w'.chan = w.chan →
        (∀ q ∈ (w'.mb a).queue, q ∈ (w.mb a).queue) →
        ((w'.answer r .dropped).finish a).chan ch ≠ .opn →
        (∃ pc, w.hand a = .busy (some ch) pc) ∨ ∃ p ∈ (w.mb a).queue, p.2.reply = some ch := by
      intro w' r pc hh hc hq h'
      by_cases h1 : (w'.answer r .dropped).chan ch = .opn
      · right
        simp only [finish_chan, answer_mb] at h'
        obtain ⟨p, hp, hr⟩ := drp h1 h'
        exact ⟨p, hq p hp, hr⟩
      · left
        have := ans (w := w') (by rw [hc]; exact h) h1
        exact ⟨pc, by rw [hh, this]⟩
    refine ⟨a, ?_, Or.inl rfl⟩
    simp only [World.step, World.kill] at h'
    split at h'
    · exact (h' h).elim
    · right; simp only [finish_chan] at h'; exact drp h h'
    · rename_i r c t ch' k hh
      refine fin (w' := w.setMb c.tgt ((w.mb c.tgt).cancel t)) hh rfl ?_ h'
      intro q hq
      simp only [setMb_mb] at hq; split at hq
      · rename_i e; rw [cancel_queue] at hq; rw [e]; exact hq
      · exact hq
    · rename_i r pc hn hh
      exact fin (w' := w) hh rfl (fun q hq => hq) h'
  | out x q m =>
    simp only [World.step, World.out] at h'; split at h'
    · exact (h' rfl).elim
    · exact (h' h).elim
  | stop x => exact (h' h).elim
  | outPoll x t => simp only [World.step, World.outPoll] at h'; split at h' <;> exact (h' h).elim
  | outCancel x t => simp only [World.step, World.outCancel] at h'; split at h' <;> exact (h' h).elim

/-- Only the actor a request was sent to closes its reply channel. -/
theorem closer_is_target {w : World} (h : Inv w) {b x ch : Nat} {p : Nat × Sig} (hp : p ∈ (w.mb b).sent)
    (hr : p.2.reply = some ch)
    (hx : (∃ pc, w.hand x = .busy (some ch) pc) ∨ ∃ q ∈ (w.mb x).queue, q.2.reply = some ch) :
    x = b ∧ p ∈ (w.mb b).pushed := by
  have : ∃ q ∈ (w.mb x).pushed, q.2.reply = some ch := by
    rcases hx with ⟨pc, hx⟩ | ⟨q, hq, hq'⟩
    · obtain ⟨q, hq, hq'⟩ := h.hold x ch pc hx
      exact ⟨q, received_pushed (h.mb x) hq, hq'⟩
    · exact ⟨q, queue_pushed (h.mb x) hq, hq'⟩
  obtain ⟨q, hq, hq'⟩ := this
  obtain ⟨e1, e2⟩ := h.uniq x b q p ch (pushed_sent (h.mb x) hq) hp hq' hr
  subst e1; subst e2
  exact ⟨rfl, hq⟩

theorem granted_nil {m : Mb Sig} {mop : Mailbox.Op Sig} (hg : m.granted = [])
    (hr : (m.step mop).received = m.received) : (m.step mop).granted = [] := by
  cases mop with
  | send x => exact (put_granted true m x).trans hg
  | trySend x => exact (put_granted false m x).trans hg
  | poll t => simp [Mb.step, Mb.poll, hg]
  | cancel t => simp only [Mb.step, Mb.cancel, hg]; split <;> simp [hg]
  | recv =>
    simp only [Mb.step, Mb.recv] at hr ⊢
    split at hr
    · exact hg
    · rename_i e; simp at hr
  | close => rfl

theorem blocked_step {w : World} (h : Inv w) {D : Nat → Prop} {op : Op} (hD : ∀ a, D a → Blocked w D a)
    (hk : ∀ a, D a → op ≠ .kill a) (a : Nat) (ha : D a) :
    (w.step op).hand a = w.hand a ∧ Blocked (w.step op) D a := by
  have hand : ∀ a, D a → (w.step op).hand a = w.hand a := by
    intro a ha
    obtain ⟨r, c, k, _, hb⟩ := hD a ha
    rcases hand_step w op a with h1 | ⟨p, h1⟩ | h1 | h1 | h1 | h1
    · exact h1
    all_goals subst h1
    · rcases hb with ⟨ch, hh, _⟩ | ⟨t, ch, hh, _⟩ <;> simp [World.step, World.recv, hh]
    · rcases hb with ⟨ch, hh, h2, h3⟩ | ⟨t, ch, hh, h2, h3, h4⟩
      · simp [World.step, World.poll, hh, h3]
      · simp [World.step, World.poll, hh, h3, h4]
    · rcases hb with ⟨ch, hh, h2, h3⟩ | ⟨t, ch, hh, h2, h3, h4⟩
      · simp [World.step, World.expire, hh, h2]
      · simp [World.step, World.expire, hh, h2]
    · rcases hb with ⟨ch, hh, _⟩ | ⟨t, ch, hh, _⟩ <;> simp [World.step, World.fail, hh]
    · exact (hk a ha rfl).elim
  refine ⟨hand a ha, ?_⟩
  obtain ⟨r, c, k, hc, hb⟩ := hD a ha
  have notidle : ∀ b, D b → (∀ p, ¬ (op = .recv b p ∧ w.hand b = .idle)) ∧ ∀ r p, w.hand b ≠ .busy r (.go p) := by
    intro b hb
    obtain ⟨r, c, k, _, hb⟩ := hD b hb
    rcases hb with ⟨ch, hh, _⟩ | ⟨t, ch, hh, _⟩ <;> simp [hh]
  refine ⟨r, c, k, hc, ?_⟩
  rcases hb with ⟨ch, hh, h2, h3⟩ | ⟨t, ch, hh, h2, h3, h4⟩
  · left
    refine ⟨ch, by rw [hand a ha]; exact hh, h2, Classical.byContradiction fun hno => ?_⟩
    obtain ⟨p, hp, hr⟩ := h.await a r c ch k hh
    obtain ⟨x, hx, hop⟩ := chan_close h3 hno
    obtain ⟨rfl, _⟩ := closer_is_target h (pushed_sent (h.mb _) hp) hr hx
    rcases hop with e | ⟨p', e, e'⟩ | ⟨r', p', e, _⟩ | e
    · exact hk _ hc e
    · exact (notidle _ hc).1 p' ⟨e, e'⟩
    · exact (notidle _ hc).2 r' p' e
    · have := h.issued _ p ch (pushed_sent (h.mb _) hp) hr; omega
  · right
    have hcl : ((w.step op).mb c.tgt).closed = false := by
      cases e : ((w.step op).mb c.tgt).closed with
      | false => rfl
      | true =>
        have h5 := ((inv_step h op).ended c.tgt).mpr e
        rw [hand c.tgt hc, (h.ended c.tgt)] at h5
        rw [h3] at h5; simp at h5
    refine ⟨t, ch, by rw [hand a ha]; exact hh, h2, hcl, ?_⟩
    rcases step_one w c.tgt op with e | ⟨mop, e⟩ | e
    · rw [e]; exact h4
    · rcases received_own w c.tgt op with e' | ⟨⟨p, e'⟩, e'', _⟩
      · rw [e] at e' ⊢; exact granted_nil h4 e'
      · exact ((notidle _ hc).1 p ⟨e', e''⟩).elim
    · rw [hcl] at e; simp at e

theorem circle_blocked (a : Nat) (ha : a < 2) : Blocked ((World.fresh two).run circle) (· < 2) a := by
  rcases show a = 0 ∨ a = 1 by omega with rfl | rfl
  · exact ⟨none, { tgt := 1 }, _, by decide, Or.inl ⟨1, rfl, rfl, rfl⟩⟩
  · exact ⟨some 1, { tgt := 0 }, _, by decide, Or.inl ⟨2, rfl, rfl, rfl⟩⟩

/-- **C75**: handlers that wait for one another without time-outs do so until one of the actors is killed: no message, no
other actor, no `stop_gracefully`, no time-out of another request helps. -/
theorem circle_stays (caps : Nat → Option Nat) (pre ops : List Op) (D : Nat → Prop)
    (hD : ∀ a, D a → Blocked ((World.fresh caps).run pre) D a) (hk : ∀ a, D a → Op.kill a ∉ ops) (a : Nat) (ha : D a) :
    (((World.fresh caps).run pre).run ops).hand a = ((World.fresh caps).run pre).hand a := by
  have hI := inv_run (inv_fresh caps) pre
  revert hI hD
  generalize (World.fresh caps).run pre = w
  intro hD hI
  induction ops generalizing w with
  | nil => rfl
  | cons o os ih =>
    have hk1 : ∀ a, D a → o ≠ .kill a := fun a ha e => hk a ha (by simp [e])
    have h1 := fun a ha => blocked_step hI hD hk1 a ha
    exact (ih (fun a ha e => hk a ha (by simp [e])) (w.step o) (fun a ha => (h1 a ha).2) (inv_step hI o)).trans (h1 a ha).1

/-- Two actors that ask each other, and what does not help them. -/
example : (∀ a, a < 2 → Blocked ((World.fresh two).run circle) (· < 2) a) ∧
    ∀ a, a < 2 → Op.kill a ∉ [.poll 0, .stop 1, .out 0 true 6, .expire 0, .poll 1, .kill 5] :=
  ⟨circle_blocked, by simp; omega⟩

/-- **C75**: whoever waits for an actor that is gone goes on at its next poll; so to kill an actor of a circle frees the
one that waits for it. -/
theorem ended_frees (caps : Nat → Option Nat) (pre : List Op) (a : Nat) (r : Option Nat) (pc : Pc) (c : Call)
    (hh : ((World.fresh caps).run pre).hand a = .busy r pc) (hc : pc.call? = some c)
    (he : ((World.fresh caps).run pre).hand c.tgt = .ended) :
    ∃ p, ((World.fresh caps).run (pre ++ [.poll a])).hand a = .busy r (.go p) := by
  have hI := inv_run (inv_fresh caps) pre
  have e : (World.fresh caps).run (pre ++ [.poll a]) = ((World.fresh caps).run pre).step (.poll a) := by simp [World.run]
  rw [e]
  have hcl := (hI.ended c.tgt).mp he
  cases pc with
  | go p => simp [Pc.call?] at hc
  | sending c' t ch k =>
    simp only [Pc.call?, Option.some.injEq] at hc; subst hc
    exact ⟨_, by simp only [World.step, World.poll, hh, hcl, if_true, setHand_hand]; rfl⟩
  | awaiting c' ch k =>
    simp only [Pc.call?, Option.some.injEq] at hc; subst hc
    obtain ⟨p, hp, hr⟩ := hI.await a r c' ch k hh
    have hmade := hI.made _ p ch (pushed_sent (hI.mb _) hp) hr
    have hopn : ((World.fresh caps).run pre).chan ch ≠ .opn := by
      rcases hI.place _ p ch hp hr with h | h | ⟨pc, h⟩
      · exact h
      · rw [(hI.mb _).closedEmpty hcl |>.1] at h; simp at h
      · rw [he] at h; simp at h
    cases hx : ((World.fresh caps).run pre).chan ch with
    | none => exact (hmade hx).elim
    | opn => exact (hopn hx).elim
    | value v => exact ⟨_, by simp only [World.step, World.poll, hh, hx, if_true, setHand_hand]; rfl⟩
    | dropped => exact ⟨_, by simp only [World.step, World.poll, hh, hx, if_true, setHand_hand]; rfl⟩

/-- Actor 1 is killed, actor 0 gets `ActorStopped`, and so its handler returns 0. -/
example : ((World.fresh two).run (circle ++ [.kill 1])).hand 1 = .ended ∧
    ((World.fresh two).run (circle ++ [.kill 1, .poll 0])).hand 0 = .busy none (.go (.ret 0)) := ⟨rfl, rfl⟩

/-! ### An actor that asks itself -/

/-- The actor waits for a request to itself. -/
def SelfWait (w : World) (a : Nat) (r : Option Nat) (c : Call) (k : Ans → Prog) : Prop :=
  ∃ ch, w.chan ch = .opn ∧ ((∃ t, w.hand a = .busy r (.sending c t ch k)) ∨ w.hand a = .busy r (.awaiting c ch k))

theorem self_step {w : World} (h : Inv w) {a : Nat} {r : Option Nat} {c : Call} {k : Ans → Prog} (ht : c.tgt = a)
    (hq : c.ask = true) (hs : SelfWait w a r c k) (op : Op) :
    SelfWait (w.step op) a r c k ∨ op = .kill a ∨
    (op = .expire a ∧ (c.mt = true ∨ c.rt = true) ∧ (w.step op).hand a = .busy r (.go (k .timeout))) := by
  obtain ⟨ch, ho, hh⟩ := hs
  have hopen : (w.mb a).closed = false := by
    cases e : (w.mb a).closed with
    | false => rfl
    | true => have := (h.ended a).mpr e; rcases hh with ⟨t, hh⟩ | hh <;> rw [hh] at this <;> simp at this
  have hsent : ∃ p ∈ (w.mb a).sent, p.2.reply = some ch := by
    rcases hh with ⟨t, hh⟩ | hh
    · obtain ⟨sg, h1, _, h3⟩ := h.send a r c t ch k hh (by rw [ht]; exact hopen)
      rw [ht] at h1
      exact ⟨_, pend_sent (h.mb a) h1, by rw [h3]; simp [hq]⟩
    · obtain ⟨p, hp, hr⟩ := h.await a r c ch k hh
      rw [ht] at hp
      exact ⟨p, pushed_sent (h.mb a) hp, hr⟩
  by_cases hkill : op = .kill a
  · exact Or.inr (Or.inl hkill)
  have ho' : (w.step op).chan ch = .opn := by
    refine Classical.byContradiction fun hno => ?_
    obtain ⟨p, hp, hr⟩ := hsent
    obtain ⟨x, hx, hop⟩ := chan_close ho hno
    obtain ⟨rfl, _⟩ := closer_is_target h hp hr hx
    rcases hop with e | ⟨p', e, e'⟩ | ⟨r', p', e, _⟩ | e
    · exact hkill e
    · rcases hh with ⟨t, hh⟩ | hh <;> rw [hh] at e' <;> simp at e'
    · rcases hh with ⟨t, hh⟩ | hh <;> rw [hh] at e <;> simp at e
    · have := h.issued _ p ch hp hr; omega
  rcases hand_step w op a with h1 | ⟨p, h1⟩ | h1 | h1 | h1 | h1
  · left; exact ⟨ch, ho', by rw [h1]; exact hh⟩
  · subst h1; left; refine ⟨ch, ho', ?_⟩
    rcases hh with ⟨t, hh⟩ | hh <;> simp [World.step, World.recv, hh]
  · subst h1; left; refine ⟨ch, ho', ?_⟩
    rcases hh with ⟨t, hh⟩ | hh
    · simp only [World.step, World.poll, hh, ht, hopen]
      by_cases hg : t ∈ (w.mb a).granted.map (·.1)
      · right; simp [hg, hq]
      · left; exact ⟨t, by simp [hg, hh]⟩
    · right; simp [World.step, World.poll, hh, ho]
  · subst h1
    rcases hh with ⟨t, hh⟩ | hh
    · by_cases hc : c.mt = true ∧ (w.mb c.tgt).closed = false ∧ t ∉ (w.mb c.tgt).granted.map (·.1)
      · right; right; refine ⟨rfl, Or.inl hc.1, ?_⟩
        simp only [World.step, World.expire, hh]; rw [if_pos hc]; simp
      · left; refine ⟨ch, ho', Or.inl ⟨t, ?_⟩⟩
        simp only [World.step, World.expire, hh]; rw [if_neg hc]; exact hh
    · by_cases hc : c.rt = true ∧ w.chan ch = .opn
      · right; right; refine ⟨rfl, Or.inr hc.1, ?_⟩
        simp only [World.step, World.expire, hh]; rw [if_pos hc]; simp
      · left; refine ⟨ch, ho', Or.inr ?_⟩
        simp only [World.step, World.expire, hh]; rw [if_neg hc]; exact hh
  · subst h1; left; refine ⟨ch, ho', ?_⟩
    rcases hh with ⟨t, hh⟩ | hh <;> simp [World.step, World.fail, hh]
  · exact (hkill h1).elim

theorem self_call {w : World} {a : Nat} {r : Option Nat} {c : Call} {k : Ans → Prog} (h : Inv w)
    (hh : w.hand a = .busy r (.go (.call c k))) (ht : c.tgt = a) (hq : c.ask = true)
    (hw : c.wait = true ∨ (w.mb a).hasRoom = true) : SelfWait (w.step (.poll a)) a r c k := by
  have hopen : (w.mb a).closed = false := by
    cases e : (w.mb a).closed with
    | false => rfl
    | true => have := (h.ended a).mpr e; rw [hh] at this; simp at this
  refine ⟨w.calls, by simp [World.step, World.poll, hh, World.call, hq], ?_⟩
  simp only [World.step, World.poll, hh, World.call, setHand_hand, if_true, ht, hopen, hq]
  cases hr : (w.mb a).hasRoom with
  | true => right; simp
  | false => left; rcases hw with hw | hw
             · simp [hw]
             · rw [hr] at hw; simp at hw

theorem self_run {w : World} (h : Inv w) {a : Nat} {r : Option Nat} {c : Call} {k : Ans → Prog} (ht : c.tgt = a)
    (hq : c.ask = true) (hs : SelfWait w a r c k) (ops : List Op) (hkill : Op.kill a ∉ ops) :
    SelfWait (w.run ops) a r c k ∨ ∃ pre post, ops = pre ++ .expire a :: post ∧ SelfWait (w.run pre) a r c k ∧
      (c.mt = true ∨ c.rt = true) ∧ (w.run (pre ++ [.expire a])).hand a = .busy r (.go (k .timeout)) := by
  induction ops generalizing w with
  | nil => exact Or.inl hs
  | cons o os ih =>
    rcases self_step h ht hq hs o with h1 | h1 | ⟨h1, h2, h3⟩
    · rcases ih (inv_step h o) h1 (fun e => hkill (by simp [e])) with h2 | ⟨pre, post, e, e1, e2, e3⟩
      · exact Or.inl h2
      · exact Or.inr ⟨o :: pre, post, by simp [e], e1, e2, e3⟩
    · exact (hkill (by simp [h1])).elim
    · exact Or.inr ⟨[], os, by simp [h1], hs, h2, by subst h1; exact h3⟩

/-- **C75**: an actor that asks itself and waits without time-outs never goes on, unless it is killed. -/
theorem self_ask_hangs (caps : Nat → Option Nat) (pre ops : List Op) (a : Nat) (r : Option Nat) (c : Call)
    (k : Ans → Prog) (hh : ((World.fresh caps).run pre).hand a = .busy r (.go (.call c k))) (ht : c.tgt = a)
    (hq : c.ask = true) (hw : c.wait = true ∨ (((World.fresh caps).run pre).mb a).hasRoom = true)
    (hmt : c.mt = false) (hrt : c.rt = false) (hkill : Op.kill a ∉ ops) :
    ∃ pc, ((World.fresh caps).run (pre ++ .poll a :: ops)).hand a = .busy r pc ∧ pc.call? = some c := by
  have hI := inv_run (inv_fresh caps) pre
  have h1 := self_call hI hh ht hq hw
  have he : (World.fresh caps).run (pre ++ .poll a :: ops) =
      (((World.fresh caps).run pre).step (.poll a)).run ops := by simp [World.run]
  rw [he]
  rcases self_run (inv_step hI _) ht hq h1 ops hkill with ⟨ch, _, ⟨t, h2⟩ | h2⟩ | ⟨_, _, _, _, h3, _⟩
  · exact ⟨_, h2, rfl⟩
  · exact ⟨_, h2, rfl⟩
  · rw [hmt, hrt] at h3; simp at h3

/-- Actor 0 is about to ask itself. -/
example : ((World.fresh two).run [.out 0 false 5, .recv 0 asks0]).hand 0 =
    .busy none (.go (.call { tgt := 0 } fun _ => .ret 0)) := rfl

/-- **C75**: an actor that asks itself never gets a reply: if it goes on at all, then by a time-out. -/
theorem self_ask_only_times_out (caps : Nat → Option Nat) (pre ops : List Op) (a : Nat) (r : Option Nat) (c : Call)
    (k : Ans → Prog) (hh : ((World.fresh caps).run pre).hand a = .busy r (.go (.call c k))) (ht : c.tgt = a)
    (hq : c.ask = true) (hw : c.wait = true ∨ (((World.fresh caps).run pre).mb a).hasRoom = true)
    (hkill : Op.kill a ∉ ops) :
    (∃ pc, ((World.fresh caps).run (pre ++ .poll a :: ops)).hand a = .busy r pc ∧ pc.call? = some c) ∨
    ∃ l post, ops = l ++ .expire a :: post ∧
      (∃ pc, ((World.fresh caps).run (pre ++ .poll a :: l)).hand a = .busy r pc ∧ pc.call? = some c) ∧
      ((World.fresh caps).run (pre ++ .poll a :: (l ++ [.expire a]))).hand a = .busy r (.go (k .timeout)) := by
  have hI := inv_run (inv_fresh caps) pre
  have h1 := self_call hI hh ht hq hw
  have he : ∀ l, (World.fresh caps).run (pre ++ .poll a :: l) =
      (((World.fresh caps).run pre).step (.poll a)).run l := by intro l; simp [World.run]
  simp only [he]
  rcases self_run (inv_step hI _) ht hq h1 ops hkill with ⟨ch, _, ⟨t, h2⟩ | h2⟩ | ⟨l, post, e, ⟨ch, _, h2⟩, _, h4⟩
  · exact Or.inl ⟨_, h2, rfl⟩
  · exact Or.inl ⟨_, h2, rfl⟩
  · refine Or.inr ⟨l, post, e, ?_, h4⟩
    rcases h2 with ⟨t, h2⟩ | h2
    · exact ⟨_, h2, rfl⟩
    · exact ⟨_, h2, rfl⟩

/-- Actor 0 asks itself with a time-out, and goes on when that has passed. -/
example : ((World.fresh two).run [.out 0 false 5, .recv 0 (.call { tgt := 0, rt := true } fun _ => .ret 0), .poll 0,
    .expire 0]).hand 0 = .busy none (.go (.ret 0)) := rfl

end Verif.Calls
