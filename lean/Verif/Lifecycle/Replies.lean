import Verif.Lifecycle.Facts

/-! What can happen to the outcome of an ask, and where a reply comes from. -/

set_option linter.unusedSimpArgs false

namespace Verif.Lifecycle

open Verif.Mailbox

/-- The mailbox failure which a send failure reported to an asker corresponds to. -/
def whyOf : Fail → Option Mailbox.Why
  | .notRunning => some .closed
  | .full => some .full
  | .mailboxTimeout => some .timeout
  | .actorStopped => none

/-- A failure reported to asker `t` is the failure of its send, or a dropped reply sender. -/
def FailOk (s : St) (t : Nat) (f : Fail) : Prop :=
  f = .actorStopped ∨ ∃ b w, whyOf f = some w ∧ (t, Sig.msg b, w) ∈ s.mb.failed

/-- Reply `r` for asker `t` was returned by the handler run for `t`'s message, or sent through
the reply sender taken from that run. -/
def ReplyOk (s : St) (t : Nat) (r : Res) : Prop :=
  (∃ m, m.1 = t ∧ .hEnd m false (.ret r) ∈ s.log) ∨ .replySent t r ∈ s.log

/-- The one change an ask's outcome can undergo: from waiting to an outcome. -/
inductive SlotStep (s s' : St) (t : Nat) : Prop where
  | same (h : s'.slots t = s.slots t)
  | gaveUp (h : s.slots t = .waiting) (h' : s'.slots t = .gaveUp)
  | failed (h : s.slots t = .waiting) (f : Fail) (h' : s'.slots t = .failed f) (ok : FailOk s' t f)
  | got (h : s.slots t = .waiting) (r : Res) (h' : s'.slots t = .got r) (ok : ReplyOk s' t r)

theorem slotStep_drop {s s' : St} {t : Nat} {P : Prop}
    (h : (P ∧ s.slots t = .waiting ∧ s'.slots t = .failed .actorStopped) ∨ s'.slots t = s.slots t) :
    SlotStep s s' t := by
  rcases h with h | h
  · exact .failed h.2.1 _ h.2.2 (Or.inl rfl)
  · exact .same h

theorem mem_failed_close {m : Mb Sig} {t : Nat} (h : t ∈ K (m.granted ++ m.waiting)) :
    ∃ a, (t, a, Mailbox.Why.closed) ∈ m.close.failed := by
  obtain ⟨a, ha⟩ := mem_K.mp h
  refine ⟨a, ?_⟩
  simp only [Mb.close, List.mem_append, List.mem_map]
  right
  exact ⟨(t, a), by simpa using ha, rfl⟩

/-- A waiting ask's send in the mailbox carries a message. -/
theorem waiting_sig {s : St} (hs : Shape s) (h : Slots s) {t : Nat} {a : Sig}
    (hw : s.slots t ≠ .none) (hm : (t, a) ∈ s.mb.sent) : ∃ b, a = .msg b := by
  obtain ⟨b, hb, _⟩ := (h.a t).mp hw
  have := key_inj hs.mb.sent_nodup hm hb rfl
  simp at this
  exact ⟨b, this⟩

theorem pending_sent {m : Mb Sig} (h : Inv m) {t : Nat} {a : Sig}
    (hm : (t, a) ∈ m.granted ++ m.waiting) : (t, a) ∈ m.sent := by
  apply h.mem_sent
  simp only [List.mem_append] at hm ⊢
  grind

theorem closeMb_slots_eq (s : St) (t : Nat) : s.closeMb.slots t =
    if s.slots t = .waiting ∧ t ∈ K s.mb.queue then .failed .actorStopped
    else if s.slots t = .waiting ∧ t ∈ K (s.mb.granted ++ s.mb.waiting) then .failed .notRunning
    else s.slots t := by
  have h : s.closeMb.slots t = ((s.dropReplies (K s.mb.queue)).failSends
    (K (s.mb.granted ++ s.mb.waiting)) .notRunning).slots t := rfl
  rw [h, failSends_slots, dropReplies_slots]
  grind

theorem closeMb_step {s s' : St} (hs : Shape s) (h : Slots s) {t : Nat}
    (hsl : s'.slots t = s.closeMb.slots t) (hmb : s'.mb = s.mb.close) : SlotStep s s' t := by
  rw [closeMb_slots_eq] at hsl
  split at hsl
  · next hc => exact .failed hc.1 .actorStopped hsl (Or.inl rfl)
  · split at hsl
    · next hc =>
      refine .failed hc.1 .notRunning hsl (Or.inr ?_)
      obtain ⟨a, ha⟩ := mem_K.mp hc.2
      obtain ⟨b, rfl⟩ := waiting_sig hs h (t := t) (by simp [hc.1]) (pending_sent hs.mb ha)
      refine ⟨b, .closed, rfl, ?_⟩
      rw [hmb]
      simp only [Mb.close, List.mem_append, List.mem_map]
      exact Or.inr ⟨_, List.mem_append.mp ha, rfl⟩
    · exact .same hsl

theorem die_step {s s0 s' : St} (hs : Shape s) (h : Slots s) {t : Nat} (hs' : s' = s0.die)
    (hmb : s0.mb = s.mb)
    (h0 : s0.slots t = s.slots t ∨ (s.slots t = .waiting ∧ s0.slots t = .failed .actorStopped)) :
    SlotStep s s' t := by
  subst hs'
  have hcl : (s0.lose s0.buffer).slots t = s.slots t ∨
      (s.slots t = .waiting ∧ (s0.lose s0.buffer).slots t = .failed .actorStopped) := by
    simp only [lose_slots, dropReplies_slots]
    grind
  have hd : s0.die.slots t = (s0.lose s0.buffer).closeMb.slots t := rfl
  rcases hcl with hcl | ⟨hw, hcl⟩
  · refine closeMb_step hs h ?_ (by simp [hmb])
    rw [hd, closeMb_slots_eq, closeMb_slots_eq, lose_mb, hmb, hcl]
  · refine .failed hw .actorStopped ?_ (Or.inl rfl)
    rw [hd, closeMb_slots_eq, hcl]
    simp

theorem cancel_failed {m : Mb Sig} (h : Inv m) {t : Nat} {a : Sig}
    (hm : (t, a) ∈ m.waiting ++ m.granted) : (t, a, Mailbox.Why.timeout) ∈ (m.cancel t).failed := by
  unfold Mb.cancel
  have hsent : (t, a) ∈ m.sent := pending_sent h (by simp at hm ⊢; grind)
  split
  · next p hf =>
    obtain ⟨hk, hm'⟩ := find_key hf
    have : p ∈ m.sent := pending_sent h (by simp [hm'])
    have := key_inj h.sent_nodup this hsent hk
    subst this
    simp
  · next hw =>
    split
    · next p hf =>
      obtain ⟨hk, hm'⟩ := find_key hf
      have : p ∈ m.sent := pending_sent h (by simp [hm'])
      have := key_inj h.sent_nodup this hsent hk
      subst this
      simp
    · next hg =>
      simp at hm
      rcases hm with hm | hm
      · have := List.find?_eq_none.mp hw _ hm; simp at this
      · have := List.find?_eq_none.mp hg _ hm; simp at this

theorem slot_change {s s' : St} (hs : Shape s) (h : Slots s) (ht : Tr s s') :
    ∀ t, t < s.mb.next → SlotStep s s' t := by
  intro t hlt
  cases ht with
  | send b =>
    refine .same ?_
    simp only [St.step]
    split
    · simp [setSlot]; omega
    · rfl
  | trySend b =>
    refine .same ?_
    simp only [St.step]
    split
    · simp [setSlot]; omega
    · rfl
  | cancel x =>
    by_cases hw : s.slots t = .waiting ∧ t = x ∧ x ∈ (s.mb.waiting ++ s.mb.granted).map (·.1)
    · obtain ⟨hw, rfl, hx⟩ := hw
      refine .failed hw .mailboxTimeout ?_ ?_
      · simp only [St.step, failSends_slots, hx, if_true, hw]; simp
      · right
        have hx : t ∈ K (s.mb.waiting ++ s.mb.granted) := hx
        obtain ⟨a, ha⟩ := mem_K.mp hx
        have ha' : (t, a) ∈ s.mb.granted ++ s.mb.waiting := by simp at ha ⊢; grind
        obtain ⟨b, rfl⟩ := waiting_sig hs h (t := t) (by simp [hw]) (pending_sent hs.mb ha')
        exact ⟨b, .timeout, rfl, cancel_failed hs.mb ha⟩
    · refine .same ?_
      simp only [St.step, failSends_slots]
      grind
  | giveUp x hx =>
    by_cases hc : t = x
    · subst hc; exact .gaveUp hx (by simp [setSlot])
    · exact .same (by simp [setSlot, hc])
  | delegSend x r _ =>
    by_cases hc : t = x ∧ s.slots t = .waiting
    · obtain ⟨rfl, hw⟩ := hc
      exact .got hw r (by simp [reply_slots, hw]) (Or.inr (by simp))
    · exact .same (by simp only [ev_slots, reply_slots]; grind)
  | delegDrop x _ => apply slotStep_drop (P := True); simp only [dropReplies_slots]; grind
  | teardown _ _ =>
    refine die_step hs h (s0 := s.cancelRunning) rfl (by simp) ?_
    simp only [cancelRunning_slots]; grind
  | startOk hp => exact .same (by rw [(startOk_fields s).2.2.2.2.1])
  | abort hp ha =>
    apply slotStep_drop (P := True)
    simp only [St.abortSeen, leave_slots, dropReplies_slots, cancelRunning_slots]; grind
  | recvNone hp _ _ hn =>
    have := hs.own
    rw [hp] at this
    simp [St.noSenders, this] at hn
  | recvStartup hp hpo x q hq => exact .same (by rw [drain_slots (by simp)]; rfl)
  | recvStop hp hpo x q hq => exact .same (by rw [drain_slots (by simp)]; rfl)
  | handlerReply m rest ts res hp hpo ha =>
    have hts : ts = true → s.buffer = [] := fun h => hs.buf_nil (Or.inl (hs.ts (by simp [hp, h])))
    by_cases hc : t = m.1 ∧ s.slots t = .waiting
    · obtain ⟨rfl, hw⟩ := hc
      refine .got hw res ?_ (Or.inl ⟨m, rfl, by simp⟩)
      rw [drain_slots (by simpa using hts)]; simp [reply_slots, hw]
    · refine .same ?_
      rw [drain_slots (by simpa using hts)]; simp only [ev_slots, reply_slots]; grind
  | handlerOk m taken rest ts v hp hpo ha =>
    have hts : ts = true → s.buffer = [] := fun h => hs.buf_nil (Or.inl (hs.ts (by simp [hp, h])))
    exact .same (by rw [drain_slots (by simpa using hts)]; rfl)
  | handlerErr m taken rest ts e hp hpo ha =>
    apply slotStep_drop (P := True); simp [dropReplies_slots]; grind
  | handlerPanic m taken rest ts e hp hpo =>
    apply slotStep_drop (P := True); simp [dropReplies_slots]; grind
  | linkStop id r r' hp hpo hr =>
    apply slotStep_drop (P := True); simp [dropReplies_slots]; grind
  | panicStop e o r hp hpo ho =>
    apply slotStep_drop (P := True); simp [dropReplies_slots]; grind
  | panicDie e e' hp hpo => exact die_step hs h rfl rfl (Or.inl rfl)
  | startPanicStop e o r hp ho =>
    apply slotStep_drop (P := True); simp [dropReplies_slots, St.stopFailed]; grind
  | startPanicDie e e' hp => exact die_step hs h rfl rfl (Or.inl rfl)
  | stopFinish r pend o res hp ho => exact closeMb_step hs h rfl rfl
  | stopDie r pend st e hp => exact die_step hs h rfl rfl (Or.inl rfl)
  | finish r res hp => exact closeMb_step hs h rfl rfl
  | _ => exact .same rfl

/-- New slots: only the ticket of a send operation that starts now. -/
theorem slot_new {s s' : St} (hs : Shape s) (h : Slots s) (ht : Tr s s') :
    ∀ t, s.mb.next ≤ t → s'.slots t = .none ∨ s'.slots t = .waiting ∨
      ∃ f, s'.slots t = .failed f ∧ f ≠ .actorStopped ∧ FailOk s' t f := by
  intro t hge
  have hn := slots_fresh hs h hge
  cases ht with
  | send b =>
    simp only [St.step]
    split
    · by_cases hc : t = s.mb.next
      · subst hc
        simp only [setSlot, if_true]
        split
        · next hcl =>
          refine Or.inr (Or.inr ⟨_, rfl, by simp, Or.inr ⟨b, .closed, rfl, ?_⟩⟩)
          simp [Mb.send, hcl]
        · simp
      · simp [setSlot, hc, hn]
    · exact Or.inl hn
  | trySend b =>
    simp only [St.step]
    split
    · by_cases hc : t = s.mb.next
      · subst hc
        simp only [setSlot, if_true]
        split
        · next hcl =>
          refine Or.inr (Or.inr ⟨_, rfl, by simp, Or.inr ⟨b, .closed, rfl, ?_⟩⟩)
          simp [Mb.trySend, hcl]
        · next hcl =>
          split
          · simp
          · next hr =>
            refine Or.inr (Or.inr ⟨_, rfl, by simp, Or.inr ⟨b, .full, rfl, ?_⟩⟩)
            simp [Mb.trySend, hcl, hr]
      · simp [setSlot, hc, hn]
    · exact Or.inl hn
  | cancel x => left; simp only [St.step, failSends_slots]; grind
  | giveUp x hx => left; simp only [setSlot]; grind
  | delegSend x r _ => left; simp only [ev_slots, reply_slots]; grind
  | delegDrop x _ => left; simp only [dropReplies_slots]; grind
  | teardown _ _ =>
    left
    obtain ⟨f, hf⟩ := die_slots s.cancelRunning t
    rw [St.crash, hf, cancelRunning_slots]; grind
  | startOk hp => left; rw [(startOk_fields s).2.2.2.2.1]; exact hn
  | abort hp ha =>
    left; simp only [St.abortSeen, leave_slots, dropReplies_slots, cancelRunning_slots]; grind
  | recvNone hp _ _ hno =>
    have := hs.own
    rw [hp] at this
    simp [St.noSenders, this] at hno
  | recvStartup hp hpo x q hq => left; rw [drain_slots (by simp)]; exact hn
  | recvStop hp hpo x q hq => left; rw [drain_slots (by simp)]; exact hn
  | handlerReply m rest ts res hp hpo ha =>
    have hts : ts = true → s.buffer = [] := fun h => hs.buf_nil (Or.inl (hs.ts (by simp [hp, h])))
    left; rw [drain_slots (by simpa using hts)]; simp only [ev_slots, reply_slots]; grind
  | handlerOk m taken rest ts v hp hpo ha =>
    have hts : ts = true → s.buffer = [] := fun h => hs.buf_nil (Or.inl (hs.ts (by simp [hp, h])))
    left; rw [drain_slots (by simpa using hts)]; exact hn
  | handlerErr m taken rest ts e hp hpo ha => left; simp [dropReplies_slots]; grind
  | handlerPanic m taken rest ts e hp hpo => left; simp [dropReplies_slots]; grind
  | linkStop id r r' hp hpo hr => left; simp [dropReplies_slots]; grind
  | panicStop e o r hp hpo ho => left; simp [dropReplies_slots]; grind
  | panicDie e e' hp hpo =>
    left
    obtain ⟨f, hf⟩ := die_slots (s.ev (.pEnd e (.panic e'))) t
    rw [hf]; simp; grind
  | startPanicStop e o r hp ho => left; simp [dropReplies_slots, St.stopFailed]; grind
  | startPanicDie e e' hp =>
    left
    obtain ⟨f, hf⟩ := die_slots (s.ev (.pEnd e (.panic e'))) t
    rw [hf]; simp; grind
  | stopFinish r pend o res hp ho =>
    left
    obtain ⟨f, hf⟩ := closeMb_slots (s.ev (.sEnd r o)) t
    rw [finishAll_slots, hf]; simp; grind
  | stopDie r pend st e hp =>
    left
    obtain ⟨f, hf⟩ := die_slots (s.ev (.sEnd r (.panic e))) t
    rw [hf]; simp; grind
  | finish r res hp =>
    left
    obtain ⟨f, hf⟩ := closeMb_slots s t
    rw [finishAll_slots, hf]; grind
  | _ => exact Or.inl hn

/-- The mailbox failures only grow. -/
theorem failed_tr {s : St} (op : Op) : s.mb.failed <+: (s.step op).mb.failed := by
  obtain ⟨mops, h⟩ := step_mb s op
  rw [h]; exact run_failed _ _

/-- What the log says about finished asks. -/
structure Answers (s : St) : Prop where
  got : ∀ t r, s.slots t = .got r → ReplyOk s t r
  failed : ∀ t f, s.slots t = .failed f → FailOk s t f
  returned : ∀ m r, .hEnd m false (.ret r) ∈ s.log → m.2.ask = true →
    s.slots m.1 = .got r ∨ s.slots m.1 = .gaveUp
  sent : ∀ t r, .replySent t r ∈ s.log → s.slots t = .got r ∨ s.slots t = .gaveUp
  deleg : ∀ t ∈ s.delegated, s.slots t ≠ .none

/-- All invariants of the lifecycle so far. -/
structure Good (s : St) : Prop where
  shape : Shape s
  acct : Acct s s.phase.rest
  ord : Ord s s.phase.rest
  cur : CurH s
  slots : Slots s
  log : LogOk s
  facts : Facts s
  handled : s.handled = hBegins s.log

theorem good_tr {s s' : St} (h : Good s) (ht : Tr s s') : Good s' :=
  ⟨shape_tr h.shape ht, (ordacct_tr h.shape ⟨h.acct, h.ord⟩ ht).1,
    (ordacct_tr h.shape ⟨h.acct, h.ord⟩ ht).2, curH_tr h.cur ht,
    slots_tr h.shape h.acct h.cur h.slots ht, logOk_tr h.shape h.log ht,
    facts_tr h.shape h.facts ht, handled_tr h.handled ht⟩

theorem good_after (cap : Option Nat) (ops : List Op) : Good (after cap ops) :=
  ⟨shape_after cap ops, (ordacct_after cap ops).1, (ordacct_after cap ops).2,
    (slots_after cap ops).1, (slots_after cap ops).2, logOk_after cap ops, facts_after cap ops,
    handled_after cap ops⟩

theorem good_exec {s : St} (h : Good s) (ops : List Op) : Good (s.exec ops) :=
  exec_inv (fun _ _ => good_tr) h ops

/-- Induction with all invariants at hand. -/
theorem exec_good_inv {P : St → Prop} (hstep : ∀ s s', Good s → P s → Tr s s' → P s') {s : St}
    (hg : Good s) (h : P s) (ops : List Op) : P (s.exec ops) :=
  (exec_inv (P := fun s => Good s ∧ P s)
    (fun _ _ h ht => ⟨good_tr h.1 ht, hstep _ _ h.1 h.2 ht⟩) ⟨hg, h⟩ ops).2

/-- New events about replies. -/
theorem new_reply_ev {s s' : St} (hs : Shape s) (hg : Slots s) (ha : Acct s s.phase.rest)
    (hc : CurH s) (hdg : ∀ t ∈ s.delegated, s.slots t ≠ .none) (ht : Tr s s') :
    (∀ m r, .hEnd m false (.ret r) ∈ s'.log → m.2.ask = true → .hEnd m false (.ret r) ∈ s.log ∨
      s'.slots m.1 = .got r ∨ s'.slots m.1 = .gaveUp) ∧
    (∀ t r, .replySent t r ∈ s'.log → .replySent t r ∈ s.log ∨
      s'.slots t = .got r ∨ s'.slots t = .gaveUp) := by
  have hcl : ∀ p : Phase, (∀ m r, .hEnd m false (.ret r) ∉ p.cancelEv) ∧ (∀ t r, .replySent t r ∉ p.cancelEv) := by
    intro p; cases p <;> simp [Phase.cancelEv]
  have hdr : ∀ rest ts, (∀ m r, .hEnd m false (.ret r) ∉ drainEv rest ts) ∧
      (∀ t r, .replySent t r ∉ drainEv rest ts) := by
    intro rest ts
    constructor <;> intros <;> intro hm <;> have := drainEv_mem hm <;> simp at this
  cases ht with
  | delegSend x r hx =>
    refine ⟨by simp; grind, ?_⟩
    intro t r' hm
    simp at hm
    rcases hm with hm | ⟨rfl, rfl⟩
    · exact Or.inl hm
    · right
      simp only [ev_slots, reply_slots]
      have hv := hg.v t (Or.inr (Or.inr (Or.inr (Or.inr hx))))
      have hask := hdg t hx
      grind
  | handlerReply m rest ts res hp hpo hask =>
    have hts : ts = true → s.buffer = [] := fun h => hs.buf_nil (Or.inl (hs.ts (by simp [hp, h])))
    refine ⟨?_, by simp [hdr]; grind⟩
    intro m' r hm ha'
    simp [hdr] at hm
    rcases hm with hm | ⟨rfl, rfl⟩
    · exact Or.inl hm
    · right
      rw [drain_slots (by simpa using hts)]
      simp only [ev_slots, reply_slots]
      have hv := hg.v m'.1 (Or.inr (Or.inr (Or.inr (Or.inl (by simp [hp])))))
      have : s.slots m'.1 ≠ .none := by
        rw [hg.a]
        exact ⟨m'.2, handled_sent hs ha (by simp [hc _ _ _ _ hp]), ha'⟩
      grind
  | handlerOk m taken rest ts v hp hpo ha' =>
    refine ⟨?_, by simp [hdr]; grind⟩
    intro m' r hm hm'
    simp [hdr] at hm
    rcases hm with hm | ⟨rfl, rfl, rfl⟩
    · exact Or.inl hm
    · simp [hm'] at ha'
  | handlerErr m taken rest ts e hp hpo ha' =>
    refine ⟨?_, by simp; grind⟩
    intro m' r hm hm'
    simp at hm
    rcases hm with hm | ⟨rfl, rfl, rfl⟩
    · exact Or.inl hm
    · simp [hm'] at ha'
  | _ =>
    constructor
    · intro m r hm
      try simp [St.step, St.crash, St.abortSeen, St.stopFailed, St.startFail, hcl, hdr] at hm
      intro _; exact Or.inl hm
    · intro t r hm
      try simp [St.step, St.crash, St.abortSeen, St.stopFailed, St.startFail, hcl, hdr] at hm
      exact Or.inl hm

theorem ReplyOk.mono {s s' : St} (ht : Tr s s') {t : Nat} {r : Res} (h : ReplyOk s t r) :
    ReplyOk s' t r := by
  obtain ⟨x, hx⟩ := tr_log ht
  unfold ReplyOk at *
  rw [hx]
  simp only [List.mem_append]
  grind

theorem FailOk.mono {s s' : St} (h : s.mb.failed <+: s'.mb.failed) {t : Nat} {f : Fail}
    (hf : FailOk s t f) : FailOk s' t f := by
  rcases hf with hf | ⟨b, w, h1, h2⟩
  · exact Or.inl hf
  · exact Or.inr ⟨b, w, h1, h.subset h2⟩

/-- Who owns a delegated reply sender. -/
theorem delegated_tr {s s' : St} (ht : Tr s s') (t : Nat) (h : t ∈ s'.delegated) :
    t ∈ s.delegated ∨ ∃ m rest ts, s.phase = .handling m false rest ts ∧ m.2.ask = true ∧ t = m.1 ∧
      s'.slots = s.slots := by
  cases ht with
  | takeReply m rest ts hp hpo ha =>
    simp at h
    rcases h with h | rfl
    · exact Or.inl h
    · exact Or.inr ⟨m, rest, ts, hp, ha, rfl, rfl⟩
  | delegSend x r _ => simp at h; exact Or.inl h.1
  | delegDrop x _ => simp at h; exact Or.inl h.1
  | startOk hp => rw [(startOk_fields s).2.2.2.1] at h; exact Or.inl h
  | _ => left; simpa [St.step, St.crash, St.abortSeen, St.stopFailed, St.startFail] using h

theorem answers_step {s : St} (hg : Good s) (h : Answers s) (op : Op) : Answers (s.step op) := by
  have ht := step_tr s op
  have hf := failed_tr (s := s) op
  generalize s.step op = s' at ht hf
  have hch := slot_change hg.shape hg.slots ht
  have hnew := slot_new hg.shape hg.slots ht
  have hfr := fun t => slots_fresh (t := t) hg.shape hg.slots
  obtain ⟨e1, e2⟩ := new_reply_ev hg.shape hg.slots hg.acct hg.cur h.deleg ht
  -- settled outcomes stay
  have hkeep : ∀ t v, s.slots t = v → v ≠ .waiting → v ≠ .none → s'.slots t = v := by
    intro t v hv hw hn
    rcases Nat.lt_or_ge t s.mb.next with hlt | hge
    · cases hch t hlt with
      | same h => rw [h, hv]
      | gaveUp h _ => exact absurd (hv ▸ h) hw
      | failed h => exact absurd (hv ▸ h) hw
      | got h => exact absurd (hv ▸ h) hw
    · exact absurd (hv ▸ hfr t hge) hn
  refine ⟨?_, ?_, ?_, ?_, ?_⟩
  · intro t r hr
    rcases Nat.lt_or_ge t s.mb.next with hlt | hge
    · cases hch t hlt with
      | same h1 => exact (h.got t r (h1 ▸ hr)).mono ht
      | gaveUp _ h1 => rw [hr] at h1; cases h1
      | failed _ f h1 => rw [hr] at h1; cases h1
      | got _ r' h1 ok => rw [hr] at h1; cases h1; exact ok
    · rcases hnew t hge with h1 | h1 | ⟨f, h1, _⟩ <;> rw [hr] at h1 <;> cases h1
  · intro t f hfl
    rcases Nat.lt_or_ge t s.mb.next with hlt | hge
    · cases hch t hlt with
      | same h1 => exact (h.failed t f (h1 ▸ hfl)).mono hf
      | gaveUp _ h1 => rw [hfl] at h1; cases h1
      | failed _ f h1 ok => rw [hfl] at h1; cases h1; exact ok
      | got _ r' h1 ok => rw [hfl] at h1; cases h1
    · rcases hnew t hge with h1 | h1 | ⟨f, h1, _, ok⟩ <;> rw [hfl] at h1 <;> cases h1
      exact ok
  · intro m r hm ha
    rcases e1 m r hm ha with h1 | h1
    · rcases h.returned m r h1 ha with h2 | h2
      · exact Or.inl (hkeep _ _ h2 (by simp) (by simp))
      · exact Or.inr (hkeep _ _ h2 (by simp) (by simp))
    · exact h1
  · intro t r hm
    rcases e2 t r hm with h1 | h1
    · rcases h.sent t r h1 with h2 | h2
      · exact Or.inl (hkeep _ _ h2 (by simp) (by simp))
      · exact Or.inr (hkeep _ _ h2 (by simp) (by simp))
    · exact h1
  · intro t hd
    rcases delegated_tr ht t hd with hd | ⟨m, rest, ts, hp, ha, rfl, hsl⟩
    · have hn := h.deleg t hd
      rcases Nat.lt_or_ge t s.mb.next with hlt | hge
      · cases hch t hlt with
        | same h1 => rw [h1]; exact hn
        | gaveUp _ h1 => simp [h1]
        | failed _ f h1 => simp [h1]
        | got _ r' h1 ok => simp [h1]
      · exact absurd (hfr t hge) hn
    · rw [hsl, hg.slots.a]
      exact ⟨m.2, handled_sent hg.shape hg.acct (by simp [hg.cur _ _ _ _ hp]), ha⟩

theorem answers_after (cap : Option Nat) (ops : List Op) : Answers (after cap ops) := by
  have gen : ∀ (ops : List Op) (s : St), Good s → Answers s → Answers (s.exec ops) := by
    intro ops
    induction ops with
    | nil => intro s _ h; exact h
    | cons op ops ih => intro s hg h; exact ih _ (good_tr hg (step_tr s op)) (answers_step hg h op)
  refine gen ops _ (good_after cap []) ?_
  constructor <;> simp [after, St.exec, St.fresh]

/-- A settled outcome never changes. -/
theorem slot_settled {s : St} (hg : Good s) {t : Nat} {v : Slot} (hv : s.slots t = v)
    (hw : v ≠ .waiting) (hn : v ≠ .none) (ops : List Op) : (s.exec ops).slots t = v := by
  refine exec_good_inv (P := fun s => s.slots t = v) ?_ hg hv ops
  intro s s' hg hv ht
  have hlt : t < s.mb.next := by
    apply Nat.lt_of_not_le
    intro hge
    exact hn (hv ▸ slots_fresh hg.shape hg.slots hge)
  cases slot_change hg.shape hg.slots ht t hlt with
  | same h => rw [h, hv]
  | gaveUp h _ => exact absurd (hv ▸ h) hw
  | failed h => exact absurd (hv ▸ h) hw
  | got h => exact absurd (hv ▸ h) hw

end Verif.Lifecycle
