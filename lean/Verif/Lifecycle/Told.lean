import Verif.Lifecycle.Turn
import Verif.Mailbox.Props

/-!
What an asker is told, and who hears of the failure of a handler. C83: the errors an ask returns
(`SendError`, `src/error.rs` L88-101) say what happened. C84: no failure of a handler goes unnoticed.
-/

set_option linter.unusedSimpArgs false

namespace Verif.Lifecycle

open Verif.Mailbox

/-! ### Specification -/

/-- The actor is stopped, or on its way: `on_stop` has been called, or `run_actor_lifecycle` has returned
(`src/actor/spawn.rs` L475, L562, L498, L590), or the task is gone. -/
def Over (s : St) : Prop := (∃ r, .sBegin r ∈ s.log) ∨ (∃ r, .returned r ∈ s.log) ∨ s.phase = .crashed

/-- What can be the matter when asker `t` is told `ActorStopped` (`src/error.rs` L92-93): the handler run for its message
panicked; it was cut off; the message was never handled, because the actor is stopped or because the handler of another
message failed; the owner of the reply sender dropped it. -/
inductive Matter (ops : List Op) (s : St) (t : Nat) (b : Body) : Prop where
  | panicked (e : Err) (h : .hEnd (t, b) false (.panic e) ∈ s.log)
  | cutOff (h : .hCancel (t, b) ∈ s.log) (over : Over s)
  | unhandled (h : (t, b) ∉ s.handled) (over : Over s)
  | otherFailed (h : (t, b) ∉ s.handled) (m : Msg) (tk : Bool) (o : HOut) (ne : m.1 ≠ t)
      (ended : .hEnd m tk o ∈ s.log) (fails : failing m tk o = true)
  | dropped (h : (t, b) ∈ s.handled) (drop : .delegDrop t ∈ ops)

/-! ### Lemmas -/

theorem overTr {s s' : St} (ht : Tr s s') (h : Over s) : Over s' := by
  obtain ⟨x, hx⟩ := tr_log ht
  rcases h with ⟨r, h⟩ | ⟨r, h⟩ | h
  · exact Or.inl ⟨r, by rw [hx]; simp [h]⟩
  · exact Or.inr (Or.inl ⟨r, by rw [hx]; simp [h]⟩)
  · right; right
    cases ht <;> first | exact h | simp_all | (simp [St.step]; try exact h)

/-- How the reply sender of `t` got lost in a step, seen from the state. -/
inductive Lost1 (s s' : St) (t : Nat) : Prop where
  | panicked (b : Body) (e : Err) (h : .hEnd (t, b) false (.panic e) ∈ s'.log)
  | cutOff (b : Body) (h : .hCancel (t, b) ∈ s'.log) (over : Over s')
  | lost (h : t ∈ K s'.lost) (why : Over s' ∨ ∃ m tk o, m.1 ≠ t ∧ .hEnd m tk o ∈ s'.log ∧ failing m tk o = true)
  | queue (h : t ∈ K s.mb.queue) (over : Over s') (ended : s'.phase.ended = true) (hh : s'.handled = s.handled)
  | deleg (h : t ∈ s.delegated) (h' : t ∉ s'.delegated)

theorem lost1_close {s s0 s' : St} {t : Nat} (hsl : s'.slots t = s0.closeMb.slots t) (hmb : s0.mb = s.mb)
    (hw : s0.slots t = .waiting) (hover : Over s') (hend : s'.phase.ended = true)
    (hh : s'.handled = s.handled) (h' : s'.slots t = .failed .actorStopped) : Lost1 s s' t := by
  rw [hsl, closeMb_slots_eq] at h'
  split at h'
  · next hc => exact .queue (hmb ▸ hc.2) hover hend hh
  · split at h' <;> simp_all

theorem lost1_die {s s0 : St} {t : Nat} (hmb : s0.mb = s.mb) (hh : s0.handled = s.handled)
    (hw : s0.slots t = .waiting) (h' : s0.die.slots t = .failed .actorStopped) : Lost1 s s0.die t := by
  have hov : Over s0.die := Or.inr (Or.inr rfl)
  by_cases hk : t ∈ K s0.buffer
  · exact .lost (by simp only [die_lost, K_append, List.mem_append]; exact Or.inr hk) (Or.inl hov)
  · refine lost1_close (s0 := s0.lose s0.buffer) rfl hmb ?_ hov rfl hh h'
    simp only [lose_slots, dropReplies_slots]
    rw [if_neg]
    · exact hw
    · exact fun h => hk h.2

theorem dropped_mem {s : St} {ts : List Nat} {t : Nat} (hw : s.slots t = .waiting)
    (h : (s.dropReplies ts).slots t = .failed .actorStopped) : t ∈ ts := by
  rw [dropReplies_slots] at h
  split at h
  · next hc => exact hc.2
  · rw [hw] at h; cases h

theorem lost_cancelRunning (s : St) : s.cancelRunning.lost = s.lost ++ s.phase.rest := by
  cases hp : s.phase <;> simp [St.cancelRunning, hp]

theorem mem_cur {p : Phase} {t : Nat} (h : t ∈ p.cur) : ∃ b rest ts, p = .handling (t, b) false rest ts := by
  cases p <;> simp at h
  next m tk rs ts =>
    obtain ⟨x, b⟩ := m
    obtain ⟨rfl, rfl⟩ := h
    exact ⟨b, rs, ts, rfl⟩

/-- The running handler's message is not among those still to be handled. -/
theorem cur_not_rest {s : St} (hg : Good s) {m : Msg} {tk ts : Bool} {rest : List Msg}
    (hp : s.phase = .handling m tk rest ts) : m.1 ∉ K rest := by
  intro h
  refine (distinct_of hg.shape hg.acct).restHandled m.1 (by rw [hp]; exact h) ?_
  exact mem_K.mpr ⟨m.2, hg.cur _ _ _ _ hp⟩

theorem lost_not_handled {s : St} (hg : Good s) {t : Nat} (h : t ∈ K s.lost) : t ∉ K s.handled := by
  have h1 := hg.shape.mb.part_nodup
  rw [hg.shape.mb.hist] at h1
  have h2 : (K (s.handled ++ s.phase.rest ++ s.buffer ++ s.lost)).Nodup := by
    have hp : (K (msgsOf s.mb.received)).Perm (K (s.handled ++ s.phase.rest ++ s.buffer ++ s.lost)) :=
      hg.acct.map _
    rw [← hp.nodup_iff]
    refine List.Nodup.sublist (msgsOf_keys _) ?_
    simp only [List.map_append, List.nodup_append] at h1
    exact h1.1.1.1.1.1
  simp only [K_append, List.nodup_append] at h2
  intro h3
  exact h2.2.2 t (by simp [h3]) t h rfl

theorem lost1_tr {s s' : St} (hg : Good s) (ht : Tr s s') {t : Nat} (hw : s.slots t = .waiting)
    (h' : s'.slots t = .failed .actorStopped) : Lost1 s s' t := by
  have hs := hg.shape
  have hsame : s'.slots t = s.slots t → Lost1 s s' t := by
    intro h; rw [h, hw] at h'; cases h'
  have hlt : t < s.mb.next := by
    apply Nat.lt_of_not_le
    intro hge
    rw [slots_fresh hs hg.slots hge] at hw
    cases hw
  cases ht with
  | send b =>
    apply hsame
    simp only [St.step]
    split
    · simp [setSlot]; omega
    · rfl
  | trySend b =>
    apply hsame
    simp only [St.step]
    split
    · simp [setSlot]; omega
    · rfl
  | cancel x =>
    simp only [St.step, failSends_slots, hw] at h'
    by_cases hc : t ∈ (if x ∈ (s.mb.waiting ++ s.mb.granted).map (·.1) then [x] else [])
    · rw [if_pos ⟨trivial, hc⟩] at h'; cases h'
    · rw [if_neg (fun h => hc h.2)] at h'; cases h'
  | giveUp x hx =>
    simp only [setSlot] at h'
    split at h' <;> simp_all
  | delegSend x r _ =>
    simp only [ev_slots, reply_slots] at h'
    split at h' <;> simp_all
  | delegDrop x hx =>
    simp only [dropReplies_slots] at h'
    split at h'
    · next hc =>
      simp at hc
      exact .deleg (hc.2 ▸ hx) (by simp [hc.2])
    · simp_all
  | teardown _ _ =>
    by_cases hc : t ∈ s.phase.cur
    · obtain ⟨b, rest, ts, hp⟩ := mem_cur hc
      exact .cutOff b (by simp [St.crash, hp, Phase.cancelEv]) (Or.inr (Or.inr rfl))
    · by_cases hr : t ∈ K s.phase.rest
      · refine .lost ?_ (Or.inl (Or.inr (Or.inr rfl)))
        simp only [St.crash, die_lost, lost_cancelRunning, K_append, List.mem_append]
        simp [hr]
      · refine lost1_die (s0 := s.cancelRunning) (by simp) (by simp) ?_ h'
        rw [cancelRunning_slots, if_neg (by simp [hc, hr])]
        exact hw
  | startOk hp => exact hsame (by rw [(startOk_fields s).2.2.2.2.1])
  | abort hp ha =>
    have hov : Over s.abortSeen := Or.inl ⟨.killed, by simp [St.abortSeen]⟩
    by_cases hc : t ∈ s.phase.cur
    · obtain ⟨b, rest, ts, hph⟩ := mem_cur hc
      exact .cutOff b (by simp [St.abortSeen, hph, Phase.cancelEv]) hov
    · refine .lost ?_ (Or.inl hov)
      simp only [St.abortSeen, leave_slots, dropReplies_slots, cancelRunning_slots, hc, false_or] at h'
      simp only [St.abortSeen, leave_lost, lost_cancelRunning, K_append, List.mem_append]
      by_cases hr : t ∈ K s.phase.rest
      · exact Or.inl (Or.inr hr)
      · right
        simp only [hr, and_false, if_false] at h'
        split at h'
        · next hb => exact hb.2
        · simp_all
  | recvNone hp _ _ hn =>
    have := hs.own
    rw [hp] at this
    simp [St.noSenders, this] at hn
  | recvStartup hp hpo x q hq => exact hsame (by rw [drain_slots (by simp)]; rfl)
  | recvStop hp hpo x q hq => exact hsame (by rw [drain_slots (by simp)]; rfl)
  | handlerReply m rest ts res hp hpo ha =>
    have hts : ts = true → s.buffer = [] := fun h => hs.buf_nil (Or.inl (hs.ts (by simp [hp, h])))
    rw [drain_slots (by simpa using hts)] at h'
    simp only [ev_slots, reply_slots] at h'
    split at h' <;> simp_all
  | handlerOk m taken rest ts v hp hpo ha =>
    have hts : ts = true → s.buffer = [] := fun h => hs.buf_nil (Or.inl (hs.ts (by simp [hp, h])))
    exact hsame (by rw [drain_slots (by simpa using hts)]; rfl)
  | handlerErr m taken rest ts e hp hpo ha =>
    have hm : t ∈ K rest := dropped_mem (s := s) (ts := K rest) hw h'
    refine .lost (by simp [hm]) (Or.inr ⟨m, taken, .ret (.err e), ?_, by simp, by rcases ha with ha | ha <;> simp [failing, ha]⟩)
    rintro rfl
    exact cur_not_rest hg hp hm
  | handlerPanic m taken rest ts e hp hpo =>
    by_cases hc : taken = false ∧ t = m.1
    · obtain ⟨rfl, rfl⟩ := hc
      exact .panicked m.2 e (by simp)
    · have hm : t ∈ K rest := by
        refine dropped_mem (s := s.dropReplies (if taken then [] else [m.1])) (ts := K rest) ?_ h'
        rw [dropReplies_slots, if_neg]
        · exact hw
        · cases taken <;> simp_all
      refine .lost (by simp [hm]) (Or.inr ⟨m, taken, .panic e, ?_, by simp, rfl⟩)
      rintro rfl
      exact cur_not_rest hg hp hm
  | linkStop id r r' hp hpo hr =>
    refine .lost ?_ (Or.inl (Or.inl ⟨r', by simp⟩))
    simp only [leave_lost, K_append, List.mem_append]
    right
    exact dropped_mem (s := s) (ts := K s.buffer) hw h'
  | panicStop e o r hp hpo ho => 
    refine .lost ?_ (Or.inl (Or.inl ⟨r, by simp⟩))
    simp only [leave_lost, K_append, List.mem_append]
    right
    exact dropped_mem (s := s) (ts := K s.buffer) hw h'
  | panicDie e e' hp hpo => exact lost1_die rfl rfl hw h'
  | startPanicStop e o r hp ho => 
    refine .lost ?_ (Or.inl (Or.inl ⟨r, by simp [St.stopFailed]⟩))
    simp only [St.stopFailed, lose_lost, K_append, List.mem_append]
    right
    exact dropped_mem (s := s) (ts := K s.buffer) hw h'
  | startPanicDie e e' hp => exact lost1_die rfl rfl hw h'
  | stopFinish r pend o res hp ho =>
    exact lost1_close (s0 := s.ev (.sEnd r o)) rfl rfl hw (Or.inr (Or.inl ⟨r, by simp⟩)) rfl rfl h'
  | stopDie r pend st e hp => exact lost1_die rfl rfl hw h'
  | finish r res hp => exact lost1_close rfl rfl hw (Or.inr (Or.inl ⟨r, by simp⟩)) rfl rfl h'
  | _ => exact hsame rfl

theorem endedTr {s s' : St} (ht : Tr s s') (h : s.phase.ended = true) : s'.phase.ended = true := by
  cases ht with
  | startOk hp => simp [hp] at h
  | handlerReply m rest ts res hp _ _ => simp [hp] at h
  | handlerOk m taken rest ts v hp _ _ => simp [hp] at h
  | recvNone hp _ _ _ => simp [hp] at h
  | recvStartup hp _ _ _ _ => simp [hp] at h
  | recvStop hp _ _ _ _ => simp [hp] at h
  | abort hp _ => rw [not_ended_of_inLoop hp] at h; cases h
  | _ => first | exact h | rfl | simp_all

/-- The cause, in a form that stays true. -/
inductive Cause (ops : List Op) (s : St) (t : Nat) : Prop where
  | panicked (b : Body) (e : Err) (h : .hEnd (t, b) false (.panic e) ∈ s.log)
  | cutOff (b : Body) (h : .hCancel (t, b) ∈ s.log) (over : Over s)
  | lost (h : t ∈ K s.lost) (why : Over s ∨ ∃ m tk o, m.1 ≠ t ∧ .hEnd m tk o ∈ s.log ∧ failing m tk o = true)
  | queue (h : t ∉ K s.handled) (over : Over s) (ended : s.phase.ended = true)
  | dropped (h : t ∈ K s.handled) (drop : .delegDrop t ∈ ops)

theorem Cause.step {ops : List Op} {s : St} {t : Nat} (hg : Good s) (op : Op) (h : Cause ops s t) :
    Cause (ops ++ [op]) (s.step op) t := by
  have ht := step_tr s op
  generalize s.step op = s' at ht
  obtain ⟨x, hx⟩ := tr_log ht
  have hlog : ∀ e, e ∈ s.log → e ∈ s'.log := fun e he => by rw [hx]; simp [he]
  cases h with
  | panicked b e h => exact .panicked b e (hlog _ h)
  | cutOff b h o => exact .cutOff b (hlog _ h) (overTr ht o)
  | lost h w =>
    refine .lost (((tr_lost ht).map (·.1)).subset h) ?_
    rcases w with w | ⟨m, tk, o, h1, h2, h3⟩
    · exact Or.inl (overTr ht w)
    · exact Or.inr ⟨m, tk, o, h1, hlog _ h2, h3⟩
  | queue h o e =>
    refine .queue ?_ (overTr ht o) (endedTr ht e)
    rcases handled_change hg.shape ht with ⟨h1, _⟩ | ⟨m, _, h2, _⟩
    · rw [h1]; exact h
    · exfalso
      revert e h2
      cases s.phase <;> simp [Phase.inLoop]
  | dropped h d =>
    refine .dropped ?_ (by simp [d])
    rcases handled_change hg.shape ht with ⟨h1, _⟩ | ⟨m, h1, _⟩
    · rw [h1]; exact h
    · rw [h1]; simp [h]

theorem deleg_leaves {s : St} {op : Op} {t : Nat} (h : t ∈ s.delegated) (h' : t ∉ (s.step op).delegated) :
    op = .delegDrop t ∨ ∃ r, op = .delegSend t r := by
  cases op with
  | delegDrop x =>
    left
    simp only [St.step] at h'
    split at h' <;> simp_all
  | delegSend x r =>
    right
    simp only [St.step] at h'
    split at h' <;> simp_all
  | startEnd o =>
    exfalso
    apply h'
    simp only [St.step]
    split
    · cases o <;> simp [St.startEnd, St.startFail, (startOk_fields s).2.2.2.1, h]
    · exact h
  | _ =>
    exfalso
    apply h'
    simp only [St.step, St.recvStep, St.onSignal, St.handlerEnd, St.linkEnd, St.panicEnd, St.startPanicEnd, St.stopFailed,
      St.stopEnd, St.stopDone, St.crash, St.abortSeen]
    repeat' split
    all_goals simp [h]

theorem cause_after (cap : Option Nat) (ops : List Op) :
    ∀ t, (after cap ops).slots t = .failed .actorStopped → Cause ops (after cap ops) t := by
  refine after_induct cap (P := fun ops s => ∀ t, s.slots t = .failed .actorStopped → Cause ops s t) ?_ ?_ ops
  · intro t h; simp [after, St.exec, St.fresh] at h
  · intro ops op ih t h
    have hg := good_after cap ops
    generalize after cap ops = s at *
    have ht := step_tr s op
    by_cases hold : s.slots t = .failed .actorStopped
    · exact (ih t hold).step hg op
    have hlt : t < s.mb.next := by
      apply Nat.lt_of_not_le
      intro hge
      rcases slot_new hg.shape hg.slots ht t hge with h1 | h1 | ⟨f, h1, h2, _⟩
      · rw [h] at h1; cases h1
      · rw [h] at h1; cases h1
      · rw [h] at h1; cases h1; exact h2 rfl
    cases slot_change hg.shape hg.slots ht t hlt with
    | same h1 => exact absurd (h1 ▸ h) hold
    | gaveUp _ h1 => rw [h] at h1; cases h1
    | got _ r h1 => rw [h] at h1; cases h1
    | failed hw f h1 =>
      cases lost1_tr hg ht hw h with
      | panicked b e h => exact .panicked b e h
      | cutOff b h o => exact .cutOff b h o
      | lost h w => exact .lost h w
      | queue hq o e hh =>
        refine .queue ?_ o e
        rw [hh]
        exact (distinct_of hg.shape hg.acct).mbHandled t (by simp [mbK, hq])
      | deleg hd hd' =>
        rcases deleg_leaves hd hd' with rfl | ⟨r, rfl⟩
        · refine .dropped ?_ (by simp)
          have := hg.slots.d2 t (by simp [hd])
          rcases handled_change hg.shape ht with ⟨h1, _⟩ | ⟨m, h1, _⟩
          · rw [h1]; exact this
          · rw [h1]; simp [this]
        · simp [St.step, hd, reply_slots, hw] at h

/-! ### C16: why a send failed -/

/-- The operations on the mailbox which an operation of the actor model can be (`src/mailbox.rs` L45-175): sends and
their being given up come from the environment only; the actor's own task receives, closes the mailbox and sends itself
the start-up signal. -/
inductive Same : Op → Mailbox.Op Sig → Prop where
  | send (b : Body) : Same (.send b) (.send (.msg b))
  | trySend (b : Body) : Same (.trySend b) (.trySend (.msg b))
  | poll (t : Nat) : Same (.poll t) (.poll t)
  | cancel (t : Nat) : Same (.cancel t) (.cancel t)
  | sendStop : Same .sendStop (.send .stop)
  | sendLinkDied (id : Id) (r : Reason) : Same (.sendLinkDied id r) (.send (.linkDied id r))
  | recv (op : Op) : Same op .recv
  | close (op : Op) : Same op .close
  | startup (op : Op) : Same op (.trySend .startup)

theorem step_mb_same (s : St) (op : Op) :
    (s.step op).mb = s.mb ∨ ∃ o, (s.step op).mb = s.mb.step o ∧ Same op o := by
  have h0 (op) : s.mb = s.mb ∨ ∃ o, s.mb = s.mb.step o ∧ Same op o := Or.inl rfl
  have hr (op) : s.mb.recv = s.mb ∨ ∃ o, s.mb.recv = s.mb.step o ∧ Same op o := Or.inr ⟨.recv, rfl, .recv _⟩
  have hc (op) : s.mb.close = s.mb ∨ ∃ o, s.mb.close = s.mb.step o ∧ Same op o := Or.inr ⟨.close, rfl, .close _⟩
  have ht (op) : s.mb.trySend .startup = s.mb ∨ ∃ o, s.mb.trySend .startup = s.mb.step o ∧ Same op o :=
    Or.inr ⟨.trySend .startup, rfl, .startup _⟩
  cases op <;> simp only [St.step]
  case send b => exact Or.inr ⟨.send (.msg b), rfl, .send b⟩
  case trySend b => exact Or.inr ⟨.trySend (.msg b), rfl, .trySend b⟩
  case poll t => exact Or.inr ⟨.poll t, rfl, .poll t⟩
  case cancel t => exact Or.inr ⟨.cancel t, rfl, .cancel t⟩
  case sendStop => exact Or.inr ⟨.send .stop, rfl, .sendStop⟩
  case sendLinkDied id r => exact Or.inr ⟨.send (.linkDied id r), rfl, .sendLinkDied id r⟩
  case recv =>
    split
    · split
      · unfold St.recvStep
        split
        · split <;> simp [h0]
        · unfold St.onSignal
          (repeat' split) <;> simp [hr]
      · exact h0 _
    · exact h0 _
  case handlerEnd o =>
    split
    · split
      · unfold St.handlerEnd
        (repeat' split) <;> simp [h0]
      · exact h0 _
    · exact h0 _
  case linkEnd o =>
    split
    · split
      · unfold St.linkEnd
        (repeat' split) <;> simp [h0]
      · exact h0 _
    · exact h0 _
  case panicEnd o =>
    split
    · split
      · unfold St.panicEnd
        (repeat' split) <;> simp [h0, hc]
      · exact h0 _
    · unfold St.startPanicEnd
      (repeat' split) <;> simp [h0, hc, St.stopFailed]
    · exact h0 _
  case startEnd o =>
    split
    · unfold St.startEnd
      split
      · simp only [St.startOk]
        split <;> simp [ht]
      · simp [St.startFail, ht]
      · simp [St.startFail, ht]
    · exact h0 _
  case stopEnd o =>
    split
    · unfold St.stopEnd St.stopDone
      (repeat' split) <;> simp [h0, hc]
    · exact h0 _
  all_goals (repeat' split) <;> simp [h0, hc]


theorem after_cap (cap : Option Nat) (ops : List Op) : (after cap ops).mb.cap = cap := by
  refine after_induct cap (P := fun _ s => s.mb.cap = cap) rfl ?_ ops
  intro ops op ih
  obtain ⟨mops, hm⟩ := step_mb (after cap ops) op
  rw [hm, run_cap, ih]

/-- The mailbox operations made by a history of the actor, with the operation of the actor each of them is. -/
theorem after_mb (cap : Option Nat) (ops : List Op) (t : Nat) (a : Sig) (w : Mailbox.Why)
    (h : (t, a, w) ∈ (after cap ops).mb.failed) :
    ∃ pre op post o, ops = pre ++ op :: post ∧ Same op o ∧ (t, a, w) ∉ (after cap pre).mb.failed ∧
      (t, a, w) ∈ ((after cap pre).mb.step o).failed := by
  revert h
  refine after_induct cap (P := fun ops s => (t, a, w) ∈ s.mb.failed → ∃ pre op post o, ops = pre ++ op :: post ∧
    Same op o ∧ (t, a, w) ∉ (after cap pre).mb.failed ∧ (t, a, w) ∈ ((after cap pre).mb.step o).failed) ?_ ?_ ops
  · intro h; simp [after, St.exec, St.fresh, Mb.fresh] at h
  · intro ops op ih h
    by_cases hold : (t, a, w) ∈ (after cap ops).mb.failed
    · obtain ⟨pre, op', post, o, h1, h2⟩ := ih hold
      exact ⟨pre, op', post ++ [op], o, by simp [h1], h2⟩
    · rcases step_mb_same (after cap ops) op with h1 | ⟨o, h1, h2⟩
      · rw [h1] at h; exact absurd h hold
      · exact ⟨ops, op, [], o, rfl, h2, hold, h1 ▸ h⟩

/-! ### C83 -/

/-- **C83**, part: when an asker is told `ActorStopped`, then the handler run for its message panicked, or it was cut off
when the actor was stopped, or the message was never handled because the actor is stopped or the handler of another
message failed, or the handler had taken the reply sender and its owner dropped it. In none of these cases did a handler
run for the message return a reply. What is missing: that the actor panicked or was stopped, as documented; see
`told_stopped_of_running`. -/
theorem told_stopped_partial (cap : Option Nat) (ops : List Op) (t : Nat)
    (h : (after cap ops).slots t = .failed .actorStopped) :
    ∃ b, (t, Sig.msg b) ∈ (after cap ops).mb.sent ∧ b.ask = true ∧ Matter ops (after cap ops) t b ∧
      ∀ r, .hEnd (t, b) false (.ret r) ∉ (after cap ops).log := by
  have hg := good_after cap ops
  have hc := cause_after cap ops t h
  have hans := answers_after cap ops
  have hev : ∀ tk o b', .hEnd (t, b') tk o ∈ (after cap ops).log → (t, b') ∈ (after cap ops).handled :=
    fun tk o b' hm => hEnd_handled cap ops hm
  have hcn : ∀ b', .hCancel (t, b') ∈ (after cap ops).log → (t, b') ∈ (after cap ops).handled := by
    intro b' hm
    obtain ⟨a, c, hac⟩ := List.append_of_mem hm
    obtain ⟨p, bg, mid, h1, h2, _⟩ := one_completion_per_start cap ops a c _ hac rfl
    have hbg : bg = .hBegin (t, b') := by
      cases bg <;> simp [closes] at h2
      rw [h2]
    rw [handled_after, mem_hBegins, hac, h1, hbg]
    simp
  obtain ⟨b, hb1, hb2⟩ := (hg.slots.a t).mp (by rw [h]; simp)
  have huniq : ∀ b', (t, b') ∈ (after cap ops).handled → b' = b := by
    intro b' hb'
    have h1 := handled_sent hg.shape hg.acct (m := (t, b')) (by simp [hb'])
    have := key_inj hg.shape.mb.sent_nodup hb1 h1 rfl
    simpa using this.symm
  refine ⟨b, hb1, hb2, ?_, ?_⟩
  · cases hc with
    | panicked b' e h1 => obtain rfl := huniq _ (hev _ _ _ h1); exact .panicked e h1
    | cutOff b' h1 o => obtain rfl := huniq _ (hcn _ h1); exact .cutOff h1 o
    | lost h1 w =>
      have hn : (t, b) ∉ (after cap ops).handled := fun hm => lost_not_handled hg h1 (mem_K.mpr ⟨b, hm⟩)
      rcases w with w | ⟨m, tk, o, h2, h3, h4⟩
      · exact .unhandled hn w
      · exact .otherFailed hn m tk o h2 h3 h4
    | queue h1 o e => exact .unhandled (fun hm => h1 (mem_K.mpr ⟨b, hm⟩)) o
    | dropped h1 d =>
      obtain ⟨b', hb'⟩ := mem_K.mp h1
      obtain rfl := huniq _ hb'
      exact .dropped hb' d
  · intro r hm
    rcases hans.returned (t, b) r hm hb2 with h1 | h1 <;> rw [h] at h1 <;> cases h1

/-- A handler cut off by a kill, and a message that was never handled. -/
example : (after none askDemo).slots 2 = .failed .actorStopped ∧ .hCancel (2, ask 11) ∈ (after none askDemo).log ∧
    (after none askDemo).slots 3 = .failed .actorStopped ∧ (3, ask 12) ∉ (after none askDemo).handled := by decide

/-- **C83** An asker who is told `ActorNotRunning` is told the truth: the actor's task is over, and the message will never
be handled. -/
theorem told_not_running (cap : Option Nat) (ops ops' : List Op) (t : Nat)
    (h : (after cap ops).slots t = .failed .notRunning) :
    (after cap ops).phase.ended = true ∧ ∀ b, (t, b) ∉ (after cap (ops ++ ops')).handled := by
  rcases ask_failure_true cap ops t _ h with h1 | ⟨b, _, _, h1⟩
  · cases h1
  simp at h1
  refine ⟨?_, (failed_send_never_handled cap ops ops' t _ _ h1).2⟩
  rw [← (good_after cap ops).shape.closed]
  refine after_induct cap (P := fun _ s => ∀ t a, (t, a, Mailbox.Why.closed) ∈ s.mb.failed → s.mb.closed = true)
    ?_ ?_ ops t _ h1
  · intro t a h; simp [after, St.exec, St.fresh, Mb.fresh] at h
  · intro ops op ih t a h
    rcases step_mb_same (after cap ops) op with h2 | ⟨o, h2, _⟩
    · rw [h2] at h ⊢; exact ih t a h
    · rw [h2] at h ⊢; exact step_failed_closed ih o t a h

example : (after none askDemo).slots 4 = .failed .notRunning := by decide

/-- **C83** An asker who is told `MailboxFull` is told the truth: it tried to send without waiting, the mailbox was
bounded and all its slots were taken or promised, and the actor's task was not over. The message will never be handled. -/
theorem told_full (cap : Option Nat) (ops ops' : List Op) (t : Nat)
    (h : (after cap ops).slots t = .failed .full) :
    (∃ pre b post c, ops = pre ++ .trySend b :: post ∧ b.ask = true ∧ t = (after cap pre).mb.next ∧ cap = some c ∧
      (after cap pre).mb.queue.length + (after cap pre).mb.granted.length = c ∧ (after cap pre).phase.ended = false) ∧
    ∀ b, (t, b) ∉ (after cap (ops ++ ops')).handled := by
  rcases ask_failure_true cap ops t _ h with h1 | ⟨b, hb, ha, h1⟩
  · cases h1
  simp at h1
  refine ⟨?_, (failed_send_never_handled cap ops ops' t _ _ h1).2⟩
  obtain ⟨pre, op, post, o, h2, h3, h4, h5⟩ := after_mb cap ops t _ _ h1
  have hg := good_after cap pre
  obtain ⟨rfl, h6, h7, h8⟩ := new_full h4 h5
  obtain ⟨c, h9, h10⟩ := noRoom_full hg.shape.mb h8
  cases h3
  refine ⟨pre, b, post, c, h2, ha, h6, ?_, h10, ?_⟩
  · rw [← h9]; exact (after_cap cap pre).symm
  · rw [← hg.shape.closed]; exact h7

/-- **C83** An asker who is told that the mailbox timed out is told the truth: the send was given up while it waited for
a slot, or before it used the one it was given. The message will never be handled. -/
theorem told_timeout (cap : Option Nat) (ops ops' : List Op) (t : Nat)
    (h : (after cap ops).slots t = .failed .mailboxTimeout) :
    (∃ pre b post, ops = pre ++ .cancel t :: post ∧ b.ask = true ∧
      (t, Sig.msg b) ∈ (after cap pre).mb.waiting ++ (after cap pre).mb.granted) ∧
    ∀ b, (t, b) ∉ (after cap (ops ++ ops')).handled := by
  rcases ask_failure_true cap ops t _ h with h1 | ⟨b, hb, ha, h1⟩
  · cases h1
  simp at h1
  refine ⟨?_, (failed_send_never_handled cap ops ops' t _ _ h1).2⟩
  obtain ⟨pre, op, post, o, h2, h3, h4, h5⟩ := after_mb cap ops t _ _ h1
  obtain ⟨rfl, h6⟩ := new_timeout h4 h5
  cases h3
  exact ⟨pre, b, post, h2, ha, h6⟩

example : (after (some 1) fullDemo).slots 2 = .failed .full ∧
    (after (some 1) [.send (tell 10), .send (ask 11), .cancel 1]).slots 1 = .failed .mailboxTimeout := by decide

/-- Two messages sent before the actor has started; the handler of the first returns an error, and `on_panic` says that
the actor is to go on. -/
def bufferDemo : List Op :=
  [.send (tell 10), .send (ask 11), .run, .startEnd .ok, .pollBegin, .recv, .recv, .recv,
   .handlerEnd (.ret (.err 5)), .panicEnd .cont]

/-- The handler of an ask takes the reply sender and returns; the sender is dropped. -/
def takeDropDemo : List Op :=
  [.run, .startEnd .ok, .send (ask 10), .pollBegin, .recv, .recv, .takeReply, .handlerEnd (.ret (.ok 0)), .delegDrop 1]

/-- **C83**, against the documentation ("The actor panicked or was stopped before a reply could be received",
`src/error.rs` L92-93): whenever the handler of a message fails while others are still to be handled from the start-up
buffer, the askers among their senders are told `ActorStopped`; and if `on_panic` says so, the actor goes on. -/
theorem buffered_told_stopped (cap : Option Nat) (ops : List Op) (m : Msg) (tk ts : Bool) (rest : List Msg) (o : HOut)
    (t : Nat) (b : Body) (hp : (after cap ops).phase = .handling m tk rest ts) (hpoll : (after cap ops).polling = true)
    (hf : failing m tk o = true) (hr : (t, b) ∈ rest) (hw : (after cap ops).slots t = .waiting) :
    (after cap (ops ++ [.handlerEnd o])).slots t = .failed .actorStopped ∧
    (after cap (ops ++ [.handlerEnd o, .panicEnd .cont])).phase = .idle ∧
    (after cap (ops ++ [.handlerEnd o, .panicEnd .cont])).mb = (after cap ops).mb := by
  have hne := cur_not_rest (good_after cap ops) hp
  rw [after_append, after_append]
  generalize after cap ops = s at *
  have ht : t ∈ K rest := mem_K.mpr ⟨b, hr⟩
  have ht' : t ∈ rest.map (·.1) := ht
  have htm : t ≠ m.1 := fun h => hne (h ▸ ht)
  cases o with
  | panic e =>
    refine ⟨?_, ?_, ?_⟩ <;>
      simp [St.exec, St.step, hp, hpoll, St.handlerEnd, St.onShutdown, St.lose, St.dropReplies, St.ev, St.panicEnd, ht', hw]
  | ret r =>
    cases r with
    | ok v => simp [failing] at hf
    | err e =>
      have h2 : (m.2.ask && !tk) = false := by
        simp only [failing] at hf
        cases ha : m.2.ask <;> simp_all
      refine ⟨?_, ?_, ?_⟩ <;>
        simp [St.exec, St.step, hp, hpoll, St.handlerEnd, h2, St.onShutdown, St.lose, St.dropReplies, St.ev, St.panicEnd,
          ht', hw]

example : (after none (bufferDemo.take 8)).phase = .handling (0, tell 10) false [(1, ask 11)] false ∧
    (after none (bufferDemo.take 8)).polling = true ∧ failing (0, tell 10) false (.ret (.err 5)) = true ∧
    (after none (bufferDemo.take 8)).slots 1 = .waiting := by decide

/-- **C83**, against the documentation: an asker whose reply sender was taken by the handler and then dropped is told
`ActorStopped`, whatever state the actor is in and whatever it does. -/
theorem dropped_told_stopped (cap : Option Nat) (ops : List Op) (t : Nat) (h : t ∈ (after cap ops).delegated)
    (hw : (after cap ops).slots t = .waiting) :
    (after cap (ops ++ [.delegDrop t])).slots t = .failed .actorStopped ∧
    (after cap (ops ++ [.delegDrop t])).phase = (after cap ops).phase ∧
    (after cap (ops ++ [.delegDrop t])).log = (after cap ops).log := by
  rw [after_append]
  simp [St.exec, St.step, h, St.dropReplies, hw]

/-- **C83**, negation: an asker is told `ActorStopped` although nothing panicked, no error was returned, nobody asked
the actor to stop, and the actor is running and waiting for messages. -/
theorem told_stopped_of_running :
    ∃ (ops : List Op) (t : Nat), (after none ops).slots t = .failed .actorStopped ∧ (after none ops).phase = .idle ∧
      (after none ops).mb.closed = false ∧ (after none ops).aborted = false ∧
      (∀ m tk e, .hEnd m tk (.panic e) ∉ (after none ops).log) ∧
      (∀ m tk e, .hEnd m tk (.ret (.err e)) ∉ (after none ops).log) ∧
      (∀ e, .pBegin e ∉ (after none ops).log) ∧ (∀ r, .sBegin r ∉ (after none ops).log) ∧
      ∀ m, .hCancel m ∉ (after none ops).log := by
  have hl : (after none takeDropDemo).log =
      [.startBegin, .startEnd .ok, .hBegin (1, ask 10), .hEnd (1, ask 10) true (.ret (.ok 0))] := by decide
  refine ⟨takeDropDemo, 1, by decide, by decide, by decide, by decide, ?_, ?_, ?_, ?_, ?_⟩ <;> intros <;> rw [hl] <;> simp

example : (after none (takeDropDemo.take 8)).delegated = [1] ∧
    (after none (takeDropDemo.take 8)).slots 1 = .waiting ∧
    (after none takeDropDemo).slots 1 = .failed .actorStopped := by decide

/-! ### C84 -/

/-- The error a handler ends with (`src/message.rs` L286-308). -/
def HOut.error : HOut → Option Err
  | .ret (.ok _) => none
  | .ret (.err e) => some e
  | .panic e => some e

/-- **C84**, part: when a handler ends with an error, by panicking or by returning it, then `on_panic` is called with it
next, or it was the reply to an ask, and then the asker gets it or has given up. What is missing: that somebody hears of
it when the asker has given up; see `error_unheard`. -/
theorem error_heard_partial (cap : Option Nat) (ops : List Op) (pre post : List Ev) (m : Msg) (tk : Bool) (o : HOut)
    (e : Err) (hlog : (after cap ops).log = pre ++ .hEnd m tk o :: post) (ho : o.error = some e) :
    (∃ mid post', post = mid ++ .pBegin e :: post' ∧ ∀ x ∈ mid, x.isBegin = false ∧ x.isEnd = false) ∨
    (o = .ret (.err e) ∧ m.2.ask = true ∧ tk = false ∧
      ((after cap ops).slots m.1 = .got (.err e) ∨ (after cap ops).slots m.1 = .gaveUp)) := by
  have hcase : o = .panic e ∨ o = .ret (.err e) := by
    cases o with
    | panic x => simp [HOut.error] at ho; simp [ho]
    | ret r => cases r <;> simp [HOut.error] at ho; simp [ho]
  by_cases hq : o = .panic e ∨ (o = .ret (.err e) ∧ (m.2.ask = false ∨ tk = true))
  · exact Or.inl (failure_leads_to_on_panic cap ops pre post m tk o e hlog hq)
  · right
    rcases hcase with rfl | rfl
    · simp at hq
    · simp at hq
      obtain ⟨ha, rfl⟩ := hq
      exact ⟨rfl, ha, rfl, (ask_error_goes_to_asker cap ops pre post m e ha hlog).1⟩

example : (after none askErrDemo).log = [.startBegin, .startEnd .ok, .hBegin (1, ask 10)] ++
    .hEnd (1, ask 10) false (.ret (.err 5)) :: [.hBegin (2, tell 11)] ∧ (HOut.ret (.err 5)).error = some 5 := by decide

/-- Handling an ask fails after the asker has given up. -/
def unheardDemo : List Op :=
  [.run, .startEnd .ok, .send (ask 10), .send (tell 11), .pollBegin, .recv, .recv, .giveUp 1]

/-- **C84**, negation: an error returned by the handler of an ask whose asker has given up is heard by nobody. `on_panic`
is not called, and the actor is left in the very state in which a handler that succeeded leaves it: apart from the record
of how the handler ended there is no difference. -/
theorem error_unheard (cap : Option Nat) (ops : List Op) (m : Msg) (ts : Bool) (rest : List Msg) (e : Err) (v : Nat)
    (hp : (after cap ops).phase = .handling m false rest ts) (hpoll : (after cap ops).polling = true)
    (ha : m.2.ask = true) (hg : (after cap ops).slots m.1 = .gaveUp) :
    ∃ x, (after cap (ops ++ [.handlerEnd (.ret (.err e))])).log =
        (after cap ops).log ++ .hEnd m false (.ret (.err e)) :: x ∧
      (∀ e', .pBegin e' ∉ x) ∧
      after cap (ops ++ [.handlerEnd (.ret (.err e))]) =
        { after cap (ops ++ [.handlerEnd (.ret (.ok v))]) with
          log := (after cap ops).log ++ .hEnd m false (.ret (.err e)) :: x } := by
  rw [after_append, after_append]
  generalize after cap ops = s at *
  simp only [St.exec, List.foldl_cons, List.foldl_nil, St.step, hp, hpoll, if_true, St.handlerEnd, ha, Bool.not_false,
    Bool.and_self, St.reply, hg, reduceCtorEq, if_false]
  cases rest with
  | cons y ys => exact ⟨[.hBegin y], by simp [St.drain, St.beginHandle, St.ev]⟩
  | nil =>
    cases ts
    · exact ⟨[], by simp [St.drain, St.ev]⟩
    · exact ⟨[.sBegin .normal], by simp [St.drain, St.onShutdown, St.leave, St.lose, St.dropReplies, St.ev]; rfl⟩

example : (after none unheardDemo).phase = .handling (1, ask 10) false [] false ∧
    (after none unheardDemo).polling = true ∧ (after none unheardDemo).slots 1 = .gaveUp ∧
    (after none (unheardDemo ++ [.handlerEnd (.ret (.err 5)), .recv])).phase = .handling (2, tell 11) false [] false := by
  decide

end Verif.Lifecycle
