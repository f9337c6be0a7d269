import Verif.Lifecycle.PropsStop

/-!
Property theorems about errors and replies: C12 (routing of handler errors), C14 (every ask gets an
outcome), C15 (at most one reply, the right one), C16 (a failed send has no effect), C19
(time-outs), C39 (delegated replies).
-/

set_option linter.unusedSimpArgs false

namespace Verif.Lifecycle

open Verif.Mailbox

/-! ### C12 -/

/-- **C12** A handler that panics, or that returns an error for a message sent with tell (or for an
ask whose reply sender it has taken), leads to `on_panic` with exactly that error: the next handler
or hook to start is that call. -/
theorem failure_leads_to_on_panic (cap : Option Nat) (ops : List Op) (pre post : List Ev) (m : Msg)
    (tk : Bool) (o : HOut) (e : Err)
    (hlog : (after cap ops).log = pre ++ .hEnd m tk o :: post)
    (ho : o = .panic e ∨ (o = .ret (.err e) ∧ (m.2.ask = false ∨ tk = true))) :
    ∃ mid post', post = mid ++ .pBegin e :: post' ∧
      ∀ x ∈ mid, x.isBegin = false ∧ x.isEnd = false := by
  obtain ⟨l, h, hm⟩ := logOk_after cap ops
  generalize after cap ops = s at *
  rw [hlog] at h
  obtain ⟨l1, _, h2⟩ := Life.run_split h
  obtain ⟨l2, h3, h4⟩ := Life.run_cons h2
  have hl2 : l2 = .failing e true := by
    cases h3
    rcases ho with rfl | ⟨rfl, ha⟩
    · rfl
    · simp only [afterHandler]
      rcases ha with ha | ha <;> simp [ha]
  subst hl2
  rcases failing_next h4 with ⟨h5, _⟩ | h5
  · exfalso
    subst h5
    revert hm
    cases s.phase <;> simp [matchLife]
  · exact h5

example : (after none panicDemo).log = [.startBegin, .startEnd .ok, .hBegin (1, tell 10)] ++
    .hEnd (1, tell 10) false (.panic 1) :: [.pBegin 1] := by decide

/-- A handler returns an error to an asker, then handles the next message. -/
def askErrDemo : List Op :=
  [.run, .startEnd .ok, .send (ask 10), .send (tell 11), .pollBegin, .recv, .recv,
   .handlerEnd (.ret (.err 5)), .recv]

/-- **C12** An error returned by the handler of an ask goes to the asker (unless the asker has given
up), and the actor carries on: the next handler or hook to start is not `on_panic`. -/
theorem ask_error_goes_to_asker (cap : Option Nat) (ops : List Op) (pre post : List Ev) (m : Msg)
    (e : Err) (ha : m.2.ask = true)
    (hlog : (after cap ops).log = pre ++ .hEnd m false (.ret (.err e)) :: post) :
    ((after cap ops).slots m.1 = .got (.err e) ∨ (after cap ops).slots m.1 = .gaveUp) ∧
    ∀ mid x post', post = mid ++ x :: post' → (∀ y ∈ mid, y.isBegin = false ∧ y.isEnd = false) →
      x.isBegin = true → ∀ e', x ≠ .pBegin e' := by
  refine ⟨(answers_after cap ops).returned m _ (by rw [hlog]; simp) ha, ?_⟩
  intro mid x post' hpost hmid hx
  obtain ⟨l, h, _⟩ := logOk_after cap ops
  rw [hlog] at h
  obtain ⟨l1, _, h2⟩ := Life.run_split h
  obtain ⟨l2, h3, h4⟩ := Life.run_cons h2
  have hl2 : ∃ st, l2 = .ready st := by
    cases h3 with
    | hEnd _ st _ _ => exact ⟨st, by simp [afterHandler, ha]⟩
  obtain ⟨st, rfl⟩ := hl2
  rw [hpost] at h4
  exact ready_next h4 hmid hx

example : (after none askErrDemo).log = [.startBegin, .startEnd .ok, .hBegin (1, ask 10)] ++
    .hEnd (1, ask 10) false (.ret (.err 5)) :: [.hBegin (2, tell 11)] ∧
    (after none askErrDemo).slots 1 = .got (.err 5) := by decide

/-! ### C14 -/

/-- **C14** Once the actor's task is over, for whatever reason, every ask ever sent to it has an
outcome: a reply, a failure, or the asker gave up; except for those whose reply sender the handler
took and which user code still holds. -/
theorem every_ask_resolved (cap : Option Nat) (ops : List Op) (t : Nat) (b : Body)
    (hend : (∃ r, (after cap ops).phase = .stopped r) ∨ (after cap ops).phase = .crashed)
    (hs : (t, Sig.msg b) ∈ (after cap ops).mb.sent) (ha : b.ask = true) :
    (∃ r, (after cap ops).slots t = .got r) ∨ (∃ f, (after cap ops).slots t = .failed f) ∨
    (after cap ops).slots t = .gaveUp ∨
    ((after cap ops).slots t = .waiting ∧ t ∈ (after cap ops).delegated) := by
  have hg := good_after cap ops
  generalize after cap ops = s at *
  have hne : s.slots t ≠ .none := (hg.slots.a t).mpr ⟨b, hs, ha⟩
  cases hsl : s.slots t with
  | none => exact absurd hsl hne
  | got r => simp
  | failed f => simp
  | gaveUp => simp
  | waiting =>
    have hl := hg.slots.w t hsl
    have he : s.phase.ended = true := by rcases hend with ⟨r, h⟩ | h <;> simp [h]
    have hcl := hg.shape.mb.closedEmpty (by rw [hg.shape.closed, he])
    have hbuf : s.buffer = [] := by
      by_cases h : s.buffer = []
      · exact h
      · have := (hg.shape.buf h).2
        rcases hend with ⟨r, h'⟩ | h' <;> simp [h'] at this
    have hd : t ∈ s.delegated := by
      unfold live mbK at hl
      rcases hend with ⟨r, h'⟩ | h' <;> simpa [hcl, hbuf, h', K, Phase.cur] using hl
    simp [hd]

/-- Three asks: one is answered, one is cut off by a kill, one is still queued then; the fourth is
sent to the dead actor. -/
def askDemo : List Op :=
  [.run, .startEnd .ok, .send (ask 10), .send (ask 11), .send (ask 12), .pollBegin, .recv, .recv,
   .handlerEnd (.ret (.ok 7)), .recv, .pollEnd, .kill, .pollBegin, .stopEnd .ok, .finish,
   .send (ask 13)]

example : (after none askDemo).phase = .stopped .killed ∧
    (after none askDemo).mb.sent.map (·.1) = [0, 1, 2, 3, 4] ∧
    (after none askDemo).slots 1 = .got (.ok 7) ∧
    (after none askDemo).slots 2 = .failed .actorStopped ∧
    (after none askDemo).slots 3 = .failed .actorStopped ∧
    (after none askDemo).slots 4 = .failed .notRunning := by decide

/-! ### C15 -/

/-- A handler that completed was started. -/
theorem hEnd_handled (cap : Option Nat) (ops : List Op) {m : Msg} {tk : Bool} {o : HOut}
    (h : .hEnd m tk o ∈ (after cap ops).log) : m ∈ (after cap ops).handled := by
  obtain ⟨a, b, hab⟩ := List.append_of_mem h
  obtain ⟨p, bg, mid, h1, h2, _⟩ := one_completion_per_start cap ops a b _ hab rfl
  have hbg : bg = .hBegin m := by
    cases bg <;> simp [closes] at h2
    rw [h2]
  rw [handled_after, mem_hBegins, hab, h1, hbg]
  simp

theorem replySent_drainEv (rest : List Msg) (ts : Bool) (t : Nat) (r : Res) :
    .replySent t r ∉ drainEv rest ts := by
  intro h
  rcases drainEv_mem h with ⟨m, h⟩ | h <;> cases h

theorem replySent_cancelEv (p : Phase) (t : Nat) (r : Res) : .replySent t r ∉ p.cancelEv := by
  cases p <;> simp [Phase.cancelEv]

/-- Only the owner of a taken reply sender sends replies through it. -/
theorem replySent_step (s : St) (op : Op) (t : Nat) (r : Res)
    (h : .replySent t r ∈ (s.step op).log) :
    .replySent t r ∈ s.log ∨ (op = .delegSend t r ∧ t ∈ s.delegated) := by
  have hc : ∀ s : St, s.crash.log = s.log ++ s.phase.cancelEv := by
    intro s
    cases hph : s.phase <;> simp [St.crash, St.die, St.cancelRunning, hph, Phase.cancelEv]
  have ha : ∀ s : St, .replySent t r ∈ s.abortSeen.log → .replySent t r ∈ s.log := by
    intro s
    cases hph : s.phase <;> simp [St.abortSeen, St.cancelRunning, hph]
  have hs : ∀ s : St, s.startOk.log = s.log ++ [.startEnd .ok] := by
    intro s; unfold St.startOk; simp only; split <;> simp [St.finishStartup]
  have hon : ∀ (s : St) (x : Reason), .replySent t r ∈ (s.onShutdown x).log → .replySent t r ∈ s.log := by
    intro s x; cases x <;> simp [St.onShutdown]
  have hdr : ∀ (s : St) (rest : List Msg) (ts : Bool), .replySent t r ∈ (s.drain rest ts).log →
      .replySent t r ∈ s.log := by
    intro s rest ts
    cases rest <;> cases ts <;> simp [St.drain, St.beginHandle]
  cases op with
  | delegSend t' r' =>
    simp only [St.step] at h
    split at h
    · simp at h
      rcases h with h | ⟨rfl, rfl⟩
      · exact Or.inl h
      · exact Or.inr ⟨rfl, by assumption⟩
    · exact Or.inl h
  | startEnd o =>
    left
    simp only [St.step] at h
    split at h
    · cases o <;> simp [St.startEnd, St.startFail, hs] at h <;> exact h
    · exact h
  | recv =>
    left
    simp only [St.step, St.recvStep, St.onSignal] at h
    repeat' split at h
    all_goals first
      | with_reducible exact h
      | (have := hdr _ _ _ h; simpa [St.finishStartup] using this)
      | simpa using h
  | handlerEnd o =>
    left
    simp only [St.step, St.handlerEnd] at h
    repeat' split at h
    all_goals first
      | with_reducible exact h
      | (have := hdr _ _ _ h; simpa using this)
      | (have := hon _ _ h; simpa using this)
  | linkEnd o =>
    left
    simp only [St.step, St.linkEnd] at h
    repeat' split at h
    all_goals first
      | with_reducible exact h
      | (have := hon _ _ h; simpa using this)
      | simpa using h
  | panicEnd o =>
    left
    simp only [St.step, St.panicEnd, St.startPanicEnd, St.stopFailed] at h
    repeat' split at h
    all_goals first
      | with_reducible exact h
      | simpa [St.die] using h
  | stopEnd o =>
    left
    simp only [St.step, St.stopEnd, St.stopDone] at h
    repeat' split at h
    all_goals first
      | with_reducible exact h
      | simpa [St.die] using h
  | teardown =>
    left
    simp only [St.step] at h
    split at h
    · exact h
    · exact h
    · rw [hc] at h
      simpa [replySent_cancelEv] using h
  | pollBegin =>
    left
    simp only [St.step] at h
    repeat' split at h
    all_goals first
      | with_reducible exact h
      | exact ha _ h
  | pollEnd =>
    left
    simp only [St.step] at h
    repeat' split at h
    all_goals first
      | with_reducible exact h
      | exact ha _ h
  | _ =>
    left
    simp only [St.step] at h
    repeat' split at h
    all_goals simpa using h

theorem exec_handled (s : St) (hg : Good s) (ops : List Op) : s.handled <+: (s.exec ops).handled := by
  refine exec_good_inv (P := fun s' => s.handled <+: s'.handled) ?_ hg (List.prefix_refl _) ops
  intro a b hga h ht
  rcases handled_change hga.shape ht with ⟨h1, _⟩ | ⟨m, h1, _⟩
  · rw [h1]; exact h
  · rw [h1]; exact h.trans (List.prefix_append _ _)

/-- A reply sent through a taken sender: some handler took it, and user code sent it. -/
theorem replySent_handled (cap : Option Nat) (ops : List Op) {t : Nat} {r : Res}
    (h : .replySent t r ∈ (after cap ops).log) :
    .delegSend t r ∈ ops ∧ ∃ b, (t, b) ∈ (after cap ops).handled := by
  revert h
  refine after_induct cap (P := fun ops s => .replySent t r ∈ s.log →
    .delegSend t r ∈ ops ∧ ∃ b, (t, b) ∈ s.handled) ?_ ?_ ops
  · simp [after, St.exec, St.fresh]
  · intro ops op ih h
    have hg := good_after cap ops
    have hpre := exec_handled _ hg [op]
    have hpre' : (after cap ops).handled <+: ((after cap ops).step op).handled := by
      simpa [St.exec] using hpre
    rcases replySent_step _ _ _ _ h with h | ⟨rfl, hd⟩
    · obtain ⟨h1, b, h2⟩ := ih h
      exact ⟨by simp [h1], b, hpre'.subset h2⟩
    · have := hg.slots.d2 t (by simp [hd])
      obtain ⟨b, hb⟩ := mem_K.mp this
      exact ⟨by simp, b, hpre'.subset hb⟩

/-- **C15** If an asker received a reply, then it is the value returned by the handler run for
exactly the message of that ask, or it was sent by user code through the reply sender which that
handler run had taken. -/
theorem reply_is_to_that_message (cap : Option Nat) (ops : List Op) (t : Nat) (r : Res)
    (h : (after cap ops).slots t = .got r) :
    ∃ b, (t, Sig.msg b) ∈ (after cap ops).mb.sent ∧ b.ask = true ∧ (t, b) ∈ (after cap ops).handled ∧
      (.hEnd (t, b) false (.ret r) ∈ (after cap ops).log ∨ .delegSend t r ∈ ops) := by
  have hg := good_after cap ops
  obtain ⟨b, hb1, hb2⟩ := (hg.slots.a t).mp (by rw [h]; simp)
  have huniq : ∀ b', (t, b') ∈ (after cap ops).handled → b' = b := by
    intro b' hb'
    have h1 := handled_sent hg.shape hg.acct (m := (t, b')) (by simp [hb'])
    have := key_inj hg.shape.mb.sent_nodup hb1 h1 rfl
    simpa using this.symm
  refine ⟨b, hb1, hb2, ?_⟩
  rcases (answers_after cap ops).got t r h with ⟨⟨t', b'⟩, rfl, hm⟩ | hm
  · have h1 := hEnd_handled cap ops hm
    obtain rfl := huniq b' h1
    exact ⟨h1, Or.inl hm⟩
  · obtain ⟨h1, b', h2⟩ := replySent_handled cap ops hm
    obtain rfl := huniq b' h2
    exact ⟨h2, Or.inr h1⟩

example : (after none askDemo).slots 1 = .got (.ok 7) := by decide

/-- **C15** The outcome of an ask never changes once it is there: there is at most one reply, and no
reply after a failure. -/
theorem outcome_never_changes (cap : Option Nat) (ops ops' : List Op) (t : Nat)
    (h1 : (after cap ops).slots t ≠ .none) (h2 : (after cap ops).slots t ≠ .waiting) :
    (after cap (ops ++ ops')).slots t = (after cap ops).slots t := by
  rw [after_append]
  exact slot_settled (good_after cap ops) rfl h2 h1 ops'

example : (after none askErrDemo).slots 1 = .got (.err 5) := by decide

/-! ### C16 and C19 -/

/-- **C16** A send that failed (actor not running, mailbox full, or mailbox time-out) is for exactly
the message passed in, and that message is never handled, whatever happens later. -/
theorem failed_send_never_handled (cap : Option Nat) (ops ops' : List Op) (t : Nat) (a : Sig)
    (w : Mailbox.Why) (h : (t, a, w) ∈ (after cap ops).mb.failed) :
    (t, a) ∈ (after cap ops).mb.sent ∧ ∀ b, (t, b) ∉ (after cap (ops ++ ops')).handled := by
  have hg := good_after cap ops
  refine ⟨hg.shape.mb.mem_sent (List.mem_append_right _ (List.mem_map.mpr ⟨_, h, rfl⟩)), ?_⟩
  intro b hb
  have hg2 := good_after cap (ops ++ ops')
  have hf2 : (t, a, w) ∈ (after cap (ops ++ ops')).mb.failed := by
    rw [after_append]
    have : ∀ (ops : List Op) (s : St), s.mb.failed <+: (s.exec ops).mb.failed := by
      intro ops
      induction ops with
      | nil => intro s; exact List.prefix_refl _
      | cons op ops ih => intro s; exact (failed_tr op).trans (ih (s.step op))
    exact (this ops' _).subset h
  generalize after cap (ops ++ ops') = s at *
  have hr : (t, b) ∈ msgsOf s.mb.received := hg2.acct.mem_iff.mpr (by simp [hb])
  have hp : (t, Sig.msg b) ∈ s.mb.pushed := (received_sublist_pushed hg2.shape).subset (mem_msgsOf.mp hr)
  have hnd := hg2.shape.mb.part_nodup
  rw [List.map_append, List.nodup_append] at hnd
  exact hnd.2.2 t (List.mem_map.mpr ⟨(t, .msg b), by simp [hp], rfl⟩) t
    (List.mem_map.mpr ⟨(t, a), List.mem_map.mpr ⟨_, hf2, rfl⟩, rfl⟩) rfl

/-- One message fills the mailbox, one waits and times out, one is refused. -/
def fullDemo : List Op :=
  [.send (tell 10), .send (tell 11), .trySend (ask 12), .cancel 1]

example : (after (some 1) fullDemo).mb.failed =
    [(2, .msg (ask 12), .full), (1, .msg (tell 11), .timeout)] := by decide

/-- **C16** What an asker is told when the send fails is what happened in the mailbox, for its own
message; `ActorStopped` is the only other failure. -/
theorem ask_failure_true (cap : Option Nat) (ops : List Op) (t : Nat) (f : Fail)
    (h : (after cap ops).slots t = .failed f) : f = .actorStopped ∨
    ∃ b, (t, Sig.msg b) ∈ (after cap ops).mb.sent ∧ b.ask = true ∧
      ((f = .notRunning ∧ (t, Sig.msg b, Mailbox.Why.closed) ∈ (after cap ops).mb.failed) ∨
       (f = .full ∧ (t, Sig.msg b, Mailbox.Why.full) ∈ (after cap ops).mb.failed) ∨
       (f = .mailboxTimeout ∧ (t, Sig.msg b, Mailbox.Why.timeout) ∈ (after cap ops).mb.failed)) := by
  have hg := good_after cap ops
  rcases (answers_after cap ops).failed t f h with h1 | ⟨b, w, h1, h2⟩
  · exact Or.inl h1
  · right
    obtain ⟨b', hb1, hb2⟩ := (hg.slots.a t).mp (by rw [h]; simp)
    have hsent : (t, Sig.msg b) ∈ (after cap ops).mb.sent :=
      hg.shape.mb.mem_sent (List.mem_append_right _ (List.mem_map.mpr ⟨_, h2, rfl⟩))
    have := key_inj hg.shape.mb.sent_nodup hb1 hsent rfl
    simp at this
    subst this
    refine ⟨b', hb1, hb2, ?_⟩
    cases f <;> simp [whyOf] at h1 <;> subst h1 <;> simp [h2]

example : (after (some 1) fullDemo).slots 2 = .failed .full := by decide

/-- **C19** After a mailbox time-out the message was not and will not be handled. -/
theorem mailbox_timeout_not_delivered (cap : Option Nat) (ops ops' : List Op) (t : Nat)
    (h : (after cap ops).slots t = .failed .mailboxTimeout) :
    ∀ b, (t, b) ∉ (after cap (ops ++ ops')).handled := by
  rcases ask_failure_true cap ops t _ h with h1 | ⟨b, _, _, h1⟩
  · cases h1
  · simp at h1
    exact (failed_send_never_handled cap ops ops' t _ _ h1).2

example : (after (some 1) [.send (tell 10), .send (ask 11), .cancel 1]).slots 1 =
    .failed .mailboxTimeout := by decide

end Verif.Lifecycle
