import Verif.Lifecycle.Slots
import Verif.Lifecycle.Runs

/-! Further invariants: what the log says about the rest of the state. -/

set_option linter.unusedSimpArgs false

namespace Verif.Lifecycle

open Verif.Mailbox

/-- Events recorded when the running user code is cancelled. -/
def Phase.cancelEv : Phase → List Ev
  | .handling m _ _ _ => [.hCancel m]
  | .linkDying _ _ => [.lCancel]
  | .panicking _ => [.pCancel]
  | .startPanicking _ => [.pCancel]
  | .starting => [.startCancel]
  | .stopping _ _ _ => [.sCancel]
  | _ => []

@[simp] theorem cancelRunning_log (s : St) : s.cancelRunning.log = s.log ++ s.phase.cancelEv := by
  unfold St.cancelRunning
  split <;> simp_all [Phase.cancelEv]

theorem cancelEv_mem {p : Phase} {e : Ev} (h : e ∈ p.cancelEv) :
    (∃ m, e = .hCancel m) ∨ e = .lCancel ∨ e = .pCancel ∨ e = .startCancel ∨ e = .sCancel := by
  cases p <;> simp [Phase.cancelEv] at h <;> simp [h]

/-- Events recorded when draining continues. -/
def drainEv (rest : List Msg) (ts : Bool) : List Ev :=
  match rest with
  | m :: _ => [.hBegin m]
  | [] => if ts then [.sBegin .normal] else []

@[simp] theorem drain_log (s : St) (rest : List Msg) (ts : Bool) :
    (s.drain rest ts).log = s.log ++ drainEv rest ts := by
  cases rest with
  | cons m ms => rfl
  | nil => cases ts <;> simp [St.drain, drainEv]

@[simp] theorem startOk_log (s : St) : s.startOk.log = s.log ++ [.startEnd .ok] := by
  unfold St.startOk; simp only; split <;> rfl

theorem tr_log {s s' : St} (ht : Tr s s') : ∃ x, s'.log = s.log ++ x := by
  have : s.log <+: s'.log := by
    cases ht <;> simp [St.step, St.crash, St.abortSeen, St.stopFailed, St.startFail]
  obtain ⟨x, hx⟩ := this
  exact ⟨x, hx.symm⟩

theorem exec_log (s : St) (ops : List Op) : ∃ x, (s.exec ops).log = s.log ++ x := by
  refine exec_inv (P := fun s' => ∃ x, s'.log = s.log ++ x) ?_ ⟨[], by simp⟩ ops
  rintro a b ⟨x, hx⟩ ht
  obtain ⟨y, hy⟩ := tr_log ht
  exact ⟨x ++ y, by rw [hy, hx]; simp⟩

/-- `R pre e` holds for each event `e` with the history `pre` before it. -/
def Before (R : List Ev → Ev → Prop) (log : List Ev) : Prop :=
  ∀ pre e post, log = pre ++ e :: post → R pre e

theorem Before.nil (R : List Ev → Ev → Prop) : Before R [] := by
  intro pre e post h; simp at h

theorem Before.snoc {R : List Ev → Ev → Prop} {log : List Ev} {x : Ev} (h : Before R log)
    (hx : R log x) : Before R (log ++ [x]) := by
  intro pre e post he
  cases hp : post.reverse with
  | nil =>
    simp at hp; subst hp
    have := List.append_inj' he (by simp)
    obtain ⟨rfl, h2⟩ := this
    simp at h2; subst h2; exact hx
  | cons y ys =>
    have hpost : post = ys.reverse ++ [y] := by
      have := congrArg List.reverse hp; simpa using this
    subst hpost
    have : log ++ [x] = (pre ++ e :: ys.reverse) ++ [y] := by simpa using he
    have := List.append_inj' this (by simp)
    exact h _ _ _ this.1

/-- Handler starts in a log. -/
def hBegins (log : List Ev) : List Msg :=
  log.filterMap (fun e => match e with
    | .hBegin m => some m
    | _ => none)

@[simp] theorem hBegins_nil : hBegins [] = [] := rfl
@[simp] theorem hBegins_append (a b : List Ev) : hBegins (a ++ b) = hBegins a ++ hBegins b := by
  simp [hBegins]
theorem hBegins_cons (e : Ev) (b : List Ev) : hBegins (e :: b) = hBegins [e] ++ hBegins b :=
  hBegins_append [e] b
@[simp] theorem hBegins_hBegin (m : Msg) : hBegins [.hBegin m] = [m] := rfl
theorem hBegins_other {e : Ev} (h : ∀ m, e ≠ .hBegin m) : hBegins [e] = [] := by
  cases e <;> simp [hBegins] at *
@[simp] theorem hBegins_cancelEv (p : Phase) : hBegins p.cancelEv = [] := by
  cases p <;> rfl

theorem mem_hBegins {log : List Ev} {m : Msg} : m ∈ hBegins log ↔ .hBegin m ∈ log := by
  simp only [hBegins, List.mem_filterMap]
  constructor
  · rintro ⟨e, he, h⟩
    cases e <;> simp at h
    subst h; exact he
  · intro h; exact ⟨_, h, rfl⟩

/-- Handled messages are exactly the logged handler starts, in order. -/
theorem handled_tr {s s' : St} (h : s.handled = hBegins s.log) (ht : Tr s s') :
    s'.handled = hBegins s'.log := by
  cases ht with
  | recvNone hp _ _ _ => cases hb : s.buffer <;> simp [St.drain, h, hBegins_other] <;> rfl
  | recvStartup hp hpo t q hq => cases hb : s.buffer <;> simp [St.drain, h, hBegins_other]
  | recvStop hp hpo t q hq => cases hb : s.buffer <;> simp [St.drain, h, hBegins_other] <;> rfl
  | handlerReply m rest ts res hp hpo ha =>
    cases rest <;> cases ts <;> simp [St.drain, h, hBegins_other] <;> rfl
  | handlerOk m taken rest ts v hp hpo ha =>
    cases rest <;> cases ts <;> simp [St.drain, h, hBegins_other] <;> rfl
  | handlerErr m taken rest ts e hp hpo ha =>
    simp [h]; rw [hBegins_cons]; simp [hBegins_other]
  | handlerPanic m taken rest ts e hp hpo =>
    simp [h]; rw [hBegins_cons]; simp [hBegins_other]
  | startFail o e hp ho =>
    simp [h, St.startFail]; rw [hBegins_cons]; simp [hBegins_other]
  | linkPanic id r o e hp hpo ho =>
    simp [h]; rw [hBegins_cons]; simp [hBegins_other]
  | startOk hp => rw [(startOk_fields s).2.2.1]; simp [h, hBegins_other]
  | startPanicStop e o r hp ho =>
    simp [h, St.stopFailed]; rw [hBegins_cons]; simp [hBegins_other]
  | stopFinish r pend o res hp ho =>
    simp [h]; rw [hBegins_cons]; simp [hBegins_other]
  | linkStop id r r' hp hpo hr =>
    simp [h]; rw [hBegins_cons]; simp [hBegins_other]
  | panicStop e o r hp hpo ho =>
    simp [h]; rw [hBegins_cons]; simp [hBegins_other]
  | _ => simp [h, hBegins_other, St.step, St.crash, St.abortSeen]

theorem handled_after (cap : Option Nat) (ops : List Op) :
    (after cap ops).handled = hBegins (after cap ops).log :=
  exec_inv (P := fun s => s.handled = hBegins s.log) (fun _ _ => handled_tr) rfl ops

/-- Which earlier event explains an event. -/
def Why : List Ev → Ev → Prop
  | pre, .sBegin .killed => .killCalled ∈ pre ∨ (∃ id r, .lEnd id r (.brk .killed) ∈ pre) ∨
      ∃ e, .pEnd e (.brk .killed) ∈ pre
  | _, _ => True

structure Facts (s : St) : Prop where
  ab : s.aborted = true ↔ .killCalled ∈ s.log
  why : Before Why s.log
  lb : ∀ id r, .lBegin id r ∈ s.log → ∃ t, (t, Sig.linkDied id r) ∈ s.mb.received
  st : .stopTaken ∈ s.log → ∃ t, (t, Sig.stop) ∈ s.mb.received
  nr : .noRefs ∉ s.log

theorem drainEv_mem {rest : List Msg} {ts : Bool} {e : Ev} (h : e ∈ drainEv rest ts) :
    (∃ m, e = .hBegin m) ∨ e = .sBegin .normal := by
  unfold drainEv at h
  split at h
  · simp at h; exact Or.inl ⟨_, h⟩
  · split at h <;> simp at h; exact Or.inr h

theorem before_append {R : List Ev → Ev → Prop} {log x : List Ev} (h : Before R log)
    (hx : ∀ pre, ∀ e ∈ x, R pre e) : Before R (log ++ x) := by
  induction x generalizing log with
  | nil => simpa using h
  | cons y ys ih =>
    have : Before R (log ++ [y]) := h.snoc (hx _ _ (by simp))
    have := ih this (fun pre e he => hx pre e (by simp [he]))
    simpa using this

theorem why_cancelEv (p : Phase) : ∀ pre, ∀ e ∈ p.cancelEv, Why pre e := by
  intro pre e he
  cases p <;> simp [Phase.cancelEv] at he <;> subst he <;> trivial

theorem why_drainEv (rest : List Msg) (ts : Bool) : ∀ pre, ∀ e ∈ drainEv rest ts, Why pre e := by
  intro pre e he
  rcases drainEv_mem he with ⟨m, rfl⟩ | rfl <;> trivial

/-- Recording uninteresting events. -/
theorem Facts.keep {s s' : St} (h : Facts s) (x : List Ev) (hl : s'.log = s.log ++ x)
    (ha : s'.aborted = s.aborted) (hr : ∃ y, s'.mb.received = s.mb.received ++ y)
    (hw : Before Why s'.log) (hx : ∀ e ∈ x, e ≠ .killCalled ∧ e ≠ .noRefs ∧
      (∀ id r, e = .lBegin id r → ∃ t, (t, Sig.linkDied id r) ∈ s'.mb.received) ∧
      (e = .stopTaken → ∃ t, (t, Sig.stop) ∈ s'.mb.received)) : Facts s' := by
  obtain ⟨h1, h2, h3, h4, h5⟩ := h
  obtain ⟨y, hy⟩ := hr
  refine ⟨?_, hw, ?_, ?_, ?_⟩
  · rw [ha, h1, hl]
    simp
    intro hm; exact absurd rfl (hx _ hm).1
  · intro id r hm
    rw [hl] at hm
    simp at hm
    rcases hm with hm | hm
    · obtain ⟨t, ht⟩ := h3 id r hm; exact ⟨t, by rw [hy]; simp [ht]⟩
    · exact (hx _ hm).2.2.1 id r rfl
  · intro hm
    rw [hl] at hm
    simp at hm
    rcases hm with hm | hm
    · obtain ⟨t, ht⟩ := h4 hm; exact ⟨t, by rw [hy]; simp [ht]⟩
    · exact (hx _ hm).2.2.2 rfl
  · rw [hl]
    simp [h5]
    intro hm; exact (hx _ hm).2.1 rfl

theorem facts_drain {s s' : St} (h : Facts s) (rest : List Msg) (ts : Bool) (x : List Ev)
    (hl : s'.log = s.log ++ x) (ha : s'.aborted = s.aborted)
    (hr : ∃ y, s'.mb.received = s.mb.received ++ y)
    (hw : Before Why s'.log) (hx : ∀ e ∈ x, e ≠ .killCalled ∧ e ≠ .noRefs ∧
      (∀ id r, e = .lBegin id r → ∃ t, (t, Sig.linkDied id r) ∈ s'.mb.received) ∧
      (e = .stopTaken → ∃ t, (t, Sig.stop) ∈ s'.mb.received)) : Facts (s'.drain rest ts) := by
  refine h.keep (x ++ drainEv rest ts) (by simp [hl]) (by simp [ha]) (by simpa using hr) ?_ ?_
  · rw [drain_log]; exact before_append hw (why_drainEv rest ts)
  · intro e he
    simp only [List.mem_append] at he
    rcases he with he | he
    · simpa using hx e he
    · rcases drainEv_mem he with ⟨m, rfl⟩ | rfl <;> simp

theorem facts_tr {s s' : St} (hs : Shape s) (h : Facts s) (ht : Tr s s') : Facts s' := by
  have hk := @Facts.keep s s' h
  have hw := h.why
  cases ht with
  | refl => exact h
  | send b => exact ⟨h.1, h.2, by simpa [St.step] using h.3, by simpa [St.step] using h.4, h.5⟩
  | trySend b => exact ⟨h.1, h.2, by simpa [St.step] using h.3, by simpa [St.step] using h.4, h.5⟩
  | poll t => exact ⟨h.1, h.2, by simpa [St.step] using h.3, by simpa [St.step] using h.4, h.5⟩
  | cancel t => exact ⟨h.1, h.2, by simpa [St.step] using h.3, by simpa [St.step] using h.4, h.5⟩
  | sendStop => exact ⟨h.1, h.2, by simpa [St.step] using h.3, by simpa [St.step] using h.4, h.5⟩
  | sendLinkDied id r => exact ⟨h.1, h.2, by simpa [St.step] using h.3, by simpa [St.step] using h.4, h.5⟩
  | kill =>
    refine ⟨by simp, hw.snoc trivial, ?_, ?_, ?_⟩
    · intro id r hm; simp at hm; exact h.lb id r hm
    · intro hm; simp at hm; exact h.st hm
    · simp [h.nr]
  | link id => exact ⟨h.1, h.2, h.3, h.4, h.5⟩
  | unlink id => exact ⟨h.1, h.2, h.3, h.4, h.5⟩
  | ref n => exact ⟨h.1, h.2, h.3, h.4, h.5⟩
  | giveUp t _ => exact ⟨h.1, h.2, h.3, h.4, h.5⟩
  | delegSend t r _ =>
    exact hk [.replySent t r] (by simp) (by simp) ⟨[], by simp⟩ (by simp; exact hw.snoc trivial) (by simp)
  | delegDrop t _ => exact ⟨h.1, h.2, h.3, h.4, h.5⟩
  | teardown _ _ =>
    refine hk s.phase.cancelEv (by simp [St.crash]) (by simp) ⟨[], by simp⟩ ?_ ?_
    · simp [St.crash]; exact before_append hw (why_cancelEv _)
    · intro e he; rcases cancelEv_mem he with ⟨m, rfl⟩ | rfl | rfl | rfl | rfl <;> simp
  | run hp => exact hk [.startBegin] rfl rfl ⟨[], by simp⟩ (hw.snoc trivial) (by simp)
  | startOk hp =>
    have := startOk_fields s
    refine hk [.startEnd .ok] (by simp) ?_ ⟨[], by simp [this]⟩ (by simp; exact hw.snoc trivial) (by simp)
    unfold St.startOk; simp only; split <;> rfl
  | startFail o e hp ho =>
    refine hk [.startEnd o, .pBegin e] rfl rfl ⟨[], by simp [St.startFail]⟩ ?_ (by simp)
    exact before_append hw (by simp [Why])
  | abort hp ha =>
    refine hk (s.phase.cancelEv ++ [.sBegin .killed]) (by simp [St.abortSeen]) (by simp) ⟨[], by simp⟩ ?_ ?_
    · simp only [St.abortSeen, leave_log, cancelRunning_log]
      refine (before_append hw (why_cancelEv _)).snoc ?_
      exact Or.inl (by simp [h.ab.mp ha])
    · intro e he
      simp at he
      rcases he with he | rfl
      · rcases cancelEv_mem he with ⟨m, rfl⟩ | rfl | rfl | rfl | rfl <;> simp
      · simp
  | polling hp ha p => exact ⟨h.1, h.2, h.3, h.4, h.5⟩
  | recvNone hp _ _ hn =>
    have := hs.own
    rw [hp] at this
    simp [St.noSenders, this] at hn
  | recvStartup hp hpo t q hq =>
    exact facts_drain h _ _ [] (by simp) rfl ⟨_, recv_received s.mb hq⟩ hw (by simp)
  | recvBuffer hp hpo t b q hq hwi hf =>
    exact hk [] (by simp) rfl ⟨_, recv_received s.mb hq⟩ hw (by simp)
  | recvMsg hp hpo t b q hq hwi =>
    exact hk [.hBegin (t, b)] rfl rfl ⟨_, recv_received s.mb hq⟩ (hw.snoc trivial) (by simp)
  | recvLink hp hpo t id r q hq =>
    refine hk [.lBegin id r] rfl rfl ⟨_, recv_received s.mb hq⟩ (hw.snoc trivial) ?_
    simp
    exact ⟨t, by rw [recv_received s.mb hq]; simp⟩
  | recvStop hp hpo t q hq =>
    refine facts_drain h _ _ [.stopTaken] rfl rfl ⟨_, recv_received s.mb hq⟩ (hw.snoc trivial) ?_
    simp
    exact ⟨t, by rw [recv_received s.mb hq]; simp⟩
  | takeReply m rest ts hp hpo ha => exact ⟨h.1, h.2, h.3, h.4, h.5⟩
  | handlerReply m rest ts res hp hpo ha =>
    exact facts_drain h _ _ [.hEnd m false (.ret res)] (by simp) (by simp) ⟨[], by simp⟩
      (by simp; exact hw.snoc trivial) (by simp)
  | handlerOk m taken rest ts v hp hpo ha =>
    exact facts_drain h _ _ [.hEnd m taken (.ret (.ok v))] (by simp) (by simp) ⟨[], by simp⟩
      (by simp; exact hw.snoc trivial) (by simp)
  | handlerErr m taken rest ts e hp hpo ha =>
    exact hk [.hEnd m taken (.ret (.err e)), .pBegin e] (by simp) (by simp) ⟨[], by simp⟩
      (by simp; exact before_append hw (by simp [Why])) (by simp)
  | handlerPanic m taken rest ts e hp hpo =>
    exact hk [.hEnd m taken (.panic e), .pBegin e] (by simp) (by simp) ⟨[], by simp⟩
      (by simp; exact before_append hw (by simp [Why])) (by simp)
  | linkCont id r hp hpo =>
    exact hk [.lEnd id r .cont] (by simp) (by simp) ⟨[], by simp⟩ (hw.snoc trivial) (by simp)
  | linkStop id r r' hp hpo hr =>
    refine hk [.lEnd id r (.brk r'), .sBegin r'] (by simp) (by simp) ⟨[], by simp⟩ ?_ (by simp)
    refine (hw.snoc (x := .lEnd id r (.brk r')) trivial).snoc ?_
    cases r' <;> simp [Why]
    grind
  | linkPanic id r o e hp hpo ho =>
    exact hk [.lEnd id r o, .pBegin e] (by simp) (by simp) ⟨[], by simp⟩
      (by simp; exact before_append hw (by simp [Why])) (by simp)
  | panicCont e hp hpo =>
    exact hk [.pEnd e .cont] (by simp) (by simp) ⟨[], by simp⟩ (hw.snoc trivial) (by simp)
  | panicStop e o r hp hpo ho =>
    refine hk [.pEnd e o, .sBegin r] (by simp) (by simp) ⟨[], by simp⟩ ?_ (by simp)
    refine (hw.snoc (x := .pEnd e o) trivial).snoc ?_
    rcases ho with rfl | ⟨e', rfl, rfl⟩
    · cases r <;> simp [Why]
    · trivial
  | panicDie e e' hp hpo =>
    exact hk [.pEnd e (.panic e')] (by simp) (by simp) ⟨[], by simp⟩ (hw.snoc trivial) (by simp)
  | startPanicStop e o r hp ho =>
    refine hk [.pEnd e o, .sBegin r] (by simp [St.stopFailed]) (by simp [St.stopFailed]) ⟨[], by simp [St.stopFailed]⟩ ?_ (by simp)
    refine (hw.snoc (x := .pEnd e o) trivial).snoc ?_
    rcases ho with ⟨rfl, rfl⟩ | rfl | ⟨e', rfl, rfl⟩
    · trivial
    · cases r <;> simp [Why]
    · trivial
  | startPanicDie e e' hp =>
    exact hk [.pEnd e (.panic e')] (by simp) (by simp) ⟨[], by simp⟩ (hw.snoc trivial) (by simp)
  | stopNotify r pend o res hp ho =>
    exact hk [.sEnd r o] (by simp) (by simp) ⟨[], by simp⟩ (hw.snoc trivial) (by simp)
  | stopFinish r pend o res hp ho =>
    refine hk [.sEnd r o, .returned r] (by simp) (by simp) ⟨[], by simp⟩ ?_ (by simp)
    exact (hw.snoc (x := .sEnd r o) trivial).snoc trivial
  | stopDie r pend st e hp =>
    exact hk [.sEnd r (.panic e)] (by simp) (by simp) ⟨[], by simp⟩ (hw.snoc trivial) (by simp)
  | notify r pend res id hp hi =>
    exact hk [.notified id r] (by simp) (by simp) ⟨[], by simp⟩ (hw.snoc trivial) (by simp)
  | finish r res hp =>
    exact hk [.returned r] (by simp) (by simp) ⟨[], by simp⟩ (hw.snoc trivial) (by simp)

theorem facts_after (cap : Option Nat) (ops : List Op) : Facts (after cap ops) := by
  apply exec_shape_inv (P := Facts) (fun _ _ => facts_tr) cap ops
  constructor <;> simp [after, St.exec, St.fresh, Before.nil]

end Verif.Lifecycle
