import Verif.Lifecycle.Order
import Verif.Lifecycle.Spec

/-! The event log of the model is accepted by the specification automaton. -/

set_option linter.unusedSimpArgs false

namespace Verif.Lifecycle

open Verif.Mailbox

theorem Life.run_append (l : Life) (a b : List Ev) :
    l.run (a ++ b) = (l.run a).bind (fun l' => l'.run b) := by
  induction a generalizing l with
  | nil => rfl
  | cons e es ih =>
    simp only [List.cons_append, Life.run]
    cases l.step e with
    | none => rfl
    | some l' => exact ih l'

theorem Life.run_snoc {l l' : Life} {a : List Ev} (h : l.run a = some l') (e : Ev) :
    l.run (a ++ [e]) = l'.step e := by
  rw [Life.run_append, h]
  simp only [Option.bind_some, Life.run]
  cases l'.step e <;> rfl

/-- The life state that belongs to a phase of the model. -/
def matchLife : Phase → Life → Prop
  | .prepared, l => l = .notStarted
  | .starting, l => l = .inStart
  | .idle, l => l = .ready false
  | .handling m _ _ ts, l => l = .inHandler m ts
  | .linkDying id r, l => l = .inLink id r
  | .panicking e, l => l = .inPanic e true
  | .startPanicking e, l => l = .inPanic e false
  | .stopping r _ _, l => l = .inStop r
  | .notifying r _ _, l => l = .done r
  | .stopped r, l => l = .returned r
  | .crashed, l => ∀ e st, l ≠ .failing e st

def LogOk (s : St) : Prop := ∃ l, Life.notStarted.run s.log = some l ∧ matchLife s.phase l

/-- The automaton is in state `l` after the log of `s`. -/
def At (s : St) (l : Life) : Prop := Life.notStarted.run s.log = some l

theorem At.ev {s : St} {l l' : Life} (h : At s l) (e : Ev) (hs : l.step e = some l') :
    At (s.ev e) l' := by
  unfold At at *
  rw [ev_log, Life.run_snoc h, hs]

theorem At.of_log {s s' : St} {l : Life} (h : At s l) (hl : s'.log = s.log) : At s' l := by
  unfold At at *; rw [hl]; exact h

theorem At.of_snoc {s s' : St} {l l' : Life} (h : At s l) {e : Ev} (hs : l.step e = some l')
    (hl : s'.log = s.log ++ [e]) : At s' l' := by
  unfold At at *; rw [hl, Life.run_snoc h, hs]

theorem At.of_snoc2 {s s' : St} {l l' l'' : Life} (h : At s l) {e e' : Ev}
    (hs : l.step e = some l') (hs' : l'.step e' = some l'')
    (hl : s'.log = s.log ++ [e, e']) : At s' l'' := by
  have h1 : At (s.ev e) l' := h.ev e hs
  exact h1.of_snoc hs' (by simp [hl])

theorem drain_logOk {s : St} {rest : List Msg} {ts : Bool} (h : At s (.ready ts)) :
    LogOk (s.drain rest ts) := by
  cases rest with
  | cons m ms => exact ⟨.inHandler m ts, h.of_snoc (e := .hBegin m) rfl rfl, by simp [St.drain, matchLife]⟩
  | nil =>
    cases ts with
    | true => exact ⟨.inStop .normal, h.of_snoc (e := .sBegin .normal) rfl rfl, by simp [St.drain, matchLife]⟩
    | false => exact ⟨.ready false, h.of_log rfl, by simp [St.drain, matchLife]⟩

theorem leave_logOk {s : St} {r : Reason} (h : At s (.stopDue r)) : LogOk (s.leave r) :=
  ⟨.inStop r, h.of_snoc (e := .sBegin r) (by simp [Life.step]) rfl, by simp [matchLife]⟩

theorem logOk_tr {s s' : St} (hs : Shape s) (h : LogOk s) (ht : Tr s s') : LogOk s' := by
  obtain ⟨l, hl, hm⟩ := h
  have hl : At s l := hl
  cases ht with
  | refl => exact ⟨l, hl, hm⟩
  | send b => exact ⟨l, hl, hm⟩
  | trySend b => exact ⟨l, hl, hm⟩
  | poll t => exact ⟨l, hl, hm⟩
  | cancel t => exact ⟨l, hl, hm⟩
  | sendStop => exact ⟨l, hl, hm⟩
  | sendLinkDied id r => exact ⟨l, hl, hm⟩
  | kill => exact ⟨l, hl.of_snoc (e := .killCalled) (by cases l <;> rfl) rfl, hm⟩
  | link id => exact ⟨l, hl, hm⟩
  | unlink id => exact ⟨l, hl, hm⟩
  | ref n => exact ⟨l, hl, hm⟩
  | giveUp t h => exact ⟨l, hl, hm⟩
  | delegSend t r _ =>
    exact ⟨l, hl.of_snoc (e := .replySent t r) (by cases l <;> rfl) (by simp), by simpa using hm⟩
  | delegDrop t _ => exact ⟨l, hl.of_log (by simp), by simpa using hm⟩
  | teardown hn1 hn2 =>
    cases hp : s.phase
    case stopped r => exact absurd hp (hn1 r)
    case crashed => exact absurd hp hn2
    all_goals
      rw [hp] at hm
      simp only [matchLife] at hm
      subst hm
    case prepared => exact ⟨_, hl.of_log (by simp [St.crash, St.cancelRunning, hp]), by simp [matchLife]⟩
    case idle => exact ⟨_, hl.of_log (by simp [St.crash, St.cancelRunning, hp]), by simp [matchLife]⟩
    case notifying => exact ⟨_, hl.of_log (by simp [St.crash, St.cancelRunning, hp]), by simp [matchLife]⟩
    case starting =>
      exact ⟨_, hl.of_snoc (e := .startCancel) rfl (by simp [St.crash, St.cancelRunning, hp]), by simp [matchLife]⟩
    case handling m _ _ _ _ =>
      exact ⟨_, hl.of_snoc (e := .hCancel m) (l' := .stopDue .killed) (by simp [Life.step]) (by simp [St.crash, St.cancelRunning, hp]), by simp [matchLife]⟩
    case linkDying =>
      exact ⟨_, hl.of_snoc (e := .lCancel) rfl (by simp [St.crash, St.cancelRunning, hp]), by simp [matchLife]⟩
    case panicking =>
      exact ⟨_, hl.of_snoc (e := .pCancel) rfl (by simp [St.crash, St.cancelRunning, hp]), by simp [matchLife]⟩
    case startPanicking =>
      exact ⟨_, hl.of_snoc (e := .pCancel) rfl (by simp [St.crash, St.cancelRunning, hp]), by simp [matchLife]⟩
    case stopping =>
      exact ⟨_, hl.of_snoc (e := .sCancel) rfl (by simp [St.crash, St.cancelRunning, hp]), by simp [matchLife]⟩
  | run hp =>
    rw [hp] at hm; simp only [matchLife] at hm; subst hm
    exact ⟨_, hl.of_snoc (e := .startBegin) rfl rfl, by simp [matchLife]⟩
  | startOk hp =>
    rw [hp] at hm; simp only [matchLife] at hm; subst hm
    refine ⟨.ready false, hl.of_snoc (e := .startEnd .ok) rfl ?_, ?_⟩
    · unfold St.startOk; simp only; split <;> simp
    · unfold St.startOk; simp only; split <;> simp [matchLife]
  | startFail o e hp ho =>
    rw [hp] at hm; simp only [matchLife] at hm; subst hm
    refine ⟨.inPanic e false, hl.of_snoc2 (e := .startEnd o) (e' := .pBegin e) (l' := .failing e false) ?_ ?_ rfl, ?_⟩
    · rcases ho with rfl | rfl <;> rfl
    · simp [Life.step]
    · simp [St.startFail, matchLife]
  | abort hp ha =>
    cases hph : s.phase
    case idle =>
      rw [hph] at hm; simp only [matchLife] at hm; subst hm
      exact ⟨_, hl.of_snoc (e := .sBegin .killed) rfl (by simp [St.abortSeen, St.cancelRunning, hph]), by simp [St.abortSeen, matchLife]⟩
    case handling m tk rs ts =>
      rw [hph] at hm; simp only [matchLife] at hm; subst hm
      exact leave_logOk (hl.of_snoc (e := .hCancel m) (by simp [Life.step]) (by simp [St.cancelRunning, hph]))
    case linkDying =>
      rw [hph] at hm; simp only [matchLife] at hm; subst hm
      exact leave_logOk (hl.of_snoc (e := .lCancel) rfl (by simp [St.cancelRunning, hph]))
    case panicking =>
      rw [hph] at hm; simp only [matchLife] at hm; subst hm
      exact leave_logOk (hl.of_snoc (e := .pCancel) rfl (by simp [St.cancelRunning, hph]))
    all_goals simp [hph] at hp
  | polling hp ha p => exact ⟨l, hl, hm⟩
  | recvNone hp _ _ hn =>
    have := hs.own
    rw [hp] at this
    simp [St.noSenders, this] at hn
  | recvStartup hp hpo t q hq =>
    rw [hp] at hm; simp only [matchLife] at hm; subst hm
    exact drain_logOk (hl.of_log rfl)
  | recvBuffer hp hpo t b q hq hw hf => exact ⟨l, hl, hm⟩
  | recvMsg hp hpo t b q hq hw =>
    rw [hp] at hm; simp only [matchLife] at hm; subst hm
    exact ⟨_, hl.of_snoc (e := .hBegin (t, b)) rfl rfl, by simp [matchLife]⟩
  | recvLink hp hpo t id r q hq =>
    rw [hp] at hm; simp only [matchLife] at hm; subst hm
    exact ⟨_, hl.of_snoc (e := .lBegin id r) rfl rfl, by simp [matchLife]⟩
  | recvStop hp hpo t q hq =>
    rw [hp] at hm; simp only [matchLife] at hm; subst hm
    exact drain_logOk (hl.of_snoc (e := .stopTaken) rfl rfl)
  | takeReply m rest ts hp hpo ha =>
    rw [hp] at hm; simp only [matchLife] at hm; subst hm
    exact ⟨_, hl, by simp [matchLife]⟩
  | handlerReply m rest ts res hp hpo ha =>
    rw [hp] at hm; simp only [matchLife] at hm; subst hm
    refine drain_logOk (hl.of_snoc (e := .hEnd m false (.ret res)) ?_ (by simp))
    cases res <;> simp [Life.step, afterHandler, ha]
  | handlerOk m taken rest ts v hp hpo ha =>
    rw [hp] at hm; simp only [matchLife] at hm; subst hm
    refine drain_logOk (hl.of_snoc (e := .hEnd m taken (.ret (.ok v))) ?_ (by simp))
    simp [Life.step, afterHandler]
  | handlerErr m taken rest ts e hp hpo ha =>
    rw [hp] at hm; simp only [matchLife] at hm; subst hm
    refine ⟨.inPanic e true, hl.of_snoc2 (e := .hEnd m taken (.ret (.err e))) (e' := .pBegin e) (l' := .failing e true) ?_ ?_ (by simp), by simp [matchLife]⟩
    · rcases ha with ha | ha <;> simp [Life.step, afterHandler, ha]
    · simp [Life.step]
  | handlerPanic m taken rest ts e hp hpo =>
    rw [hp] at hm; simp only [matchLife] at hm; subst hm
    refine ⟨.inPanic e true, hl.of_snoc2 (e := .hEnd m taken (.panic e)) (e' := .pBegin e) (l' := .failing e true) ?_ ?_ (by simp), by simp [matchLife]⟩
    · simp [Life.step, afterHandler]
    · simp [Life.step]
  | linkCont id r hp hpo =>
    rw [hp] at hm; simp only [matchLife] at hm; subst hm
    exact ⟨_, hl.of_snoc (e := .lEnd id r .cont) (l' := .ready false) (by simp [Life.step, afterLink]) rfl, by simp [matchLife]⟩
  | linkStop id r r' hp hpo hr =>
    rw [hp] at hm; simp only [matchLife] at hm; subst hm
    refine leave_logOk (hl.of_snoc (e := .lEnd id r (.brk r')) ?_ rfl)
    cases r' <;> simp_all [Life.step, afterLink]
  | linkPanic id r o e hp hpo ho =>
    rw [hp] at hm; simp only [matchLife] at hm; subst hm
    refine ⟨.inPanic e true, hl.of_snoc2 (e := .lEnd id r o) (e' := .pBegin e) (l' := .failing e true) ?_ ?_ (by simp), by simp [matchLife]⟩
    · rcases ho with rfl | rfl | rfl <;> simp [Life.step, afterLink]
    · simp [Life.step]
  | panicCont e hp hpo =>
    rw [hp] at hm; simp only [matchLife] at hm; subst hm
    exact ⟨_, hl.of_snoc (e := .pEnd e .cont) (by simp [Life.step, afterPanic]; rfl) rfl, by simp [matchLife]⟩
  | panicStop e o r hp hpo ho =>
    rw [hp] at hm; simp only [matchLife] at hm; subst hm
    refine leave_logOk (hl.of_snoc (e := .pEnd e o) ?_ rfl)
    rcases ho with rfl | ⟨e', rfl, rfl⟩ <;> simp [Life.step, afterPanic]
  | panicDie e e' hp hpo =>
    rw [hp] at hm; simp only [matchLife] at hm; subst hm
    exact ⟨.dead, hl.of_snoc (e := .pEnd e (.panic e')) (by simp [Life.step, afterPanic]) rfl, by simp [matchLife]⟩
  | startPanicStop e o r hp ho =>
    rw [hp] at hm; simp only [matchLife] at hm; subst hm
    refine ⟨.inStop r, hl.of_snoc2 (e := .pEnd e o) (e' := .sBegin r) (l' := .stopDue r) ?_ (by simp [Life.step]) (by simp [St.stopFailed]), by simp [matchLife, St.stopFailed]⟩
    rcases ho with ⟨rfl, rfl⟩ | rfl | ⟨e', rfl, rfl⟩ <;> simp [Life.step, afterPanic]
  | startPanicDie e e' hp =>
    rw [hp] at hm; simp only [matchLife] at hm; subst hm
    exact ⟨.dead, hl.of_snoc (e := .pEnd e (.panic e')) (by simp [Life.step, afterPanic]) rfl, by simp [matchLife]⟩
  | stopNotify r pend o res hp ho =>
    rw [hp] at hm; simp only [matchLife] at hm; subst hm
    refine ⟨_, hl.of_snoc (e := .sEnd r o) (l' := .done r) ?_ rfl, by simp [matchLife]⟩
    rcases ho with ⟨rfl, _⟩ | ⟨e, rfl, _⟩ <;> simp [Life.step]
  | stopFinish r pend o res hp ho =>
    rw [hp] at hm; simp only [matchLife] at hm; subst hm
    refine ⟨.returned r, hl.of_snoc2 (e := .sEnd r o) (e' := .returned r) (l' := .done r) ?_ (by simp [Life.step]) (by simp), by simp [matchLife]⟩
    rcases ho with ⟨rfl, _⟩ | ⟨e, rfl, _⟩ <;> simp [Life.step]
  | stopDie r pend st e hp =>
    rw [hp] at hm; simp only [matchLife] at hm; subst hm
    exact ⟨.dead, hl.of_snoc (e := .sEnd r (.panic e)) (by simp [Life.step]) rfl, by simp [matchLife]⟩
  | notify r pend res id hp hi =>
    rw [hp] at hm; simp only [matchLife] at hm; subst hm
    exact ⟨_, hl.of_snoc (e := .notified id r) (by simp [Life.step]; rfl) rfl, by simp [matchLife]⟩
  | finish r res hp =>
    rw [hp] at hm; simp only [matchLife] at hm; subst hm
    exact ⟨_, hl.of_snoc (e := .returned r) (by simp [Life.step]; rfl) rfl, by simp [matchLife]⟩

theorem exec_shape_inv {P : St → Prop} (hstep : ∀ s s', Shape s → P s → Tr s s' → P s')
    (cap : Option Nat) (ops : List Op) (h : P (after cap [])) : P (after cap ops) :=
  (exec_inv (P := fun s => Shape s ∧ P s)
    (fun _ _ h ht => ⟨shape_tr h.1 ht, hstep _ _ h.1 h.2 ht⟩) ⟨shape_after cap [], h⟩ ops).2

theorem logOk_after (cap : Option Nat) (ops : List Op) : LogOk (after cap ops) :=
  exec_shape_inv (fun _ _ => logOk_tr) cap ops ⟨.notStarted, rfl, rfl⟩

end Verif.Lifecycle
