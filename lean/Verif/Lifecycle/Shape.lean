import Verif.Lifecycle.Trans

/-! Structural invariants of the lifecycle model. -/

set_option linter.unusedSimpArgs false

namespace Verif.Lifecycle

open Verif.Mailbox

/-- The actor's task has ended. -/
def Phase.ended : Phase → Bool
  | .stopped _ => true
  | .crashed => true
  | _ => false

/-- The message loop has not been entered: nothing was received. -/
def Phase.early : Phase → Bool
  | .prepared => true
  | .starting => true
  | .startPanicking _ => true
  | .stopping _ _ false => true
  | _ => false

/-- `on_start` has not ended. -/
def Phase.unborn : Phase → Bool
  | .prepared => true
  | .starting => true
  | _ => false

/-- Messages taken from the start-up buffer, still to be handled. -/
def Phase.rest : Phase → List Msg
  | .handling _ _ rest _ => rest
  | _ => []

def Phase.thenStop : Phase → Bool
  | .handling _ _ _ ts => ts
  | _ => false


section phases
variable (m : Msg) (tk ts b : Bool) (rs : List Msg) (i : Id) (r : Reason) (e : Err)
  (p : List Id) (x : Option Err)
@[simp] theorem ended_prepared : Phase.prepared.ended = false := rfl
@[simp] theorem ended_starting : Phase.starting.ended = false := rfl
@[simp] theorem ended_idle : Phase.idle.ended = false := rfl
@[simp] theorem ended_handling : (Phase.handling m tk rs ts).ended = false := rfl
@[simp] theorem ended_linkDying : (Phase.linkDying i r).ended = false := rfl
@[simp] theorem ended_panicking : (Phase.panicking e).ended = false := rfl
@[simp] theorem ended_startPanicking : (Phase.startPanicking e).ended = false := rfl
@[simp] theorem ended_stopping : (Phase.stopping r p b).ended = false := rfl
@[simp] theorem ended_notifying : (Phase.notifying r p x).ended = false := rfl
@[simp] theorem ended_stopped : (Phase.stopped r).ended = true := rfl
@[simp] theorem ended_crashed : Phase.crashed.ended = true := rfl
@[simp] theorem early_prepared : Phase.prepared.early = true := rfl
@[simp] theorem early_starting : Phase.starting.early = true := rfl
@[simp] theorem early_idle : Phase.idle.early = false := rfl
@[simp] theorem early_handling : (Phase.handling m tk rs ts).early = false := rfl
@[simp] theorem early_linkDying : (Phase.linkDying i r).early = false := rfl
@[simp] theorem early_panicking : (Phase.panicking e).early = false := rfl
@[simp] theorem early_startPanicking : (Phase.startPanicking e).early = true := rfl
@[simp] theorem early_stopping : (Phase.stopping r p b).early = !b := by cases b <;> rfl
@[simp] theorem early_notifying : (Phase.notifying r p x).early = false := rfl
@[simp] theorem early_stopped : (Phase.stopped r).early = false := rfl
@[simp] theorem early_crashed : Phase.crashed.early = false := rfl
@[simp] theorem unborn_prepared : Phase.prepared.unborn = true := rfl
@[simp] theorem unborn_starting : Phase.starting.unborn = true := rfl
@[simp] theorem unborn_idle : Phase.idle.unborn = false := rfl
@[simp] theorem unborn_handling : (Phase.handling m tk rs ts).unborn = false := rfl
@[simp] theorem unborn_linkDying : (Phase.linkDying i r).unborn = false := rfl
@[simp] theorem unborn_panicking : (Phase.panicking e).unborn = false := rfl
@[simp] theorem unborn_startPanicking : (Phase.startPanicking e).unborn = false := rfl
@[simp] theorem unborn_stopping : (Phase.stopping r p b).unborn = false := rfl
@[simp] theorem unborn_notifying : (Phase.notifying r p x).unborn = false := rfl
@[simp] theorem unborn_stopped : (Phase.stopped r).unborn = false := rfl
@[simp] theorem unborn_crashed : Phase.crashed.unborn = false := rfl
@[simp] theorem rest_prepared : Phase.prepared.rest = [] := rfl
@[simp] theorem rest_starting : Phase.starting.rest = [] := rfl
@[simp] theorem rest_idle : Phase.idle.rest = [] := rfl
@[simp] theorem rest_handling : (Phase.handling m tk rs ts).rest = rs := rfl
@[simp] theorem rest_linkDying : (Phase.linkDying i r).rest = [] := rfl
@[simp] theorem rest_panicking : (Phase.panicking e).rest = [] := rfl
@[simp] theorem rest_startPanicking : (Phase.startPanicking e).rest = [] := rfl
@[simp] theorem rest_stopping : (Phase.stopping r p b).rest = [] := rfl
@[simp] theorem rest_notifying : (Phase.notifying r p x).rest = [] := rfl
@[simp] theorem rest_stopped : (Phase.stopped r).rest = [] := rfl
@[simp] theorem rest_crashed : Phase.crashed.rest = [] := rfl
@[simp] theorem thenStop_prepared : Phase.prepared.thenStop = false := rfl
@[simp] theorem thenStop_starting : Phase.starting.thenStop = false := rfl
@[simp] theorem thenStop_idle : Phase.idle.thenStop = false := rfl
@[simp] theorem thenStop_handling : (Phase.handling m tk rs ts).thenStop = ts := rfl
@[simp] theorem thenStop_linkDying : (Phase.linkDying i r).thenStop = false := rfl
@[simp] theorem thenStop_panicking : (Phase.panicking e).thenStop = false := rfl
@[simp] theorem thenStop_startPanicking : (Phase.startPanicking e).thenStop = false := rfl
@[simp] theorem thenStop_stopping : (Phase.stopping r p b).thenStop = false := rfl
@[simp] theorem thenStop_notifying : (Phase.notifying r p x).thenStop = false := rfl
@[simp] theorem thenStop_stopped : (Phase.stopped r).thenStop = false := rfl
@[simp] theorem thenStop_crashed : Phase.crashed.thenStop = false := rfl
@[simp] theorem inLoop_prepared : Phase.prepared.inLoop = false := rfl
@[simp] theorem inLoop_starting : Phase.starting.inLoop = false := rfl
@[simp] theorem inLoop_idle : Phase.idle.inLoop = true := rfl
@[simp] theorem inLoop_handling : (Phase.handling m tk rs ts).inLoop = true := rfl
@[simp] theorem inLoop_linkDying : (Phase.linkDying i r).inLoop = true := rfl
@[simp] theorem inLoop_panicking : (Phase.panicking e).inLoop = true := rfl
@[simp] theorem inLoop_startPanicking : (Phase.startPanicking e).inLoop = false := rfl
@[simp] theorem inLoop_stopping : (Phase.stopping r p b).inLoop = false := rfl
@[simp] theorem inLoop_notifying : (Phase.notifying r p x).inLoop = false := rfl
@[simp] theorem inLoop_stopped : (Phase.stopped r).inLoop = false := rfl
@[simp] theorem inLoop_crashed : Phase.crashed.inLoop = false := rfl
end phases

structure Shape (s : St) : Prop where
  mb : Inv s.mb
  closed : s.mb.closed = s.phase.ended
  own : s.own = !s.phase.ended
  cut : s.finished = s.cut.isSome
  buf : s.buffer ≠ [] → s.finished = false ∧ s.phase.inLoop = true
  rest : s.phase.rest ≠ [] → s.finished = true
  ts : s.phase.thenStop = true → s.finished = true
  early : s.phase.early = true → s.mb.received = [] ∧ s.finished = false ∧ s.handled = []
    ∧ s.lost = [] ∧ s.delegated = []
  pol : s.polling = true → s.phase.inLoop = true

@[simp] theorem finishStartup_cut (s : St) : s.finishStartup.cut.isSome = true := by
  unfold St.finishStartup; simp only; split <;> rfl

theorem shape_drain {s : St} (rest : List Msg) (ts : Bool) (hmb : Inv s.mb)
    (hc : s.mb.closed = false) (ho : s.own = true) (hcut : s.finished = s.cut.isSome)
    (hb : s.buffer ≠ [] → s.finished = false) (hr : rest ≠ [] → s.finished = true)
    (ht : ts = true → s.finished = true) :
    Shape (s.drain rest ts) := by
  cases rest with
  | cons m ms => constructor <;> simp_all [St.drain]
  | nil =>
    cases ts with
    | true => constructor <;> simp_all [St.drain]
    | false => constructor <;> simp_all [St.drain]

theorem Shape.alive {s : St} (h : Shape s) (hp : s.phase.ended = false) :
    s.mb.closed = false ∧ s.own = true := by
  rw [h.closed, h.own, hp]; simp

theorem shape_tr {s s' : St} (h : Shape s) (ht : Tr s s') : Shape s' := by
  obtain ⟨h1, h2, h3, h4, h5, h6, h7, h8, h9⟩ := h
  cases ht with
  | refl => exact ⟨h1, h2, h3, h4, h5, h6, h7, h8, h9⟩
  | send b => exact ⟨inv_send h1 _, by simpa [St.step] using h2, h3, h4, h5, h6, h7, by simpa [St.step] using h8, h9⟩
  | trySend b => exact ⟨inv_trySend h1 _, by simpa [St.step] using h2, h3, h4, h5, h6, h7, by simpa [St.step] using h8, h9⟩
  | poll t => exact ⟨inv_poll h1 _, by simpa using h2, h3, h4, h5, h6, h7, by simpa using h8, h9⟩
  | cancel t => exact ⟨inv_cancel h1 _, by simpa [St.step] using h2, h3, h4, h5, h6, h7, by simpa [St.step] using h8, h9⟩
  | sendStop => exact ⟨inv_send h1 _, by simpa using h2, h3, h4, h5, h6, h7, by simpa using h8, h9⟩
  | sendLinkDied id r => exact ⟨inv_send h1 _, by simpa using h2, h3, h4, h5, h6, h7, by simpa using h8, h9⟩
  | kill => exact ⟨h1, h2, h3, h4, h5, h6, h7, h8, h9⟩
  | link id => exact ⟨h1, h2, h3, h4, h5, h6, h7, h8, h9⟩
  | unlink id => exact ⟨h1, h2, h3, h4, h5, h6, h7, h8, h9⟩
  | ref n => exact ⟨h1, h2, h3, h4, h5, h6, h7, h8, h9⟩
  | giveUp t h => exact ⟨h1, h2, h3, h4, h5, h6, h7, h8, h9⟩
  | delegSend t r hm =>
    exact ⟨by simpa using h1, by simpa using h2, by simpa using h3, by simpa using h4, by simpa using h5,
      by simpa using h6, by simpa using h7, fun he => by simp_all, by simpa using h9⟩
  | delegDrop t hm =>
    exact ⟨by simpa using h1, by simpa using h2, by simpa using h3, by simpa using h4, by simpa using h5,
      by simpa using h6, by simpa using h7, fun he => by simp_all, by simpa using h9⟩
  | teardown _ _ =>
    exact ⟨by simpa using inv_close h1, by simp, by simp, by simpa using h4, by simp, by simp,
      by simp, by simp, by simp⟩
  | run hp => constructor <;> simp_all
  | startOk hp =>
    have : Inv (s.mb.trySend Sig.startup) := inv_trySend h1 _
    unfold St.startOk
    simp only
    split
    · constructor <;> simp_all
    · constructor <;> simp_all
  | startFail o e hp ho =>
    have : Inv (s.mb.trySend Sig.startup) := inv_trySend h1 _
    unfold St.startFail
    constructor <;> simp_all
  | abort hp ha =>
    unfold St.abortSeen
    have he : s.phase.ended = false := by cases hh : s.phase <;> simp_all
    constructor <;> simp_all
  | polling hp ha p => exact ⟨h1, h2, h3, h4, h5, h6, h7, h8, fun _ => hp⟩
  | recvNone hp _ _ _ =>
    apply shape_drain <;> simp_all
  | recvStartup hp hpo t q hq =>
    have := inv_recv h1
    apply shape_drain <;> simp_all
  | recvBuffer hp hpo t b q hq hw hf =>
    have := inv_recv h1
    constructor <;> simp_all
  | recvMsg hp hpo t b q hq hw =>
    have := inv_recv h1
    constructor <;> simp_all
  | recvLink hp hpo t id r q hq =>
    have := inv_recv h1
    constructor <;> simp_all
  | recvStop hp hpo t q hq =>
    have := inv_recv h1
    apply shape_drain <;> simp_all
  | takeReply m rest ts hp hpo ha => constructor <;> simp_all
  | handlerReply m rest ts res hp hpo ha => apply shape_drain <;> simp_all
  | handlerOk m taken rest ts v hp hpo ha => apply shape_drain <;> simp_all
  | handlerErr m taken rest ts e hp hpo ha => constructor <;> simp_all
  | handlerPanic m taken rest ts e hp hpo => constructor <;> simp_all
  | linkCont id r hp hpo => constructor <;> simp_all
  | linkStop id r r' hp hpo hr => constructor <;> simp_all
  | linkPanic id r o e hp hpo ho => constructor <;> simp_all
  | panicCont e hp hpo => constructor <;> simp_all
  | panicStop e o r hp hpo ho => constructor <;> simp_all
  | panicDie e e' hp hpo => have := inv_close h1; constructor <;> simp_all
  | startPanicStop e o r hp ho => constructor <;> simp_all [St.stopFailed]
  | startPanicDie e e' hp => have := inv_close h1; constructor <;> simp_all
  | stopNotify r pend o res hp ho => constructor <;> simp_all
  | stopFinish r pend o res hp ho => have := inv_close h1; constructor <;> simp_all
  | stopDie r pend st e hp => have := inv_close h1; constructor <;> simp_all
  | notify r pend res id hp hi => constructor <;> simp_all
  | finish r res hp => have := inv_close h1; constructor <;> simp_all

theorem shape_after (cap : Option Nat) (ops : List Op) : Shape (after cap ops) := by
  apply exec_inv (fun _ _ h ht => shape_tr h ht)
  constructor <;> simp [St.fresh, inv_fresh]
  simp [Mb.fresh]
  simp [Mb.fresh]

end Verif.Lifecycle
