import Verif.Lifecycle.PropsLive

/-!
`on_link_died` is called once for each link-died signal taken from the mailbox, with what the signal carries.
-/

set_option linter.unusedSimpArgs false

namespace Verif.Lifecycle

open Verif.Mailbox

/-- The call of `on_link_died` in an event; `src/actor/kind.rs` L128-150 (specification). -/
def linkRun : Ev → Option (Id × Reason)
  | .lBegin i r => some (i, r)
  | _ => none

/-- The calls of `on_link_died`, in order; `src/actor/kind.rs` L128-150 (specification). -/
def linkRuns (log : List Ev) : List (Id × Reason) := log.filterMap linkRun

/-- What a link-died signal carries; `src/mailbox.rs` L449-452 (specification). -/
def linkTaken : Nat × Sig → Option (Id × Reason)
  | (_, .linkDied i r) => some (i, r)
  | _ => none

@[simp] theorem linkRun_startBegin : linkRun .startBegin = none := rfl
@[simp] theorem linkRun_startEnd (o : UOut) : linkRun (.startEnd o) = none := rfl
@[simp] theorem linkRun_startCancel : linkRun .startCancel = none := rfl
@[simp] theorem linkRun_sCancel : linkRun .sCancel = none := rfl
@[simp] theorem linkRun_lCancel : linkRun .lCancel = none := rfl
@[simp] theorem linkRun_pCancel : linkRun .pCancel = none := rfl
@[simp] theorem linkRun_killCalled : linkRun .killCalled = none := rfl
@[simp] theorem linkRun_stopTaken : linkRun .stopTaken = none := rfl
@[simp] theorem linkRun_noRefs : linkRun .noRefs = none := rfl
@[simp] theorem linkRun_hBegin (m : Msg) : linkRun (.hBegin m) = none := rfl
@[simp] theorem linkRun_hEnd (m : Msg) (t : Bool) (o : HOut) : linkRun (.hEnd m t o) = none := rfl
@[simp] theorem linkRun_hCancel (m : Msg) : linkRun (.hCancel m) = none := rfl
@[simp] theorem linkRun_lBegin (id : Id) (r : Reason) : linkRun (.lBegin id r) = some (id, r) := rfl
@[simp] theorem linkRun_lEnd (id : Id) (r : Reason) (o : FOut) : linkRun (.lEnd id r o) = none := rfl
@[simp] theorem linkRun_pBegin (e : Err) : linkRun (.pBegin e) = none := rfl
@[simp] theorem linkRun_pEnd (e : Err) (o : FOut) : linkRun (.pEnd e o) = none := rfl
@[simp] theorem linkRun_sBegin (r : Reason) : linkRun (.sBegin r) = none := rfl
@[simp] theorem linkRun_sEnd (r : Reason) (o : UOut) : linkRun (.sEnd r o) = none := rfl
@[simp] theorem linkRun_notified (id : Id) (r : Reason) : linkRun (.notified id r) = none := rfl
@[simp] theorem linkRun_returned (r : Reason) : linkRun (.returned r) = none := rfl
@[simp] theorem linkRun_replySent (t : Nat) (r : Res) : linkRun (.replySent t r) = none := rfl

theorem linkRun_drainEv (rest : List Msg) (ts : Bool) : ∀ e ∈ drainEv rest ts, linkRun e = none := by
  intro e he
  rcases drainEv_mem he with ⟨m, rfl⟩ | rfl <;> rfl

theorem linkRun_cancelEv (p : Phase) : ∀ e ∈ p.cancelEv, linkRun e = none := by
  cases p <;> simp [Phase.cancelEv]

theorem linkRuns_tr {s s' : St} (ht : Tr s s') (h : linkRuns s.log = s.mb.received.filterMap linkTaken) :
    linkRuns s'.log = s'.mb.received.filterMap linkTaken := by
  have hd := linkRun_drainEv
  have hc := linkRun_cancelEv
  unfold linkRuns at *
  cases ht with
  | startOk hp =>
    rw [(startOk_fields2 s).2.2.2.2]
    simp [h]
  | teardown => simpa [St.crash, h] using hc _
  | abort => simpa [St.abortSeen, h] using hc _
  | recvNone => simpa [h] using hd _ _
  | recvStartup _ _ t q hq => simpa [recv_received _ hq, h, linkTaken, List.filterMap_cons] using hd _ _
  | recvStop _ _ t q hq => simpa [recv_received _ hq, h, linkTaken, List.filterMap_cons] using hd _ _
  | recvBuffer _ _ t b q hq => simp [recv_received _ hq, h, linkTaken, List.filterMap_cons]
  | recvMsg _ _ t b q hq => simp [recv_received _ hq, h, linkTaken, List.filterMap_cons]
  | recvLink _ _ t id r q hq => simp [recv_received _ hq, h, linkTaken, List.filterMap_cons]
  | handlerReply => simpa [h] using hd _ _
  | handlerOk => simpa [h] using hd _ _
  | refl => exact h
  | _ =>
    first
      | (simp [St.step, St.stopFailed, St.startFail, h, List.filterMap_cons]; done)
      | exact h

/-- **C23** (part). The calls of `on_link_died` are those of the link-died signals taken from the mailbox, one for
each, in the order in which they were sent, with the id and the reason they carry. -/
theorem on_link_died_per_signal (cap : Option Nat) (ops : List Op) :
    linkRuns (after cap ops).log = (after cap ops).mb.received.filterMap linkTaken := by
  refine after_induct (cap := cap) (P := fun _ s => linkRuns s.log = s.mb.received.filterMap linkTaken) rfl ?_ ops
  intro ops op ih
  exact linkRuns_tr (step_tr _ _) ih

/-- Two deaths; the hook is called for the second when the first call is over. -/
example : linkRuns (after none [.run, .startEnd .ok, .pollBegin, .recv, .sendLinkDied 5 .normal, .sendLinkDied 6 .killed,
    .recv, .linkEnd .cont, .recv]).log = [(5, .normal), (6, .killed)] := by decide

end Verif.Lifecycle
