import Verif.Lifecycle.Shape

/-! Conservation and order of received messages. -/

set_option linter.unusedSimpArgs false

namespace Verif.Lifecycle

open Verif.Mailbox

/-- Specification of the order in which an actor may handle what it received, when start-up
ended after `k` received signals: first the messages it sent to itself, then the others, of
those first `k`; then everything else as received. -/
def startupOrder (k : Nat) (received : List (Nat × Sig)) : List Msg :=
  (msgsOf (received.take k)).filter (·.2.within)
    ++ (msgsOf (received.take k)).filter (fun m => !m.2.within)
    ++ msgsOf (received.drop k)

@[simp] theorem msgsOf_nil : msgsOf [] = [] := rfl
@[simp] theorem msgsOf_append (a b : List (Nat × Sig)) : msgsOf (a ++ b) = msgsOf a ++ msgsOf b := by
  simp [msgsOf]
@[simp] theorem msgsOf_msg (t : Nat) (b : Body) : msgsOf [(t, .msg b)] = [(t, b)] := rfl
@[simp] theorem msgsOf_startup (t : Nat) : msgsOf [(t, .startup)] = [] := rfl
@[simp] theorem msgsOf_stop (t : Nat) : msgsOf [(t, .stop)] = [] := rfl
@[simp] theorem msgsOf_link (t : Nat) (i : Id) (r : Reason) : msgsOf [(t, .linkDied i r)] = [] := rfl

theorem mem_msgsOf {l : List (Nat × Sig)} {m : Msg} : m ∈ msgsOf l ↔ (m.1, Sig.msg m.2) ∈ l := by
  simp only [msgsOf, List.mem_filterMap]
  constructor
  · rintro ⟨⟨t, sg⟩, hp, h⟩
    cases sg <;> simp at h
    subst h
    exact hp
  · intro h
    exact ⟨_, h, rfl⟩

theorem startupOrder_append (k : Nat) (R x : List (Nat × Sig)) (h : k ≤ R.length) :
    startupOrder k (R ++ x) = startupOrder k R ++ msgsOf x := by
  have h1 : (R ++ x).take k = R.take k := by
    rw [List.take_append]; simp [Nat.sub_eq_zero_of_le h]
  have h2 : (R ++ x).drop k = R.drop k ++ x := by
    rw [List.drop_append]; simp [Nat.sub_eq_zero_of_le h]
  simp [startupOrder, h1, h2]

theorem startupOrder_all (R : List (Nat × Sig)) :
    startupOrder R.length R =
      (msgsOf R).filter (·.2.within) ++ (msgsOf R).filter (fun m => !m.2.within) := by
  simp [startupOrder]

/-- Everything received is accounted for: its handler was started, it is about to be handled,
it is in the start-up buffer, or it was dropped. -/
def Acct (s : St) (fl : List Msg) : Prop :=
  (msgsOf s.mb.received).Perm (s.handled ++ fl ++ s.buffer ++ s.lost)

theorem Acct.drain {s : St} {rest : List Msg} {ts : Bool} (h : Acct s rest) :
    Acct (s.drain rest ts) (s.drain rest ts).phase.rest := by
  unfold Acct at *
  cases rest with
  | cons m ms => simp [St.drain] at *; exact h
  | nil =>
    cases ts with
    | true =>
      simp [St.drain] at *
      exact h.trans (List.perm_append_comm.append_left _)
    | false => simp [St.drain] at *; exact h

theorem Acct.lose {s : St} {fl : List Msg} (h : Acct s fl) : Acct (s.lose fl) [] := by
  unfold Acct at *
  simp at *
  refine h.trans (List.Perm.append_left _ ?_)
  calc fl ++ (s.buffer ++ s.lost) = fl ++ (s.buffer ++ s.lost) := rfl
    _ |>.Perm ((s.buffer ++ s.lost) ++ fl) := List.perm_append_comm
    _ = s.buffer ++ (s.lost ++ fl) := by simp

theorem Acct.leave {s : St} {r : Reason} (h : Acct s []) : Acct (s.leave r) [] := by
  unfold Acct at *
  simp at *
  exact h.trans (List.perm_append_comm.append_left _)

theorem Acct.die {s : St} (h : Acct s []) : Acct s.die [] := by
  unfold Acct at *
  simp at *
  exact h.trans (List.perm_append_comm.append_left _)

theorem Acct.cancelRunning {s : St} (h : Acct s s.phase.rest) : Acct s.cancelRunning [] := by
  cases hp : s.phase
  case handling m taken rest ts =>
    rw [hp] at h
    have h1 : Acct (s.dropReplies (if taken then [] else [m.1])) rest := h
    unfold St.cancelRunning
    rw [hp]
    exact h1.lose
  all_goals simp_all [Acct, St.cancelRunning]

/-- Order of handling. -/
structure Ord (s : St) (fl : List Msg) : Prop where
  none : s.cut = none → s.handled = (msgsOf s.mb.received).filter (·.2.within) ∧
    (s.phase.inLoop = true → s.buffer = (msgsOf s.mb.received).filter (fun m => !m.2.within))
  some : ∀ k, s.cut = some k → k ≤ s.mb.received.length ∧
    (s.handled ++ fl).Sublist (startupOrder k s.mb.received) ∧
    (msgsOf (s.mb.received.take k)).filter (·.2.within) <+: s.handled

theorem Ord.drain {s : St} {rest : List Msg} {ts : Bool} (h : Ord s rest) (hcut : s.cut.isSome)
    : Ord (s.drain rest ts) (s.drain rest ts).phase.rest := by
  cases rest with
  | cons m ms =>
    constructor
    · intro hn; simp at hn; simp [hn] at hcut
    · intro k hk
      simp [St.drain] at hk ⊢
      obtain ⟨h1, h2, h3⟩ := h.some k hk
      exact ⟨h1, h2, h3.trans (List.prefix_append _ _)⟩
  | nil =>
    cases ts with
    | true =>
      constructor
      · intro hn; simp at hn; simp [hn] at hcut
      · intro k hk
        simp [St.drain] at hk ⊢
        simpa using h.some k hk
    | false =>
      constructor
      · intro hn; simp at hn; simp [hn] at hcut
      · intro k hk
        simp [St.drain] at hk ⊢
        simpa using h.some k hk

/-- Same received/handled/cut, buffer irrelevant outside the loop. -/
theorem Ord.keep {s s' : St} {fl fl' : List Msg} (h : Ord s fl) (h1 : s'.mb.received = s.mb.received)
    (h2 : s'.handled = s.handled) (h3 : s'.cut = s.cut)
    (h4 : s'.phase.inLoop = true → s.phase.inLoop = true ∧ s'.buffer = s.buffer)
    (h5 : fl'.Sublist fl) : Ord s' fl' := by
  constructor
  · intro hn
    rw [h3] at hn
    rw [h1, h2]
    refine ⟨(h.none hn).1, fun hl => ?_⟩
    rw [(h4 hl).2]
    exact (h.none hn).2 (h4 hl).1
  · intro k hk
    rw [h3] at hk
    rw [h1, h2]
    obtain ⟨a, b, c⟩ := h.some k hk
    exact ⟨a, (h5.append_left _).trans b, c⟩

theorem Shape.cut_none {s : St} (h : Shape s) (hf : s.finished = false) : s.cut = .none := by
  have := h.cut
  cases hc : s.cut with
  | none => rfl
  | some k => simp [hf, hc] at this

theorem Shape.buf_nil {s : St} (h : Shape s) (hp : s.finished = true ∨ s.phase.inLoop = false) :
    s.buffer = [] := by
  cases hb : s.buffer with
  | nil => rfl
  | cons x xs =>
    have := h.buf (by simp [hb])
    rcases hp with hp | hp <;> simp [hp] at this

theorem Shape.cut_some {s : St} (h : Shape s) (hf : s.finished = true) : s.cut.isSome = true := by
  rw [← h.cut, hf]

theorem ord_finish {s : St} {p : Nat × Sig} (hs : Shape s) (h : Ord s []) (hp : s.phase = .idle)
    (hm : msgsOf [p] = []) {mb : Mb Sig} (hmb : mb.received = s.mb.received ++ [p]) :
    Ord ({ s with mb := mb }.finishStartup) s.buffer := by
  constructor
  · intro hn
    have := finishStartup_cut { s with mb := mb }
    simp [hn] at this
  · intro k hk
    cases hc : s.cut with
    | none =>
      obtain ⟨h1, h2⟩ := h.none hc
      simp [St.finishStartup, hc] at hk ⊢
      subst hk
      have h2 := h2 (by simp [hp])
      refine ⟨Nat.le_refl _, ?_, ?_⟩
      · rw [startupOrder_all, hmb, h1, h2]; simp [hm]
      · rw [List.take_length, hmb, h1]; simp [hm]
    | some k' =>
      simp [St.finishStartup, hc] at hk ⊢
      subst hk
      obtain ⟨h1, h2, h3⟩ := h.some k' hc
      have hb : s.buffer = [] := by
        cases hbb : s.buffer with
        | nil => rfl
        | cons x xs => have := hs.buf (by simp [hbb]); rw [hs.cut, hc] at this; simp at this
      rw [hmb]
      refine ⟨by simp; omega, ?_, ?_⟩
      · rw [startupOrder_append _ _ _ h1, hm, hb]; simpa using h2
      · rw [List.take_append_of_le_length h1]; exact h3

theorem drain_case {s s' : St} {rest : List Msg} {ts : Bool} (hs : Shape s) (ha : Acct s rest)
    (ho : Ord s rest) (hr : s.phase.rest = rest ∧ s.phase.thenStop = ts ∧ s.phase.inLoop = true)
    (h1 : s'.mb = s.mb) (h2 : s'.handled = s.handled) (h3 : s'.cut = s.cut)
    (h4 : s'.buffer = s.buffer) (h5 : s'.lost = s.lost) (h6 : s'.phase = s.phase) :
    Acct (s'.drain rest ts) (s'.drain rest ts).phase.rest ∧
      Ord (s'.drain rest ts) (s'.drain rest ts).phase.rest := by
  constructor
  · apply Acct.drain
    unfold Acct at *
    rw [h1, h2, h4, h5]; exact ha
  · cases hc : s.cut with
    | some k =>
      refine Ord.drain (ho.keep (by rw [h1]) h2 h3 (fun h => ⟨by rwa [h6] at h, h4⟩)
        (List.Sublist.refl _)) (by rw [h3, hc]; rfl)
    | none =>
      have hf : s.finished = false := by rw [hs.cut, hc]; rfl
      have hrest : rest = [] := by
        cases hrr : rest with
        | nil => rfl
        | cons x xs => have := hs.rest (by rw [hr.1, hrr]; simp); simp [hf] at this
      have hts : ts = false := by
        cases htt : ts with
        | false => rfl
        | true => have := hs.ts (by rw [hr.2.1, htt]); simp [hf] at this
      subst hrest hts
      simp only [St.drain]
      exact ho.keep (by simp [h1]) (by simp [h2]) (by simp [h3]) (by simp [h4, hr.2.2]) (by simp)

theorem ordacct_tr {s s' : St} (hs : Shape s) (h : Acct s s.phase.rest ∧ Ord s s.phase.rest)
    (ht : Tr s s') : Acct s' s'.phase.rest ∧ Ord s' s'.phase.rest := by
  obtain ⟨ha, ho⟩ := h
  cases ht with
  | refl => exact ⟨ha, ho⟩
  | send b =>
    exact ⟨by simpa [Acct, St.step] using ha, ho.keep (by simp [St.step]) rfl rfl (fun h => ⟨h, rfl⟩) (List.Sublist.refl _)⟩
  | trySend b =>
    exact ⟨by simpa [Acct, St.step] using ha, ho.keep (by simp [St.step]) rfl rfl (fun h => ⟨h, rfl⟩) (List.Sublist.refl _)⟩
  | poll t =>
    exact ⟨by simpa [Acct, St.step] using ha, ho.keep (by simp [St.step]) rfl rfl (fun h => ⟨h, rfl⟩) (List.Sublist.refl _)⟩
  | cancel t =>
    exact ⟨by simpa [Acct, St.step] using ha, ho.keep (by simp [St.step]) rfl rfl (fun h => ⟨h, rfl⟩) (List.Sublist.refl _)⟩
  | sendStop =>
    exact ⟨by simpa [Acct, St.step] using ha, ho.keep (by simp [St.step]) rfl rfl (fun h => ⟨h, rfl⟩) (List.Sublist.refl _)⟩
  | sendLinkDied id r =>
    exact ⟨by simpa [Acct, St.step] using ha, ho.keep (by simp [St.step]) rfl rfl (fun h => ⟨h, rfl⟩) (List.Sublist.refl _)⟩
  | kill => exact ⟨ha, ho.keep rfl rfl rfl (fun h => ⟨h, rfl⟩) (List.Sublist.refl _)⟩
  | link id => exact ⟨ha, ho.keep rfl rfl rfl (fun h => ⟨h, rfl⟩) (List.Sublist.refl _)⟩
  | unlink id => exact ⟨ha, ho.keep rfl rfl rfl (fun h => ⟨h, rfl⟩) (List.Sublist.refl _)⟩
  | ref n => exact ⟨ha, ho.keep rfl rfl rfl (fun h => ⟨h, rfl⟩) (List.Sublist.refl _)⟩
  | giveUp t h => exact ⟨ha, ho.keep rfl rfl rfl (fun h => ⟨h, rfl⟩) (List.Sublist.refl _)⟩
  | delegSend t r hm =>
    exact ⟨by simpa [Acct] using ha, ho.keep (by simp) (by simp) (by simp) (by simp) (by simp)⟩
  | delegDrop t hm =>
    exact ⟨by simpa [Acct] using ha, ho.keep (by simp) (by simp) (by simp) (by simp) (by simp)⟩
  | teardown _ _ =>
    exact ⟨ha.cancelRunning.die, ho.keep (by simp) (by simp) (by simp) (by simp) (by simp)⟩
  | run hp =>
    exact ⟨by simpa [Acct, hp] using ha, ho.keep rfl rfl rfl (by simp) (by simp)⟩
  | startOk hp =>
    have he := hs.early (by simp [hp])
    have hc := hs.cut_none he.2.1
    have hb : s.buffer = [] := by
      cases hbb : s.buffer with
      | nil => rfl
      | cons x xs => have := hs.buf (by simp [hbb]); simp [hp] at this
    unfold St.startOk
    simp only
    split
    · refine ⟨by simpa [Acct, hp, hb] using ha, ?_⟩
      constructor <;> simp_all
    · refine ⟨by simpa [Acct, hp, hb] using ha, ?_⟩
      constructor
      · intro hn; exfalso; revert hn; simp [St.finishStartup, hc]
      · intro k hk; simp [St.finishStartup, hc, he.1] at hk ⊢; subst hk; simp [he, startupOrder]
  | startFail o e hp _ =>
    exact ⟨by simpa [Acct, St.startFail, hp] using ha,
      ho.keep (by simp [St.startFail]) rfl rfl (by simp [St.startFail]) (by simp [St.startFail])⟩
  | abort hp _ =>
    exact ⟨ha.cancelRunning.leave, ho.keep (by simp) (by simp) (by simp) (by simp [St.abortSeen]) (by simp [St.abortSeen])⟩
  | polling hp _ p => exact ⟨ha, ho.keep rfl rfl rfl (fun h => ⟨h, rfl⟩) (List.Sublist.refl _)⟩
  | recvNone hp _ _ hn =>
    have := hs.own
    rw [hp] at this
    simp [St.noSenders, this] at hn
  | recvStartup hp hpo t q hq =>
    have hr := recv_received s.mb hq
    rw [hp] at ha ho
    constructor
    · apply Acct.drain
      simpa [Acct, hr] using ha
    · refine Ord.drain (Ord.keep (ord_finish (mb := s.mb.recv) hs ho hp (by simp) hr) ?_ ?_ ?_ ?_ ?_) ?_
      · rfl
      · rfl
      · rfl
      · exact fun h => ⟨h, rfl⟩
      · exact List.Sublist.refl _
      · simp
  | recvBuffer hp hpo t b q hq hw hf =>
    have hr := recv_received s.mb hq
    rw [hp] at ha ho
    have hc := hs.cut_none hf
    constructor
    · simp [Acct, hr, hp] at *
      calc (msgsOf s.mb.received ++ [(t, b)]).Perm _ := ha.append_right _
        _ = s.handled ++ (s.buffer ++ (s.lost ++ [(t, b)])) := by simp
        _ |>.Perm (s.handled ++ (s.buffer ++ (t, b) :: s.lost)) :=
            ((List.perm_append_singleton _ _).append_left _).append_left _
    · constructor
      · intro _
        obtain ⟨h1, h2⟩ := ho.none hc
        simp [hp] at h2
        simp [hr, hp, hw, h1, h2]
      · intro k hk; simp [hc] at hk
  | recvMsg hp hpo t b q hq hw =>
    have hr := recv_received s.mb hq
    rw [hp] at ha ho
    constructor
    · simp [Acct, hr] at *
      calc (msgsOf s.mb.received ++ [(t, b)]).Perm _ := ha.append_right _
        _ = s.handled ++ ((s.buffer ++ s.lost) ++ [(t, b)]) := by simp
        _ |>.Perm (s.handled ++ (t, b) :: (s.buffer ++ s.lost)) :=
            ((List.perm_append_singleton _ _).append_left _)
    · constructor
      · intro hc
        simp at hc
        have hf := hs.cut
        rw [hc] at hf
        obtain ⟨h1, h2⟩ := ho.none hc
        simp [hp] at h2
        have hw : b.within = true := by simpa [hf] using hw
        simp [hr, hw, h1, h2]
      · intro k hk
        obtain ⟨h1, h2, h3⟩ := ho.some k hk
        simp [hr]
        refine ⟨by omega, ?_, ?_⟩
        · rw [startupOrder_append _ _ _ h1]; simp at h2 ⊢; exact h2
        · rw [List.take_append_of_le_length h1]; exact h3.trans (List.prefix_append _ _)
  | recvLink hp hpo t id r q hq =>
    have hr := recv_received s.mb hq
    rw [hp] at ha ho
    constructor
    · simpa [Acct, hr] using ha
    · constructor
      · intro hc
        simpa [hr, hp] using ho.none hc
      · intro k hk
        obtain ⟨h1, h2, h3⟩ := ho.some k hk
        simp [hr]
        refine ⟨by omega, ?_, ?_⟩
        · rw [startupOrder_append _ _ _ h1]; simpa using h2
        · rw [List.take_append_of_le_length h1]; exact h3
  | recvStop hp hpo t q hq =>
    have hr := recv_received s.mb hq
    rw [hp] at ha ho
    constructor
    · apply Acct.drain
      simpa [Acct, hr] using ha
    · refine Ord.drain (Ord.keep (ord_finish (mb := s.mb.recv) hs ho hp (by simp) hr) ?_ ?_ ?_ ?_ ?_) ?_
      · rfl
      · rfl
      · rfl
      · exact fun h => ⟨h, rfl⟩
      · exact List.Sublist.refl _
      · simp
  | takeReply m rest ts hp hpo hk =>
    rw [hp] at ha ho
    exact ⟨ha, ho.keep rfl rfl rfl (by simp [hp]) (List.Sublist.refl _)⟩
  | handlerReply m rest ts res hp hpo hk =>
    rw [hp] at ha ho
    exact drain_case hs ha ho (by simp [hp]) (by simp) (by simp) (by simp) (by simp) (by simp) (by simp)
  | handlerOk m taken rest ts v hp hpo hk =>
    rw [hp] at ha ho
    exact drain_case hs ha ho (by simp [hp]) (by simp) (by simp) (by simp) (by simp) (by simp) (by simp)
  | handlerErr m taken rest ts e hp hpo hk =>
    rw [hp] at ha ho
    exact ⟨Acct.lose (s := s.ev (.hEnd m taken (.ret (.err e)))) ha,
      ho.keep (by simp) (by simp) (by simp) (by simp [hp]) (by simp)⟩
  | handlerPanic m taken rest ts e hp hpo =>
    rw [hp] at ha ho
    exact ⟨Acct.lose
      (s := (s.dropReplies (if taken then [] else [m.1])).ev (.hEnd m taken (.panic e))) ha,
      ho.keep (by simp) (by simp) (by simp) (by simp [hp]) (by simp)⟩
  | linkCont id r hp hpo =>
    rw [hp] at ha ho
    exact ⟨ha, ho.keep rfl rfl rfl (by simp [hp]) (by simp)⟩
  | linkStop id r r' hp hpo hr =>
    rw [hp] at ha ho
    exact ⟨Acct.leave ha, ho.keep (by simp) (by simp) (by simp) (by simp) (by simp)⟩
  | linkPanic id r o e hp hpo hk =>
    rw [hp] at ha ho
    exact ⟨ha, ho.keep rfl rfl rfl (by simp [hp]) (by simp)⟩
  | panicCont e hp hpo =>
    rw [hp] at ha ho
    exact ⟨ha, ho.keep rfl rfl rfl (by simp [hp]) (by simp)⟩
  | panicStop e o r hp hpo hk =>
    rw [hp] at ha ho
    exact ⟨Acct.leave ha, ho.keep (by simp) (by simp) (by simp) (by simp) (by simp)⟩
  | panicDie e e' hp hpo =>
    rw [hp] at ha ho
    exact ⟨Acct.die ha, ho.keep (by simp) (by simp) (by simp) (by simp) (by simp)⟩
  | startPanicStop e o r hp hk =>
    rw [hp] at ha ho
    exact ⟨Acct.leave (r := r) ha, ho.keep (by simp [St.stopFailed]) (by simp [St.stopFailed])
      (by simp [St.stopFailed]) (by simp [St.stopFailed]) (by simp [St.stopFailed])⟩
  | startPanicDie e e' hp =>
    rw [hp] at ha ho
    exact ⟨Acct.die ha, ho.keep (by simp) (by simp) (by simp) (by simp) (by simp)⟩
  | stopNotify r pend o res hp hk =>
    rw [hp] at ha ho
    exact ⟨ha, ho.keep (by simp) (by simp) (by simp) (by simp) (by simp)⟩
  | stopFinish r pend o res hp hk =>
    rw [hp] at ha ho
    exact ⟨ha, ho.keep (by simp) (by simp) (by simp) (by simp) (by simp)⟩
  | stopDie r pend st e hp =>
    rw [hp] at ha ho
    exact ⟨Acct.die ha, ho.keep (by simp) (by simp) (by simp) (by simp) (by simp)⟩
  | notify r pend res id hp hi =>
    rw [hp] at ha ho
    exact ⟨ha, ho.keep (by simp) (by simp) (by simp) (by simp) (by simp)⟩
  | finish r res hp =>
    rw [hp] at ha ho
    exact ⟨ha, ho.keep (by simp) (by simp) (by simp) (by simp) (by simp)⟩

theorem ordacct_after (cap : Option Nat) (ops : List Op) :
    Acct (after cap ops) (after cap ops).phase.rest ∧ Ord (after cap ops) (after cap ops).phase.rest := by
  have : Shape (after cap ops) ∧ (Acct (after cap ops) (after cap ops).phase.rest ∧
      Ord (after cap ops) (after cap ops).phase.rest) := by
    refine exec_inv (P := fun s => Shape s ∧ (Acct s s.phase.rest ∧ Ord s s.phase.rest))
      (fun _ _ h ht => ⟨shape_tr h.1 ht, ordacct_tr h.1 h.2 ht⟩) ⟨shape_after cap [], ?_, ?_⟩ ops
    · simp [Acct, after, St.exec, St.fresh, Mb.fresh]
    · constructor <;> simp [after, St.exec, St.fresh, Mb.fresh]
  exact this.2

end Verif.Lifecycle
