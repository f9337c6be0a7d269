import Verif.Lifecycle.Replies

/-! The published start-up and shut-down results. -/

set_option linter.unusedSimpArgs false

namespace Verif.Lifecycle

open Verif.Mailbox

/-- Number of start-up signals in a list. -/
def startups (l : List (Nat × Sig)) : Nat := l.countP (fun p => p.2 == .startup)

@[simp] theorem startups_nil : startups [] = 0 := rfl
@[simp] theorem startups_append (a b : List (Nat × Sig)) :
    startups (a ++ b) = startups a + startups b := by simp [startups]
@[simp] theorem startups_startup (t : Nat) : startups [(t, .startup)] = 1 := rfl
@[simp] theorem startups_msg (t : Nat) (b : Body) : startups [(t, .msg b)] = 0 := by
  simp [startups]
@[simp] theorem startups_stop (t : Nat) : startups [(t, .stop)] = 0 := by simp [startups]
@[simp] theorem startups_link (t : Nat) (i : Id) (r : Reason) :
    startups [(t, .linkDied i r)] = 0 := by simp [startups]

/-- The error in the outcome of `on_start` or `on_stop`. -/
def resOf : UOut → Option Err
  | .ok => none
  | .err e => some e
  | .panic e => some e

structure Start (s : St) : Prop where
  unborn : s.phase.unborn = true → s.startupErr = none
  loop : s.phase.inLoop = true → s.startupErr = some none
  pan : ∀ e, s.phase = .startPanicking e → s.startupErr = some (some e)
  stf : ∀ r p, s.phase = .stopping r p false → ∃ e, s.startupErr = some (some e)
  stt : ∀ r p, s.phase = .stopping r p true → s.startupErr = some none
  nott : ∀ r p x, s.phase = .notifying r p x → s.startupErr = some none
  noRes : s.startupErr = none → s.permits = 0 ∧ startups s.mb.sent = 0 ∧ (∀ o, .startEnd o ∉ s.log)
    ∧ s.mb.received = []
  res : ∀ x, s.startupErr = some x → startups s.mb.sent = 1 ∧
    (∀ o, .startEnd o ∈ s.log → resOf o = x) ∧ ∃ o, .startEnd o ∈ s.log
  ok : s.startupErr = some none → s.permits = startups s.mb.received
  fail : ∀ e, s.startupErr = some (some e) → s.permits = 1 ∧ s.mb.received = []
  shut : ∀ x, s.shutdownErr = some x → ∃ r o, s.phase = .stopped r ∧ .sEnd r o ∈ s.log ∧ resOf o = x
  notif : ∀ r p x, s.phase = .notifying r p x → ∃ o, .sEnd r o ∈ s.log ∧ resOf o = x
  stopped : ∀ r, s.phase = .stopped r → s.shutdownErr ≠ none ∧ s.startupErr ≠ none

theorem startEnd_cancelEv (p : Phase) (o : UOut) : .startEnd o ∉ p.cancelEv := by
  cases p <;> simp [Phase.cancelEv]
theorem startEnd_drainEv (rest : List Msg) (ts : Bool) (o : UOut) : .startEnd o ∉ drainEv rest ts := by
  intro h; have := drainEv_mem h; simp at this
theorem sEnd_drainEv (rest : List Msg) (ts : Bool) (r : Reason) (o : UOut) :
    .sEnd r o ∉ drainEv rest ts := by
  intro h; have := drainEv_mem h; simp at this

/-- The loop goes on, or `on_stop` is called after the loop. -/
theorem Start.loopStep {s s' : St} (h : Start s) (hp : s.phase.inLoop = true)
    (hp' : s'.phase.inLoop = true ∨ ∃ r p, s'.phase = .stopping r p true)
    (h1 : s'.startupErr = s.startupErr) (h2 : s'.shutdownErr = s.shutdownErr)
    (h3 : startups s'.mb.sent = startups s.mb.sent)
    (h4 : s'.permits - s.permits = startups s'.mb.received - startups s.mb.received)
    (h4' : s.permits ≤ s'.permits ∧ startups s.mb.received ≤ startups s'.mb.received)
    (x : List Ev) (h5 : s'.log = s.log ++ x) (h6 : ∀ o, .startEnd o ∉ x) : Start s' := by
  have hl := h.loop hp
  obtain ⟨s1, s2, s3⟩ := h.res _ hl
  have hok := h.ok hl
  have hsh : s.shutdownErr = Option.none := by
    cases hc : s.shutdownErr with
    | none => rfl
    | some y => obtain ⟨r, o, hr, _⟩ := h.shut y hc; rw [hr] at hp; simp at hp
  constructor
  · intro hu; rcases hp' with hp' | ⟨r, p, hp'⟩
    · cases hc : s'.phase <;> simp [hc] at hu hp'
    · simp [hp'] at hu
  · intro _; rw [h1, hl]
  · intro e he; rcases hp' with hp' | ⟨r, p, hp'⟩ <;> simp [he] at hp'
  · intro r p he; rcases hp' with hp' | ⟨r, p, hp'⟩ <;> simp [he] at hp'
  · intro r p he; rw [h1, hl]
  · intro r p x he; rw [h1, hl]
  · intro hn; rw [h1, hl] at hn; cases hn
  · intro y hy
    rw [h1, hl] at hy
    cases hy
    rw [h3, h5]
    refine ⟨s1, ?_, ?_⟩
    · intro o ho; simp [h6] at ho; exact s2 o ho
    · obtain ⟨o, ho⟩ := s3; exact ⟨o, by simp [ho]⟩
  · intro _; omega
  · intro e he; rw [h1, hl] at he; cases he
  · intro y hy; rw [h2, hsh] at hy; cases hy
  · intro r p x he; rcases hp' with hp' | ⟨r, p, hp'⟩ <;> simp [he] at hp'
  · intro r he; rcases hp' with hp' | ⟨r, p, hp'⟩ <;> simp [he] at hp'

theorem drain_loop (s : St) (rest : List Msg) (ts : Bool) :
    (s.drain rest ts).phase.inLoop = true ∨ ∃ r p, (s.drain rest ts).phase = .stopping r p true := by
  cases rest with
  | cons m ms => simp [St.drain]
  | nil => cases ts <;> simp [St.drain]

/-- Steps that concern neither phase nor results. -/
theorem Start.keep {s s' : St} (h : Start s) (hp : s'.phase = s.phase)
    (h1 : s'.startupErr = s.startupErr) (h2 : s'.shutdownErr = s.shutdownErr)
    (h3 : startups s'.mb.sent = startups s.mb.sent) (h4 : s'.permits = s.permits)
    (h5 : s'.mb.received = s.mb.received)
    (x : List Ev) (h6 : s'.log = s.log ++ x) (h7 : ∀ o, .startEnd o ∉ x) : Start s' := by
  have hm : ∀ e, e ∈ s.log → e ∈ s'.log := by intro e he; rw [h6]; simp [he]
  obtain ⟨a1, a2, a3, a4, a5, a6, a7, a8, a9, a10, a11, a12, a13⟩ := h
  constructor
  · rw [hp, h1]; exact a1
  · rw [hp, h1]; exact a2
  · rw [hp, h1]; exact a3
  · rw [hp, h1]; exact a4
  · rw [hp, h1]; exact a5
  · rw [hp, h1]; exact a6
  · rw [h1, h3, h4, h5, h6]; simpa [h7] using a7
  · rw [h1, h3, h6]
    intro y hy
    obtain ⟨b1, b2, o, ho⟩ := a8 y hy
    exact ⟨b1, by simpa [h7] using b2, o, by simp [ho]⟩
  · rw [h1, h4, h5]; exact a9
  · rw [h1, h4, h5]; exact a10
  · rw [h2, hp]
    intro y hy
    obtain ⟨r, o, b1, b2, b3⟩ := a11 y hy
    exact ⟨r, o, b1, hm _ b2, b3⟩
  · rw [hp]
    intro r p y hy
    obtain ⟨o, b1, b2⟩ := a12 r p y hy
    exact ⟨o, hm _ b1, b2⟩
  · rw [hp, h1, h2]; exact a13

/-- The end of the task without return. -/
theorem Start.dieStep {s s' : St} (h : Start s) (hne : ∀ r, s.phase ≠ .stopped r)
    (hp : s'.phase = .crashed)
    (h1 : s'.startupErr = s.startupErr) (h2 : s'.shutdownErr = s.shutdownErr)
    (h3 : startups s'.mb.sent = startups s.mb.sent) (h4 : s'.permits = s.permits)
    (h5 : s'.mb.received = s.mb.received)
    (x : List Ev) (h6 : s'.log = s.log ++ x) (h7 : ∀ o, .startEnd o ∉ x) : Start s' := by
  obtain ⟨a1, a2, a3, a4, a5, a6, a7, a8, a9, a10, a11, a12, a13⟩ := h
  constructor
  · simp [hp]
  · simp [hp]
  · simp [hp]
  · simp [hp]
  · simp [hp]
  · simp [hp]
  · rw [h1, h3, h4, h5, h6]; simpa [h7] using a7
  · rw [h1, h3, h6]
    intro y hy
    obtain ⟨b1, b2, o, ho⟩ := a8 y hy
    exact ⟨b1, by simpa [h7] using b2, o, by simp [ho]⟩
  · rw [h1, h4, h5]; exact a9
  · rw [h1, h4, h5]; exact a10
  · rw [h2]
    intro y hy
    obtain ⟨r, o, b1, b2, b3⟩ := a11 y hy
    exact absurd b1 (hne r)
  · simp [hp]
  · simp [hp]

theorem startOk_fields2 (s : St) : s.startOk.startupErr = some none ∧
    s.startOk.shutdownErr = s.shutdownErr ∧ s.startOk.permits = s.permits ∧
    s.startOk.phase = .idle ∧ s.startOk.mb = s.mb.trySend .startup := by
  unfold St.startOk; simp only; split <;> simp

theorem start_tr {s s' : St} (hs : Shape s) (h : Start s) (ht : Tr s s') : Start s' := by
  have hk := @Start.keep s s' h
  have hlp := @Start.loopStep s s' h
  have hdie := @Start.dieStep s s' h
  have nosh : (∀ r, s.phase ≠ .stopped r) → s.shutdownErr = none := by
    intro hne
    cases hc : s.shutdownErr with
    | none => rfl
    | some y => obtain ⟨r, o, hr, _⟩ := h.shut y hc; exact absurd hr (hne r)
  cases ht with
  | refl => exact h
  | send b => exact hk rfl rfl rfl (by simp [St.step]) rfl (by simp [St.step]) [] (by simp [St.step]) (by simp)
  | trySend b => exact hk rfl rfl rfl (by simp [St.step]) rfl (by simp [St.step]) [] (by simp [St.step]) (by simp)
  | poll t => exact hk rfl rfl rfl (by simp) rfl (by simp) [] (by simp) (by simp)
  | cancel t => exact hk rfl rfl rfl (by simp [St.step]) rfl (by simp [St.step]) [] (by simp [St.step]) (by simp)
  | sendStop => exact hk rfl rfl rfl (by simp) rfl (by simp) [] (by simp) (by simp)
  | sendLinkDied id r => exact hk rfl rfl rfl (by simp) rfl (by simp) [] (by simp) (by simp)
  | kill => exact hk rfl rfl rfl rfl rfl rfl [.killCalled] rfl (by simp)
  | link id => exact hk rfl rfl rfl rfl rfl rfl [] (by simp [St.step]) (by simp)
  | unlink id => exact hk rfl rfl rfl rfl rfl rfl [] (by simp [St.step]) (by simp)
  | ref n => exact hk rfl rfl rfl rfl rfl rfl [] (by simp) (by simp)
  | giveUp t _ => exact hk rfl rfl rfl rfl rfl rfl [] (by simp) (by simp)
  | delegSend t r _ =>
    exact hk (by simp) (by simp) (by simp) (by simp) (by simp) (by simp) [.replySent t r] (by simp) (by simp)
  | delegDrop t _ => exact hk (by simp) (by simp) (by simp) (by simp) (by simp) (by simp) [] (by simp) (by simp)
  | teardown h1 h2 =>
    exact hdie h1 (by simp) (by simp) (by simp) (by simp) (by simp) (by simp) s.phase.cancelEv
      (by simp [St.crash]) (startEnd_cancelEv _)
  | run hp =>
    have hu := h.unborn (by simp [hp])
    have := h.noRes hu
    have := nosh (by simp [hp])
    constructor <;> simp_all
  | startOk hp =>
    have hu := h.unborn (by simp [hp])
    have hn := h.noRes hu
    have := nosh (by simp [hp])
    obtain ⟨f1, f2, f3, f4, f5⟩ := startOk_fields2 s
    constructor <;> simp_all [resOf]
  | startFail o e hp ho =>
    have hu := h.unborn (by simp [hp])
    have hn := h.noRes hu
    have := nosh (by simp [hp])
    have hr : resOf o = some e := by rcases ho with rfl | rfl <;> rfl
    constructor <;> simp_all [St.startFail]
  | abort hp ha =>
    exact hlp hp (Or.inr (by simp [St.abortSeen])) (by simp) (by simp) (by simp) (by simp) (by simp)
      (s.phase.cancelEv ++ [.sBegin .killed]) (by simp [St.abortSeen]) (by simp [startEnd_cancelEv])
  | polling hp ha p => exact hk rfl rfl rfl rfl rfl rfl [] (by simp) (by simp)
  | recvNone hp _ _ hn =>
    have := hs.own
    rw [hp] at this
    simp [St.noSenders, this] at hn
  | recvStartup hp hpo t q hq =>
    have hr := recv_received s.mb hq
    exact hlp (by simp [hp]) (drain_loop _ _ _) (by simp) (by simp) (by simp) (by simp [hr]) (by simp [hr])
      (drainEv s.buffer false) (by simp) (startEnd_drainEv _ _)
  | recvBuffer hp hpo t b q hq hwi hf =>
    have hr := recv_received s.mb hq
    exact hlp (by simp [hp]) (by simp [hp]) (by simp) (by simp) (by simp) (by simp [hr]) (by simp [hr])
      [] (by simp) (by simp)
  | recvMsg hp hpo t b q hq hwi =>
    have hr := recv_received s.mb hq
    exact hlp (by simp [hp]) (by simp [hp]) (by simp) (by simp) (by simp) (by simp [hr]) (by simp [hr])
      [.hBegin (t, b)] (by simp) (by simp)
  | recvLink hp hpo t id r q hq =>
    have hr := recv_received s.mb hq
    exact hlp (by simp [hp]) (by simp [hp]) (by simp) (by simp) (by simp) (by simp [hr]) (by simp [hr])
      [.lBegin id r] (by simp) (by simp)
  | recvStop hp hpo t q hq =>
    have hr := recv_received s.mb hq
    exact hlp (by simp [hp]) (drain_loop _ _ _) (by simp) (by simp) (by simp) (by simp [hr]) (by simp [hr])
      (.stopTaken :: drainEv s.buffer true) (by simp) (by simp [startEnd_drainEv])
  | takeReply m rest ts hp hpo ha =>
    exact hlp (by simp [hp]) (by simp [hp]) (by simp) (by simp) (by simp) (by simp) (by simp) [] (by simp) (by simp)
  | handlerReply m rest ts res hp hpo ha =>
    exact hlp (by simp [hp]) (drain_loop _ _ _) (by simp) (by simp) (by simp) (by simp) (by simp)
      (.hEnd m false (.ret res) :: drainEv rest ts) (by simp) (by simp [startEnd_drainEv])
  | handlerOk m taken rest ts v hp hpo ha =>
    exact hlp (by simp [hp]) (drain_loop _ _ _) (by simp) (by simp) (by simp) (by simp) (by simp)
      (.hEnd m taken (.ret (.ok v)) :: drainEv rest ts) (by simp) (by simp [startEnd_drainEv])
  | handlerErr m taken rest ts e hp hpo ha =>
    exact hlp (by simp [hp]) (by simp) (by simp) (by simp) (by simp) (by simp) (by simp)
      [.hEnd m taken (.ret (.err e)), .pBegin e] (by simp) (by simp)
  | handlerPanic m taken rest ts e hp hpo =>
    exact hlp (by simp [hp]) (by simp) (by simp) (by simp) (by simp) (by simp) (by simp)
      [.hEnd m taken (.panic e), .pBegin e] (by simp) (by simp)
  | linkCont id r hp hpo =>
    exact hlp (by simp [hp]) (by simp) (by simp) (by simp) (by simp) (by simp) (by simp)
      [.lEnd id r .cont] (by simp) (by simp)
  | linkStop id r r' hp hpo hr =>
    exact hlp (by simp [hp]) (by simp) (by simp) (by simp) (by simp) (by simp) (by simp)
      [.lEnd id r (.brk r'), .sBegin r'] (by simp) (by simp)
  | linkPanic id r o e hp hpo ho =>
    exact hlp (by simp [hp]) (by simp) (by simp) (by simp) (by simp) (by simp) (by simp)
      [.lEnd id r o, .pBegin e] (by simp) (by simp)
  | panicCont e hp hpo =>
    exact hlp (by simp [hp]) (by simp) (by simp) (by simp) (by simp) (by simp) (by simp)
      [.pEnd e .cont] (by simp) (by simp)
  | panicStop e o r hp hpo ho =>
    exact hlp (by simp [hp]) (by simp) (by simp) (by simp) (by simp) (by simp) (by simp)
      [.pEnd e o, .sBegin r] (by simp) (by simp)
  | panicDie e e' hp hpo =>
    exact hdie (by simp [hp]) (by simp) (by simp) (by simp) (by simp) (by simp) (by simp)
      [.pEnd e (.panic e')] (by simp) (by simp)
  | startPanicStop e o r hp ho =>
    have h1 := h.pan e hp
    have h2 := h.res _ h1
    have h3 := h.fail _ h1
    have := nosh (by simp [hp])
    constructor <;> simp_all [St.stopFailed]
  | startPanicDie e e' hp =>
    exact hdie (by simp [hp]) (by simp) (by simp) (by simp) (by simp) (by simp) (by simp)
      [.pEnd e (.panic e')] (by simp) (by simp)
  | stopNotify r pend o res hp ho =>
    have h1 := h.stt _ _ hp
    have h2 := h.res _ h1
    have h3 := h.ok h1
    have := nosh (by simp [hp])
    have hr : resOf o = res := by rcases ho with ⟨rfl, rfl⟩ | ⟨e, rfl, rfl⟩ <;> rfl
    constructor <;> simp_all
  | stopFinish r pend o res hp ho =>
    obtain ⟨e, h1⟩ := h.stf _ _ hp
    have h2 := h.res _ h1
    have h3 := h.fail _ h1
    have := nosh (by simp [hp])
    have hr : resOf o = res := by rcases ho with ⟨rfl, rfl⟩ | ⟨e, rfl, rfl⟩ <;> rfl
    have hown : s.own = true := by rw [hs.own, hp]; rfl
    clear hk hlp hdie nosh
    constructor <;> simp_all [St.finishAll]
  | stopDie r pend st e hp =>
    exact hdie (by simp [hp]) (by simp) (by simp) (by simp) (by simp) (by simp) (by simp)
      [.sEnd r (.panic e)] (by simp) (by simp)
  | notify r pend res id hp hi =>
    have h1 := h.nott _ _ _ hp
    have h2 := h.res _ h1
    have h3 := h.ok h1
    have := nosh (by simp [hp])
    obtain ⟨o, h4, h5⟩ := h.notif _ _ _ hp
    constructor <;> simp_all
    exact ⟨o, h4, h5⟩
  | finish r res hp =>
    have h1 := h.nott _ _ _ hp
    have h2 := h.res _ h1
    have h3 := h.ok h1
    have := nosh (by simp [hp])
    obtain ⟨o, h4, h5⟩ := h.notif _ _ _ hp
    have hown : s.own = true := by rw [hs.own, hp]; rfl
    clear hk hlp hdie nosh
    constructor <;> simp_all [St.finishAll]
    exact ⟨o, h4, h5⟩

theorem start_after (cap : Option Nat) (ops : List Op) : Start (after cap ops) := by
  apply exec_shape_inv (P := Start) (fun _ _ => start_tr) cap ops
  constructor <;> simp [after, St.exec, St.fresh, Mb.fresh]

theorem startups_received_le {s : St} (hs : Shape s) :
    startups s.mb.received ≤ startups s.mb.sent := by
  have := hs.mb.part
  have hc := this.countP_eq (fun p => p.2 == Sig.startup)
  rw [hs.mb.hist] at hc
  simp only [List.countP_append] at hc
  unfold startups
  omega

theorem permits_le_one (cap : Option Nat) (ops : List Op) : (after cap ops).permits ≤ 1 := by
  have h := start_after cap ops
  have hs := shape_after cap ops
  cases hc : (after cap ops).startupErr with
  | none => rw [(h.noRes hc).1]; omega
  | some x =>
    cases x with
    | none =>
      have h1 := h.ok hc
      have h2 := (h.res _ hc).1
      have h3 := startups_received_le hs
      omega
    | some e => have := (h.fail e hc).1; omega

end Verif.Lifecycle
