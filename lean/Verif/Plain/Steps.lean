import Verif.Plain.Core

/-! Every transition of `Verif.Lifecycle` is one of `Verif.Next`. -/

set_option linter.unusedSimpArgs false

namespace Verif.Plain

open Verif.Mailbox
open Verif.Lifecycle (Tr Good Start)

variable {s s' : Lifecycle.St} {n : Next.St}

theorem reason_ne {r : Lifecycle.Reason} (h : ∀ e, r ≠ .panicked e) : reasonOf r ≠ .panicked := by
  cases r with
  | panicked e => exact absurd rfl (h e)
  | _ => simp [reasonOf]

theorem linkHow_brk {r : Lifecycle.Reason} (h : ∀ e, r ≠ .panicked e) : linkHow (.brk r) = .leave := by
  cases r with
  | panicked e => exact absurd rfl (h e)
  | _ => rfl

theorem nextLinkHow_brk {r : Next.Reason} (h : r ≠ .panicked) : Next.Flow.linkHow (.brk r) = .leave := by
  cases r with
  | panicked => exact absurd rfl h
  | _ => rfl

theorem settle_tell (it : Next.Item) (o : Next.Out) (l : List Next.Ev) : (n.tell l).settle it o = (n.settle it o).tell l := by
  cases h : n.taken <;> simp [Next.St.settle, Next.St.tell, Next.St.resolve, h]

/-- The end of a handler that answers, or says that all is well. -/
theorem handler_go (hg : Good s) {m : Lifecycle.Msg} {taken : Bool} {rest : List Lifecycle.Msg} {ts : Bool}
    {it : Next.Item} {l : List Next.Item} (h1 : n.phase = .handling it l ts)
    (h2 : tag s.mb.pushed it = mark (m.1, .msg m.2)) (h3 : Same s.mb.pushed l (sigs rest)) (h4 : n.taken = taken)
    (σ : Nat → Lifecycle.Slot) (o : Lifecycle.HOut) (r : Next.Res) (out : Next.Out)
    (hr : (r = .ok ∧ out = .value) ∨ (r = .err ∧ out = .err ∧ m.2.ask = true ∧ taken = false))
    (hh : handleHow m.2.ask taken o = .ok) (hc : Core { s with slots := σ } (n.settle it out)) :
    Sim (({ s with slots := σ }.ev (.hEnd m taken o)).drain rest ts) (run n [.handleEnd r]) := by
  have hask : it.ask = m.2.ask := ask_of_tag h2
  have hres : run n [.handleEnd r] = ((n.settle it out).tell [.e .handle .ok]).go l ts := by
    rw [← settle_tell]
    rcases hr with ⟨rfl, rfl⟩ | ⟨rfl, rfl, h5, h6⟩
    · simp [run, Next.St.step, Next.St.handleEnd, h1, Next.handleHow]
    · simp [run, Next.St.step, Next.St.handleEnd, h1, Next.handleHow, hask, h5, h4, h6]
  rw [hres]
  have hc1 := hc.tell [.hEnd m taken o] [.e .handle .ok] (by simp [shows, shown, sees, see, hh])
  exact hc1.go hg.shape.mb h3 ts

/-- The end of a handler that fails. -/
theorem handler_fail (hg : Good s) {m : Lifecycle.Msg} {taken : Bool} {rest : List Lifecycle.Msg} {ts : Bool}
    {it : Next.Item} {l : List Next.Item} (h1 : n.phase = .handling it l ts)
    (h2 : tag s.mb.pushed it = mark (m.1, .msg m.2)) (h3 : Same s.mb.pushed l (sigs rest)) (h4 : n.taken = taken)
    (σ : Nat → Lifecycle.Slot) (o : Lifecycle.HOut) (e : Lifecycle.Err) (r : Next.Res)
    (hr : r = .panic ∨ (r = .err ∧ (m.2.ask = false ∨ taken = true)))
    (hh : handleHow m.2.ask taken o = .fail) (hc : Core { s with slots := σ } (n.settle it .dropped)) :
    Sim { (({ s with slots := σ }.ev (.hEnd m taken o)).lose rest).ev (.pBegin e) with phase := .panicking e }
      (run n [.handleEnd r]) := by
  have hask : it.ask = m.2.ask := ask_of_tag h2
  have hres : run n [.handleEnd r] = (((n.settle it .dropped).tell [.e .handle .fail]).drop l).panicked := by
    rw [← settle_tell]
    rcases hr with rfl | ⟨rfl, h5 | h5⟩
    · simp [run, Next.St.step, Next.St.handleEnd, h1, Next.handleHow]
    · simp [run, Next.St.step, Next.St.handleEnd, h1, Next.handleHow, hask, h5]
    · simp [run, Next.St.step, Next.St.handleEnd, h1, Next.handleHow, hask, h4, h5]
  rw [hres]
  have hc1 := hc.tell [.hEnd m taken o] [.e .handle .fail] (by simp [shows, shown, sees, see, hh])
  have hc2 := (hc1.lose hg.shape.mb h3).tell [.pBegin e] [.b .panic] rfl
  apply Core.sim
  · exact ⟨hc2.queue, hc2.fresh, hc2.closed, hc2.held, hc2.buffer, hc2.finished, hc2.aborted, hc2.permits, hc2.started,
      hc2.log, hc2.talk⟩
  · rfl

/-- A loop that is being polled is not one that will never be. -/
theorem at_next (h : Sim s n) (hp : s.phase = .idle) (hpo : s.polling = true) : n.phase = .next := by
  have := h.at_
  unfold At at this
  rw [hp] at this
  rcases this with x | ⟨-, x, -⟩
  · exact x
  · rw [hpo] at x; cases x

/-- One signal is taken from the mailbox and returned. -/
theorem take_one (h : Sim s n) (hp : s.phase = .idle) (hpo : s.polling = true) {x : Nat × Lifecycle.Sig}
    {q : List (Nat × Lifecycle.Sig)} (hq : s.mb.queue = x :: q) : ∃ it n', tag s.mb.pushed it = mark x ∧
      run n [.take 1, .ret 0] = n'.dispatch it ∧ n'.phase = .next ∧ Core { s with mb := s.mb.recv } n' := by
  have hc := h.toCore
  have hat := at_next h hp hpo
  have hs := h.queue
  rw [hq] at hs
  obtain ⟨it, l, h1, h2, h3⟩ := same_cons_right hs
  refine ⟨it, { n.tell [.got (some it.body)] with queue := l }, h2, ?_, hat, ?_⟩
  · simp [run, Next.St.step, Next.St.take, Next.St.ret, hat, h1, h.held, Next.St.tell]
  · have hc1 := hc.tell [] [.got (some it.body)] rfl
    have hr : s.mb.recv.queue = q ∧ s.mb.recv.pushed = s.mb.pushed ∧ s.mb.recv.closed = s.mb.closed := by
      unfold Mb.recv
      rw [hq]
      simp only
      obtain ⟨a, b, c⟩ := release_fields { s.mb with queue := q, received := s.mb.received ++ [x] }
      exact ⟨a, b, c⟩
    obtain ⟨r1, r2, r3⟩ := hr
    constructor
    · simp only [r1, r2]; exact h3
    · simp only [r2]; exact hc.fresh
    · simp only [r3]; exact hc.closed
    · exact hc.held
    · simp only [r2]; exact hc.buffer
    · exact hc.finished
    · exact hc.aborted
    · exact hc.permits
    · simp only [r2]; exact hc.started
    · have := hc1.log; simpa using this
    · simp only [r2]; exact hc.talk

theorem default_recv : Default [.take 1, .ret 0] := .recv .nil

theorem startups_sent (hg : Good s) (hst : Start s) (hp : s.phase = .idle) {t : Nat} {q : List (Nat × Lifecycle.Sig)}
    (hq : s.mb.queue = (t, .startup) :: q) : s.permits = 0 := by
  have h1 := hst.loop (by rw [hp]; rfl)
  obtain ⟨h2, -, -⟩ := hst.res _ h1
  have h3 := hst.ok h1
  have h4 : Lifecycle.startups s.mb.pushed ≤ Lifecycle.startups s.mb.sent := by
    have := hg.shape.mb.part.countP_eq (fun p => p.2 == Lifecycle.Sig.startup)
    simp only [List.countP_append] at this
    simp only [Lifecycle.startups]
    omega
  rw [hg.shape.mb.hist, hq] at h4
  have h5 : Lifecycle.startups ((t, Lifecycle.Sig.startup) :: q) = Lifecycle.startups q + 1 := by
    simp [Lifecycle.startups]
  simp only [Lifecycle.startups_append, h5] at h4
  omega

theorem not_none (hg : Good s) (hp : s.phase = .idle) : s.noSenders = false := by
  have := hg.shape.own
  rw [hp] at this
  simp [Lifecycle.St.noSenders, this]

theorem recv_pushed (m : Mb Lifecycle.Sig) : m.recv.pushed = m.pushed := by
  unfold Mb.recv
  split
  · rfl
  · exact (release_fields _).2.1

/-- The start-up signal is put in the mailbox. -/
theorem Core.startup (h : Core s n) (hc : s.mb.closed = false) (hr : s.mb.hasRoom = true) :
    Core { s with mb := s.mb.trySend .startup } (n.push .startup false) := by
  have hm : s.mb.trySend .startup = (s.mb.bump .startup).push s.mb.next .startup := by
    simp [Mb.trySend, hc, hr]
  have hn : n.closed = false := h.closed.trans hc
  have htag : tag (s.mb.pushed ++ [(s.mb.next, .startup)]) { id := n.fresh, body := .startup, ask := false } =
      mark (s.mb.next, .startup) := by simp [tag, mark, h.fresh, bodyOf, askOf]
  constructor <;> simp only [hm, Mb.push, Mb.bump, Next.St.push, hn, Bool.false_eq_true, if_false, Bool.and_false]
  · exact same_append (same_mono h.queue _) (by rw [same_cons]; exact ⟨htag, same_nil⟩)
  · simp [h.fresh]
  · exact hc.symm
  · exact h.held
  · exact same_mono h.buffer _
  · exact h.finished
  · exact h.aborted
  · exact h.permits
  · exact same_mono h.started _
  · exact h.log
  · constructor
    · intro y hy; exact h.talk.new y (by simp at hy; omega)
    · exact later_mono h.talk.later _
    · intro i
      rw [h.talk.asks i]
      constructor
      · rintro ⟨t, b, h1, h2⟩
        exact ⟨t, b, by rw [List.getElem?_append_left (List.getElem?_eq_some_iff.mp h1).1]; exact h1, h2⟩
      · rintro ⟨t, b, h1, h2⟩
        rcases at_end h1 with h3 | ⟨-, h3⟩
        · exact ⟨t, b, h3, h2⟩
        · cases h3
    · intro i hi; have := h.talk.gave i hi; simp; omega
    · exact answers_push h.talk.answers _ _ (fun _ _ => Iff.rfl) (by simp)

/-- There is no room for it. -/
theorem Core.noRoom (h : Core s n) (hc : s.mb.closed = false) (hr : s.mb.hasRoom = false) :
    Core { s with mb := s.mb.trySend .startup } n := by
  have hm : s.mb.trySend .startup =
      { s.mb.bump .startup with failed := s.mb.failed ++ [(s.mb.next, .startup, .full)] } := by
    simp [Mb.trySend, hc, hr]
  rw [hm]
  exact ⟨h.queue, h.fresh, h.closed, h.held, h.buffer, h.finished, h.aborted, h.permits, h.started, h.log, h.talk⟩

/-- The start-up signal is never sent so that it waits. -/
def Clean (m : Mb Lifecycle.Sig) : Prop := ∀ q ∈ m.granted ++ m.waiting, q.2 ≠ .startup

theorem clean_send {m : Mb Lifecycle.Sig} (h : Clean m) {a : Lifecycle.Sig} (ha : a ≠ .startup) : Clean (m.send a) := by
  unfold Mb.send
  simp only
  split
  · exact h
  · split
    · exact h
    · intro q hq
      simp only [Mb.bump, List.mem_append, List.mem_singleton] at hq
      rcases hq with hq | hq | rfl
      · exact h q (by simp [hq])
      · exact h q (by simp [hq])
      · exact ha

theorem clean_trySend {m : Mb Lifecycle.Sig} (h : Clean m) (a : Lifecycle.Sig) : Clean (m.trySend a) := by
  unfold Mb.trySend
  simp only
  split
  · exact h
  · split <;> exact h

theorem clean_poll {m : Mb Lifecycle.Sig} (h : Clean m) (t : Nat) : Clean (m.poll t) := by
  unfold Mb.poll
  split
  · exact h
  · intro q hq
    simp only [Mb.push, List.mem_append, List.mem_filter] at hq
    exact h q (by simp only [List.mem_append]; exact hq.imp (·.1) id)

theorem clean_release {m : Mb Lifecycle.Sig} (h : Clean m) : Clean m.release := by
  unfold Mb.release
  split
  · exact h
  · next w ws hw =>
    intro q hq
    exact h q (by rw [hw]; simpa [or_assoc] using hq)

theorem clean_cancel {m : Mb Lifecycle.Sig} (h : Clean m) (t : Nat) : Clean (m.cancel t) := by
  unfold Mb.cancel
  split
  · intro q hq
    simp only [List.mem_append, List.mem_filter] at hq
    exact h q (by simp only [List.mem_append]; exact hq.imp id (·.1))
  · split
    · apply clean_release
      intro q hq
      simp only [List.mem_append, List.mem_filter] at hq
      exact h q (by simp only [List.mem_append]; exact hq.imp (·.1) id)
    · exact h

theorem clean_recv {m : Mb Lifecycle.Sig} (h : Clean m) : Clean m.recv := by
  unfold Mb.recv
  split
  · exact h
  · exact clean_release h

theorem clean_close (m : Mb Lifecycle.Sig) : Clean m.close := by
  intro q hq; simp [Mb.close] at hq

theorem clean_tr (h : Clean s.mb) (ht : Tr s s') : Clean s'.mb := by
  cases ht with
  | send b => exact clean_send h (by simp)
  | trySend b => exact clean_trySend h _
  | poll t => exact clean_poll h t
  | cancel t => exact clean_cancel h t
  | sendStop => exact clean_send h (by simp)
  | sendLinkDied id r => exact clean_send h (by simp)
  | startOk hp => simpa [(Lifecycle.startOk_fields s).1] using clean_trySend h .startup
  | startFail o e hp ho => exact clean_trySend h .startup
  | recvStartup hp hpo t q hq => simpa using clean_recv h
  | recvBuffer hp hpo t b q hq hw hf => simpa using clean_recv h
  | recvMsg hp hpo t b q hq hw => simpa using clean_recv h
  | recvLink hp hpo t id r q hq => simpa using clean_recv h
  | recvStop hp hpo t q hq => simpa using clean_recv h
  | teardown _ _ => simpa using clean_close s.mb
  | abort hp ha => simpa [Lifecycle.St.abortSeen] using h
  | panicDie e e' hp hpo => simpa using clean_close s.mb
  | startPanicDie e e' hp => simpa using clean_close s.mb
  | startPanicStop e o r hp ho => simpa [Lifecycle.St.stopFailed] using h
  | stopFinish r pend o res hp ho => simpa using clean_close s.mb
  | stopDie r pend st e hp => simpa using clean_close s.mb
  | finish r res hp => simpa using clean_close s.mb
  | link id => exact h
  | unlink id => exact h
  | _ => simpa using h

/-- Nobody was given a slot in the mailbox before the first signal was taken from it. -/
def Unread (s : Lifecycle.St) : Prop := (s.phase = .prepared ∨ s.phase = .starting) → s.mb.granted = []

theorem send_granted (m : Mb Lifecycle.Sig) (a : Lifecycle.Sig) : (m.send a).granted = m.granted := by
  unfold Mb.send; simp only; split
  · rfl
  · split <;> rfl

theorem trySend_granted (m : Mb Lifecycle.Sig) (a : Lifecycle.Sig) : (m.trySend a).granted = m.granted := by
  unfold Mb.trySend; simp only; split
  · rfl
  · split <;> rfl

theorem poll_granted {m : Mb Lifecycle.Sig} (h : m.granted = []) (t : Nat) : (m.poll t).granted = [] := by
  unfold Mb.poll; simp [h]

theorem cancel_granted {m : Mb Lifecycle.Sig} (h : m.granted = []) (t : Nat) : (m.cancel t).granted = [] := by
  unfold Mb.cancel; split
  · exact h
  · simp [h]

theorem shutdown_started (r : Lifecycle.Reason) : (s.onShutdown r).phase ≠ .prepared ∧ (s.onShutdown r).phase ≠ .starting := by
  unfold Lifecycle.St.onShutdown; split <;> simp

theorem drain_started (rest : List Lifecycle.Msg) (ts : Bool) :
    (s.drain rest ts).phase ≠ .prepared ∧ (s.drain rest ts).phase ≠ .starting := by
  unfold Lifecycle.St.drain
  split
  · simp [Lifecycle.St.beginHandle]
  · split
    · exact shutdown_started _
    · simp

theorem unread_tr (h : Unread s) (ht : Tr s s') : Unread s' := by
  cases ht with
  | send b => intro x; simp only [Lifecycle.St.step, send_granted]; exact h x
  | trySend b => intro x; simp only [Lifecycle.St.step, trySend_granted]; exact h x
  | poll t => intro x; exact poll_granted (h x) t
  | cancel t => intro x; exact cancel_granted (h x) t
  | sendStop => intro x; simp only [send_granted]; exact h x
  | sendLinkDied id r => intro x; simp only [send_granted]; exact h x
  | run hp => intro _; exact h (.inl hp)
  | startOk hp => intro x; simp [(Lifecycle.startOk_fields s).2.1] at x
  | recvStartup hp hpo t q hq => intro x; exact absurd x (by simpa using drain_started _ _)
  | recvStop hp hpo t q hq => intro x; exact absurd x (by simpa using drain_started _ _)
  | recvNone hp hpo hq hn => intro x; exact absurd x (by simpa using drain_started _ _)
  | handlerReply m rest ts res hp hpo ha => intro x; exact absurd x (by simpa using drain_started _ _)
  | handlerOk m taken rest ts v hp hpo ha => intro x; exact absurd x (by simpa using drain_started _ _)
  | recvBuffer hp hpo t b q hq hw hf => intro x; simp [hp] at x
  | polling hp ha p => exact h
  | refl => exact h
  | delegSend t r hm => intro x; simpa using h (by simpa using x)
  | delegDrop t hm => exact h
  | teardown _ _ => intro x; simp [Lifecycle.St.crash] at x
  | startFail o e hp ho => intro x; simp [Lifecycle.St.startFail] at x
  | abort hp ha => intro x; simp [Lifecycle.St.abortSeen] at x
  | startPanicStop e o r hp ho => intro x; simp [Lifecycle.St.stopFailed] at x
  | kill => exact h
  | link id => exact h
  | unlink id => exact h
  | ref k => exact h
  | giveUp t hw => exact h
  | recvMsg hp hpo t b q hq hw => intro x; simp [Lifecycle.St.beginHandle] at x
  | _ => intro x; simp [Lifecycle.St.die, Lifecycle.St.leave, Lifecycle.St.finishAll] at x

/-- Nothing to be seen happened before `on_start` was called. -/
def Quiet (s : Lifecycle.St) : Prop := s.phase = .prepared → sees s.log = []

theorem quiet_tr (h : Quiet s) (ht : Tr s s') : Quiet s' := by
  cases ht with
  | run hp => intro x; simp at x
  | startOk hp => intro x; simp [(Lifecycle.startOk_fields s).2.1] at x
  | recvStartup hp hpo t q hq => intro x; exact absurd x (drain_started _ _).1
  | recvStop hp hpo t q hq => intro x; exact absurd x (drain_started _ _).1
  | recvNone hp hpo hq hn => intro x; exact absurd x (drain_started _ _).1
  | handlerReply m rest ts res hp hpo ha => intro x; exact absurd x (drain_started _ _).1
  | handlerOk m taken rest ts v hp hpo ha => intro x; exact absurd x (drain_started _ _).1
  | recvBuffer hp hpo t b q hq hw hf => intro x; simp [hp] at x
  | polling hp ha p => exact h
  | delegSend t r hm => intro x; simpa [sees, see] using h (by simpa using x)
  | teardown _ _ => intro x; simp [Lifecycle.St.crash] at x
  | startFail o e hp ho => intro x; simp [Lifecycle.St.startFail] at x
  | abort hp ha => intro x; simp [Lifecycle.St.abortSeen] at x
  | startPanicStop e o r hp ho => intro x; simp [Lifecycle.St.stopFailed] at x
  | kill => intro x; simpa [sees, see] using h (by simpa using x)
  | recvMsg hp hpo t b q hq hw => intro x; simp [Lifecycle.St.beginHandle] at x
  | refl => exact h
  | send b => exact h
  | trySend b => exact h
  | poll t => exact h
  | cancel t => exact h
  | sendStop => exact h
  | sendLinkDied id r => exact h
  | link id => exact h
  | unlink id => exact h
  | ref k => exact h
  | giveUp t hw => exact h
  | delegDrop t hm => exact h
  | _ => intro x; simp [Lifecycle.St.die, Lifecycle.St.leave, Lifecycle.St.finishAll] at x

end Verif.Plain
