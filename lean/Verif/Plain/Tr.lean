import Verif.Plain.Steps

/-! The simulation along a transition. -/

set_option linter.unusedSimpArgs false

namespace Verif.Plain

open Verif.Mailbox
open Verif.Lifecycle (Tr Good Start)

variable {cap : Option Nat} {s s' : Lifecycle.St} {n : Next.St}

theorem sees_one (e : Lifecycle.Ev) : sees [e] = (see e).toList := by
  simp only [sees]; cases h : see e <;> simp [List.filterMap, h]

theorem last_of_append {α : Type} {l : List α} {a b : α} (h : l ++ [a] = l ++ [b]) : a = b := by
  simpa using h

theorem push_ne {m m' : Mb Lifecycle.Sig} {a : Lifecycle.Sig} (ha : a ≠ .startup)
    (h : m' = m.send a ∨ m' = m.trySend a) : ∀ q, m'.queue = m.queue ++ [q] → q.2 ≠ .startup := by
  intro q hq
  have : m'.queue = m.queue ∨ m'.queue = m.queue ++ [(m.next, a)] := by
    rcases h with rfl | rfl
    · unfold Mb.send; simp only
      split
      · exact .inl rfl
      · split
        · exact .inr rfl
        · exact .inl rfl
    · unfold Mb.trySend; simp only
      split
      · exact .inl rfl
      · split
        · exact .inr rfl
        · exact .inl rfl
  rcases this with h1 | h1
  · rw [h1] at hq; simp at hq
  · rw [h1] at hq
    have := last_of_append hq
    rw [← this]; exact ha

theorem keep_ne {m m' : Mb Lifecycle.Sig} (h : m'.queue = m.queue) : ∀ q, m'.queue = m.queue ++ [q] → q.2 ≠ .startup := by
  intro q hq; rw [h] at hq; simp at hq

theorem push_log (b : Next.Body) (a : Bool) : (n.push b a).log = n.log := by
  unfold Next.St.push; split <;> rfl

theorem push_tell (b : Next.Body) (a : Bool) (l : List Next.Ev) : (n.tell l).push b a = (n.push b a).tell l := by
  cases hc : n.closed <;> simp [Next.St.push, Next.St.tell, hc]

theorem cancel_queue (m : Mb Lifecycle.Sig) (t : Nat) : (m.cancel t).queue = m.queue := by
  unfold Mb.cancel
  split
  · rfl
  · split
    · exact (release_fields _).1
    · rfl

theorem at_of {p : Lifecycle.Phase} (h : Sim s n) (hp : s.phase = p) : AtP s n p := hp ▸ h.at_

theorem sim_kill (h : Sim s n) :
    Sim ({ s with aborted := true, log := s.log ++ [.killCalled] }) (run n [.kill]) := by
  refine ⟨⟨h.queue, h.fresh, h.closed, h.held, h.buffer, h.finished, rfl, h.permits, h.started, ?_, h.talk⟩, ?_⟩
  · show shows n.log = _
    rw [sees_append]; simpa [sees_one, see] using h.log
  · have := h.at_
    unfold At at *
    cases hp : s.phase <;> simp only [hp, AtP] at this ⊢ <;> try exact this
    exact this.imp id (fun x => ⟨x.1, x.2.1, trivial⟩)

/-- The handler that runs, if one does, is dropped; then `f` is what `Verif.Next` shows. -/
theorem core_cancel (hg : Good s) (h : Sim s n) (e : Next.Ev) (he : shown e = none) :
    Core s.cancelRunning (match n.phase with
      | .handling it rest _ => ((n.tell [e]).settle it .dropped).drop rest
      | _ => n.tell [e]) := by
  have hinv := hg.shape.mb
  have hc := h.toCore
  have hat := h.at_
  have hsh : shows [e] = [] := by simp [shows, he]
  have hplain : ∀ a, sees a = [] → Core { s with log := s.log ++ a } (n.tell [e]) := fun a ha =>
    hc.tell a [e] (by rw [hsh, ha]) (by simp [hsh])
  have h0 : Core s (n.tell [e]) := hc.congr (k10 := by simp [hsh])
  unfold At at hat
  unfold Lifecycle.St.cancelRunning
  cases hph : s.phase with
  | handling m taken rest ts =>
    simp only [hph, AtP] at hat ⊢
    obtain ⟨it, l, h1, h2, h3, h4⟩ := hat
    simp only [h1]
    rw [settle_tell]
    have h5 := hc.settle hinv h2 h4 (v := .failed .actorStopped) (o := .dropped) rfl
    exact ((h5.tell [.hCancel m] [e] (by rw [hsh]; rfl) (by simp [hsh])).lose hinv h3)
  | idle =>
    simp only [hph, AtP] at hat ⊢
    rcases hat with h1 | ⟨h1, -⟩ <;> simp only [h1] <;> exact h0
  | linkDying id r =>
    simp only [hph, AtP] at hat ⊢
    simp only [hat]
    exact hplain [.lCancel] rfl
  | panicking e' =>
    simp only [hph, AtP] at hat ⊢
    simp only [hat]
    exact hplain [.pCancel] rfl
  | startPanicking e' =>
    simp only [hph, AtP] at hat ⊢
    simp only [hat]
    exact hplain [.pCancel] rfl
  | _ =>
    simp only [hph, AtP] at hat ⊢
    simp only [hat]
    first
      | exact h0
      | exact hplain [_] rfl

theorem cancelRunning_mb : s.cancelRunning.mb = s.mb := by
  unfold Lifecycle.St.cancelRunning; split <;> rfl

theorem inLoop_abortable (h : Sim s n) : n.phase.abortable = s.phase.inLoop := by
  have h := h.at_
  unfold At at h
  cases he : s.phase <;> simp only [he, AtP] at h <;>
    first
      | (rw [h]; rfl)
      | (obtain ⟨it, l, h, -⟩ := h; rw [h]; rfl)
      | (rcases h with h | ⟨h, -⟩ <;> (rw [h]; rfl))

theorem sim_abort (hg : Good s) (h : Sim s n) (hp : s.phase.inLoop = true) (ha : s.aborted = true) :
    Sim s.abortSeen (run n [.abort]) := by
  have hna : n.aborted = true := h.aborted.trans ha
  have h1 := core_cancel hg h .abort rfl
  have h2 := h1.stop (by rw [cancelRunning_mb]; exact hg.shape.mb) .killed
  have h3 : n.phase.abortable = true := (inLoop_abortable h).trans hp
  have hres : run n [.abort] = (match n.phase with
      | .handling it rest _ => ((n.tell [.abort]).settle it .dropped).drop rest
      | _ => n.tell [.abort]).stop .killed := by
    cases hph : n.phase <;>
      simp [run, Next.St.step, Next.St.abort, hna, hph, show (_ : Next.Phase).abortable = true from hph ▸ h3]
  rw [hres]
  exact h2

theorem sim_recvStartup (hg : Good s) (hst : Start s) (h : Sim s n) (hp : s.phase = .idle) (hpo : s.polling = true) (t : Nat)
      (q : List (Nat × Lifecycle.Sig)) (hq : s.mb.queue = (t, .startup) :: q) :
    Sim ((({ { s with mb := s.mb.recv }.finishStartup with permits := s.permits + 1 }).drain
        s.buffer false))
      (run n [.take 1, .ret 0]) := by
  have hinv := hg.shape.mb
  obtain ⟨it, n', h1, h2, h3, h4⟩ := take_one h hp hpo hq
  rw [h2]
  have hb : it.body = .startup := by simp only [tag, mark, bodyOf, Prod.mk.injEq] at h1; exact h1.1
  have h0 := startups_sent hg hst hp hq
  have hpm : n'.permits = false := by rw [h4.permits]; simp [h0]
  have h5 : Core { { s with mb := s.mb.recv } with permits := s.permits + 1 }
      { n' with gone := n'.gone ++ [it], permits := true } :=
    ⟨h4.queue, h4.fresh, h4.closed, h4.held, h4.buffer, h4.finished, h4.aborted, by simp, h4.started, h4.log, h4.talk⟩
  have h6 := h5.drain (inv_recv hinv) false
  simpa [Next.St.dispatch, hb, hpm, Lifecycle.St.finishStartup] using h6

theorem sim_recvBuffer (hg : Good s) (hst : Start s) (h : Sim s n) (hp : s.phase = .idle) (hpo : s.polling = true) (t : Nat) (b : Lifecycle.Body)
      (q : List (Nat × Lifecycle.Sig)) (hq : s.mb.queue = (t, .msg b) :: q) (hw : b.within = false)
      (hf : s.finished = false) :
    Sim ({ s with mb := s.mb.recv, buffer := s.buffer ++ [(t, b)] })
      (run n [.take 1, .ret 0]) := by
  have hinv := hg.shape.mb
  obtain ⟨it, n', h1, h2, h3, h4⟩ := take_one h hp hpo hq
  rw [h2]
  have hb : it.body = .msg false := by simp only [tag, mark, bodyOf, Prod.mk.injEq, hw] at h1; exact h1.1
  have hfn : n'.finished = false := by rw [h4.finished]; exact hf
  have h5 := h4.tell [] [.b .next] rfl
  apply Core.sim
  · simp only [Next.St.dispatch, hb, hfn, Bool.not_false, Bool.and_self, if_true]
    refine ⟨h5.queue, h5.fresh, h5.closed, h5.held, ?_, by simp [hf], h5.aborted, h5.permits, h5.started,
      by simpa using h5.log, h5.talk⟩
    simp only [sigs_append, sigs_cons, sigs_nil]
    have hpush : s.mb.recv.pushed = s.mb.pushed := recv_pushed _
    exact same_append h5.buffer (by rw [same_cons]; exact ⟨by rw [hpush]; exact h1, same_nil⟩)
  · simp [Next.St.dispatch, hb, hfn, hp, At, AtP]

theorem sim_recvMsg (hg : Good s) (hst : Start s) (h : Sim s n) (hp : s.phase = .idle) (hpo : s.polling = true) (t : Nat) (b : Lifecycle.Body)
      (q : List (Nat × Lifecycle.Sig)) (hq : s.mb.queue = (t, .msg b) :: q)
      (hw : b.within = true ∨ s.finished = true) :
    Sim (({ s with mb := s.mb.recv }.beginHandle (t, b) [] false))
      (run n [.take 1, .ret 0]) := by
  have hinv := hg.shape.mb
  obtain ⟨it, n', h1, h2, h3, h4⟩ := take_one h hp hpo hq
  rw [h2]
  have hb : it.body = .msg b.within := by simp only [tag, mark, bodyOf, Prod.mk.injEq] at h1; exact h1.1
  have hfn : (!b.within && !n'.finished) = false := by
    rw [h4.finished]; rcases hw with h | h <;> simp [h]
  have hpush : s.mb.recv.pushed = s.mb.pushed := recv_pushed _
  have h5 := h4.go (inv_recv hinv) (rest := [(t, b)]) (l := [it]) (by
    simp only [sigs_cons, sigs_nil, same_cons]; exact ⟨by rw [hpush]; exact h1, same_nil⟩) false
  have h6 : n'.dispatch it = { n' with returned := n'.returned ++ [it] }.go [it] false := by
    simp [Next.St.dispatch, hb, hfn, Next.St.go, Next.St.tell]
  rw [h6]
  exact ⟨⟨h5.queue, h5.fresh, h5.closed, h5.held, h5.buffer, h5.finished, h5.aborted, h5.permits, h5.started, h5.log,
    h5.talk⟩, h5.at_⟩

theorem sim_recvLink (hg : Good s) (hst : Start s) (h : Sim s n) (hp : s.phase = .idle) (hpo : s.polling = true) (t : Nat) (id : Lifecycle.Id) (r : Lifecycle.Reason)
      (q : List (Nat × Lifecycle.Sig)) (hq : s.mb.queue = (t, .linkDied id r) :: q) :
    Sim ({ s with mb := s.mb.recv, phase := .linkDying id r, log := s.log ++ [.lBegin id r] })
      (run n [.take 1, .ret 0]) := by
  have hinv := hg.shape.mb
  obtain ⟨it, n', h1, h2, h3, h4⟩ := take_one h hp hpo hq
  rw [h2]
  have hb : it.body = .linkDied := by simp only [tag, mark, bodyOf, Prod.mk.injEq] at h1; exact h1.1
  have h5 := h4.tell [.lBegin id r] [.b .link] rfl
  apply Core.sim
  · simp only [Next.St.dispatch, hb]
    exact ⟨h5.queue, h5.fresh, h5.closed, h5.held, h5.buffer, h5.finished, h5.aborted, h5.permits, h5.started,
      h5.log, h5.talk⟩
  · simp [Next.St.dispatch, hb, hp, At, AtP]

theorem sim_recvStop (hg : Good s) (hst : Start s) (h : Sim s n) (hp : s.phase = .idle) (hpo : s.polling = true) (t : Nat)
      (q : List (Nat × Lifecycle.Sig)) (hq : s.mb.queue = (t, .stop) :: q) :
    Sim ((({ s with mb := s.mb.recv }.finishStartup.ev .stopTaken).drain s.buffer true))
      (run n [.take 1, .ret 0]) := by
  have hinv := hg.shape.mb
  obtain ⟨it, n', h1, h2, h3, h4⟩ := take_one h hp hpo hq
  rw [h2]
  have hb : it.body = .stop := by simp only [tag, mark, bodyOf, Prod.mk.injEq] at h1; exact h1.1
  have h5 := h4.tell [.stopTaken] [] rfl
  have h6 : Core { { s with mb := s.mb.recv } with log := s.log ++ [.stopTaken] } { n' with gone := n'.gone ++ [it] } :=
    ⟨h5.queue, h5.fresh, h5.closed, h5.held, h5.buffer, h5.finished, h5.aborted, h5.permits, h5.started,
      by simpa using h5.log, h5.talk⟩
  have h7 := h6.drain (inv_recv hinv) true
  simpa [Next.St.dispatch, hb, Lifecycle.St.finishStartup, Lifecycle.St.ev] using h7

theorem sim_handlerOk (hg : Good s) (h : Sim s n) (m : Lifecycle.Msg) (taken : Bool) (rest : List Lifecycle.Msg) (ts : Bool)
      (v : Nat) (hp : s.phase = .handling m taken rest ts) (ha : m.2.ask = false ∨ taken = true) :
    Sim (((s.ev (.hEnd m taken (.ret (.ok v)))).drain rest ts)) (run n [.handleEnd .ok]) := by
  obtain ⟨it, l, h1, h2, h3, h4⟩ := at_of h hp
  exact handler_go hg h1 h2 h3 h4 s.slots (.ret (.ok v)) .ok .value (.inl ⟨rfl, rfl⟩) rfl (h.toCore.settle_no h2 h4 ha _)

theorem sim_handlerErr (hg : Good s) (h : Sim s n) (m : Lifecycle.Msg) (taken : Bool) (rest : List Lifecycle.Msg) (ts : Bool)
      (e : Lifecycle.Err) (hp : s.phase = .handling m taken rest ts) (ha : m.2.ask = false ∨ taken = true) :
    Sim ({ ((s.ev (.hEnd m taken (.ret (.err e)))).lose rest).ev (.pBegin e) with phase := .panicking e })
      (run n [.handleEnd .err]) := by
  obtain ⟨it, l, h1, h2, h3, h4⟩ := at_of h hp
  refine handler_fail hg h1 h2 h3 h4 s.slots (.ret (.err e)) e .err (.inr ⟨rfl, ha⟩) ?_ (h.toCore.settle_no h2 h4 ha _)
  rcases ha with ha | ha <;> simp [handleHow, ha]

theorem sim_handlerPanic (hg : Good s) (h : Sim s n) (m : Lifecycle.Msg) (taken : Bool) (rest : List Lifecycle.Msg) (ts : Bool)
      (e : Lifecycle.Err) (hp : s.phase = .handling m taken rest ts) :
    Sim ({ (((s.dropReplies (if taken then [] else [m.1])).ev (.hEnd m taken (.panic e))).lose
        rest).ev (.pBegin e) with phase := .panicking e })
      (run n [.handleEnd .panic]) := by
  obtain ⟨it, l, h1, h2, h3, h4⟩ := at_of h hp
  exact handler_fail hg h1 h2 h3 h4 _ (.panic e) e .panic (.inl rfl) rfl
    (h.toCore.settle hg.shape.mb h2 h4 (v := .failed .actorStopped) (o := .dropped) rfl)

theorem sim_linkCont (hg : Good s) (hst : Start s) (h : Sim s n) (id : Lifecycle.Id) (r : Lifecycle.Reason) (hp : s.phase = .linkDying id r) (hpo : s.polling = true) :
    Sim ({ s with links := s.links.filter (· != id), log := s.log ++ [.lEnd id r .cont],
                    phase := .idle })
      (run n [.linkEnd .cont]) := by
  have hinv := hg.shape.mb
  have h3 : n.phase = .link := at_of h hp
  have h5 := h.toCore.tell [.lEnd id r .cont] [.e .link .ok, .b .next] rfl
  apply Core.sim
  · simp only [run, List.foldl, Next.St.step, Next.St.linkEnd, h3]
    exact ⟨h5.queue, h5.fresh, h5.closed, h5.held, h5.buffer, h5.finished, h5.aborted, h5.permits, h5.started,
      by simpa [Next.Flow.linkHow] using h5.log, h5.talk⟩
  · simp [run, Next.St.step, Next.St.linkEnd, h3, At, AtP]

theorem sim_linkStop (hg : Good s) (hst : Start s) (h : Sim s n) (id : Lifecycle.Id) (r r' : Lifecycle.Reason) (hp : s.phase = .linkDying id r) (hpo : s.polling = true)
      (hr : ∀ e, r' ≠ .panicked e) :
    Sim ((Lifecycle.St.leave { s with
        links := s.links.filter (· != id)
        log := s.log ++ [Lifecycle.Ev.lEnd id r (.brk r')] } r'))
      (run n [.linkEnd (.brk (reasonOf r'))]) := by
  have hinv := hg.shape.mb
  have h3 : n.phase = .link := at_of h hp
  have h5 := h.toCore.tell [.lEnd id r (.brk r')] [.e .link .leave] (by
    simp [sees, see, shows, shown, linkHow_brk hr])
  have h6 : Core { s with
      links := s.links.filter (· != id)
      log := s.log ++ [.lEnd id r (.brk r')] } (n.tell [.e .link .leave]) :=
    ⟨h5.queue, h5.fresh, h5.closed, h5.held, h5.buffer, h5.finished, h5.aborted, h5.permits, h5.started,
      h5.log, h5.talk⟩
  have h7 := h6.stop hinv r'
  have h8 : run n [.linkEnd (.brk (reasonOf r'))] = (n.tell [.e .link .leave]).stop (reasonOf r') := by
    have := reason_ne hr
    simp only [run, List.foldl, Next.St.step, Next.St.linkEnd, h3, nextLinkHow_brk this]
  rw [h8]
  exact h7

theorem sim_linkPanic (hg : Good s) (hst : Start s) (h : Sim s n) (id : Lifecycle.Id) (r : Lifecycle.Reason) (o : Lifecycle.FOut) (e : Lifecycle.Err) (hp : s.phase = .linkDying id r)
      (hpo : s.polling = true) (ho : o = .brk (.panicked e) ∨ o = .err e ∨ o = .panic e) :
    Sim ({ s with links := s.links.filter (· != id), log := s.log ++ [.lEnd id r o, .pBegin e],
                    phase := .panicking e })
      (run n [.linkEnd .panic]) := by
  have hinv := hg.shape.mb
  have h3 : n.phase = .link := at_of h hp
  have h5 := h.toCore.tell [.lEnd id r o, .pBegin e] [.e .link .fail, .b .panic] (by
    rcases ho with rfl | rfl | rfl <;> rfl)
  apply Core.sim
  · simp only [run, List.foldl, Next.St.step, Next.St.linkEnd, h3, Next.St.panicked]
    exact ⟨h5.queue, h5.fresh, h5.closed, h5.held, h5.buffer, h5.finished, h5.aborted, h5.permits, h5.started,
      by simpa [Next.Flow.linkHow] using h5.log, h5.talk⟩
  · simp [run, Next.St.step, Next.St.linkEnd, h3, At, AtP, Next.St.panicked]

theorem sim_panicCont (hg : Good s) (hst : Start s) (h : Sim s n) (e : Lifecycle.Err) (hp : s.phase = .panicking e) (hpo : s.polling = true) :
    Sim ({ s with log := s.log ++ [.pEnd e .cont], phase := .idle })
      (run n [.panicEnd .cont]) := by
  have hinv := hg.shape.mb
  have h3 : n.phase = .onPanic false := at_of h hp
  have h5 := h.toCore.tell [.pEnd e .cont] [.e .panic .ok, .b .next] rfl
  apply Core.sim
  · simp only [run, List.foldl, Next.St.step, Next.St.panicEnd, h3]
    exact ⟨h5.queue, h5.fresh, h5.closed, h5.held, h5.buffer, h5.finished, h5.aborted, h5.permits, h5.started,
      by simpa [Next.Flow.panicHow] using h5.log, h5.talk⟩
  · simp [run, Next.St.step, Next.St.panicEnd, h3, At, AtP]

theorem sim_panicStop (hg : Good s) (hst : Start s) (h : Sim s n) (e : Lifecycle.Err) (o : Lifecycle.FOut) (r : Lifecycle.Reason) (hp : s.phase = .panicking e)
      (hpo : s.polling = true) (ho : o = .brk r ∨ ∃ e', o = .err e' ∧ r = .panicked e') :
    Sim (((s.ev (.pEnd e o)).leave r))
      (run n [.panicEnd (.brk (reasonOf r))]) := by
  have hinv := hg.shape.mb
  have h3 : n.phase = .onPanic false := at_of h hp
  have h5 := h.toCore.tell [.pEnd e o] [.e .panic .leave] (by
    rcases ho with rfl | ⟨e', rfl, -⟩ <;> rfl)
  have h7 := h5.stop hinv r
  have h8 : run n [.panicEnd (.brk (reasonOf r))] = (n.tell [.e .panic .leave]).stop (reasonOf r) := by
    simp only [run, List.foldl, Next.St.step, Next.St.panicEnd, h3, Next.Flow.panicHow]
  rw [h8]
  exact h7

theorem sim_panicDie (hg : Good s) (hst : Start s) (h : Sim s n) (e e' : Lifecycle.Err) (hp : s.phase = .panicking e) (hpo : s.polling = true) :
    Sim ((s.ev (.pEnd e (.panic e'))).die)
      (run n [.panicEnd .panic]) := by
  have hinv := hg.shape.mb
  have h3 : n.phase = .onPanic false := at_of h hp
  have h5 := h.toCore.crash hinv (by simp [h3]) [.pEnd e (.panic e')] rfl
  have h8 : run n [.panicEnd .panic] = n.crash := by
    simp only [run, List.foldl, Next.St.step, Next.St.panicEnd, h3]
  rw [h8]
  exact h5

theorem sim_startPanicDie (hg : Good s) (hst : Start s) (h : Sim s n) (e e' : Lifecycle.Err) (hp : s.phase = .startPanicking e) :
    Sim ((s.ev (.pEnd e (.panic e'))).die)
      (run n [.panicEnd .panic]) := by
  have hinv := hg.shape.mb
  have h3 : n.phase = .onPanic true := at_of h hp
  have h5 := h.toCore.crash hinv (by simp [h3]) [.pEnd e (.panic e')] rfl
  have h8 : run n [.panicEnd .panic] = n.crash := by
    simp only [run, List.foldl, Next.St.step, Next.St.panicEnd, h3]
  rw [h8]
  exact h5

theorem sim_stopNotify (hg : Good s) (hst : Start s) (h : Sim s n) (r : Lifecycle.Reason) (pend : List Lifecycle.Id) (o : Lifecycle.UOut) (res : Option Lifecycle.Err)
      (hp : s.phase = .stopping r pend true)
      (ho : (o = .ok ∧ res = none) ∨ ∃ e, o = .err e ∧ res = some e) :
    Sim ({ s with log := s.log ++ [.sEnd r o], phase := .notifying r pend res })
      (run n []) := by
  have hinv := hg.shape.mb
  have h3 := at_of h hp
  have h5 := h.toCore.tell [.sEnd r o] [] (by rcases ho with ⟨rfl, -⟩ | ⟨e, rfl, -⟩ <;> rfl)
  apply Core.sim
  · exact ⟨h5.queue, h5.fresh, h5.closed, h5.held, h5.buffer, h5.finished, h5.aborted, h5.permits, h5.started,
      by have := h5.log; simp only [Next.tell_log, List.append_nil] at this; exact this, h5.talk⟩
  · exact h3

theorem sim_stopFinish (hg : Good s) (hst : Start s) (h : Sim s n) (r : Lifecycle.Reason) (pend : List Lifecycle.Id) (o : Lifecycle.UOut) (res : Option Lifecycle.Err)
      (hp : s.phase = .stopping r pend false)
      (ho : (o = .ok ∧ res = none) ∨ ∃ e, o = .err e ∧ res = some e) :
    Sim (((s.ev (.sEnd r o)).finishAll r res))
      (run n [.stopEnd .ok]) := by
  have hinv := hg.shape.mb
  have h3 : n.phase = .stopping (reasonOf r) := at_of h hp
  have h5 := (h.toCore.close hinv).tell [.sEnd r o, .returned r] [.e .stop .ok] (by rcases ho with ⟨rfl, -⟩ | ⟨e, rfl, -⟩ <;> rfl)
  apply Core.sim
  · simp only [run, List.foldl, Next.St.step, Next.St.stopEnd, h3]
    exact ⟨h5.queue, h5.fresh, h5.closed, h5.held, h5.buffer, h5.finished, h5.aborted, h5.permits, h5.started,
      by have := h5.log; simpa [Lifecycle.St.finishAll] using this, h5.talk⟩
  · simp only [run, List.foldl, Next.St.step, Next.St.stopEnd, h3]; rfl

theorem sim_stopDie (hg : Good s) (hst : Start s) (h : Sim s n) (r : Lifecycle.Reason) (pend : List Lifecycle.Id) (st : Bool) (e : Lifecycle.Err)
      (hp : s.phase = .stopping r pend st) :
    Sim ((s.ev (.sEnd r (.panic e))).die)
      (run n [.stopEnd .panic]) := by
  have hinv := hg.shape.mb
  have h3 : n.phase = .stopping (reasonOf r) := at_of h hp
  have h5 := h.toCore.crash hinv (by simp [h3]) [.sEnd r (.panic e)] rfl
  have h8 : run n [.stopEnd .panic] = n.crash := by
    simp only [run, List.foldl, Next.St.step, Next.St.stopEnd, h3]
  rw [h8]
  exact h5

theorem sim_finish (hg : Good s) (hst : Start s) (h : Sim s n) (r : Lifecycle.Reason) (res : Option Lifecycle.Err) (hp : s.phase = .notifying r [] res) :
    Sim ((s.finishAll r res))
      (run n [.stopEnd .ok]) := by
  have hinv := hg.shape.mb
  have h3 : n.phase = .stopping (reasonOf r) := at_of h hp
  have h5 := (h.toCore.close hinv).tell [.returned r] [.e .stop .ok] rfl
  apply Core.sim
  · simp only [run, List.foldl, Next.St.step, Next.St.stopEnd, h3]
    exact ⟨h5.queue, h5.fresh, h5.closed, h5.held, h5.buffer, h5.finished, h5.aborted, h5.permits, h5.started,
      by have := h5.log; simpa [Lifecycle.St.finishAll] using this, h5.talk⟩
  · simp only [run, List.foldl, Next.St.step, Next.St.stopEnd, h3]; rfl

theorem reply_eq (s : Lifecycle.St) (t : Nat) (res : Lifecycle.Res) : s.reply t res =
    { s with slots := fun u => if s.slots u = .waiting ∧ u = t then .got res else s.slots u } := by
  unfold Lifecycle.St.reply
  split
  · next hw =>
    congr 1
    funext u
    simp only [Lifecycle.setSlot]
    by_cases hu : u = t
    · subst hu; simp [hw]
    · simp [hu]
  · next hw =>
    have : (fun u => if s.slots u = .waiting ∧ u = t then Lifecycle.Slot.got res else s.slots u) = s.slots := by
      funext u
      rw [if_neg]
      rintro ⟨h1, rfl⟩
      exact hw h1
    rw [this]

/-- The operation of `Verif.Next` for the result of a handler. -/
def resOf : Lifecycle.Res → Next.Res
  | .ok _ => .ok
  | .err _ => .err

theorem sim_handlerReply (hg : Good s) (h : Sim s n) (m : Lifecycle.Msg) (rest : List Lifecycle.Msg) (ts : Bool)
    (res : Lifecycle.Res) (hp : s.phase = .handling m false rest ts) (ha : m.2.ask = true) :
    Sim (((s.reply m.1 res).ev (.hEnd m false (.ret res))).drain rest ts) (run n [.handleEnd (resOf res)]) := by
  obtain ⟨it, l, h1, h2, h3, h4⟩ := at_of h hp
  rw [reply_eq]
  cases res with
  | ok v =>
    have hc := h.toCore.settle hg.shape.mb h2 h4 (v := .got (.ok v)) (o := .value) rfl
    simp only [Bool.false_eq_true, if_false, List.mem_singleton] at hc
    exact handler_go hg h1 h2 h3 h4 _ (.ret (.ok v)) .ok .value (.inl ⟨rfl, rfl⟩) rfl hc
  | err e =>
    have hc := h.toCore.settle hg.shape.mb h2 h4 (v := .got (.err e)) (o := .err) rfl
    simp only [Bool.false_eq_true, if_false, List.mem_singleton] at hc
    exact handler_go hg h1 h2 h3 h4 _ (.ret (.err e)) .err .err (.inr ⟨rfl, rfl, ha, rfl⟩) (by simp [handleHow, ha]) hc

theorem Core.doom (h : Core s n) (f : Bool) (hf : s.finished = f) : Core s { n with finished := f, phase := .doomed } :=
  ⟨h.queue, h.fresh, h.closed, h.held, h.buffer, hf.symm, h.aborted, h.permits, h.started, h.log, h.talk⟩

theorem room_starting (ha : Unread s) (h : Sim s n) (hp : s.phase = .starting) : s.mb.hasRoom = room s.mb.cap n := by
  have h1 := ha (.inr hp)
  have h2 := congrArg List.length h.queue
  simp only [List.length_map] at h2
  unfold Mb.hasRoom room
  cases s.mb.cap with
  | none => rfl
  | some c => simp [h1, h2]

theorem sim_startOk (hg : Good s) (h : Sim s n) (hp : s.phase = .starting) :
    Sim s.startOk (run n [.startEnd .ok (!s.mb.hasRoom)]) := by
  have h3 : n.phase = .starting := at_of h hp
  have hc := h.toCore
  have hcl : s.mb.closed = false := by rw [hg.shape.closed, hp]; rfl
  have hb : s.buffer = [] := by
    refine Classical.byContradiction fun hb => ?_
    have := (hg.shape.buf hb).2
    rw [hp] at this; simp at this
  cases hr : s.mb.hasRoom with
  | true =>
    have h5 := (hc.startup hcl hr).tell [.startEnd .ok] [.e .start .ok] rfl
    rw [← push_tell] at h5
    have hs : s.startOk = { s with
        mb := s.mb.trySend .startup, log := s.log ++ [.startEnd .ok], startupErr := some none, phase := .idle,
        polling := false } := by simp [Lifecycle.St.startOk, hr]
    have hpa : ((n.tell [.e .start .ok]).push .startup false).aborted = s.aborted := h5.aborted
    have hr' : run n [.startEnd .ok (!true)] = ((n.tell [.e .start .ok]).push .startup false).enter false := by
      simp [run, Next.St.step, Next.St.startEnd, h3, Next.startHow]
    rw [hs, hr']
    unfold Next.St.enter
    rw [hpa]
    by_cases ha : s.aborted = true
    · rw [if_pos ha]
      refine ⟨?_, .inr ⟨rfl, rfl, ha⟩⟩
      exact ⟨h5.queue, h5.fresh, h5.closed, h5.held, h5.buffer, by simpa using h5.finished, rfl, h5.permits,
        h5.started, h5.log, h5.talk⟩
    · rw [if_neg ha]
      simp only [Bool.false_eq_true, if_false]
      have h6 := h5.tell [] [.b .next] rfl
      refine ⟨?_, .inl rfl⟩
      exact ⟨h6.queue, h6.fresh, h6.closed, h6.held, h6.buffer, h6.finished, h6.aborted, h6.permits,
        h6.started, by simpa using h6.log, h6.talk⟩
  | false =>
    have h5 := (hc.noRoom hcl hr).tell [.startEnd .ok] [.e .start .full] rfl
    have hs : s.startOk = { s with
        mb := s.mb.trySend .startup, log := s.log ++ [.startEnd .ok], startupErr := some none, phase := .idle,
        polling := false, finished := true, buffer := [], cut := s.startOk.cut } := by
      simp [Lifecycle.St.startOk, hcl, hr, Lifecycle.St.finishStartup]
    have hpa : (n.tell [.e .start .full]).aborted = s.aborted := h5.aborted
    have hbn : n.buffer = [] := by have := h.buffer; rw [hb] at this; simpa [Same] using this
    have hr' : run n [.startEnd .ok (!false)] = (n.tell [.e .start .full]).enter true := by
      simp [run, Next.St.step, Next.St.startEnd, h3, Next.startHow]
    rw [hs, hr']
    unfold Next.St.enter
    rw [hpa]
    by_cases ha : s.aborted = true
    · rw [if_pos ha]
      refine ⟨?_, .inr ⟨rfl, rfl, ha⟩⟩
      exact ⟨h5.queue, h5.fresh, h5.closed, h5.held, by simpa [hbn] using same_nil, by simp, rfl, h5.permits,
        h5.started, h5.log, h5.talk⟩
    · rw [if_neg ha]
      simp only [if_true]
      have h6 := h5.tell [] [.b .next] rfl
      have he : (n.tell [.e .start .full]).drain false = { (n.tell [.e .start .full]).tell [.b .next] with
          finished := true, buffer := [], phase := .next } := by
        simp [Next.St.drain, hbn, Next.St.go, Next.St.tell]
      rw [he]
      refine ⟨?_, .inl rfl⟩
      exact ⟨h6.queue, h6.fresh, h6.closed, h6.held, same_nil, rfl, h6.aborted, h6.permits,
        h6.started, by simpa using h6.log, h6.talk⟩

theorem sim_startFail (hg : Good s) (h : Sim s n) (o : Lifecycle.UOut) (e : Lifecycle.Err) (hp : s.phase = .starting)
    (ho : o = .err e ∨ o = .panic e) {k : Next.Res} (hk : k ≠ .ok) :
    Sim (s.startFail o e) (run n [.startEnd k (!s.mb.hasRoom)]) := by
  have h3 : n.phase = .starting := at_of h hp
  have hc := h.toCore
  have hcl : s.mb.closed = false := by rw [hg.shape.closed, hp]; rfl
  have hev : shows [.e .start .fail, .b .panic] = sees [.startEnd o, .pBegin e] := by rcases ho with rfl | rfl <;> rfl
  have hn : ∀ n', Core { s with mb := s.mb.trySend .startup, log := s.log ++ [.startEnd o, .pBegin e] } n' →
      Sim (s.startFail o e) { n' with permits := true, phase := .onPanic true } := by
    intro n' h5
    exact ⟨⟨h5.queue, h5.fresh, h5.closed, h5.held, h5.buffer, h5.finished, h5.aborted, by simp [Lifecycle.St.startFail],
      h5.started, h5.log, h5.talk⟩, rfl⟩
  cases hr : s.mb.hasRoom with
  | true =>
    have h5 := hn _ ((hc.startup hcl hr).tell [.startEnd o, .pBegin e] [.e .start .fail, .b .panic] hev)
    have h6 : run n [.startEnd k (!true)] = { (n.push .startup false).tell [.e .start .fail, .b .panic] with
        permits := true, phase := .onPanic true } := by
      cases k with
      | ok => exact absurd rfl hk
      | _ =>
        simp only [run, List.foldl, Next.St.step, Next.St.startEnd, h3, Next.startHow, push_tell]
        simp [Next.St.tell]
    rw [h6]; exact h5
  | false =>
    have h5 := hn _ ((hc.noRoom hcl hr).tell [.startEnd o, .pBegin e] [.e .start .fail, .b .panic] hev)
    have h6 : run n [.startEnd k (!false)] = { n.tell [.e .start .fail, .b .panic] with
        permits := true, phase := .onPanic true } := by
      cases k with
      | ok => exact absurd rfl hk
      | _ => simp [run, Next.St.step, Next.St.startEnd, h3, Next.startHow, Next.St.tell]
    rw [h6]; exact h5

theorem sim_startPanicStop (hg : Good s) (h : Sim s n) (e : Lifecycle.Err) (o : Lifecycle.FOut) (r : Lifecycle.Reason)
    (hp : s.phase = .startPanicking e) (f : Next.Flow)
    (ho : (o = .cont ∧ r = .panicked e ∧ f = .cont) ∨ (o = .brk r ∧ f = .brk (reasonOf r)) ∨
      ∃ e', o = .err e' ∧ r = .panicked e' ∧ f = .err) :
    Sim ((s.ev (.pEnd e o)).stopFailed r) (run n [.panicEnd f]) := by
  have hinv := hg.shape.mb
  have h3 : n.phase = .onPanic true := at_of h hp
  have h8 : ∃ k, run n [.panicEnd f] = (n.tell [.e .panic k]).stop (reasonOf r) ∧
      shows [.e .panic k] = sees [.pEnd e o] := by
    rcases ho with ⟨rfl, rfl, rfl⟩ | ⟨rfl, rfl⟩ | ⟨e', rfl, rfl, rfl⟩
    · exact ⟨.ok, by simp [run, Next.St.step, Next.St.panicEnd, h3, Next.Flow.panicHow, reasonOf], rfl⟩
    · exact ⟨.leave, by simp [run, Next.St.step, Next.St.panicEnd, h3, Next.Flow.panicHow], rfl⟩
    · exact ⟨.leave, by simp [run, Next.St.step, Next.St.panicEnd, h3, Next.Flow.panicHow, reasonOf], rfl⟩
  obtain ⟨k, h10, h11⟩ := h8
  rw [h10]
  have h5 := (h.toCore.tell [.pEnd e o] [.e .panic k] h11)
  have h7 := h5.stop hinv r
  exact ⟨⟨h7.queue, h7.fresh, h7.closed, h7.held, h7.buffer, h7.finished, h7.aborted, h7.permits, h7.started,
    h7.log, h7.talk⟩, rfl⟩

theorem not_over (h : Sim s n) (h1 : ∀ r, s.phase ≠ .stopped r) (h2 : s.phase ≠ .crashed) :
    (∀ q, n.phase ≠ .stopped q) ∧ n.phase ≠ .crashed := by
  have ha := h.at_
  unfold At at ha
  cases hp : s.phase with
  | stopped r => exact absurd hp (h1 r)
  | crashed => exact absurd hp h2
  | idle => rw [hp] at ha; rcases ha with ha | ⟨ha, -⟩ <;> simp [ha]
  | handling m taken rest ts => rw [hp] at ha; obtain ⟨it, l, ha, -⟩ := ha; simp [ha]
  | _ => rw [hp] at ha; simp only [AtP] at ha; simp [ha]

theorem sim_teardown (hg : Good s) (h : Sim s n) (h1 : ∀ r, s.phase ≠ .stopped r) (h2 : s.phase ≠ .crashed) :
    Sim s.crash (run n [.teardown]) := by
  have hc := core_cancel hg h .torn rfl
  obtain ⟨g1, g2⟩ := not_over h h1 h2
  have hc1 : Core s.cancelRunning (match n.phase with
      | .handling it rest _ => (n.settle it .dropped).drop rest
      | _ => n) := by
    refine hc.congr ?_ ?_ ?_ ?_ ?_ ?_ ?_ ?_ ?_ ?_ ?_ ?_ ?_ ?_ ?_ ?_ ?_ ?_ ?_ ?_ ?_ ?_ ?_ <;>
      cases n.phase <;> simp only [settle_tell] <;> simp [Next.St.tell, shows, shown, Next.St.drop]
  have h3 := hc1.fall0 (by rw [cancelRunning_mb]; exact hg.shape.mb) [] .torn rfl (by simp [shows, shown])
  simp only [List.append_nil] at h3
  have h4 : run n [.teardown] = n.fall .torn := by
    cases hp : n.phase with
    | stopped q => exact absurd hp (g1 q)
    | crashed => exact absurd hp g2
    | _ => simp [run, Next.St.step, Next.St.teardown, hp]
  rw [h4]
  exact h3

theorem index_of (hi : Inv s.mb) {t : Nat} (ht : t ∈ s.mb.pushed.map (·.1)) :
    ∃ (i : Nat) (x : Lifecycle.Sig), s.mb.pushed[i]? = some (t, x) ∧ (t, x) ∈ s.mb.sent := by
  obtain ⟨⟨u, x⟩, hp, rfl⟩ := List.mem_map.mp ht
  obtain ⟨i, hi', h1⟩ := List.mem_iff_getElem.mp hp
  exact ⟨i, x, by rw [List.getElem?_eq_getElem hi', h1], hi.mem_sent (by simp [hp])⟩

theorem sim_giveUp_at (hg : Good s) (h : Sim s n) {i t : Nat} {b : Lifecycle.Body} (hw : s.slots t = .waiting)
    (h1 : s.mb.pushed[i]? = some (t, .msg b)) (h4 : b.ask = true) :
    Sim { s with slots := Lifecycle.setSlot s.slots t .gaveUp } (run n [.giveUp i]) := by
  have hi := hg.shape.mb
  have h5 : i ∈ n.asks := (h.talk.asks i).mpr ⟨t, b, h1, h4⟩
  have h6 := h.talk.answers i t b h1 h4
  rw [hw] at h6
  simp only [reduceCtorEq, and_false, false_or] at h6
  have h7 : n.slot i = none := by simpa [outOf] using h6.2.symm
  have h8 : run n [.giveUp i] = { n with gaveUp := n.gaveUp ++ [i] } := by
    simp [run, Next.St.step, Next.St.giveUp, h5, h7, h6.1]
  rw [h8]
  refine ⟨⟨h.queue, h.fresh, h.closed, h.held, h.buffer, h.finished, h.aborted, h.permits, h.started, h.log, ?_⟩,
    at_congr h.at_ [] rfl (by simp) rfl rfl rfl rfl⟩
  refine ⟨h.talk.new, h.talk.later, h.talk.asks, ?_, ?_⟩
  · intro j hj
    rcases List.mem_append.mp hj with hj | hj
    · exact h.talk.gave j hj
    · simp only [List.mem_singleton] at hj
      subst hj
      exact (List.getElem?_eq_some_iff.mp h1).1
  · intro j u b' hj hb'
    have h9 := apart (pushed_nodup hi) hj h1
    by_cases hu : u = t
    · left
      simp [h9.mpr hu, hu, Lifecycle.setSlot]
    · have hji : j ≠ i := fun e => hu (h9.mp e)
      rcases h.talk.answers j u b' hj hb' with ⟨y, z⟩ | ⟨y, z⟩
      · exact .inl ⟨by simp [y], by simp [Lifecycle.setSlot, hu, z]⟩
      · exact .inr ⟨by simp [y, hji], by simp [Lifecycle.setSlot, hu, z]⟩

theorem sim_giveUp (hg : Good s) (h : Sim s n) (t : Nat) (hw : s.slots t = .waiting) :
    ∃ l, Default l ∧ Fits cap n l ∧ Sim { s with slots := Lifecycle.setSlot s.slots t .gaveUp } (run n l) := by
  have hi := hg.shape.mb
  by_cases ht : t ∈ s.mb.pushed.map (·.1)
  · obtain ⟨i, x, h1, h2⟩ := index_of hi ht
    obtain ⟨b, h3, h4⟩ := (hg.slots.a t).mp (by rw [hw]; simp)
    have hx : x = .msg b := by
      obtain ⟨j, hj⟩ := List.mem_iff_getElem?.mp h2
      obtain ⟨k, hk⟩ := List.mem_iff_getElem?.mp h3
      have := (apart hi.sent_nodup hj hk).mpr rfl
      rw [this, hk] at hj
      simpa using hj.symm
    subst hx
    exact ⟨[.giveUp i], .one rfl, ⟨rfl, trivial⟩, sim_giveUp_at hg h hw h1 h4⟩
  · refine ⟨[], .nil, trivial, sim_keep h rfl rfl rfl rfl rfl rfl rfl rfl rfl rfl rfl rfl ?_⟩
    intro u hu
    have : u ≠ t := fun e => ht (e ▸ hu)
    simp [Lifecycle.setSlot, this]

theorem sim_later_at (hg : Good s) (h : Sim s n) {i t : Nat} {x : Lifecycle.Sig} (h1 : i ∈ n.delegated)
    (h2 : s.mb.pushed[i]? = some (t, x)) {v : Lifecycle.Slot} {o : Next.Out}
    (hv : outOf v = some (some o)) (a : List Lifecycle.Ev) (ha : sees a = []) :
    Sim { s with
      slots := fun u => if s.slots u = .waiting ∧ u = t then v else s.slots u
      delegated := s.delegated.filter (· != t)
      log := s.log ++ a } (run n [.later i o]) := by
  have hi := hg.shape.mb
  have h3 := h.toCore.resolve (List.getElem?_eq_some_iff.mp h2).1
    (answers_resolve (pushed_nodup hi) h2 hv h.talk.answers)
  have h4 : run n [.later i o] = { n.resolve i o with delegated := n.delegated.filter (· != i) } := by
    simp [run, Next.St.step, Next.St.later, h1]
  rw [h4]
  refine ⟨⟨h3.queue, h3.fresh, h3.closed, h3.held, h3.buffer, h3.finished, h3.aborted, h3.permits, h3.started, ?_, ?_⟩,
    at_congr h.at_ [] rfl (by simp) rfl rfl rfl rfl⟩
  · show shows n.log = _
    rw [sees_append, ha, List.append_nil]; exact h.log
  · exact ⟨h3.talk.new, later_filter (pushed_nodup hi) h.talk.later h2, h3.talk.asks, h3.talk.gave, h3.talk.answers⟩

theorem sim_later (hg : Good s) (h : Sim s n) {t : Nat} (hm : t ∈ s.delegated) {v : Lifecycle.Slot} {o : Next.Out}
    (hv : outOf v = some (some o)) (a : List Lifecycle.Ev) (ha : sees a = []) :
    ∃ l, Default l ∧ Fits cap n l ∧ Sim { s with
      slots := fun u => if s.slots u = .waiting ∧ u = t then v else s.slots u
      delegated := s.delegated.filter (· != t)
      log := s.log ++ a } (run n l) := by
  obtain ⟨i, h1, x, h2⟩ := later_find h.talk.later hm
  exact ⟨[.later i o], .one rfl, ⟨rfl, trivial⟩, sim_later_at hg h h1 h2 hv a ha⟩

theorem sim_takeReply (h : Sim s n) (m : Lifecycle.Msg) (rest : List Lifecycle.Msg) (ts : Bool)
    (hp : s.phase = .handling m false rest ts) (ha : m.2.ask = true) :
    Sim { s with phase := .handling m true rest ts, delegated := s.delegated ++ [m.1] } (run n [.takeReply]) := by
  obtain ⟨it, l, h1, h2, h3, h4⟩ := at_of h hp
  have h5 : it.ask = true := by rw [ask_of_tag h2]; exact ha
  have h6 : run n [.takeReply] = { n with taken := true, delegated := n.delegated ++ [it.id] } := by
    simp [run, Next.St.step, Next.St.takeReply, h1, h4, h5]
  rw [h6]
  refine ⟨⟨h.queue, h.fresh, h.closed, h.held, h.buffer, h.finished, h.aborted, h.permits, h.started, h.log, ?_⟩,
    ⟨it, l, h1, h2, h3, rfl⟩⟩
  exact ⟨h.talk.new, later_snoc h.talk.later (id_of_tag h2), h.talk.asks, h.talk.gave, h.talk.answers⟩

theorem sim_polling (h : Sim s n) (ha : s.aborted = false) (p : Bool) : Sim { s with polling := p } n := by
  refine ⟨⟨h.queue, h.fresh, h.closed, h.held, h.buffer, h.finished, h.aborted, h.permits, h.started, h.log, h.talk⟩, ?_⟩
  have h3 := h.at_
  unfold At at h3 ⊢
  change AtP { s with polling := p } n s.phase
  cases hp : s.phase with
  | idle =>
    rw [hp] at h3
    rcases h3 with h3 | ⟨-, -, h3⟩
    · exact .inl h3
    · rw [ha] at h3; cases h3
  | _ => rw [hp] at h3; exact h3

theorem sim_tr (hg : Good s) (hst : Start s) (hcl : Clean s.mb) (hun : Unread s) (hqu : Quiet s) (hg' : Good s')
    (hc : s.mb.cap = cap) (hc' : s'.mb.cap = cap) (h : Sim s n) (ht : Tr s s') :
    ∃ l, Default l ∧ Fits cap n l ∧ Sim s' (run n l) := by
  have hinv := hg.shape.mb
  have one : ∀ {op}, outside op = true → fits cap n op = true → Sim s' (run n [op]) →
      ∃ l, Default l ∧ Fits cap n l ∧ Sim s' (run n l) := fun a b c => ⟨_, .one a, ⟨b, trivial⟩, c⟩
  have two : Sim s' (run n [.take 1, .ret 0]) → ∃ l, Default l ∧ Fits cap n l ∧ Sim s' (run n l) :=
    fun c => ⟨_, default_recv, ⟨rfl, rfl, trivial⟩, c⟩
  have hroom : s.phase = .starting → ∀ k, fits cap n (.startEnd k (!s.mb.hasRoom)) = true := by
    intro hp k
    simp [fits, room_starting hun h hp, hc]
  cases ht with
  | refl => exact ⟨[], .nil, trivial, h⟩
  | send b =>
    refine sim_env h hg' hc' (grow_send _ _) (push_ne (a := .msg b) (by simp) (.inl rfl)) rfl rfl rfl rfl rfl rfl rfl rfl rfl ?_
    intro t ht
    have : t < s.mb.next := by
      obtain ⟨p, hp, rfl⟩ := List.mem_map.mp ht
      exact hinv.sent_lt _ (hinv.mem_sent (by simp [hp]))
    simp only [Lifecycle.St.step, Lifecycle.setSlot]
    split
    · simp only [Lifecycle.setSlot]; rw [if_neg (by omega)]
    · rfl
  | trySend b =>
    refine sim_env h hg' hc' (grow_trySend _ _) (push_ne (a := .msg b) (by simp) (.inr rfl)) rfl rfl rfl rfl rfl rfl rfl rfl rfl ?_
    intro t ht
    have : t < s.mb.next := by
      obtain ⟨p, hp, rfl⟩ := List.mem_map.mp ht
      exact hinv.sent_lt _ (hinv.mem_sent (by simp [hp]))
    simp only [Lifecycle.St.step, Lifecycle.setSlot]
    split
    · simp only [Lifecycle.setSlot]; rw [if_neg (by omega)]
    · rfl
  | poll t =>
    refine sim_env h hg' hc' (grow_poll hinv _) ?_ rfl rfl rfl rfl rfl rfl rfl rfl rfl (fun _ _ => rfl)
    intro q hq
    change (s.mb.poll t).queue = _ at hq
    unfold Mb.poll at hq
    split at hq
    · simp at hq
    · next p hp =>
      have h1 := last_of_append hq
      rw [← h1]
      exact hcl p (by simp [List.mem_of_find?_eq_some hp])
  | cancel t =>
    refine sim_env h hg' hc' (grow_cancel _ _) ?_ rfl rfl rfl rfl rfl rfl rfl rfl rfl ?_
    · apply keep_ne
      exact cancel_queue s.mb t
    · intro u hu
      have h1 := pushed_apart hinv hu
      refine if_neg ?_
      rintro ⟨-, h2⟩
      split at h2
      · next h3 =>
        simp only [List.mem_singleton] at h2
        subst h2
        simp only [List.map_append, List.mem_append] at h1 h3
        exact h1 h3.symm
      · simp at h2
  | sendStop =>
    exact sim_env h hg' hc' (grow_send _ _) (push_ne (a := .stop) (by simp) (.inl rfl)) rfl rfl rfl rfl rfl rfl rfl rfl rfl
      (fun _ _ => rfl)
  | sendLinkDied id r =>
    exact sim_env h hg' hc' (grow_send _ _) (push_ne (a := .linkDied id r) (by simp) (.inl rfl)) rfl rfl rfl rfl rfl rfl rfl
      rfl rfl (fun _ _ => rfl)
  | kill => exact one rfl rfl (sim_kill h)
  | link id =>
    exact sim_env h hg' hc' (.keep rfl rfl rfl) (keep_ne rfl) rfl rfl rfl rfl rfl rfl rfl rfl rfl (fun _ _ => rfl)
  | unlink id =>
    exact sim_env h hg' hc' (.keep rfl rfl rfl) (keep_ne rfl) rfl rfl rfl rfl rfl rfl rfl rfl rfl (fun _ _ => rfl)
  | ref k =>
    exact sim_env h hg' hc' (.keep rfl rfl rfl) (keep_ne rfl) rfl rfl rfl rfl rfl rfl rfl rfl rfl (fun _ _ => rfl)
  | giveUp t hw => exact sim_giveUp hg h t hw
  | delegSend t r hm =>
    cases r with
    | ok v =>
      have := sim_later (cap := cap) hg h hm (v := .got (.ok v)) (o := .value) rfl [.replySent t (.ok v)] rfl
      rw [reply_eq]; exact this
    | err e =>
      have := sim_later (cap := cap) hg h hm (v := .got (.err e)) (o := .err) rfl [.replySent t (.err e)] rfl
      rw [reply_eq]; exact this
  | delegDrop t hm =>
    have := sim_later (cap := cap) hg h hm (v := .failed .actorStopped) (o := .dropped) rfl [] rfl
    simpa [Lifecycle.St.dropReplies] using this
  | teardown h1 h2 => exact one rfl rfl (sim_teardown hg h h1 h2)
  | run hp =>
    refine ⟨[], .nil, trivial, ?_⟩
    have h1 := hqu hp
    have h2 := h.log
    have h3 : n.phase = .starting := at_of h hp
    rw [h1] at h2
    exact ⟨⟨h.queue, h.fresh, h.closed, h.held, h.buffer, h.finished, h.aborted, h.permits, h.started,
      by show shows n.log = _; rw [h2, sees_append, h1]; rfl, h.talk⟩, h3⟩
  | startOk hp => exact one rfl (hroom hp _) (sim_startOk hg h hp)
  | startFail o e hp ho => exact one rfl (hroom hp _) (sim_startFail hg h o e hp ho (k := .err) (by simp))
  | abort hp ha => exact one rfl rfl (sim_abort hg h hp ha)
  | polling hp ha p => exact ⟨[], .nil, trivial, sim_polling h ha p⟩
  | recvNone hp _ _ hn =>
    rw [not_none hg hp] at hn; cases hn
  | recvStartup hp hpo t q hq => exact two (sim_recvStartup hg hst h hp hpo t q hq)
  | recvBuffer hp hpo t b q hq hw hf => exact two (sim_recvBuffer hg hst h hp hpo t b q hq hw hf)
  | recvMsg hp hpo t b q hq hw => exact two (sim_recvMsg hg hst h hp hpo t b q hq hw)
  | recvLink hp hpo t id r q hq => exact two (sim_recvLink hg hst h hp hpo t id r q hq)
  | recvStop hp hpo t q hq => exact two (sim_recvStop hg hst h hp hpo t q hq)
  | takeReply m rest ts hp hpo ha => exact one rfl rfl (sim_takeReply h m rest ts hp ha)
  | handlerReply m rest ts res hp hpo ha => exact one rfl rfl (sim_handlerReply hg h m rest ts res hp ha)
  | handlerOk m taken rest ts v hp hpo ha => exact one rfl rfl (sim_handlerOk hg h m taken rest ts v hp ha)
  | handlerErr m taken rest ts e hp hpo ha => exact one rfl rfl (sim_handlerErr hg h m taken rest ts e hp ha)
  | handlerPanic m taken rest ts e hp hpo => exact one rfl rfl (sim_handlerPanic hg h m taken rest ts e hp)
  | linkCont id r hp hpo => exact one rfl rfl (sim_linkCont hg hst h id r hp hpo)
  | linkStop id r r' hp hpo hr => exact one rfl rfl (sim_linkStop hg hst h id r r' hp hpo hr)
  | linkPanic id r o e hp hpo ho => exact one rfl rfl (sim_linkPanic hg hst h id r o e hp hpo ho)
  | panicCont e hp hpo => exact one rfl rfl (sim_panicCont hg hst h e hp hpo)
  | panicStop e o r hp hpo ho => exact one rfl rfl (sim_panicStop hg hst h e o r hp hpo ho)
  | panicDie e e' hp hpo => exact one rfl rfl (sim_panicDie hg hst h e e' hp hpo)
  | startPanicStop e o r hp ho =>
    rcases ho with ⟨h1, h2⟩ | h1 | ⟨e', h1, h2⟩
    · exact one rfl rfl (sim_startPanicStop hg h e o r hp .cont (.inl ⟨h1, h2, rfl⟩))
    · exact one rfl rfl (sim_startPanicStop hg h e o r hp (.brk (reasonOf r)) (.inr (.inl ⟨h1, rfl⟩)))
    · exact one rfl rfl (sim_startPanicStop hg h e o r hp .err (.inr (.inr ⟨e', h1, h2, rfl⟩)))
  | startPanicDie e e' hp => exact one rfl rfl (sim_startPanicDie hg hst h e e' hp)
  | stopNotify r pend o res hp ho => exact ⟨[], .nil, trivial, sim_stopNotify hg hst h r pend o res hp ho⟩
  | stopFinish r pend o res hp ho => exact one rfl rfl (sim_stopFinish hg hst h r pend o res hp ho)
  | stopDie r pend st e hp => exact one rfl rfl (sim_stopDie hg hst h r pend st e hp)
  | notify r pend res id hp hi =>
    refine ⟨[], .nil, trivial, ?_⟩
    have h3 := at_of h hp
    have h5 := h.toCore.tell [.notified id r] [] rfl
    apply Core.sim
    · exact ⟨h5.queue, h5.fresh, h5.closed, h5.held, h5.buffer, h5.finished, h5.aborted, h5.permits, h5.started,
        by have := h5.log; simp only [Next.tell_log, List.append_nil] at this; exact this, h5.talk⟩
    · exact h3
  | finish r res hp => exact one rfl rfl (sim_finish hg hst h r res hp)

end Verif.Plain
