import Verif.Lifecycle.Basic

/-! The step function as a flat list of elementary transitions, for case analysis. -/

set_option linter.unusedSimpArgs false

namespace Verif.Lifecycle

open Verif.Mailbox

/-- Every step is one of these elementary transitions. -/
inductive Tr (s : St) : St → Prop where
  | refl : Tr s s
  | send (b : Body) : Tr s (s.step (.send b))
  | trySend (b : Body) : Tr s (s.step (.trySend b))
  | poll (t : Nat) : Tr s { s with mb := s.mb.poll t }
  | cancel (t : Nat) : Tr s (s.step (.cancel t))
  | sendStop : Tr s { s with mb := s.mb.send .stop }
  | sendLinkDied (id : Id) (r : Reason) : Tr s { s with mb := s.mb.send (.linkDied id r) }
  | kill : Tr s { s with aborted := true, log := s.log ++ [.killCalled] }
  | link (id : Id) : Tr s (s.step (.link id))
  | unlink (id : Id) : Tr s (s.step (.unlink id))
  | ref (n : Nat) : Tr s { s with ext := n }
  | giveUp (t : Nat) (h : s.slots t = .waiting) :
      Tr s { s with slots := setSlot s.slots t .gaveUp }
  | delegSend (t : Nat) (r : Res) (h : t ∈ s.delegated) :
      Tr s { (s.reply t r).ev (.replySent t r) with delegated := s.delegated.filter (· != t) }
  | delegDrop (t : Nat) (h : t ∈ s.delegated) :
      Tr s { s.dropReplies [t] with delegated := s.delegated.filter (· != t) }
  | teardown (h1 : ∀ r, s.phase ≠ .stopped r) (h2 : s.phase ≠ .crashed) : Tr s s.crash
  | run (h : s.phase = .prepared) :
      Tr s { s with phase := .starting, log := s.log ++ [.startBegin] }
  | startOk (h : s.phase = .starting) : Tr s s.startOk
  | startFail (o : UOut) (e : Err) (h : s.phase = .starting) (ho : o = .err e ∨ o = .panic e) :
      Tr s (s.startFail o e)
  | abort (h : s.phase.inLoop = true) (ha : s.aborted = true) : Tr s s.abortSeen
  | polling (h : s.phase.inLoop = true) (ha : s.aborted = false) (p : Bool) :
      Tr s { s with polling := p }
  | recvNone (h : s.phase = .idle) (hp : s.polling = true) (hq : s.mb.queue = [])
      (hn : s.noSenders = true) : Tr s ((s.finishStartup.ev .noRefs).drain s.buffer true)
  | recvStartup (h : s.phase = .idle) (hp : s.polling = true) (t : Nat)
      (q : List (Nat × Sig)) (hq : s.mb.queue = (t, .startup) :: q) :
      Tr s (({ { s with mb := s.mb.recv }.finishStartup with permits := s.permits + 1 }).drain
        s.buffer false)
  | recvBuffer (h : s.phase = .idle) (hp : s.polling = true) (t : Nat) (b : Body)
      (q : List (Nat × Sig)) (hq : s.mb.queue = (t, .msg b) :: q) (hw : b.within = false)
      (hf : s.finished = false) :
      Tr s { s with mb := s.mb.recv, buffer := s.buffer ++ [(t, b)] }
  | recvMsg (h : s.phase = .idle) (hp : s.polling = true) (t : Nat) (b : Body)
      (q : List (Nat × Sig)) (hq : s.mb.queue = (t, .msg b) :: q)
      (hw : b.within = true ∨ s.finished = true) :
      Tr s ({ s with mb := s.mb.recv }.beginHandle (t, b) [] false)
  | recvLink (h : s.phase = .idle) (hp : s.polling = true) (t : Nat) (id : Id) (r : Reason)
      (q : List (Nat × Sig)) (hq : s.mb.queue = (t, .linkDied id r) :: q) :
      Tr s { s with mb := s.mb.recv, phase := .linkDying id r, log := s.log ++ [.lBegin id r] }
  | recvStop (h : s.phase = .idle) (hp : s.polling = true) (t : Nat)
      (q : List (Nat × Sig)) (hq : s.mb.queue = (t, .stop) :: q) :
      Tr s (({ s with mb := s.mb.recv }.finishStartup.ev .stopTaken).drain s.buffer true)
  | takeReply (m : Msg) (rest : List Msg) (ts : Bool) (h : s.phase = .handling m false rest ts)
      (hp : s.polling = true) (ha : m.2.ask = true) :
      Tr s { s with phase := .handling m true rest ts, delegated := s.delegated ++ [m.1] }
  | handlerReply (m : Msg) (rest : List Msg) (ts : Bool) (res : Res)
      (h : s.phase = .handling m false rest ts) (hp : s.polling = true) (ha : m.2.ask = true) :
      Tr s (((s.reply m.1 res).ev (.hEnd m false (.ret res))).drain rest ts)
  | handlerOk (m : Msg) (taken : Bool) (rest : List Msg) (ts : Bool) (v : Nat)
      (h : s.phase = .handling m taken rest ts) (hp : s.polling = true)
      (ha : m.2.ask = false ∨ taken = true) :
      Tr s ((s.ev (.hEnd m taken (.ret (.ok v)))).drain rest ts)
  | handlerErr (m : Msg) (taken : Bool) (rest : List Msg) (ts : Bool) (e : Err)
      (h : s.phase = .handling m taken rest ts) (hp : s.polling = true)
      (ha : m.2.ask = false ∨ taken = true) :
      Tr s { ((s.ev (.hEnd m taken (.ret (.err e)))).lose rest).ev (.pBegin e) with
        phase := .panicking e }
  | handlerPanic (m : Msg) (taken : Bool) (rest : List Msg) (ts : Bool) (e : Err)
      (h : s.phase = .handling m taken rest ts) (hp : s.polling = true) :
      Tr s { (((s.dropReplies (if taken then [] else [m.1])).ev (.hEnd m taken (.panic e))).lose
        rest).ev (.pBegin e) with phase := .panicking e }
  | linkCont (id : Id) (r : Reason) (h : s.phase = .linkDying id r) (hp : s.polling = true) :
      Tr s { s with links := s.links.filter (· != id), log := s.log ++ [.lEnd id r .cont],
                    phase := .idle }
  | linkStop (id : Id) (r r' : Reason) (h : s.phase = .linkDying id r) (hp : s.polling = true)
      (hr : ∀ e, r' ≠ .panicked e) :
      Tr s (St.leave { s with
        links := s.links.filter (· != id)
        log := s.log ++ [Ev.lEnd id r (.brk r')] } r')
  | linkPanic (id : Id) (r : Reason) (o : FOut) (e : Err) (h : s.phase = .linkDying id r)
      (hp : s.polling = true) (ho : o = .brk (.panicked e) ∨ o = .err e ∨ o = .panic e) :
      Tr s { s with links := s.links.filter (· != id), log := s.log ++ [.lEnd id r o, .pBegin e],
                    phase := .panicking e }
  | panicCont (e : Err) (h : s.phase = .panicking e) (hp : s.polling = true) :
      Tr s { s with log := s.log ++ [.pEnd e .cont], phase := .idle }
  | panicStop (e : Err) (o : FOut) (r : Reason) (h : s.phase = .panicking e)
      (hp : s.polling = true) (ho : o = .brk r ∨ ∃ e', o = .err e' ∧ r = .panicked e') :
      Tr s ((s.ev (.pEnd e o)).leave r)
  | panicDie (e e' : Err) (h : s.phase = .panicking e) (hp : s.polling = true) :
      Tr s (s.ev (.pEnd e (.panic e'))).die
  | startPanicStop (e : Err) (o : FOut) (r : Reason) (h : s.phase = .startPanicking e)
      (ho : (o = .cont ∧ r = .panicked e) ∨ o = .brk r ∨ ∃ e', o = .err e' ∧ r = .panicked e') :
      Tr s ((s.ev (.pEnd e o)).stopFailed r)
  | startPanicDie (e e' : Err) (h : s.phase = .startPanicking e) :
      Tr s (s.ev (.pEnd e (.panic e'))).die
  | stopNotify (r : Reason) (pend : List Id) (o : UOut) (res : Option Err)
      (h : s.phase = .stopping r pend true)
      (ho : (o = .ok ∧ res = none) ∨ ∃ e, o = .err e ∧ res = some e) :
      Tr s { s with log := s.log ++ [.sEnd r o], phase := .notifying r pend res }
  | stopFinish (r : Reason) (pend : List Id) (o : UOut) (res : Option Err)
      (h : s.phase = .stopping r pend false)
      (ho : (o = .ok ∧ res = none) ∨ ∃ e, o = .err e ∧ res = some e) :
      Tr s ((s.ev (.sEnd r o)).finishAll r res)
  | stopDie (r : Reason) (pend : List Id) (st : Bool) (e : Err)
      (h : s.phase = .stopping r pend st) : Tr s (s.ev (.sEnd r (.panic e))).die
  | notify (r : Reason) (pend : List Id) (res : Option Err) (id : Id)
      (h : s.phase = .notifying r pend res) (hi : id ∈ pend) :
      Tr s { s with phase := .notifying r (pend.erase id) res, log := s.log ++ [.notified id r] }
  | finish (r : Reason) (res : Option Err) (h : s.phase = .notifying r [] res) :
      Tr s (s.finishAll r res)

theorem log_two (l : List Ev) (a b : Ev) : l ++ [a] ++ [b] = l ++ [a, b] := by simp

theorem step_tr (s : St) (op : Op) : Tr s (s.step op) := by
  cases op with
  | send b => exact .send b
  | trySend b => exact .trySend b
  | poll t => exact .poll t
  | cancel t => exact .cancel t
  | sendStop => exact .sendStop
  | sendLinkDied id r => exact .sendLinkDied id r
  | kill => exact .kill
  | link id => exact .link id
  | unlink id => exact .unlink id
  | cloneRef =>
    simp only [St.step]
    split
    · exact .ref _
    · exact .refl
  | dropRef => exact .ref _
  | giveUp t =>
    simp only [St.step]
    split
    · next h => exact .giveUp t h
    · exact .refl
  | delegSend t r =>
    simp only [St.step]
    split
    · next h => exact .delegSend t r h
    · exact .refl
  | delegDrop t =>
    simp only [St.step]
    split
    · next h => exact .delegDrop t h
    · exact .refl
  | teardown =>
    simp only [St.step]
    split
    · exact .refl
    · exact .refl
    · next h1 h2 => exact .teardown (fun r h => h1 r h) h2
  | run =>
    simp only [St.step]
    split
    · next h => exact .run h
    · exact .refl
  | startEnd o =>
    simp only [St.step]
    split
    · next h =>
      cases o with
      | ok => exact .startOk h
      | err e => exact .startFail _ e h (Or.inl rfl)
      | panic e => exact .startFail _ e h (Or.inr rfl)
    · exact .refl
  | pollBegin =>
    simp only [St.step]
    split
    · next h =>
      have h : s.phase.inLoop = true := by simp at h; exact h.1
      split
      · next ha => exact .abort h ha
      · next ha => exact .polling h (by simpa using ha) _
    · exact .refl
  | pollEnd =>
    simp only [St.step]
    split
    · next h =>
      have h : s.phase.inLoop = true := by simp at h; exact h.1
      split
      · next ha => exact .abort h ha
      · next ha => exact .polling h (by simpa using ha) _
    · exact .refl
  | recv =>
    simp only [St.step]
    split
    · next h =>
      split
      · next hp =>
        unfold St.recvStep
        split
        · next hq =>
          split
          · next hn => exact .recvNone h hp hq hn
          · exact .refl
        · next t sig q hq =>
          cases sig with
          | startup => exact .recvStartup h hp t q hq
          | msg b =>
            simp only [St.onSignal]
            split
            · next hc =>
              simp at hc
              exact .recvBuffer h hp t b q hq hc.1 hc.2
            · next hc =>
              refine .recvMsg h hp t b q hq ?_
              cases hb : b.within
              · right
                cases hf : s.finished
                · simp [hb, hf] at hc
                · rfl
              · exact Or.inl rfl
          | linkDied id r => exact .recvLink h hp t id r q hq
          | stop => exact .recvStop h hp t q hq
      · exact .refl
    · exact .refl
  | takeReply =>
    simp only [St.step]
    split
    · next m rest ts h =>
      split
      · next hp => simp at hp; exact .takeReply m rest ts h hp.1 hp.2
      · exact .refl
    · exact .refl
  | handlerEnd o =>
    simp only [St.step]
    split
    · next m taken rest ts h =>
      split
      · next hp =>
        unfold St.handlerEnd
        split
        · next res =>
          split
          · next hc =>
            simp at hc
            obtain ⟨h1, h2⟩ := hc
            subst h2
            exact .handlerReply m rest ts res h hp h1
          · next hc =>
            have hc : m.2.ask = false ∨ taken = true := by
              cases hm : m.2.ask
              · exact Or.inl rfl
              · cases taken
                · simp [hm] at hc
                · exact Or.inr rfl
            split
            · next v => exact .handlerOk m taken rest ts v h hp hc
            · next e => exact .handlerErr m taken rest ts e h hp hc
        · next e => exact .handlerPanic m taken rest ts e h hp
      · exact .refl
    · exact .refl
  | linkEnd o =>
    simp only [St.step]
    split
    · next id r h =>
      split
      · next hp =>
        unfold St.linkEnd
        cases o with
        | cont => exact .linkCont id r h hp
        | brk r' =>
          by_cases hr : ∃ e, r' = .panicked e
          · obtain ⟨e, rfl⟩ := hr
            simp only [onShutdown_panicked, log_two]
            exact .linkPanic id r _ e h hp (Or.inl rfl)
          · have hr : ∀ e, r' ≠ .panicked e := fun e he => hr ⟨e, he⟩
            simp only [onShutdown_other _ _ hr]
            exact .linkStop id r r' h hp hr
        | err e =>
          simp only [onShutdown_panicked, log_two]
          exact .linkPanic id r _ e h hp (Or.inr (Or.inl rfl))
        | panic e =>
          simp only [onShutdown_panicked, log_two]
          exact .linkPanic id r _ e h hp (Or.inr (Or.inr rfl))
      · exact .refl
    · exact .refl
  | panicEnd o =>
    simp only [St.step]
    split
    · next e h =>
      split
      · next hp =>
        unfold St.panicEnd
        cases o with
        | cont => exact .panicCont e h hp
        | brk r => exact .panicStop e _ r h hp (Or.inl rfl)
        | err e' => exact .panicStop e _ _ h hp (Or.inr ⟨e', rfl, rfl⟩)
        | panic e' => exact .panicDie e e' h hp
      · exact .refl
    · next e h =>
      unfold St.startPanicEnd
      cases o with
      | cont => exact .startPanicStop e _ _ h (Or.inl ⟨rfl, rfl⟩)
      | brk r => exact .startPanicStop e _ r h (Or.inr (Or.inl rfl))
      | err e' => exact .startPanicStop e _ _ h (Or.inr (Or.inr ⟨e', rfl, rfl⟩))
      | panic e' => exact .startPanicDie e e' h
    · exact .refl
  | stopEnd o =>
    simp only [St.step]
    split
    · next r pend started h =>
      unfold St.stopEnd St.stopDone
      cases o with
      | ok =>
        cases started with
        | true => exact .stopNotify r pend _ none h (Or.inl ⟨rfl, rfl⟩)
        | false => exact .stopFinish r pend _ none h (Or.inl ⟨rfl, rfl⟩)
      | err e =>
        cases started with
        | true => exact .stopNotify r pend _ (some e) h (Or.inr ⟨e, rfl, rfl⟩)
        | false => exact .stopFinish r pend _ (some e) h (Or.inr ⟨e, rfl, rfl⟩)
      | panic e => exact .stopDie r pend started e h
    · exact .refl
  | notifyEnd id =>
    simp only [St.step]
    split
    · next r pend res h =>
      split
      · next hi => exact .notify r pend res id h hi
      · exact .refl
    · exact .refl
  | finish =>
    simp only [St.step]
    split
    · next r res h => exact .finish r res h
    · exact .refl

/-- Induction over histories: an invariant of all elementary transitions holds always. -/
theorem exec_inv {P : St → Prop} (hstep : ∀ s s', P s → Tr s s' → P s') {s : St} (h : P s)
    (ops : List Op) : P (s.exec ops) := by
  induction ops generalizing s with
  | nil => exact h
  | cons op ops ih => exact ih (hstep _ _ h (step_tr s op))

end Verif.Lifecycle
