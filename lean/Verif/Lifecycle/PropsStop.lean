import Verif.Lifecycle.PropsOrder

/-!
Property theorems about stopping: C06 (graceful stop handles everything ahead), C07 (nothing
behind the stop), C08 (an accepted stop ends the actor), C09 (kill), C10 (`on_stop` once and
last), C11 (truth of the stop reason), C13 (`on_panic` continuing keeps the queue).
-/

set_option linter.unusedSimpArgs false

namespace Verif.Lifecycle

open Verif.Mailbox

/-- Start, handle two outside messages one of which came before start-up was over, stop. -/
def stopDemo : List Op :=
  [.send (tell 10), .run, .startEnd .ok, .send (tell 11), .sendStop, .send (tell 12), .pollBegin,
   .recv, .recv, .handlerEnd (.ret (.ok 0)), .recv, .handlerEnd (.ret (.ok 0)), .recv]

/-! ### The loop is never re-entered -/

/-- The actor is past its message loop. -/
def Phase.out (p : Phase) : Prop := p.inLoop = false ∧ p.unborn = false

theorem out_tr {s s' : St} (h : s.phase.out) (ht : Tr s s') : s'.phase.out ∧ s'.handled = s.handled
    ∧ s'.mb.received = s.mb.received := by
  obtain ⟨h1, h2⟩ := h
  have hno : ∀ p, s.phase = p → p.inLoop = true ∨ p.unborn = true → False := by
    rintro p rfl (h | h) <;> simp_all
  cases ht with
  | run hp => exact (hno _ hp (by simp)).elim
  | startOk hp => exact (hno _ hp (by simp)).elim
  | startFail _ _ hp => exact (hno _ hp (by simp)).elim
  | abort hp => exact (hno _ rfl (by simp [hp])).elim
  | polling hp => exact (hno _ rfl (by simp [hp])).elim
  | recvNone hp => exact (hno _ hp (by simp)).elim
  | recvStartup hp => exact (hno _ hp (by simp)).elim
  | recvBuffer hp => exact (hno _ hp (by simp)).elim
  | recvMsg hp => exact (hno _ hp (by simp)).elim
  | recvLink hp => exact (hno _ hp (by simp)).elim
  | recvStop hp => exact (hno _ hp (by simp)).elim
  | takeReply _ _ _ hp => exact (hno _ hp (by simp)).elim
  | handlerReply _ _ _ _ hp => exact (hno _ hp (by simp)).elim
  | handlerOk _ _ _ _ _ hp => exact (hno _ hp (by simp)).elim
  | handlerErr _ _ _ _ _ hp => exact (hno _ hp (by simp)).elim
  | handlerPanic _ _ _ _ _ hp => exact (hno _ hp (by simp)).elim
  | linkCont _ _ hp => exact (hno _ hp (by simp)).elim
  | linkStop _ _ _ hp => exact (hno _ hp (by simp)).elim
  | linkPanic _ _ _ _ hp => exact (hno _ hp (by simp)).elim
  | panicCont _ hp => exact (hno _ hp (by simp)).elim
  | panicStop _ _ _ hp => exact (hno _ hp (by simp)).elim
  | panicDie _ _ hp => exact (hno _ hp (by simp)).elim
  | _ => simp [Phase.out, St.step, St.crash, St.stopFailed, h1, h2]

theorem out_exec {s : St} (h : s.phase.out) (ops : List Op) : (s.exec ops).phase.out ∧
    (s.exec ops).handled = s.handled ∧ (s.exec ops).mb.received = s.mb.received := by
  induction ops generalizing s with
  | nil => exact ⟨h, rfl, rfl⟩
  | cons op ops ih =>
    obtain ⟨h1, h2, h3⟩ := out_tr h (step_tr s op)
    obtain ⟨h4, h5, h6⟩ := ih h1
    exact ⟨h4, h5.trans h2, h6.trans h3⟩

theorem out_of_sBegin (cap : Option Nat) (ops : List Op) {r : Reason}
    (h : .sBegin r ∈ (after cap ops).log) : (after cap ops).phase.out := by
  have hl := loss_after cap ops
  constructor
  · cases hp : (after cap ops).phase.inLoop with
    | false => rfl
    | true => exact absurd h (hl.sb (Or.inl hp) r)
  · cases hp : (after cap ops).phase.unborn with
    | false => rfl
    | true => exact absurd h (hl.sb (Or.inr (Or.inl hp)) r)

/-! ### C10 -/

/-- **C10** `on_stop` is the last hook to start: after it no handler or hook starts, in
particular it does not start again; and it had not started before. The reason it is given is the
reason its completion, the link notifications and the result of the actor's task carry. -/
theorem on_stop_once_and_last (cap : Option Nat) (ops : List Op) (pre post : List Ev) (r : Reason)
    (hlog : (after cap ops).log = pre ++ .sBegin r :: post) :
    (∀ r', .sBegin r' ∉ pre) ∧ (∀ e ∈ post, e.isBegin = false) ∧
    (∀ r', .returned r' ∈ post → r' = r) ∧ (∀ id r', .notified id r' ∈ post → r' = r) ∧
    (∀ r' o, .sEnd r' o ∈ post → r' = r) := by
  obtain ⟨l, h, _⟩ := logOk_after cap ops
  rw [hlog] at h
  obtain ⟨l1, h1, h2⟩ := Life.run_split h
  obtain ⟨l2, h3, h4⟩ := Life.run_cons h2
  have hl2 : l2.closing r := by cases h3 <;> exact Or.inl rfl
  have hc := (closing_run hl2 h4).2
  refine ⟨?_, fun e he => (hc e he).1, fun r' hr => (hc _ hr).2.1 r' rfl,
    fun id r' hr => (hc _ hr).2.2.1 id r' rfl, fun r' o hr => (hc _ hr).2.2.2 r' o rfl⟩
  intro r' hr'
  obtain ⟨a, b, rfl⟩ := List.append_of_mem hr'
  obtain ⟨k1, _, g2⟩ := Life.run_split h1
  obtain ⟨k2, g3, g4⟩ := Life.run_cons g2
  have hk2 : k2.closing r' := by cases g3 <;> exact Or.inl rfl
  have hl1 := (closing_run hk2 g4).1
  unfold Life.closing at hl1
  cases h3 <;> simp_all

example : ∃ pre post, (after none (stopDemo ++ [.stopEnd .ok, .finish])).log =
    pre ++ .sBegin .normal :: post :=
  ⟨[.startBegin, .startEnd .ok, .hBegin (0, tell 10), .hEnd (0, tell 10) false (.ret (.ok 0)),
    .hBegin (2, tell 11), .hEnd (2, tell 11) false (.ret (.ok 0)), .stopTaken],
   [.sEnd .normal .ok, .returned .normal], by decide⟩

/-- What the life automaton has seen when it is at the end. -/
theorem closing_seen {log : List Ev} {l : Life} (h : Life.notStarted.run log = some l) :
    (∀ r, l = .inStop r ∨ l = .done r ∨ l = .returned r → .sBegin r ∈ log) ∧
    (∀ r, l = .done r ∨ l = .returned r → ∃ o, .sEnd r o ∈ log ∧ ∀ e, o ≠ .panic e) ∧
    (∀ r, l = .returned r → .returned r ∈ log) := by
  refine run_induct (P := fun log l =>
    (∀ r, l = .inStop r ∨ l = .done r ∨ l = .returned r → .sBegin r ∈ log) ∧
    (∀ r, l = .done r ∨ l = .returned r → ∃ o, .sEnd r o ∈ log ∧ ∀ e, o ≠ .panic e) ∧
    (∀ r, l = .returned r → .returned r ∈ log)) (by simp) ?_ h
  intro log l e l' ih ht
  cases ht with
  | hEnd m st tk o => unfold afterHandler; (repeat' split) <;> simp
  | lEnd id r o => unfold afterLink; (repeat' split) <;> simp
  | pEnd e st o => unfold afterPanic; (repeat' split) <;> simp
  | pCancel e st => cases st <;> simp
  | killCalled =>
    refine ⟨fun r hr => by simp [ih.1 r hr], fun r hr => ?_, fun r hr => by simp [ih.2.2 r hr]⟩
    obtain ⟨o, h1, h2⟩ := ih.2.1 r hr
    exact ⟨o, by simp [h1], h2⟩
  | replySent =>
    refine ⟨fun r hr => by simp [ih.1 r hr], fun r hr => ?_, fun r hr => by simp [ih.2.2 r hr]⟩
    obtain ⟨o, h1, h2⟩ := ih.2.1 r hr
    exact ⟨o, by simp [h1], h2⟩
  | _ => simp_all

/-- **C10** When the actor's task has returned with reason `r` (it was not torn down), `on_stop`
was started exactly once, with `r`, and was completed. -/
theorem stopped_after_on_stop (cap : Option Nat) (ops : List Op) (r : Reason)
    (hp : (after cap ops).phase = .stopped r) :
    (∃ pre post, (after cap ops).log = pre ++ .sBegin r :: post ∧
      (∀ r', .sBegin r' ∉ pre) ∧ ∀ r', .sBegin r' ∉ post) ∧
    (∃ o, .sEnd r o ∈ (after cap ops).log ∧ ∀ e, o ≠ .panic e) ∧
    .returned r ∈ (after cap ops).log := by
  obtain ⟨l, h, hm⟩ := logOk_after cap ops
  rw [hp] at hm
  simp only [matchLife] at hm
  subst hm
  obtain ⟨h1, h2, h3⟩ := closing_seen h
  refine ⟨?_, h2 r (Or.inr rfl), h3 r rfl⟩
  obtain ⟨pre, post, hlog⟩ := List.append_of_mem (h1 r (by simp))
  obtain ⟨g1, g2, _⟩ := on_stop_once_and_last cap ops pre post r hlog
  refine ⟨pre, post, hlog, g1, fun r' hr' => ?_⟩
  have := g2 _ hr'
  simp [Ev.isBegin] at this

example : (after none (stopDemo ++ [.stopEnd .ok, .finish])).phase = .stopped .normal := by decide

/-! ### C06 -/

/-- **C06** (part). If the actor stops with `Normal`, this was not chosen by a hook, and no handler
failed for an outside message received before start-up was over, then the actor stopped at a
stop request, and every message accepted ahead of that request has been given to a handler.

Missing for the full claim: it is false if the handler of a message from the start-up buffer
fails (`startup_buffer_lost_on_graceful_stop`). -/
theorem graceful_stop_handles_all_ahead_partial (cap : Option Nat) (ops : List Op)
    (hn : .sBegin .normal ∈ (after cap ops).log) (hb : ¬ BrkNormal (after cap ops).log)
    (hd : ¬ DrainFail (after cap ops)) :
    ∃ ahead t behind, (after cap ops).mb.pushed = ahead ++ (t, .stop) :: behind ∧
      (after cap ops).mb.received = ahead ++ [(t, .stop)] ∧
      ∀ m ∈ msgsOf ahead, m ∈ (after cap ops).handled := by
  have hg := good_after cap ops
  have hl := loss_after cap ops
  have hout := out_of_sBegin cap ops hn
  have huniq := on_stop_once_and_last cap ops
  generalize after cap ops = s at *
  obtain ⟨ahead, t, hrec⟩ := (hl.last (Or.inr hn)).resolve_right hb
  have hlost : s.lost = [] := by
    by_cases h : s.lost = []
    · exact h
    · exfalso
      rcases hl.lost h with h | h | ⟨r, h1, h2⟩ | ⟨_, h2⟩
      · exact hd h
      · exact hb h
      · obtain ⟨a, b, hab⟩ := List.append_of_mem hn
        obtain ⟨g1, g2, _⟩ := huniq a b _ hab
        rw [hab] at h2
        simp only [List.mem_append, List.mem_cons] at h2
        rcases h2 with h2 | h2 | h2
        · exact g1 _ h2
        · cases h2; exact h1 rfl
        · have := g2 _ h2; simp [Ev.isBegin] at this
      · exact h2 _ hn
  have hbuf : s.buffer = [] := by
    by_cases h : s.buffer = []
    · exact h
    · have := (hg.shape.buf h).2; simp [hout.1] at this
  have hrest : s.phase.rest = [] := by
    have := hout.1
    revert this
    cases s.phase <;> simp
  obtain ⟨behind, hbh⟩ := received_sublist_pushed hg.shape
  refine ⟨ahead, t, behind, by rw [← hbh, hrec]; simp, hrec, fun m hm => ?_⟩
  have := hg.acct
  unfold Acct at this
  rw [hlost, hbuf, hrest] at this
  simp only [List.append_nil] at this
  apply this.mem_iff.mp
  rw [hrec]; simp [hm]

example : .sBegin .normal ∈ (after none stopDemo).log ∧ ¬ BrkNormal (after none stopDemo).log ∧
    ¬ DrainFail (after none stopDemo) ∧ (after none stopDemo).handled.map (·.2.val) = [10, 11] := by
  have hlog : (after none stopDemo).log = [.startBegin, .startEnd .ok, .hBegin (0, tell 10),
    .hEnd (0, tell 10) false (.ret (.ok 0)), .hBegin (2, tell 11),
    .hEnd (2, tell 11) false (.ret (.ok 0)), .stopTaken, .sBegin .normal] := by decide
  refine ⟨by decide, ?_, ?_, by decide⟩
  · rw [hlog]; simp [BrkNormal]
  · rintro ⟨k, m, tk, o, _, _, _, h4, h5⟩
    rw [hlog] at h4
    simp at h4
    rcases h4 with ⟨_, _, rfl⟩ | ⟨_, _, rfl⟩ <;> simp [failing] at h5

/-- **C06** fails: if a handler fails while the start-up buffer is emptied, the rest of the buffer
is dropped, although `on_panic` continued and the actor later stops gracefully. Message 1 was
accepted ahead of the stop request and is never handled. -/
theorem startup_buffer_lost_on_graceful_stop :
    ∃ cap ops, (after cap ops).phase = .stopped .normal ∧
      (after cap ops).mb.pushed = [(0, .msg (tell 10)), (1, .msg (tell 11)), (2, .startup), (3, .stop)] ∧
      (after cap ops).handled = [(0, tell 10)] ∧ ¬ BrkNormal (after cap ops).log := by
  refine ⟨none, [.send (tell 10), .send (tell 11), .run, .startEnd .ok, .sendStop, .pollBegin, .recv,
    .recv, .recv, .handlerEnd (.panic 1), .panicEnd .cont, .recv, .stopEnd .ok, .finish],
    by decide, by decide, by decide, ?_⟩
  have : (after none [.send (tell 10), .send (tell 11), .run, .startEnd .ok, .sendStop, .pollBegin,
    .recv, .recv, .recv, .handlerEnd (.panic 1), .panicEnd .cont, .recv, .stopEnd .ok, .finish]).log
    = [.startBegin, .startEnd .ok, .hBegin (0, tell 10), .hEnd (0, tell 10) false (.panic 1),
       .pBegin 1, .pEnd 1 .cont, .stopTaken, .sBegin .normal, .sEnd .normal .ok, .returned .normal] := by
    decide
  rw [this]; simp [BrkNormal]

/-! ### C07 -/

/-- **C07** No message accepted behind the stop request that ended the actor is ever handled. -/
theorem nothing_behind_stop_handled (cap : Option Nat) (ops : List Op)
    (hn : .sBegin .normal ∈ (after cap ops).log) (hb : ¬ BrkNormal (after cap ops).log) :
    ∃ ahead t behind, (after cap ops).mb.pushed = ahead ++ (t, .stop) :: behind ∧
      (∀ m ∈ (after cap ops).handled, (m.1, .msg m.2) ∈ ahead) ∧
      (∀ m, (m.1, Sig.msg m.2) ∈ behind → ∀ ops', m ∉ (after cap (ops ++ ops')).handled) := by
  have hg := good_after cap ops
  have hl := loss_after cap ops
  have hout := out_of_sBegin cap ops hn
  obtain ⟨ahead, t, hrec⟩ := (hl.last (Or.inr hn)).resolve_right hb
  obtain ⟨behind, hbh⟩ := received_sublist_pushed hg.shape
  have hmem : ∀ m ∈ (after cap ops).handled, (m.1, .msg m.2) ∈ ahead := by
    intro m hm
    have hr : m ∈ msgsOf (after cap ops).mb.received := hg.acct.mem_iff.mpr (by simp [hm])
    rw [mem_msgsOf, hrec] at hr
    simpa using hr
  refine ⟨ahead, t, behind, by rw [← hbh, hrec]; simp, hmem, fun m hm ops' hh => ?_⟩
  rw [after_append, (out_exec hout ops').2.1] at hh
  have hnd : ((after cap ops).mb.pushed.map (·.1)).Nodup := by
    have := hg.shape.mb.part_nodup
    simp only [List.map_append, List.append_assoc] at this
    exact (List.nodup_append.mp this).1
  rw [← hbh, hrec, List.map_append, List.nodup_append] at hnd
  exact hnd.2.2 m.1 (by simpa using Or.inl ⟨_, hmem m hh⟩) m.1
    (List.mem_map.mpr ⟨_, hm, rfl⟩) rfl

example : .sBegin .normal ∈ (after none stopDemo).log ∧ (after none stopDemo).mb.pushed =
    [(0, .msg (tell 10)), (1, .startup), (2, .msg (tell 11))] ++ (3, .stop) ::
      [(4, .msg (tell 12))] := by decide

/-- **C07** A message accepted while the actor executes `on_stop` (or later) is never handled: it
is not among the messages handled so far, and nothing is handled any more. -/
theorem nothing_handled_after_loop (cap : Option Nat) (ops ops' : List Op) (r : Reason)
    (hn : .sBegin r ∈ (after cap ops).log) :
    (after cap (ops ++ ops')).handled = (after cap ops).handled ∧
    ∀ m, (m.1, Sig.msg m.2) ∉ (after cap ops).mb.received → m ∉ (after cap (ops ++ ops')).handled := by
  have hout := out_of_sBegin cap ops hn
  have h : (after cap (ops ++ ops')).handled = (after cap ops).handled := by
    rw [after_append]; exact (out_exec hout ops').2.1
  refine ⟨h, fun m hm hh => ?_⟩
  rw [h] at hh
  apply hm
  rw [← mem_msgsOf]
  exact (good_after cap ops).acct.mem_iff.mpr (by simp [hh])

example : .sBegin .normal ∈ (after none stopDemo).log ∧
    (5, .msg (tell 13)) ∈ (after none (stopDemo ++ [.send (tell 13)])).mb.pushed := by decide

/-! ### C08 -/

/-- **C08** (part). Once a stop request was taken out of the mailbox the actor is never again
waiting for a signal, unless `on_panic` was called afterwards and said `Continue`.

Missing for the full claim: with `on_panic` continuing the stop request is forgotten
(`stop_request_forgotten`). -/
theorem stop_taken_never_waits_again_partial (cap : Option Nat) (ops : List Op) (pre post : List Ev)
    (hlog : (after cap ops).log = pre ++ .stopTaken :: post) (hc : ∀ e, .pEnd e .cont ∉ post) :
    (after cap ops).phase ≠ .idle ∧ ∀ id r, (after cap ops).phase ≠ .linkDying id r := by
  obtain ⟨l, h, hm⟩ := logOk_after cap ops
  rw [hlog] at h
  obtain ⟨l1, _, h2⟩ := Life.run_split h
  obtain ⟨l2, h3, h4⟩ := Life.run_cons h2
  have hl2 : l2 = .ready true := by cases h3; rfl
  constructor
  · intro hp
    rw [hp] at hm
    simp only [matchLife] at hm
    subst hm
    rcases stop_sticks hl2 h4 with ⟨e, he⟩ | h
    · exact hc e he
    · simp [Life.closing] at h
  · intro id r hp
    rw [hp] at hm
    simp only [matchLife] at hm
    subst hm
    rcases stop_sticks hl2 h4 with ⟨e, he⟩ | h
    · exact hc e he
    · simp [Life.closing] at h

/-- Stop taken while a message is still in the start-up buffer. -/
def stopEarly : List Op :=
  [.send (tell 10), .sendStop, .run, .startEnd .ok, .pollBegin, .recv, .recv]

example : (after none stopEarly).log = [.startBegin, .startEnd .ok] ++ .stopTaken ::
    [.hBegin (0, tell 10)] ∧
    (after none stopEarly).phase = .handling (0, tell 10) false [] true := by decide

/-- **C08** With nothing in the start-up buffer the actor leaves its loop in the very step in which
it takes the stop request. -/
theorem stop_taken_leaves_at_once (cap : Option Nat) (ops : List Op) (t : Nat) (q : List (Nat × Sig))
    (hp : (after cap ops).phase = .idle) (hpo : (after cap ops).polling = true)
    (hb : (after cap ops).buffer = []) (hq : (after cap ops).mb.queue = (t, .stop) :: q) :
    (after cap (ops ++ [.recv])).phase = .stopping .normal (after cap ops).links true := by
  rw [after_snoc]
  simp [St.step, hp, hpo, St.recvStep, hq, St.onSignal, hb, St.drain]

example : (after none (stopDemo.take 12)).phase = .idle ∧ (after none (stopDemo.take 12)).polling = true ∧
    (after none (stopDemo.take 12)).buffer = [] ∧
    (after none (stopDemo.take 12)).mb.queue = [(3, .stop), (4, .msg (tell 12))] := by decide

/-- **C08** With messages in the start-up buffer the actor leaves its loop as soon as their
handlers have returned without a failure: one completion per message. -/
theorem stop_drain_leaves (s : St) (m : Msg) (tk : Bool) (rest : List Msg) (vs : List Nat)
    (hp : s.phase = .handling m tk rest true) (hpo : s.polling = true)
    (hl : vs.length = rest.length + 1) :
    ∃ links, (s.exec (vs.map (fun v => .handlerEnd (.ret (.ok v))))).phase
      = .stopping .normal links true := by
  induction vs generalizing s m tk rest with
  | nil => simp at hl
  | cons v vs ih =>
    have hst : s.step (.handlerEnd (.ret (.ok v))) = s.handlerEnd m tk rest true (.ret (.ok v)) := by
      simp [St.step, hp, hpo]
    have hcase : ∃ s0 : St, s0.polling = true ∧
        s.handlerEnd m tk rest true (.ret (.ok v)) = s0.drain rest true := by
      simp only [St.handlerEnd]
      split
      · exact ⟨_, by simp [hpo], rfl⟩
      · exact ⟨_, by simp [hpo], rfl⟩
    obtain ⟨s0, hs0, heq⟩ := hcase
    simp only [List.map_cons, St.exec, List.foldl_cons]
    rw [hst, heq]
    cases rest with
    | nil =>
      simp at hl
      subst hl
      exact ⟨s0.links, by simp [St.drain]⟩
    | cons m' ms =>
      apply ih (s0.drain (m' :: ms) true) m' false ms
      · simp [St.drain, St.beginHandle]
      · simp [St.drain, hs0]
      · simpa using hl

example : (after none stopEarly).phase = .handling (0, tell 10) false [] true ∧
    (after none stopEarly).polling = true := by decide

/-- **C08** fails: the stop request was taken, a handler of a message from the start-up buffer
fails, `on_panic` says `Continue`, and the actor waits for messages again. -/
theorem stop_request_forgotten :
    ∃ cap ops, .stopTaken ∈ (after cap ops).log ∧ (after cap ops).phase = .idle ∧
      (after cap ops).mb.queue = [(2, .startup)] :=
  ⟨none, stopEarly ++ [.handlerEnd (.panic 1), .panicEnd .cont], by decide⟩

/-! ### C09 -/

theorem aborted_of_kill (cap : Option Nat) (ops : List Op) (hk : .kill ∈ ops) :
    (after cap ops).aborted = true := by
  revert hk
  refine after_induct cap (P := fun ops s => .kill ∈ ops → s.aborted = true) (by simp) ?_ ops
  intro ops op ih hm
  simp only [List.mem_append, List.mem_singleton] at hm
  rcases hm with hm | rfl
  · have h1 : .killCalled ∈ (after cap ops).log := (facts_after cap ops).ab.mp (ih hm)
    rw [← after_snoc]
    apply (facts_after cap (ops ++ [op])).ab.mpr
    rw [after_snoc]
    obtain ⟨x, hx⟩ := tr_log (step_tr (after cap ops) op)
    rw [hx]; simp [h1]
  · simp [St.step]

theorem abortSeen_fields (s : St) (hl : s.phase.inLoop = true) :
    s.abortSeen.phase = .stopping .killed s.links true ∧ s.abortSeen.handled = s.handled ∧
    s.abortSeen.log = s.log ++ s.phase.cancelEv ++ [.sBegin .killed] := by
  revert hl
  cases hph : s.phase <;> simp [St.abortSeen, St.cancelRunning, hph, Phase.cancelEv]

/-- **C09** If `kill` was called on an actor in its message loop whose task is not being polled at
the moment, then the next poll of the task makes it stop with `Killed` at once: whatever was
running is cancelled, `on_stop` is called with `Killed`, no handler is started. -/
theorem kill_takes_effect_at_next_poll (cap : Option Nat) (ops : List Op)
    (hk : .kill ∈ ops) (hl : (after cap ops).phase.inLoop = true)
    (hp : (after cap ops).polling = false) :
    (after cap (ops ++ [.pollBegin])).phase = .stopping .killed (after cap ops).links true ∧
    (after cap (ops ++ [.pollBegin])).handled = (after cap ops).handled ∧
    (after cap (ops ++ [.pollBegin])).log =
      (after cap ops).log ++ (after cap ops).phase.cancelEv ++ [.sBegin .killed] := by
  have ha := aborted_of_kill cap ops hk
  rw [after_snoc]
  generalize after cap ops = s at *
  have hst : s.step .pollBegin = s.abortSeen := by simp [St.step, hl, hp, ha]
  rw [hst]
  exact abortSeen_fields s hl

/-- Killed while a handler is suspended, with another message waiting. -/
def killDemo : List Op :=
  [.run, .startEnd .ok, .send (ask 10), .send (tell 11), .pollBegin, .recv, .recv, .pollEnd, .kill]

example : .kill ∈ killDemo ∧ (after none killDemo).phase = .handling (1, ask 10) false [] false ∧
    (after none killDemo).polling = false ∧
    (after none (killDemo ++ [.pollBegin])).log = [.startBegin, .startEnd .ok, .hBegin (1, ask 10),
      .killCalled, .hCancel (1, ask 10), .sBegin .killed] := by decide

/-- **C09** If `kill` was called on an actor whose task is being polled at the moment, the actor
stops with `Killed` at the end of this poll. -/
theorem kill_takes_effect_at_end_of_poll (cap : Option Nat) (ops : List Op)
    (hk : .kill ∈ ops) (hl : (after cap ops).phase.inLoop = true)
    (hp : (after cap ops).polling = true) :
    (after cap (ops ++ [.pollEnd])).phase = .stopping .killed (after cap ops).links true ∧
    (after cap (ops ++ [.pollEnd])).handled = (after cap ops).handled ∧
    (after cap (ops ++ [.pollEnd])).log =
      (after cap ops).log ++ (after cap ops).phase.cancelEv ++ [.sBegin .killed] := by
  have ha := aborted_of_kill cap ops hk
  rw [after_snoc]
  generalize after cap ops = s at *
  have hst : s.step .pollEnd = s.abortSeen := by simp [St.step, hl, hp, ha]
  rw [hst]
  exact abortSeen_fields s hl

example : .kill ∈ killDemo.take 7 ++ [.kill] ∧ (after none (killDemo.take 7 ++ [.kill])).polling = true ∧
    (after none (killDemo.take 7 ++ [.kill])).phase = .handling (1, ask 10) false [] false := by decide

/-- `on_stop` runs or is over, or the task was torn down. -/
def Phase.final : Phase → Bool
  | .stopping _ _ _ => true
  | .notifying _ _ _ => true
  | .stopped _ => true
  | .crashed => true
  | _ => false

@[simp] theorem final_stopping (r : Reason) (p : List Id) (b : Bool) :
    (Phase.stopping r p b).final = true := rfl
@[simp] theorem final_notifying (r : Reason) (p : List Id) (b : Option Err) :
    (Phase.notifying r p b).final = true := rfl
@[simp] theorem final_stopped (r : Reason) : (Phase.stopped r).final = true := rfl
@[simp] theorem final_crashed : Phase.crashed.final = true := rfl

theorem final_out {p : Phase} (h : p.final = true) : p.out := by
  revert h; cases p <;> simp [Phase.final, Phase.out]

theorem cancelEv_isBegin (p : Phase) : ∀ e ∈ p.cancelEv, e.isBegin = false := by
  cases p <;> simp [Phase.cancelEv, Ev.isBegin]

/-- Steps of an actor that is killed and suspended in its loop. -/
theorem killed_tr {s s' : St} (op : Op) (hs' : s' = s.step op) (hl : s.phase.inLoop = true)
    (hp : s.polling = false) (ha : s.aborted = true) :
    (s'.phase.inLoop = true ∧ s'.polling = false ∧ s'.aborted = true ∧ s'.handled = s.handled ∧
      ∃ x, s'.log = s.log ++ x ∧ ∀ e ∈ x, e.isBegin = false) ∨
    (s'.phase.final = true ∧ s'.handled = s.handled ∧
      ∃ x, s'.log = s.log ++ x ∧ ∀ e ∈ x, e.isBegin = true → e = .sBegin .killed) := by
  subst hs'
  have hcr : s.crash.phase.final = true ∧ s.crash.handled = s.handled ∧
      ∃ x, s.crash.log = s.log ++ x ∧ ∀ e ∈ x, e.isBegin = true → e = .sBegin .killed := by
    refine ⟨by simp [St.crash], by simp, s.phase.cancelEv, ?_, ?_⟩
    · cases hph : s.phase <;> simp [St.crash, St.die, St.cancelRunning, hph, Phase.cancelEv]
    · intro e he hb; simp [cancelEv_isBegin _ e he] at hb
  have hab : s.abortSeen.phase.final = true ∧ s.abortSeen.handled = s.handled ∧
      ∃ x, s.abortSeen.log = s.log ++ x ∧ ∀ e ∈ x, e.isBegin = true → e = .sBegin .killed := by
    obtain ⟨h1, h2, h3⟩ := abortSeen_fields s hl
    refine ⟨by simp [h1], h2, s.phase.cancelEv ++ [.sBegin .killed], by simp [h3], ?_⟩
    intro e he hb
    simp only [List.mem_append, List.mem_singleton] at he
    rcases he with he | he
    · simp [cancelEv_isBegin _ e he] at hb
    · exact he
  cases op with
  | pollBegin => right; simpa [St.step, hl, hp, ha] using hab
  | pollEnd =>
    left
    have : s.step .pollEnd = s := by simp [St.step, hp]
    rw [this]; exact ⟨hl, hp, ha, rfl, [], by simp⟩
  | teardown =>
    right
    have : s.step .teardown = s.crash := by
      revert hl; simp only [St.step]; cases s.phase <;> simp
    rw [this]; exact hcr
  | delegSend t r =>
    left
    simp only [St.step]
    split
    · exact ⟨by simp [hl], by simp [hp], by simp [ha], by simp, [.replySent t r], by simp [Ev.isBegin]⟩
    · exact ⟨hl, hp, ha, rfl, [], by simp⟩
  | kill => left; exact ⟨hl, hp, rfl, rfl, [.killCalled], by simp [St.step, Ev.isBegin]⟩
  | run =>
    left
    have : s.step .run = s := by revert hl; simp only [St.step]; cases s.phase <;> simp
    rw [this]; exact ⟨hl, hp, ha, rfl, [], by simp⟩
  | startEnd o =>
    left
    have : s.step (.startEnd o) = s := by revert hl; simp only [St.step]; cases s.phase <;> simp
    rw [this]; exact ⟨hl, hp, ha, rfl, [], by simp⟩
  | recv =>
    left
    have : s.step .recv = s := by simp only [St.step, hp]; cases s.phase <;> simp
    rw [this]; exact ⟨hl, hp, ha, rfl, [], by simp⟩
  | takeReply =>
    left
    have : s.step .takeReply = s := by simp only [St.step, hp]; split <;> simp
    rw [this]; exact ⟨hl, hp, ha, rfl, [], by simp⟩
  | handlerEnd o =>
    left
    have : s.step (.handlerEnd o) = s := by simp only [St.step, hp]; cases s.phase <;> simp
    rw [this]; exact ⟨hl, hp, ha, rfl, [], by simp⟩
  | linkEnd o =>
    left
    have : s.step (.linkEnd o) = s := by simp only [St.step, hp]; cases s.phase <;> simp
    rw [this]; exact ⟨hl, hp, ha, rfl, [], by simp⟩
  | panicEnd o =>
    left
    have : s.step (.panicEnd o) = s := by revert hl; simp only [St.step, hp]; cases s.phase <;> simp
    rw [this]; exact ⟨hl, hp, ha, rfl, [], by simp⟩
  | stopEnd o =>
    left
    have : s.step (.stopEnd o) = s := by revert hl; simp only [St.step]; cases s.phase <;> simp
    rw [this]; exact ⟨hl, hp, ha, rfl, [], by simp⟩
  | notifyEnd o =>
    left
    have : s.step (.notifyEnd o) = s := by revert hl; simp only [St.step]; cases s.phase <;> simp
    rw [this]; exact ⟨hl, hp, ha, rfl, [], by simp⟩
  | finish =>
    left
    have : s.step .finish = s := by revert hl; simp only [St.step]; cases s.phase <;> simp
    rw [this]; exact ⟨hl, hp, ha, rfl, [], by simp⟩
  | _ =>
    left
    simp only [St.step]
    (repeat' split) <;> exact ⟨by simp [hl], by simp [hp], by simp [ha], by simp, [], by simp⟩

theorem final_tr {s s' : St} (h : s.phase.final = true) (ht : Tr s s') :
    s'.phase.final = true ∧ ∃ x, s'.log = s.log ++ x ∧ ∀ e ∈ x, e.isBegin = false := by
  have hno : ∀ p, s.phase = p → p.final = false → False := by
    rintro p rfl h'; simp_all
  have hno' : s.phase.inLoop = true → False := by
    intro h'; have := (final_out h).1; simp_all
  cases ht with
  | run hp => exact (hno _ hp rfl).elim
  | startOk hp => exact (hno _ hp rfl).elim
  | startFail _ _ hp => exact (hno _ hp rfl).elim
  | abort hp => exact (hno' hp).elim
  | polling hp => exact (hno' hp).elim
  | recvNone hp => exact (hno _ hp rfl).elim
  | recvStartup hp => exact (hno _ hp rfl).elim
  | recvBuffer hp => exact (hno _ hp rfl).elim
  | recvMsg hp => exact (hno _ hp rfl).elim
  | recvLink hp => exact (hno _ hp rfl).elim
  | recvStop hp => exact (hno _ hp rfl).elim
  | takeReply _ _ _ hp => exact (hno _ hp rfl).elim
  | handlerReply _ _ _ _ hp => exact (hno _ hp rfl).elim
  | handlerOk _ _ _ _ _ hp => exact (hno _ hp rfl).elim
  | handlerErr _ _ _ _ _ hp => exact (hno _ hp rfl).elim
  | handlerPanic _ _ _ _ _ hp => exact (hno _ hp rfl).elim
  | linkCont _ _ hp => exact (hno _ hp rfl).elim
  | linkStop _ _ _ hp => exact (hno _ hp rfl).elim
  | linkPanic _ _ _ _ hp => exact (hno _ hp rfl).elim
  | panicCont _ hp => exact (hno _ hp rfl).elim
  | panicStop _ _ _ hp => exact (hno _ hp rfl).elim
  | panicDie _ _ hp => exact (hno _ hp rfl).elim
  | startPanicStop _ _ _ hp => exact (hno _ hp rfl).elim
  | startPanicDie _ _ hp => exact (hno _ hp rfl).elim
  | kill => exact ⟨h, [.killCalled], by simp [Ev.isBegin]⟩
  | delegSend t r => exact ⟨by simp [h], [.replySent t r], by simp [Ev.isBegin]⟩
  | teardown =>
    refine ⟨by simp [St.crash], s.phase.cancelEv, ?_, cancelEv_isBegin _⟩
    cases hph : s.phase <;> simp [St.crash, St.die, St.cancelRunning, hph, Phase.cancelEv]
  | stopNotify r pend o res hp => exact ⟨by simp, [.sEnd r o], by simp [Ev.isBegin]⟩
  | stopFinish r pend o res hp => exact ⟨by simp, [.sEnd r o, .returned r], by simp [Ev.isBegin]⟩
  | stopDie r pend st e hp => exact ⟨by simp, [.sEnd r (.panic e)], by simp [Ev.isBegin, St.die]⟩
  | notify r pend res id hp => exact ⟨by simp, [.notified id r], by simp [Ev.isBegin]⟩
  | finish r res hp => exact ⟨by simp, [.returned r], by simp [Ev.isBegin]⟩
  | _ => exact ⟨by simp [St.step, h], [], by simp [St.step]⟩

/-- **C09** Whatever happens after `kill` was called on an actor suspended in its message loop:
it starts no further handler, no `on_panic` and no `on_link_died`; the only hook that may start is
`on_stop`, with `Killed`. -/
theorem nothing_but_on_stop_after_kill (cap : Option Nat) (ops ops' : List Op)
    (hk : .kill ∈ ops) (hl : (after cap ops).phase.inLoop = true)
    (hp : (after cap ops).polling = false) :
    (after cap (ops ++ ops')).handled = (after cap ops).handled ∧
    ∃ x, (after cap (ops ++ ops')).log = (after cap ops).log ++ x ∧
      ∀ e ∈ x, e.isBegin = true → e = .sBegin .killed := by
  have ha := aborted_of_kill cap ops hk
  rw [after_append]
  generalize after cap ops = s0 at *
  have key : ∀ (ops' : List Op) (s : St),
      (s.phase.inLoop = true ∧ s.polling = false ∧ s.aborted = true) ∨ s.phase.final = true →
      (s.exec ops').handled = s.handled ∧ ∃ x, (s.exec ops').log = s.log ++ x ∧
        ∀ e ∈ x, e.isBegin = true → e = .sBegin .killed := by
    intro ops'
    induction ops' with
    | nil => intro s _; exact ⟨rfl, [], by simp [St.exec], by simp⟩
    | cons op ops' ih =>
      intro s h
      have hstep : ((s.step op).phase.inLoop = true ∧ (s.step op).polling = false ∧
          (s.step op).aborted = true ∨ (s.step op).phase.final = true) ∧
          (s.step op).handled = s.handled ∧ ∃ x, (s.step op).log = s.log ++ x ∧
            ∀ e ∈ x, e.isBegin = true → e = .sBegin .killed := by
        rcases h with ⟨h1, h2, h3⟩ | h
        · rcases killed_tr op rfl h1 h2 h3 with ⟨g1, g2, g3, g4, x, g5, g6⟩ | ⟨g1, g4, x, g5, g6⟩
          · exact ⟨Or.inl ⟨g1, g2, g3⟩, g4, x, g5, fun e he hb => by simp [g6 e he] at hb⟩
          · exact ⟨Or.inr g1, g4, x, g5, g6⟩
        · obtain ⟨g1, x, g2, g3⟩ := final_tr h (step_tr s op)
          exact ⟨Or.inr g1, (out_tr (final_out h) (step_tr s op)).2.1, x, g2,
            fun e he hb => by simp [g3 e he] at hb⟩
      obtain ⟨g1, g2, x, g3, g4⟩ := hstep
      obtain ⟨i1, y, i2, i3⟩ := ih (s.step op) g1
      refine ⟨i1.trans g2, x ++ y, ?_, ?_⟩
      · show ((s.step op).exec ops').log = _
        rw [i2, g3, List.append_assoc]
      · intro e he hb
        rcases List.mem_append.mp he with he | he
        · exact g4 e he hb
        · exact i3 e he hb
  exact key ops' s0 (Or.inl ⟨hl, hp, ha⟩)

example : .kill ∈ killDemo ∧ (after none killDemo).phase.inLoop = true ∧
    (after none killDemo).polling = false ∧
    (after none (killDemo ++ [.handlerEnd (.ret (.ok 1)), .recv, .pollBegin, .recv])).handled
      = [(1, ask 10)] := by decide

/-! ### C11 -/

/-- How the automaton comes to owe a call of `on_stop` with `r`. -/
theorem stopDue_why {log : List Ev} {l : Life} (h : Life.notStarted.run log = some l) :
    (∀ r, l = .stopDue r → r = .killed ∨
      ((∃ id r0, .lEnd id r0 (.brk r) ∈ log) ∧ ∀ e, r ≠ .panicked e) ∨
      (∃ e, .pEnd e (.brk r) ∈ log) ∨ (∃ e e', .pEnd e (.err e') ∈ log ∧ r = .panicked e') ∨
      (∃ e, (.startEnd (.err e) ∈ log ∨ .startEnd (.panic e) ∈ log) ∧ r = .panicked e)) ∧
    (∀ e, l = .failing e false ∨ l = .inPanic e false →
      .startEnd (.err e) ∈ log ∨ .startEnd (.panic e) ∈ log) := by
  refine run_induct (P := fun log l =>
    (∀ r, l = .stopDue r → r = .killed ∨
      ((∃ id r0, .lEnd id r0 (.brk r) ∈ log) ∧ ∀ e, r ≠ .panicked e) ∨
      (∃ e, .pEnd e (.brk r) ∈ log) ∨ (∃ e e', .pEnd e (.err e') ∈ log ∧ r = .panicked e') ∨
      (∃ e, (.startEnd (.err e) ∈ log ∨ .startEnd (.panic e) ∈ log) ∧ r = .panicked e)) ∧
    (∀ e, l = .failing e false ∨ l = .inPanic e false →
      .startEnd (.err e) ∈ log ∨ .startEnd (.panic e) ∈ log)) (by simp) ?_ h
  intro log l e l' ih ht
  cases ht with
  | hEnd m st tk o => unfold afterHandler; (repeat' split) <;> simp
  | lEnd id r o =>
    cases o with
    | brk r' =>
      cases r' <;> simp [afterLink]
      all_goals (left; refine ⟨id, r, by simp⟩)
    | _ => simp [afterLink]
  | pEnd e st o =>
    cases o with
    | cont =>
      cases st with
      | true => simp [afterPanic]
      | false =>
        have := ih.2 e (Or.inr rfl)
        simp [afterPanic, this]
    | brk r' => simp [afterPanic]
    | err e' => simp [afterPanic]
    | panic e' => simp [afterPanic]
  | pCancel e st => cases st <;> simp
  | killCalled =>
    refine ⟨fun r hr => ?_, fun e he => ?_⟩
    · have := ih.1 r hr; simp only [List.mem_append]; grind
    · have := ih.2 e he; simp only [List.mem_append]; grind
  | replySent =>
    refine ⟨fun r hr => ?_, fun e he => ?_⟩
    · have := ih.1 r hr; simp only [List.mem_append]; grind
    · have := ih.2 e he; simp only [List.mem_append]; grind
  | pBegin e st =>
    cases st with
    | true => simp
    | false => have := ih.2 e (Or.inl rfl); simp [this]
  | _ => simp

/-- **C11** The stop reason tells the truth: what must have happened before `on_stop` is called
with a given reason. -/
theorem stop_reason_true (cap : Option Nat) (ops : List Op) (pre post : List Ev) (r : Reason)
    (hlog : (after cap ops).log = pre ++ .sBegin r :: post) :
    (r = .killed → .killCalled ∈ pre ∨ (∃ id r0, .lEnd id r0 (.brk .killed) ∈ pre) ∨
      ∃ e, .pEnd e (.brk .killed) ∈ pre) ∧
    (r = .normal → (.stopTaken ∈ pre ∧ ∃ t, (t, Sig.stop) ∈ (after cap ops).mb.received) ∨
      (∃ id r0, .lEnd id r0 (.brk .normal) ∈ pre) ∨ ∃ e, .pEnd e (.brk .normal) ∈ pre) ∧
    (∀ e, r = .panicked e → (∃ e0, .pEnd e0 (.brk (.panicked e)) ∈ pre) ∨
      (∃ e0, .pEnd e0 (.err e) ∈ pre) ∨ .startEnd (.err e) ∈ pre ∨ .startEnd (.panic e) ∈ pre) ∧
    (∀ id r', r = .linkDied id r' → (∃ i r0, .lEnd i r0 (.brk (.linkDied id r')) ∈ pre) ∨
      ∃ e, .pEnd e (.brk (.linkDied id r')) ∈ pre) ∧
    (r = .peerDisconnected → (∃ i r0, .lEnd i r0 (.brk .peerDisconnected) ∈ pre) ∨
      ∃ e, .pEnd e (.brk .peerDisconnected) ∈ pre) := by
  have hf := facts_after cap ops
  obtain ⟨l, h, _⟩ := logOk_after cap ops
  rw [hlog] at h
  obtain ⟨l1, h1, h2⟩ := Life.run_split h
  obtain ⟨l2, h3, _⟩ := Life.run_cons h2
  have hs := run_source h1
  have hd := (stopDue_why h1).1
  have hnr : .noRefs ∉ pre := fun hm => hf.nr (by rw [hlog]; simp [hm])
  have hwhy := hf.why pre _ post hlog
  have hst : .stopTaken ∈ pre → ∃ t, (t, Sig.stop) ∈ (after cap ops).mb.received :=
    fun hm => hf.st (by rw [hlog]; simp [hm])
  cases h3 with
  | stopNormal =>
    have := (hs.2.1 true rfl rfl).resolve_right hnr
    simp [this, hst this]
  | stopKilled => simpa [Why] using hwhy
  | sBegin =>
    have hd := hd r rfl
    refine ⟨?_, ?_, ?_, ?_, ?_⟩
    · rintro rfl; exact hwhy
    · rintro rfl; simp at hd; rcases hd with hd | hd <;> simp [hd]
    · rintro e rfl; simp at hd; rcases hd with hd | hd | hd <;> simp [hd]
    · rintro id r' rfl; simpa using hd
    · rintro rfl; simpa using hd

example : ∃ pre post, (after none (killDemo ++ [.pollBegin])).log = pre ++ .sBegin .killed :: post :=
  ⟨[.startBegin, .startEnd .ok, .hBegin (1, ask 10), .killCalled, .hCancel (1, ask 10)], [],
    by decide⟩

/-- All completed hooks behaved like the default implementations of `on_link_died` and
`on_panic`. -/
def DefaultHooks (log : List Ev) : Prop :=
  (∀ id r o, .lEnd id r o ∈ log → o = defaultOnLinkDied id r) ∧
  ∀ e o, .pEnd e o ∈ log → o = defaultOnPanic e

/-- **C11** With the default hooks: `Killed` means that `kill` was called, `Normal` that a stop
request was taken from the mailbox, `Panicked(e)` that `on_start` or a handler failed with `e`,
`LinkDied` and `PeerDisconnected` that such a signal about a linked actor was received, and that
it told of an abnormal death. -/
theorem default_stop_reason_true (cap : Option Nat) (ops : List Op) (r : Reason)
    (hd : DefaultHooks (after cap ops).log) (hr : .sBegin r ∈ (after cap ops).log) :
    (r = .killed → .killCalled ∈ (after cap ops).log) ∧
    (r = .normal → ∃ t, (t, Sig.stop) ∈ (after cap ops).mb.received) ∧
    (∀ e, r = .panicked e →
      (∃ m tk o, .hEnd m tk o ∈ (after cap ops).log ∧ (o = .panic e ∨
        (o = .ret (.err e) ∧ (m.2.ask = false ∨ tk = true)))) ∨
      .startEnd (.err e) ∈ (after cap ops).log ∨ .startEnd (.panic e) ∈ (after cap ops).log) ∧
    (∀ id r', r = .linkDied id r' → r' ≠ .normal ∧ r' ≠ .peerDisconnected ∧
      ∃ t, (t, Sig.linkDied id r') ∈ (after cap ops).mb.received) ∧
    (r = .peerDisconnected →
      ∃ id t, (t, Sig.linkDied id .peerDisconnected) ∈ (after cap ops).mb.received) := by
  obtain ⟨pre, post, hlog⟩ := List.append_of_mem hr
  have ht := stop_reason_true cap ops pre post r hlog
  have hf := facts_after cap ops
  obtain ⟨l, h, _⟩ := logOk_after cap ops
  have hfail := (run_source h).2.2.2.2
  have hlb : ∀ id r o, .lEnd id r o ∈ (after cap ops).log →
      ∃ t, (t, Sig.linkDied id r) ∈ (after cap ops).mb.received := by
    intro id r o hm
    obtain ⟨a, b, hab⟩ := List.append_of_mem hm
    obtain ⟨p, bg, mid, h1, h2, _⟩ := one_completion_per_start cap ops a b _ hab rfl
    have hbg : bg = .lBegin id r := by
      cases bg <;> simp [closes] at h2
      rw [h2.1, h2.2]
    exact hf.lb id r (by rw [hab, h1, hbg]; simp)
  have hpb : ∀ e o, .pEnd e o ∈ (after cap ops).log → .pBegin e ∈ (after cap ops).log := by
    intro e o hm
    obtain ⟨a, b, hab⟩ := List.append_of_mem hm
    obtain ⟨p, bg, mid, h1, h2, _⟩ := one_completion_per_start cap ops a b _ hab rfl
    have hbg : bg = .pBegin e := by
      cases bg <;> simp [closes] at h2
      rw [h2]
    rw [hab, h1, hbg]; simp
  have hin : ∀ e, e ∈ pre → e ∈ (after cap ops).log := fun e he => by rw [hlog]; simp [he]
  have hdl : ∀ id r o, .lEnd id r o ∈ pre → o = defaultOnLinkDied id r :=
    fun id r o hm => hd.1 id r o (hin _ hm)
  have hdp : ∀ e o, .pEnd e o ∈ pre → o = defaultOnPanic e := fun e o hm => hd.2 e o (hin _ hm)
  obtain ⟨t1, t2, t3, t4, t5⟩ := ht
  have nopanic : ∀ (r' : Reason), (∀ e, r' ≠ .panicked e) → ∀ e, .pEnd e (.brk r') ∉ pre := by
    intro r' hr' e hm
    have := hdp e _ hm
    simp [defaultOnPanic] at this
    exact hr' _ this
  refine ⟨?_, ?_, ?_, ?_, ?_⟩
  · intro hk
    rcases t1 hk with h | ⟨id, r0, h⟩ | ⟨e, h⟩
    · exact hin _ h
    · have := hdl _ _ _ h; cases r0 <;> simp [defaultOnLinkDied] at this
    · exact absurd h (nopanic _ (by simp) e)
  · intro hk
    rcases t2 hk with h | ⟨id, r0, h⟩ | ⟨e, h⟩
    · exact h.2
    · have := hdl _ _ _ h; cases r0 <;> simp [defaultOnLinkDied] at this
    · exact absurd h (nopanic _ (by simp) e)
  · intro e he
    have hfl : Failure (after cap ops).log e → _ := fun hh => hh
    rcases t3 e he with ⟨e0, h⟩ | ⟨e0, h⟩ | h | h
    · have h0 := hdp _ _ h
      simp [defaultOnPanic] at h0
      subst h0
      rcases hfail e (hpb _ _ (hin _ h)) with ⟨m, tk, h⟩ | ⟨m, tk, h, h'⟩ | ⟨i, r0, h⟩ | ⟨i, r0, h⟩ |
        ⟨i, r0, h⟩ | h | h
      · exact Or.inl ⟨m, tk, _, h, Or.inl rfl⟩
      · exact Or.inl ⟨m, tk, _, h, Or.inr ⟨rfl, h'⟩⟩
      · have := hd.1 _ _ _ h; cases r0 <;> simp [defaultOnLinkDied] at this
      · have := hd.1 _ _ _ h; cases r0 <;> simp [defaultOnLinkDied] at this
      · have := hd.1 _ _ _ h; cases r0 <;> simp [defaultOnLinkDied] at this
      · exact Or.inr (Or.inl h)
      · exact Or.inr (Or.inr h)
    · have := hdp _ _ h; simp [defaultOnPanic] at this
    · exact Or.inr (Or.inl (hin _ h))
    · exact Or.inr (Or.inr (hin _ h))
  · intro id r' hk
    rcases t4 id r' hk with ⟨i, r0, h⟩ | ⟨e, h⟩
    · have h0 := hdl _ _ _ h
      have h1 := hlb _ _ _ (hin _ h)
      cases r0 <;> simp [defaultOnLinkDied] at h0 <;> obtain ⟨rfl, rfl⟩ := h0 <;> exact ⟨by simp, by simp, h1⟩
    · exact absurd h (nopanic _ (by simp) e)
  · intro hk
    rcases t5 hk with ⟨i, r0, h⟩ | ⟨e, h⟩
    · have h0 := hdl _ _ _ h
      have h1 := hlb _ _ _ (hin _ h)
      cases r0 <;> simp [defaultOnLinkDied] at h0
      exact ⟨i, h1⟩
    · exact absurd h (nopanic _ (by simp) e)

/-- A linked actor 7 died of `Killed`; the default hook stops this actor. -/
def linkDemo : List Op :=
  [.run, .startEnd .ok, .link 7, .sendLinkDied 7 .killed, .pollBegin, .recv, .recv,
   .linkEnd (.brk (.linkDied 7 .killed))]

example : DefaultHooks (after none linkDemo).log ∧
    .sBegin (.linkDied 7 .killed) ∈ (after none linkDemo).log := by
  have : (after none linkDemo).log = [.startBegin, .startEnd .ok, .lBegin 7 .killed,
    .lEnd 7 .killed (.brk (.linkDied 7 .killed)), .sBegin (.linkDied 7 .killed)] := by decide
  rw [this]
  simp only [DefaultHooks, List.mem_cons, List.not_mem_nil]
  refine ⟨⟨?_, by simp⟩, by simp⟩
  intro id r o h
  simp at h
  obtain ⟨rfl, rfl, rfl⟩ := h
  rfl

/-! ### C13 -/

/-- **C13** When `on_panic` says `Continue` inside the message loop the actor goes back to waiting
for signals and nothing else changes: the mailbox, the start-up buffer and every reply slot are as
before. -/
theorem continue_keeps_running (cap : Option Nat) (ops : List Op) (e : Err)
    (hp : (after cap ops).phase = .panicking e) (hpo : (after cap ops).polling = true) :
    let s := after cap ops
    let s' := after cap (ops ++ [.panicEnd .cont])
    s'.phase = .idle ∧ s'.mb = s.mb ∧ s'.buffer = s.buffer ∧ s'.slots = s.slots ∧
      s'.handled = s.handled ∧ s'.links = s.links := by
  simp only [after_snoc]
  simp [St.step, hp, hpo, St.panicEnd]

/-- A handler fails with one message still queued. -/
def panicDemo : List Op :=
  [.run, .startEnd .ok, .send (tell 10), .send (tell 11), .pollBegin, .recv, .recv,
   .handlerEnd (.panic 1)]

example : (after none panicDemo).phase = .panicking 1 ∧ (after none panicDemo).polling = true ∧
    (after none panicDemo).mb.queue = [(2, .msg (tell 11))] := by decide

theorem brkNormal_out (cap : Option Nat) (ops : List Op) (hl : (after cap ops).phase.inLoop = true)
    (hb : BrkNormal (after cap ops).log) : False := by
  obtain ⟨l, h, hm⟩ := logOk_after cap ops
  generalize after cap ops = s at *
  have key : ∀ (a b : List Ev) (e : Ev), s.log = a ++ e :: b →
      (∀ l1 l2, LTr l1 e l2 → l2 = .stopDue .normal) → False := by
    intro a b e hab he
    rw [hab] at h
    obtain ⟨l1, _, h2⟩ := Life.run_split h
    obtain ⟨l2, h3, h4⟩ := Life.run_cons h2
    have h5 := (run_inv (P := fun l => l = .stopDue .normal ∨ l.closing .normal) (Q := fun _ => True)
      (Or.inl (he _ _ h3)) (by
        intro l e l' hl ht
        unfold Life.closing at *
        cases ht <;> simp_all) h4).1
    unfold Life.closing at h5
    revert hl hm
    cases s.phase <;> simp [matchLife] <;> rintro rfl <;> simp at h5
  rcases hb with ⟨id, r, hm⟩ | ⟨e, hm⟩
  · obtain ⟨a, b, hab⟩ := List.append_of_mem hm
    exact key a b _ hab (by intro l1 l2 ht; cases ht; rfl)
  · obtain ⟨a, b, hab⟩ := List.append_of_mem hm
    exact key a b _ hab (by intro l1 l2 ht; cases ht; rfl)

/-- **C13** (part). While the actor is in its message loop, no matter how many handlers have failed
and `on_panic` continued, every message accepted so far has been given to a handler or is still
waiting: in the mailbox, in the start-up buffer, or about to be handled from it.

Missing for the full claim: it needs that no handler failed for an outside message received before
start-up was over; otherwise messages of the start-up buffer are lost
(`startup_buffer_lost_on_continue`). -/
theorem continue_loses_nothing_partial (cap : Option Nat) (ops : List Op)
    (hl : (after cap ops).phase.inLoop = true) (hd : ¬ DrainFail (after cap ops)) :
    ∀ m ∈ msgsOf (after cap ops).mb.pushed, m ∈ (after cap ops).handled ∨
      m ∈ msgsOf (after cap ops).mb.queue ∨ m ∈ (after cap ops).buffer ∨
      m ∈ (after cap ops).phase.rest := by
  have hg := good_after cap ops
  have hlo := loss_after cap ops
  have hbr : BrkNormal (after cap ops).log → False := brkNormal_out cap ops hl
  generalize after cap ops = s at *
  have hsb := hlo.sb (Or.inl hl)
  have hlost : s.lost = [] := by
    by_cases h : s.lost = []
    · exact h
    · exfalso
      rcases hlo.lost h with h | h | ⟨r, _, h⟩ | ⟨h, _⟩
      · exact hd h
      · exact hbr h
      · exact hsb r h
      · simp [h] at hl
  have hml : s.mb.lost = [] := by
    apply hg.shape.mb.openLost
    have : s.phase.ended = false := by revert hl; cases s.phase <;> simp
    rw [hg.shape.closed, this]
  intro m hm
  rw [hg.shape.mb.hist, hml] at hm
  simp only [msgsOf_append, List.append_nil, List.mem_append] at hm
  rcases hm with hm | hm
  · have := hg.acct.mem_iff.mp hm
    rw [hlost] at this
    simp only [List.append_nil, List.mem_append] at this
    grind
  · exact Or.inr (Or.inl hm)

example : (after none (panicDemo ++ [.panicEnd .cont])).phase.inLoop = true ∧
    ¬ DrainFail (after none (panicDemo ++ [.panicEnd .cont])) := by
  refine ⟨by decide, ?_⟩
  rintro ⟨k, m, tk, o, h1, _, h3, _⟩
  have hc : (after none (panicDemo ++ [.panicEnd .cont])).cut = some 1 := by decide
  rw [hc] at h1
  cases h1
  have : msgsOf ((after none (panicDemo ++ [.panicEnd .cont])).mb.received.take 1) = [] := by decide
  rw [this] at h3
  simp at h3

/-- **C13** fails for the start-up buffer: the handler of message 0 panics, `on_panic` says
`Continue`, the actor is running, and message 1, accepted before, is gone. -/
theorem startup_buffer_lost_on_continue :
    ∃ cap ops, (after cap ops).phase = .idle ∧ (after cap ops).mb.queue = [] ∧
      (after cap ops).buffer = [] ∧ (after cap ops).handled = [(0, tell 10)] ∧
      (after cap ops).mb.pushed = [(0, .msg (tell 10)), (1, .msg (tell 11)), (2, .startup)] :=
  ⟨none, [.send (tell 10), .send (tell 11), .run, .startEnd .ok, .pollBegin, .recv, .recv, .recv,
    .handlerEnd (.panic 1), .panicEnd .cont], by decide⟩

end Verif.Lifecycle
