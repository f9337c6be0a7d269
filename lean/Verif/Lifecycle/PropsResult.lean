import Verif.Lifecycle.GiveUp
import Verif.Lifecycle.Start

/-!
Property theorems about the observers of one actor: C28 (`wait_for_startup`), C29
(`wait_for_shutdown`, `is_alive`), C30 (published results), C31 (references), C54 (panicking hooks).

`wait_for_startup` (`src/actor/actor_ref.rs` L259-261) acquires a permit of the start-up semaphore: it
returns iff `permits > 0`. `wait_for_shutdown` (L342-344) and `is_alive` (L89-91) look at whether the
mailbox receiver is gone: `mb.closed`.
-/

set_option linter.unusedSimpArgs false

namespace Verif.Lifecycle

open Verif.Mailbox

/-! ### C28 -/

/-- **C28** `wait_for_startup` does not return before `on_start` has completed. -/
theorem startup_wait_not_early (cap : Option Nat) (ops : List Op) (h : 0 < (after cap ops).permits) :
    ∃ o, .startEnd o ∈ (after cap ops).log := by
  have hs := start_after cap ops
  cases hc : (after cap ops).startupErr with
  | none => have := (hs.noRes hc).1; omega
  | some x => exact (hs.res x hc).2.2

example : 0 < (after (some 4) demo).permits := by decide

/-- **C28**, part: if `on_start` failed, `wait_for_startup` returns from then on. -/
theorem startup_wait_returns_on_failure_partial (cap : Option Nat) (ops : List Op) (e : Err)
    (h : .startEnd (.err e) ∈ (after cap ops).log ∨ .startEnd (.panic e) ∈ (after cap ops).log) :
    (after cap ops).permits = 1 := by
  have hs := start_after cap ops
  cases hc : (after cap ops).startupErr with
  | none => have := (hs.noRes hc).2.2.1; rcases h with h | h <;> exact (this _ h).elim
  | some x =>
    have hx : x = some e := by
      rcases h with h | h
      · exact ((hs.res x hc).2.1 _ h).symm
      · exact ((hs.res x hc).2.1 _ h).symm
    subst hx
    exact (hs.fail e hc).1

example : .startEnd (.err 3) ∈ (after none [.run, .startEnd (.err 3)]).log := by decide

theorem startup_sent_ok {cap : Option Nat} {ops : List Op} (h : .startEnd .ok ∈ (after cap ops).log) :
    (after cap ops).startupErr = some none := by
  have hs := start_after cap ops
  cases hc : (after cap ops).startupErr with
  | none => exact ((hs.noRes hc).2.2.1 _ h).elim
  | some x => have := (hs.res x hc).2.1 _ h; rw [← this]; rfl

/-- **C28**, part: after a successful `on_start`, `wait_for_startup` returns exactly when the actor
has received its start-up signal; in particular when the signal was accepted and the actor, still
in its loop, has emptied its mailbox. -/
theorem startup_wait_returns_partial (cap : Option Nat) (ops : List Op)
    (h : .startEnd .ok ∈ (after cap ops).log) :
    ((after cap ops).permits = 1 ↔ ∃ t, (t, Sig.startup) ∈ (after cap ops).mb.received) ∧
    ((∃ t, (t, Sig.startup) ∈ (after cap ops).mb.pushed) → (after cap ops).phase.inLoop = true →
      (after cap ops).mb.queue = [] → (after cap ops).permits = 1) := by
  have hs := start_after cap ops
  have hsh := shape_after cap ops
  have hok := hs.ok (startup_sent_ok h)
  have h1 := permits_le_one cap ops
  have hmem : ∀ l : List (Nat × Sig), (∃ t, (t, Sig.startup) ∈ l) ↔ 0 < startups l := by
    intro l
    unfold startups
    rw [List.countP_pos_iff]
    constructor
    · rintro ⟨t, ht⟩; exact ⟨_, ht, by simp⟩
    · rintro ⟨⟨t, s⟩, ht, hx⟩; simp at hx; subst hx; exact ⟨t, ht⟩
  have key : (after cap ops).permits = 1 ↔ ∃ t, (t, Sig.startup) ∈ (after cap ops).mb.received := by
    rw [hmem]; omega
  refine ⟨key, fun hp hl hq => key.mpr ?_⟩
  have hcl : (after cap ops).mb.closed = false := by
    rw [hsh.closed]; cases hph : (after cap ops).phase <;> simp [hph] at hl ⊢
  rw [hsh.mb.hist, hq, hsh.mb.openLost hcl] at hp
  simpa using hp

example : .startEnd .ok ∈ (after (some 4) demo).log ∧ (after (some 4) demo).permits = 1 := by decide

/-- What makes `wait_for_startup` hang for ever: the start-up signal did not get into the mailbox, or
it was dropped there unread. -/
theorem startup_wait_hangs (cap : Option Nat) (ops ops' : List Op)
    (h : .startEnd .ok ∈ (after cap ops).log)
    (hl : (∃ t w, (t, Sig.startup, w) ∈ (after cap ops).mb.failed) ∨
      ((after cap ops).phase.out ∧ ∀ t, (t, Sig.startup) ∉ (after cap ops).mb.received)) :
    (after cap (ops ++ ops')).permits = 0 := by
  have h' : .startEnd .ok ∈ (after cap (ops ++ ops')).log := by
    rw [after_append]
    obtain ⟨x, hx⟩ := exec_log (after cap ops) ops'
    rw [hx]; simp [h]
  have hone := permits_le_one cap (ops ++ ops')
  suffices hne : (after cap (ops ++ ops')).permits ≠ 1 by omega
  rw [Ne, (startup_wait_returns_partial cap _ h').1]
  rintro ⟨t, ht⟩
  rcases hl with ⟨t', w, hf⟩ | ⟨hout, hr⟩
  · have hf2 : (t', Sig.startup, w) ∈ (after cap (ops ++ ops')).mb.failed := by
      rw [after_append]
      have : ∀ (ops : List Op) (s : St), s.mb.failed <+: (s.exec ops).mb.failed := by
        intro ops
        induction ops with
        | nil => intro s; exact List.prefix_refl _
        | cons op ops ih => intro s; exact (failed_tr op).trans (ih (s.step op))
      exact (this ops' _).subset hf
    have hs := (start_after cap (ops ++ ops')).res _ (startup_sent_ok h')
    have hsh := shape_after cap (ops ++ ops')
    generalize after cap (ops ++ ops') = s at *
    have hc := hsh.mb.part.countP_eq (fun p => p.2 == Sig.startup)
    rw [hsh.mb.hist] at hc
    simp only [List.countP_append] at hc
    have h1 : 0 < s.mb.received.countP (fun p => p.2 == Sig.startup) :=
      List.countP_pos_iff.mpr ⟨_, ht, by simp⟩
    have h2 : 0 < (s.mb.failed.map unwhy).countP (fun p => p.2 == Sig.startup) :=
      List.countP_pos_iff.mpr ⟨(t', .startup), List.mem_map.mpr ⟨_, hf2, rfl⟩, by simp⟩
    have h3 := hs.1
    unfold startups at h3
    omega
  · rw [after_append] at ht
    rw [(out_exec hout ops').2.2] at ht
    exact hr t ht

/-- The mailbox is full when `on_start` ends. -/
def fullAtStart : List Op := [.send (tell 1), .run, .startEnd .ok]
/-- The actor is killed before it has taken its start-up signal. -/
def killedAtStart : List Op := [.run, .startEnd .ok, .kill, .pollBegin]
/-- A stop signal is ahead of the start-up signal. -/
def stoppedAtStart : List Op := [.sendStop, .run, .startEnd .ok, .pollBegin, .recv]

/-- **C28 is false**: `on_start` has completed, but `wait_for_startup` never returns, whatever
happens afterwards, if the mailbox was full at that moment (in the first history the actor then
runs normally). -/
theorem startup_wait_hangs_when_full (ops' : List Op) :
    .startEnd .ok ∈ (after (some 1) fullAtStart).log ∧
    (after (some 1) (fullAtStart ++ ops')).permits = 0 :=
  ⟨by decide, startup_wait_hangs _ _ _ (by decide) (Or.inl ⟨1, .full, by decide⟩)⟩

/-- The actor goes on, handles its message, and still nobody can see that it has started. -/
example : (after (some 1) (fullAtStart ++ [.pollBegin, .recv, .handlerEnd (.ret (.ok 0))])).handled = [(0, tell 1)] ∧
    (after (some 1) (fullAtStart ++ [.pollBegin, .recv, .handlerEnd (.ret (.ok 0))])).permits = 0 := by decide

/-- **C28 is false**: the same if the actor is killed right after `on_start`. -/
theorem startup_wait_hangs_when_killed (cap : Option Nat) (ops' : List Op) (hc : cap ≠ some 0) :
    .startEnd .ok ∈ (after cap killedAtStart).log ∧
    (after cap (killedAtStart ++ ops')).permits = 0 := by
  have hlog : .startEnd .ok ∈ (after cap killedAtStart).log := by
    cases cap with
    | none => decide
    | some c =>
      cases c with
      | zero => exact (hc rfl).elim
      | succ n =>
        simp [after, killedAtStart, St.exec, St.step, St.startEnd, St.startOk, St.fresh, Mb.fresh,
          Mb.hasRoom, St.abortSeen, Phase.inLoop, Phase.cancelEv]
  have hph : (after cap killedAtStart).phase = .stopping .killed [] true ∧
      (after cap killedAtStart).mb.received = [] := by
    cases cap with
    | none => decide
    | some c =>
      cases c with
      | zero => exact (hc rfl).elim
      | succ n =>
        simp [after, killedAtStart, St.exec, St.step, St.startEnd, St.startOk, St.fresh, Mb.fresh,
          Mb.hasRoom, St.abortSeen, Phase.inLoop, Mb.trySend, Mb.push, Mb.bump]
  refine ⟨hlog, startup_wait_hangs _ _ _ hlog (Or.inr ⟨?_, ?_⟩)⟩
  · rw [hph.1]; exact ⟨rfl, rfl⟩
  · rw [hph.2]; simp

example : (after (some 4) (killedAtStart ++ [.stopEnd .ok, .finish])).phase = .stopped .killed ∧
    (after (some 4) (killedAtStart ++ [.stopEnd .ok, .finish])).permits = 0 := by decide

/-- **C28 is false**: the same if `stop_gracefully` was called before `on_start` ended. -/
theorem startup_wait_hangs_when_stopped (ops' : List Op) :
    .startEnd .ok ∈ (after none stoppedAtStart).log ∧
    (after none (stoppedAtStart ++ ops')).permits = 0 := by
  refine ⟨by decide, startup_wait_hangs _ _ _ (by decide) (Or.inr ⟨⟨by decide, by decide⟩, ?_⟩)⟩
  have : (after none stoppedAtStart).mb.received = [(0, Sig.stop)] := by decide
  rw [this]; simp

example : (after none (stoppedAtStart ++ [.stopEnd .ok, .finish])).phase = .stopped .normal ∧
    (after none (stoppedAtStart ++ [.stopEnd .ok, .finish])).permits = 0 := by decide

/-! ### C29 -/

/-- **C29** `is_alive` is false, and `wait_for_shutdown` returns, exactly when the actor's task has
returned or has been torn down. -/
theorem alive_until_ended (cap : Option Nat) (ops : List Op) :
    (after cap ops).mb.closed = true ↔
      (∃ r, (after cap ops).phase = .stopped r) ∨ (after cap ops).phase = .crashed := by
  rw [(shape_after cap ops).closed]
  cases (after cap ops).phase <;> simp [Phase.ended]

/-- Alive while it stops, and not after. -/
example : (after none (stopDemo ++ [.stopEnd .ok])).mb.closed = false ∧
    (after none (stopDemo ++ [.stopEnd .ok, .finish])).mb.closed = true ∧
    (after none (stopDemo ++ [.stopEnd .ok, .finish])).phase = .stopped .normal := by decide

/-- **C29** Once that is so it stays so, and no handler or hook starts or ends any more. -/
theorem nothing_happens_after_shutdown (cap : Option Nat) (ops ops' : List Op)
    (h : (after cap ops).mb.closed = true) :
    (after cap (ops ++ ops')).mb.closed = true ∧
    (after cap (ops ++ ops')).phase = (after cap ops).phase ∧
    (after cap (ops ++ ops')).handled = (after cap ops).handled ∧
    ∃ x, (after cap (ops ++ ops')).log = (after cap ops).log ++ x ∧
      ∀ e ∈ x, e.isBegin = false ∧ e.isEnd = false ∧ ∀ id r, e ≠ .notified id r := by
  rw [after_append]
  have hsh := shape_after cap ops
  have hg := good_after cap ops
  have he := hsh.closed
  rw [h] at he
  generalize after cap ops = s at *
  have key : (s.exec ops').phase = s.phase ∧ (s.exec ops').handled = s.handled ∧
      ∃ x, (s.exec ops').log = s.log ++ x ∧
        ∀ e ∈ x, e.isBegin = false ∧ e.isEnd = false ∧ ∀ id r, e ≠ .notified id r := by
    refine exec_good_inv (P := fun s' => s'.phase = s.phase ∧ s'.handled = s.handled ∧
      ∃ x, s'.log = s.log ++ x ∧
        ∀ e ∈ x, e.isBegin = false ∧ e.isEnd = false ∧ ∀ id r, e ≠ .notified id r) ?_ hg
      ⟨rfl, rfl, [], by simp, by simp⟩ ops'
    rintro a b hga ⟨h1, h2, x, h3, h4⟩ ht
    have hend : a.phase.ended = true := by rw [h1]; exact he.symm
    have hno : ∀ p, a.phase = p → p.ended = false → False := by rintro p rfl h'; simp_all
    have hkeep : ∀ b : St, b.phase = a.phase → b.handled = a.handled → b.log = a.log →
        b.phase = s.phase ∧ b.handled = s.handled ∧ ∃ x, b.log = s.log ++ x ∧
        ∀ e ∈ x, e.isBegin = false ∧ e.isEnd = false ∧ ∀ id r, e ≠ .notified id r := by
      intro b e1 e2 e3
      exact ⟨e1.trans h1, e2.trans h2, x, e3.trans h3, h4⟩
    cases ht with
    | run hp => exact (hno _ hp rfl).elim
    | startOk hp => exact (hno _ hp rfl).elim
    | startFail _ _ hp => exact (hno _ hp rfl).elim
    | abort hp => cases hph : a.phase <;> simp [hph] at hp hend
    | polling hp => cases hph : a.phase <;> simp [hph] at hp hend
    | recvNone hp => exact (hno _ hp rfl).elim
    | recvStartup hp => exact (hno _ hp rfl).elim
    | recvBuffer hp => exact (hno _ hp rfl).elim
    | recvMsg hp => exact (hno _ hp rfl).elim
    | recvLink hp => exact (hno _ hp rfl).elim
    | recvStop hp => exact (hno _ hp rfl).elim
    | takeReply _ _ _ hp => exact (hno _ hp rfl).elim
    | handlerReply _ _ _ _ hp => exact (hno _ hp rfl).elim
    | handlerOk _ _ _ _ _ hp => exact (hno _ hp rfl).elim
    | handlerErr _ _ _ _ _ hp => exact (hno _ hp rfl).elim
    | handlerPanic _ _ _ _ _ hp => exact (hno _ hp rfl).elim
    | linkCont _ _ hp => exact (hno _ hp rfl).elim
    | linkStop _ _ _ hp => exact (hno _ hp rfl).elim
    | linkPanic _ _ _ _ hp => exact (hno _ hp rfl).elim
    | panicCont _ hp => exact (hno _ hp rfl).elim
    | panicStop _ _ _ hp => exact (hno _ hp rfl).elim
    | panicDie _ _ hp => exact (hno _ hp rfl).elim
    | startPanicStop _ _ _ hp => exact (hno _ hp rfl).elim
    | startPanicDie _ _ hp => exact (hno _ hp rfl).elim
    | stopNotify _ _ _ _ hp => exact (hno _ hp rfl).elim
    | stopFinish _ _ _ _ hp => exact (hno _ hp rfl).elim
    | stopDie _ _ _ _ hp => exact (hno _ hp rfl).elim
    | notify _ _ _ _ hp => exact (hno _ hp rfl).elim
    | finish _ _ hp => exact (hno _ hp rfl).elim
    | teardown n1 n2 => cases hph : a.phase <;> simp [hph] at n1 n2 hend
    | kill =>
      refine ⟨h1, h2, x ++ [.killCalled], by simp [h3], ?_⟩
      intro e he
      simp at he
      rcases he with he | rfl
      · exact h4 e he
      · exact ⟨rfl, rfl, by simp⟩
    | delegSend t r hd =>
      refine ⟨by simpa using h1, by simpa using h2, x ++ [.replySent t r], by simp [h3], ?_⟩
      intro e he
      simp at he
      rcases he with he | rfl
      · exact h4 e he
      · exact ⟨rfl, rfl, by simp⟩
    | _ => exact hkeep _ (by simp [St.step]) (by simp [St.step]) (by simp [St.step])
  refine ⟨?_, key⟩
  have := (shape_after cap ops)
  have hsh' : Shape (s.exec ops') := (good_exec hg ops').shape
  rw [hsh'.closed, key.1]; exact he.symm

example : (after none (stopDemo ++ [.stopEnd .ok, .finish])).mb.closed = true := by decide

/-- **C29** `wait_for_shutdown` returns only when `on_stop` has finished and every linked actor has
been notified, unless the task was torn down. -/
theorem shutdown_complete (cap : Option Nat) (ops : List Op) (h : (after cap ops).mb.closed = true)
    (hc : (after cap ops).phase ≠ .crashed) :
    ∃ r o, .sEnd r o ∈ (after cap ops).log ∧ (∀ e, o ≠ .panic e) ∧ .returned r ∈ (after cap ops).log := by
  rcases (alive_until_ended cap ops).mp h with ⟨r, hr⟩ | hr
  · obtain ⟨_, ⟨o, h1, h2⟩, h3⟩ := stopped_after_on_stop cap ops r hr
    exact ⟨r, o, h1, h2, h3⟩
  · exact (hc hr).elim

example : (after none (stopDemo ++ [.stopEnd .ok, .finish])).phase = .stopped .normal := by decide

/-! ### C23 and C29: notification of linked actors, seen from the dying actor -/

/-- The notifications in a list of events: which actor, with which reason. -/
def notifications (l : List Ev) : List (Id × Reason) :=
  l.filterMap (fun e => match e with
    | .notified id r => some (id, r)
    | _ => none)

/-- **C23**, part (the dying actor's side): when the message loop ends, the actor's links are taken
out of its link set: exactly the actors to be notified. If the loop ended because of the death of a
linked actor, that one is not among them. -/
theorem links_taken_when_loop_ends {s s' : St} (ht : Tr s s') (hl : s.phase.inLoop = true)
    {r : Reason} {pend : List Id} {b : Bool} (hp : s'.phase = .stopping r pend b) :
    b = true ∧ s'.links = [] ∧
    (pend = s.links ∨ ∃ id r0, s.phase = .linkDying id r0 ∧ pend = s.links.filter (· != id)) := by
  have hno : ∀ p, s.phase = p → p.inLoop = false → False := by rintro p rfl h'; simp_all
  have hdr : ∀ (a : St) (rest : List Msg) (ts : Bool), (a.drain rest ts).phase = .stopping r pend b →
      b = true ∧ (a.drain rest ts).links = [] ∧ pend = a.links := by
    intro a rest ts h
    cases rest with
    | cons m ms => simp [St.drain] at h
    | nil => cases ts <;> simp [St.drain] at h ⊢; simp [h]
  have hon : ∀ (a : St) (x : Reason), (a.onShutdown x).phase = .stopping r pend b →
      b = true ∧ (a.onShutdown x).links = [] ∧ pend = a.links := by
    intro a x h
    cases x <;> simp [St.onShutdown] at h ⊢ <;> simp [h]
  cases ht with
  | run h => exact (hno _ h rfl).elim
  | startOk h => exact (hno _ h rfl).elim
  | startFail _ _ h => exact (hno _ h rfl).elim
  | startPanicStop _ _ _ h => exact (hno _ h rfl).elim
  | startPanicDie _ _ h => exact (hno _ h rfl).elim
  | stopNotify _ _ _ _ h => exact (hno _ h rfl).elim
  | stopFinish _ _ _ _ h => exact (hno _ h rfl).elim
  | stopDie _ _ _ _ h => exact (hno _ h rfl).elim
  | notify _ _ _ _ h => exact (hno _ h rfl).elim
  | finish _ _ h => exact (hno _ h rfl).elim
  | abort h ha => simp [St.abortSeen] at hp ⊢; simp [hp]
  | recvNone h h1 h2 h3 => obtain ⟨a, b, c⟩ := hdr _ _ _ hp; exact ⟨a, b, Or.inl (by simpa using c)⟩
  | recvStartup h h1 t q hq => obtain ⟨a, b, c⟩ := hdr _ _ _ hp; exact ⟨a, b, Or.inl (by simpa using c)⟩
  | recvStop h h1 t q hq => obtain ⟨a, b, c⟩ := hdr _ _ _ hp; exact ⟨a, b, Or.inl (by simpa using c)⟩
  | recvMsg => simp at hp
  | recvLink => simp at hp
  | recvBuffer h => simp [h] at hp
  | takeReply => simp at hp
  | handlerReply => obtain ⟨a, b, c⟩ := hdr _ _ _ hp; exact ⟨a, b, Or.inl (by simpa using c)⟩
  | handlerOk => obtain ⟨a, b, c⟩ := hdr _ _ _ hp; exact ⟨a, b, Or.inl (by simpa using c)⟩
  | handlerErr => simp at hp
  | handlerPanic => simp at hp
  | linkCont => simp at hp
  | linkPanic => simp at hp
  | linkStop id r0 x h =>
    simp only [leave_phase, Phase.stopping.injEq] at hp
    exact ⟨hp.2.2.symm, by simp, Or.inr ⟨_, _, h, hp.2.1.symm⟩⟩
  | panicCont => simp at hp
  | panicStop => simp at hp ⊢; simp [hp]
  | panicDie => simp at hp
  | teardown => simp [St.crash] at hp
  | refl => exact (hno _ hp rfl).elim
  | _ => first | exact (hno _ hp rfl).elim | (simp [St.step] at hp; exact (hno _ hp rfl).elim)

/-- An actor linked to 7 and 8 takes its stop request; an actor linked to 7 and 8 learns that 7 has died. -/
example : (after none [.run, .link 7, .startEnd .ok, .link 8, .sendStop, .pollBegin, .recv]).phase.inLoop = true ∧
    (after none [.run, .link 7, .startEnd .ok, .link 8, .sendStop, .pollBegin, .recv]).links = [7, 8] ∧
    (after none [.run, .link 7, .startEnd .ok, .link 8, .sendStop, .pollBegin, .recv, .recv]).phase =
      .stopping .normal [7, 8] true ∧
    (after none [.run, .link 7, .startEnd .ok, .link 8, .sendLinkDied 7 .killed, .pollBegin, .recv, .recv,
      .linkEnd (.brk (.linkDied 7 .killed))]).phase = .stopping (.linkDied 7 .killed) [8] true := by decide

/-- **C23**, part (the dying actor's side), and **C29**: from the moment `on_stop` is called, with
`pend` the actors linked at that moment: if the actor's task returns, it has sent each of them
exactly one notification, with its own stop reason, and none to anybody else. -/
theorem linked_actors_notified (cap : Option Nat) (ops ops' : List Op) (r : Reason) (pend : List Id)
    (h : (after cap ops).phase = .stopping r pend true) (r' : Reason)
    (h' : (after cap (ops ++ ops')).phase = .stopped r') :
    r' = r ∧ ∃ x, (after cap (ops ++ ops')).log = (after cap ops).log ++ x ∧
      (notifications x).Perm (pend.map (fun id => (id, r))) := by
  rw [after_append] at h' ⊢
  have hg := good_after cap ops
  generalize after cap ops = s at *
  have key : ∃ x, (s.exec ops').log = s.log ++ x ∧
      (((s.exec ops').phase = .stopping r pend true ∧ notifications x = []) ∨
       (∃ p res, (s.exec ops').phase = .notifying r p res ∧
          (notifications x ++ p.map (fun id => (id, r))).Perm (pend.map (fun id => (id, r)))) ∨
       ((s.exec ops').phase = .stopped r ∧
          (notifications x).Perm (pend.map (fun id => (id, r)))) ∨
       (s.exec ops').phase = .crashed) := by
    refine exec_good_inv (P := fun s' => ∃ x, s'.log = s.log ++ x ∧
      ((s'.phase = .stopping r pend true ∧ notifications x = []) ∨
       (∃ p res, s'.phase = .notifying r p res ∧
          (notifications x ++ p.map (fun id => (id, r))).Perm (pend.map (fun id => (id, r)))) ∨
       (s'.phase = .stopped r ∧ (notifications x).Perm (pend.map (fun id => (id, r)))) ∨
       s'.phase = .crashed)) ?_ hg ⟨[], by simp, Or.inl ⟨h, rfl⟩⟩ ops'
    rintro a b hga ⟨x, hx, hc⟩ ht
    have hout : a.phase.inLoop = false ∧ a.phase.unborn = false ∧ (∀ e, a.phase ≠ .startPanicking e) ∧
        (∀ y z, a.phase ≠ .stopping y z false) := by
      rcases hc with ⟨hc, _⟩ | ⟨p, res, hc, _⟩ | ⟨hc, _⟩ | hc <;> rw [hc] <;> simp
    have hno : ∀ p, a.phase = p → p.inLoop = true ∨ p.unborn = true → False := by
      rintro p rfl (h | h) <;> simp_all
    have hkeep : ∀ b : St, b.phase = a.phase → (∃ y, b.log = a.log ++ y ∧ notifications y = []) →
        ∃ x, b.log = s.log ++ x ∧
      ((b.phase = .stopping r pend true ∧ notifications x = []) ∨
       (∃ p res, b.phase = .notifying r p res ∧
          (notifications x ++ p.map (fun id => (id, r))).Perm (pend.map (fun id => (id, r)))) ∨
       (b.phase = .stopped r ∧ (notifications x).Perm (pend.map (fun id => (id, r)))) ∨
       b.phase = .crashed) := by
      rintro b e1 ⟨y, e2, e3⟩
      refine ⟨x ++ y, by rw [e2, hx]; simp, ?_⟩
      have : notifications (x ++ y) = notifications x := by
        rw [show notifications (x ++ y) = notifications x ++ notifications y from List.filterMap_append ..,
          e3]; simp
      rw [this, e1]
      exact hc
    cases ht with
    | run hp => exact (hno _ hp (by simp)).elim
    | startOk hp => exact (hno _ hp (by simp)).elim
    | startFail _ _ hp => exact (hno _ hp (by simp)).elim
    | abort hp => exact (hno _ rfl (by simp [hp])).elim
    | polling hp => exact (hno _ rfl (by simp [hp])).elim
    | recvNone hp => exact (hno _ hp (by simp)).elim
    | recvStartup hp => exact (hno _ hp (by simp)).elim
    | recvBuffer hp => exact (hno _ hp (by simp)).elim
    | recvMsg hp => exact (hno _ hp (by simp)).elim
    | recvLink hp => exact (hno _ hp (by simp)).elim
    | recvStop hp => exact (hno _ hp (by simp)).elim
    | takeReply _ _ _ hp => exact (hno _ hp (by simp)).elim
    | handlerReply _ _ _ _ hp => exact (hno _ hp (by simp)).elim
    | handlerOk _ _ _ _ _ hp => exact (hno _ hp (by simp)).elim
    | handlerErr _ _ _ _ _ hp => exact (hno _ hp (by simp)).elim
    | handlerPanic _ _ _ _ _ hp => exact (hno _ hp (by simp)).elim
    | linkCont _ _ hp => exact (hno _ hp (by simp)).elim
    | linkStop _ _ _ hp => exact (hno _ hp (by simp)).elim
    | linkPanic _ _ _ _ hp => exact (hno _ hp (by simp)).elim
    | panicCont _ hp => exact (hno _ hp (by simp)).elim
    | panicStop _ _ _ hp => exact (hno _ hp (by simp)).elim
    | panicDie _ _ hp => exact (hno _ hp (by simp)).elim
    | startPanicStop _ _ _ hp => exact (hout.2.2.1 _ hp).elim
    | startPanicDie _ _ hp => exact (hout.2.2.1 _ hp).elim
    | stopFinish _ _ _ _ hp => exact (hout.2.2.2 _ _ hp).elim
    | teardown => exact ⟨x ++ a.phase.cancelEv, by simp [St.crash, hx], by simp [St.crash]⟩
    | stopDie r1 p1 b1 e hp => exact ⟨x ++ [.sEnd r1 (.panic e)], by simp [hx], by simp⟩
    | stopNotify r1 p1 o res hp ho =>
      rcases hc with ⟨hc, hn⟩ | ⟨p, res, hc, _⟩ | ⟨hc, _⟩ | hc
      · rw [hp] at hc
        simp at hc
        obtain ⟨rfl, rfl⟩ := hc
        refine ⟨x ++ [.sEnd r1 o], by simp [hx], Or.inr (Or.inl ⟨p1, res, rfl, ?_⟩)⟩
        simp [notifications] at hn ⊢
        rw [List.filterMap_eq_nil_iff.mpr hn]; simp
      all_goals (rw [hp] at hc; cases hc)
    | notify r1 p1 res id hp hi =>
      rcases hc with ⟨hc, hn⟩ | ⟨p, res', hc, hn⟩ | ⟨hc, _⟩ | hc
      · rw [hp] at hc; cases hc
      · rw [hp] at hc
        simp at hc
        obtain ⟨rfl, rfl, rfl⟩ := hc
        refine ⟨x ++ [.notified id r1], by simp [hx], Or.inr (Or.inl ⟨_, res, rfl, ?_⟩)⟩
        refine List.Perm.trans ?_ hn
        have : notifications (x ++ [Ev.notified id r1]) = notifications x ++ [(id, r1)] := by
          simp [notifications]
        rw [this, List.append_assoc]
        apply List.Perm.append_left
        have := (List.perm_cons_erase hi).map (fun id => (id, r1))
        simpa using this.symm
      all_goals (rw [hp] at hc; cases hc)
    | finish r1 res hp =>
      rcases hc with ⟨hc, hn⟩ | ⟨p, res', hc, hn⟩ | ⟨hc, _⟩ | hc
      · rw [hp] at hc; cases hc
      · rw [hp] at hc
        simp at hc
        obtain ⟨rfl, rfl, rfl⟩ := hc
        refine ⟨x ++ [.returned r1], by simp [hx], Or.inr (Or.inr (Or.inl ⟨by simp, ?_⟩))⟩
        have : notifications (x ++ [Ev.returned r1]) = notifications x := by simp [notifications]
        rw [this]; simpa using hn
      all_goals (rw [hp] at hc; cases hc)
    | kill => exact hkeep _ rfl ⟨[.killCalled], rfl, rfl⟩
    | delegSend t r hd => exact hkeep _ (by simp) ⟨[.replySent t r], by simp, rfl⟩
    | _ => exact hkeep _ (by simp [St.step]) ⟨[], by simp [St.step], rfl⟩
  obtain ⟨x, hx, hc⟩ := key
  rcases hc with ⟨hc, hn⟩ | ⟨p, res', hc, hn⟩ | ⟨hc, hn⟩ | hc
  · rw [hc] at h'; cases h'
  · rw [hc] at h'; cases h'
  · rw [hc] at h'; cases h'; exact ⟨rfl, x, hx, hn⟩
  · rw [hc] at h'; cases h'

/-- Two linked actors, graceful stop. -/
def notifyDemo : List Op :=
  [.run, .link 7, .startEnd .ok, .link 8, .sendStop, .pollBegin, .recv, .recv]

example : (after none notifyDemo).phase = .stopping .normal [7, 8] true ∧
    (after none (notifyDemo ++ [.stopEnd .ok, .notifyEnd 8, .notifyEnd 7, .finish])).phase =
      .stopped .normal := by decide

/-- **C23 is false** for an actor whose `on_start` fails: it returns without notifying its links. -/
theorem failed_start_notifies_nobody :
    let ops := [Op.link 7, .run, .startEnd (.err 1), .panicEnd (defaultOnPanic 1), .stopEnd .ok]
    (after none ops).phase = .stopped (.panicked 1) ∧ (after none ops).links = [7] ∧
    ∀ ops', notifications (after none (ops ++ ops')).log = [] := by
  intro ops
  refine ⟨by decide, by decide, fun ops' => ?_⟩
  obtain ⟨_, _, _, x, hx, hn⟩ := nothing_happens_after_shutdown none ops ops' (by decide)
  have h0 : notifications (after none ops).log = [] := by decide
  rw [hx, show notifications ((after none ops).log ++ x) =
    notifications (after none ops).log ++ notifications x from List.filterMap_append .., h0]
  simp only [notifications, List.nil_append]
  apply List.filterMap_eq_nil_iff.mpr
  intro e he
  have := (hn e he).2.2
  cases e <;> simp at this ⊢

/-! ### C30 -/

theorem results_tr {s s' : St} (h : Start s) (ht : Tr s s') :
    (s.startupErr ≠ none → s'.startupErr = s.startupErr) ∧
    (s.shutdownErr ≠ none → s'.shutdownErr = s.shutdownErr) := by
  have h1 : s.phase = .starting → s.startupErr = none := fun hp => h.unborn (by simp [hp])
  have h2 : (∀ r, s.phase ≠ .stopped r) → s.shutdownErr = none := by
    intro hp
    cases hc : s.shutdownErr with
    | none => rfl
    | some x => obtain ⟨r, o, hr, _⟩ := h.shut x hc; exact (hp r hr).elim
  cases ht with
  | startOk hp =>
    refine ⟨fun hn => (hn (h1 hp)).elim, fun hn => ?_⟩
    exact (hn (h2 (by simp [hp]))).elim
  | startFail o e hp ho =>
    refine ⟨fun hn => (hn (h1 hp)).elim, fun hn => ?_⟩
    exact (hn (h2 (by simp [hp]))).elim
  | stopFinish r p o res hp ho => exact ⟨fun _ => by simp, fun hn => (hn (h2 (by simp [hp]))).elim⟩
  | finish r res hp => exact ⟨fun _ => by simp, fun hn => (hn (h2 (by simp [hp]))).elim⟩
  | _ => simp [St.step, St.crash, St.abortSeen, St.stopFailed]

theorem exec_start_inv {P : St → Prop} (hP : ∀ s s', Start s → P s → Tr s s' → P s') {s : St}
    (hs : Shape s) (h : Start s) (h0 : P s) (ops : List Op) : P (s.exec ops) := by
  induction ops generalizing s with
  | nil => exact h0
  | cons op ops ih =>
    exact ih (shape_tr hs (step_tr s op)) (start_tr hs h (step_tr s op)) (hP _ _ h h0 (step_tr s op))

/-- **C30** The published start-up and shut-down results never change once they are there. -/
theorem results_set_once (cap : Option Nat) (ops ops' : List Op) :
    (∀ x, (after cap ops).startupErr = some x → (after cap (ops ++ ops')).startupErr = some x) ∧
    (∀ x, (after cap ops).shutdownErr = some x → (after cap (ops ++ ops')).shutdownErr = some x) := by
  rw [after_append]
  have hs := shape_after cap ops
  have h := start_after cap ops
  generalize after cap ops = s at *
  refine ⟨fun x hx => ?_, fun x hx => ?_⟩
  · refine exec_start_inv (P := fun s' => s'.startupErr = some x) ?_ hs h hx ops'
    intro a b ha hp ht
    rw [(results_tr ha ht).1 (by simp [hp])]; exact hp
  · refine exec_start_inv (P := fun s' => s'.shutdownErr = some x) ?_ hs h hx ops'
    intro a b ha hp ht
    rw [(results_tr ha ht).2 (by simp [hp])]; exact hp

example : (after (some 4) demo).startupErr = some none ∧
    (after none (stopDemo ++ [.stopEnd (.err 4), .finish])).shutdownErr = some (some 4) := by decide

/-- The error of a hook outcome (specification). -/
def hookError : UOut → Option Err
  | .ok => none
  | .err e => some e
  | .panic e => some e

/-- **C30** The published results are the true outcomes of `on_start` and `on_stop`: the start-up
result is there exactly when `on_start` has completed, and equals its outcome; the shut-down result
equals the outcome of `on_stop` and is there whenever the actor's task has returned. -/
theorem results_true (cap : Option Nat) (ops : List Op) :
    (∀ x, (after cap ops).startupErr = some x ↔ ∃ o, .startEnd o ∈ (after cap ops).log ∧ hookError o = x) ∧
    (∀ x, (after cap ops).shutdownErr = some x → ∃ r o, .sEnd r o ∈ (after cap ops).log ∧
      hookError o = x ∧ (after cap ops).phase = .stopped r) ∧
    (∀ r, (after cap ops).phase = .stopped r → (after cap ops).shutdownErr ≠ none) := by
  have h := start_after cap ops
  have hr : ∀ o, resOf o = hookError o := by intro o; cases o <;> rfl
  generalize after cap ops = s at *
  refine ⟨fun x => ⟨fun hx => ?_, ?_⟩, fun x hx => ?_, fun r hp => (h.stopped r hp).1⟩
  · obtain ⟨_, h1, o, ho⟩ := h.res x hx
    exact ⟨o, ho, (hr o).symm.trans (h1 o ho)⟩
  · rintro ⟨o, ho, rfl⟩
    cases hc : s.startupErr with
    | none => exact ((h.noRes hc).2.2.1 o ho).elim
    | some y => rw [← (h.res y hc).2.1 o ho, hr]
  · obtain ⟨r, o, h1, h2, h3⟩ := h.shut x hx
    exact ⟨r, o, h2, (hr o).symm.trans h3, h1⟩

/-- Each result, and its outcome. -/
example : (after none [.run, .startEnd (.err 3)]).startupErr = some (some 3) ∧
    (after none (stopDemo ++ [.stopEnd (.err 4), .finish])).shutdownErr = some (some 4) ∧
    .sEnd .normal (.err 4) ∈ (after none (stopDemo ++ [.stopEnd (.err 4), .finish])).log := by decide

/-! ### C31 -/

/-- **C31** While the actor has not ended, a reference can always be obtained (upgrade succeeds), it
is never stopped for lack of references, and after its end a weak reference can be upgraded only
while a strong one is left. -/
theorem never_stopped_for_lack_of_references (cap : Option Nat) (ops : List Op) :
    .noRefs ∉ (after cap ops).log ∧
    ((after cap ops).mb.closed = false →
      (after cap (ops ++ [.cloneRef])).ext = (after cap ops).ext + 1) ∧
    ((after cap ops).mb.closed = true →
      ((after cap (ops ++ [.cloneRef])).ext = (after cap ops).ext + 1 ↔ 0 < (after cap ops).ext)) := by
  have hsh := shape_after cap ops
  refine ⟨(facts_after cap ops).nr, fun hc => ?_, fun hc => ?_⟩
  · rw [after_snoc]
    have : (after cap ops).own = true := by rw [hsh.own, ← hsh.closed, hc]; rfl
    simp [St.step, this]
  · rw [after_snoc]
    have : (after cap ops).own = false := by rw [hsh.own, ← hsh.closed, hc]; rfl
    simp only [St.step, this]
    by_cases h0 : 0 < (after cap ops).ext <;> simp [h0]

example : (after (some 4) demo).mb.closed = false ∧
    (after none (stopDemo ++ [.stopEnd .ok, .finish])).mb.closed = true := by decide

/-- The steps by which the actor is reached from outside: something is put into its mailbox, it is killed, or its task is
dropped. (Specification.) -/
def Op.reaches : Op → Bool
  | .send _ | .trySend _ | .poll _ | .sendStop | .sendLinkDied .. | .kill | .teardown => true
  | _ => false

theorem idle_step {s : St} (hi : s.phase = .idle) (hq : s.mb.queue = []) (hk : s.aborted = false) (hown : s.own = true)
    (op : Op) (h : op.reaches = false) :
    (s.step op).phase = .idle ∧ (s.step op).mb.queue = [] ∧ (s.step op).aborted = false ∧ (s.step op).own = true := by
  have hns : s.noSenders = false := by simp [St.noSenders, hown]
  have hcan : ∀ t, (s.mb.cancel t).queue = [] := by
    intro t
    unfold Mb.cancel
    (repeat' split) <;> simp [hq, Mb.release]
    all_goals (repeat' split) <;> simp [hq]
  cases op with
  | recv =>
    have : s.step .recv = s := by simp only [St.step, hi, St.recvStep, hq, hns]; simp
    rw [this]; exact ⟨hi, hq, hk, hown⟩
  | cancel t => simp only [St.step]; exact ⟨hi, hcan t, hk, hown⟩
  | delegSend t r => simp only [St.step]; split <;> (try simp only [St.reply, St.ev]) <;> (try split) <;> simp [hi, hq, hk, hown]
  | _ =>
    first
      | (simp [Op.reaches] at h; done)
      | (simp only [St.step, hi, Phase.inLoop, hk] <;> (repeat' split) <;> simp_all)

/-- **C31 is false**: when the last reference outside the actor is dropped and the mailbox is empty, the actor never ends by
itself: it waits in its loop for ever, because its task itself holds a strong mailbox sender. It goes on waiting whatever
happens, unless somebody still reaches it, with a message or a signal or by killing it, or its task is dropped. -/
theorem unreferenced_actor_never_stops (cap : Option Nat) (ops ops' : List Op)
    (hi : (after cap ops).phase = .idle) (hq : (after cap ops).mb.queue = [])
    (hk : (after cap ops).aborted = false)
    (hops : ∀ op ∈ ops', op.reaches = false) :
    (after cap (ops ++ ops')).phase = .idle := by
  rw [after_append]
  have hsh := shape_after cap ops
  have hown : (after cap ops).own = true := by rw [hsh.own, hi]; rfl
  generalize after cap ops = s at *
  clear hsh
  induction ops' generalizing s with
  | nil => exact hi
  | cons op l ih =>
    obtain ⟨h1, h2, h3, h4⟩ := idle_step hi hq hk hown op (hops op (by simp))
    exact ih (fun o ho => hops o (by simp [ho])) _ h1 h2 h3 h4

example : (after none [.run, .startEnd .ok, .pollBegin, .recv, .dropRef]).phase = .idle ∧
    (after none [.run, .startEnd .ok, .pollBegin, .recv, .dropRef]).mb.queue = [] ∧
    (after none [.run, .startEnd .ok, .pollBegin, .recv, .dropRef]).ext = 0 ∧
    ([.pollEnd, .cloneRef, .link 3, .dropRef, .pollBegin, .recv] : List Op).all (fun op => !op.reaches) = true := by decide

/-! ### C54 -/

theorem crashed_step (s : St) (op : Op) (h : (s.step op).phase = .crashed) :
    s.phase = .crashed ∨ op = .teardown ∨ (∃ e, op = .panicEnd (.panic e)) ∨
    ∃ e, op = .stopEnd (.panic e) := by
  have hdr : ∀ (s : St) (rest : List Msg) (ts : Bool), (s.drain rest ts).phase ≠ .crashed := by
    intro s rest ts
    cases rest with
    | cons m ms => simp [St.drain]
    | nil => cases ts <;> simp [St.drain]
  have hon : ∀ (a : St) (x : Reason), (a.onShutdown x).phase ≠ .crashed := by
    intro a x; cases x <;> simp [St.onShutdown]
  cases op with
  | teardown => simp
  | startEnd o =>
    left
    simp only [St.step] at h
    split at h
    · cases o with
      | ok => simp only [St.startEnd] at h; rw [(startOk_fields s).2.1] at h; cases h
      | _ => simp [St.startEnd, St.startFail] at h
    · exact h
  | recv =>
    left
    simp only [St.step] at h
    split at h <;> (try split at h) <;> (try exact h)
    simp only [St.recvStep, St.onSignal] at h
    repeat' split at h
    all_goals first
      | exact (hdr _ _ _ h).elim
      | simp_all
  | handlerEnd o =>
    left
    simp only [St.step] at h
    split at h <;> (try split at h) <;> (try exact h)
    simp only [St.handlerEnd] at h
    repeat' split at h
    all_goals first
      | exact (hdr _ _ _ h).elim
      | exact (hon _ _ h).elim
  | linkEnd o =>
    left
    simp only [St.step] at h
    split at h <;> (try split at h) <;> (try exact h)
    simp only [St.linkEnd] at h
    repeat' split at h
    all_goals first
      | exact (hon _ _ h).elim
      | simp_all
  | panicEnd o =>
    cases o with
    | panic e => simp
    | _ =>
      left
      simp only [St.step, St.panicEnd, St.startPanicEnd, St.stopFailed] at h
      repeat' split at h
      all_goals first
        | exact h
        | simp at h
  | stopEnd o =>
    cases o with
    | panic e => simp
    | _ =>
      left
      simp only [St.step, St.stopEnd, St.stopDone] at h
      repeat' split at h
      all_goals first
        | exact h
        | simp at h
  | pollBegin =>
    left
    simp only [St.step] at h
    repeat' split at h
    all_goals first
      | exact h
      | simp [St.abortSeen] at h
  | pollEnd =>
    left
    simp only [St.step] at h
    repeat' split at h
    all_goals first
      | exact h
      | simp [St.abortSeen] at h
  | _ =>
    left
    simp only [St.step] at h
    repeat' split at h
    all_goals first
      | exact h
      | simpa using h

/-- **C54**, part: as long as neither `on_panic` nor `on_stop` itself panics (and nothing outside tears
the task down), the actor's task never dies: panics of handlers, of `on_start` and of `on_link_died`
are all caught. -/
theorem other_panics_contained_partial (cap : Option Nat) (ops : List Op)
    (h : ∀ op ∈ ops, op ≠ .teardown ∧ (∀ e, op ≠ .panicEnd (.panic e)) ∧ ∀ e, op ≠ .stopEnd (.panic e)) :
    (after cap ops).phase ≠ .crashed := by
  revert h
  refine after_induct cap (P := fun ops s => (∀ op ∈ ops, op ≠ .teardown ∧
    (∀ e, op ≠ .panicEnd (.panic e)) ∧ ∀ e, op ≠ .stopEnd (.panic e)) → s.phase ≠ .crashed) ?_ ?_ ops
  · intro _; simp [after, St.exec, St.fresh]
  · intro ops op ih h hc
    have h1 := h op (by simp)
    rcases crashed_step _ _ hc with hc | hc | ⟨e, hc⟩ | ⟨e, hc⟩
    · exact ih (fun o ho => h o (by simp [ho])) hc
    · exact h1.1 hc
    · exact h1.2.1 e hc
    · exact h1.2.2 e hc

example : (after none panicDemo).log = [.startBegin, .startEnd .ok, .hBegin (1, tell 10),
    .hEnd (1, tell 10) false (.panic 1), .pBegin 1] := by decide

/-- A linked actor whose handler panics, and whose `on_panic` then panics too. -/
def panicTwice : List Op := panicDemo ++ [.link 7, .panicEnd (.panic 2)]
/-- A linked actor whose `on_stop` panics. -/
def panicInStop : List Op := notifyDemo ++ [.stopEnd (.panic 2)]

/-- **C54 is false**: if `on_panic` panics, `on_stop` is never run, linked actors are never notified
and no shut-down result is ever published. -/
theorem panic_in_on_panic_escapes (ops' : List Op) :
    (after none (panicTwice ++ ops')).phase = .crashed ∧
    (∀ r, .sBegin r ∉ (after none (panicTwice ++ ops')).log) ∧
    notifications (after none (panicTwice ++ ops')).log = [] ∧
    (after none (panicTwice ++ ops')).shutdownErr = none ∧
    (after none panicTwice).links = [7] := by
  obtain ⟨_, hp, _, x, hx, hn⟩ := nothing_happens_after_shutdown none panicTwice ops' (by decide)
  have hc : (after none panicTwice).phase = .crashed := by decide
  rw [hc] at hp
  refine ⟨hp, ?_, ?_, ?_, by decide⟩
  · intro r hr
    rw [hx] at hr
    simp only [List.mem_append] at hr
    rcases hr with hr | hr
    · have : ∀ e ∈ (after none panicTwice).log, (match e with | .sBegin _ => false | _ => true) = true := by
        decide
      simpa using this _ hr
    · have := (hn _ hr).1; simp [Ev.isBegin] at this
  · have h0 : notifications (after none panicTwice).log = [] := by decide
    rw [hx, show notifications ((after none panicTwice).log ++ x) =
      notifications (after none panicTwice).log ++ notifications x from List.filterMap_append .., h0]
    simp only [notifications, List.nil_append]
    apply List.filterMap_eq_nil_iff.mpr
    intro e he
    have := (hn e he).2.2
    cases e <;> simp at this ⊢
  · cases hs : (after none (panicTwice ++ ops')).shutdownErr with
    | none => rfl
    | some y =>
      obtain ⟨r, _, _, _, hr⟩ := (results_true none (panicTwice ++ ops')).2.1 y hs
      rw [hp] at hr; cases hr

example : (after none (panicTwice ++ [.finish, .notifyEnd 7])).phase = .crashed := by decide

/-- **C54 is false**: if `on_stop` panics, the actors linked to it have been taken out of its link
set but are never notified, and no shut-down result is ever published. -/
theorem panic_in_on_stop_escapes (ops' : List Op) :
    (after none notifyDemo).phase = .stopping .normal [7, 8] true ∧
    (after none (panicInStop ++ ops')).phase = .crashed ∧
    notifications (after none (panicInStop ++ ops')).log = [] ∧
    (after none (panicInStop ++ ops')).shutdownErr = none := by
  obtain ⟨_, hp, _, x, hx, hn⟩ := nothing_happens_after_shutdown none panicInStop ops' (by decide)
  have hc : (after none panicInStop).phase = .crashed := by decide
  rw [hc] at hp
  refine ⟨by decide, hp, ?_, ?_⟩
  · have h0 : notifications (after none panicInStop).log = [] := by decide
    rw [hx, show notifications ((after none panicInStop).log ++ x) =
      notifications (after none panicInStop).log ++ notifications x from List.filterMap_append .., h0]
    simp only [notifications, List.nil_append]
    apply List.filterMap_eq_nil_iff.mpr
    intro e he
    have := (hn e he).2.2
    cases e <;> simp at this ⊢
  · cases hs : (after none (panicInStop ++ ops')).shutdownErr with
    | none => rfl
    | some y =>
      obtain ⟨r, _, _, _, hr⟩ := (results_true none (panicInStop ++ ops')).2.1 y hs
      rw [hp] at hr; cases hr

example : (after none (panicInStop ++ [.notifyEnd 7, .finish])).phase = .crashed := by decide

end Verif.Lifecycle
