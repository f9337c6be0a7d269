import Verif.Lifecycle.PropsResult
import Verif.Lifecycle.Turn

/-!
Exactly when, not only that: for the claims about one actor which the code does not keep (C05, C06, C08, C13, C23,
C28), what is lost or hangs in every history of the kind, rather than in one history.
-/

set_option linter.unusedSimpArgs false

namespace Verif.Lifecycle

open Verif.Mailbox

/-! ### C28 -/

/-- **C28** The exact moment: `wait_for_startup` returns iff `on_start` has failed or the actor has taken its start-up
signal out of the mailbox. The end of a successful `on_start` alone is not enough. -/
theorem startup_wait_iff (cap : Option Nat) (ops : List Op) :
    (after cap ops).permits = 1 ↔
      (∃ e, .startEnd (.err e) ∈ (after cap ops).log ∨ .startEnd (.panic e) ∈ (after cap ops).log) ∨
      ∃ t, (t, Sig.startup) ∈ (after cap ops).mb.received := by
  have hs := start_after cap ops
  constructor
  · intro h
    obtain ⟨o, ho⟩ := startup_wait_not_early cap ops (by omega)
    cases o with
    | ok => exact .inr ((startup_wait_returns_partial cap ops ho).1.mp h)
    | err e => exact .inl ⟨e, .inl ho⟩
    | panic e => exact .inl ⟨e, .inr ho⟩
  · rintro (⟨e, h⟩ | ⟨t, h⟩)
    · exact startup_wait_returns_on_failure_partial cap ops e h
    · cases hc : (after cap ops).startupErr with
      | none => rw [(hs.noRes hc).2.2.2] at h; simp at h
      | some x =>
        cases x with
        | some e => rw [(hs.fail e hc).2] at h; simp at h
        | none =>
          obtain ⟨o, ho⟩ := (hs.res _ hc).2.2
          have hr := (hs.res _ hc).2.1 o ho
          cases o with
          | ok => exact (startup_wait_returns_partial cap ops ho).1.mpr ⟨t, h⟩
          | err e => simp [resOf] at hr
          | panic e => simp [resOf] at hr

example : (after (some 4) demo).permits = 1 ∧ (1, Sig.startup) ∉ (after (some 4) demo).mb.received ∧
    (2, Sig.startup) ∈ (after (some 4) demo).mb.received ∧
    (after none [.run, .startEnd (.panic 3)]).permits = 1 := by decide

theorem after_startOk {cap : Option Nat} {pre : List Op} (h : (after cap pre).phase = .starting) (post : List Op) :
    after cap (pre ++ .startEnd .ok :: post) = ((after cap pre).startOk).exec post := by
  rw [after_append]
  simp [St.exec, St.step, h, St.startEnd]

/-- **C28 is false** for every actor whose mailbox is full at the end of `on_start`, whatever its capacity and its
history: `on_start` has succeeded and `wait_for_startup` never returns. -/
theorem full_start_hangs (cap : Option Nat) (pre post : List Op) (h : (after cap pre).phase = .starting)
    (hfull : (after cap pre).mb.hasRoom = false) :
    .startEnd .ok ∈ (after cap (pre ++ .startEnd .ok :: post)).log ∧
    (after cap (pre ++ .startEnd .ok :: post)).permits = 0 := by
  have hcl : (after cap pre).mb.closed = false := by
    have := (shape_after cap pre).closed; rw [this, h]; rfl
  have h1 : after cap (pre ++ [.startEnd .ok]) = (after cap pre).startOk := by
    rw [after_startOk h]; rfl
  have hlog : .startEnd .ok ∈ (after cap (pre ++ [.startEnd .ok])).log := by
    rw [h1]; unfold St.startOk; simp only; split <;> simp [St.finishStartup]
  have hf : ∃ t w, (t, Sig.startup, w) ∈ (after cap (pre ++ [.startEnd .ok])).mb.failed := by
    refine ⟨(after cap pre).mb.next, .full, ?_⟩
    rw [h1, (startOk_fields _).1]
    simp [Mb.trySend, hcl, hfull]
  have heq : pre ++ .startEnd .ok :: post = (pre ++ [.startEnd .ok]) ++ post := by simp
  rw [heq]
  refine ⟨?_, startup_wait_hangs cap _ post hlog (.inl hf)⟩
  rw [after_append]
  obtain ⟨x, hx⟩ := exec_log (after cap (pre ++ [.startEnd .ok])) post
  rw [hx]; simp [hlog]

example : (after (some 2) [.send (tell 1), .run, .send (self 2)]).phase = .starting ∧
    (after (some 2) [.send (tell 1), .run, .send (self 2)]).mb.hasRoom = false := by decide

/-- **C28 is false** for every actor that is killed while `on_start` is running: `on_start` runs to its end, and
`wait_for_startup` never returns. -/
theorem killed_start_hangs (cap : Option Nat) (pre post : List Op) (h : (after cap pre).phase = .starting)
    (hk : (after cap pre).aborted = true) :
    .startEnd .ok ∈ (after cap (pre ++ .startEnd .ok :: post)).log ∧
    (after cap (pre ++ .startEnd .ok :: post)).permits = 0 := by
  have h1 : after cap (pre ++ [.startEnd .ok]) = (after cap pre).startOk := by
    rw [after_startOk h]; rfl
  have hlog0 : .startEnd .ok ∈ (after cap pre).startOk.log := by
    unfold St.startOk; simp only; split <;> simp [St.finishStartup]
  have hlog : .startEnd .ok ∈ (after cap (pre ++ .startEnd .ok :: post)).log := by
    rw [after_startOk h]
    obtain ⟨x, hx⟩ := exec_log (after cap pre).startOk post
    rw [hx]; simp [hlog0]
  refine ⟨hlog, ?_⟩
  have hone := permits_le_one cap (pre ++ .startEnd .ok :: post)
  suffices hne : (after cap (pre ++ .startEnd .ok :: post)).permits ≠ 1 by omega
  rw [Ne, (startup_wait_returns_partial cap _ hlog).1, after_startOk h]
  have hg : Good (after cap pre).startOk := good_tr (good_after cap pre) (.startOk h)
  have hrec : (after cap pre).mb.received = [] :=
    ((shape_after cap pre).early (by simp [h])).1
  have hinit : (after cap pre).startOk.mb.received = [] ∧
      ((after cap pre).startOk.phase.out ∨ ((after cap pre).startOk.phase = .idle ∧
        (after cap pre).startOk.polling = false ∧ (after cap pre).startOk.aborted = true)) := by
    refine ⟨by rw [(startOk_fields2 _).2.2.2.2]; simpa using hrec, .inr ?_⟩
    unfold St.startOk; simp only; split <;> simp [St.finishStartup, hk]
  have := exec_good_inv (P := fun s => s.mb.received = [] ∧
      (s.phase.out ∨ (s.phase = .idle ∧ s.polling = false ∧ s.aborted = true))) ?_ hg hinit post
  · rw [this.1]; simp
  · rintro s s' hg ⟨hr, ho | ⟨hp, hpo, hab⟩⟩ ht
    · obtain ⟨h1, _, h3⟩ := out_tr ho ht
      exact ⟨by rw [h3, hr], .inl h1⟩
    · cases ht with
      | abort => exact ⟨by simpa [St.abortSeen] using hr, .inl (by simp [St.abortSeen, Phase.out])⟩
      | teardown => exact ⟨by simpa using hr, .inl (by simp [Phase.out])⟩
      | polling hp' hab' p => simp_all
      | _ => simp_all [St.step]

example : (after (some 4) [.run, .send (self 2), .kill]).phase = .starting ∧
    (after (some 4) [.run, .send (self 2), .kill]).aborted = true := by decide

/-! ### C05 -/

/-- **C05 is false** whenever the mailbox is full at the end of `on_start`: from then on the actor handles all messages
in the order in which the mailbox accepted them, so what it sent to itself has no precedence. -/
theorem full_start_no_precedence (cap : Option Nat) (pre post : List Op) (h : (after cap pre).phase = .starting)
    (hfull : (after cap pre).mb.hasRoom = false) :
    (after cap (pre ++ .startEnd .ok :: post)).handled.Sublist
      (msgsOf (after cap (pre ++ .startEnd .ok :: post)).mb.pushed) := by
  have hcl : (after cap pre).mb.closed = false := by
    have := (shape_after cap pre).closed; rw [this, h]; rfl
  have h1 : after cap (pre ++ [.startEnd .ok]) = (after cap pre).startOk := by
    rw [after_startOk h]; rfl
  have he := (shape_after cap pre).early (by simp [h])
  have hf : (after cap (pre ++ [.startEnd .ok])).finished = true := by
    rw [h1]; simp [St.startOk, hcl, hfull, St.finishStartup]
  have hp : (after cap (pre ++ [.startEnd .ok])).phase = .idle := by
    rw [h1]; exact (startOk_fields2 _).2.2.2.1
  obtain ⟨later, acc, e1, e2, e3⟩ := no_reordering_after_startup cap _ post hf hp
  have heq : pre ++ .startEnd .ok :: post = (pre ++ [.startEnd .ok]) ++ post := by simp
  rw [heq, e1, e2]
  have hh : (after cap (pre ++ [.startEnd .ok])).handled = [] := by
    rw [h1, (startOk_fields _).2.2.1]; exact he.2.2.1
  have hr : (after cap (pre ++ [.startEnd .ok])).mb.received = [] := by
    rw [h1, (startOk_fields2 _).2.2.2.2]; simpa using he.1
  rw [hh, hr]
  simpa using e3

/-- The tickets of accepted messages are distinct. -/
theorem pushed_nodup (cap : Option Nat) (ops : List Op) : (K (msgsOf (after cap ops).mb.pushed)).Nodup := by
  have h := (shape_after cap ops).mb.part_nodup
  simp only [List.map_append, List.nodup_append] at h
  exact (msgsOf_keys _).nodup h.1.1.1

/-- **C05 is false** in every such case: if the mailbox is full at the end of `on_start` and a message `o` from outside
was accepted before the message `w` the actor sent to itself, then `o`'s handler runs first whenever both are handled. -/
theorem full_start_overtakes (cap : Option Nat) (pre post : List Op) (w o : Msg) (a b : List (Nat × Sig))
    (h : (after cap pre).phase = .starting) (hfull : (after cap pre).mb.hasRoom = false)
    (hacc : (after cap pre).mb.pushed = a ++ (w.1, .msg w.2) :: b) (ho : (o.1, Sig.msg o.2) ∈ a)
    (hh : o ∈ (after cap (pre ++ .startEnd .ok :: post)).handled) :
    ∃ h1 h2, (after cap (pre ++ .startEnd .ok :: post)).handled = h1 ++ h2 ∧ o ∈ h1 ∧ w ∉ h1 := by
  have hsub := full_start_no_precedence cap pre post h hfull
  have hnd := pushed_nodup cap (pre ++ .startEnd .ok :: post)
  have hpp : a ++ (w.1, .msg w.2) :: b <+: (after cap (pre ++ .startEnd .ok :: post)).mb.pushed := by
    rw [after_append, ← hacc]; exact exec_pushed _ _
  obtain ⟨z, hz⟩ := hpp
  generalize after cap (pre ++ .startEnd .ok :: post) = s at *
  rw [← hz] at hsub hnd
  have hspl : msgsOf (a ++ (w.1, Sig.msg w.2) :: b ++ z) = msgsOf a ++ (w :: (msgsOf b ++ msgsOf z)) := by
    have : a ++ (w.1, Sig.msg w.2) :: b ++ z = a ++ ([(w.1, Sig.msg w.2)] ++ (b ++ z)) := by simp
    rw [this]
    simp only [msgsOf_append, msgsOf_msg]
    rfl
  rw [hspl] at hsub hnd
  rw [List.sublist_append_iff] at hsub
  obtain ⟨h1, h2, e1, e2, e3⟩ := hsub
  rw [K_append, List.nodup_append] at hnd
  have hoa : o ∈ msgsOf a := mem_msgsOf.mpr ho
  refine ⟨h1, h2, e1, ?_, ?_⟩
  · rw [e1, List.mem_append] at hh
    rcases hh with hh | hh
    · exact hh
    · exact (hnd.2.2 o.1 (List.mem_map_of_mem hoa) o.1 (List.mem_map_of_mem (e3.subset hh)) rfl).elim
  · intro hw
    exact hnd.2.2 w.1 (List.mem_map_of_mem (e2.subset hw)) w.1 (by simp [K]) rfl

example :
    let pre := [Op.send (tell 10), .run, .send (self 11)]
    let post := [Op.pollBegin, .recv, .handlerEnd (.ret (.ok 0)), .recv]
    (after (some 2) pre).phase = .starting ∧ (after (some 2) pre).mb.hasRoom = false ∧
    (after (some 2) pre).mb.pushed = [(0, .msg (tell 10))] ++ (1, .msg (self 11)) :: [] ∧
    (0, tell 10) ∈ (after (some 2) (pre ++ .startEnd .ok :: post)).handled ∧
    (1, self 11) ∈ (after (some 2) (pre ++ .startEnd .ok :: post)).handled := by decide

/-! ### C06, C08, C13 -/

/-- A dropped message is never handled, before or after. -/
theorem dropped_not_handled (cap : Option Nat) (ops : List Op) (m : Msg) (hl : m ∈ (after cap ops).lost) :
    m ∉ (after cap ops).handled := by
  intro hh
  have hg' := good_after cap ops
  generalize after cap ops = s at *
  have h3 := hg'.shape.mb.part_nodup
  rw [hg'.shape.mb.hist] at h3
  have h4 : (K (s.handled ++ s.phase.rest ++ s.buffer ++ s.lost)).Nodup := by
    have hpm : (K (msgsOf s.mb.received)).Perm (K (s.handled ++ s.phase.rest ++ s.buffer ++ s.lost)) := hg'.acct.map _
    apply hpm.nodup_iff.mp
    apply (msgsOf_keys _).nodup
    simp only [List.map_append, List.nodup_append] at h3
    exact h3.1.1.1.1.1
  simp only [K_append, List.nodup_append, List.mem_append] at h4
  exact h4.2.2 m.1 (.inl (.inl (List.mem_map_of_mem hh))) m.1 (List.mem_map_of_mem hl) rfl

/-- How a handler's failure reaches the actor: with which error. -/
def errOf : HOut → Err
  | .panic e => e
  | .ret (.err e) => e
  | .ret (.ok v) => v

theorem handlerEnd_failing {s : St} {m : Msg} {tk : Bool} {rest : List Msg} {ts : Bool} {o : HOut}
    (ho : failing m tk o = true) :
    (s.handlerEnd m tk rest ts o).phase = .panicking (errOf o) ∧
    (s.handlerEnd m tk rest ts o).lost = s.lost ++ rest ∧ (s.handlerEnd m tk rest ts o).mb = s.mb ∧
    (∀ t ∈ rest.map (·.1), s.slots t = .waiting → (s.handlerEnd m tk rest ts o).slots t = .failed .actorStopped) ∧
    (s.handlerEnd m tk rest ts o).polling = s.polling := by
  cases o with
  | panic e =>
    simp [St.handlerEnd, St.onShutdown, errOf, St.lose, St.dropReplies, St.ev]
    grind
  | ret r =>
    cases r with
    | ok v => simp [failing] at ho
    | err e =>
      have : (m.2.ask && !tk) = false := by
        revert ho; simp only [failing]; cases m.2.ask <;> cases tk <;> simp
      simp only [St.handlerEnd, this]
      simp [St.onShutdown, errOf, St.lose, St.dropReplies, St.ev]
      grind

/-- **C06** and **C13** are false whenever a handler fails while the start-up buffer is being emptied: whatever `on_panic`
decides and whatever happens later, none of the messages behind it in the buffer is ever handled, and everyone
waiting for a reply to one of them gets `ActorStopped`, also if the actor goes on running. -/
theorem failure_in_drain_loses_rest (cap : Option Nat) (ops ops' : List Op) (m : Msg) (tk : Bool) (rest : List Msg)
    (ts : Bool) (o : HOut) (hp : (after cap ops).phase = .handling m tk rest ts)
    (hpo : (after cap ops).polling = true) (ho : failing m tk o = true) (x : Msg) (hx : x ∈ rest) :
    x ∉ (after cap (ops ++ .handlerEnd o :: ops')).handled ∧ x ∈ (after cap (ops ++ .handlerEnd o :: ops')).lost ∧
    (x.1, Sig.msg x.2) ∈ (after cap ops).mb.received ∧
    ((after cap ops).slots x.1 = .waiting →
      (after cap (ops ++ .handlerEnd o :: ops')).slots x.1 = .failed .actorStopped) := by
  have heq : after cap (ops ++ .handlerEnd o :: ops') = ((after cap ops).handlerEnd m tk rest ts o).exec ops' := by
    rw [after_append]; simp [St.exec, St.step, hp, hpo]
  have h1 : after cap (ops ++ [.handlerEnd o]) = (after cap ops).handlerEnd m tk rest ts o := by
    rw [after_snoc]; simp [St.step, hp, hpo]
  obtain ⟨_, hl, _, hsl, _⟩ := handlerEnd_failing (s := after cap ops) (rest := rest) (ts := ts) ho
  have hlost : x ∈ (after cap (ops ++ .handlerEnd o :: ops')).lost := by
    rw [heq]
    refine exec_inv (P := fun s => x ∈ s.lost) (fun s s' h ht => (tr_lost ht).subset h) ?_ ops'
    rw [hl]; simp [hx]
  refine ⟨dropped_not_handled cap _ x hlost, hlost, ?_, fun hw => ?_⟩
  · apply mem_msgsOf.mp
    have ha := (good_after cap ops).acct
    rw [hp] at ha
    exact ha.mem_iff.mpr (by simp [hx])
  · have h2 := hsl x.1 (List.mem_map_of_mem hx) hw
    rw [heq, ← h2]
    exact slot_settled (h1 ▸ good_after cap _) rfl (by simp [h2]) (by simp [h2]) ops'

/-- Two messages from outside are put aside while the actor starts; it takes its start-up signal. -/
def drainDemo : List Op :=
  [.send (tell 10), .send (ask 11), .run, .startEnd .ok, .pollBegin, .recv, .recv, .recv]

example : (after none drainDemo).phase = .handling (0, tell 10) false [(1, ask 11)] false ∧
    (after none drainDemo).polling = true ∧ failing (0, tell 10) false (.ret (.err 4)) = true ∧
    (after none drainDemo).slots 1 = .waiting ∧
    (after none (drainDemo ++ [.handlerEnd (.ret (.err 4)), .panicEnd .cont])).phase = .idle ∧
    (after none (drainDemo ++ [.handlerEnd (.ret (.err 4)), .panicEnd .cont])).slots 1 = .failed .actorStopped := by
  decide

/-- **C08 is false** whenever a handler fails while the start-up buffer is emptied because of a stop request and
`on_panic` says `Continue`: the actor waits for signals again, and its mailbox holds exactly what was behind the
request it took. -/
theorem stop_forgotten_on_continue (cap : Option Nat) (ops : List Op) (m : Msg) (tk : Bool) (rest : List Msg) (o : HOut)
    (hp : (after cap ops).phase = .handling m tk rest true) (hpo : (after cap ops).polling = true)
    (ho : failing m tk o = true) :
    (∃ earlier t, (after cap ops).mb.received = earlier ++ [(t, .stop)]) ∧
    (after cap (ops ++ [.handlerEnd o, .panicEnd .cont])).phase = .idle ∧
    (after cap (ops ++ [.handlerEnd o, .panicEnd .cont])).mb = (after cap ops).mb := by
  obtain ⟨h1, _, h3, _, h5⟩ := handlerEnd_failing (s := after cap ops) (rest := rest) (ts := true) ho
  have heq : after cap (ops ++ [.handlerEnd o, .panicEnd .cont]) =
      ((after cap ops).handlerEnd m tk rest true o).step (.panicEnd .cont) := by
    rw [after_append]; simp [St.exec, St.step, hp, hpo]
  refine ⟨?_, ?_, ?_⟩
  · rcases (loss_after cap ops).last (.inl (by simp [hp])) with h | h
    · exact h
    · exact (brkNormal_out cap ops (by simp [hp]) h).elim
  · rw [heq]; simp [St.step, h1, h5, hpo, St.panicEnd]
  · rw [heq]; simp [St.step, h1, h5, hpo, St.panicEnd, h3]

example : (after none stopEarly).phase = .handling (0, tell 10) false [] true ∧
    (after none stopEarly).polling = true ∧ failing (0, tell 10) false (.panic 1) = true := by decide

/-! ### C23 and C54 -/

@[simp] theorem notifications_append (a b : List Ev) :
    notifications (a ++ b) = notifications a ++ notifications b := List.filterMap_append ..

theorem notifications_nil : notifications [] = [] := rfl

theorem notifications_cons (e : Ev) (l : List Ev) (h : ∀ id r, e ≠ .notified id r) :
    notifications (e :: l) = notifications l := by
  unfold notifications
  rw [List.filterMap_cons]
  cases e <;> simp at h ⊢

theorem notifications_drainEv (rest : List Msg) (ts : Bool) : notifications (drainEv rest ts) = [] := by
  cases rest <;> cases ts <;> rfl

theorem notifications_cancelEv (p : Phase) : notifications p.cancelEv = [] := by cases p <;> rfl

/-- Only an actor whose `on_start` has succeeded notifies anybody. -/
theorem notifications_started {s s' : St} (hs : Start s) (h : s.startupErr ≠ some none → notifications s.log = [])
    (ht : Tr s s') : s'.startupErr ≠ some none → notifications s'.log = [] := by
  intro hn
  cases ht with
  | startOk hp =>
    exfalso; apply hn
    unfold St.startOk; simp only; split <;> rfl
  | startFail o e hp _ =>
    have := h (by rw [hs.unborn (by simp [hp])]; simp)
    simp [St.startFail, this, notifications_cons, notifications_nil]
  | notify i r p x hp => exact (hn (hs.nott _ _ _ hp)).elim
  | _ =>
    simp [St.step, St.crash, St.abortSeen, St.stopFailed, notifications_drainEv, notifications_cancelEv,
      notifications_cons, notifications_nil] at hn ⊢
    exact h hn

/-- **C23 is false** for every actor whose `on_start` fails, whatever it is linked to and whatever happens later: it
notifies nobody. -/
theorem failed_start_never_notifies (cap : Option Nat) (ops : List Op) (e : Err)
    (h : .startEnd (.err e) ∈ (after cap ops).log ∨ .startEnd (.panic e) ∈ (after cap ops).log) :
    notifications (after cap ops).log = [] := by
  have key : (after cap ops).startupErr ≠ some none → notifications (after cap ops).log = [] := by
    have : Start (after cap ops) ∧
        ((after cap ops).startupErr ≠ some none → notifications (after cap ops).log = []) := by
      refine after_induct cap (P := fun _ s => Start s ∧ (s.startupErr ≠ some none → notifications s.log = []))
        ⟨start_after cap [], by simp [after, St.exec, St.fresh, notifications_nil]⟩ ?_ ops
      rintro ops op ⟨h1, h2⟩
      exact ⟨by rw [← after_snoc]; exact start_after cap _, notifications_started h1 h2 (step_tr _ op)⟩
    exact this.2
  apply key
  intro hc
  have hr := ((start_after cap ops).res _ hc).2.1
  rcases h with h | h
  · have := hr _ h; simp [resOf] at this
  · have := hr _ h; simp [resOf] at this

example : .startEnd (.err 1) ∈ (after none [.link 7, .link 8, .run, .startEnd (.err 1), .panicEnd .cont, .stopEnd .ok]).log ∧
    (after none [.link 7, .link 8, .run, .startEnd (.err 1), .panicEnd .cont, .stopEnd .ok]).phase =
      .stopped (.panicked 1) := by decide

/-- A torn down actor does nothing any more: no hook starts, nobody is notified, no result is published. -/
theorem crashed_is_silent (cap : Option Nat) (ops ops' : List Op) (h : (after cap ops).phase = .crashed) :
    (after cap (ops ++ ops')).phase = .crashed ∧
    (∀ e, e.isBegin = true → e ∈ (after cap (ops ++ ops')).log → e ∈ (after cap ops).log) ∧
    notifications (after cap (ops ++ ops')).log = notifications (after cap ops).log ∧
    (after cap (ops ++ ops')).shutdownErr = none := by
  obtain ⟨_, hp, _, x, hx, hn⟩ := nothing_happens_after_shutdown cap ops ops' (by
    rw [(shape_after cap ops).closed, h]; rfl)
  rw [h] at hp
  refine ⟨hp, ?_, ?_, ?_⟩
  · intro e he hm
    rw [hx, List.mem_append] at hm
    rcases hm with hm | hm
    · exact hm
    · have := (hn _ hm).1; simp [he] at this
  · rw [hx, notifications_append]
    have : notifications x = [] := by
      apply List.filterMap_eq_nil_iff.mpr
      intro e he
      have := (hn e he).2.2
      cases e <;> simp at this ⊢
    rw [this, List.append_nil]
  · cases hs : (after cap (ops ++ ops')).shutdownErr with
    | none => rfl
    | some y =>
      obtain ⟨r, _, _, _, hr⟩ := (results_true cap (ops ++ ops')).2.1 y hs
      rw [hp] at hr; cases hr

/-- Notifications are sent only when `on_stop` is over. -/
theorem notified_late {l : Life} {log : List Ev} (h : Life.notStarted.run log = some l)
    (hl : ∀ r, l ≠ .done r ∧ l ≠ .returned r) : notifications log = [] := by
  apply List.filterMap_eq_nil_iff.mpr
  intro e he
  cases e with
  | notified id r =>
    exfalso
    obtain ⟨a, b, rfl⟩ := List.append_of_mem he
    obtain ⟨l1, _, h2⟩ := Life.run_split h
    obtain ⟨l2, h3, h4⟩ := Life.run_cons h2
    have h5 := (run_inv (P := fun l => (∃ r, l = .done r) ∨ ∃ r, l = .returned r) (Q := fun _ => True)
      (by cases h3; simp) (by
        intro l e l' hl ht
        cases ht <;> simp_all) h4).1
    rcases h5 with ⟨r, h5⟩ | ⟨r, h5⟩
    · exact (hl r).1 h5
    · exact (hl r).2 h5
  | _ => rfl

/-- **C54 is false** for every actor whose `on_panic` panics, in its loop or after a failed `on_start`: its task is torn
down, `on_stop` never runs, no linked actor is ever notified, and no shut-down result is ever published. -/
theorem on_panic_panic_silences (cap : Option Nat) (ops ops' : List Op) (e x : Err)
    (hp : ((after cap ops).phase = .panicking e ∧ (after cap ops).polling = true) ∨
      (after cap ops).phase = .startPanicking e) :
    (after cap (ops ++ .panicEnd (.panic x) :: ops')).phase = .crashed ∧
    (∀ r, .sBegin r ∉ (after cap (ops ++ .panicEnd (.panic x) :: ops')).log) ∧
    notifications (after cap (ops ++ .panicEnd (.panic x) :: ops')).log = [] ∧
    (after cap (ops ++ .panicEnd (.panic x) :: ops')).shutdownErr = none := by
  have heq : ops ++ .panicEnd (.panic x) :: ops' = (ops ++ [.panicEnd (.panic x)]) ++ ops' := by simp
  have h1 : (after cap (ops ++ [.panicEnd (.panic x)])).phase = .crashed ∧
      (after cap (ops ++ [.panicEnd (.panic x)])).log = (after cap ops).log ++ [.pEnd e (.panic x)] := by
    rw [after_snoc]
    rcases hp with ⟨hp, hpo⟩ | hp
    · simp [St.step, hp, hpo, St.panicEnd]
    · simp [St.step, hp, St.startPanicEnd]
  obtain ⟨c1, c2, c3, c4⟩ := crashed_is_silent cap _ ops' h1.1
  have hsb : ∀ r, .sBegin r ∉ (after cap ops).log := (loss_after cap ops).sb (by
    rcases hp with ⟨hp, _⟩ | hp
    · exact .inl (by simp [hp])
    · exact .inr (.inr ⟨e, hp⟩))
  rw [heq]
  refine ⟨c1, ?_, ?_, c4⟩
  · intro r hm
    have := c2 _ rfl hm
    rw [h1.2] at this
    simp at this
    exact hsb r this
  · rw [c3, h1.2]
    simp only [notifications_append]
    obtain ⟨l, h, hm⟩ := logOk_after cap ops
    rw [notified_late h]
    · rfl
    · intro r
      rcases hp with ⟨hp, _⟩ | hp
      · rw [hp] at hm; simp only [matchLife] at hm; subst hm; simp
      · rw [hp] at hm; simp only [matchLife] at hm; subst hm; simp

example : ((after none (panicDemo ++ [.link 7])).phase = .panicking 1 ∧
      (after none (panicDemo ++ [.link 7])).polling = true ∧ (after none (panicDemo ++ [.link 7])).links = [7]) ∧
    (after none [.link 7, .run, .startEnd (.err 1)]).phase = .startPanicking 1 := by decide

/-- **C54 is false** for every actor whose `on_stop` panics: the actors that were linked to it have been taken out of
its link set and none of them is ever notified, and no shut-down result is ever published. -/
theorem on_stop_panic_silences (cap : Option Nat) (ops ops' : List Op) (r : Reason) (pend : List Id) (st : Bool)
    (x : Err) (hp : (after cap ops).phase = .stopping r pend st) :
    (after cap (ops ++ .stopEnd (.panic x) :: ops')).phase = .crashed ∧
    notifications (after cap (ops ++ .stopEnd (.panic x) :: ops')).log = [] ∧
    (after cap (ops ++ .stopEnd (.panic x) :: ops')).shutdownErr = none := by
  have heq : ops ++ .stopEnd (.panic x) :: ops' = (ops ++ [.stopEnd (.panic x)]) ++ ops' := by simp
  have h1 : (after cap (ops ++ [.stopEnd (.panic x)])).phase = .crashed ∧
      (after cap (ops ++ [.stopEnd (.panic x)])).log = (after cap ops).log ++ [.sEnd r (.panic x)] := by
    rw [after_snoc]; simp [St.step, hp, St.stopEnd]
  obtain ⟨c1, c2, c3, c4⟩ := crashed_is_silent cap _ ops' h1.1
  rw [heq]
  refine ⟨c1, ?_, c4⟩
  rw [c3, h1.2]
  simp only [notifications_append]
  obtain ⟨l, h, hm⟩ := logOk_after cap ops
  rw [notified_late h]
  · rfl
  · intro r
    rw [hp] at hm; simp only [matchLife] at hm; subst hm; simp

example : (after none notifyDemo).phase = .stopping .normal [7, 8] true := by decide

end Verif.Lifecycle
