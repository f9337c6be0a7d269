import Verif.Plain.Forward

/-! Every life of `Verif.Next` with the default `next` is one of `Verif.Lifecycle`. -/

set_option linter.unusedSimpArgs false
set_option linter.unusedVariables false

namespace Verif.Plain

open Verif.Mailbox
open Verif.Lifecycle (Good Start)

variable {cap : Option Nat} {s s' : Lifecycle.St} {n n' : Next.St}

/-- Nobody waits for room in the mailbox and nobody is linked. -/
structure Wide (s : Lifecycle.St) : Prop where
  granted : s.mb.granted = []
  waiting : s.mb.waiting = []
  links : s.links = []

/-- There is nobody to notify at the end. -/
structure Rest (s : Lifecycle.St) : Prop where
  wide : Wide s
  pend : ∀ r p st, s.phase = .stopping r p st → p = []
  ran : s.phase ≠ .prepared
  sent : ∀ r p res, s.phase ≠ .notifying r p res

/-- And the loop is being polled. -/
structure Ready (s : Lifecycle.St) : Prop where
  wide : Wide s
  poll : s.phase.inLoop = true → s.polling = true
  pend : ∀ r p st, s.phase = .stopping r p st → p = []
  ran : s.phase ≠ .prepared
  sent : ∀ r p res, s.phase ≠ .notifying r p res

theorem Ready.rest (h : Ready s) : Rest s := ⟨h.wide, h.pend, h.ran, h.sent⟩

theorem wide_ev (h : Wide s) (e : Lifecycle.Ev) : Wide (s.ev e) := ⟨h.granted, h.waiting, h.links⟩
theorem wide_lose (h : Wide s) (l : List Lifecycle.Msg) : Wide (s.lose l) := ⟨h.granted, h.waiting, h.links⟩
theorem wide_drop (h : Wide s) (l : List Nat) : Wide (s.dropReplies l) := ⟨h.granted, h.waiting, h.links⟩
theorem wide_reply (h : Wide s) (t : Nat) (r : Lifecycle.Res) : Wide (s.reply t r) := by
  rw [reply_eq]; exact ⟨h.granted, h.waiting, h.links⟩
theorem wide_finishStartup (h : Wide s) : Wide s.finishStartup := ⟨h.granted, h.waiting, h.links⟩

theorem recv_wide (h : Wide s) : Wide { s with mb := s.mb.recv } := by
  have h2 := h.waiting
  unfold Mb.recv
  split
  · exact h
  · refine ⟨?_, ?_, h.links⟩ <;> simp [Mb.release, h.waiting, h.granted]

theorem trySend_wide (h : Wide s) (a : Lifecycle.Sig) :
    (s.mb.trySend a).granted = [] ∧ (s.mb.trySend a).waiting = [] := by
  unfold Mb.trySend
  simp only
  split
  · exact ⟨h.granted, h.waiting⟩
  · split <;> exact ⟨h.granted, h.waiting⟩

theorem rest_leave (h : Wide s) (r : Lifecycle.Reason) : Ready (s.leave r) := by
  refine ⟨⟨h.granted, h.waiting, rfl⟩, ?_, ?_, ?_, ?_⟩ <;>
    simp [Lifecycle.St.leave, Lifecycle.St.lose, Lifecycle.Phase.inLoop, h.links]

theorem rest_onShutdown (h : Wide s) (hp : s.polling = true) (r : Lifecycle.Reason) :
    Ready (s.onShutdown r) := by
  unfold Lifecycle.St.onShutdown
  split
  · refine ⟨⟨h.granted, h.waiting, h.links⟩, fun _ => hp, ?_, ?_, ?_⟩ <;> simp
  · exact rest_leave h _

theorem rest_drain (h : Wide s) (hp : s.polling = true) (rest : List Lifecycle.Msg) (ts : Bool) :
    Ready (s.drain rest ts) := by
  unfold Lifecycle.St.drain
  split
  · refine ⟨⟨h.granted, h.waiting, h.links⟩, fun _ => hp, ?_, ?_, ?_⟩ <;> simp [Lifecycle.St.beginHandle]
  · split
    · exact rest_onShutdown h hp _
    · refine ⟨⟨h.granted, h.waiting, h.links⟩, fun _ => hp, ?_, ?_, ?_⟩ <;> simp

theorem rest_die (h : Wide s) : Ready s.die := by
  refine ⟨⟨rfl, rfl, h.links⟩, ?_, ?_, ?_, ?_⟩ <;> simp [Lifecycle.St.die, Lifecycle.Phase.inLoop]

theorem rest_finishAll (h : Wide s) (r : Lifecycle.Reason) (x : Option Lifecycle.Err) :
    Ready (s.finishAll r x) := by
  refine ⟨⟨rfl, rfl, h.links⟩, ?_, ?_, ?_, ?_⟩ <;> simp [Lifecycle.St.finishAll, Lifecycle.Phase.inLoop]

theorem rest_stopFailed (h : Wide s) (r : Lifecycle.Reason) :
    Ready (s.stopFailed r) := by
  refine ⟨⟨h.granted, h.waiting, h.links⟩, ?_, ?_, ?_, ?_⟩ <;> simp [Lifecycle.St.stopFailed, Lifecycle.Phase.inLoop]

theorem wide_cancelRunning (h : Wide s) : Wide s.cancelRunning := by
  unfold Lifecycle.St.cancelRunning
  split <;> exact ⟨h.granted, h.waiting, h.links⟩

theorem rest_recv (h : Wide s) (hp : s.polling = true) (hi : s.phase = .idle) :
    Ready s.recvStep := by
  unfold Lifecycle.St.recvStep
  split
  · split
    · exact rest_drain (wide_ev (wide_finishStartup h) _) hp _ _
    · refine ⟨h, fun _ => hp, ?_, ?_, ?_⟩ <;> simp [hi]
  · have hw := recv_wide h
    unfold Lifecycle.St.onSignal
    split
    · exact rest_drain (s := { ({ s with mb := s.mb.recv } : Lifecycle.St).finishStartup with permits := s.permits + 1 })
        ⟨hw.granted, hw.waiting, hw.links⟩ hp _ _
    · split
      · refine ⟨⟨hw.granted, hw.waiting, hw.links⟩, fun _ => hp, ?_, ?_, ?_⟩ <;> simp [hi]
      · refine ⟨⟨hw.granted, hw.waiting, hw.links⟩, fun _ => hp, ?_, ?_, ?_⟩ <;> simp [Lifecycle.St.beginHandle]
    · refine ⟨⟨hw.granted, hw.waiting, hw.links⟩, fun _ => hp, ?_, ?_, ?_⟩ <;> simp
    · exact rest_drain (wide_ev (wide_finishStartup hw) _) hp _ _

theorem rest_handlerEnd (h : Wide s) (hp : s.polling = true) (m : Lifecycle.Msg) (taken : Bool)
    (rest : List Lifecycle.Msg) (ts : Bool) (o : Lifecycle.HOut) :
    Ready (s.handlerEnd m taken rest ts o) := by
  unfold Lifecycle.St.handlerEnd
  split
  · split
    · exact rest_drain (wide_ev (wide_reply h _ _) _) (by rw [reply_eq]; exact hp) _ _
    · split
      · exact rest_drain (wide_ev h _) hp _ _
      · exact rest_onShutdown (wide_lose (wide_ev h _) _) hp _
  · exact rest_onShutdown (wide_lose (wide_ev (wide_drop h _) _) _) hp _

theorem rest_linkEnd (h : Wide s) (hp : s.polling = true) (id : Lifecycle.Id) (r : Lifecycle.Reason) (o : Lifecycle.FOut) :
    Ready (s.linkEnd id r o) := by
  have hw : Wide { s with links := s.links.filter (· != id), log := s.log ++ [Lifecycle.Ev.lEnd id r o] } :=
    ⟨h.granted, h.waiting, by simp [h.links]⟩
  unfold Lifecycle.St.linkEnd
  simp only
  split
  · refine ⟨⟨hw.granted, hw.waiting, hw.links⟩, fun _ => hp, ?_, ?_, ?_⟩ <;> simp
  · exact rest_onShutdown hw hp _
  · exact rest_onShutdown hw hp _
  · exact rest_onShutdown hw hp _

theorem rest_panicEnd (h : Wide s) (hp : s.polling = true) (e : Lifecycle.Err) (o : Lifecycle.FOut) :
    Ready (s.panicEnd e o) := by
  unfold Lifecycle.St.panicEnd
  simp only
  split
  · refine ⟨⟨h.granted, h.waiting, h.links⟩, fun _ => hp, ?_, ?_, ?_⟩ <;> simp
  · exact rest_leave (wide_ev h _) _
  · exact rest_leave (wide_ev h _) _
  · exact rest_die (wide_ev h _)

theorem rest_startPanicEnd (h : Wide s) (e : Lifecycle.Err) (o : Lifecycle.FOut) :
    Ready (s.startPanicEnd e o) := by
  unfold Lifecycle.St.startPanicEnd
  simp only
  split
  · exact rest_stopFailed (wide_ev h _) _
  · exact rest_stopFailed (wide_ev h _) _
  · exact rest_stopFailed (wide_ev h _) _
  · exact rest_die (wide_ev h _)

/-- Both actors, in step. -/
structure Back (cap : Option Nat) (s : Lifecycle.St) (n : Next.St) : Prop where
  all : All cap s
  sim : Sim s n
  rest : Rest s
  poll : s.phase.inLoop = true → s.polling = true ∨ n.phase = .doomed

/-- `Verif.Lifecycle` can follow. -/
def Follows (cap : Option Nat) (s : Lifecycle.St) (n' : Next.St) : Prop := ∃ l, Back cap (s.exec l) n'

theorem follows_nil (hb : Back cap s n) (h : n' = n) : Follows cap s n' := ⟨[], h ▸ hb⟩

theorem follows_one (hb : Back cap s n) (op : Lifecycle.Op) (hs : Sim (s.step op) n') (hr : Rest (s.step op))
    (hp : (s.step op).phase.inLoop = true → (s.step op).polling = true ∨ n'.phase = .doomed) : Follows cap s n' :=
  ⟨[op], all_step hb.all op, hs, hr, hp⟩

theorem follows_to (hb : Back cap s n) (op : Lifecycle.Op) (he : s.step op = s') (hs : Sim s' n') (hr : Ready s') :
    Follows cap s n' :=
  follows_one hb op (he ▸ hs) (he ▸ hr.rest) (by rw [he]; exact fun x => .inl (hr.poll x))

theorem follows_two (hb : Back cap s n) (op op' : Lifecycle.Op) (he : (s.step op).step op' = s') (hs : Sim s' n')
    (hr : Ready s') : Follows cap s n' := by
  have h : s.exec [op, op'] = s' := he
  refine ⟨[op, op'], ?_⟩
  rw [h]
  exact ⟨he ▸ all_step (all_step hb.all op) op', hs, hr.rest, fun x => .inl (hr.poll x)⟩

theorem push_phase (n : Next.St) (b : Next.Body) (a : Bool) : (n.push b a).phase = n.phase := by
  unfold Next.St.push; split <;> rfl

theorem push_aborted (n : Next.St) (b : Next.Body) (a : Bool) : (n.push b a).aborted = n.aborted := by
  unfold Next.St.push; split <;> rfl

theorem room_of (hb : Back cap s n) : s.mb.hasRoom = room cap n := by
  have h2 := congrArg List.length hb.sim.queue
  simp only [List.length_map] at h2
  unfold Mb.hasRoom room
  rw [hb.all.cap_]
  cases cap with
  | none => rfl
  | some c => simp [hb.rest.wide.granted, h2]

theorem back_push (hb : Back cap s n) (op : Lifecycle.Op) (a : Lifecycle.Sig) (hcl : s.mb.closed = false)
    (hrm : room cap n = true) (hm : (s.step op).mb = s.mb.send a)
    (h1 : (s.step op).phase = s.phase) (h2 : (s.step op).finished = s.finished) (h3 : (s.step op).buffer = s.buffer)
    (h4 : (s.step op).aborted = s.aborted) (h5 : (s.step op).permits = s.permits) (h6 : (s.step op).handled = s.handled)
    (h7 : (s.step op).log = s.log) (h8 : (s.step op).links = s.links) (h9 : (s.step op).polling = s.polling)
    (h11 : (s.step op).delegated = s.delegated)
    (h10 : ∀ t, t < s.mb.next → (s.step op).slots t = s.slots t)
    (h12 : ∀ b, a = .msg b → b.ask = true → (s.step op).slots s.mb.next = .waiting) :
    Follows cap s (run n [.send (bodyOf a) (askOf a)]) := by
  have hinv := hb.all.good.shape.mb
  have hmb : (s.step op).mb = { s.mb.bump a with
      queue := s.mb.queue ++ [(s.mb.next, a)], pushed := s.mb.pushed ++ [(s.mb.next, a)] } := by
    rw [hm]; simp [Mb.send, hcl, room_of hb, hrm, Mb.push, Mb.bump]
  refine follows_one hb op ?_ ?_ ?_
  · refine sim_push_wait hb.sim (s.mb.next, a) (by rw [hmb]) (by rw [hmb]) (by rw [hmb]; rfl) hcl h1 h2 h3 h4 h5 h6
      (by rw [h7]) h11 h9 h12 ?_
    intro t ht
    apply h10
    obtain ⟨p, hp, rfl⟩ := List.mem_map.mp ht
    exact hinv.sent_lt _ (hinv.mem_sent (by simp [hp]))
  · exact ⟨⟨by rw [hmb]; exact hb.rest.wide.granted, by rw [hmb]; exact hb.rest.wide.waiting,
      h8.trans hb.rest.wide.links⟩, by rw [h1]; exact hb.rest.pend, by rw [h1]; exact hb.rest.ran,
      by rw [h1]; exact hb.rest.sent⟩
  · rw [h1, h9]
    have : (run n [.send (bodyOf a) (askOf a)]).phase = n.phase := by
      simp [run, Next.St.step, push_phase]
    rw [this]; exact hb.poll

theorem back_send (hb : Back cap s n) (b : Next.Body) (ask : Bool) (h : b ≠ .startup)
    (hf : fits cap n (.send b ask) = true) : Follows cap s (run n [.send b ask]) := by
  cases hcl : s.mb.closed with
  | true =>
    refine follows_nil hb ?_
    simp [run, Next.St.step, Next.St.push, hb.sim.closed.trans hcl]
  | false =>
    have hn : n.closed = false := hb.sim.closed.trans hcl
    have hrm : room cap n = true := by simpa [fits, hn] using hf
    cases b with
    | startup => exact absurd rfl h
    | msg w =>
      refine back_push hb (.send ⟨0, ask, w⟩) (.msg ⟨0, ask, w⟩) hcl hrm rfl rfl rfl rfl rfl rfl rfl rfl rfl rfl rfl ?_ ?_
      · intro t ht
        simp only [Lifecycle.St.step]
        split
        · simp only [Lifecycle.setSlot]; rw [if_neg (by omega)]
        · rfl
      · intro b hb ha
        simp only [Lifecycle.Sig.msg.injEq] at hb
        subst hb
        have ha : ask = true := ha
        simp [Lifecycle.St.step, Lifecycle.setSlot, hcl, ha]
    | linkDied =>
      have := back_push hb (.sendLinkDied 0 .normal) (.linkDied 0 .normal) hcl hrm rfl rfl rfl rfl rfl rfl rfl rfl rfl rfl rfl
        (fun _ _ => rfl) (by simp)
      have he : run n [.send .linkDied ask] = run n [.send .linkDied false] := by
        simp [run, Next.St.step, Next.St.push, Next.Body.isMsg]
      rw [he]; exact this
    | stop =>
      have := back_push hb .sendStop .stop hcl hrm rfl rfl rfl rfl rfl rfl rfl rfl rfl rfl rfl (fun _ _ => rfl) (by simp)
      have he : run n [.send .stop ask] = run n [.send .stop false] := by
        simp [run, Next.St.step, Next.St.push, Next.Body.isMsg]
      rw [he]; exact this

/-- Where `Verif.Next` is, from where `Verif.Lifecycle` is. -/
theorem next_phase (hb : Back cap s n) : AtP s n s.phase := hb.sim.at_

theorem back_start (hb : Back cap s n) (r : Next.Res) (full : Bool) (hf : fits cap n (.startEnd r full) = true) :
    Follows cap s (run n [.startEnd r full]) := by
  by_cases hp : s.phase = .starting
  · have h3 : n.phase = .starting := at_of hb.sim hp
    have hfull : full = !s.mb.hasRoom := by
      rw [room_of hb]; simpa [fits, h3] using hf
    subst hfull
    have hw := trySend_wide hb.rest.wide .startup
    have hfail : ∀ o e, Ready (s.startFail o e) := by
      intro o e
      refine ⟨⟨hw.1, hw.2, hb.rest.wide.links⟩, ?_, ?_, ?_, ?_⟩ <;>
        simp [Lifecycle.St.startFail, Lifecycle.Phase.inLoop]
    cases r with
    | ok =>
      have h1 := sim_startOk hb.all.good hb.sim hp
      obtain ⟨f1, f2, -⟩ := Lifecycle.startOk_fields s
      have fl : s.startOk.links = s.links := by
        unfold Lifecycle.St.startOk; simp only; split <;> rfl
      have fa : s.startOk.aborted = s.aborted := by
        unfold Lifecycle.St.startOk; simp only; split <;> rfl
      have fp : s.startOk.polling = false := by
        unfold Lifecycle.St.startOk; simp only; split <;> rfl
      have hst : s.step (.startEnd .ok) = s.startOk := by simp [Lifecycle.St.step, hp, Lifecycle.St.startEnd]
      have hwide : Wide s.startOk := ⟨by rw [f1]; exact hw.1, by rw [f1]; exact hw.2, fl.trans hb.rest.wide.links⟩
      by_cases ha : s.aborted = true
      · refine follows_one hb (.startEnd .ok) (hst ▸ h1) ?_ ?_
        · rw [hst]
          exact ⟨hwide, by simp [f2], by simp [f2], by simp [f2]⟩
        · intro _
          right
          have hna : n.aborted = true := hb.sim.aborted.trans ha
          cases s.mb.hasRoom <;>
            simp [run, Next.St.step, Next.St.startEnd, h3, Next.St.enter, hna, push_aborted]
      · have ha : s.aborted = false := by simpa using ha
        refine follows_two hb (.startEnd .ok) .pollBegin (s' := { s.startOk with polling := true }) ?_ ?_ ?_
        · rw [hst]; simp [Lifecycle.St.step, f2, Lifecycle.Phase.inLoop, fa, ha, fp]
        · exact sim_polling h1 (fa.trans ha) true
        · refine ⟨⟨hwide.granted, hwide.waiting, hwide.links⟩, fun _ => rfl, ?_, ?_, ?_⟩ <;> simp [f2]
    | err =>
      refine follows_to hb (.startEnd (.err 0)) (s' := s.startFail (.err 0) 0) ?_ ?_ (hfail _ _)
      · simp [Lifecycle.St.step, hp, Lifecycle.St.startEnd]
      · exact sim_startFail hb.all.good hb.sim _ _ hp (.inl rfl) (by simp)
    | panic =>
      refine follows_to hb (.startEnd (.panic 0)) (s' := s.startFail (.panic 0) 0) ?_ ?_ (hfail _ _)
      · simp [Lifecycle.St.step, hp, Lifecycle.St.startEnd]
      · exact sim_startFail hb.all.good hb.sim _ _ hp (.inr rfl) (by simp)
  · refine follows_nil hb ?_
    have h := next_phase hb
    have h1 := hb.rest.ran
    cases he : s.phase <;> rw [he] at h <;> simp only [AtP] at h <;>
      first
        | exact absurd he h1
        | exact absurd he hp
        | (simp [run, Next.St.step, Next.St.startEnd, h]; done)
        | (rcases h with h | ⟨h, -⟩ <;> simp [run, Next.St.step, Next.St.startEnd, h]; done)
        | (obtain ⟨it, l, h, -⟩ := h; simp [run, Next.St.step, Next.St.startEnd, h])

theorem run_take_empty (h1 : n.queue = []) (h2 : n.held = []) : run n [.take 1, .ret 0] = n := by
  cases n
  simp only at h1 h2
  subst h1 h2
  simp only [run, List.foldl, Next.St.step, Next.St.take]
  split <;> simp [Next.St.ret]

theorem back_recv (hb : Back cap s n) : Follows cap s (run n [.take 1, .ret 0]) := by
  by_cases hd : n.phase = .doomed
  · exact follows_nil hb (by simp [run, Next.St.step, Next.St.take, Next.St.ret, hd])
  by_cases hp : s.phase = .idle
  · have hpo : s.polling = true := (hb.poll (by rw [hp]; rfl)).resolve_right hd
    have hr := rest_recv hb.rest.wide hpo hp
    have hst : s.step .recv = s.recvStep := by simp [Lifecycle.St.step, hp, hpo]
    have hg := hb.all.good
    have hs := hb.all.start
    cases hq : s.mb.queue with
    | nil =>
      refine follows_nil hb (run_take_empty ?_ hb.sim.held)
      have := hb.sim.queue
      rw [hq] at this
      simpa [Same] using this
    | cons x q =>
      obtain ⟨t, sig⟩ := x
      have he : s.recvStep = ({ s with mb := s.mb.recv } : Lifecycle.St).onSignal t sig := by
        simp [Lifecycle.St.recvStep, hq]
      refine follows_to hb .recv hst ?_ hr
      rw [he]
      cases sig with
      | startup => exact sim_recvStartup hg hs hb.sim hp hpo t q hq
      | msg b =>
        simp only [Lifecycle.St.onSignal]
        split
        · next hw =>
          simp only [Bool.and_eq_true, Bool.not_eq_true'] at hw
          exact sim_recvBuffer hg hs hb.sim hp hpo t b q hq hw.1 hw.2
        · next hw =>
          refine sim_recvMsg hg hs hb.sim hp hpo t b q hq ?_
          revert hw
          cases b.within <;> cases s.finished <;> simp
      | linkDied id r => exact sim_recvLink hg hs hb.sim hp hpo t id r q hq
      | stop => exact sim_recvStop hg hs hb.sim hp hpo t q hq
  · refine follows_nil hb ?_
    have h := next_phase hb
    have h1 := hb.rest.ran
    cases he : s.phase <;> rw [he] at h <;> simp only [AtP] at h <;>
      first
        | exact absurd he h1
        | exact absurd he hp
        | (simp [run, Next.St.step, Next.St.take, Next.St.ret, h]; done)
        | (obtain ⟨it, l, h, -⟩ := h; simp [run, Next.St.step, Next.St.take, Next.St.ret, h])

theorem back_handle (hb : Back cap s n) (r : Next.Res) : Follows cap s (run n [.handleEnd r]) := by
  have h := next_phase hb
  have hg := hb.all.good
  cases he : s.phase with
  | handling m taken rest ts =>
    rw [he] at h
    obtain ⟨it, l, h3, h4, h5, h6⟩ := h
    have hpo : s.polling = true := (hb.poll (by rw [he]; rfl)).resolve_right (by rw [h3]; simp)
    have hrest := fun o => rest_handlerEnd hb.rest.wide hpo m taken rest ts o
    have hstep : ∀ o, s.step (.handlerEnd o) = s.handlerEnd m taken rest ts o := by
      intro o; simp [Lifecycle.St.step, he, hpo]
    cases ha : m.2.ask && !taken with
    | true =>
      have ha' := ha
      simp only [Bool.and_eq_true, Bool.not_eq_true'] at ha'
      obtain ⟨hask, rfl⟩ := ha'
      cases r with
      | ok =>
        refine follows_to hb (.handlerEnd (.ret (.ok 0))) (hstep _) ?_ (hrest _)
        simp only [Lifecycle.St.handlerEnd, ha, if_true]
        exact sim_handlerReply hg hb.sim m rest ts (.ok 0) he hask
      | err =>
        refine follows_to hb (.handlerEnd (.ret (.err 0))) (hstep _) ?_ (hrest _)
        simp only [Lifecycle.St.handlerEnd, ha, if_true]
        exact sim_handlerReply hg hb.sim m rest ts (.err 0) he hask
      | panic =>
        refine follows_to hb (.handlerEnd (.panic 0)) (hstep _) ?_ (hrest _)
        exact sim_handlerPanic hg hb.sim m false rest ts 0 he
    | false =>
      have ha' : m.2.ask = false ∨ taken = true := by
        revert ha; cases m.2.ask <;> cases taken <;> simp
      cases r with
      | ok =>
        refine follows_to hb (.handlerEnd (.ret (.ok 0))) (hstep _) ?_ (hrest _)
        simp only [Lifecycle.St.handlerEnd, ha, if_false, Bool.false_eq_true]
        exact sim_handlerOk hg hb.sim m taken rest ts 0 he ha'
      | err =>
        refine follows_to hb (.handlerEnd (.ret (.err 0))) (hstep _) ?_ (hrest _)
        simp only [Lifecycle.St.handlerEnd, ha, if_false, Bool.false_eq_true]
        exact sim_handlerErr hg hb.sim m taken rest ts 0 he ha'
      | panic =>
        refine follows_to hb (.handlerEnd (.panic 0)) (hstep _) ?_ (hrest _)
        exact sim_handlerPanic hg hb.sim m taken rest ts 0 he
  | prepared => exact absurd he hb.rest.ran
  | idle =>
    rw [he] at h
    refine follows_nil hb ?_
    rcases h with h | ⟨h, -⟩ <;> simp [run, Next.St.step, Next.St.handleEnd, h]
  | _ =>
    rw [he] at h
    simp only [AtP] at h
    exact follows_nil hb (by simp [run, Next.St.step, Next.St.handleEnd, h])

/-- A reason of the one model in the other. `src/error.rs` L628-645. -/
def reasonTo : Next.Reason → Lifecycle.Reason
  | .normal => .normal
  | .killed => .killed
  | .panicked => .panicked 0
  | .linkDied => .linkDied 0 .normal

theorem reasonOf_to (r : Next.Reason) : reasonOf (reasonTo r) = r := by cases r <;> rfl

theorem back_link (hb : Back cap s n) (f : Next.Flow) : Follows cap s (run n [.linkEnd f]) := by
  have h := next_phase hb
  have hg := hb.all.good
  have hs := hb.all.start
  cases he : s.phase with
  | linkDying id r =>
    rw [he] at h
    have h3 : n.phase = .link := h
    have hpo : s.polling = true := (hb.poll (by rw [he]; rfl)).resolve_right (by rw [h3]; simp)
    have hrest := fun o => rest_linkEnd hb.rest.wide hpo id r o
    have hstep : ∀ o, s.step (.linkEnd o) = s.linkEnd id r o := by
      intro o; simp [Lifecycle.St.step, he, hpo]
    have hpanic : ∀ o e, (o = .brk (.panicked e) ∨ o = .err e ∨ o = .panic e) →
        Sim (s.linkEnd id r o) (run n [.linkEnd .panic]) := by
      intro o e ho
      have := sim_linkPanic hg hs hb.sim id r o e he hpo ho
      rcases ho with rfl | rfl | rfl <;> simpa [Lifecycle.St.linkEnd, Lifecycle.St.onShutdown] using this
    cases f with
    | cont =>
      refine follows_to hb (.linkEnd .cont) (hstep _) ?_ (hrest _)
      exact sim_linkCont hg hs hb.sim id r he hpo
    | brk q =>
      by_cases hq : q = .panicked
      · subst hq
        have e : run n [.linkEnd (.brk .panicked)] = run n [.linkEnd .panic] := by
          simp [run, Next.St.step, Next.St.linkEnd, h3, Next.Flow.linkHow]
        rw [e]
        exact follows_to hb (.linkEnd (.brk (.panicked 0))) (hstep _) (hpanic _ 0 (.inl rfl)) (hrest _)
      · have hr : ∀ e, reasonTo q ≠ .panicked e := by cases q <;> simp_all [reasonTo]
        refine follows_to hb (.linkEnd (.brk (reasonTo q))) (hstep _) ?_ (hrest _)
        have := sim_linkStop hg hs hb.sim id r (reasonTo q) he hpo hr
        rw [reasonOf_to] at this
        cases q with
        | panicked => exact absurd rfl hq
        | _ => exact this
    | err =>
      have e : run n [.linkEnd .err] = run n [.linkEnd .panic] := by
        simp [run, Next.St.step, Next.St.linkEnd, h3, Next.Flow.linkHow]
      rw [e]
      exact follows_to hb (.linkEnd (.err 0)) (hstep _) (hpanic _ 0 (.inr (.inl rfl))) (hrest _)
    | panic => exact follows_to hb (.linkEnd (.panic 0)) (hstep _) (hpanic _ 0 (.inr (.inr rfl))) (hrest _)
  | prepared => exact absurd he hb.rest.ran
  | handling m taken rest ts =>
    rw [he] at h
    obtain ⟨it, l, h, -⟩ := h
    exact follows_nil hb (by simp [run, Next.St.step, Next.St.linkEnd, h])
  | idle =>
    rw [he] at h
    refine follows_nil hb ?_
    rcases h with h | ⟨h, -⟩ <;> simp [run, Next.St.step, Next.St.linkEnd, h]
  | _ =>
    rw [he] at h
    simp only [AtP] at h
    exact follows_nil hb (by simp [run, Next.St.step, Next.St.linkEnd, h])

theorem back_panic (hb : Back cap s n) (f : Next.Flow) : Follows cap s (run n [.panicEnd f]) := by
  have h := next_phase hb
  have hg := hb.all.good
  have hs := hb.all.start
  cases he : s.phase with
  | panicking e =>
    rw [he] at h
    have h3 : n.phase = .onPanic false := h
    have hpo : s.polling = true := (hb.poll (by rw [he]; rfl)).resolve_right (by rw [h3]; simp)
    have hrest := fun o => rest_panicEnd hb.rest.wide hpo e o
    have hstep : ∀ o, s.step (.panicEnd o) = s.panicEnd e o := by
      intro o; simp [Lifecycle.St.step, he, hpo]
    cases f with
    | cont => exact follows_to hb (.panicEnd .cont) (hstep _) (sim_panicCont hg hs hb.sim e he hpo) (hrest _)
    | brk q =>
      refine follows_to hb (.panicEnd (.brk (reasonTo q))) (hstep _) ?_ (hrest _)
      have := sim_panicStop hg hs hb.sim e (.brk (reasonTo q)) (reasonTo q) he hpo (.inl rfl)
      rwa [reasonOf_to] at this
    | err =>
      have e1 : run n [.panicEnd .err] = run n [.panicEnd (.brk .panicked)] := by
        simp [run, Next.St.step, Next.St.panicEnd, h3, Next.Flow.panicHow]
      rw [e1]
      refine follows_to hb (.panicEnd (.err 0)) (hstep _) ?_ (hrest _)
      exact sim_panicStop hg hs hb.sim e (.err 0) (.panicked 0) he hpo (.inr ⟨0, rfl, rfl⟩)
    | panic => exact follows_to hb (.panicEnd (.panic 0)) (hstep _) (sim_panicDie hg hs hb.sim e 0 he hpo) (hrest _)
  | startPanicking e =>
    rw [he] at h
    have h3 : n.phase = .onPanic true := h
    have hrest := fun o => rest_startPanicEnd hb.rest.wide e o
    have hstep : ∀ o, s.step (.panicEnd o) = s.startPanicEnd e o := by
      intro o; simp [Lifecycle.St.step, he]
    cases f with
    | cont =>
      exact follows_to hb (.panicEnd .cont) (hstep _)
        (sim_startPanicStop hg hb.sim e .cont (.panicked e) he _ (.inl ⟨rfl, rfl, rfl⟩)) (hrest _)
    | brk q =>
      exact follows_to hb (.panicEnd (.brk (reasonTo q))) (hstep _)
        (sim_startPanicStop hg hb.sim e (.brk (reasonTo q)) (reasonTo q) he _ (.inr (.inl ⟨rfl, by rw [reasonOf_to]⟩))) (hrest _)
    | err =>
      exact follows_to hb (.panicEnd (.err 0)) (hstep _)
        (sim_startPanicStop hg hb.sim e (.err 0) (.panicked 0) he _ (.inr (.inr ⟨0, rfl, rfl, rfl⟩))) (hrest _)
    | panic => exact follows_to hb (.panicEnd (.panic 0)) (hstep _) (sim_startPanicDie hg hs hb.sim e 0 he) (hrest _)
  | prepared => exact absurd he hb.rest.ran
  | handling m taken rest ts =>
    rw [he] at h
    obtain ⟨it, l, h, -⟩ := h
    exact follows_nil hb (by simp [run, Next.St.step, Next.St.panicEnd, h])
  | idle =>
    rw [he] at h
    refine follows_nil hb ?_
    rcases h with h | ⟨h, -⟩ <;> simp [run, Next.St.step, Next.St.panicEnd, h]
  | _ =>
    rw [he] at h
    simp only [AtP] at h
    exact follows_nil hb (by simp [run, Next.St.step, Next.St.panicEnd, h])

theorem back_stop (hb : Back cap s n) (r : Next.Res) : Follows cap s (run n [.stopEnd r]) := by
  have h := next_phase hb
  have hg := hb.all.good
  have hs := hb.all.start
  cases he : s.phase with
  | stopping q p st =>
    have hp := hb.rest.pend q p st he
    subst hp
    rw [he] at h
    have h3 : n.phase = .stopping (reasonOf q) := h
    have hgo : ∀ (o : Lifecycle.UOut) (res : Option Lifecycle.Err), (o = .ok ∧ res = none) ∨ (∃ e, o = .err e ∧ res = some e) →
        Follows cap s (run n [.stopEnd .ok]) := by
      intro o res ho
      have hone : s.step (.stopEnd o) = (s.ev (.sEnd q o)).stopDone q [] st res := by
        rcases ho with ⟨rfl, rfl⟩ | ⟨e, rfl, rfl⟩ <;> simp [Lifecycle.St.step, he, Lifecycle.St.stopEnd]
      cases st with
      | true =>
        have h5 := sim_stopNotify hg hs hb.sim q [] o res he ho
        have hone' : s.step (.stopEnd o) = { s with log := s.log ++ [.sEnd q o], phase := .notifying q [] res } := by
          rw [hone]; simp [Lifecycle.St.stopDone, Lifecycle.St.ev]
        have hg1 := all_step hb.all (.stopEnd o)
        rw [hone'] at hg1
        have h6 := sim_finish hg1.good hg1.start h5 q res rfl
        refine follows_two hb (.stopEnd o) .finish (by rw [hone']; rfl) h6 ?_
        refine rest_finishAll (s := { s with log := s.log ++ [.sEnd q o], phase := .notifying q [] res }) ?_ _ _
        exact ⟨hb.rest.wide.granted, hb.rest.wide.waiting, hb.rest.wide.links⟩
      | false =>
        refine follows_to hb (.stopEnd o) (s' := (s.ev (.sEnd q o)).finishAll q res) ?_
          (sim_stopFinish hg hs hb.sim q [] o res he ho) (rest_finishAll (wide_ev hb.rest.wide _) _ _)
        rw [hone]; simp [Lifecycle.St.stopDone]
    cases r with
    | ok => exact hgo .ok none (.inl ⟨rfl, rfl⟩)
    | err =>
      have e1 : run n [.stopEnd .err] = run n [.stopEnd .ok] := by
        simp [run, Next.St.step, Next.St.stopEnd, h3]
      rw [e1]
      exact hgo (.err 0) (some 0) (.inr ⟨0, rfl, rfl⟩)
    | panic =>
      refine follows_to hb (.stopEnd (.panic 0)) (s' := (s.ev (.sEnd q (.panic 0))).die) ?_
        (sim_stopDie hg hs hb.sim q [] st 0 he) (rest_die (wide_ev hb.rest.wide _))
      simp [Lifecycle.St.step, he, Lifecycle.St.stopEnd]
  | notifying q p res => exact absurd he (hb.rest.sent q p res)
  | prepared => exact absurd he hb.rest.ran
  | handling m taken rest ts =>
    rw [he] at h
    obtain ⟨it, l, h, -⟩ := h
    exact follows_nil hb (by simp [run, Next.St.step, Next.St.stopEnd, h])
  | idle =>
    rw [he] at h
    refine follows_nil hb ?_
    rcases h with h | ⟨h, -⟩ <;> simp [run, Next.St.step, Next.St.stopEnd, h]
  | _ =>
    rw [he] at h
    simp only [AtP] at h
    exact follows_nil hb (by simp [run, Next.St.step, Next.St.stopEnd, h])

theorem back_kill (hb : Back cap s n) : Follows cap s (run n [.kill]) :=
  follows_one hb .kill (sim_kill hb.sim)
    ⟨⟨hb.rest.wide.granted, hb.rest.wide.waiting, hb.rest.wide.links⟩, hb.rest.pend, hb.rest.ran, hb.rest.sent⟩ hb.poll

theorem back_abort (hb : Back cap s n) : Follows cap s (run n [.abort]) := by
  by_cases hc : s.aborted = true ∧ s.phase.inLoop = true
  · have h1 := sim_abort hb.all.good hb.sim hc.2 hc.1
    have h2 : Ready s.abortSeen := rest_leave (wide_cancelRunning hb.rest.wide) _
    cases hpo : s.polling with
    | true =>
      refine follows_to hb .pollEnd (s' := s.abortSeen) ?_ h1 h2
      simp [Lifecycle.St.step, hc.1, hc.2, hpo]
    | false =>
      refine follows_to hb .pollBegin (s' := s.abortSeen) ?_ h1 h2
      simp [Lifecycle.St.step, hc.1, hc.2, hpo]
  · refine follows_nil hb ?_
    have h1 := inLoop_abortable hb.sim
    have h2 := hb.sim.aborted
    simp only [run, List.foldl, Next.St.step, Next.St.abort, h1, h2]
    rw [if_neg]
    simpa using hc

theorem back_takeReply (hb : Back cap s n) : Follows cap s (run n [.takeReply]) := by
  have h := next_phase hb
  cases he : s.phase with
  | handling m taken rest ts =>
    rw [he] at h
    obtain ⟨it, l, h3, h4, h5, h6⟩ := h
    have hpo : s.polling = true := (hb.poll (by rw [he]; rfl)).resolve_right (by rw [h3]; simp)
    have hask : it.ask = m.2.ask := ask_of_tag h4
    by_cases ha : m.2.ask = true ∧ taken = false
    · obtain ⟨ha, rfl⟩ := ha
      refine follows_to hb .takeReply ?_ (sim_takeReply hb.sim m rest ts he ha) ?_
      · simp [Lifecycle.St.step, he, hpo, ha]
      · refine ⟨⟨hb.rest.wide.granted, hb.rest.wide.waiting, hb.rest.wide.links⟩, fun _ => hpo, ?_, ?_, ?_⟩ <;> simp
    · refine follows_nil hb ?_
      have : (it.ask && !n.taken) = false := by
        rw [hask, h6]; revert ha; cases m.2.ask <;> cases taken <;> simp
      simp [run, Next.St.step, Next.St.takeReply, h3, this]
  | prepared => exact absurd he hb.rest.ran
  | idle =>
    rw [he] at h
    refine follows_nil hb ?_
    rcases h with h | ⟨h, -⟩ <;> simp [run, Next.St.step, Next.St.takeReply, h]
  | _ =>
    rw [he] at h
    simp only [AtP] at h
    exact follows_nil hb (by simp [run, Next.St.step, Next.St.takeReply, h])

theorem back_later (hb : Back cap s n) (x : Nat) (o : Next.Out) : Follows cap s (run n [.later x o]) := by
  by_cases hx : x ∈ n.delegated
  · obtain ⟨t, ht, y, hy⟩ := later_get hb.sim.talk.later hx
    have hg := hb.all.good
    have hph : (run n [.later x o]).phase = n.phase := by simp [run, Next.St.step, Next.St.later, hx]
    have hw := hb.rest.wide
    have hpo : s.phase.inLoop = true → s.polling = true ∨ (run n [.later x o]).phase = .doomed := by
      rw [hph]; exact hb.poll
    have hsend : ∀ r, s.step (.delegSend t r) = { s with
        slots := fun u => if s.slots u = .waiting ∧ u = t then .got r else s.slots u
        delegated := s.delegated.filter (· != t)
        log := s.log ++ [.replySent t r] } := by
      intro r; simp only [Lifecycle.St.step, if_pos ht]; rw [reply_eq]; rfl
    have hdrop : s.step (.delegDrop t) = { s with
        slots := fun u => if s.slots u = .waiting ∧ u = t then .failed .actorStopped else s.slots u
        delegated := s.delegated.filter (· != t)
        log := s.log ++ [] } := by
      simp only [Lifecycle.St.step, if_pos ht]; simp [Lifecycle.St.dropReplies]
    cases o with
    | value =>
      refine follows_one hb (.delegSend t (.ok 0)) ?_ ?_ ?_ <;> rw [hsend]
      · exact sim_later_at hg hb.sim hx hy rfl _ rfl
      · exact ⟨⟨hw.granted, hw.waiting, hw.links⟩, hb.rest.pend, hb.rest.ran, hb.rest.sent⟩
      · exact hpo
    | err =>
      refine follows_one hb (.delegSend t (.err 0)) ?_ ?_ ?_ <;> rw [hsend]
      · exact sim_later_at hg hb.sim hx hy rfl _ rfl
      · exact ⟨⟨hw.granted, hw.waiting, hw.links⟩, hb.rest.pend, hb.rest.ran, hb.rest.sent⟩
      · exact hpo
    | dropped =>
      refine follows_one hb (.delegDrop t) ?_ ?_ ?_ <;> rw [hdrop]
      · exact sim_later_at hg hb.sim hx hy rfl _ rfl
      · exact ⟨⟨hw.granted, hw.waiting, hw.links⟩, hb.rest.pend, hb.rest.ran, hb.rest.sent⟩
      · exact hpo
  · exact follows_nil hb (by simp [run, Next.St.step, Next.St.later, hx])

theorem back_giveUp (hb : Back cap s n) (x : Nat) : Follows cap s (run n [.giveUp x]) := by
  by_cases hx : x ∈ n.asks ∧ n.slot x = none ∧ x ∉ n.gaveUp
  · obtain ⟨t, b, h1, h2⟩ := (hb.sim.talk.asks x).mp hx.1
    have hwait : s.slots t = .waiting := by
      rcases hb.sim.talk.answers x t b h1 h2 with ⟨h3, -⟩ | ⟨-, h3⟩
      · exact absurd h3 hx.2.2
      · rw [hx.2.1] at h3
        revert h3
        cases s.slots t with
        | waiting => simp
        | got r => cases r <;> simp [outOf]
        | failed f => cases f <;> simp [outOf]
        | _ => simp [outOf]
    have hph : (run n [.giveUp x]).phase = n.phase := by simp [run, Next.St.step, Next.St.giveUp, hx]
    have hw := hb.rest.wide
    refine follows_one hb (.giveUp t) ?_ ?_ ?_ <;> simp only [Lifecycle.St.step, if_pos hwait]
    · exact sim_giveUp_at hb.all.good hb.sim hwait h1 h2
    · exact ⟨⟨hw.granted, hw.waiting, hw.links⟩, hb.rest.pend, hb.rest.ran, hb.rest.sent⟩
    · rw [hph]; exact hb.poll
  · exact follows_nil hb (by simp only [run, List.foldl, Next.St.step, Next.St.giveUp, if_neg hx])

theorem back_teardown (hb : Back cap s n) : Follows cap s (run n [.teardown]) := by
  by_cases ho : (∃ r, s.phase = .stopped r) ∨ s.phase = .crashed
  · refine follows_nil hb ?_
    have h := next_phase hb
    rcases ho with ⟨r, ho⟩ | ho <;> rw [ho] at h <;> simp only [AtP] at h <;>
      simp [run, Next.St.step, Next.St.teardown, h]
  · have h1 : ∀ r, s.phase ≠ .stopped r := fun r x => ho (.inl ⟨r, x⟩)
    have h2 : s.phase ≠ .crashed := fun x => ho (.inr x)
    refine follows_to hb .teardown (s' := s.crash) ?_ (sim_teardown hb.all.good hb.sim h1 h2)
      (rest_die (wide_cancelRunning hb.rest.wide))
    cases he : s.phase with
    | stopped r => exact absurd he (h1 r)
    | crashed => exact absurd he h2
    | _ => simp [Lifecycle.St.step, he]

theorem back_out (hb : Back cap s n) (op : Next.Op) (h : outside op = true) (hf : fits cap n op = true) :
    Follows cap s (run n [op]) := by
  cases op with
  | send b ask => exact back_send hb b ask (by simpa [outside] using h) hf
  | startEnd r full => exact back_start hb r full hf
  | handleEnd r => exact back_handle hb r
  | linkEnd f => exact back_link hb f
  | panicEnd f => exact back_panic hb f
  | stopEnd r => exact back_stop hb r
  | kill => exact back_kill hb
  | abort => exact back_abort hb
  | takeReply => exact back_takeReply hb
  | later x o => exact back_later hb x o
  | giveUp x => exact back_giveUp hb x
  | teardown => exact back_teardown hb
  | _ => simp [outside] at h

theorem back_run {l : List Next.Op} (hd : Default l) : ∀ {s : Lifecycle.St} {n : Next.St}, Back cap s n → Fits cap n l →
    Follows cap s (run n l) := by
  induction hd with
  | nil => intro s n hb _; exact ⟨[], hb⟩
  | out h _ ih =>
    rename_i op l _
    intro s n hb hf
    obtain ⟨ops, h1⟩ := back_out hb op h hf.1
    obtain ⟨ops', h2⟩ := ih h1 hf.2
    refine ⟨ops ++ ops', ?_⟩
    have : s.exec (ops ++ ops') = (s.exec ops).exec ops' := by simp [Lifecycle.St.exec]
    rw [this]; exact h2
  | recv _ ih =>
    rename_i l _
    intro s n hb hf
    obtain ⟨ops, h1⟩ := back_recv hb
    obtain ⟨ops', h2⟩ := ih h1 hf.2.2
    refine ⟨ops ++ ops', ?_⟩
    have : s.exec (ops ++ ops') = (s.exec ops).exec ops' := by simp [Lifecycle.St.exec]
    rw [this]; exact h2

end Verif.Plain
