import Verif.Lifecycle.PropsReply

/-! The asker's side does not influence the actor: changing the slot of one ask changes nothing
else, whatever happens afterwards. -/

set_option linter.unusedSimpArgs false

namespace Verif.Lifecycle

open Verif.Mailbox

/-- The same state with other outcomes of asks. -/
def St.ws (s : St) (f : Nat → Slot) : St := { s with slots := f }

/-- `g` treats the slots of asks apart from the rest of the state, and each by itself. -/
def Local (g : St → St) : Prop :=
  ∀ (s : St) (f : Nat → Slot),
    g (s.ws f) = (g s).ws (g (s.ws f)).slots ∧
    ∀ x, f x = s.slots x → (g (s.ws f)).slots x = (g s).slots x

theorem Local.comp {g h : St → St} (hg : Local g) (hh : Local h) : Local (fun s => g (h s)) := by
  intro s f
  obtain ⟨h1, h2⟩ := hh s f
  obtain ⟨g1, g2⟩ := hg (h s) (h (s.ws f)).slots
  refine ⟨?_, ?_⟩
  · show g (h (s.ws f)) = (g (h s)).ws (g (h (s.ws f))).slots
    rw [h1]; exact g1
  · intro x hx
    show (g (h (s.ws f))).slots x = (g (h s)).slots x
    rw [h1]; exact g2 x (h2 x hx)

theorem local_id : Local (fun s => s) := fun _ _ => ⟨rfl, fun _ h => h⟩

theorem Local.slotsOnly {g : St → St} (h1 : ∀ s, g s = s.ws (g s).slots)
    (h2 : ∀ (s : St) f x, f x = s.slots x → (g (s.ws f)).slots x = (g s).slots x) : Local g := by
  intro s f
  refine ⟨?_, h2 s f⟩
  have : (g s).ws (g (s.ws f)).slots = s.ws (g (s.ws f)).slots := by rw [h1 s]; rfl
  rw [this, h1 (s.ws f)]; rfl

theorem local_reply (t : Nat) (r : Res) : Local (fun s => s.reply t r) := by
  apply Local.slotsOnly
  · intro s; simp only [St.reply]; split <;> rfl
  · intro s f x hx
    simp only [reply_slots, St.ws]
    by_cases h : x = t
    · subst h; simp [hx]
    · simp [h, hx]

theorem local_drop (ts : List Nat) : Local (fun s => s.dropReplies ts) := by
  intro s f
  exact ⟨rfl, fun x hx => by simp only [dropReplies_slots, St.ws, hx]⟩

theorem local_failSends (ts : List Nat) (w : Fail) : Local (fun s => s.failSends ts w) := by
  intro s f
  exact ⟨rfl, fun x hx => by simp only [failSends_slots, St.ws, hx]⟩

theorem local_ev (e : Ev) : Local (fun s => s.ev e) := fun _ _ => ⟨rfl, fun _ h => h⟩

theorem local_lose (ms : List Msg) : Local (fun s => s.lose ms) := by
  intro s f
  exact ⟨rfl, fun x hx => by simp only [lose_slots, dropReplies_slots, St.ws, hx]⟩

theorem local_loseBuf : Local (fun s => s.lose s.buffer) := by
  intro s f
  exact ⟨rfl, fun x hx => by simp only [lose_slots, dropReplies_slots, St.ws, hx]⟩

theorem local_closeMb : Local St.closeMb := by
  intro s f
  exact ⟨rfl, fun x hx => by simp only [closeMb_slots_eq, St.ws, hx]⟩

theorem local_leave (r : Reason) : Local (fun s => s.leave r) := by
  intro s f
  exact ⟨rfl, fun x hx => (local_loseBuf s f).2 x hx⟩

theorem local_onShutdown (r : Reason) : Local (fun s => s.onShutdown r) := by
  cases r with
  | panicked e => exact fun _ _ => ⟨rfl, fun _ h => h⟩
  | _ => exact local_leave _

theorem local_drain (rest : List Msg) (ts : Bool) : Local (fun s => s.drain rest ts) := by
  cases rest with
  | cons m ms => exact fun _ _ => ⟨rfl, fun _ h => h⟩
  | nil =>
    cases ts
    · exact fun _ _ => ⟨rfl, fun _ h => h⟩
    · exact local_leave _

theorem local_die : Local St.die := by
  intro s f
  have h := local_closeMb.comp local_loseBuf s f
  exact ⟨rfl, fun x hx => h.2 x hx⟩

theorem local_finishAll (r : Reason) (res : Option Err) : Local (fun s => s.finishAll r res) := by
  intro s f
  exact ⟨rfl, fun x hx => (local_closeMb s f).2 x hx⟩

/-- A function that behaves like a local one depending on the state without its slots. -/
theorem Local.of {g : St → St} (h : ∀ s : St, ∃ g', Local g' ∧ ∀ f, g (s.ws f) = g' (s.ws f)) :
    Local g := by
  intro s f
  obtain ⟨g', h1, h2⟩ := h s
  have h3 : g s = g' s := h2 s.slots
  rw [h2 f, h3]
  exact h1 s f

theorem local_cancelRunning : Local St.cancelRunning := by
  apply Local.of
  intro s
  cases hp : s.phase with
  | handling m tk rest ts =>
    exact ⟨_, (local_ev (.hCancel m)).comp ((local_lose rest).comp
      (local_drop (if tk then [] else [m.1]))), fun f => by simp [St.cancelRunning, St.ws, hp]⟩
  | linkDying i r => exact ⟨_, local_ev .lCancel, fun f => by simp [St.cancelRunning, St.ws, hp]⟩
  | panicking e => exact ⟨_, local_ev .pCancel, fun f => by simp [St.cancelRunning, St.ws, hp]⟩
  | startPanicking e => exact ⟨_, local_ev .pCancel, fun f => by simp [St.cancelRunning, St.ws, hp]⟩
  | starting => exact ⟨_, local_ev .startCancel, fun f => by simp [St.cancelRunning, St.ws, hp]⟩
  | stopping r p b => exact ⟨_, local_ev .sCancel, fun f => by simp [St.cancelRunning, St.ws, hp]⟩
  | _ => exact ⟨_, local_id, fun f => by simp [St.cancelRunning, St.ws, hp]⟩

theorem local_abortSeen : Local St.abortSeen := (local_leave .killed).comp local_cancelRunning
theorem local_crash : Local St.crash := local_die.comp local_cancelRunning

theorem local_handlerEnd (m : Msg) (tk : Bool) (rest : List Msg) (ts : Bool) (o : HOut) :
    Local (fun s => s.handlerEnd m tk rest ts o) := by
  cases o with
  | panic e =>
    exact (local_onShutdown (.panicked e)).comp ((local_lose rest).comp
      ((local_ev (.hEnd m tk (.panic e))).comp (local_drop (if tk then [] else [m.1]))))
  | ret r =>
    simp only [St.handlerEnd]
    split
    · exact (local_drain rest ts).comp ((local_ev _).comp (local_reply m.1 r))
    · cases r with
      | ok v => exact (local_drain rest ts).comp (local_ev _)
      | err e => exact (local_onShutdown _).comp ((local_lose rest).comp (local_ev _))

theorem local_linkEnd (id : Id) (r : Reason) (o : FOut) : Local (fun s => s.linkEnd id r o) := by
  have h0 : Local (fun s => { s with
      links := s.links.filter (· != id), log := s.log ++ [Ev.lEnd id r o] }) :=
    fun _ _ => ⟨rfl, fun _ h => h⟩
  cases o with
  | cont => exact fun _ _ => ⟨rfl, fun _ h => h⟩
  | brk r' => exact (local_onShutdown r').comp h0
  | err e => exact (local_onShutdown (.panicked e)).comp h0
  | panic e => exact (local_onShutdown (.panicked e)).comp h0

theorem local_panicEnd (e : Err) (o : FOut) : Local (fun s => s.panicEnd e o) := by
  cases o with
  | cont => exact fun _ _ => ⟨rfl, fun _ h => h⟩
  | brk r => exact (local_leave r).comp (local_ev _)
  | err e' => exact (local_leave _).comp (local_ev _)
  | panic e' => exact local_die.comp (local_ev _)

theorem local_stopFailed (r : Reason) : Local (fun s => s.stopFailed r) := by
  intro s f
  exact ⟨rfl, fun x hx => (local_loseBuf s f).2 x hx⟩

theorem local_startPanicEnd (e : Err) (o : FOut) : Local (fun s => s.startPanicEnd e o) := by
  cases o with
  | cont => exact (local_stopFailed _).comp (local_ev _)
  | brk r => exact (local_stopFailed r).comp (local_ev _)
  | err e' => exact (local_stopFailed _).comp (local_ev _)
  | panic e' => exact local_die.comp (local_ev _)

theorem local_stopDone (r : Reason) (pend : List Id) (st : Bool) (res : Option Err) :
    Local (fun s => s.stopDone r pend st res) := by
  cases st
  · exact local_finishAll r res
  · exact fun _ _ => ⟨rfl, fun _ h => h⟩

theorem local_stopEnd (r : Reason) (pend : List Id) (st : Bool) (o : UOut) :
    Local (fun s => s.stopEnd r pend st o) := by
  cases o with
  | ok => exact (local_stopDone r pend st none).comp (local_ev _)
  | err e => exact (local_stopDone r pend st (some e)).comp (local_ev _)
  | panic e' => exact local_die.comp (local_ev _)

theorem local_startEnd (o : UOut) : Local (fun s => s.startEnd o) := by
  cases o with
  | ok =>
    apply Local.of
    intro s
    cases h : (s.mb.closed || s.mb.hasRoom)
    · refine ⟨fun s => St.finishStartup { s with
          mb := s.mb.trySend .startup, log := s.log ++ [.startEnd .ok], startupErr := some none,
          phase := .idle, polling := false }, fun _ _ => ⟨rfl, fun _ h => h⟩, fun f => ?_⟩
      simp only [St.startEnd, St.startOk, St.ws, h]; rfl
    · refine ⟨fun s => { s with
          mb := s.mb.trySend .startup, log := s.log ++ [.startEnd .ok], startupErr := some none,
          phase := .idle, polling := false }, fun _ _ => ⟨rfl, fun _ h => h⟩, fun f => ?_⟩
      simp only [St.startEnd, St.startOk, St.ws, h]; rfl
  | err e => exact fun _ _ => ⟨rfl, fun _ h => h⟩
  | panic e => exact fun _ _ => ⟨rfl, fun _ h => h⟩

theorem local_recvStep : Local St.recvStep := by
  have hfin : Local St.finishStartup := fun _ _ => ⟨rfl, fun _ h => h⟩
  have hrec : Local (fun s : St => { s with mb := s.mb.recv }) := fun _ _ => ⟨rfl, fun _ h => h⟩
  have hper : ∀ n, Local (fun s : St => { s with permits := n }) :=
    fun _ _ _ => ⟨rfl, fun _ h => h⟩
  apply Local.of
  intro s
  cases hq : s.mb.queue with
  | nil =>
    cases hn : s.noSenders with
    | true =>
      exact ⟨_, (local_drain s.buffer true).comp ((local_ev .noRefs).comp hfin), fun f => by
        simp only [St.recvStep, St.ws, hq]; simp [St.noSenders] at hn ⊢; simp [hn, St.ws]⟩
    | false =>
      exact ⟨_, local_id, fun f => by
        simp only [St.recvStep, St.ws, hq]
        have : ({ s with slots := f } : St).noSenders = s.noSenders := rfl
        simp [this, hn]⟩
  | cons p q =>
    obtain ⟨t, sig⟩ := p
    cases sig with
    | startup =>
      exact ⟨_, (local_drain s.buffer false).comp ((hper (s.permits + 1)).comp (hfin.comp hrec)),
        fun f => by simp only [St.recvStep, St.ws, hq, St.onSignal]⟩
    | stop =>
      exact ⟨_, (local_drain s.buffer true).comp ((local_ev .stopTaken).comp (hfin.comp hrec)),
        fun f => by simp only [St.recvStep, St.ws, hq, St.onSignal]⟩
    | linkDied i r =>
      refine ⟨fun s => { s with
          mb := s.mb.recv, phase := .linkDying i r, log := s.log ++ [.lBegin i r] },
        fun _ _ => ⟨rfl, fun _ h => h⟩, fun f => by simp only [St.recvStep, St.ws, hq, St.onSignal]⟩
    | msg b =>
      cases hc : (!b.within && !s.finished) with
      | true =>
        exact ⟨fun s => { s with mb := s.mb.recv, buffer := s.buffer ++ [(t, b)] },
          fun _ _ => ⟨rfl, fun _ h => h⟩,
          fun f => by simp only [St.recvStep, St.ws, hq, St.onSignal, hc]; rfl⟩
      | false =>
        exact ⟨fun s => ({ s with mb := s.mb.recv }).beginHandle (t, b) [] false,
          fun _ _ => ⟨rfl, fun _ h => h⟩,
          fun f => by simp only [St.recvStep, St.ws, hq, St.onSignal, hc]; rfl⟩

theorem local_step (op : Op) : Local (fun s => s.step op) := by
  cases op with
  | send b =>
    intro s f
    refine ⟨rfl, fun x hx => ?_⟩
    simp only [St.step, St.ws]
    cases b.ask <;> simp [setSlot, hx] <;> rfl
  | trySend b =>
    intro s f
    refine ⟨rfl, fun x hx => ?_⟩
    simp only [St.step, St.ws]
    cases b.ask <;> simp [setSlot, hx] <;> rfl
  | cancel t =>
    intro s f
    refine ⟨rfl, fun x hx => ?_⟩
    exact (local_failSends _ _ s f).2 x hx
  | giveUp t =>
    have h : ∀ s : St, ∀ x, (s.step (.giveUp t)).slots x =
        if x = t ∧ s.slots x = .waiting then .gaveUp else s.slots x := by
      intro s x
      simp only [St.step]
      by_cases hxt : x = t
      · subst hxt; split <;> simp_all [setSlot]
      · split <;> simp [setSlot, hxt]
    apply Local.slotsOnly
    · intro s; simp only [St.step]; split <;> rfl
    · intro s f x hx
      rw [h, h]; simp only [St.ws, hx]
  | delegSend t r =>
    have h0 : ∀ d : List Nat, Local (fun s : St => { s with delegated := d }) :=
      fun _ _ _ => ⟨rfl, fun _ h => h⟩
    apply Local.of
    intro s
    by_cases hd : t ∈ s.delegated
    · exact ⟨_, (h0 (s.delegated.filter (· != t))).comp ((local_ev (.replySent t r)).comp (local_reply t r)),
        fun f => by simp only [St.step, St.ws, hd, if_true]⟩
    · exact ⟨_, local_id, fun f => by simp only [St.step, St.ws, hd, if_false]⟩
  | delegDrop t =>
    have h0 : ∀ d : List Nat, Local (fun s : St => { s with delegated := d }) :=
      fun _ _ _ => ⟨rfl, fun _ h => h⟩
    apply Local.of
    intro s
    by_cases hd : t ∈ s.delegated
    · exact ⟨_, (h0 (s.delegated.filter (· != t))).comp (local_drop [t]),
        fun f => by simp only [St.step, St.ws, hd, if_true]⟩
    · exact ⟨_, local_id, fun f => by simp only [St.step, St.ws, hd, if_false]⟩
  | teardown =>
    apply Local.of
    intro s
    cases hp : s.phase with
    | stopped r => exact ⟨_, local_id, fun f => by simp only [St.step, St.ws, hp]⟩
    | crashed => exact ⟨_, local_id, fun f => by simp only [St.step, St.ws, hp]⟩
    | _ => exact ⟨_, local_crash, fun f => by simp only [St.step, St.ws, hp]⟩
  | pollBegin =>
    apply Local.of
    intro s
    cases h1 : (s.phase.inLoop && !s.polling)
    · exact ⟨_, local_id, fun f => by simp only [St.step, St.ws, h1]; simp⟩
    · cases h2 : s.aborted
      · exact ⟨fun s => { s with polling := true }, fun _ _ => ⟨rfl, fun _ h => h⟩,
          fun f => by simp only [St.step, St.ws, h1, h2]; simp⟩
      · exact ⟨_, local_abortSeen, fun f => by simp only [St.step, St.ws, h1, h2]; simp⟩
  | pollEnd =>
    apply Local.of
    intro s
    cases h1 : (s.phase.inLoop && s.polling)
    · exact ⟨_, local_id, fun f => by simp only [St.step, St.ws, h1]; simp⟩
    · cases h2 : s.aborted
      · exact ⟨fun s => { s with polling := false }, fun _ _ => ⟨rfl, fun _ h => h⟩,
          fun f => by simp only [St.step, St.ws, h1, h2]; simp⟩
      · exact ⟨_, local_abortSeen, fun f => by simp only [St.step, St.ws, h1, h2]; simp⟩
  | run =>
    apply Local.of
    intro s
    cases hp : s.phase with
    | prepared =>
      exact ⟨fun s => { s with phase := .starting, log := s.log ++ [Ev.startBegin] },
        fun _ _ => ⟨rfl, fun _ h => h⟩, fun f => by simp only [St.step, St.ws, hp]⟩
    | _ => exact ⟨_, local_id, fun f => by simp only [St.step, St.ws, hp]⟩
  | startEnd o =>
    apply Local.of
    intro s
    cases hp : s.phase with
    | starting => exact ⟨_, local_startEnd o, fun f => by simp only [St.step, St.ws, hp]⟩
    | _ => exact ⟨_, local_id, fun f => by simp only [St.step, St.ws, hp]⟩
  | recv =>
    apply Local.of
    intro s
    cases hp : s.phase with
    | idle =>
      cases h2 : s.polling
      · exact ⟨_, local_id, fun f => by simp only [St.step, St.ws, hp, h2]; simp⟩
      · exact ⟨_, local_recvStep, fun f => by simp only [St.step, St.ws, hp, h2]; simp⟩
    | _ => exact ⟨_, local_id, fun f => by simp only [St.step, St.ws, hp]⟩
  | takeReply =>
    apply Local.of
    intro s
    cases hp : s.phase with
    | handling m tk rest ts =>
      cases tk
      · cases h2 : (s.polling && m.2.ask)
        · exact ⟨_, local_id, fun f => by simp only [St.step, St.ws, hp, h2]; simp⟩
        · exact ⟨fun s => { s with phase := .handling m true rest ts, delegated := s.delegated ++ [m.1] },
            fun _ _ => ⟨rfl, fun _ h => h⟩, fun f => by simp only [St.step, St.ws, hp, h2]; simp⟩
      · exact ⟨_, local_id, fun f => by simp only [St.step, St.ws, hp]⟩
    | _ => exact ⟨_, local_id, fun f => by simp only [St.step, St.ws, hp]⟩
  | handlerEnd o =>
    apply Local.of
    intro s
    cases hp : s.phase with
    | handling m tk rest ts =>
      cases h2 : s.polling
      · exact ⟨_, local_id, fun f => by simp only [St.step, St.ws, hp, h2]; simp⟩
      · exact ⟨_, local_handlerEnd m tk rest ts o, fun f => by simp only [St.step, St.ws, hp, h2]; simp⟩
    | _ => exact ⟨_, local_id, fun f => by simp only [St.step, St.ws, hp]⟩
  | linkEnd o =>
    apply Local.of
    intro s
    cases hp : s.phase with
    | linkDying i r =>
      cases h2 : s.polling
      · exact ⟨_, local_id, fun f => by simp only [St.step, St.ws, hp, h2]; simp⟩
      · exact ⟨_, local_linkEnd i r o, fun f => by simp only [St.step, St.ws, hp, h2]; simp⟩
    | _ => exact ⟨_, local_id, fun f => by simp only [St.step, St.ws, hp]⟩
  | panicEnd o =>
    apply Local.of
    intro s
    cases hp : s.phase with
    | panicking e =>
      cases h2 : s.polling
      · exact ⟨_, local_id, fun f => by simp only [St.step, St.ws, hp, h2]; simp⟩
      · exact ⟨_, local_panicEnd e o, fun f => by simp only [St.step, St.ws, hp, h2]; simp⟩
    | startPanicking e => exact ⟨_, local_startPanicEnd e o, fun f => by simp only [St.step, St.ws, hp]⟩
    | _ => exact ⟨_, local_id, fun f => by simp only [St.step, St.ws, hp]⟩
  | stopEnd o =>
    apply Local.of
    intro s
    cases hp : s.phase with
    | stopping r p b => exact ⟨_, local_stopEnd r p b o, fun f => by simp only [St.step, St.ws, hp]⟩
    | _ => exact ⟨_, local_id, fun f => by simp only [St.step, St.ws, hp]⟩
  | notifyEnd i =>
    intro s f
    refine ⟨?_, fun x hx => ?_⟩
    · simp only [St.step, St.ws]; split <;> (try split) <;> rfl
    · simp only [St.step, St.ws]; split <;> (try split) <;> exact hx
  | finish =>
    apply Local.of
    intro s
    cases hp : s.phase with
    | notifying r p res =>
      cases p with
      | nil => exact ⟨_, local_finishAll r res, fun f => by simp only [St.step, St.ws, hp]⟩
      | cons a l => exact ⟨_, local_id, fun f => by simp only [St.step, St.ws, hp]⟩
    | _ => exact ⟨_, local_id, fun f => by simp only [St.step, St.ws, hp]⟩
  | cloneRef =>
    apply Local.of
    intro s
    by_cases h : 0 < s.ext ∨ s.own = true
    · exact ⟨fun s => { s with ext := s.ext + 1 }, fun _ _ => ⟨rfl, fun _ h => h⟩,
        fun f => by simp only [St.step, St.ws, h, if_true]⟩
    · exact ⟨_, local_id, fun f => by simp only [St.step, St.ws, h, if_false]⟩
  | _ => exact fun _ _ => ⟨rfl, fun _ h => h⟩

theorem local_exec (ops : List Op) : Local (fun s => s.exec ops) := by
  induction ops with
  | nil => exact local_id
  | cons op ops ih => exact ih.comp (local_step op)

/-! ### C19 -/

/-- **C19** A reply time-out has no effect on the actor or on any other asker: with or without it,
everything that happens afterwards is the same, except for the outcome of that one ask. In
particular a late reply goes nowhere and the handler still runs exactly as it would have. -/
theorem giving_up_changes_nothing_else (cap : Option Nat) (ops ops' : List Op) (t : Nat) :
    let a := after cap (ops ++ ops')
    let b := after cap (ops ++ .giveUp t :: ops')
    b = { a with slots := b.slots } ∧ ∀ x, x ≠ t → b.slots x = a.slots x := by
  intro a b
  have ha : a = (after cap ops).exec ops' := after_append cap ops ops'
  have hb : b = ((after cap ops).step (.giveUp t)).exec ops' := after_append cap ops _
  generalize after cap ops = s at ha hb
  have hs : s.step (.giveUp t) = s.ws (s.step (.giveUp t)).slots := by
    simp only [St.step]; split <;> rfl
  have hx : ∀ x, x ≠ t → (s.step (.giveUp t)).slots x = s.slots x := by
    intro x hne
    simp only [St.step]; split <;> simp [setSlot, hne]
  rw [hs] at hb
  obtain ⟨h1, h2⟩ := local_exec ops' s (s.step (.giveUp t)).slots
  rw [ha, hb]
  exact ⟨h1, fun x hne => h2 x (hx x hne)⟩

/-- Two asks are in the mailbox; the first asker gives up while its message is handled. -/
example :
    let pre : List Op := [.run, .startEnd .ok, .send (ask 10), .send (ask 11), .pollBegin, .recv, .recv]
    let post : List Op := [.handlerEnd (.ret (.ok 7)), .recv, .handlerEnd (.ret (.ok 8))]
    (after none (pre ++ post)).slots 1 = .got (.ok 7) ∧ (after none (pre ++ .giveUp 1 :: post)).slots 1 ≠ .got (.ok 7) ∧
    (after none (pre ++ .giveUp 1 :: post)).slots 2 = .got (.ok 8) ∧
    (after none (pre ++ .giveUp 1 :: post)).handled = (after none (pre ++ post)).handled := by decide

/-- **C19** An asker whose reply wait timed out never gets a late reply. -/
theorem no_reply_after_giving_up (cap : Option Nat) (ops ops' : List Op) (t : Nat)
    (h : (after cap ops).slots t = .waiting) :
    (after cap (ops ++ .giveUp t :: ops')).slots t = .gaveUp := by
  have h1 : (after cap (ops ++ [.giveUp t])).slots t = .gaveUp := by
    rw [after_snoc]; simp [St.step, h, setSlot]
  have := outcome_never_changes cap (ops ++ [.giveUp t]) ops' t (by simp [h1]) (by simp [h1])
  rw [h1] at this
  simpa using this

/-- Asker 1 gives up while its message is being handled; asker 2 is served. -/
def lateDemo : List Op :=
  [.run, .startEnd .ok, .send (ask 10), .send (ask 11), .pollBegin, .recv, .recv]

example : (after none lateDemo).slots 1 = .waiting ∧
    (after none (lateDemo ++ .giveUp 1 :: [.handlerEnd (.ret (.ok 7)), .recv,
      .handlerEnd (.ret (.ok 8))])).slots 2 = .got (.ok 8) := by decide

/-! ### C39 -/

/-- A handler run completes in one way only. -/
theorem one_end_per_message (cap : Option Nat) (ops : List Op) {m : Msg} {tk tk' : Bool} {o o' : HOut}
    (h : .hEnd m tk o ∈ (after cap ops).log) (h' : .hEnd m tk' o' ∈ (after cap ops).log) :
    tk = tk' ∧ o = o' := by
  have key : ∀ (tk tk' : Bool) (o o' : HOut) (p q r : List Ev),
      (after cap ops).log ≠ p ++ .hEnd m tk o :: (q ++ .hEnd m tk' o' :: r) := by
    intro tk tk' o o' p q r hl
    obtain ⟨p1, b1, m1, e1, c1, _⟩ := one_completion_per_start cap ops p _ _ hl rfl
    have hl2 : (after cap ops).log = (p ++ .hEnd m tk o :: q) ++ .hEnd m tk' o' :: r := by
      rw [hl]; simp
    obtain ⟨p2, b2, m2, e2, c2, n2⟩ := one_completion_per_start cap ops _ _ _ hl2 rfl
    have hb1 : b1 = .hBegin m := by cases b1 <;> simp [closes] at c1; simp [c1]
    have hb2 : b2 = .hBegin m := by cases b2 <;> simp [closes] at c2; simp [c2]
    subst hb1 hb2
    have hq : ∃ q1, q = q1 ++ .hBegin m :: m2 := by
      rcases List.append_eq_append_iff.mp e2 with ⟨a, ha1, ha2⟩ | ⟨a, ha1, ha2⟩
      · cases a with
        | nil => simp at ha2
        | cons x a =>
          simp at ha2
          exact ⟨a, ha2.2⟩
      · cases a with
        | nil => simp at ha2
        | cons x a =>
          simp at ha2
          have := (n2 (.hEnd m tk o) (by rw [ha2.2]; simp)).2
          simp [Ev.isEnd] at this
    obtain ⟨q1, rfl⟩ := hq
    have hnd := (handled_once_and_accepted cap ops).1
    have hh : hBegins (after cap ops).log = (after cap ops).handled := (handled_after cap ops).symm
    rw [← hh, hl, e1] at hnd
    have hnd' : (hBegins (p1 ++ Ev.hBegin m :: m1 ++ Ev.hEnd m tk o ::
        (q1 ++ Ev.hBegin m :: m2 ++ Ev.hEnd m tk' o' :: r))).Nodup := by
      refine (List.pairwise_map.mp hnd).imp ?_
      intro a b h e
      exact h (by rw [e])
    rw [hBegins_append, List.nodup_append] at hnd'
    refine hnd'.2.2 m ?_ m ?_ rfl <;> simp [mem_hBegins]
  obtain ⟨p, r, hl⟩ := List.append_of_mem h
  rw [hl] at h'
  simp only [List.mem_append, List.mem_cons] at h'
  rcases h' with h' | h' | h'
  · obtain ⟨p1, q, rfl⟩ := List.append_of_mem h'
    exact absurd (by rw [hl]; simp) (key tk' tk o' o p1 q r)
  · simp at h'; exact ⟨h'.1.symm, h'.2.symm⟩
  · obtain ⟨q, r1, rfl⟩ := List.append_of_mem h'
    exact absurd hl (key tk tk' o o' p q r1)

/-- **C39** If the handler had taken its reply sender, then a reply seen by the asker was sent through
that sender: never the handler's own return value. -/
theorem taken_reply_only_from_sender (cap : Option Nat) (ops : List Op) (m : Msg) (o : HOut) (r : Res)
    (h : .hEnd m true o ∈ (after cap ops).log) (hr : (after cap ops).slots m.1 = .got r) :
    .replySent m.1 r ∈ (after cap ops).log ∧ .delegSend m.1 r ∈ ops := by
  have hg := good_after cap ops
  have hs : .replySent m.1 r ∈ (after cap ops).log := by
    rcases (answers_after cap ops).got m.1 r hr with ⟨m', hm', he⟩ | hm
    · have h1 := hEnd_handled cap ops he
      have h2 := hEnd_handled cap ops h
      have s1 := handled_sent hg.shape hg.acct (m := m') (by simp [h1])
      have s2 := handled_sent hg.shape hg.acct (m := m) (by simp [h2])
      have := key_inj hg.shape.mb.sent_nodup s1 s2 hm'
      simp at this
      have : m' = m := Prod.ext hm' this.2
      subst this
      have := (one_end_per_message cap ops h he).1
      cases this
    · exact hm
  exact ⟨hs, (replySent_handled cap ops hs).1⟩

/-- A handler takes its reply sender, returns, and the reply is sent later. -/
def delegDemo : List Op :=
  [.run, .startEnd .ok, .send (ask 10), .pollBegin, .recv, .recv, .takeReply,
   .handlerEnd (.ret (.ok 3)), .delegSend 1 (.ok 4)]

example : .hEnd (1, ask 10) true (.ret (.ok 3)) ∈ (after none delegDemo).log ∧
    (after none delegDemo).slots 1 = .got (.ok 4) := by decide

theorem drain_slots_other {s : St} {rest : List Msg} {ts : Bool} {t : Nat} (h : t ∉ K s.buffer) :
    (s.drain rest ts).slots t = s.slots t := by
  cases rest with
  | cons m ms => rfl
  | nil =>
    cases ts
    · rfl
    · show (s.lose s.buffer).slots t = s.slots t
      rw [lose_slots, dropReplies_slots, K_def]
      simp [h]

/-- **C39** Once a handler has taken its reply sender, its return or panic changes nothing for the
asker, and asking for the sender again has no effect. -/
theorem taken_handler_silent (cap : Option Nat) (ops : List Op) (m : Msg) (rest : List Msg) (ts : Bool)
    (h : (after cap ops).phase = .handling m true rest ts) :
    (∀ o, (after cap (ops ++ [.handlerEnd o])).slots m.1 = (after cap ops).slots m.1) ∧
    after cap (ops ++ [.takeReply]) = after cap ops := by
  have hg := good_after cap ops
  have hd := distinct_of hg.shape hg.acct
  refine ⟨fun o => ?_, ?_⟩
  · rw [after_snoc]
    generalize after cap ops = s at *
    have hm : m.1 ∈ K s.handled := mem_K.mpr ⟨m.2, hg.cur m true rest ts h⟩
    have hb : m.1 ∉ K s.buffer := fun hc => hd.bufHandled _ hc hm
    have hr : m.1 ∉ K rest := fun hc => hd.restHandled _ (by simpa [h] using hc) hm
    have hl : ∀ s : St, (s.lose rest).slots m.1 = s.slots m.1 := by
      intro s; rw [lose_slots, dropReplies_slots, K_def]; simp [hr]
    simp only [St.step, h]
    split
    · cases o with
      | ret r =>
        cases r with
        | ok v =>
          simp only [St.handlerEnd, Bool.not_true, Bool.and_false, Bool.false_eq_true, if_false]
          rw [drain_slots_other (by simpa using hb)]; rfl
        | err e =>
          simp only [St.handlerEnd, Bool.not_true, Bool.and_false, Bool.false_eq_true, if_false]
          exact hl _
      | panic e =>
        simp only [St.handlerEnd, if_true]
        refine (hl _).trans ?_
        show (s.dropReplies []).slots m.1 = _
        rw [dropReplies_slots]; simp
    · rfl
  · rw [after_snoc]; simp only [St.step, h]

example : (after none (delegDemo.take 7)).phase = .handling (1, ask 10) true [] false := by decide

/-- **C39** Taking the reply sender makes the handler's user code its only owner; the sender can be
used once, and what is sent is what the asker gets (if it still waits). -/
theorem delegated_reply_delivered (cap : Option Nat) (ops : List Op) (t : Nat) (r : Res)
    (h : t ∈ (after cap ops).delegated) (hw : (after cap ops).slots t = .waiting) :
    (after cap (ops ++ [.delegSend t r])).slots t = .got r ∧
    ∀ ops', (after cap (ops ++ .delegSend t r :: ops')).slots t = .got r := by
  have h1 : (after cap (ops ++ [.delegSend t r])).slots t = .got r := by
    rw [after_snoc]; simp [St.step, h, reply_slots, hw]
  refine ⟨h1, fun ops' => ?_⟩
  have := outcome_never_changes cap (ops ++ [.delegSend t r]) ops' t (by simp [h1]) (by simp [h1])
  rw [h1] at this
  simpa using this

example : 1 ∈ (after none (delegDemo.take 8)).delegated ∧ (after none (delegDemo.take 8)).slots 1 = .waiting ∧
    (after none (delegDemo.take 8 ++ [.delegSend 1 (.ok 4), .delegSend 1 (.ok 5)])).slots 1 = .got (.ok 4) := by decide

/-- **C39** Dropping the taken sender without using it tells the asker `ActorStopped`. -/
theorem delegated_reply_dropped (cap : Option Nat) (ops : List Op) (t : Nat)
    (h : t ∈ (after cap ops).delegated) (hw : (after cap ops).slots t = .waiting) (ops' : List Op) :
    (after cap (ops ++ .delegDrop t :: ops')).slots t = .failed .actorStopped := by
  have h1 : (after cap (ops ++ [.delegDrop t])).slots t = .failed .actorStopped := by
    rw [after_snoc]; simp [St.step, h, dropReplies_slots, hw]
  have := outcome_never_changes cap (ops ++ [.delegDrop t]) ops' t (by simp [h1]) (by simp [h1])
  rw [h1] at this
  simpa using this

example : 1 ∈ (after none (delegDemo.take 8)).delegated ∧
    (after none (delegDemo.take 8)).slots 1 = .waiting := by decide

theorem delegated_step (s : St) (op : Op) (t : Nat) (h : t ∈ s.delegated)
    (hno : op ≠ .delegDrop t ∧ ∀ r, op ≠ .delegSend t r) : t ∈ (s.step op).delegated := by
  cases op with
  | delegSend x r =>
    have : t ≠ x := by rintro rfl; exact hno.2 r rfl
    simp only [St.step]; split <;> simp [h, this]
  | delegDrop x =>
    have : t ≠ x := by rintro rfl; exact hno.1 rfl
    simp only [St.step]; split <;> simp [h, this]
  | startEnd o =>
    simp only [St.step]; split
    · cases o with
      | ok => simp only [St.startEnd]; rw [(startOk_fields s).2.2.2.1]; exact h
      | _ => simpa [St.startEnd, St.startFail] using h
    · exact h
  | takeReply => simp only [St.step]; split <;> (try split) <;> simp [h]
  | recv =>
    simp only [St.step]; split <;> (try split) <;> (try exact h)
    simp only [St.recvStep, St.onSignal]
    repeat' split
    all_goals simpa using h
  | handlerEnd o =>
    simp only [St.step]; split <;> (try split) <;> (try exact h)
    simp only [St.handlerEnd]
    repeat' split
    all_goals simpa using h
  | linkEnd o =>
    simp only [St.step]; split <;> (try split) <;> (try exact h)
    simp only [St.linkEnd]
    repeat' split
    all_goals simpa using h
  | panicEnd o =>
    simp only [St.step, St.panicEnd, St.startPanicEnd, St.stopFailed]
    repeat' split
    all_goals simpa using h
  | stopEnd o =>
    simp only [St.step, St.stopEnd, St.stopDone]
    repeat' split
    all_goals simpa using h
  | _ =>
    simp only [St.step]
    repeat' split
    all_goals simpa using h

theorem sent_prefix (s : St) (op : Op) : s.mb.sent <+: (s.step op).mb.sent := by
  obtain ⟨mops, h⟩ := step_mb s op
  rw [h]
  clear h
  induction mops generalizing s with
  | nil => exact List.prefix_refl _
  | cons o l ih =>
    have := ih { s with mb := s.mb.step o }
    refine List.IsPrefix.trans ?_ this
    exact Mailbox.step_sent s.mb o

/-- **C39** While the taken sender is neither used nor dropped, nothing else gives the asker an
outcome (except its own time-out), even if the actor stops or its task is torn down. -/
theorem delegated_survives_actor (cap : Option Nat) (ops ops' : List Op) (t : Nat)
    (h : t ∈ (after cap ops).delegated)
    (hw : (after cap ops).slots t = .waiting ∨ (after cap ops).slots t = .gaveUp)
    (hno : ∀ op ∈ ops', op ≠ .delegDrop t ∧ ∀ r, op ≠ .delegSend t r) :
    t ∈ (after cap (ops ++ ops')).delegated ∧
    ((after cap (ops ++ ops')).slots t = .waiting ∨ (after cap (ops ++ ops')).slots t = .gaveUp) := by
  have hd : t ∈ (after cap (ops ++ ops')).delegated := by
    rw [after_append]
    generalize after cap ops = s at h
    clear hw
    induction ops' generalizing s with
    | nil => exact h
    | cons op l ih =>
      exact ih (fun o ho => hno o (by simp [ho])) _ (delegated_step s op t h (hno op (by simp)))
  refine ⟨hd, ?_⟩
  have hg := good_after cap (ops ++ ops')
  have hne : (after cap ops).slots t ≠ .none := by rcases hw with hw | hw <;> simp [hw]
  obtain ⟨b, hb, ha⟩ := ((good_after cap ops).slots.a t).mp hne
  have hsent : (t, Sig.msg b) ∈ (after cap (ops ++ ops')).mb.sent := by
    rw [after_append]
    have : ∀ (ops : List Op) (s : St), s.mb.sent <+: (s.exec ops).mb.sent := by
      intro ops
      induction ops with
      | nil => intro s; exact List.prefix_refl _
      | cons op ops ih => intro s; exact (sent_prefix s op).trans (ih (s.step op))
    exact (this ops' _).subset hb
  have hn2 := (hg.slots.a t).mpr ⟨b, hsent, ha⟩
  have hl : live (after cap (ops ++ ops')) t := by simp [live, hd]
  have := hg.slots.v t hl
  simpa [hn2] using this

example : 1 ∈ (after none (delegDemo.take 8)).delegated ∧
    (after none (delegDemo.take 8 ++ [.kill, .pollEnd])).phase = .stopping .killed [] true := by decide

end Verif.Lifecycle
