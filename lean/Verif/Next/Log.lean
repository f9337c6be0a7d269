import Verif.Next.Replies

/-! What the user sees of an actor with a `next` of its own: which of its functions are called, and when. -/

set_option linter.unusedSimpArgs false
set_option linter.unusedVariables false

namespace Verif.Next

/-! ### The specification: a reader of the log that knows what has to come next -/

/-- Where the reader of the log is. -/
inductive At where
  | new
  | run (h : Hook)
  | ended (h : Hook) (k : How)
  | got (b : Option Body)
  | killed
  | done
  | failed
  deriving DecidableEq, Repr

/-- The reader. `up`: `next` was called; `perm`: `StartupFinished` came or `on_start` failed; `fin`: the start-up is finished;
`wait`: the messages kept until then; `todo`: the messages to be handled before anything else; `last`: then the actor is to
stop. -/
structure Rd where
  at_ : At := .new
  up : Bool := false
  perm : Bool := false
  fin : Bool := false
  wait : Nat := 0
  todo : Nat := 0
  last : Bool := false
  deriving DecidableEq, Repr

/-- What is to be called if there may be messages to handle. -/
def Rd.work (q : Rd) : Hook × Rd :=
  match q.todo with
  | n + 1 => (.handle, { q with todo := n })
  | 0 => if q.last then (.stop, q) else (.next, q)

/-- The messages that were kept are to be handled. -/
def Rd.flush (q : Rd) (last : Bool) : Rd := { q with fin := true, todo := q.wait, wait := 0, last := last }

/-- What is to be called now. -/
def Rd.due (q : Rd) : Option (Hook × Rd) :=
  match q.at_ with
  | .new => some (.start, q)
  | .killed => some (.stop, q)
  | .ended .start .ok => some (.next, q)
  | .ended .start .full => some (.next, { q with fin := true })
  | .ended .start _ => some (.panic, { q with perm := true })
  | .ended .handle .fail => some (.panic, { q with todo := 0, last := false })
  | .ended .handle _ => some q.work
  | .ended .link .ok => some (.next, q)
  | .ended .link .leave => some (.stop, q)
  | .ended .link _ => some (.panic, q)
  | .ended .panic .ok => if q.up then some (.next, q) else some (.stop, q)
  | .ended .panic _ => some (.stop, q)
  | .got (some (.msg true)) => some ({ q with todo := 1 }).work
  | .got (some (.msg false)) => if q.fin then some ({ q with todo := 1 }).work else some ({ q with wait := q.wait + 1 }).work
  | .got (some .startup) => if q.perm then none else some (({ q with perm := true }).flush false).work
  | .got (some .linkDied) => some (.link, q)
  | .got (some .stop) => some (q.flush true).work
  | .got none => some (q.flush true).work
  | _ => none

/-- The reader reads an event. -/
def Rd.read (q : Rd) : Ev → Option Rd
  | .b h =>
    match q.due with
    | some (h', q') => if h = h' then some { q' with at_ := .run h, up := q'.up || h == .next } else none
    | none => none
  | .e h k =>
    if q.at_ = .run h ∧ h ≠ .next then some { q with at_ := if h = .stop then .done else .ended h k } else none
  | .got b => if q.at_ = .run .next then some { q with at_ := .got b } else none
  | .abort =>
    match q.at_ with
    | .run h => if q.up && h != .stop then some { q with at_ := .killed } else none
    | .ended .start .ok | .ended .start .full => some { q with at_ := .killed }
    | _ => none
  | .crash =>
    match q.at_ with
    | .run .next | .run .panic | .run .stop => some { q with at_ := .failed }
    | .got (some .startup) => if q.perm then some { q with at_ := .failed } else none
    | _ => none
  | .torn =>
    match q.at_ with
    | .run _ | .ended .start .ok | .ended .start .full => some { q with at_ := .failed }
    | _ => none

/-- The reader reads a log. -/
def reads (l : List Ev) : Option Rd := l.foldlM Rd.read {}

theorem reads_append (l m : List Ev) : reads (l ++ m) = (reads l).bind (fun q => m.foldlM Rd.read q) := by
  simp [reads]

/-! ### The log of the model is accepted -/

/-- The function that runs. -/
def Phase.hook : Phase → Hook
  | .starting => .start
  | .next => .next
  | .handling _ _ _ => .handle
  | .link => .link
  | .onPanic _ => .panic
  | _ => .stop

/-- Was `next` called? -/
def Phase.up : Phase → Bool
  | .starting => false
  | .onPanic st => !st
  | _ => true

/-- Is the actor to stop then? -/
def Phase.last : Phase → Bool
  | .handling _ _ fin => fin
  | _ => false

/-- The reader is where the task is. -/
def Match (s : St) (q : Rd) : Prop :=
  match s.phase with
  | .doomed => q.at_ = .ended .start .ok ∨ q.at_ = .ended .start .full
  | .stopping _ => q.at_ = .run .stop
  | .stopped _ => q.at_ = .done
  | .crashed => q.at_ = .failed
  | p => q.at_ = .run p.hook ∧ q.up = p.up ∧ q.perm = s.permits ∧ q.fin = s.finished ∧ q.wait = s.buffer.length ∧
      q.todo = p.rest.length ∧ q.last = p.last ∧ (p = .starting → s.buffer = [])

/-- The reader accepts the log, and is where the task is. -/
def Seen (s : St) : Prop := ∃ q, reads s.log = some q ∧ Match s q

variable {s : St}

theorem stop_seen (r : Reason) {q q' : Rd} (hr : reads s.log = some q) (hd : q.due = some (.stop, q')) :
    Seen (s.stop r) := by
  refine ⟨{ q' with at_ := .run .stop, up := q'.up || false }, ?_, rfl⟩
  simp [St.stop, tell_log, drop_log, reads_append, hr, Rd.read, hd]

theorem go_seen (l : List Item) (fin : Bool) {q q' : Rd} (hr : reads s.log = some q) (hd : q.due = some q'.work)
    (h1 : q'.perm = s.permits) (h2 : q'.fin = s.finished) (h3 : q'.wait = s.buffer.length) (h4 : q'.todo = l.length)
    (h5 : q'.last = fin) (h6 : q'.up = true) : Seen (s.go l fin) := by
  cases l with
  | nil =>
    simp only [List.length_nil] at h4
    cases fin with
    | false =>
      refine ⟨{ q' with at_ := .run .next, up := q'.up || true }, ?_, ?_⟩
      · simp [St.go, tell_log, reads_append, hr, Rd.read, hd, Rd.work, h4, h5]
      · simp [Match, St.go, Phase.hook, Phase.up, Phase.last, h1, h2, h3, h4, h5, h6]
    | true => exact stop_seen _ hr (q' := q') (by simp [hd, Rd.work, h4, h5])
  | cons it rest =>
    simp only [List.length_cons] at h4
    refine ⟨{ q' with at_ := .run .handle, todo := rest.length, up := q'.up || false }, ?_, ?_⟩
    · simp [St.go, tell_log, reads_append, hr, Rd.read, hd, Rd.work, h4, h5]
    · simp [Match, St.go, Phase.hook, Phase.up, Phase.last, h1, h2, h3, h4, h5, h6]

theorem fall_log (s : St) (e : Ev) : (s.fall e).log = s.log ++ [e] := by
  unfold St.fall; cases e : s.phase <;> simp

theorem fall_phase (s : St) (e : Ev) : (s.fall e).phase = .crashed := by
  unfold St.fall; cases e : s.phase <;> simp

theorem crash_log (s : St) : s.crash.log = s.log ++ [.crash] := fall_log s _

theorem crash_phase (s : St) : s.crash.phase = .crashed := fall_phase s _

theorem fall_seen {q : Rd} (e : Ev) (hr : reads s.log = some q)
    (hc : q.read e = some { q with at_ := .failed }) : Seen (s.fall e) := by
  refine ⟨{ q with at_ := .failed }, ?_, ?_⟩
  · simp [fall_log, reads_append, hr, hc]
  · simp [Match, fall_phase]

theorem crash_seen {q : Rd} (hr : reads s.log = some q)
    (hc : q.read .crash = some { q with at_ := .failed }) : Seen s.crash := fall_seen _ hr hc

theorem push_log (s : St) (b : Body) (ask : Bool) : (s.push b ask).log = s.log := by
  unfold St.push; split <;> rfl
theorem push_buffer (s : St) (b : Body) (ask : Bool) : (s.push b ask).buffer = s.buffer := by
  unfold St.push; split <;> rfl
theorem push_permits (s : St) (b : Body) (ask : Bool) : (s.push b ask).permits = s.permits := by
  unfold St.push; split <;> rfl
theorem push_finished (s : St) (b : Body) (ask : Bool) : (s.push b ask).finished = s.finished := by
  unfold St.push; split <;> rfl
theorem make_log (s : St) (b : Body) (ask : Bool) : (s.make b ask).log = s.log := by
  unfold St.make; split <;> rfl
theorem make_buffer (s : St) (b : Body) (ask : Bool) : (s.make b ask).buffer = s.buffer := by
  unfold St.make; split <;> rfl
theorem make_phase (s : St) (b : Body) (ask : Bool) : (s.make b ask).phase = s.phase := by
  unfold St.make; split <;> rfl
theorem make_permits (s : St) (b : Body) (ask : Bool) : (s.make b ask).permits = s.permits := by
  unfold St.make; split <;> rfl
theorem make_finished (s : St) (b : Body) (ask : Bool) : (s.make b ask).finished = s.finished := by
  unfold St.make; split <;> rfl

theorem Seen.same {s' : St} (h : Seen s) (h1 : s'.phase = s.phase) (h2 : s'.log = s.log) (h3 : s'.buffer = s.buffer)
    (h4 : s'.permits = s.permits) (h5 : s'.finished = s.finished) : Seen s' := by
  obtain ⟨q, hr, hm⟩ := h
  exact ⟨q, by rw [h2]; exact hr, by simp only [Match, h1, h3, h4, h5] at hm ⊢; exact hm⟩

/-- The reader in the phase `next`. -/
theorem match_next {q : Rd} (h : Match s q) (hp : s.phase = .next) :
    q.at_ = .run .next ∧ q.up = true ∧ q.perm = s.permits ∧ q.fin = s.finished ∧ q.wait = s.buffer.length ∧ q.todo = 0 ∧
      q.last = false := by
  simpa [Match, hp, Phase.hook, Phase.up, Phase.last] using h

theorem dispatch_seen (it : Item) {q : Rd} (hp : s.phase = .next) (hr : reads s.log = some q)
    (ha : q.at_ = .got (some it.body)) (h1 : q.up = true) (h2 : q.perm = s.permits) (h3 : q.fin = s.finished)
    (h4 : q.wait = s.buffer.length) (h5 : q.todo = 0) (h6 : q.last = false) : Seen (s.dispatch it) := by
  unfold St.dispatch
  split
  · rename_i hb
    rw [hb] at ha
    split
    · rename_i hpe
      exact crash_seen (q := q) hr (by simp [Rd.read, ha, h2, hpe])
    · rename_i hpe
      refine go_seen (q := q) (q' := ({ q with perm := true }).flush false) _ _ hr ?_ ?_ ?_ ?_ ?_ ?_ ?_
      · simp [Rd.due, ha, h2, hpe]
      · rfl
      · rfl
      · rfl
      · exact h4
      · rfl
      · exact h1
  · rename_i within hb
    rw [hb] at ha
    simp only []
    cases within with
    | true =>
      refine ⟨{ q with at_ := .run .handle, todo := 0, up := true }, ?_, ?_⟩
      · simp [reads_append, hr, Rd.read, Rd.due, ha, Rd.work, h1]
      · simp [Match, Phase.hook, Phase.up, Phase.last, h2, h3, h4, h6]
    | false =>
      cases hf : s.finished with
      | true =>
        refine ⟨{ q with at_ := .run .handle, todo := 0, up := true }, ?_, ?_⟩
        · simp [reads_append, hr, Rd.read, Rd.due, ha, Rd.work, h1, h3, hf]
        · simp [Match, Phase.hook, Phase.up, Phase.last, h2, h3, h4, h6, hf]
      | false =>
        refine ⟨{ q with at_ := .run .next, wait := q.wait + 1 }, ?_, ?_⟩
        · simp [reads_append, hr, Rd.read, Rd.due, ha, Rd.work, h1, h3, hf, h5, h6]
        · simp [Match, Phase.hook, Phase.up, Phase.last, h1, h2, h3, h4, h5, h6, hf]
  · rename_i hb
    rw [hb] at ha
    refine ⟨{ q with at_ := .run .link }, ?_, ?_⟩
    · simp [reads_append, hr, Rd.read, Rd.due, ha, h1]
    · simp [Match, Phase.hook, Phase.up, Phase.last, h1, h2, h3, h4, h5, h6]
  · rename_i hb
    rw [hb] at ha
    refine go_seen (q := q) (q' := q.flush true) _ _ hr ?_ h2 rfl rfl h4 rfl h1
    simp [Rd.due, ha]

theorem step_seen (h : Seen s) (op : Op) : Seen (s.step op) := by
  cases op with
  | send b ask => exact h.same (push_phase s b ask) (push_log s b ask) (push_buffer s b ask) (push_permits s b ask) (push_finished s b ask)
  | make b ask => exact h.same (make_phase s b ask) (make_log s b ask) (make_buffer s b ask) (make_permits s b ask) (make_finished s b ask)
  | startEnd r full =>
    simp only [St.step, St.startEnd]
    split
    · rename_i hp
      obtain ⟨q, hr, hm⟩ := h
      simp only [Match, hp, Phase.hook, Phase.up, Phase.last, rest_starting, List.length_nil] at hm
      obtain ⟨h1, h2, h3, h4, h5, h6, h7, h8⟩ := hm
      have h8 := h8 trivial
      rw [h8, List.length_nil] at h5
      have hx : ∀ k, reads (s.log ++ [.e .start k]) = some { q with at_ := .ended .start k } := by
        intro k; simp [reads_append, hr, Rd.read, h1]
      cases r with
      | ok =>
        cases full with
        | true =>
          simp only [if_true, St.enter]
          split
          · exact ⟨_, hx _, Or.inr rfl⟩
          refine ⟨{ q with at_ := .run .next, fin := true, up := true }, ?_, ?_⟩
          · simp [St.drain, St.go, h8, startHow, ← List.append_assoc]
            rw [reads_append, hx]
            simp [Rd.read, Rd.due]
          · simp [St.drain, St.go, h8, Match, Phase.hook, Phase.up, Phase.last, h3, h5, h6, h7]
        | false =>
          simp only [Bool.false_eq_true, if_false, St.enter]
          split
          · refine ⟨{ q with at_ := .ended .start .ok }, ?_, Or.inl rfl⟩
            simp only [push_log, tell_log, startHow]; exact hx _
          refine ⟨{ q with at_ := .run .next, up := true }, ?_, ?_⟩
          · simp [push_log, startHow, ← List.append_assoc]
            rw [reads_append, hx]
            simp [Rd.read, Rd.due]
          · simp [h8, Match, Phase.hook, Phase.up, Phase.last, h3, h4, h5, h6, h7, push_permits, push_finished, push_buffer]
      | err =>
        refine ⟨{ q with at_ := .run .panic, perm := true }, ?_, ?_⟩
        · cases full <;> simp [push_log, startHow, ← List.append_assoc] <;> rw [reads_append, hx] <;> simp [Rd.read, Rd.due, h2]
        · cases full <;> simp [h8, Match, Phase.hook, Phase.up, Phase.last, h2, h3, h4, h5, h6, h7, push_permits, push_finished, push_buffer]
      | panic =>
        refine ⟨{ q with at_ := .run .panic, perm := true }, ?_, ?_⟩
        · cases full <;> simp [push_log, startHow, ← List.append_assoc] <;> rw [reads_append, hx] <;> simp [Rd.read, Rd.due, h2]
        · cases full <;> simp [h8, Match, Phase.hook, Phase.up, Phase.last, h2, h3, h4, h5, h6, h7, push_permits, push_finished, push_buffer]
    · exact h
  | take n => simp only [St.step, St.take]; split <;> first | exact h | exact h.same rfl rfl rfl rfl rfl
  | close => simp only [St.step, St.close]; split <;> first | exact h | exact h.same rfl rfl rfl rfl rfl
  | spend i o =>
    simp only [St.step, St.spend]; split
    · exact h.same rfl rfl rfl rfl rfl
    · exact h
  | ret i =>
    simp only [St.step, St.ret]
    split
    · rename_i it hp hi
      obtain ⟨q, hr, hm⟩ := h
      obtain ⟨h1, h2, h3, h4, h5, h6, h7⟩ := match_next hm hp
      refine dispatch_seen (q := { q with at_ := .got (some it.body) }) it hp ?_ rfl h2 h3 h4 h5 h6 h7
      simp [reads_append, hr, Rd.read, h1]
    · exact h
  | retNone =>
    simp only [St.step, St.retNone]
    split
    · rename_i hp
      obtain ⟨q, hr, hm⟩ := h
      obtain ⟨h1, h2, h3, h4, h5, h6, h7⟩ := match_next hm hp
      refine go_seen (q := { q with at_ := .got none }) (q' := ({ q with at_ := .got none }).flush true) _ _ ?_ ?_ h3 rfl rfl
        h5 rfl h2
      · simp [reads_append, hr, Rd.read, h1]
      · simp [Rd.due]
    · exact h
  | nextPanic =>
    simp only [St.step, St.nextPanic]
    split
    · rename_i hp
      obtain ⟨q, hr, hm⟩ := h
      exact crash_seen (q := q) hr (by simp [Rd.read, (match_next hm hp).1])
    · exact h
  | handleEnd r =>
    simp only [St.step, St.handleEnd]
    split
    · rename_i it rest fin hp
      obtain ⟨q, hr, hm⟩ := h
      simp only [Match, hp, Phase.hook, Phase.up, Phase.last, rest_handling] at hm
      obtain ⟨h1, h2, h3, h4, h5, h6, h7, h8⟩ := hm
      have hx : ∀ k, reads (s.log ++ [.e .handle k]) = some { q with at_ := .ended .handle k } := by
        intro k; simp [reads_append, hr, Rd.read, h1]
      have hgo : ∀ o, Seen (((s.tell [.e .handle .ok]).settle it o).go rest fin) := by
        intro o
        refine go_seen (q := { q with at_ := .ended .handle .ok }) (q' := { q with at_ := .ended .handle .ok }) _ _ ?_ ?_
          (by simpa using h3) (by simpa using h4) (by simpa using h5) h6 h7 h2
        · simpa using hx _
        · simp [Rd.due]
      have hbad : Seen (((s.tell [.e .handle .fail]).settle it .dropped).drop rest).panicked := by
        refine ⟨{ q with at_ := .run .panic, todo := 0, last := false }, ?_, ?_⟩
        · simp only [St.panicked, tell_log, drop_log, settle_log]
          rw [reads_append, hx]
          simp [Rd.read, Rd.due, h2]
        · simp [Match, St.panicked, Phase.hook, Phase.up, Phase.last, h2, h3, h4, h5]
      cases r with
      | ok => exact hgo _
      | panic => exact hbad
      | err =>
        have ht : (s.tell [.e .handle (handleHow .err (it.ask && !s.taken))]).taken = s.taken := rfl
        rw [ht]
        cases ha : it.ask && !s.taken with
        | true => exact hgo _
        | false => exact hbad
    · exact h
  | linkEnd f =>
    simp only [St.step, St.linkEnd]
    split
    · rename_i hp
      obtain ⟨q, hr, hm⟩ := h
      simp only [Match, hp, Phase.hook, Phase.up, Phase.last, rest_link, List.length_nil] at hm
      obtain ⟨h1, h2, h3, h4, h5, h6, h7, h8⟩ := hm
      have hx : ∀ k, reads (s.log ++ [.e .link k]) = some { q with at_ := .ended .link k } := by
        intro k; simp [reads_append, hr, Rd.read, h1]
      have hpan : ∀ f : Flow, f.linkHow = .fail → Seen (s.tell [.e .link f.linkHow]).panicked := by
        intro f hf
        refine ⟨{ q with at_ := .run .panic }, ?_, ?_⟩
        · simp only [St.panicked, tell_log, hf]
          rw [reads_append, hx]
          simp [Rd.read, Rd.due, h2]
        · simp [Match, St.panicked, Phase.hook, Phase.up, Phase.last, h2, h3, h4, h5, h6, h7]
      cases f with
      | cont =>
        refine ⟨{ q with at_ := .run .next }, ?_, ?_⟩
        · simp only [tell_log, Flow.linkHow]
          rw [reads_append, hx]
          simp [Rd.read, Rd.due, h2]
        · simp [Match, Phase.hook, Phase.up, Phase.last, h2, h3, h4, h5, h6, h7]
      | brk r =>
        cases r with
        | panicked => exact hpan _ rfl
        | normal => exact stop_seen _ (hx _) (q' := { q with at_ := .ended .link .leave }) (by simp [Rd.due, Flow.linkHow])
        | killed => exact stop_seen _ (hx _) (q' := { q with at_ := .ended .link .leave }) (by simp [Rd.due, Flow.linkHow])
        | linkDied => exact stop_seen _ (hx _) (q' := { q with at_ := .ended .link .leave }) (by simp [Rd.due, Flow.linkHow])
      | err => exact hpan _ rfl
      | panic => exact hpan _ rfl
    · exact h
  | panicEnd f =>
    simp only [St.step, St.panicEnd]
    split
    · rename_i st hp
      obtain ⟨q, hr, hm⟩ := h
      simp only [Match, hp, Phase.hook, Phase.up, Phase.last, rest_onPanic, List.length_nil] at hm
      obtain ⟨h1, h2, h3, h4, h5, h6, h7, h8⟩ := hm
      have hx : ∀ k, reads (s.log ++ [.e .panic k]) = some { q with at_ := .ended .panic k } := by
        intro k; simp [reads_append, hr, Rd.read, h1]
      split
      · exact crash_seen (q := q) hr (by simp [Rd.read, h1])
      · cases st with
        | true => exact stop_seen _ (hx _) (q' := { q with at_ := .ended .panic .ok }) (by simp [Rd.due, Flow.panicHow, h2])
        | false =>
          refine ⟨{ q with at_ := .run .next }, ?_, ?_⟩
          · simp only [tell_log, Flow.panicHow, Bool.false_eq_true, if_false]
            rw [reads_append, hx]
            simp [Rd.read, Rd.due, h2]
          · simp [Match, Phase.hook, Phase.up, Phase.last, h2, h3, h4, h5, h6, h7]
      · exact stop_seen _ (hx _) (q' := { q with at_ := .ended .panic .leave }) (by simp [Rd.due, Flow.panicHow])
      · exact stop_seen _ (hx _) (q' := { q with at_ := .ended .panic .leave }) (by simp [Rd.due, Flow.panicHow])
    · exact h
  | stopEnd r =>
    simp only [St.step, St.stopEnd]
    split
    · rename_i w hp
      obtain ⟨q, hr, hm⟩ := h
      simp only [Match, hp] at hm
      split
      · exact crash_seen (q := q) hr (by simp [Rd.read, hm])
      · refine ⟨{ q with at_ := .done }, ?_, rfl⟩
        simp [reads_append, hr, Rd.read, hm]
    · exact h
  | kill => exact h.same rfl rfl rfl rfl rfl
  | abort =>
    simp only [St.step, St.abort]
    split
    · rename_i ha
      simp only [Bool.and_eq_true] at ha
      obtain ⟨q, hr, hm⟩ := h
      have hq : q.read .abort = some { q with at_ := .killed } := by
        have hb := ha.2
        simp only [Match] at hm
        cases e : s.phase with
        | onPanic st => cases st <;> simp_all [Phase.abortable, Phase.hook, Phase.up, Rd.read]
        | doomed => rw [e] at hm; rcases hm with hm | hm <;> simp [Rd.read, hm]
        | _ => simp_all [Phase.abortable, Phase.hook, Phase.up, Rd.read]
      have key : ∀ t : St, t.log = s.log ++ [.abort] → Seen (t.stop .killed) := by
        intro t ht
        refine stop_seen (q := { q with at_ := .killed }) (q' := { q with at_ := .killed }) _ ?_ (by simp [Rd.due])
        rw [ht]
        simp [reads_append, hr, hq]
      apply key
      split <;> simp
    · exact h
  | takeReply =>
    simp only [St.step, St.takeReply]
    split
    · split <;> first | exact h | exact h.same rfl rfl rfl rfl rfl
    · exact h
  | later x o => simp only [St.step, St.later]; split <;> first | exact h | exact h.same rfl rfl rfl rfl rfl
  | giveUp x => simp only [St.step, St.giveUp]; split <;> first | exact h | exact h.same rfl rfl rfl rfl rfl
  | teardown =>
    simp only [St.step, St.teardown]
    split
    · exact h
    · exact h
    · rename_i n1 n2
      obtain ⟨q, hr, hm⟩ := h
      refine fall_seen (q := q) _ hr ?_
      simp only [Match] at hm
      cases e : s.phase with
      | doomed => rw [e] at hm; rcases hm with hm | hm <;> simp [Rd.read, hm]
      | stopped r => exact absurd e (n1 r)
      | crashed => exact absurd e n2
      | stopping r => rw [e] at hm; simp [Rd.read, hm]
      | _ => rw [e] at hm; simp [Rd.read, hm.1]

theorem seen_after (ops : List Op) : Seen (after ops) := by
  unfold after
  have : ∀ (ops : List Op) (s : St), Seen s → Seen (ops.foldl St.step s) := by
    intro ops
    induction ops with
    | nil => intro s h; exact h
    | cons o os ih => intro s h; exact ih _ (step_seen h o)
  exact this ops {} ⟨_, rfl, by simp [Match, Phase.hook, Phase.up, Phase.last]⟩

/-! ### What the reader's acceptance means -/

/-- How many more calls of `on_stop` the reader lets pass. -/
def At.stops : At → Nat
  | .run .stop => 0
  | .done => 0
  | .failed => 0
  | _ => 1

/-- The reader lets no `on_start` pass unless it is at the beginning. -/
def At.starts : At → Nat
  | .new => 1
  | _ => 0

/-- How many calls of `on_stop` the reader has seen, if the task did not panic. -/
def At.stopped : At → Nat
  | .run .stop => 1
  | .done => 1
  | _ => 0

theorem work_hook (q : Rd) : q.work.1 ≠ .start := by
  unfold Rd.work; split
  · simp
  · split <;> simp

theorem due_at {q q' : Rd} {h : Hook} (hd : q.due = some (h, q')) :
    q.at_.stops = 1 ∧ q.at_.stopped = 0 ∧ (h = .start → q.at_ = .new) ∧ (q.at_ = .new → h = .start) ∧ q.at_ ≠ .failed := by
  have hw := work_hook
  unfold Rd.due at hd
  (repeat' split at hd) <;> simp_all [At.stops, At.stopped]
  all_goals
    intro e
    subst e
    first
      | (have h0 := hd.1; cases h0; done)
      | exact hw _ (by rw [hd])
      | (obtain ⟨_, e⟩ := hd; exact hw _ (by rw [e]))

theorem read_count {q q' : Rd} {e : Ev} (h : q.read e = some q') :
    q'.at_.stops + (if e = .b .stop then 1 else 0) ≤ q.at_.stops ∧
    q'.at_.starts + (if e = .b .start then 1 else 0) ≤ q.at_.starts ∧
    (q'.at_ ≠ .failed → q'.at_.stopped = q.at_.stopped + (if e = .b .stop then 1 else 0) ∧ (e ≠ .crash ∧ e ≠ .torn) ∧ q.at_ ≠ .failed) := by
  cases e with
  | b hk =>
    simp only [Rd.read] at h
    split at h
    · rename_i h' q1 hd
      split at h
      · rename_i e1
        subst e1
        simp only [Option.some.injEq] at h; subst h
        obtain ⟨d1, d2, d3, d4, d5⟩ := due_at hd
        cases hk <;> simp_all [At.stops, At.stopped, At.starts]
      · simp at h
    · simp at h
  | e hk k =>
    simp only [Rd.read] at h
    split at h
    · rename_i e1
      simp only [Option.some.injEq] at h; subst h
      rw [e1.1]
      cases hk <;> simp_all [At.stops, At.stopped, At.starts]
    · simp at h
  | got b =>
    simp only [Rd.read] at h
    split at h
    · rename_i e1
      simp only [Option.some.injEq] at h; subst h
      rw [e1]; simp [At.stops, At.stopped, At.starts]
    · simp at h
  | abort =>
    simp only [Rd.read] at h
    split at h
    · rename_i hk e1
      split at h
      · rename_i e2
        simp only [Option.some.injEq] at h; subst h
        rw [e1]
        cases hk <;> simp_all [At.stops, At.stopped, At.starts]
      · simp at h
    · rename_i e1; simp only [Option.some.injEq] at h; subst h; rw [e1]; simp [At.stops, At.stopped, At.starts]
    · rename_i e1; simp only [Option.some.injEq] at h; subst h; rw [e1]; simp [At.stops, At.stopped, At.starts]
    · simp at h
  | crash =>
    simp only [Rd.read] at h
    split at h
    · simp only [Option.some.injEq] at h; subst h; simp [At.stops, At.starts]
    · simp only [Option.some.injEq] at h; subst h; simp [At.stops, At.starts]
    · simp only [Option.some.injEq] at h; subst h; simp [At.stops, At.starts]
    · split at h
      · simp only [Option.some.injEq] at h; subst h; simp [At.stops, At.starts]
      · simp at h
    · simp at h
  | torn =>
    simp only [Rd.read] at h
    split at h
    · simp only [Option.some.injEq] at h; subst h; simp [At.stops, At.starts]
    · simp only [Option.some.injEq] at h; subst h; simp [At.stops, At.starts]
    · simp only [Option.some.injEq] at h; subst h; simp [At.stops, At.starts]
    · simp at h

theorem reads_count : ∀ (l : List Ev) (q q' : Rd), l.foldlM Rd.read q = some q' →
    q'.at_.stops + l.count (.b .stop) ≤ q.at_.stops ∧ q'.at_.starts + l.count (.b .start) ≤ q.at_.starts ∧
    (q'.at_ ≠ .failed → q'.at_.stopped = q.at_.stopped + l.count (.b .stop) ∧ (.crash ∉ l ∧ .torn ∉ l) ∧ q.at_ ≠ .failed)
  | [], q, q', h => by simp at h; subst h; simp
  | e :: t, q, q', h => by
    rw [List.foldlM_cons] at h
    cases hq : q.read e with
    | none => rw [hq] at h; simp at h
    | some q1 =>
      rw [hq] at h
      simp only [Option.bind_eq_bind, Option.bind_some] at h
      obtain ⟨a1, a2, a3⟩ := read_count hq
      obtain ⟨b1, b2, b3⟩ := reads_count t q1 q' h
      simp only [List.count_cons, beq_iff_eq]
      refine ⟨by omega, by omega, ?_⟩
      intro hf
      obtain ⟨c1, c2, c3⟩ := b3 hf
      obtain ⟨d1, d2, d3⟩ := a3 c3
      refine ⟨by omega, ?_, d3⟩
      simp only [List.mem_cons, not_or]; exact ⟨⟨fun e => d2.1 e.symm, c2.1⟩, fun e => d2.2 e.symm, c2.2⟩

theorem reads_some (ops : List Op) : ∃ q, reads (after ops).log = some q :=
  let ⟨q, h, _⟩ := seen_after ops
  ⟨q, h⟩

end Verif.Next
