import Verif.Pool.Requests

namespace Verif.Pool

/-! Specification: words of the claims in terms of the pool's workers and their mailboxes. -/

/-- The messages a worker has in its mailbox or is working on. -/
def inProgress (w : Worker) : Nat := (w.cur.toList ++ w.queue).length

/-- Worker `i` is the first of those with the fewest messages in progress. -/
def FirstLeast (ws : List Worker) (i : Nat) : Prop :=
  ∃ w, ws[i]? = some w ∧ (∀ (k : Nat) (v : Worker), ws[k]? = some v → inProgress w ≤ inProgress v) ∧
    (∀ (k : Nat) (v : Worker), ws[k]? = some v → k < i → inProgress w < inProgress v)

/-! ### C40 -/

/-- Three workers: a dispatch, an ask that waits for room, a broadcast with a stopped worker, its replacement. -/
def poolDemo : List Op :=
  [.dispatch 7 false, .attempt true, .dispatch 8 true, .attempt false, .pollSend true, .die 2, .broadcast 9,
   .pollCopy 1 true, .pollCopy 2 true, .pollCopy 0 true, .broadcastEnd, .linkDied 2 true false, .dispatch 10 false,
   .attempt true, .take 0]

/-- **C40** A pool has as many workers as it was made with, at all times. -/
theorem pool_size {zero : List Bool} {ops : List Op} {s : St} (h : after zero ops = some s) :
    s.workers.length = zero.length ∧ s.workers ≠ [] := by
  obtain ⟨h1, h2⟩ := inv_after h
  refine ⟨h2.len, fun he => ?_⟩
  have := h2.len
  rw [he] at this
  simp at this
  omega

example : ∃ s, after [false, false, false] poolDemo = some s ∧
    s.workers.map (fun w => (w.id, w.weak, w.isOpen)) = [(0, 2, true), (1, 2, true), (3, 1, true)] := by
  refine ⟨_, rfl, ?_⟩; decide

/-- **C40** When the pool learns of the death of a worker, it puts a fresh, running worker in the same place,
changes no other worker, and goes on.

Missing for the full claim: the pool stops if the new inner actor's mailbox is full
(`full_inner_actor_stops_pool`), and stops if it gets a message for a dead worker before it learns of its death
(`stopped_worker_fails_dispatch`). That the reference of the pool can be upgraded in its hook is `pool_can_upgrade`. -/
theorem worker_replaced_partial {zero : List Bool} {ops : List Op} {s : St} (h : after zero ops = some s)
    (hp : s.phase = .idle) {i : Nat} {w : Worker} (hw : s.workers[i]? = some w) :
    ∃ v, (s.step (.linkDied w.id true false)).workers = s.workers.set i v ∧ v.isOpen = true ∧ v.inner = true ∧
      inProgress v = 0 ∧ (∀ u ∈ s.workers, u.id ≠ v.id) ∧ (∀ e ∈ s.delivered, e.2 ≠ v.id) ∧
      (s.step (.linkDied w.id true false)).phase = .idle := by
  obtain ⟨_, hi⟩ := inv_after h
  have hix : s.workers.findIdx? (fun v => v.id == w.id) = some i := by
    obtain ⟨hlt, hwe⟩ := List.getElem?_eq_some_iff.mp hw
    rw [List.findIdx?_eq_some_iff_getElem]
    refine ⟨hlt, by simp [hwe], ?_⟩
    intro k hk
    have hk' : k < s.workers.length := by omega
    have := ids_ne hi.ids (List.getElem?_eq_getElem hk') hw (by omega)
    simpa using this
  refine ⟨{ id := s.next }, ?_, rfl, rfl, rfl, ?_, ?_, ?_⟩
  · simp [St.step, hp, hix]
  · intro u hu
    have := hi.lt u hu
    simp only
    omega
  · intro e he
    have := hi.dlt e he
    simp only
    omega
  · simp [St.step, hp, hix]

/-- Worker 1 of three has died with a message. -/
example : ∃ s w, after [false, false, false] [.dispatch 7 false, .attempt true, .dispatch 8 false, .attempt true, .die 1] =
    some s ∧ s.phase = .idle ∧ s.workers[1]? = some w ∧ w.isOpen = false ∧ w.lost = [⟨1, 8, false⟩] := by
  refine ⟨_, _, rfl, rfl, rfl, ?_, ?_⟩ <;> decide

/-- **C40** The death of an actor that is no worker of the pool changes nothing. -/
theorem unknown_death {zero : List Bool} {ops : List Op} {s : St} (_ : after zero ops = some s) (id : Nat)
    (hid : ∀ w ∈ s.workers, w.id ≠ id) (up zc : Bool) : s.step (.linkDied id up zc) = s := by
  have : s.workers.findIdx? (fun v => v.id == id) = none := by
    rw [List.findIdx?_eq_none_iff]
    intro w hw
    simpa using hid w hw
  simp only [St.step, this]
  split
  · split <;> rfl
  · rfl

/-- Worker 2 was replaced already; its death is announced once more. -/
example : ∃ s, after [false, false, false] poolDemo = some s ∧ (∀ w ∈ s.workers, w.id ≠ 2) ∧ s.phase = .idle := by
  refine ⟨_, rfl, ?_, ?_⟩ <;> decide

/-- **C40** fails if the new inner actor's mailbox is bounded and full: the pool stops. -/
theorem full_inner_actor_stops_pool {zero : List Bool} {ops : List Op} {s : St} (h : after zero ops = some s)
    (hp : s.phase = .idle) {i : Nat} {w : Worker} (hw : s.workers[i]? = some w) :
    (s.step (.linkDied w.id true true)).phase = .stopped := by
  obtain ⟨_, hi⟩ := inv_after h
  have hix : ∃ k, s.workers.findIdx? (fun v => v.id == w.id) = some k := by
    cases hc : s.workers.findIdx? (fun v => v.id == w.id) with
    | some k => exact ⟨k, rfl⟩
    | none =>
      rw [List.findIdx?_eq_none_iff] at hc
      have := hc w (List.mem_of_getElem? hw)
      simp at this
  obtain ⟨k, hk⟩ := hix
  simp [St.step, hp, hk]

example : ∃ s w, after [false, false] [.dispatch 7 false, .attempt true, .die 1] = some s ∧ s.phase = .idle ∧
    s.workers[1]? = some w ∧ w.id = 1 ∧ w.isOpen = false := by
  refine ⟨_, _, rfl, rfl, rfl, ?_, ?_⟩ <;> decide

/-! ### C41 -/

theorem load_eq {n : Nat} {s : St} (hi : Inv n s) (hp : ∀ k, pend s.phase k = 0) {k : Nat} {v : Worker}
    (hv : s.workers[k]? = some v) : v.weak = inProgress v := by
  have := (hi.wok k v hv).weak
  rw [hp] at this
  simp only [inProgress, List.length_append]
  omega

theorem nextWorker_first {n : Nat} (hn : 0 < n) {s : St} (hi : Inv n s) (hp : ∀ k, pend s.phase k = 0) :
    FirstLeast s.workers (nextWorker s.workers) := by
  have hne : s.workers ≠ [] := by
    intro he
    have := hi.len
    rw [he] at this
    simp at this
    omega
  obtain ⟨w, h1, h2, h3⟩ := nextWorker_spec s.workers hne
  refine ⟨w, h1, ?_, ?_⟩
  · intro k v hv
    rw [← load_eq hi hp h1, ← load_eq hi hp hv]
    exact h2 k v hv
  · intro k v hv hk
    rw [← load_eq hi hp h1, ← load_eq hi hp hv]
    exact h3 k v hv hk

/-- **C41** Every round of a dispatch is for the first of the workers with the fewest messages in progress:
that worker gets the message, or the pool waits for room in its mailbox, or it has stopped and nobody gets
the message. -/
theorem dispatch_least_loaded {zero : List Bool} {ops : List Op} {s : St} (h : after zero ops = some s) {j : Job}
    {left : Nat} (hp : s.phase = .trying j (left + 1)) (room : Bool) :
    ∃ i w, FirstLeast s.workers i ∧ s.workers[i]? = some w ∧
      ((s.step (.attempt room)).delivered = s.delivered ++ [(j, w.id)] ∨
       (s.step (.attempt room)).phase = .sending j left i ∧ (s.step (.attempt room)).delivered = s.delivered ∨
       w.isOpen = false ∧ (s.step (.attempt room)).delivered = s.delivered) := by
  obtain ⟨hn, hi⟩ := inv_after h
  have hf := nextWorker_first hn hi (by simp [hp, pend])
  obtain ⟨w, hw, _⟩ := id hf
  refine ⟨_, w, hf, hw, ?_⟩
  rw [step_attempt hp room hw]
  unfold St.poll
  split
  · rename_i ho
    refine Or.inr (Or.inr ⟨by simpa using ho, ?_⟩)
    unfold St.refused
    simp only
    split <;> rfl
  · split
    · left
      rw [deliver_eq (w := { w with weak := w.weak + 1 }) (by simp [St.upd, hw])]
      rfl
    · exact Or.inr (Or.inl ⟨rfl, rfl⟩)

example : ∃ s, after [false, false] [.dispatch 7 false, .attempt true, .dispatch 8 true] = some s ∧
    s.phase = .trying ⟨1, 8, true⟩ 2 ∧ s.workers.map inProgress = [1, 0] := by
  refine ⟨_, rfl, ?_, ?_⟩ <;> decide

/-- **C41** While the pool waits for worker `i`, nobody but worker `i` can get the message. -/
theorem waiting_dispatch {zero : List Bool} {ops : List Op} {s : St} (h : after zero ops = some s) {j : Job}
    {left i : Nat} (hp : s.phase = .sending j left i) (op : Op) :
    (s.step op).delivered = s.delivered ∨
      ∃ w, s.workers[i]? = some w ∧ w.isOpen = true ∧ (s.step op).delivered = s.delivered ++ [(j, w.id)] := by
  obtain ⟨hn, hi⟩ := inv_after h
  cases op with
  | pollSend room =>
    obtain ⟨w, hw⟩ : ∃ w, s.workers[i]? = some w :=
      ⟨_, List.getElem?_eq_getElem (by rw [hi.len]; exact hi.idx j left i hp)⟩
    rw [step_pollSend hp room hw]
    unfold St.poll
    split
    · left
      unfold St.refused
      simp only
      split <;> rfl
    · rename_i ho
      split
      · right
        rw [deliver_eq hw]
        exact ⟨w, hw, by simpa using ho, rfl⟩
      · exact Or.inl rfl
  | take k => left; simp only [St.step]; split <;> (try split) <;> rfl
  | done k ok => left; simp only [St.step]; split <;> (try split) <;> (try split) <;> (try split) <;> (try split) <;> rfl
  | die k => exact Or.inl rfl
  | innerDie k => exact Or.inl rfl
  | _ => left; simp [St.step, hp]

/-- The pool waits for worker 1. -/
example : ∃ s, after [false, false] [.dispatch 6 false, .attempt true, .dispatch 7 false, .attempt false] = some s ∧
    s.phase = .sending ⟨1, 7, false⟩ 1 1 ∧ (s.step (.pollSend true)).delivered.map (·.2) = [0, 1] := by
  refine ⟨_, rfl, ?_, ?_⟩ <;> decide

/-- **C41** A message whose dispatch succeeded was given to exactly one worker, once. A message whose
dispatch failed was given to none. -/
theorem dispatched_once {zero : List Bool} {ops : List Op} {s : St} (h : after zero ops = some s) {j : Job}
    {o : Outcome} (ho : (j, o) ∈ s.outs) :
    (o = .forwarded → ∃ id, s.delivered.filter (fun e => e.1.no == j.no) = [(j, id)]) ∧
    (o ≠ .forwarded → s.delivered.filter (fun e => e.1.no == j.no) = []) := by
  obtain ⟨_, h2, h3, _⟩ := (req_after h).outs (j, o) ho
  exact ⟨h2, h3⟩

/-- A message that was given to worker 0, and one that was given to nobody. -/
example : ∃ s, after [false, false] [.dispatch 7 false, .attempt true, .die 1, .dispatch 8 true, .attempt true] = some s ∧
    (⟨0, 7, false⟩, .forwarded) ∈ s.outs ∧ (⟨1, 8, true⟩, .panicked) ∈ s.outs := by
  refine ⟨_, rfl, ?_, ?_⟩ <;> decide

/-- **C41** A worker works on the messages it was given in the order it was given them, each once: what it
was given is what it has done, then what it is doing, then what is in its mailbox (or what it had when it
stopped). -/
theorem worker_history {zero : List Bool} {ops : List Op} {s : St} (h : after zero ops = some s) {w : Worker}
    (hw : w ∈ s.workers) :
    (s.delivered.filter (fun e => e.2 == w.id)).map (·.1) = w.fin ++ w.cur.toList ++ w.queue ++ w.lost ∧
      (w.isOpen = true → w.lost = []) := by
  obtain ⟨_, hi⟩ := inv_after h
  obtain ⟨i, hi'⟩ := List.mem_iff_getElem?.mp hw
  have := hi.wok i w hi'
  exact ⟨this.hist, this.lost⟩

/-- Worker 0 has done a message, works on one, and has one in its mailbox. -/
example : ∃ s w, after [false] [.dispatch 7 false, .attempt true, .dispatch 8 true, .attempt true, .take 0,
    .done 0 true, .take 0, .dispatch 9 false, .attempt true] = some s ∧ s.workers = [w] ∧
    w.fin.map (·.m) = [7] ∧ w.cur.map (·.m) = some 8 ∧ w.queue.map (·.m) = [9] := by
  refine ⟨_, _, rfl, rfl, ?_, ?_, ?_⟩ <;> decide

/-! ### C42 -/

/-- The claim of C42 for one request: if it fails, all workers have stopped. -/
def DispatchSurvives : Prop :=
  ∀ zero ops s op, after zero ops = some s → ∀ j o, (s.step op).outs = s.outs ++ [(j, o)] → o ≠ .forwarded →
    (∀ w ∈ s.workers, w.isOpen = false) ∧ o = .notRunning j.m

/-- **C42** If all workers are running and there is room, dispatching a message hands it to a worker.

Missing for the full claim: stopped workers that have not been replaced yet
(`stopped_worker_fails_dispatch`). -/
theorem dispatch_succeeds_partial {zero : List Bool} {ops : List Op} {s : St} (h : after zero ops = some s)
    (hp : s.phase = .idle) (hall : ∀ w ∈ s.workers, w.isOpen = true) (m : Nat) (ask : Bool) :
    ∃ w ∈ s.workers, (run s [.dispatch m ask, .attempt true]).delivered = s.delivered ++ [(⟨s.reqs, m, ask⟩, w.id)] ∧
      (run s [.dispatch m ask, .attempt true]).outs = s.outs ++ [(⟨s.reqs, m, ask⟩, .forwarded)] ∧
      (run s [.dispatch m ask, .attempt true]).phase = .idle := by
  obtain ⟨hn, hi⟩ := inv_after h
  have hi2 := inv_step hn hi (.dispatch m ask)
  have h2 : s.step (.dispatch m ask) =
      { s with phase := .trying ⟨s.reqs, m, ask⟩ s.workers.length, reqs := s.reqs + 1 } := by
    simp only [St.step, hp]
  obtain ⟨left, hl⟩ : ∃ left, s.workers.length = left + 1 := ⟨s.workers.length - 1, by have := hi.len; omega⟩
  have hlt := hi.nextWorker_lt hn
  obtain ⟨w, hw⟩ : ∃ w, s.workers[nextWorker s.workers]? = some w :=
    ⟨_, List.getElem?_eq_getElem (by rw [hi.len]; exact hlt)⟩
  have ho := hall w (List.mem_of_getElem? hw)
  have e : run s [.dispatch m ask, .attempt true] = (s.step (.dispatch m ask)).step (.attempt true) := rfl
  refine ⟨w, List.mem_of_getElem? hw, ?_⟩
  rw [e, h2, step_attempt (s := { s with phase := .trying ⟨s.reqs, m, ask⟩ s.workers.length, reqs := s.reqs + 1 })
    (j := ⟨s.reqs, m, ask⟩) (left := left) (w := w) (by simp [hl]) true hw]
  unfold St.poll
  simp only [ho, Bool.not_true, Bool.false_eq_true, if_false, if_true]
  rw [deliver_eq (w := { w with weak := w.weak + 1 }) (by simp [St.upd, hw])]
  exact ⟨rfl, rfl, trivial⟩

example : ∃ s, after [false, false, false] poolDemo = some s ∧ s.phase = .idle ∧
    (∀ w ∈ s.workers, w.isOpen = true) ∧ s.workers.length = 3 := by
  refine ⟨_, rfl, ?_, ?_, ?_⟩ <;> decide

/-- **C42** Whatever a worker gets, from a dispatch or a broadcast, it gets while it is running. -/
theorem delivered_to_running {zero : List Bool} {ops : List Op} {s : St} (h : after zero ops = some s) (op : Op) :
    (s.step op).delivered = s.delivered ∨
      ∃ w j, w ∈ s.workers ∧ w.isOpen = true ∧ (s.step op).delivered = s.delivered ++ [(j, w.id)] := by
  obtain ⟨hn, hi⟩ := inv_after h
  have hpoll : ∀ (s : St) (room : Bool) (j : Job) (left i : Nat) (w : Worker), s.workers[i]? = some w →
      (s.poll room j left i w).delivered = s.delivered ∨
      w.isOpen = true ∧ (s.poll room j left i w).delivered = s.delivered ++ [(j, w.id)] := by
    intro s room j left i w hw
    unfold St.poll
    split
    · left
      unfold St.refused
      simp only
      split <;> rfl
    · rename_i ho
      split
      · right
        rw [deliver_eq hw]
        exact ⟨by simpa using ho, rfl⟩
      · exact Or.inl rfl
  cases op with
  | attempt room =>
    cases hp : s.phase with
    | trying j left =>
      cases left with
      | zero => left; simp [St.step, hp]
      | succ left =>
        have hlt := hi.nextWorker_lt hn
        obtain ⟨w, hw⟩ : ∃ w, s.workers[nextWorker s.workers]? = some w :=
          ⟨_, List.getElem?_eq_getElem (by rw [hi.len]; exact hlt)⟩
        rw [step_attempt hp room hw]
        rcases hpoll { s.upd (nextWorker s.workers) (fun w => { w with weak := w.weak + 1 }) with
            phase := .sending j left (nextWorker s.workers) } room j left (nextWorker s.workers)
            { w with weak := w.weak + 1 } (by simp [St.upd, hw]) with h1 | ⟨h1, h2⟩
        · exact Or.inl h1
        · exact Or.inr ⟨w, j, List.mem_of_getElem? hw, h1, h2⟩
    | _ => left; simp [St.step, hp]
  | pollSend room =>
    cases hp : s.phase with
    | sending j left i =>
      obtain ⟨w, hw⟩ : ∃ w, s.workers[i]? = some w :=
        ⟨_, List.getElem?_eq_getElem (by rw [hi.len]; exact hi.idx j left i hp)⟩
      rw [step_pollSend hp room hw]
      rcases hpoll s room j left i w hw with h1 | ⟨h1, h2⟩
      · exact Or.inl h1
      · exact Or.inr ⟨w, j, List.mem_of_getElem? hw, h1, h2⟩
    | _ => left; simp [St.step, hp]
  | pollCopy i room =>
    simp only [St.step]
    split
    · split
      · rename_i w hres hw
        split
        · exact Or.inl rfl
        · rename_i ho
          split
          · rw [deliver_eq hw]
            exact Or.inr ⟨w, _, List.mem_of_getElem? hw, by simpa using ho, rfl⟩
          · exact Or.inl rfl
      · exact Or.inl rfl
    · exact Or.inl rfl
  | dispatch m ask => left; simp only [St.step]; split <;> rfl
  | broadcast m => left; simp only [St.step]; split <;> rfl
  | broadcastEnd => left; simp only [St.step]; split <;> (try split) <;> rfl
  | linkDied id up zc => left; simp only [St.step]; split <;> (try split) <;> (try split) <;> (try split) <;> rfl
  | take k => left; simp only [St.step]; split <;> (try split) <;> rfl
  | done k ok => left; simp only [St.step]; split <;> (try split) <;> (try split) <;> (try split) <;> (try split) <;> rfl
  | die k => exact Or.inl rfl
  | innerDie k => exact Or.inl rfl

example : ∃ s, after [false, false, false] [.die 0, .broadcast 9] = some s ∧
    (s.step (.pollCopy 0 true)).delivered = [] ∧ (s.step (.pollCopy 1 true)).delivered.map (·.2) = [1] := by
  refine ⟨_, rfl, ?_, ?_⟩ <;> decide

/-- A stopped worker has nothing in progress, so it is the one the pool picks unless an earlier worker has
nothing in progress either. -/
theorem stopped_worker_picked {n : Nat} (hn : 0 < n) {s : St} (hi : Inv n s) (hp : ∀ k, pend s.phase k = 0)
    {i : Nat} {w : Worker} (hw : s.workers[i]? = some w) (hc : w.isOpen = false)
    (hb : ∀ (k : Nat) (v : Worker), s.workers[k]? = some v → k < i → 0 < inProgress v) :
    nextWorker s.workers = i := by
  have hz : inProgress w = 0 := by
    have := (hi.wok i w hw).closed hc
    simp [inProgress, this]
  obtain ⟨v, hv, h1, h2⟩ := nextWorker_first hn hi hp
  rcases Nat.lt_trichotomy (nextWorker s.workers) i with h | h | h
  · have := hb _ v hv h
    have := h1 i w hw
    omega
  · exact h
  · have := h2 i w hw h
    omega

theorem refuse_back {s : St} {i : Nat} :
    ((s.upd i (fun w => { w with weak := w.weak + 1 })).upd i (fun w => { w with weak := w.weak - 1 })) = s := by
  have : (s.workers.modify i (fun w => { w with weak := w.weak + 1 })).modify i (fun w => { w with weak := w.weak - 1 }) =
      s.workers := by
    apply List.ext_getElem?
    intro k
    simp only [List.getElem?_modify]
    by_cases hk : i = k
    · subst hk
      cases hc : s.workers[i]? with
      | none => simp
      | some w => simp
    · simp [hk]
  unfold St.upd
  simp only [this]

theorem attempt_stopped {s : St} {j : Job} {left : Nat} {w : Worker} (hp : s.phase = .trying j (left + 1)) (room : Bool)
    (hw : s.workers[nextWorker s.workers]? = some w) (hc : w.isOpen = false) :
    s.step (.attempt room) = if j.ask then { s with phase := .stopped, outs := s.outs ++ [(j, .panicked)] }
      else { s with phase := .trying j left } := by
  rw [step_attempt hp room hw, poll_phase]
  unfold St.poll
  simp only [hc, Bool.not_false, if_true, St.refused]
  rw [refuse_back]

/-- **C42**, and with it **C40**, fail beside any stopped worker: whenever a worker has stopped, has not been replaced yet, and
the workers before it are busy, dispatching a message gives it to nobody, however many other workers are
running and have room. On a tell all the rounds of the loop go to the same stopped worker and the message
is lost with the error; on an ask the handler panics at once. In both cases the pool itself stops. -/
theorem stopped_worker_fails_dispatch {zero : List Bool} {ops : List Op} {s : St} (h : after zero ops = some s)
    (hp : s.phase = .idle) {i : Nat} {w : Worker} (hw : s.workers[i]? = some w) (hc : w.isOpen = false)
    (hb : ∀ (k : Nat) (v : Worker), s.workers[k]? = some v → k < i → 0 < inProgress v) (m : Nat) (ask : Bool) :
    let s' := run s (.dispatch m ask :: List.replicate (zero.length + 1) (.attempt true))
    s'.delivered = s.delivered ∧ s'.phase = .stopped ∧
      s'.outs = s.outs ++ [(⟨s.reqs, m, ask⟩, if ask then .panicked else .notRunning m)] := by
  obtain ⟨hn, hi⟩ := inv_after h
  have hnw := stopped_worker_picked hn hi (by simp [hp, pend]) hw hc hb
  have stays : ∀ (k : Nat) (t : St), t.phase = .stopped → run t (List.replicate k (.attempt true)) = t := by
    intro k
    induction k with
    | zero => exact fun _ _ => rfl
    | succ k ih =>
      intro t ht
      have : t.step (.attempt true) = t := by simp [St.step, ht]
      simp only [List.replicate_succ, run, List.foldl_cons, this]
      exact ih t ht
  have loop : ∀ (left : Nat) (j : Job) (t : St), t.workers = s.workers → t.phase = .trying j left → j.ask = false →
      let t' := run t (List.replicate (left + 1) (.attempt true))
      t'.delivered = t.delivered ∧ t'.phase = .stopped ∧ t'.outs = t.outs ++ [(j, .notRunning j.m)] := by
    intro left
    induction left with
    | zero =>
      intro j t _ ht _
      simp [run, St.step, ht]
    | succ left ih =>
      intro j t hws ht hj
      have hstep := attempt_stopped (s := t) (w := w) ht true (by rw [hws, hnw]; exact hw) hc
      rw [hj] at hstep
      simp only [Bool.false_eq_true, if_false] at hstep
      rw [List.replicate_succ]
      simp only [run, List.foldl_cons, hstep]
      exact ih j { t with phase := .trying j left } hws rfl hj
  have h2 : s.step (.dispatch m ask) =
      { s with phase := .trying ⟨s.reqs, m, ask⟩ zero.length, reqs := s.reqs + 1 } := by
    simp only [St.step, hp, hi.len]
  simp only [run, List.foldl_cons, h2]
  cases ask with
  | false => exact loop _ ⟨s.reqs, m, false⟩ { s with phase := .trying ⟨s.reqs, m, false⟩ zero.length, reqs := s.reqs + 1 } rfl rfl rfl
  | true =>
    obtain ⟨left, hl⟩ : ∃ left, zero.length = left + 1 := ⟨zero.length - 1, by omega⟩
    have hstep := attempt_stopped (s := { s with phase := .trying ⟨s.reqs, m, true⟩ zero.length, reqs := s.reqs + 1 })
      (j := ⟨s.reqs, m, true⟩) (left := left) (w := w) (by simp [hl]) true (by simp only [hnw]; exact hw) hc
    simp only [if_true] at hstep
    rw [List.replicate_succ, List.foldl_cons, hstep]
    have := stays zero.length { s with
      phase := .stopped, reqs := s.reqs + 1, outs := s.outs ++ [(⟨s.reqs, m, true⟩, .panicked)] } rfl
    unfold run at this
    rw [this]
    exact ⟨rfl, rfl, rfl⟩

/-- Worker 0 is busy, worker 1 has stopped, worker 2 has nothing to do. -/
example : ∃ s w, after [false, false, false] [.dispatch 7 false, .attempt true, .die 1] = some s ∧ s.phase = .idle ∧
    s.workers[1]? = some w ∧ w.isOpen = false ∧
    s.workers.map (fun w => (w.isOpen, inProgress w)) = [(true, 1), (false, 0), (true, 0)] := by
  refine ⟨_, _, rfl, rfl, rfl, ?_, ?_⟩ <;> decide

/-- **C42** If every worker has stopped, a message that was told to the pool comes back as not delivered, with
the message itself. (For an ask the handler panics instead, see `stopped_worker_fails_dispatch`.) -/
theorem all_stopped_reported {zero : List Bool} {ops : List Op} {s : St} (h : after zero ops = some s)
    (hp : s.phase = .idle) (hall : ∀ w ∈ s.workers, w.isOpen = false) (m : Nat) :
    (run s (.dispatch m false :: List.replicate (zero.length + 1) (.attempt true))).outs =
      s.outs ++ [(⟨s.reqs, m, false⟩, .notRunning m)] := by
  obtain ⟨hn, hi⟩ := inv_after h
  obtain ⟨w, hw⟩ : ∃ w, s.workers[0]? = some w := ⟨_, List.getElem?_eq_getElem (by rw [hi.len]; exact hn)⟩
  exact (stopped_worker_fails_dispatch h hp hw (hall w (List.mem_of_getElem? hw)) (by omega) m false).2.2

example : ∃ s, after [false, false] [.dispatch 7 false, .attempt true, .die 1, .die 0] = some s ∧ s.phase = .idle ∧
    (∀ w ∈ s.workers, w.isOpen = false) ∧ s.workers.length = 2 := by
  refine ⟨_, rfl, ?_, ?_, ?_⟩ <;> decide

/-- **C42** at full strength does not hold: one of three workers has stopped, a message is dispatched, the other
two get nothing and the request fails. -/
theorem dispatch_does_not_survive : ¬ DispatchSurvives := by
  intro h
  have hs : ∃ s, after [false, false, false]
      [.die 0, .dispatch 7 false, .attempt true, .attempt true, .attempt true] = some s ∧
      (s.step (.attempt true)).outs = s.outs ++ [(⟨0, 7, false⟩, .notRunning 7)] ∧
      ∃ w ∈ s.workers, w.isOpen = true := by
    refine ⟨_, rfl, ?_, ?_⟩ <;> decide
  obtain ⟨s, h1, h2, w, h3, h4⟩ := hs
  have := (h _ _ s (.attempt true) h1 _ _ h2 (by simp)).1 w h3
  rw [h4] at this
  cases this

/-- A worker has died, the other two are running; a message told to the pool before it learns of the death stops the
pool. -/
example : ∃ s, after [false, false, false]
    [.die 0, .dispatch 7 false, .attempt true, .attempt true, .attempt true, .attempt true] = some s ∧
    s.phase = .stopped ∧ s.workers.map (·.isOpen) = [false, true, true] := by
  refine ⟨_, rfl, ?_, ?_⟩ <;> decide

/-- Asking the pool `m` beside a worker `i` whose inner actor is gone: the dispatch, and what the worker does
(`actors/src/pool.rs` L312-338, L243-260). -/
def askBeside (i m : Nat) : List Op := [.dispatch m true, .attempt true, .take i, .done i false]

theorem idle_worker_picked {n : Nat} (hn : 0 < n) {s : St} (hi : Inv n s) (hp : ∀ k, pend s.phase k = 0)
    {i : Nat} {w : Worker} (hw : s.workers[i]? = some w) (hz : inProgress w = 0)
    (hb : ∀ (k : Nat) (v : Worker), s.workers[k]? = some v → k < i → 0 < inProgress v) :
    nextWorker s.workers = i := by
  obtain ⟨v, hv, h1, h2⟩ := nextWorker_first hn hi hp
  rcases Nat.lt_trichotomy (nextWorker s.workers) i with h | h | h
  · have := hb _ v hv h
    have := h1 i w hw
    omega
  · exact h
  · have := h2 i w hw h
    omega

/-- The state after such an ask, up to the last step. -/
theorem ask_taken {n : Nat} (hn : 0 < n) {s : St} (hi : Inv n s) (hp : s.phase = .idle) {i : Nat} {w : Worker}
    (hw : s.workers[i]? = some w) (ho : w.isOpen = true) (hz : inProgress w = 0)
    (hb : ∀ (k : Nat) (v : Worker), s.workers[k]? = some v → k < i → 0 < inProgress v) (m : Nat) :
    run s [.dispatch m true, .attempt true, .take i] =
      { s with
        workers := s.workers.modify i (fun w => { w with queue := [], cur := some ⟨s.reqs, m, true⟩, weak := w.weak + 1 })
        reqs := s.reqs + 1
        delivered := s.delivered ++ [(⟨s.reqs, m, true⟩, w.id)]
        outs := s.outs ++ [(⟨s.reqs, m, true⟩, .forwarded)] } := by
  have hq : w.queue = [] ∧ w.cur = none := by
    simp only [inProgress, List.length_eq_zero_iff, List.append_eq_nil_iff] at hz
    exact ⟨hz.2, by cases hc : w.cur <;> simp_all⟩
  have hnw := idle_worker_picked hn hi (by simp [hp, pend]) hw hz hb
  obtain ⟨left, hl⟩ : ∃ left, s.workers.length = left + 1 := by
    have := hi.len
    exact ⟨s.workers.length - 1, by omega⟩
  have hm : ∀ f : Worker → Worker, (s.workers.modify i f)[i]? = some (f w) := by
    intro f; simp [hw]
  simp only [run, List.foldl_cons, List.foldl_nil]
  have e1 : s.step (.dispatch m true) = { s with phase := .trying ⟨s.reqs, m, true⟩ (left + 1), reqs := s.reqs + 1 } := by
    simp only [St.step, hp, hl]
  rw [e1]
  simp only [St.step, hnw, St.upd, St.deliver, hm, ho, Bool.not_true, Bool.false_eq_true, if_false, if_true,
    Worker.push, hq.1, hq.2, List.modify_modify_eq, Function.comp_apply, List.nil_append]
  rw [hp]
  rfl

/-- The state after such an ask. -/
theorem ask_round {n : Nat} (hn : 0 < n) {s : St} (hi : Inv n s) (hp : s.phase = .idle) {i : Nat} {w : Worker}
    (hw : s.workers[i]? = some w) (ho : w.isOpen = true) (hz : inProgress w = 0)
    (hb : ∀ (k : Nat) (v : Worker), s.workers[k]? = some v → k < i → 0 < inProgress v) (m : Nat) :
    run s (askBeside i m) =
      { s with
        workers := s.workers.modify i
          (fun w => { w with queue := [], cur := none, fin := w.fin ++ [⟨s.reqs, m, true⟩] })
        reqs := s.reqs + 1
        delivered := s.delivered ++ [(⟨s.reqs, m, true⟩, w.id)]
        outs := s.outs ++ [(⟨s.reqs, m, true⟩, .forwarded)]
        answers := s.answers ++ [(s.reqs, false)] } := by
  have h := ask_taken hn hi hp hw ho hz hb m
  have hr : run s (askBeside i m) = (run s [.dispatch m true, .attempt true, .take i]).step (.done i false) := rfl
  have hm : ∀ f : Worker → Worker, (s.workers.modify i f)[i]? = some (f w) := by
    intro f; simp [hw]
  rw [hr, h]
  simp only [St.step, hm, Bool.false_and, Bool.false_eq_true, if_false, if_true, St.upd, List.modify_modify_eq]
  rfl

/-- **C42 is false** for asks beside any worker whose inner actor is gone: the worker stays, and while it has nothing to do
and the workers before it are busy, every ask goes to it, one after the other, and every one is answered with an error (it
cannot be answered with anything else), however many other workers would do. -/
theorem asks_beside_dead_inner {zero : List Bool} {ops : List Op} {s : St} (h : after zero ops = some s)
    (hp : s.phase = .idle) {i : Nat} {w : Worker} (hw : s.workers[i]? = some w) (hin : w.inner = false)
    (ho : w.isOpen = true) (hz : inProgress w = 0)
    (hb : ∀ (k : Nat) (v : Worker), s.workers[k]? = some v → k < i → 0 < inProgress v) (ms : List Nat) :
    let s' := run s (ms.flatMap (askBeside i))
    s'.phase = .idle ∧ s'.answers = s.answers ++ (List.range ms.length).map (fun k => (s.reqs + k, false)) ∧
      s'.outs = s.outs ++ ms.mapIdx (fun k m => (⟨s.reqs + k, m, true⟩, .forwarded)) ∧
      (∀ k, k ≠ i → s'.workers[k]? = s.workers[k]?) ∧
      ∀ m, (run s' [.dispatch m true, .attempt true, .take i, .done i true]).answers = s'.answers := by
  suffices hs : ∀ (ms : List Nat) (s : St) (w : Worker), Inv zero.length s → s.phase = .idle → s.workers[i]? = some w →
      w.inner = false → w.isOpen = true → inProgress w = 0 →
      (∀ (k : Nat) (v : Worker), s.workers[k]? = some v → k < i → 0 < inProgress v) →
      let s' := run s (ms.flatMap (askBeside i))
      s'.phase = .idle ∧ s'.answers = s.answers ++ (List.range ms.length).map (fun k => (s.reqs + k, false)) ∧
        s'.outs = s.outs ++ ms.mapIdx (fun k m => (⟨s.reqs + k, m, true⟩, .forwarded)) ∧
        (∀ k, k ≠ i → s'.workers[k]? = s.workers[k]?) ∧
        ∀ m, (run s' [.dispatch m true, .attempt true, .take i, .done i true]).answers = s'.answers from
    hs ms s w (inv_after h).2 hp hw hin ho hz hb
  have hn := (inv_after h).1
  intro ms
  induction ms with
  | nil =>
    intro s w hi hp hw hin ho hz hb
    refine ⟨hp, by simp [run], by simp [run], fun _ _ => rfl, fun m => ?_⟩
    have h := ask_taken hn hi hp hw ho hz hb m
    have hr : run (run s ([].flatMap (askBeside i))) [.dispatch m true, .attempt true, .take i, .done i true] =
      (run s [.dispatch m true, .attempt true, .take i]).step (.done i true) := rfl
    have hm : ∀ f : Worker → Worker, (s.workers.modify i f)[i]? = some (f w) := by
      intro f; simp [hw]
    rw [hr, h]
    simp only [St.step, hm, hin, Bool.not_false, Bool.and_self, if_true]
    rfl
  | cons m ms ih =>
    intro s w hi hp hw hin ho hz hb
    have hround := ask_round hn hi hp hw ho hz hb m
    have hi' : Inv zero.length (run s (askBeside i m)) := by
      have : ∀ (l : List Op) (s : St), Inv zero.length s → Inv zero.length (run s l) := by
        intro l
        induction l with
        | nil => exact fun _ h => h
        | cons op l ih => exact fun s h => ih _ (inv_step hn h op)
      exact this _ _ hi
    have hrun : run s ((m :: ms).flatMap (askBeside i)) = run (run s (askBeside i m)) (ms.flatMap (askBeside i)) := by
      simp [run, List.flatMap_cons]
    have hother : ∀ k, k ≠ i → (run s (askBeside i m)).workers[k]? = s.workers[k]? := by
      intro k hk
      rw [hround]
      simp [Ne.symm hk]
    obtain ⟨a1, a2, a3, a4, a5⟩ := ih (run s (askBeside i m)) { w with queue := [], cur := none, fin := w.fin ++ [⟨s.reqs, m, true⟩] }
      hi' (by rw [hround]; exact hp) (by rw [hround]; simp [hw]) hin ho rfl
      (fun k v hv hk => hb k v (by rw [← hother k (by omega)]; exact hv) hk)
    rw [hrun]
    refine ⟨a1, ?_, ?_, fun k hk => (a4 k hk).trans (hother k hk), a5⟩
    · rw [a2, hround]
      simp [List.range_succ_eq_map, Nat.add_assoc, Nat.add_comm 1, Function.comp_def]
    · rw [a3, hround]
      simp [List.mapIdx_cons, Nat.add_assoc, Nat.add_comm 1]

/-- The first worker's inner actor is gone; the second worker would do. -/
example : ∃ s w, after [false, false] [.innerDie 0] = some s ∧ s.phase = .idle ∧ s.workers[0]? = some w ∧
    w.inner = false ∧ w.isOpen = true ∧ inProgress w = 0 ∧
    (run s ([7, 8].flatMap (askBeside 0))).answers = [(0, false), (1, false)] := by
  refine ⟨_, _, rfl, rfl, rfl, ?_, ?_, ?_, ?_⟩ <;> decide

/-! ### C43 -/

/-- **C43** A finished broadcast has one result per worker, in the order of the workers; a worker with result
`Ok` got exactly one copy of the message, a worker with an error got none, and nobody else got a copy. -/
theorem broadcast_once_each {zero : List Bool} {ops : List Op} {s : St} (h : after zero ops = some s)
    {no m : Nat} {ids : List Nat} {res : List Bool} (hc : (no, m, ids, res) ∈ s.casts) :
    ids.length = zero.length ∧ res.length = zero.length ∧
    (∀ (i id : Nat), ids[i]? = some id →
      (s.delivered.filter (fun e => e.1.no == no && e.2 == id)).length = if res[i]? = some true then 1 else 0) ∧
    (s.delivered.filter (fun e => e.1.no == no)).length = res.count true ∧
    (∀ e ∈ s.delivered, e.1.no = no → e.1.m = m ∧ e.1.ask = false) := by
  obtain ⟨_, h2, h3, h4⟩ := (req_after h).casts _ hc
  refine ⟨h2, h3, ?_, ?_, ?_⟩
  · intro i id hid
    have := h4.each i id hid
    have e : (s.delivered.filter (fun e => e.1.no == no && e.2 == id)).length =
        (copies s.delivered no).countP (fun e => e.2 == id) := by
      rw [List.countP_eq_length_filter, copies, List.filter_filter]
      congr 2
      funext e
      exact Bool.and_comm _ _
    rw [e, this, List.getElem?_map]
    cases res[i]? <;> simp
  · have h6 := h4.num
    have h5 : ∀ l : List Bool, (l.map some).count (some true) = l.count true := by
      intro l
      induction l with
      | nil => rfl
      | cons a l ih => cases a <;> simp [ih]
    rw [h5] at h6
    exact h6
  · intro e he hno
    have := h4.job e (List.mem_filter.mpr ⟨he, by simpa using hno⟩)
    rw [this]
    exact ⟨rfl, rfl⟩

example : ∃ s, after [false, false, false] poolDemo = some s ∧ (2, 9, [0, 1, 2], [true, true, false]) ∈ s.casts ∧
    s.delivered.map (fun e => (e.1.m, e.2)) = [(7, 0), (8, 1), (9, 1), (9, 0), (10, 3)] := by
  refine ⟨_, rfl, ?_, ?_⟩ <;> decide

/-- **C43** A copy fails only for a worker that has stopped. -/
theorem copy_fails_only_if_stopped {s : St} {no m : Nat} {res : List (Option Bool)} (hp : s.phase = .casting no m res)
    {i : Nat} {w : Worker} (hw : s.workers[i]? = some w) (hr : res[i]? = some none) (room : Bool)
    (hf : (s.step (.pollCopy i room)).phase = .casting no m (res.set i (some false))) :
    w.isOpen = false := by
  have hil : i < res.length := (List.getElem?_eq_some_iff.mp hr).1
  cases hc : w.isOpen with
  | false => rfl
  | true =>
    exfalso
    simp only [St.step, hp, hr, hw, hc, Bool.not_true, Bool.false_eq_true, if_false] at hf
    cases room with
    | true =>
      simp only [if_true, Phase.casting.injEq, true_and] at hf
      have := congrArg (fun l => l[i]?) hf
      simp [hil] at this
    | false =>
      simp only [Bool.false_eq_true, if_false, hp, Phase.casting.injEq, true_and] at hf
      have := congrArg (fun l => l[i]?) hf
      simp only [hr, List.getElem?_set_self hil] at this
      cases this

example : ∃ s w, after [false, false] [.die 1, .broadcast 9] = some s ∧ s.phase = .casting 0 9 [none, none] ∧
    s.workers[1]? = some w ∧ (s.step (.pollCopy 1 true)).phase = .casting 0 9 [none, some false] := by
  refine ⟨_, _, rfl, rfl, rfl, ?_⟩; decide

end Verif.Pool
