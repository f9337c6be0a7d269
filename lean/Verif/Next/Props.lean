import Verif.Next.Late

/-!
Properties of an actor with a `next` of its own. Every theorem is for all lists of operations: for all that `next` may
do, and all that may happen meanwhile.
-/

set_option linter.unusedSimpArgs false
set_option linter.unusedVariables false

namespace Verif.Next

/-- The actor is over: it stopped, or its task panicked or was torn down. `src/actor/spawn.rs` L588-591. -/
def St.over (s : St) : Prop := (∃ r, s.phase = .stopped r) ∨ s.phase = .crashed

/-- A `next` that looks at two messages at once and returns the later one first, and then one of its own. -/
def swap : List Op :=
  [.startEnd .ok false, .take 1, .ret 0, .send (.msg false) true, .send (.msg false) true, .take 2, .ret 1,
   .handleEnd .ok, .make (.msg true) false, .ret 1, .handleEnd .ok, .ret 0]

example : (after swap).started.map (·.id) = [2, 3, 1] ∧ (after swap).phase = .handling ⟨1, .msg false, true⟩ [] false ∧
    (after swap).slot 2 = some .value := by decide

/-- **C76.** Whatever `next` does, the functions of the actor are called one at a time, and each of them when it is due
according to `Rd.due`: `on_start` first; then `next`, and for what it returned the handler or `on_link_died`; a message from
outside only when the start-up is finished, which is when `StartupFinished`, `Stop` or `None` came, and then all that were kept
are handled before anything else; `on_panic` exactly after a failure of one of the functions above but `next`; `on_stop` last,
after `Stop` or `None` and what was kept, after `on_panic` or `on_link_died` said so, or after an abort. -/
theorem calls_in_order (ops : List Op) : ∃ q, reads (after ops).log = some q := reads_some ops

/-- Some logs that the reader does not accept: a handler within another, `on_start` twice, a handler after `on_stop`, `next`
after `Stop`, no `on_panic` after a failure, a message from outside before the start-up is finished. -/
example : reads [.b .start, .e .start .ok, .b .next, .got (some (.msg true)), .b .handle, .b .handle] = none ∧
    reads [.b .start, .e .start .ok, .b .next, .got none, .b .start] = none ∧
    reads [.b .start, .e .start .ok, .b .next, .got none, .b .stop, .e .stop .ok, .b .handle] = none ∧
    reads [.b .start, .e .start .ok, .b .next, .got (some .stop), .b .next] = none ∧
    reads [.b .start, .e .start .ok, .b .next, .got (some (.msg true)), .b .handle, .e .handle .fail, .b .next] = none ∧
    reads [.b .start, .e .start .ok, .b .next, .got (some (.msg false)), .b .handle] = none ∧
    (reads (after swap).log).map Rd.at_ = some (.run .handle) := by decide

/-- **C76.** `on_start` is called first, and once; `on_stop` is called at most once. -/
theorem start_once (ops : List Op) :
    (∃ t, (after ops).log = .b .start :: t ∧ .b .start ∉ t) ∧ (after ops).log.count (.b .stop) ≤ 1 := by
  obtain ⟨q, h, hm⟩ := seen_after ops
  have hc := reads_count _ _ _ h
  have h1 : (after ops).log.count (.b .start) ≤ 1 := by have := hc.2.1; simp only [At.starts] at this; omega
  refine ⟨?_, by have := hc.1; simp only [At.stops] at this; omega⟩
  cases e : (after ops).log with
  | nil =>
    rw [e] at h
    simp only [reads, List.foldlM_nil, Option.pure_def, Option.some.injEq] at h
    subst h
    simp only [Match] at hm
    split at hm <;> simp at hm
  | cons a t =>
    have ha : a = .b .start := by
      rw [e, reads, List.foldlM_cons] at h
      cases a with
      | b h0 => cases h0 <;> first | rfl | (simp [Rd.read, Rd.due] at h)
      | _ => simp [Rd.read, Rd.due] at h
    subst ha
    refine ⟨t, rfl, ?_⟩
    rw [e, List.count_cons_self] at h1
    exact List.count_eq_zero.mp (by omega)

example : (after (swap ++ [.handleEnd .ok, .retNone, .stopEnd .ok])).log.count (.b .stop) = 1 ∧
    (after (swap ++ [.handleEnd .ok, .retNone, .stopEnd .ok])).log.count (.b .start) = 1 := by decide

/-- **C76.** An actor that stopped had its `on_stop` called, once, and its task did not panic and was not torn down; one whose
task panicked or was torn down saw nothing afterwards. Once it is over, none of its functions is called again. -/
theorem over_is_over (ops : List Op) :
    (∀ r, (after ops).phase = .stopped r → (after ops).log.count (.b .stop) = 1 ∧
      .crash ∉ (after ops).log ∧ .torn ∉ (after ops).log) ∧
    ((after ops).over → ∀ more, (after (ops ++ more)).log = (after ops).log) := by
  refine ⟨?_, ?_⟩
  · intro r hr
    obtain ⟨q, h, hm⟩ := seen_after ops
    simp only [Match, hr] at hm
    obtain ⟨h1, h2, _⟩ := (reads_count _ _ _ h).2.2 (by simp [hm])
    simp only [At.stopped, hm] at h1
    exact ⟨by omega, h2⟩
  · intro h more
    have := (over_steps h more).2
    simpa [after] using this

example : (after (swap ++ [.handleEnd .ok, .retNone, .stopEnd .ok])).phase = .stopped .normal := by decide

/-- **C76.** Each message is handled at most once, and none that was not put into the mailbox or made by the actor's own
code; handlers are called for these messages only. -/
theorem handled_once (ops : List Op) :
    ((after ops).started.map (·.id)).Nodup ∧ (∀ it ∈ (after ops).started, it.id < (after ops).fresh) ∧
    (after ops).log.count (.b .handle) = (after ops).started.length := by
  refine ⟨?_, ?_, (well_after ops).calls⟩
  · rw [List.nodup_iff_count]
    intro x
    have := cnt_after ops x
    simp only [St.cnt] at this
    split at this <;> omega
  · intro it hi
    have := cnt_after ops it.id
    have hp := List.count_pos_iff.mpr (List.mem_map_of_mem (f := (·.id)) hi)
    simp only [St.cnt] at this
    split at this
    · assumption
    · omega

example : (after swap).started.map (·.id) = [2, 3, 1] ∧ (after swap).fresh = 4 ∧
    (after swap).log.count (.b .handle) = 3 := by decide

/-- **C76.** The messages from outside are handled in the order in which `next` returned them, and so are the actor's
own. -/
theorem handled_in_order (ops : List Op) :
    ((after ops).started.filter Item.outside).Sublist ((after ops).returned.filter Item.outside) ∧
    ((after ops).started.filter Item.inside).Sublist ((after ops).returned.filter Item.inside) := by
  have h := (ok_after ops).core
  refine ⟨?_, h.ordIn⟩
  have := h.ord
  rw [List.append_assoc] at this
  exact (List.sublist_append_left _ _).trans this

/-- An own message may overtake one from outside as long as the start-up is not finished. -/
example : (after [.send (.msg false) false, .startEnd .ok false, .make (.msg true) false, .take 2, .ret 1, .ret 0,
    .handleEnd .ok, .ret 0]).started.map (·.id) = [2, 0] := by decide

/-- **C76.** What `next` returned is handled: while `on_panic` and `on_stop` were not called and the task did not panic and
was not torn down, a message that `next` returned was begun to be handled, or it waits for the start-up to be finished, or for the handler of
one before it. If the start-up is finished and `next` runs, all of them were begun. -/
theorem returned_handled (ops : List Op) (h : ¬ Bad (after ops).log) :
    (∀ it ∈ (after ops).returned, it ∈ (after ops).started ∨ it ∈ (after ops).buffer ∨ it ∈ (after ops).phase.rest) ∧
    ((after ops).finished = true → (after ops).phase = .next →
      ∀ it ∈ (after ops).returned, it ∈ (after ops).started) := by
  have hk := (late_after ops).kept.resolve_left h
  refine ⟨hk, ?_⟩
  intro hf hp it hi
  rcases hk it hi with e | e | e
  · exact e
  · rw [(ok_after ops).core.fin hf] at e; simp at e
  · rw [hp] at e; simp at e

example : ¬ Bad (after (swap ++ [.handleEnd .ok])).log ∧ (after (swap ++ [.handleEnd .ok])).finished = true ∧
    (after (swap ++ [.handleEnd .ok])).phase = .next ∧ (after (swap ++ [.handleEnd .ok])).returned.length = 3 := by
  simp only [Bad]; decide

/-- **C76.** No message from outside is handled before `next` returned `StartupFinished`, `Stop` or `None` (or the mailbox
was too full for `StartupFinished`): if it does not, they are only kept. -/
theorem held_back (ops : List Op) (h : (after ops).finished = false) :
    (after ops).started.filter Item.outside = [] := by
  rw [List.filter_eq_nil_iff]
  intro it hi
  have := (late_after ops).early h it hi
  simp [Item.outside, this]

example : (after [.startEnd .ok false, .take 1, .spend 0 .dropped, .send (.msg false) true, .take 1, .ret 0]).finished = false ∧
    (after [.startEnd .ok false, .take 1, .spend 0 .dropped, .send (.msg false) true, .take 1, .ret 0]).buffer.length = 1 := by
  decide

/-! ### Asks -/

/-- **C76.** Once the actor is over, whoever asked it has an outcome, or the signal is still in the actor's fields, and the
actor with them was returned by `run`, or a handler took the reply sender and it was not used or dropped yet. If the task
panicked or was torn down, everybody else has an outcome. -/
theorem asks_settled (ops : List Op) (h : (after ops).over) (x : Nat) (hx : x ∈ (after ops).asks) :
    (after ops).slot x ≠ none ∨ ((after ops).phase ≠ .crashed ∧ ∃ it ∈ (after ops).held, it.id = x) ∨
      x ∈ (after ops).delegated := by
  have hok := ok_after ops
  have hlt := hok.core.asksLt x hx
  have hc := cnt_after ops x
  rw [if_pos hlt] at hc
  have hq : (after ops).queue = [] ∧ (after ops).buffer = [] ∧ (after ops).phase.rest = [] ∧
      ((after ops).phase = .crashed → (after ops).held = []) ∧ (after ops).phase.cur = none := by
    have hs := hok.shape
    rcases h with ⟨r, h⟩ | h
    · simp only [Shape, h] at hs; simp [hs, h, Phase.cur]
    · simp only [Shape, h] at hs; simp [hs, h, Phase.cur]
  simp only [St.cnt, hq, List.map_nil, List.count_nil, Nat.zero_add, Nat.add_zero] at hc
  by_cases hh : x ∈ (after ops).held.map (·.id)
  · right; left
    refine ⟨?_, List.mem_map.mp hh⟩
    intro hcr
    rw [hq.2.2.2.1 hcr] at hh
    simp at hh
  · rw [List.count_eq_zero.mpr hh] at hc
    by_cases hs : x ∈ (after ops).started.map (·.id)
    · obtain ⟨it, hi, rfl⟩ := List.mem_map.mp hs
      rcases hok.core.startedR it hi with e | e | e
      · exact Or.inl e
      · rw [hq.2.2.2.2] at e; simp at e
      · exact Or.inr (Or.inr e)
    · rw [List.count_eq_zero.mpr hs] at hc
      have hg : x ∈ (after ops).gone.map (·.id) := List.count_pos_iff.mp (by omega)
      obtain ⟨it, hi, rfl⟩ := List.mem_map.mp hg
      exact Or.inl (hok.core.goneR it hi hx)

/-- A history in which the actor is asked three times: the first is handled, the second is in a field of the actor when it
stops, the third is still in the mailbox. -/
def asked : List Op :=
  [.startEnd .ok false, .take 1, .ret 0, .send (.msg false) true, .send (.msg false) true, .take 2, .ret 0, .handleEnd .ok,
   .send (.msg false) true, .retNone, .stopEnd .ok]

/-- The same, but the handler takes its reply sender. -/
def tookIt : List Op := asked.take 7 ++ .takeReply :: asked.drop 7

example : (after asked).phase = .stopped .normal ∧ (after asked).asks = [1, 2, 3] ∧
    [1, 2, 3].map (after asked).slot = [some .value, none, some .dropped] ∧
    (after tookIt).phase = .stopped .normal ∧ [1, 2, 3].map (after tookIt).slot = [none, none, some .dropped] ∧
    (after tookIt).delegated = [1] := by decide

/-- **C76.** A signal that waits — in the mailbox, in the actor's fields, in the start-up buffer — has no outcome; nor has
the message whose handler runs, unless it took its reply sender. -/
theorem no_outcome_yet (ops : List Op) :
    (∀ it ∈ (after ops).queue ++ (after ops).held ++ (after ops).buffer ++ (after ops).phase.rest,
      (after ops).slot it.id = none) ∧
    (∀ it rest fin, (after ops).phase = .handling it rest fin → (after ops).taken = false → (after ops).slot it.id = none) := by
  refine ⟨?_, ?_⟩
  · intro it hi
    simp only [List.mem_append] at hi
    apply slot_free
    rcases hi with ((hi | hi) | hi) | hi
    · exact Or.inl (List.mem_map_of_mem hi)
    · exact Or.inr (Or.inl (List.mem_map_of_mem hi))
    · exact Or.inr (Or.inr (Or.inl (List.mem_map_of_mem hi)))
    · exact Or.inr (Or.inr (Or.inr (List.mem_map_of_mem hi)))
  · intro it rest fin hp ht
    exact (noOut_after ops it (by simp [hp, Phase.cur]) ht).1

/-- A handler runs, one message is kept by the actor, and one is in the mailbox. -/
example : (after (asked.take 7 ++ [.send (.msg false) true])).phase = .handling ⟨1, .msg false, true⟩ [] false ∧
    (after (asked.take 7 ++ [.send (.msg false) true])).taken = false ∧
    (after (asked.take 7 ++ [.send (.msg false) true])).held.map (·.id) = [2] ∧
    (after (asked.take 7 ++ [.send (.msg false) true])).queue.map (·.id) = [3] := by decide

/-- **C76.** A reply or an error comes from a handler that the actor called (or from who has its reply sender), or from the
user's code that used up the signal by itself. -/
theorem reply_from_handler (ops : List Op) (x : Nat) (o : Out) (h : (after ops).slot x = some o) (ho : o ≠ .dropped) :
    x ∈ (after ops).started.map (·.id) ∨ x ∈ (after ops).spent := by
  rcases (well_after ops).why x o h with ⟨_, e | e⟩ | e
  · exact absurd e ho
  · exact Or.inr e
  · exact Or.inl e

example : (after asked).slot 1 = some .value ∧ (after asked).started.map (·.id) = [1] := by decide

theorem go_slot (s : St) (l : List Item) (fin : Bool) (x : Nat) (o : Out) (h : s.slot x = some o) :
    (s.go l fin).slot x = some o := by
  cases l with
  | nil => cases fin with
    | false => exact h
    | true => simp [St.go, St.stop, St.drop, h]
  | cons it rest => exact h

/-- **C76.** The one who asked gets what the handler came to: its reply, its error, or, if it panicked, the end of the reply
sender; unless the handler took the reply sender (`taken_reply_waits`). -/
theorem handler_answers (ops : List Op) (it : Item) (rest : List Item) (fin : Bool)
    (h : (after ops).phase = .handling it rest fin) (ht : (after ops).taken = false) :
    (after (ops ++ [.handleEnd .ok])).slot it.id = some .value ∧
    (it.ask = true → (after (ops ++ [.handleEnd .err])).slot it.id = some .err) ∧
    (after (ops ++ [.handleEnd .panic])).slot it.id = some .dropped := by
  have hn := (no_outcome_yet ops).2 it rest fin h ht
  simp only [after_snoc, St.step, St.handleEnd, h]
  refine ⟨?_, ?_, ?_⟩
  · apply go_slot; simp [St.settle, St.resolve, ht, hn]
  · intro ha; simp only [ha, tell_taken, ht]; apply go_slot; simp [St.settle, St.resolve, ht, hn]
  · simp [St.panicked, St.tell, St.drop, St.settle, St.resolve, ht, hn]

example : (after swap).phase = .handling ⟨1, .msg false, true⟩ [] false ∧ (after swap).taken = false ∧
    (after (swap ++ [.handleEnd .err])).slot 1 = some .err := by decide

/-! ### Kill, and signals that `next` does not return -/

theorem work_up {q q' : Rd} {h : Hook} (hd : q.work = (h, q')) : q'.up = q.up := by
  unfold Rd.work at hd
  split at hd
  · simp only [Prod.mk.injEq] at hd; rw [← hd.2]
  · split at hd <;> (simp only [Prod.mk.injEq] at hd; rw [← hd.2])

theorem due_up {q q' : Rd} {h : Hook} (hd : q.due = some (h, q')) : q'.up = q.up := by
  unfold Rd.due at hd
  repeat' split at hd
  all_goals first
    | (simp at hd; done)
    | (simp only [Option.some.injEq, Prod.mk.injEq] at hd; rw [← hd.2])
    | (simp only [Option.some.injEq] at hd; exact (work_up hd).trans rfl)

theorem reads_up : ∀ (l : List Ev) (q q' : Rd), l.foldlM Rd.read q = some q' → q.up = true ∨ .b .next ∈ l → q'.up = true
  | [], q, q', h, hu => by
    simp only [List.foldlM_nil, Option.pure_def, Option.some.injEq] at h; subst h; simpa using hu
  | e :: t, q, q', h, hu => by
    rw [List.foldlM_cons] at h
    cases hq : q.read e with
    | none => rw [hq] at h; simp at h
    | some q1 =>
      rw [hq] at h
      simp only [Option.bind_eq_bind, Option.bind_some] at h
      refine reads_up t q1 q' h ?_
      rw [List.mem_cons] at hu
      by_cases ht : .b .next ∈ t
      · exact .inr ht
      · left
        have hu' : q.up = true ∨ .b .next = e := by
          rcases hu with x | x | x
          · exact .inl x
          · exact .inr x
          · exact absurd x ht
        cases e with
        | b hk =>
          simp only [Rd.read] at hq
          split at hq
          · rename_i h' q2 hd
            split at hq
            · rename_i e1
              simp only [Option.some.injEq] at hq
              rw [← hq]
              simp only [due_up hd, Bool.or_eq_true, beq_iff_eq]
              rcases hu' with x | x
              · exact .inl x
              · simp only [Ev.b.injEq] at x; exact .inr x.symm
            · simp at hq
          · simp at hq
        | _ =>
          have hu2 : q.up = true := by rcases hu' with x | x; exact x; simp at x
          simp only [Rd.read] at hq
          repeat' split at hq
          all_goals first
            | (simp at hq; done)
            | (simp only [Option.some.injEq] at hq; rw [← hq]; exact hu2)

/-- An actor whose `next` was called, that is not about to stop and whose task did not panic is in the part of the task that
`kill` ends. -/
theorem abortable_of_log (ops : List Op) (h1 : .b .next ∈ (after ops).log) (h2 : .b .stop ∉ (after ops).log)
    (h3 : .crash ∉ (after ops).log ∧ .torn ∉ (after ops).log) : (after ops).phase.abortable = true := by
  obtain ⟨q, h, hm⟩ := seen_after ops
  have hu := reads_up _ _ _ h (.inr h1)
  have hc := reads_count _ _ _ h
  have hf : ∀ l : List Ev, .crash ∉ l ∧ .torn ∉ l → ∀ q q' : Rd, l.foldlM Rd.read q = some q' → q.at_ ≠ .failed → q'.at_ ≠ .failed := by
    intro l
    induction l with
    | nil => intro _ q q' h h'; simp at h; rw [← h]; exact h'
    | cons e t ih =>
      intro hn q q' h h'
      rw [List.foldlM_cons] at h
      cases hq : q.read e with
      | none => rw [hq] at h; simp at h
      | some q1 =>
        rw [hq] at h
        simp only [Option.bind_eq_bind, Option.bind_some] at h
        refine ih ⟨fun x => hn.1 (by simp [x]), fun x => hn.2 (by simp [x])⟩ q1 q' h ?_
        cases e with
        | crash => simp at hn
        | torn => simp at hn
        | _ =>
          simp only [Rd.read] at hq
          repeat' split at hq
          all_goals first
            | (simp at hq; done)
            | (simp only [Option.some.injEq] at hq; rw [← hq]; simp)
  have hq : q.at_ ≠ .failed := hf _ h3 _ _ h (by simp)
  have hs := (hc.2.2 hq).1
  rw [List.count_eq_zero.mpr h2] at hs
  simp only [Match] at hm
  split at hm
  · rename_i hp; rw [hp]; rfl
  · rw [hm] at hs; simp [At.stopped] at hs
  · rw [hm] at hs; simp [At.stopped] at hs
  · exact absurd hm hq
  · rename_i p n0 n1 n2 n3
    cases hp : (after ops).phase with
    | starting => rw [hp] at hm; have := hm.2.1; rw [hu] at this; simp [Phase.up] at this
    | onPanic st =>
      rw [hp] at hm
      have := hm.2.1
      rw [hu] at this
      cases st with
      | false => rfl
      | true => simp [Phase.up] at this
    | stopping r => exact absurd hp (n1 r)
    | stopped r => exact absurd hp (n2 r)
    | crashed => exact absurd hp n3
    | _ => rfl

/-- **C76.** `kill` ends an actor whose `next` was called, whatever it does — also if `next`, a handler, `on_link_died` or
`on_panic` does not return — unless it is in `on_stop` already: it stops as killed, and once `on_stop` is done, whoever asked
has an outcome, or the signal is in the returned actor, or the reply sender was taken. -/
theorem kill_ends (ops : List Op) (h1 : .b .next ∈ (after ops).log) (h2 : .b .stop ∉ (after ops).log)
    (h3 : .crash ∉ (after ops).log ∧ .torn ∉ (after ops).log) (r : Res) (hr : r ≠ .panic) :
    (after (ops ++ [.kill, .abort])).phase = .stopping .killed ∧
    (after (ops ++ [.kill, .abort, .stopEnd r])).phase = .stopped .killed ∧
    ∀ x ∈ (after (ops ++ [.kill, .abort, .stopEnd r])).asks,
      (after (ops ++ [.kill, .abort, .stopEnd r])).slot x ≠ none ∨
      (∃ it ∈ (after (ops ++ [.kill, .abort, .stopEnd r])).held, it.id = x) ∨
      x ∈ (after (ops ++ [.kill, .abort, .stopEnd r])).delegated := by
  have h := abortable_of_log ops h1 h2 h3
  have e1 : (after (ops ++ [.kill, .abort])).phase = .stopping .killed := by
    have : after (ops ++ [.kill, .abort]) = ((after ops).step .kill).step .abort := by simp [after]
    rw [this]
    simp only [St.step, St.kill, St.abort, h, Bool.true_and, if_true]
    split <;> rfl
  have e2 : (after (ops ++ [.kill, .abort, .stopEnd r])).phase = .stopped .killed := by
    have : after (ops ++ [.kill, .abort, .stopEnd r]) = (after (ops ++ [.kill, .abort])).step (.stopEnd r) := by
      simp [after]
    rw [this]
    simp only [St.step, St.stopEnd, e1]
  refine ⟨e1, e2, ?_⟩
  intro x hx
  rcases asks_settled _ (Or.inl ⟨_, e2⟩) x hx with e | e
  · exact Or.inl e
  · exact Or.inr (e.imp And.right id)

example : .b .next ∈ (after (swap ++ [.handleEnd .ok])).log ∧ .b .stop ∉ (after (swap ++ [.handleEnd .ok])).log ∧
    (.crash ∉ (after (swap ++ [.handleEnd .ok])).log ∧ .torn ∉ (after (swap ++ [.handleEnd .ok])).log) ∧ (after (swap ++ [.handleEnd .ok])).phase = .next ∧
    (after (swap ++ [.handleEnd .ok, .kill, .abort, .stopEnd .ok])).phase = .stopped .killed := by decide

/-- No abort is asked for, and none happens. -/
def Quiet (s t : St) : Prop := t.aborted = s.aborted ∧ (.abort ∈ t.log → .abort ∈ s.log)

theorem Quiet.rfl {s : St} : Quiet s s := ⟨.refl _, id⟩

theorem Quiet.trans {s t u : St} (h : Quiet s t) (h' : Quiet t u) : Quiet s u := ⟨h'.1.trans h.1, fun x => h.2 (h'.2 x)⟩

theorem stop_quiet (s : St) (r : Reason) : Quiet s (s.stop r) := by simp [Quiet, St.stop]

theorem tell_quiet (s : St) (l : List Ev) (h : .abort ∉ l) : Quiet s (s.tell l) := by simp [Quiet, h]

theorem resolve_quiet (s : St) (x : Nat) (o : Out) : Quiet s (s.resolve x o) := by simp [Quiet]

theorem go_quiet (s : St) (l : List Item) (fin : Bool) : Quiet s (s.go l fin) := by
  cases l with
  | nil => cases fin <;> simp [St.go, St.stop, Quiet]
  | cons it rest => simp [St.go, Quiet]

theorem drain_quiet (s : St) (fin : Bool) : Quiet s (s.drain fin) :=
  Quiet.trans (t := { s with finished := true, buffer := [] }) ⟨rfl, id⟩ (go_quiet _ _ _)

theorem fall_quiet (s : St) (e : Ev) (h : e ≠ .abort) : Quiet s (s.fall e) := by
  unfold Quiet St.fall; cases s.phase <;> simp [h.symm]

theorem crash_quiet (s : St) : Quiet s s.crash := fall_quiet s _ (by simp)

theorem settle_quiet (s : St) (it : Item) (o : Out) : Quiet s (s.settle it o) := by simp [Quiet]

theorem enter_quiet (s : St) (full : Bool) : Quiet s (s.enter full) := by
  unfold St.enter
  split
  · exact ⟨rfl, id⟩
  · split
    · exact drain_quiet _ _
    · simp [Quiet]

theorem push_quiet (s : St) (b : Body) (ask : Bool) : Quiet s (s.push b ask) := by
  unfold St.push; split <;> exact ⟨rfl, id⟩

theorem dispatch_quiet (s : St) (it : Item) : Quiet s (s.dispatch it) := by
  unfold St.dispatch
  split
  · split
    · exact Quiet.trans (t := { s with gone := s.gone ++ [it] }) ⟨rfl, id⟩ (crash_quiet _)
    · exact Quiet.trans (t := { s with gone := s.gone ++ [it], permits := true }) ⟨rfl, id⟩ (drain_quiet _ _)
  · simp only
    split <;> simp [Quiet]
  · simp [Quiet]
  · exact Quiet.trans (t := { s with gone := s.gone ++ [it] }) ⟨rfl, id⟩ (drain_quiet _ _)

theorem panicked_quiet (s : St) : Quiet s s.panicked := by simp [Quiet, St.panicked]

/-- Only `kill` asks for an abort, and there is none otherwise. -/
theorem step_quiet (s : St) (o : Op) (h1 : o ≠ .kill) (h2 : o ≠ .abort) : Quiet s (s.step o) := by
  cases o with
  | send b ask => exact push_quiet _ _ _
  | startEnd r full =>
    simp only [St.step, St.startEnd]
    split
    · refine (tell_quiet s [.e .start (startHow r full)] (by simp)).trans ?_
      cases full with
      | true =>
        cases r with
        | ok => exact enter_quiet _ _
        | _ => simp [Quiet]
      | false =>
        refine (push_quiet _ .startup false).trans ?_
        cases r with
        | ok => exact enter_quiet _ _
        | _ => simp [Quiet]
    · exact .rfl
  | take n => simp only [St.step, St.take]; split <;> exact ⟨rfl, id⟩
  | close => simp only [St.step, St.close]; split <;> exact ⟨rfl, id⟩
  | make b ask => simp only [St.step, St.make]; split <;> exact ⟨rfl, id⟩
  | spend i x => simp only [St.step, St.spend]; split <;> exact ⟨rfl, id⟩
  | ret i =>
    simp only [St.step, St.ret]
    split
    · refine Quiet.trans ?_ (dispatch_quiet _ _)
      simp [Quiet]
    · exact .rfl
  | retNone =>
    simp only [St.step, St.retNone]
    split
    · exact (tell_quiet _ _ (by simp)).trans (drain_quiet _ _)
    · exact .rfl
  | nextPanic => simp only [St.step, St.nextPanic]; split; exact crash_quiet _; exact .rfl
  | handleEnd r =>
    simp only [St.step, St.handleEnd]
    split
    · rename_i it rest fin _
      refine (tell_quiet s [.e .handle (handleHow r (it.ask && !s.taken))] (by simp)).trans ?_
      split
      · exact (settle_quiet _ _ _).trans (go_quiet _ _ _)
      · exact (settle_quiet _ _ _).trans (go_quiet _ _ _)
      · simp [Quiet, St.panicked]
    · exact .rfl
  | linkEnd f =>
    simp only [St.step, St.linkEnd]
    split
    · refine (tell_quiet s [.e .link f.linkHow] (by simp)).trans ?_
      split
      · simp [Quiet]
      · exact panicked_quiet _
      · exact stop_quiet _ _
      · exact panicked_quiet _
    · exact .rfl
  | panicEnd f =>
    simp only [St.step, St.panicEnd]
    split
    · split
      · exact crash_quiet _
      · refine (tell_quiet s [.e .panic Flow.cont.panicHow] (by simp)).trans ?_
        split
        · exact stop_quiet _ _
        · simp [Quiet]
      · exact (tell_quiet s [.e .panic _] (by simp)).trans (stop_quiet _ _)
      · exact (tell_quiet s [.e .panic _] (by simp)).trans (stop_quiet _ _)
    · exact .rfl
  | stopEnd r =>
    simp only [St.step, St.stopEnd]
    split
    · split
      · exact crash_quiet _
      · simp [Quiet]
    · exact .rfl
  | kill => exact absurd rfl h1
  | abort => exact absurd rfl h2
  | takeReply =>
    simp only [St.step, St.takeReply]
    split
    · split <;> exact ⟨rfl, id⟩
    · exact .rfl
  | later x o => simp only [St.step, St.later]; split <;> exact ⟨rfl, id⟩
  | giveUp x => simp only [St.step, St.giveUp]; split <;> exact ⟨rfl, id⟩
  | teardown =>
    simp only [St.step, St.teardown]
    split
    · exact .rfl
    · exact .rfl
    · exact fall_quiet _ _ (by simp)

theorem abort_log (s : St) (h : s.aborted = false) : s.abort = s := by simp [St.abort, h]

theorem abort_aborted (s : St) : s.abort.aborted = s.aborted := by
  unfold St.abort
  split
  · cases s.phase <;> simp [St.stop]
  · rfl

/-- **C76.** None of the functions is aborted unless `kill` was called: a graceful stop, the death of a link or the
drop of a reference do not do it, whatever `next` is doing. -/
theorem abort_needs_kill (ops : List Op) (h : .abort ∈ (after ops).log) : .kill ∈ ops := by
  have key : ∀ (ops : List Op) (s : St), .kill ∉ ops → s.aborted = false → .abort ∉ s.log →
      .abort ∉ (ops.foldl St.step s).log := by
    intro ops
    induction ops with
    | nil => intro s _ _ i2; exact i2
    | cons o l ih =>
      intro s hk i1 i2
      simp only [List.mem_cons, not_or] at hk
      rw [List.foldl_cons]
      by_cases ho : o = .abort
      · subst ho
        simp only [St.step, abort_log _ i1]
        exact ih s hk.2 i1 i2
      · obtain ⟨q1, q2⟩ := step_quiet s o (fun e => hk.1 e.symm) ho
        exact ih _ hk.2 (q1.trans i1) (fun x => i2 (q2 x))
  exact Classical.byContradiction (fun hk => key ops {} hk rfl (by simp) h)

example : .abort ∈ (after (swap ++ [.kill, .abort])).log ∧ .abort ∉ (after (swap ++ [.send .stop false, .abort])).log := by
  decide

/-- Does this leave `next` running? `src/actor/spawn.rs` L628. -/
def Op.staysInNext : Op → Bool
  | .ret _ | .retNone | .nextPanic | .abort | .teardown => false
  | _ => true

/-- **C76.** Nothing but a return, a panic, an abort and the end of the task from outside ends `next`: whatever is sent meanwhile — a `Stop` of
`stop_gracefully`, say, or the death of a link — is not acted on. -/
theorem stays_in_next (ops more : List Op) (h : (after ops).phase = .next) (hm : ∀ o ∈ more, o.staysInNext = true) :
    (after (ops ++ more)).phase = .next ∧ (after (ops ++ more)).log = (after ops).log := by
  induction more generalizing ops with
  | nil => simp [h]
  | cons o os ih =>
    have ho := hm o (by simp)
    have e : (after (ops ++ [o])).phase = .next ∧ (after (ops ++ [o])).log = (after ops).log := by
      rw [after_snoc]
      cases o <;> simp_all [St.step, Op.staysInNext, push_phase, push_log, make_phase, make_log, St.startEnd, St.take, St.close,
        St.handleEnd, St.linkEnd, St.panicEnd, St.stopEnd, St.kill, St.takeReply]
      · unfold St.spend; split <;> simp [h]
      · unfold St.later; split <;> simp [h]
      · unfold St.giveUp; split <;> simp [h]
    have := ih (ops ++ [o]) e.1 (fun a ha => hm a (by simp [ha]))
    simp only [List.append_assoc, List.singleton_append] at this
    exact ⟨this.1, this.2.trans e.2⟩

/-- The `Stop` is kept by the actor, or left in the mailbox. -/
example : (after [.startEnd .ok false, .take 1, .ret 0, .send .stop false, .take 1, .send .stop false]).phase = .next ∧
    (after [.startEnd .ok false, .take 1, .ret 0, .send .stop false, .take 1, .send .stop false]).held.length = 1 ∧
    (after [.startEnd .ok false, .take 1, .ret 0, .send .stop false, .take 1, .send .stop false]).queue.length = 1 := by decide

end Verif.Next
