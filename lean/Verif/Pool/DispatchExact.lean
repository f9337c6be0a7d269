import Verif.Pool.Props

/-!
C42, exactly: beside which stopped workers a dispatch gets through.
-/

namespace Verif.Pool

/-- A dispatch that is not held up (`actors/src/pool.rs` L312-361): the pool takes the request and goes through its rounds,
and no mailbox is full. -/
def dispatched (s : St) (m : Nat) (ask : Bool) : St :=
  run s (.dispatch m ask :: List.replicate (s.workers.length + 1) (.attempt true))

theorem attempts_idle (k : Nat) (s : St) (h : s.phase = .idle) : run s (List.replicate k (.attempt true)) = s := by
  induction k with
  | zero => rfl
  | succ k ih =>
    have : s.step (.attempt true) = s := by simp [St.step, h]
    simp only [List.replicate_succ, run, List.foldl_cons, this]
    exact ih

/-- The first of the least loaded workers is running: it gets the message. -/
theorem dispatched_open {n : Nat} (hn : 0 < n) {s : St} (hi : Inv n s) (hp : s.phase = .idle) {w : Worker}
    (hw : s.workers[nextWorker s.workers]? = some w) (ho : w.isOpen = true) (m : Nat) (ask : Bool) :
    (dispatched s m ask).delivered = s.delivered ++ [(⟨s.reqs, m, ask⟩, w.id)] ∧
    (dispatched s m ask).outs = s.outs ++ [(⟨s.reqs, m, ask⟩, .forwarded)] ∧ (dispatched s m ask).phase = .idle := by
  obtain ⟨left, hl⟩ : ∃ left, s.workers.length = left + 1 := ⟨s.workers.length - 1, by have := hi.len; omega⟩
  have h2 : s.step (.dispatch m ask) =
      { s with phase := .trying ⟨s.reqs, m, ask⟩ s.workers.length, reqs := s.reqs + 1 } := by
    simp only [St.step, hp]
  have key : ∃ t : St, (s.step (.dispatch m ask)).step (.attempt true) = t ∧ t.phase = .idle ∧
      t.delivered = s.delivered ++ [(⟨s.reqs, m, ask⟩, w.id)] ∧ t.outs = s.outs ++ [(⟨s.reqs, m, ask⟩, .forwarded)] := by
    refine ⟨_, rfl, ?_⟩
    rw [h2, step_attempt (s := { s with phase := .trying ⟨s.reqs, m, ask⟩ s.workers.length, reqs := s.reqs + 1 })
      (j := ⟨s.reqs, m, ask⟩) (left := left) (w := w) (by simp [hl]) true hw]
    unfold St.poll
    simp only [ho, Bool.not_true, Bool.false_eq_true, if_false, if_true]
    rw [deliver_eq (w := { w with weak := w.weak + 1 }) (by simp [St.upd, hw])]
    exact ⟨trivial, rfl, rfl⟩
  obtain ⟨t, ht, hti, htd, hto⟩ := key
  have : dispatched s m ask = t := by
    simp only [dispatched, List.replicate_succ, run, List.foldl_cons, ht]
    exact attempts_idle _ t hti
  rw [this]
  exact ⟨htd, hto, hti⟩

/-- **C42** Exactly when a dispatch gets through, at a pool with nothing else to do and mailboxes with room: every stopped
worker comes behind a running one that has nothing to do. Then the message is handed to one running worker and the request
is answered by forwarding; otherwise nobody gets it, and the pool stops — however many workers are running. -/
theorem dispatch_gets_through_iff {zero : List Bool} {ops : List Op} {s : St} (h : after zero ops = some s)
    (hp : s.phase = .idle) (m : Nat) (ask : Bool) :
    ((∃ w ∈ s.workers, w.isOpen = true ∧ (dispatched s m ask).delivered = s.delivered ++ [(⟨s.reqs, m, ask⟩, w.id)] ∧
        (dispatched s m ask).outs = s.outs ++ [(⟨s.reqs, m, ask⟩, .forwarded)] ∧ (dispatched s m ask).phase = .idle) ↔
      ∀ (i : Nat) (w : Worker), s.workers[i]? = some w → w.isOpen = false →
        ∃ (k : Nat) (v : Worker), k < i ∧ s.workers[k]? = some v ∧ v.isOpen = true ∧ inProgress v = 0) ∧
    ((∃ (i : Nat) (w : Worker), s.workers[i]? = some w ∧ w.isOpen = false ∧
        ∀ (k : Nat) (v : Worker), k < i → s.workers[k]? = some v → v.isOpen = true → 0 < inProgress v) →
      (dispatched s m ask).delivered = s.delivered ∧ (dispatched s m ask).phase = .stopped) := by
  obtain ⟨hn, hi⟩ := inv_after h
  have hpend : ∀ k, pend s.phase k = 0 := by simp [hp, pend]
  -- the first stopped worker, if a stopped worker has no idle one before it
  have fails : (∃ (i : Nat) (w : Worker), s.workers[i]? = some w ∧ w.isOpen = false ∧
        ∀ (k : Nat) (v : Worker), k < i → s.workers[k]? = some v → v.isOpen = true → 0 < inProgress v) →
      (dispatched s m ask).delivered = s.delivered ∧ (dispatched s m ask).phase = .stopped := by
    rintro ⟨i, w, hw, hc, hb⟩
    have low : ∀ n i w, i ≤ n → s.workers[i]? = some w → w.isOpen = false →
        (∀ (k : Nat) (v : Worker), k < i → s.workers[k]? = some v → v.isOpen = true → 0 < inProgress v) →
        ∃ (i : Nat) (w : Worker), s.workers[i]? = some w ∧ w.isOpen = false ∧
          ∀ (k : Nat) (v : Worker), s.workers[k]? = some v → k < i → 0 < inProgress v := by
      intro n
      induction n with
      | zero =>
        intro i w hle hw hc _
        exact ⟨i, w, hw, hc, fun k v _ hk => absurd hk (by omega)⟩
      | succ n ih =>
        intro i w hle hw hc hb
        by_cases hex : ∃ (k : Nat) (v : Worker), k < i ∧ s.workers[k]? = some v ∧ v.isOpen = false
        · obtain ⟨k, v, hk, hv, hvc⟩ := hex
          exact ih k v (by omega) hv hvc (fun k' v' hk' => hb k' v' (by omega))
        · refine ⟨i, w, hw, hc, fun k v hv hk => hb k v hk hv ?_⟩
          cases hvo : v.isOpen
          · exact absurd ⟨k, v, hk, hv, hvo⟩ hex
          · rfl
    obtain ⟨i, w, hw, hc, hb⟩ := low i i w (Nat.le_refl _) hw hc hb
    have := stopped_worker_fails_dispatch h hp hw hc hb m ask
    simp only [← hi.len] at this
    exact ⟨this.1, this.2.1⟩
  refine ⟨⟨?_, ?_⟩, fails⟩
  · rintro ⟨w, _, _, hd, _⟩ i v hv hvc
    apply Classical.byContradiction
    intro hno
    have := (fails ⟨i, v, hv, hvc, fun k u hk hu huo => by
      apply Nat.pos_of_ne_zero
      intro hz
      exact hno ⟨k, u, hk, hu, huo, hz⟩⟩).1
    rw [this] at hd
    have := congrArg List.length hd
    simp at this
  · intro hall
    obtain ⟨w, hw, h1, h2⟩ := nextWorker_first hn hi hpend
    have ho : w.isOpen = true := by
      cases hwo : w.isOpen
      · obtain ⟨k, v, hk, hv, _, hz⟩ := hall _ w hw hwo
        have := h2 k v hv hk
        omega
      · rfl
    exact ⟨w, List.mem_of_getElem? hw, ho, dispatched_open hn hi hp hw ho m ask⟩

/-- Worker 1 has stopped: a dispatch gets through while worker 0 has nothing to do, and not when it is busy. -/
example : ∃ s t, after [false, false, false] [.die 1] = some s ∧
    after [false, false, false] [.dispatch 7 false, .attempt true, .die 1] = some t ∧ s.phase = .idle ∧ t.phase = .idle ∧
    s.workers.map (fun w => (w.isOpen, inProgress w)) = [(true, 0), (false, 0), (true, 0)] ∧
    t.workers.map (fun w => (w.isOpen, inProgress w)) = [(true, 1), (false, 0), (true, 0)] ∧
    (dispatched s 8 false).delivered = [(⟨0, 8, false⟩, 0)] ∧ (dispatched t 8 false).phase = .stopped := by
  refine ⟨_, _, rfl, rfl, ?_⟩
  decide

end Verif.Pool
