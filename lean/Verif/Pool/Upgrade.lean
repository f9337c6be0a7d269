import Verif.Pool.Props
import Verif.Lifecycle.PropsResult

/-!
C40, the first branch of the pool's `on_link_died` (`actors/src/pool.rs` L189-191): the weak reference it is given is upgraded.
When that fails nothing is replaced. With the actor's task as it is, it does not fail.
-/

namespace Verif.Pool

/-- **C40** An actor can upgrade its own weak reference while its `on_link_died` runs, even if nobody else holds a reference to
it: its task keeps a strong one (see `unreferenced_actor_never_stops`). So the pool does not miss a death for lack of
references. -/
theorem pool_can_upgrade (cap : Option Nat) (ops : List Lifecycle.Op) (i : Lifecycle.Id) (r : Lifecycle.Reason)
    (hp : (Lifecycle.after cap ops).phase = .linkDying i r) :
    (Lifecycle.after cap (ops ++ [.cloneRef])).ext = (Lifecycle.after cap ops).ext + 1 := by
  apply (Lifecycle.never_stopped_for_lack_of_references cap ops).2.1
  rw [(Lifecycle.shape_after cap ops).closed, hp]
  rfl

/-- All references are dropped; then a linked actor dies. -/
example : (Lifecycle.after none [.run, .startEnd .ok, .pollBegin, .recv, .dropRef, .dropRef, .sendLinkDied 5 .killed,
      .recv]).phase = .linkDying 5 .killed ∧
    (Lifecycle.after none [.run, .startEnd .ok, .pollBegin, .recv, .dropRef, .dropRef, .sendLinkDied 5 .killed,
      .recv]).ext = 0 := by decide

theorem step_keeps_dead {s : St} {op : Op} (hno : ∀ id zc, op ≠ .linkDied id true zc) {i : Nat} {w : Worker}
    (hw : s.workers[i]? = some w) (hc : w.isOpen = false) :
    ∃ v, (s.step op).workers[i]? = some v ∧ v.id = w.id ∧ v.isOpen = false := by
  have hupd : ∀ (s' : St) (k : Nat) (f : Worker → Worker), (∀ u : Worker, u.isOpen = false → (f u).isOpen = false) →
      (∀ u : Worker, (f u).id = u.id) → (∃ v, s'.workers[i]? = some v ∧ v.id = w.id ∧ v.isOpen = false) →
      ∃ v, (s'.upd k f).workers[i]? = some v ∧ v.id = w.id ∧ v.isOpen = false := by
    rintro s' k f h1 h2 ⟨v, h3, h4, h5⟩
    simp only [St.upd, List.getElem?_modify, h3]
    by_cases hk : k = i
    · exact ⟨f v, by simp [hk], by rw [h2, h4], h1 v h5⟩
    · exact ⟨v, by simp [hk], h4, h5⟩
  have h0 : ∃ v, s.workers[i]? = some v ∧ v.id = w.id ∧ v.isOpen = false := ⟨w, hw, rfl, hc⟩
  have hdel : ∀ (s' : St) (k : Nat) (j : Job), (∃ v, s'.workers[i]? = some v ∧ v.id = w.id ∧ v.isOpen = false) →
      ∃ v, (s'.deliver k j).workers[i]? = some v ∧ v.id = w.id ∧ v.isOpen = false := by
    intro s' k j h
    unfold St.deliver
    split
    · exact hupd _ _ _ (fun u h => by simpa [Worker.push] using h) (fun u => by simp [Worker.push]) h
    · exact h
  have href : ∀ (s' : St) (j : Job) (l k : Nat), (∃ v, s'.workers[i]? = some v ∧ v.id = w.id ∧ v.isOpen = false) →
      ∃ v, (s'.refused j l k).workers[i]? = some v ∧ v.id = w.id ∧ v.isOpen = false := by
    intro s' j l k h
    unfold St.refused
    split <;> exact hupd _ _ _ (fun u h => by simpa using h) (fun u => rfl) h
  have hup2 : ∀ k, ∃ v, (s.upd k (fun w => { w with weak := w.weak + 1 })).workers[i]? = some v ∧ v.id = w.id ∧
      v.isOpen = false := fun k => hupd _ _ _ (fun u h => by simpa using h) (fun u => rfl) h0
  cases op with
  | dispatch m ask => simp only [St.step]; split <;> exact h0
  | attempt room =>
    simp only [St.step]
    repeat' split
    all_goals first | exact h0 | exact hup2 _ | exact href _ _ _ _ (hup2 _) | exact hdel _ _ _ (hup2 _)
  | pollSend room =>
    simp only [St.step]
    repeat' split
    all_goals first | exact h0 | exact href _ _ _ _ h0 | exact hdel _ _ _ h0
  | broadcast m =>
    simp only [St.step]
    split
    · exact ⟨{ w with weak := w.weak + 1 }, by simp [hw], rfl, hc⟩
    · exact h0
  | pollCopy k room =>
    simp only [St.step]
    repeat' split
    all_goals first | exact h0 | exact hdel _ _ _ h0 | exact hupd _ _ _ (fun u h => by simpa using h) (fun u => rfl) h0
  | broadcastEnd =>
    simp only [St.step]
    repeat' split
    all_goals exact h0
  | linkDied id up zc =>
    cases up with
    | true => exact absurd rfl (hno id zc)
    | false => simp only [St.step]; split <;> exact h0
  | take k =>
    simp only [St.step]
    repeat' split
    all_goals first | exact h0 | exact hupd _ _ _ (fun u h => by simpa using h) (fun u => rfl) h0
  | done k ok =>
    simp only [St.step]
    repeat' split
    all_goals first
      | exact h0
      | exact hupd _ _ _ (fun u h => by simpa using h) (fun u => rfl) h0
      | exact hupd _ _ _ (fun u h => by simp [Worker.close]) (fun u => rfl)
          (hupd _ _ _ (fun u h => by simpa using h) (fun u => rfl) h0)
  | die k => exact hupd _ _ _ (fun u h => by simp [Worker.close]) (fun u => rfl) h0
  | innerDie k => exact hupd _ _ _ (fun u h => by simpa using h) (fun u => rfl) h0

/-- **C40** What the upgrade is needed for: in any history in which it fails whenever the pool is told of a death, a worker
that has stopped stays, stopped, in its place for ever, and gets nothing any more. (In the code as it is the upgrade does
not fail, `pool_can_upgrade`; it would if the task of an actor held no strong reference, as C31 wants it.) -/
theorem unreferenced_pool_keeps_dead_worker (s : St) (ops : List Op) (hno : ∀ op ∈ ops, ∀ id zc, op ≠ .linkDied id true zc)
    {i : Nat} {w : Worker} (hw : s.workers[i]? = some w) (hc : w.isOpen = false) :
    ∃ v, (run s ops).workers[i]? = some v ∧ v.id = w.id ∧ v.isOpen = false := by
  unfold run
  induction ops generalizing s w with
  | nil => exact ⟨w, hw, rfl, hc⟩
  | cons op l ih =>
    obtain ⟨v, h1, h2, h3⟩ := step_keeps_dead (hno op (by simp)) hw hc
    obtain ⟨u, h4, h5, h6⟩ := ih (s.step op) (fun o ho => hno o (List.mem_cons_of_mem _ ho)) h1 h3
    exact ⟨u, by simpa using h4, h5.trans h2, h6⟩

/-- Two workers; one dies, the pool is told but cannot upgrade; a message goes to the other one, which works on it. -/
example : ∃ s w, after [false, false] [.die 1] = some s ∧ s.workers[1]? = some w ∧ w.isOpen = false ∧
    (run s [.linkDied 1 false false, .dispatch 7 false, .attempt true, .take 0]).workers.map (·.isOpen) = [true, false] := by
  refine ⟨_, _, rfl, rfl, ?_⟩; decide

end Verif.Pool
