import Verif.Pool.Model

namespace Verif.Pool

/-- The sends of the pool that wait for worker `i`. -/
def pend : Phase → Nat → Nat
  | .sending _ _ i', i => if i = i' then 1 else 0
  | .casting _ _ res, i => if res[i]? = some none then 1 else 0
  | _, _ => 0

/-- The messages accepted by the worker with this id. -/
def got (del : List (Job × Nat)) (id : Nat) : List Job := (del.filter (fun e => e.2 == id)).map (·.1)

/-- What holds of a worker, where `p` sends of the pool wait for it. -/
structure WInv (del : List (Job × Nat)) (p : Nat) (w : Worker) : Prop where
  weak : w.weak = w.queue.length + w.cur.toList.length + p
  closed : w.isOpen = false → w.queue = [] ∧ w.cur = none
  hist : got del w.id = w.fin ++ w.cur.toList ++ w.queue ++ w.lost
  lost : w.isOpen = true → w.lost = []

structure Inv (n : Nat) (s : St) : Prop where
  len : s.workers.length = n
  wok : ∀ i w, s.workers[i]? = some w → WInv s.delivered (pend s.phase i) w
  ids : (s.workers.map (·.id)).Nodup
  lt : ∀ w ∈ s.workers, w.id < s.next
  dlt : ∀ e ∈ s.delivered, e.2 < s.next
  idx : ∀ j l i, s.phase = .sending j l i → i < n
  clen : ∀ no m res, s.phase = .casting no m res → res.length = n

theorem got_other {del : List (Job × Nat)} {j : Job} {id id' : Nat} (h : id ≠ id') :
    got (del ++ [(j, id)]) id' = got del id' := by
  simp [got, h]

theorem got_same (del : List (Job × Nat)) (j : Job) (id : Nat) : got (del ++ [(j, id)]) id = got del id ++ [j] := by
  simp [got]

theorem WInv.other {del : List (Job × Nat)} {p : Nat} {w : Worker} {j : Job} {id : Nat} (h : WInv del p w)
    (hid : id ≠ w.id) : WInv (del ++ [(j, id)]) p w :=
  ⟨h.weak, h.closed, by rw [got_other hid]; exact h.hist, h.lost⟩

theorem ids_ne {ws : List Worker} (h : (ws.map (·.id)).Nodup) {i k : Nat} {w v : Worker} (hi : ws[i]? = some w)
    (hk : ws[k]? = some v) (hne : i ≠ k) : w.id ≠ v.id := by
  intro he
  obtain ⟨hi', rfl⟩ := List.getElem?_eq_some_iff.mp hi
  obtain ⟨hk', rfl⟩ := List.getElem?_eq_some_iff.mp hk
  have := (List.getElem_inj (i := i) (j := k) (h₀ := by simpa using hi') (h₁ := by simpa using hk') h).mp (by simpa using he)
  exact hne this

theorem nodup_set {l : List Nat} {x : Nat} (h : l.Nodup) (hx : x ∉ l) (i : Nat) : (l.set i x).Nodup := by
  induction l generalizing i with
  | nil => simp
  | cons a l ih =>
    rw [List.nodup_cons] at h
    simp only [List.mem_cons, not_or] at hx
    cases i with
    | zero => simp only [List.set_cons_zero, List.nodup_cons]; exact ⟨hx.2, h.2⟩
    | succ i =>
      simp only [List.set_cons_succ, List.nodup_cons]
      refine ⟨fun hm => ?_, ih h.2 hx.2 i⟩
      rcases List.mem_or_eq_of_mem_set hm with hm | hm
      · exact h.1 hm
      · exact hx.1 hm.symm

/-- Worker `i` changes, and the phase and what was delivered with it. -/
theorem Inv.modify {n : Nat} {s : St} (h : Inv n s) (i : Nat) (f : Worker → Worker) (s' : St)
    (hw : s'.workers = s.workers.modify i f) (hn : s'.next = s.next)
    (hf : ∀ w, s.workers[i]? = some w → (f w).id = w.id ∧ WInv s'.delivered (pend s'.phase i) (f w))
    (ho : ∀ k v, s.workers[k]? = some v → k ≠ i → WInv s'.delivered (pend s'.phase k) v)
    (hd : ∀ e ∈ s'.delivered, e.2 < s.next)
    (hidx : ∀ j l i, s'.phase = .sending j l i → i < n)
    (hcl : ∀ no m res, s'.phase = .casting no m res → res.length = n) : Inv n s' := by
  have hget : ∀ k v, s'.workers[k]? = some v → (k = i ∧ ∃ w, s.workers[i]? = some w ∧ v = f w) ∨
      (k ≠ i ∧ s.workers[k]? = some v) := by
    intro k v hv
    rw [hw, List.getElem?_modify] at hv
    by_cases hk : i = k
    · subst hk
      simp only [if_true, Option.map_eq_map, Option.map_eq_some_iff] at hv
      obtain ⟨w, h1, h2⟩ := hv
      exact Or.inl ⟨rfl, w, h1, h2.symm⟩
    · simp only [hk, if_false] at hv
      exact Or.inr ⟨fun h => hk h.symm, by simpa using hv⟩
  have hmap : s'.workers.map (·.id) = s.workers.map (·.id) := by
    apply List.ext_getElem?
    intro k
    rw [List.getElem?_map, List.getElem?_map]
    rw [hw, List.getElem?_modify]
    by_cases hk : i = k
    · subst hk
      cases hc : s.workers[i]? with
      | none => simp
      | some w => simp [(hf w hc).1]
    · simp [hk]
  refine ⟨by rw [hw, List.length_modify]; exact h.len, ?_, by rw [hmap]; exact h.ids, ?_, by rw [hn]; exact hd, hidx, hcl⟩
  · intro k v hv
    rcases hget k v hv with ⟨rfl, w, h1, rfl⟩ | ⟨hk, h1⟩
    · exact (hf w h1).2
    · exact ho k v h1 hk
  · intro v hv
    have : v.id ∈ s.workers.map (·.id) := hmap ▸ List.mem_map_of_mem hv
    obtain ⟨w, h1, h2⟩ := List.mem_map.mp this
    rw [hn, ← h2]
    exact h.lt w h1

theorem deliver_eq {s : St} {i : Nat} {w : Worker} (h : s.workers[i]? = some w) (j : Job) :
    s.deliver i j = { s.upd i (·.push j) with delivered := s.delivered ++ [(j, w.id)] } := by
  simp [St.deliver, h]

/-- A message is delivered to worker `i`, which the pool was waiting for. -/
theorem Inv.deliver {n : Nat} {s : St} (h : Inv n s) {i : Nat} {w : Worker} (hw : s.workers[i]? = some w)
    (ho : w.isOpen = true) (j : Job) (p' : Phase) (o : List (Job × Outcome))
    (hp : pend s.phase i = pend p' i + 1) (hpk : ∀ k, k ≠ i → pend p' k = pend s.phase k)
    (hidx : ∀ j l i, p' = .sending j l i → i < n)
    (hcl : ∀ no m res, p' = .casting no m res → res.length = n) :
    Inv n { s.deliver i j with phase := p', outs := o } := by
  rw [deliver_eq hw]
  refine h.modify i (·.push j) _ rfl rfl ?_ ?_ ?_ hidx hcl
  · intro w' hw'
    rw [hw] at hw'
    cases hw'
    have hi := h.wok i w hw
    refine ⟨rfl, ?_, ?_, ?_, ?_⟩
    · simp only [Worker.push, List.length_append, List.length_cons, List.length_nil]
      rw [hi.weak, hp]
      omega
    · simp [Worker.push, ho]
    · simp only [Worker.push, got_same, hi.hist, hi.lost ho]
      simp
    · simpa [Worker.push] using hi.lost
  · intro k v hv hk
    have := h.wok k v hv
    simp only [hpk k hk]
    exact this.other (ids_ne h.ids hw hv (fun h => hk h.symm))
  · intro e he
    rcases List.mem_append.mp he with he | he
    · exact h.dlt e he
    · simp only [List.mem_singleton] at he
      rw [he]
      exact h.lt w (List.mem_of_getElem? hw)

/-- The counter of worker `i` goes down, as does the number of sends that wait for it. -/
theorem Inv.refuse {n : Nat} {s : St} (h : Inv n s) {i : Nat} (p' : Phase) (o : List (Job × Outcome))
    (hp : pend s.phase i = pend p' i + 1) (hpk : ∀ k, k ≠ i → pend p' k = pend s.phase k)
    (hidx : ∀ j l i, p' = .sending j l i → i < n)
    (hcl : ∀ no m res, p' = .casting no m res → res.length = n) :
    Inv n { s.upd i (fun w => { w with weak := w.weak - 1 }) with phase := p', outs := o } := by
  refine h.modify i _ _ rfl rfl ?_ ?_ h.dlt hidx hcl
  · intro w hw
    have hi := h.wok i w hw
    refine ⟨rfl, ?_, hi.closed, hi.hist, hi.lost⟩
    simp only
    rw [hi.weak, hp]
    omega
  · intro k v hv hk
    simp only [hpk k hk]
    exact h.wok k v hv

theorem WInv.close {del : List (Job × Nat)} {p : Nat} {w : Worker} (h : WInv del p w) : WInv del p w.close := by
  refine ⟨?_, fun _ => ⟨rfl, rfl⟩, ?_, by simp [Worker.close]⟩
  · simp only [Worker.close, List.length_nil, Option.toList_none]
    rw [h.weak]
    omega
  · simp only [Worker.close, Option.toList_none]
    rw [h.hist]
    cases ho : w.isOpen with
    | true => simp [h.lost ho]
    | false => simp [(h.closed ho).1, (h.closed ho).2]

theorem Inv.close {n : Nat} {s : St} (h : Inv n s) (i : Nat) : Inv n (s.upd i Worker.close) :=
  h.modify i _ _ rfl rfl (fun w hw => ⟨rfl, (h.wok i w hw).close⟩) (fun k v hv _ => h.wok k v hv) h.dlt h.idx h.clen

theorem minFrom_spec (best key i : Nat) (xs all : List Nat) (hb : all[best]? = some key)
    (hle : ∀ (k y : Nat), all[k]? = some y → k < i → key ≤ y) (hfirst : ∀ (k y : Nat), all[k]? = some y → k < best → key < y)
    (hbi : best < i) (hxs : all.drop i = xs) :
    ∃ x, all[minFrom best key i xs]? = some x ∧ (∀ (k y : Nat), all[k]? = some y → x ≤ y) ∧
      (∀ (k y : Nat), all[k]? = some y → k < minFrom best key i xs → x < y) := by
  induction xs generalizing best key i with
  | nil =>
    refine ⟨key, hb, fun k y hy => hle k y hy ?_, hfirst⟩
    have := (List.getElem?_eq_some_iff.mp hy).1
    have := List.drop_eq_nil_iff.mp hxs
    omega
  | cons x xs ih =>
    have hx : all[i]? = some x := by
      have : (all.drop i)[0]? = some x := by rw [hxs]; rfl
      simpa using this
    have hdrop : all.drop (i + 1) = xs := by
      rw [← List.drop_drop, hxs]; rfl
    simp only [minFrom]
    split
    · rename_i hlt
      refine ih i x (i + 1) hx ?_ ?_ (by omega) hdrop
      · intro k y hy hk
        rcases Nat.lt_or_ge k i with h1 | h1
        · have := hle k y hy h1; omega
        · have : k = i := by omega
          subst this
          rw [hx] at hy
          cases hy
          exact Nat.le_refl _
      · intro k y hy hk
        have := hle k y hy hk
        omega
    · rename_i hlt
      refine ih best key (i + 1) hb ?_ hfirst (by omega) hdrop
      intro k y hy hk
      rcases Nat.lt_or_ge k i with h1 | h1
      · exact hle k y hy h1
      · have : k = i := by omega
        subst this
        rw [hx] at hy
        cases hy
        omega

/-- `min_by_key` gives the first of the smallest. -/
theorem nextWorker_spec (ws : List Worker) (h : ws ≠ []) :
    ∃ w, ws[nextWorker ws]? = some w ∧ (∀ (k : Nat) (v : Worker), ws[k]? = some v → w.weak ≤ v.weak) ∧
      (∀ (k : Nat) (v : Worker), ws[k]? = some v → k < nextWorker ws → w.weak < v.weak) := by
  cases hm : ws.map (·.weak) with
  | nil => simp at hm; exact (h hm).elim
  | cons x xs =>
    have hn : nextWorker ws = minFrom 0 x 1 xs := by simp [nextWorker, hm]
    have hget : ∀ (k y : Nat), (x :: xs)[k]? = some y ↔ ∃ v, ws[k]? = some v ∧ v.weak = y := by
      intro k y
      rw [← hm, List.getElem?_map, Option.map_eq_some_iff]
    obtain ⟨y, h1, h2, h3⟩ := minFrom_spec 0 x 1 xs (x :: xs) rfl
      (by
        intro k y hy hk
        have : k = 0 := by omega
        subst this
        simp at hy
        omega)
      (by intro k y hy hk; omega) (by omega) rfl
    obtain ⟨w, hw, rfl⟩ := (hget _ _).mp h1
    rw [hn]
    exact ⟨w, hw, fun k v hv => h2 k _ ((hget _ _).mpr ⟨v, hv, rfl⟩),
      fun k v hv hk => h3 k _ ((hget _ _).mpr ⟨v, hv, rfl⟩) hk⟩

theorem Inv.nextWorker_lt {n : Nat} {s : St} (h : Inv n s) (hn : 0 < n) : nextWorker s.workers < n := by
  have hne : s.workers ≠ [] := by
    intro he
    have := h.len
    rw [he] at this
    simp at this
    omega
  obtain ⟨w, hw, _⟩ := nextWorker_spec s.workers hne
  have := (List.getElem?_eq_some_iff.mp hw).1
  rw [h.len] at this
  exact this

/-- The counter of worker `i` goes up: seen as if the pool were waiting for it. -/
theorem Inv.count {n : Nat} {s : St} (h : Inv n s) {i : Nat} (hi : i < n) (j : Job) (left : Nat)
    (hp : ∀ k, pend s.phase k = 0) :
    Inv n { s.upd i (fun w => { w with weak := w.weak + 1 }) with phase := .sending j left i } := by
  refine h.modify i _ _ rfl rfl ?_ ?_ h.dlt ?_ (by simp)
  · intro w hw
    have hiw := h.wok i w hw
    refine ⟨rfl, ?_, hiw.closed, hiw.hist, hiw.lost⟩
    simp only [pend, if_true]
    rw [hiw.weak, hp]
  · intro k v hv hk
    have := h.wok k v hv
    rw [hp] at this
    simp only [pend, if_neg hk]
    exact this
  · intro j l i' h'
    simp only [Phase.sending.injEq] at h'
    omega

/-- A send on worker `i` is polled (or done for the first time). -/
def St.poll (s : St) (room : Bool) (j : Job) (left i : Nat) (w : Worker) : St :=
  if !w.isOpen then s.refused j left i
  else if room then { s.deliver i j with phase := .idle, outs := s.outs ++ [(j, .forwarded)] }
  else { s with phase := .sending j left i }

theorem poll_phase (s : St) (p : Phase) (room : Bool) (j : Job) (left i : Nat) (w : Worker) :
    St.poll { s with phase := p } room j left i w = St.poll s room j left i w := by
  unfold St.poll St.refused St.deliver St.upd
  split
  · split <;> rfl
  · split
    · simp only
      split <;> rfl
    · rfl

theorem step_attempt {s : St} {j : Job} {left : Nat} {w : Worker} (hp : s.phase = .trying j (left + 1)) (room : Bool)
    (hw : s.workers[nextWorker s.workers]? = some w) :
    s.step (.attempt room) = St.poll { s.upd (nextWorker s.workers) (fun w => { w with weak := w.weak + 1 }) with
      phase := .sending j left (nextWorker s.workers) } room j left (nextWorker s.workers) { w with weak := w.weak + 1 } := by
  rw [poll_phase]
  simp only [St.step, hp]
  have : (s.upd (nextWorker s.workers) (fun w => { w with weak := w.weak + 1 })).workers[nextWorker s.workers]? =
      some { w with weak := w.weak + 1 } := by
    simp [St.upd, hw]
  rw [this]
  rfl

theorem step_pollSend {s : St} {j : Job} {left i : Nat} {w : Worker} (hp : s.phase = .sending j left i) (room : Bool)
    (hw : s.workers[i]? = some w) : s.step (.pollSend room) = s.poll room j left i w := by
  simp only [St.step, hp, hw, St.poll]
  split
  · rfl
  · split
    · rfl
    · rw [← hp]

theorem Inv.poll {n : Nat} {s : St} (h : Inv n s) {j : Job} {left i : Nat} {w : Worker}
    (hp : s.phase = .sending j left i) (room : Bool) (hw : s.workers[i]? = some w) :
    Inv n (s.poll room j left i w) := by
  unfold St.poll
  have hpi : pend s.phase i = 1 := by simp [hp, pend]
  have hpk : ∀ k, k ≠ i → pend s.phase k = 0 := by intro k hk; simp [hp, pend, hk]
  split
  · unfold St.refused
    simp only
    split
    · exact h.refuse .stopped _ (by rw [hpi]; rfl) (fun k hk => by rw [hpk k hk]; rfl) (by simp) (by simp)
    · exact h.refuse (.trying j left) s.outs (by rw [hpi]; rfl) (fun k hk => by rw [hpk k hk]; rfl) (by simp) (by simp)
  · rename_i ho
    split
    · exact h.deliver hw (by simpa using ho) j .idle _ (by rw [hpi]; rfl) (fun k hk => by rw [hpk k hk]; rfl) (by simp) (by simp)
    · rw [← hp]
      exact h

theorem inv_step {n : Nat} (hn : 0 < n) {s : St} (h : Inv n s) (op : Op) : Inv n (s.step op) := by
  cases op with
  | dispatch m ask =>
    simp only [St.step]
    split
    · rename_i hp
      exact ⟨h.len, fun i w hw => by have := h.wok i w hw; rw [hp] at this; exact this, h.ids, h.lt, h.dlt, by simp, by simp⟩
    · exact h
  | attempt room =>
    cases hp : s.phase with
    | trying j left =>
      cases left with
      | zero =>
        simp only [St.step, hp]
        exact ⟨h.len, fun i w hw => by have := h.wok i w hw; rw [hp] at this; exact this, h.ids, h.lt, h.dlt, by simp, by simp⟩
      | succ left =>
        have hlt := h.nextWorker_lt hn
        obtain ⟨w, hw⟩ : ∃ w, s.workers[nextWorker s.workers]? = some w :=
          ⟨_, List.getElem?_eq_getElem (by rw [h.len]; exact hlt)⟩
        rw [step_attempt hp room hw]
        refine (h.count hlt j left (by simp [hp, pend])).poll rfl room ?_
        simp [St.upd, hw]
    | _ => simp only [St.step, hp]; exact h
  | pollSend room =>
    cases hp : s.phase with
    | sending j left i =>
      have hlt := h.idx j left i hp
      obtain ⟨w, hw⟩ : ∃ w, s.workers[i]? = some w := ⟨_, List.getElem?_eq_getElem (by rw [h.len]; exact hlt)⟩
      rw [step_pollSend hp room hw]
      exact h.poll hp room hw
    | _ => simp only [St.step, hp]; exact h
  | broadcast m =>
    simp only [St.step]
    split
    · rename_i hp
      refine ⟨by simpa using h.len, ?_, ?_, ?_, h.dlt, by simp, ?_⟩
      · intro i w hw
        simp only [List.getElem?_map, Option.map_eq_some_iff] at hw
        obtain ⟨v, hv, rfl⟩ := hw
        have := h.wok i v hv
        rw [hp] at this
        refine ⟨?_, this.closed, this.hist, this.lost⟩
        simp only [pend, List.getElem?_map, hv]
        rw [this.weak]
        simp [pend]
      · simpa [List.map_map, Function.comp_def] using h.ids
      · intro w hw
        obtain ⟨v, hv, rfl⟩ := List.mem_map.mp hw
        exact h.lt v hv
      · intro no m' res h'
        simp only [Phase.casting.injEq] at h'
        rw [← h'.2.2]
        simpa using h.len
    · exact h
  | pollCopy i room =>
    simp only [St.step]
    split
    · rename_i no m res hp
      split
      · rename_i w hres hw
        have hlen := h.clen no m res hp
        have hi : i < res.length := (List.getElem?_eq_some_iff.mp hres).1
        have hpi : ∀ b, pend s.phase i = pend (.casting no m (res.set i (some b))) i + 1 := by
          intro b
          have e : (res.set i (some b))[i]? = some (some b) := by rw [List.getElem?_set_self hi]
          simp only [hp, pend, hres, e]
          simp
        have hpk : ∀ b k, k ≠ i → pend (.casting no m (res.set i (some b))) k = pend s.phase k := by
          intro b k hk
          simp only [hp, pend]
          rw [List.getElem?_set_ne (fun h => hk h.symm)]
        have hcl : ∀ b no' m' res', Phase.casting no m (res.set i (some b)) = .casting no' m' res' → res'.length = n := by
          intro b no' m' res' he
          simp only [Phase.casting.injEq] at he
          rw [← he.2.2, List.length_set]
          exact hlen
        split
        · exact h.refuse (.casting no m (res.set i (some false))) s.outs (hpi _) (hpk _) (by simp) (hcl _)
        · rename_i ho
          split
          · have e : (s.deliver i ⟨no, m, false⟩).outs = s.outs := by rw [deliver_eq hw]; rfl
            have := h.deliver hw (by simpa using ho) ⟨no, m, false⟩ (.casting no m (res.set i (some true))) s.outs
              (hpi _) (hpk _) (by simp) (hcl _)
            rw [← e] at this
            exact this
          · exact h
      · exact h
    · exact h
  | broadcastEnd =>
    simp only [St.step]
    split
    · rename_i no m res hp
      split
      · exact h
      · rename_i hres
        refine ⟨h.len, fun i w hw => ?_, h.ids, h.lt, h.dlt, by simp, by simp⟩
        have := h.wok i w hw
        have hz : pend s.phase i = 0 := by
          simp only [hp, pend]
          rw [if_neg]
          intro he
          exact hres (List.mem_of_getElem? he)
        rw [hz] at this
        exact this
    · exact h
  | linkDied id up zc =>
    simp only [St.step]
    split
    · rename_i hp
      split
      · exact h
      · split
        · exact h
        · rename_i i hi
          split
          · exact ⟨h.len, fun i w hw => by have := h.wok i w hw; rw [hp] at this; exact this, h.ids, h.lt, h.dlt, by simp, by simp⟩
          · have hlt : i < s.workers.length := by
              have := List.findIdx?_eq_some_iff_getElem.mp hi
              exact this.1
            have hfresh : ∀ w ∈ s.workers, w.id ≠ s.next := fun w hw => by have := h.lt w hw; omega
            have hgot : got s.delivered s.next = [] := by
              simp only [got, List.map_eq_nil_iff, List.filter_eq_nil_iff, beq_iff_eq]
              intro e he
              have := h.dlt e he
              omega
            refine ⟨by simpa using h.len, ?_, ?_, ?_, ?_, by simp [hp], by simp [hp]⟩
            · intro k w hw
              simp only [hp, pend]
              rw [List.getElem?_set] at hw
              split at hw
              · simp only [Option.some.injEq] at hw
                rw [← hw]
                exact ⟨rfl, by simp, by simp [hgot], by simp⟩
              · have := h.wok k w hw
                rw [hp] at this
                exact this
            · rw [List.map_set]
              simp only
              refine nodup_set h.ids (fun hm => ?_) i
              obtain ⟨w, hw, he⟩ := List.mem_map.mp hm
              exact hfresh w hw he
            · intro w hw
              rcases List.mem_or_eq_of_mem_set hw with hw | rfl
              · have := h.lt w hw
                simp only
                omega
              · simp
            · intro e he
              have := h.dlt e he
              simp only
              omega
    · exact h
  | take i =>
    simp only [St.step]
    split
    · rename_i w hw
      split
      · rename_i j q hc hq
        refine h.modify i _ _ rfl rfl ?_ (fun k v hv _ => h.wok k v hv) h.dlt h.idx h.clen
        intro w' hw'
        rw [hw] at hw'
        cases hw'
        have hi := h.wok i w hw
        refine ⟨rfl, ?_, ?_, ?_, hi.lost⟩
        · simp only [St.upd]
          rw [hi.weak, hc, hq]
          simp
        · intro ho
          have := (hi.closed ho).1
          rw [hq] at this
          cases this
        · simp only [St.upd]
          rw [hi.hist, hc, hq]
          simp
      · exact h
    · exact h
  | done i ok =>
    simp only [St.step]
    split
    · rename_i w hw
      split
      · rename_i j hc
        split
        · exact h
        · have h2 : Inv n (s.upd i (fun w => { w with cur := none, weak := w.weak - 1, fin := w.fin ++ [j] })) := by
            refine h.modify i _ _ rfl rfl ?_ (fun k v hv _ => h.wok k v hv) h.dlt h.idx h.clen
            intro w' hw'
            rw [hw] at hw'
            cases hw'
            have hi := h.wok i w hw
            refine ⟨rfl, ?_, ?_, ?_, hi.lost⟩
            · simp only [St.upd]
              rw [hi.weak, hc]
              simp
            · intro ho
              have := (hi.closed ho).2
              rw [hc] at this
              cases this
            · simp only [St.upd]
              rw [hi.hist, hc]
              simp
          split
          · exact ⟨h2.len, h2.wok, h2.ids, h2.lt, h2.dlt, h2.idx, h2.clen⟩
          · split
            · exact h2.close i
            · exact h2
      · exact h
    · exact h
  | die i => exact h.close i
  | innerDie i =>
    refine h.modify i _ _ rfl rfl ?_ (fun k v hv _ => h.wok k v hv) h.dlt h.idx h.clen
    intro w hw
    have hi := h.wok i w hw
    exact ⟨rfl, hi.weak, hi.closed, hi.hist, hi.lost⟩

theorem after_induct {P : St → Prop} {zero : List Bool} {ops : List Op} {s : St} (h : after zero ops = some s)
    (h0 : ∀ s0, new zero = some s0 → P s0) (hs : ∀ s op, P s → P (s.step op)) : P s := by
  unfold after at h
  obtain ⟨s0, h1, rfl⟩ := Option.map_eq_some_iff.mp h
  have hp := h0 s0 h1
  clear h h1 h0
  unfold run
  induction ops generalizing s0 with
  | nil => exact hp
  | cons op ops ih => exact ih _ (hs _ op hp)

theorem new_some {zero : List Bool} {s : St} (h : new zero = some s) :
    0 < zero.length ∧ s = { workers := (List.range zero.length).map (fun i => { id := i }), next := zero.length } := by
  unfold new at h
  split at h
  · cases h
  · rename_i hne
    simp only [Option.some.injEq] at h
    refine ⟨?_, h.symm⟩
    cases zero with
    | nil => simp at hne
    | cons a l => simp

theorem inv_after {zero : List Bool} {ops : List Op} {s : St} (h : after zero ops = some s) :
    0 < zero.length ∧ Inv zero.length s := by
  refine after_induct (P := fun s => 0 < zero.length ∧ Inv zero.length s) h ?_ (fun s op hi => ⟨hi.1, inv_step hi.1 hi.2 op⟩)
  intro s0 h0
  obtain ⟨hpos, rfl⟩ := new_some h0
  refine ⟨hpos, by simp, ?_, ?_, ?_, by simp, by simp, by simp⟩
  · intro i w hw
    simp only [List.getElem?_map, Option.map_eq_some_iff] at hw
    obtain ⟨k, _, rfl⟩ := hw
    exact ⟨rfl, by simp, by simp [got], by simp⟩
  · rw [List.map_map]
    have : ((fun x : Worker => x.id) ∘ fun i : Nat => ({ id := i } : Worker)) = id := by funext i; rfl
    rw [this, List.map_id]
    exact List.nodup_range
  · intro w hw
    obtain ⟨k, hk, rfl⟩ := List.mem_map.mp hw
    exact List.mem_range.mp hk

end Verif.Pool
