import Verif.PubSub.Model

namespace Verif.PubSub

/-! Specification: who is subscribed, read off the history (latest first), without any map. -/

/-- Does the subscription of `id` with filter `f`, asked about `seen` before, accept `m`? -/
def accepts (sub : Filter M × List M) (m : M) : Bool := sub.1 sub.2 m

/-- The subscription of `id` after the history: the filter of the latest subscription and the messages
published since, unless it was found stopped since. -/
def subscription (id : Nat) : List (Op M) → Option (Filter M × List M)
  | [] => none
  | .subscribe id' :: past => if id' = id then some (fun _ _ => true, []) else subscription id past
  | .subscribeFilter id' f :: past => if id' = id then some (f, []) else subscription id past
  | .publish m res :: past =>
    match subscription id past with
    | none => none
    | some sub => if accepts sub m ∧ res id = .notRunning then none else some (sub.1, sub.2 ++ [m])

/-! ### The map agrees with the specification -/

theorem after_snoc (ops : List (Op M)) (op : Op M) : after (ops ++ [op]) = (after ops).step op := by
  simp [after]

theorem find_map (m : Map Nat (Sub M)) (g : Sub M → Sub M) (k : Nat) :
    Map.find (m.map (fun e => (e.1, g e.2))) k = (m.find k).map g := by
  induction m with
  | nil => rfl
  | cons e m ih =>
    obtain ⟨k', v⟩ := e
    simp only [List.map_cons, Map.find]
    split
    · rfl
    · exact ih

theorem ok_map {m : Map Nat (Sub M)} (h : m.Ok) (g : Sub M → Sub M) : Map.Ok (m.map (fun e => (e.1, g e.2))) := by
  simpa [Map.Ok, Map.keys, List.map_map, Function.comp_def] using h

/-- The loop that removes the stopped. -/
theorem remove_loop (rs : List (Nat × Res)) (m : Map Nat (Sub M)) (h : m.Ok) (k : Nat) :
    Map.Ok (rs.foldl (fun (subs : Map Nat (Sub M)) r => if r.2 = .notRunning then subs.del r.1 else subs) m) ∧
    Map.find (rs.foldl (fun (subs : Map Nat (Sub M)) r => if r.2 = .notRunning then subs.del r.1 else subs) m) k =
      if (k, Res.notRunning) ∈ rs then none else m.find k := by
  induction rs generalizing m with
  | nil => exact ⟨h, by simp⟩
  | cons r rs ih =>
    obtain ⟨k', v⟩ := r
    simp only [List.foldl_cons]
    by_cases hv : v = .notRunning
    · subst hv
      simp only [if_true]
      refine ⟨(ih _ (Map.ok_del h k')).1, ?_⟩
      rw [(ih _ (Map.ok_del h k')).2, Map.find_del h]
      by_cases hk : k = k'
      · subst hk; simp
      · simp [hk]
    · simp only [hv, if_false]
      refine ⟨(ih _ h).1, ?_⟩
      rw [(ih _ h).2]
      have : (k, Res.notRunning) ∈ (k', v) :: rs ↔ (k, Res.notRunning) ∈ rs := by
        simp only [List.mem_cons, Prod.mk.injEq, or_iff_right_iff_imp]
        rintro ⟨_, h2⟩
        exact (hv h2.symm).elim
      simp only [this]

/-- The actors to which a publish sends, in the order of the map. -/
def targets (s : St M) (m : M) : List Nat := (s.subs.filter (fun e => e.2.filter e.2.seen m)).map (·.1)

theorem targets_nodup {s : St M} (h : s.subs.Ok) (m : M) : (targets s m).Nodup := by
  unfold targets
  refine List.Nodup.sublist ?_ h
  exact List.Sublist.map _ List.filter_sublist

theorem mem_targets {s : St M} (h : s.subs.Ok) (m : M) (id : Nat) :
    id ∈ targets s m ↔ ∃ sub, s.subs.find id = some sub ∧ sub.filter sub.seen m = true := by
  unfold targets
  rw [List.mem_map]
  constructor
  · rintro ⟨e, he, rfl⟩
    obtain ⟨h1, h2⟩ := List.mem_filter.mp he
    exact ⟨e.2, Map.find_of_mem h h1, h2⟩
  · rintro ⟨sub, h1, h2⟩
    exact ⟨(id, sub), List.mem_filter.mpr ⟨Map.mem_of_find h1, h2⟩, rfl⟩

theorem publish_find {s : St M} (h : s.subs.Ok) (m : M) (res : Nat → Res) (id : Nat) :
    (publish s m res).subs.Ok ∧
    (publish s m res).subs.find id =
      match s.subs.find id with
      | none => none
      | some sub => if sub.filter sub.seen m = true ∧ res id = .notRunning then none
          else some { sub with seen := sub.seen ++ [m] } := by
  have hok := ok_map h (fun sub => ({ sub with seen := sub.seen ++ [m] } : Sub M))
  have := remove_loop ((targets s m).map (fun id => (id, res id))) _ hok id
  refine ⟨this.1, ?_⟩
  refine Eq.trans this.2 ?_
  rw [find_map s.subs (fun sub => ({ sub with seen := sub.seen ++ [m] } : Sub M))]
  have hm : (id, Res.notRunning) ∈ (targets s m).map (fun id => (id, res id)) ↔
      id ∈ targets s m ∧ res id = .notRunning := by
    rw [List.mem_map]
    constructor
    · rintro ⟨a, h1, h2⟩
      simp only [Prod.mk.injEq] at h2
      obtain ⟨rfl, h2⟩ := h2
      exact ⟨h1, h2⟩
    · rintro ⟨h1, h2⟩
      exact ⟨id, h1, by rw [h2]⟩
  simp only [hm, mem_targets h]
  cases hf : s.subs.find id with
  | none => simp
  | some sub => simp

theorem step_ok {s : St M} (h : s.subs.Ok) (op : Op M) : (s.step op).subs.Ok := by
  cases op with
  | subscribe id => exact Map.ok_put h _ _
  | subscribeFilter id f => exact Map.ok_put h _ _
  | publish m res => exact (publish_find h m res 0).1

theorem agrees (past : List (Op M)) : (after past.reverse).subs.Ok ∧ ∀ id,
    (after past.reverse).subs.find id = (subscription id past).map (fun sub => { filter := sub.1, seen := sub.2 }) := by
  induction past with
  | nil => exact ⟨Map.ok_nil, fun _ => rfl⟩
  | cons op past ih =>
    obtain ⟨hok, hf⟩ := ih
    rw [List.reverse_cons, after_snoc]
    refine ⟨step_ok hok op, fun id => ?_⟩
    cases op with
    | subscribe id' =>
      simp only [St.step, Map.find_put, subscription, hf]
      by_cases h : id = id'
      · simp only [h, if_true, Option.map_some]; rfl
      · simp [h, Ne.symm h]
    | subscribeFilter id' f =>
      simp only [St.step, Map.find_put, subscription, hf]
      by_cases h : id = id'
      · simp [h]
      · simp [h, Ne.symm h]
    | publish m res =>
      simp only [St.step, (publish_find hok m res id).2, hf, subscription]
      cases subscription id past with
      | none => rfl
      | some sub =>
        have ea : sub.1 sub.2 m = accepts sub m := rfl
        simp only [Option.map_some, ea]
        by_cases hc : accepts sub m = true ∧ res id = .notRunning
        · simp [hc]
        · rw [if_neg hc, if_neg hc]; rfl

theorem count_nodup {l : List Nat} (h : l.Nodup) {a : Nat} (ha : a ∈ l) : l.count a = 1 := by
  induction l with
  | nil => cases ha
  | cons b l ih =>
    rw [List.nodup_cons] at h
    rcases List.mem_cons.mp ha with rfl | ha
    · simp [List.count_eq_zero_of_not_mem h.1]
    · have : b ≠ a := fun e => h.1 (e ▸ ha)
      rw [List.count_cons, ih h.2 ha]
      simp [this]

/-! ### C44 -/

/-- Two subscribers; the second wants even numbers only, and every other one of them. -/
def demo : List (Op Nat) :=
  [.subscribe 1, .subscribeFilter 2 (fun seen m => m % 2 = 0 && (seen.filter (· % 2 = 0)).length % 2 = 0),
   .subscribe 3, .publish 4 (fun id => if id = 3 then .notRunning else .ok), .publish 5 (fun _ => .ok),
   .publish 6 (fun _ => .ok), .publish 8 (fun _ => .ok)]

/-- **C44** A publish gives exactly one copy to each actor that is subscribed, whose filter accepts the message,
and which is running, and none to any other actor. -/
theorem publish_exact (past : List (Op M)) (m : M) (res : Nat → Res) :
    ∃ ids, (after (past.reverse ++ [.publish m res])).log = (after past.reverse).log ++ [(m, ids)] ∧ ∀ id,
      ids.count id =
        match subscription id past with
        | none => 0
        | some sub => if accepts sub m = true ∧ res id = .ok then 1 else 0 := by
  obtain ⟨hok, hf⟩ := agrees past
  rw [after_snoc]
  refine ⟨_, rfl, fun id => ?_⟩
  have e : ((((targets (after past.reverse) m).map (fun id => (id, res id))).filter (fun r => r.2 = .ok)).map (·.1)) =
      (targets (after past.reverse) m).filter (fun id => res id = .ok) := by
    generalize targets (after past.reverse) m = l
    induction l with
    | nil => rfl
    | cons a l ih =>
      simp only [List.map_cons, List.filter_cons]
      split <;> simp [ih]
  refine Eq.trans (congrArg (List.count id) e) ?_
  have hnd := (targets_nodup hok m).filter (fun id => decide (res id = .ok))
  have hmem : id ∈ (targets (after past.reverse) m).filter (fun id => decide (res id = .ok)) ↔
      ∃ sub, subscription id past = some sub ∧ accepts sub m = true ∧ res id = .ok := by
    rw [List.mem_filter, mem_targets hok, hf]
    cases subscription id past with
    | none => simp
    | some sub => simp [accepts]
  by_cases hc : ∃ sub, subscription id past = some sub ∧ accepts sub m = true ∧ res id = .ok
  · rw [count_nodup hnd (hmem.mpr hc)]
    obtain ⟨sub, h1, h2, h3⟩ := hc
    simp [h1, h2, h3]
  · rw [List.count_eq_zero_of_not_mem (fun h => hc (hmem.mp h))]
    cases hs : subscription id past with
    | none => rfl
    | some sub =>
      have : ¬ (accepts sub m = true ∧ res id = .ok) := fun h => hc ⟨sub, hs, h⟩
      simp [this]

/-- The second subscriber's filter accepts 4 and 8, the third is not running. -/
example : (after demo).log = [(4, [1, 2]), (5, [1]), (6, [1]), (8, [1, 2])] ∧
    (subscription 1 demo.reverse).isSome = true ∧ (subscription 3 demo.reverse).isSome = false := by decide

/-- **C44** Exactly those subscribers are removed by a publish that it sent the message to and found stopped; all
others stay, with their filters. -/
theorem publish_removes (past : List (Op M)) (m : M) (res : Nat → Res) (id : Nat) :
    (after (past.reverse ++ [.publish m res])).subs.has id = true ↔
      ∃ sub, subscription id past = some sub ∧ ¬ (accepts sub m = true ∧ res id = .notRunning) := by
  obtain ⟨hok, hf⟩ := agrees past
  rw [after_snoc]
  simp only [St.step, Map.has, (publish_find hok m res id).2, hf]
  cases subscription id past with
  | none => simp
  | some sub =>
    simp only [Option.map_some, accepts, Option.some.injEq]
    split
    · rename_i h
      simp only [Option.isSome_none, Bool.false_eq_true, false_iff]
      rintro ⟨sub', rfl, h2⟩
      exact h2 h
    · rename_i h
      simp only [Option.isSome_some, true_iff]
      exact ⟨sub, rfl, h⟩

/-- The first publish found actor 3 stopped. -/
example : (after (demo.take 3)).subs.map (·.1) = [1, 2, 3] ∧ (after (demo.take 4)).subs.map (·.1) = [1, 2] := by decide

/-- **C44** Subscribing again replaces the filter: whoever is subscribed, the next publish gives one copy if
the new filter accepts the message, and none otherwise. -/
theorem resubscribe_replaces (past : List (Op M)) (id : Nat) (f : Filter M) (m : M) (res : Nat → Res)
    (hrun : res id = .ok) :
    ∃ ids, (after ((past.reverse ++ [.subscribeFilter id f]) ++ [.publish m res])).log.getLast? = some (m, ids) ∧
      ids.count id = if f [] m then 1 else 0 := by
  have := publish_exact (.subscribeFilter id f :: past) m res
  rw [List.reverse_cons] at this
  obtain ⟨ids, h1, h2⟩ := this
  refine ⟨ids, by rw [h1]; simp, ?_⟩
  rw [h2 id]
  simp [subscription, accepts, hrun]

/-- Actor 2 subscribes again, for odd numbers. -/
example : (after (demo ++ [.subscribeFilter 2 (fun _ m => m % 2 = 1)] ++ [.publish 9 (fun _ => .ok)])).log.getLast? =
    some (9, [1, 2]) ∧
    (after (demo ++ [.subscribeFilter 2 (fun _ m => m % 2 = 1)] ++ [.publish 10 (fun _ => .ok)])).log.getLast? =
    some (10, [1]) := by decide

end Verif.PubSub
