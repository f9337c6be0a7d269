import Verif.Locks.Circle

/-!
Calls about the links of actors that form a ring can wait for each other for ever, whichever way round they name their
actors: C26, `src/actor/actor_ref.rs` L514-526, L553-565, L637-646, L675-684.
-/

set_option linter.unusedSimpArgs false

namespace Verif.Locks

/-- The calls from number `j` on have what they can have: call `w t` holds the lock of actor `v t`, all of them but the last
one have made both requests, and the others have not begun. -/
structure Partway (n : Nat) (v w : Nat → Nat) (j : Nat) (s : St) : Prop where
  held : ∀ t, j ≤ t → t ≤ n → (s.queue (v t)).head? = some (w t)
  free : ∀ t, t < j → s.queue (v t) = []
  two : ∀ t, j ≤ t → t < n → s.stage (w t) = .two
  new : ∀ t, t < j → s.stage (w t) = .new
  last : s.stage (w n) = .one

/-- What call `j` of a ring is: of actor `v j` and the next one, in either direction if it is an async one. -/
def RingCall (a b : Nat) (k : Call) : Prop :=
  linkCall a b = some k ∨ blockingCall a b = some k ∨ linkCall b a = some k

theorem RingCall.eq {a b : Nat} {k : Call} (h : RingCall a b k) (hab : a ≠ b) :
    (∃ x, k = ⟨a, some b, x⟩) ∨ k = ⟨b, some a, false⟩ := by
  rcases h with h | h | h
  · simp only [linkCall, hab, if_false, Option.some.injEq] at h; exact .inl ⟨_, h.symm⟩
  · simp only [blockingCall, hab, if_false, Option.some.injEq] at h; exact .inl ⟨_, h.symm⟩
  · simp only [linkCall, Ne.symm hab, if_false, Option.some.injEq] at h; exact .inr h.symm

theorem partway_step {c : Nat → Call} {n : Nat} {v w : Nat → Nat} {j : Nat} {s : St}
    (hv : ∀ i k, i ≤ n → k ≤ n → v i = v k → i = k) (hw : ∀ i k, i ≤ n → k ≤ n → w i = w k → i = k) (hj : j < n)
    (hc : RingCall (v j) (v (j + 1)) (c (w j)))
    (h : Partway n v w (j + 1) s) : Partway n v w j ((s.step c (.req1 (w j))).step c (.req2 (w j))) := by
  have hne : v j ≠ v (j + 1) := fun e => by have := hv j (j + 1) (by omega) (by omega) e; omega
  have hnew := h.new j (by omega)
  have hfree := h.free j (by omega)
  have key : (∀ x, ((s.step c (.req1 (w j))).step c (.req2 (w j))).queue x =
        if x = v j then [w j] else if x = v (j + 1) then s.queue x ++ [w j] else s.queue x) ∧
      ∀ u, ((s.step c (.req1 (w j))).step c (.req2 (w j))).stage u = if u = w j then .two else s.stage u := by
    rcases hc.eq hne with ⟨x, hk⟩ | hk
    · constructor
      · intro y
        by_cases h1 : y = v j
        · subst h1
          cases x <;> simp [St.step, St.enabled, St.request, St.mark, St.holds, hk, hnew, hfree, hne]
        · by_cases h2 : y = v (j + 1)
          · subst h2
            cases x <;> simp [St.step, St.enabled, St.request, St.mark, St.holds, hk, hnew, hfree, hne, h1]
          · cases x <;> simp [St.step, St.enabled, St.request, St.mark, St.holds, hk, hnew, hfree, h1, h2]
      · intro u
        by_cases h1 : u = w j <;> cases x <;>
          simp [St.step, St.enabled, St.request, St.mark, St.holds, hk, hnew, hfree, h1]
    · constructor
      · intro y
        by_cases h1 : y = v j
        · subst h1
          simp [St.step, St.enabled, St.request, St.mark, St.holds, hk, hnew, hfree, hne]
        · by_cases h2 : y = v (j + 1)
          · subst h2
            simp [St.step, St.enabled, St.request, St.mark, St.holds, hk, hnew, hfree, hne, h1]
          · simp [St.step, St.enabled, St.request, St.mark, St.holds, hk, hnew, hfree, h1, h2]
      · intro u
        by_cases h1 : u = w j <;> simp [St.step, St.enabled, St.request, St.mark, St.holds, hk, hnew, hfree, h1]
  generalize (s.step c (.req1 (w j))).step c (.req2 (w j)) = s' at key
  obtain ⟨hq, hs⟩ := key
  constructor
  · intro t h1 h2
    rw [hq]
    by_cases ht : t = j
    · subst ht; simp
    · have h3 : v t ≠ v j := fun e => ht (hv t j h2 (by omega) e)
      have h4 := h.held t (by omega) h2
      simp only [h3, if_false]
      split
      · exact head_append h4
      · exact h4
  · intro t ht
    rw [hq]
    have h3 : v t ≠ v j := fun e => by have := hv t j (by omega) (by omega) e; omega
    have h4 : v t ≠ v (j + 1) := fun e => by have := hv t (j + 1) (by omega) (by omega) e; omega
    simp only [h3, h4, if_false]
    exact h.free t (by omega)
  · intro t h1 h2
    rw [hs]
    split
    · rfl
    · next hne' => exact h.two t (Nat.lt_of_le_of_ne h1 fun e => hne' (by rw [e])) h2
  · intro t ht
    rw [hs, if_neg fun e => by have := hw t j (by omega) (by omega) e; omega]
    exact h.new t (by omega)
  · rw [hs, if_neg fun e => by have := hw n j (by omega) (by omega) e; omega]
    exact h.last

/-- One after the other, from the last but one down, each makes its two requests. -/
def ringOps (w : Nat → Nat) : Nat → List Op
  | 0 => []
  | j + 1 => .req1 (w j) :: .req2 (w j) :: ringOps w j

theorem ringOps_task (w : Nat → Nat) (j : Nat) : ∀ op ∈ ringOps w j, ∃ i, i < j ∧ op.task = w i := by
  induction j with
  | zero => intro op h; cases h
  | succ j ih =>
    intro op h
    simp only [ringOps, List.mem_cons] at h
    rcases h with rfl | rfl | h
    · exact ⟨j, by omega, rfl⟩
    · exact ⟨j, by omega, rfl⟩
    · obtain ⟨i, hi, e⟩ := ih op h
      exact ⟨i, by omega, e⟩

theorem partway_run {c : Nat → Call} {n : Nat} {v w : Nat → Nat} (hv : ∀ i k, i ≤ n → k ≤ n → v i = v k → i = k)
    (hw : ∀ i k, i ≤ n → k ≤ n → w i = w k → i = k)
    (hc : ∀ t, t < n → RingCall (v t) (v (t + 1)) (c (w t))) :
    ∀ (j : Nat), j ≤ n → ∀ s, Partway n v w j s → Partway n v w 0 (s.exec c (ringOps w j)) := by
  intro j
  induction j with
  | zero => intro _ s h; exact h
  | succ j ih =>
    intro hj s h
    exact ih (by omega) _ (partway_step hv hw (by omega) (hc j (by omega)) h)

/-- The calls of a ring, the last of which goes along, can all get to wait for each other. -/
theorem ring_jam (n : Nat) (hn : 1 ≤ n) (v w : Nat → Nat) (hv : ∀ i k, i ≤ n → k ≤ n → v i = v k → i = k)
    (hw : ∀ i k, i ≤ n → k ≤ n → w i = w k → i = k)
    (c : Nat → Call) (hlast : linkCall (v n) (v 0) = some (c (w n)) ∨ blockingCall (v n) (v 0) = some (c (w n)))
    (hc : ∀ t, t < n → RingCall (v t) (v (t + 1)) (c (w t))) :
    ∃ ops, (∀ op ∈ ops, ∃ i, i ≤ n ∧ op.task = w i) ∧ Jam c (fun u => ∃ t, t ≤ n ∧ u = w t) (after c ops) := by
  have hne : v n ≠ v 0 := fun e => by have := hv n 0 (by omega) (by omega) e; omega
  obtain ⟨x, hk⟩ : ∃ x, c (w n) = ⟨v n, some (v 0), x⟩ := by
    rcases hlast with h | h
    · simp only [linkCall, hne, if_false, Option.some.injEq] at h; exact ⟨_, h.symm⟩
    · simp only [blockingCall, hne, if_false, Option.some.injEq] at h; exact ⟨_, h.symm⟩
  have h0 : Partway n v w n (after c [.req1 (w n)]) := by
    constructor
    · intro t h1 h2
      have : t = n := by omega
      subst this
      simp [after, St.exec, St.step, St.enabled, St.request, St.mark, hk]
    · intro t ht
      have : v t ≠ v n := fun e => by have := hv t n (by omega) (by omega) e; omega
      simp [after, St.exec, St.step, St.enabled, St.request, St.mark, hk, this]
    · intro t h1 h2; omega
    · intro t ht
      have : w t ≠ w n := fun e => by have := hw t n (by omega) (by omega) e; omega
      simp [after, St.exec, St.step, St.enabled, St.request, St.mark, this]
    · simp [after, St.exec, St.step, St.enabled, St.request, St.mark]
  have h1 := partway_run hv hw hc n (Nat.le_refl _) _ h0
  have hj : Jam c (fun u => ∃ t, t ≤ n ∧ u = w t)
      (((after c [.req1 (w n)]).exec c (ringOps w n)).step c (.req2 (w n))) := by
    generalize (after c [.req1 (w n)]).exec c (ringOps w n) = s at h1
    have hq : ∀ t, t ≤ n → ((s.step c (.req2 (w n))).queue (v t)).head? = some (w t) := by
      intro t ht
      have hh := h1.held t (by omega) ht
      have hl := h1.held n (by omega) (Nat.le_refl _)
      have : (s.step c (.req2 (w n))).queue (v t) = if v t = v 0 then s.queue (v t) ++ [w n] else s.queue (v t) := by
        cases x <;> simp [St.step, St.enabled, St.request, St.mark, St.holds, hk, h1.last, hl]
      rw [this]
      split
      · exact head_append hh
      · exact hh
    have hs : ∀ t, t ≤ n → (s.step c (.req2 (w n))).stage (w t) = .two := by
      intro t ht
      have hl := h1.held n (by omega) (Nat.le_refl _)
      have : (s.step c (.req2 (w n))).stage (w t) = if w t = w n then .two else s.stage (w t) := by
        cases x <;> simp [St.step, St.enabled, St.request, St.mark, St.holds, hk, h1.last, hl]
      rw [this]
      split
      · rfl
      · next hne' => exact h1.two t (by omega) (Nat.lt_of_le_of_ne ht fun e => hne' (by rw [e]))
    rintro u ⟨t, ht, rfl⟩
    by_cases htn : t = n
    · subst htn
      exact ⟨v 0, w 0, hq 0 (by omega), ⟨0, by omega, rfl⟩,
        fun e => by have := hw 0 t (by omega) (by omega) e; omega, .inl ⟨hs t ht, .inr (by rw [hk])⟩⟩
    · have hvne : v t ≠ v (t + 1) := fun e => by have := hv t (t + 1) (by omega) (by omega) e; omega
      refine ⟨v (t + 1), w (t + 1), hq (t + 1) (by omega), ⟨t + 1, by omega, rfl⟩,
        fun e => by have := hw (t + 1) t (by omega) (by omega) e; omega, .inl ⟨hs t ht, ?_⟩⟩
      rcases RingCall.eq (hc t (by omega)) hvne with ⟨y, hy⟩ | hy
      · right; rw [hy]
      · left; rw [hy]
  refine ⟨[.req1 (w n)] ++ ringOps w n ++ [.req2 (w n)], fun op ho => ?_, ?_⟩
  · simp only [List.mem_append, List.mem_singleton] at ho
    rcases ho with (rfl | h) | rfl
    · exact ⟨n, Nat.le_refl _, rfl⟩
    · obtain ⟨i, hi, e⟩ := ringOps_task w n op h
      exact ⟨i, by omega, e⟩
    · exact ⟨n, Nat.le_refl _, rfl⟩
  · have e : after c ([.req1 (w n)] ++ ringOps w n ++ [.req2 (w n)]) =
        ((after c [.req1 (w n)]).exec c (ringOps w n)).step c (.req2 (w n)) := by
      rw [after_append, after_append]; rfl
    rw [e]; exact hj

/-- **C26** is false of every ring: take two or more different actors in a circle and a call for each two neighbours, the
last of which goes round the circle in the direction in which the actors are numbered (so start at any of the calls, and
follow its direction); the others may be async calls in any directions or blocking ones in the same direction. Whatever
other calls there are, they can reach a state in which none of them ever completes, whatever happens, unless the future of
an async one is dropped. Two actors and two equal calls `a.link(&b)` are such a ring. -/
theorem ring_deadlocks (n : Nat) (hn : 1 ≤ n) (v : Nat → Nat) (hv : ∀ i k, i ≤ n → k ≤ n → v i = v k → i = k)
    (c : Nat → Call) (hlast : linkCall (v n) (v 0) = some (c n) ∨ blockingCall (v n) (v 0) = some (c n))
    (hc : ∀ t, t < n → linkCall (v t) (v (t + 1)) = some (c t) ∨ blockingCall (v t) (v (t + 1)) = some (c t) ∨
      linkCall (v (t + 1)) (v t) = some (c t)) :
    ∃ ops, ∀ ops', (∀ op ∈ ops', ∀ t, t ≤ n → (c t).blocking = false → op ≠ .drop t) →
      ∀ t, t ≤ n → (after c (ops ++ ops')).stage t ≠ .done := by
  obtain ⟨ops, _, hj⟩ := ring_jam n hn v id hv (fun _ _ _ _ h => h) c hlast hc
  refine ⟨ops, fun ops' h t ht => ?_⟩
  rw [after_append]
  refine circle_never_completes _ _ _ hj _ (fun op ho u hu hb => ?_) t ⟨t, ht, rfl⟩
  obtain ⟨i, hi, rfl⟩ := hu
  exact h op ho _ hi hb

/-- Four calls around the actors 0 to 3: `3.link(&0)`, `2.blocking_link(&3)`, `2.link(&1)`, `0.link(&1)`. -/
def ringDemo : Nat → Call := fun t =>
  if t = 3 then ⟨3, some 0, false⟩ else if t = 2 then ⟨2, some 3, true⟩ else if t = 1 then ⟨2, some 1, false⟩
  else ⟨0, some 1, false⟩

example : ∃ ops, ∀ ops', (∀ op ∈ ops', ∀ t, t ≤ 3 → (ringDemo t).blocking = false → op ≠ .drop t) →
    ∀ t, t ≤ 3 → (after ringDemo (ops ++ ops')).stage t ≠ .done := by
  refine ring_deadlocks 3 (by omega) id (fun _ _ _ _ h => h) ringDemo (.inl rfl) fun t ht => ?_
  have : t = 0 ∨ t = 1 ∨ t = 2 := by omega
  rcases this with rfl | rfl | rfl
  · exact .inl rfl
  · exact .inr (.inr rfl)
  · exact .inr (.inl rfl)

/-- Two equal calls `5.link(&7)`. -/
example : ∃ ops, ∀ ops', (∀ op ∈ ops', ∀ t, t ≤ 1 → false = false → op ≠ .drop t) →
    ∀ t, t ≤ 1 → (after (fun _ => ⟨5, some 7, false⟩) (ops ++ ops')).stage t ≠ .done := by
  refine ring_deadlocks 1 (by omega) (fun i => if i = 1 then 5 else 7) (fun i k hi hk h => ?_)
    (fun _ => ⟨5, some 7, false⟩) (.inl rfl) fun t ht => ?_
  · split at h <;> split at h <;> omega
  · have : t = 0 := by omega
    subst this
    exact .inr (.inr rfl)

end Verif.Locks
