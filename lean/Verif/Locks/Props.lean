import Verif.Locks.Model

/-! C26: can calls of `link` and `unlink` deadlock? -/

set_option linter.unusedSimpArgs false

namespace Verif.Locks

theorem exec_append (c : Nat → Call) (s : St) (a b : List Op) :
    s.exec c (a ++ b) = (s.exec c a).exec c b := by simp [St.exec, List.foldl_append]

theorem after_snoc (c : Nat → Call) (ops : List Op) (op : Op) :
    after c (ops ++ [op]) = (after c ops).step c op := by simp [after, St.exec, List.foldl_append]

theorem after_append (c : Nat → Call) (a b : List Op) : after c (a ++ b) = (after c a).exec c b := by
  simp [after, exec_append]

theorem exec_inv {c : Nat → Call} {P : St → Prop} (hs : ∀ s op, P s → P (s.step c op)) :
    ∀ (ops : List Op) (s : St), P s → P (s.exec c ops) := by
  intro ops
  induction ops with
  | nil => intro s h; exact h
  | cons op l ih => intro s h; exact ih _ (hs s op h)

theorem holds_iff {s : St} {t : Nat} {l : Nat} : s.holds t l = true ↔ (s.queue l).head? = some t := by
  simp [St.holds]

/-! ### The negation -/

/-- A set of calls each of which has made all the requests it can make for the moment, and waits for a
lock held by another one of the set. -/
def Jam (c : Nat → Call) (D : Nat → Prop) (s : St) : Prop :=
  ∀ t, D t → ∃ l u, (s.queue l).head? = some u ∧ D u ∧ u ≠ t ∧
    ((s.stage t = .two ∧ (l = (c t).fst ∨ some l = (c t).snd)) ∨
      (s.stage t = .one ∧ (c t).blocking = true ∧ l = (c t).fst))

theorem head_append {α : Type} {q r : List α} {u : α} (h : q.head? = some u) : (q ++ r).head? = some u := by
  cases q with
  | nil => cases h
  | cons a l => exact h

theorem head_filter {q : List Nat} {u t : Nat} (h : q.head? = some u) (hne : u ≠ t) :
    (q.filter (· != t)).head? = some u := by
  cases q with
  | nil => cases h
  | cons a l =>
    simp only [List.head?_cons, Option.some.injEq] at h
    subst h
    simp [List.filter_cons, hne]

theorem jam_step {c : Nat → Call} {D : Nat → Prop} {s : St} (h : Jam c D s) (op : Op)
    (hop : ∀ t, D t → (c t).blocking = false → op ≠ .drop t) : Jam c D (s.step c op) := by
  -- some call outside the set leaves
  have leave : ∀ t, ¬ D t → Jam c D (s.leave t) := by
    intro t ht u hu
    have hut : u ≠ t := fun e => ht (e ▸ hu)
    obtain ⟨l, v, h2, h3, h4, h5⟩ := h u hu
    have hvt : v ≠ t := fun e => ht (e ▸ h3)
    refine ⟨l, v, head_filter h2 hvt, h3, h4, ?_⟩
    simpa only [St.leave, hut, if_false] using h5
  -- some call outside the set makes a request
  have req : ∀ t l g, ¬ D t → Jam c D ((s.request t l).mark t g) := by
    intro t l g ht u hu
    have hut : u ≠ t := fun e => ht (e ▸ hu)
    obtain ⟨l', v, h2, h3, h4, h5⟩ := h u hu
    refine ⟨l', v, ?_, h3, h4, ?_⟩
    · simp only [St.mark, St.request]
      split
      · exact head_append h2
      · exact h2
    · simpa only [St.mark, St.request, hut, if_false] using h5
  unfold St.step
  split
  case isFalse => exact h
  case isTrue hen =>
    cases op with
    | req1 t =>
      refine req t _ _ (fun hD => ?_)
      obtain ⟨l, v, _, _, _, h5⟩ := h t hD
      simp [St.enabled] at hen
      rcases h5 with h5 | h5 <;> (rw [hen] at h5; cases h5.1)
    | req2 t =>
      have hnD : ¬ D t := by
        intro hD
        obtain ⟨l, v, h2, _, h4, h5⟩ := h t hD
        simp [St.enabled] at hen
        rcases h5 with h5 | ⟨h5, h6, rfl⟩
        · rw [hen.1.1] at h5; cases h5.1
        · rcases hen.2 with h7 | h7
          · rw [h6] at h7; cases h7
          · rw [holds_iff] at h7
            rw [h7] at h2; cases h2; exact h4 rfl
      simp only
      split
      · exact req t _ _ hnD
      · exact h
    | fin t =>
      refine leave t (fun hD => ?_)
      obtain ⟨l, v, h2, _, h4, h5⟩ := h t hD
      simp only [St.enabled] at hen
      split at hen
      · next hb =>
        simp at hen
        rcases h5 with h5 | ⟨h5, h6, rfl⟩
        · rw [hen.1] at h5; cases h5.1
        · have := holds_iff.mp hen.2
          rw [h2] at this; cases this; exact h4 rfl
      · next b hb =>
        simp at hen
        rcases h5 with ⟨h5, h6⟩ | ⟨h5, _⟩
        · have e1 := holds_iff.mp hen.1.2
          have e2 := holds_iff.mp hen.2
          rcases h6 with rfl | h6
          · rw [h2] at e1; cases e1; exact h4 rfl
          · rw [hb] at h6; cases h6; rw [h2] at e2; cases e2; exact h4 rfl
        · rw [hen.1.1] at h5; cases h5
    | drop t =>
      simp [St.enabled] at hen
      exact leave t (fun hD => hop t hD hen.2 rfl)

/-- **C26**, general form of the failure: calls that wait for each other in a circle never complete,
whatever the others do, unless one of their futures is dropped, which is possible only for the async calls. -/
theorem circle_never_completes (c : Nat → Call) (D : Nat → Prop) (s : St) (h : Jam c D s)
    (ops : List Op) (hop : ∀ op ∈ ops, ∀ t, D t → (c t).blocking = false → op ≠ .drop t) (t : Nat) (ht : D t) :
    (s.exec c ops).stage t ≠ .done := by
  have : Jam c D (s.exec c ops) := by
    clear ht
    induction ops generalizing s with
    | nil => exact h
    | cons op l ih =>
      exact ih _ (jam_step h op (hop op (by simp))) (fun o ho => hop o (by simp [ho]))
  obtain ⟨l, u, _, _, _, h5⟩ := this t ht
  rcases h5 with h5 | h5 <;> rw [h5.1] <;> simp

/-- The calls `a.link(&b)` and `b.link(&a)`. -/
def oppositeCalls : Nat → Call := fun t => if t = 0 then ⟨0, some 1, false⟩ else ⟨1, some 0, false⟩

example : linkCall 0 1 = some (oppositeCalls 0) ∧ linkCall 1 0 = some (oppositeCalls 1) := by decide

/-- Two calls, each of which has one lock and requests the one the other has, are in each other's way for ever. -/
theorem opposite_jam (c : Nat → Call) {a b : Nat} (hab : a ≠ b) (k : Bool)
    (h0 : c 0 = ⟨a, some b, k⟩) (h1 : c 1 = ⟨b, some a, k⟩) (ops' : List Op)
    (h : k = false → ∀ op ∈ ops', ∀ t, t < 2 → op ≠ .drop t) :
    (after c ([.req1 0, .req1 1, .req2 0, .req2 1] ++ ops')).stage 0 ≠ .done ∧
    (after c ([.req1 0, .req1 1, .req2 0, .req2 1] ++ ops')).stage 1 ≠ .done := by
  have hba : b ≠ a := Ne.symm hab
  have hj : Jam c (fun t => t < 2) (after c [.req1 0, .req1 1, .req2 0, .req2 1]) := by
    intro t ht
    have : t = 0 ∨ t = 1 := by omega
    rcases this with rfl | rfl
    · exact ⟨b, 1, by simp [after, St.exec, St.step, St.enabled, St.request, St.mark, St.holds, h0, h1, hab, hba],
        by decide, by decide, Or.inl ⟨by
          simp [after, St.exec, St.step, St.enabled, St.request, St.mark, St.holds, h0, h1, hab, hba],
          Or.inr (by rw [h0])⟩⟩
    · exact ⟨a, 0, by simp [after, St.exec, St.step, St.enabled, St.request, St.mark, St.holds, h0, h1, hab, hba],
        by decide, by decide, Or.inl ⟨by
          simp [after, St.exec, St.step, St.enabled, St.request, St.mark, St.holds, h0, h1, hab, hba],
          Or.inr (by rw [h1])⟩⟩
  rw [after_append]
  have h' : ∀ op ∈ ops', ∀ t, t < 2 → (c t).blocking = false → op ≠ .drop t := by
    intro op ho t ht hb
    refine h ?_ op ho t ht
    have : t = 0 ∨ t = 1 := by omega
    rcases this with rfl | rfl
    · rw [h0] at hb; exact hb
    · rw [h1] at hb; exact hb
  exact ⟨circle_never_completes _ _ _ hj _ h' 0 (by decide), circle_never_completes _ _ _ hj _ h' 1 (by decide)⟩

/-- **C26** is false: for any two actors, `a.link(&b)` and `b.link(&a)`, running in two threads, can reach a
state in which neither ever completes, whatever any call does afterwards. `c` holds the calls of the system;
the first two are the ones of interest. -/
theorem opposite_links_deadlock (a b : Nat) (hab : a ≠ b) (c : Nat → Call)
    (h0 : linkCall a b = some (c 0)) (h1 : linkCall b a = some (c 1)) :
    ∃ ops, ∀ ops', (∀ op ∈ ops', ∀ t, t < 2 → op ≠ .drop t) →
      (after c (ops ++ ops')).stage 0 ≠ .done ∧ (after c (ops ++ ops')).stage 1 ≠ .done := by
  simp only [linkCall, hab, Ne.symm hab, if_false, Option.some.injEq] at h0 h1
  exact ⟨_, fun ops' h => opposite_jam c hab false h0.symm h1.symm ops' (fun _ => h)⟩

/-- The same two calls with the blocking variants. -/
def oppositeBlocking : Nat → Call := fun t => if t = 0 then ⟨0, some 1, true⟩ else ⟨1, some 0, true⟩

example : blockingCall 0 1 = some (oppositeBlocking 0) ∧ blockingCall 1 0 = some (oppositeBlocking 1) := by
  decide

/-- **C26** is false also for `blocking_link`: nothing at all ends the deadlock then, both threads are lost. -/
theorem opposite_blocking_links_deadlock (a b : Nat) (hab : a ≠ b) (c : Nat → Call)
    (h0 : blockingCall a b = some (c 0)) (h1 : blockingCall b a = some (c 1)) :
    ∃ ops, ∀ ops', (after c (ops ++ ops')).stage 0 ≠ .done ∧ (after c (ops ++ ops')).stage 1 ≠ .done := by
  simp only [blockingCall, hab, Ne.symm hab, if_false, Option.some.injEq] at h0 h1
  exact ⟨_, fun ops' => opposite_jam c hab true h0.symm h1.symm ops' (by simp)⟩

/-- Both have their first lock, and wait for the other's. -/
example : (after oppositeBlocking [.req1 0, .req1 1, .req2 0, .req2 1, .fin 0, .fin 1]).stage 0 = .two ∧
    (after oppositeBlocking [.req1 0, .req1 1, .req2 0, .req2 1, .fin 0, .fin 1]).stage 1 = .two := by decide

/-- `a.link(&b)`, `b.link(&c)` and `a.link(&c)`: every call names its actors in the same order. -/
def ascendingCalls : Nat → Call := fun t =>
  if t = 0 then ⟨0, some 1, false⟩ else if t = 1 then ⟨1, some 2, false⟩ else ⟨0, some 2, false⟩

/-- **C26** is false even if all calls agree on the order of the actors: `join!` requests the second lock
without having the first. -/
theorem ascending_links_deadlock : ∃ c : Nat → Call,
    linkCall 0 1 = some (c 0) ∧ linkCall 1 2 = some (c 1) ∧ linkCall 0 2 = some (c 2) ∧
    ∃ ops, ∀ ops', (∀ op ∈ ops', ∀ t, t < 3 → op ≠ .drop t) →
      ∀ t, t < 3 → (after c (ops ++ ops')).stage t ≠ .done := by
  refine ⟨ascendingCalls, by decide, by decide, by decide, [.req1 1, .req1 0, .req2 0, .req1 2, .req2 2, .req2 1], fun ops' h => ?_⟩
  have hj : Jam ascendingCalls (fun t => t < 3)
      (after ascendingCalls [.req1 1, .req1 0, .req2 0, .req1 2, .req2 2, .req2 1]) := by
    intro t ht
    have : t = 0 ∨ t = 1 ∨ t = 2 := by omega
    rcases this with rfl | rfl | rfl
    · exact ⟨1, 1, by decide, by decide, by decide, Or.inl (by decide)⟩
    · exact ⟨2, 2, by decide, by decide, by decide, Or.inl (by decide)⟩
    · exact ⟨0, 0, by decide, by decide, by decide, Or.inl (by decide)⟩
  intro t ht
  rw [after_append]
  exact circle_never_completes _ _ _ hj _ (fun op ho t ht _ => h op ho t ht) t ht

/-! ### What holds -/

/-- What is requested. -/
def asked (c : Nat → Call) (s : St) (t : Nat) (l : Nat) : Prop :=
  (l = (c t).fst ∧ (s.stage t = .one ∨ s.stage t = .two)) ∨ (some l = (c t).snd ∧ s.stage t = .two)

/-- The two locks of a call differ (`linkCall`, `blockingCall`). -/
def Proper (c : Nat → Call) : Prop := ∀ t, some (c t).fst ≠ (c t).snd

/-- The queues hold the requests, and a blocking call which requested its second lock holds the first. -/
structure Ok (c : Nat → Call) (s : St) : Prop where
  mem : ∀ t l, t ∈ s.queue l ↔ asked c s t l
  two : ∀ t, s.stage t = .two → (c t).snd ≠ none
  hold : ∀ t, (c t).blocking = true → s.stage t = .two → (s.queue (c t).fst).head? = some t

theorem ok_step {c : Nat → Call} {s : St} (hp : Proper c) (h : Ok c s) (op : Op) : Ok c (s.step c op) := by
  unfold St.step
  split
  case isFalse => exact h
  case isTrue hen =>
    have leave : ∀ t, (∀ u, u ≠ t → (s.queue (c u).fst).head? = some u → True) → Ok c (s.leave t) := by
      intro t _
      refine ⟨?_, ?_, ?_⟩
      · intro u l
        simp only [St.leave, List.mem_filter, asked]
        by_cases hut : u = t
        · subst hut; simp
        · have := h.mem u l
          simp only [asked] at this
          simp [hut, this]
      · intro u
        simp only [St.leave]
        split
        · simp
        · exact h.two u
      · intro u hb
        simp only [St.leave]
        split
        · simp
        · next hut => intro h2; exact head_filter (h.hold u hb h2) hut
    cases op with
    | req1 t =>
      simp [St.enabled] at hen
      refine ⟨?_, ?_, ?_⟩
      · intro u l
        have := h.mem u l
        simp only [asked, St.request, St.mark] at this ⊢
        by_cases hut : u = t
        · subst hut
          rw [hen] at this
          simp at this
          by_cases hl : l = (c u).fst
          · simp [hl]
          · simp [hl, this]
        · by_cases hl : l = (c t).fst <;> simp [hl, hut] at this ⊢ <;> simp [this]
      · intro u
        simp only [St.request, St.mark]
        split
        · simp
        · exact h.two u
      · intro u hb
        simp only [St.request, St.mark]
        split
        · simp
        · intro h2
          split
          · exact head_append (h.hold u hb h2)
          · exact h.hold u hb h2
    | req2 t =>
      simp [St.enabled] at hen
      obtain ⟨⟨hst, hsome⟩, hbl⟩ := hen
      obtain ⟨b, hb⟩ := Option.isSome_iff_exists.mp hsome
      simp only [hb]
      have hne : b ≠ (c t).fst := fun e => hp t (by rw [hb, e])
      refine ⟨?_, ?_, ?_⟩
      · intro u l
        have := h.mem u l
        simp only [asked, St.request, St.mark] at this ⊢
        by_cases hut : u = t
        · subst hut
          rw [hst] at this
          simp [hb] at this ⊢
          by_cases hl : l = b
          · simp [hl]
          · simp [hl, this]
        · by_cases hl : l = b <;> simp [hl, hut] at this ⊢ <;> simp [this]
      · intro u
        simp only [St.request, St.mark]
        split
        · next e => subst e; simp [hb]
        · exact h.two u
      · intro u hbu
        simp only [St.request, St.mark]
        split
        · next e =>
          subst e
          intro _
          rw [if_neg (Ne.symm hne)]
          rcases hbl with h1 | h1
          · rw [hbu] at h1; cases h1
          · exact holds_iff.mp h1
        · intro h2
          split
          · exact head_append (h.hold u hbu h2)
          · exact h.hold u hbu h2
    | fin t => exact leave t (by simp)
    | drop t => exact leave t (by simp)

theorem ok_after {c : Nat → Call} (hp : Proper c) (ops : List Op) : Ok c (after c ops) := by
  refine exec_inv (c := c) (P := Ok c) (fun s op h => ok_step hp h op) ops {} ⟨?_, ?_, ?_⟩
  · intro t l; simp [asked]
  · intro t h; cases h
  · intro t _ h; cases h

/-- **C26** The future of an async call can be dropped at any time after its first poll. It then keeps no lock and no
place in a queue; everybody else keeps theirs, in the same order. In a deadlock this frees the others. -/
theorem dropped_call_leaves_nothing (c : Nat → Call) (ops : List Op) (t : Nat) (hb : (c t).blocking = false)
    (hs : (after c ops).stage t = .one ∨ (after c ops).stage t = .two) :
    (after c (ops ++ [.drop t])).stage t = .done ∧
    (∀ u, u ≠ t → (after c (ops ++ [.drop t])).stage u = (after c ops).stage u) ∧
    (∀ l, t ∉ (after c (ops ++ [.drop t])).queue l) ∧
    (∀ l, t ∉ (after c ops).queue l → (after c (ops ++ [.drop t])).queue l = (after c ops).queue l) ∧
    (∀ l, ((after c (ops ++ [.drop t])).queue l).Sublist ((after c ops).queue l)) ∧
    ∀ l u, u ≠ t → u ∈ (after c ops).queue l → u ∈ (after c (ops ++ [.drop t])).queue l := by
  rw [after_snoc]
  generalize after c ops = s at *
  have hen : s.enabled c (.drop t) = true := by rcases hs with h | h <;> simp [St.enabled, hb, h]
  refine ⟨by simp [St.step, hen, St.leave], ?_, ?_, ?_, ?_, ?_⟩
  · intro u hu; simp [St.step, hen, St.leave, hu]
  · intro l; simp [St.step, hen, St.leave]
  · intro l hl
    simp only [St.step, hen, if_true, St.leave, List.filter_eq_self]
    intro x hx
    have : x ≠ t := fun e => hl (e ▸ hx)
    simp [this]
  · intro l; simp [St.step, hen, St.leave]
  · intro l u hu h; simp [St.step, hen, St.leave, hu, h]

/-- The first of two deadlocked calls is dropped; the second completes. -/
example : (after oppositeCalls [.req1 0, .req1 1, .req2 0, .req2 1]).stage 0 = .two ∧ (oppositeCalls 0).blocking = false ∧
    (after oppositeCalls [.req1 0, .req1 1, .req2 0, .req2 1, .drop 0, .fin 1]).stage 1 = .done := by decide

/-- Of finitely many things some one is largest. -/
theorem exists_max {P : Nat → Prop} (f : Nat → Nat) (n : Nat) (h : ∃ t, t < n ∧ P t) :
    ∃ t, t < n ∧ P t ∧ ∀ u, u < n → P u → f u ≤ f t := by
  induction n with
  | zero => obtain ⟨t, ht, _⟩ := h; omega
  | succ n ih =>
    by_cases hn : ∃ t, t < n ∧ P t
    · obtain ⟨t, h1, h2, h3⟩ := ih hn
      by_cases hP : P n ∧ f t < f n
      · refine ⟨n, by omega, hP.1, fun u hu hPu => ?_⟩
        by_cases e : u = n
        · subst e; exact Nat.le_refl _
        · have := h3 u (by omega) hPu; omega
      · refine ⟨t, by omega, h2, fun u hu hPu => ?_⟩
        by_cases e : u = n
        · subst e
          have : ¬ f t < f u := fun h => hP ⟨hPu, h⟩
          omega
        · exact h3 u (by omega) hPu
    · obtain ⟨t, h1, h2⟩ := h
      have e : t = n := by
        by_cases e : t = n
        · exact e
        · exact (hn ⟨t, by omega, h2⟩).elim
      subst e
      refine ⟨t, by omega, h2, fun u hu hPu => ?_⟩
      by_cases e : u = t
      · subst e; exact Nat.le_refl _
      · exact (hn ⟨u, by omega, hPu⟩).elim

/-- How much each call still has to do. -/
def Stage.left : Stage → Nat
  | .new => 3
  | .one => 2
  | .two => 1
  | .done => 0

/-- How much `n` calls still have to do. -/
def St.left (s : St) : Nat → Nat
  | 0 => 0
  | n + 1 => s.left n + (s.stage n).left

theorem left_change {s s' : St} {t : Nat} (n : Nat) (ht : t < n)
    (h : ∀ u, u ≠ t → s'.stage u = s.stage u) (hl : (s'.stage t).left < (s.stage t).left) :
    s'.left n < s.left n := by
  have same : ∀ m, m ≤ t → s'.left m = s.left m := by
    intro m
    induction m with
    | zero => intro _; rfl
    | succ m ih => intro hm; simp only [St.left]; rw [ih (by omega), h m (by omega)]
  induction n with
  | zero => omega
  | succ n ih =>
    simp only [St.left]
    by_cases e : n = t
    · subst e; rw [same n (Nat.le_refl _)]; omega
    · rw [h n e]; have := ih (by omega); omega

/-- The call an operation belongs to. -/
def Op.task : Op → Nat
  | .req1 t => t
  | .req2 t => t
  | .fin t => t
  | .drop t => t

theorem step_left {c : Nat → Call} {s : St} {op : Op} (hen : s.enabled c op = true) (n : Nat)
    (ht : op.task < n) : (s.step c op).left n < s.left n := by
  apply left_change (t := op.task) n ht
  · intro u hu
    cases op <;> simp only [Op.task] at hu <;> simp only [St.step, hen, if_true] <;>
      try simp [St.mark, St.request, St.leave, hu]
    split <;> simp [St.mark, St.request, hu]
  · cases op with
    | req1 t =>
      simp only [St.step, hen, if_true, Op.task, St.mark, St.request]
      simp [St.enabled] at hen
      rw [hen]; decide
    | req2 t =>
      simp only [St.step, hen, if_true, Op.task]
      simp [St.enabled] at hen
      obtain ⟨b, hb⟩ := Option.isSome_iff_exists.mp hen.1.2
      simp only [hb, St.mark, St.request]
      rw [hen.1.1]; decide
    | fin t =>
      simp only [St.step, hen, if_true, Op.task, St.leave]
      simp only [St.enabled] at hen
      split at hen <;> simp at hen
      · rw [hen.1]; decide
      · rw [hen.1.1]; decide
    | drop t =>
      simp only [St.step, hen, if_true, Op.task, St.leave]
      simp [St.enabled] at hen
      rcases hen.1 with h | h <;> rw [h] <;> decide

/-- A history each step of which was possible when it happened. -/
def Runs (c : Nat → Call) : St → List Op → Prop
  | _, [] => True
  | s, op :: ops => s.enabled c op = true ∧ Runs c (s.step c op) ops

/-- **C26**, part: no schedule goes on for ever. `n` calls make at most `3 n` steps altogether, so a
schedule that goes on as long as it can ends in a state where nothing is enabled. -/
theorem calls_take_finitely_many_steps (c : Nat → Call) (n : Nat) (ops : List Op)
    (hr : Runs c {} ops) (hn : ∀ op ∈ ops, op.task < n) : ops.length ≤ 3 * n := by
  have key : ∀ (ops : List Op) (s : St), Runs c s ops → (∀ op ∈ ops, op.task < n) →
      ops.length ≤ s.left n := by
    intro ops
    induction ops with
    | nil => intros; simp
    | cons op l ih =>
      intro s h1 h2
      have := ih _ h1.2 (fun o ho => h2 o (by simp [ho]))
      have := step_left h1.1 n (h2 op (by simp))
      simp only [List.length_cons]; omega
  have h0 : ({} : St).left n = 3 * n := by
    clear hr hn key
    induction n with
    | zero => rfl
    | succ n ih => simp only [St.left, ih, Stage.left]; omega
  have := key ops {} hr hn
  omega

/-- Two calls that follow each other: six steps. -/
example : Runs oppositeCalls {} [.req1 0, .req2 0, .req1 1, .req2 1, .fin 0, .fin 1] ∧
    ∀ op ∈ [Op.req1 0, .req2 0, .req1 1, .req2 1, .fin 0, .fin 1], op.task < 2 := by
  refine ⟨by simp only [Runs]; decide, by decide⟩

/-- The calls of a program: each takes one lock, or is a `link`, `unlink`, `blocking_link` or
`blocking_unlink` of two actors. -/
def Made (c : Nat → Call) : Prop :=
  ∀ t, (∃ a, c t = oneLock a) ∨ (∃ a b, linkCall a b = some (c t)) ∨ ∃ a b, blockingCall a b = some (c t)

theorem Made.proper {c : Nat → Call} (h : Made c) : Proper c := by
  intro t e
  rcases h t with ⟨a, h⟩ | ⟨a, b, h⟩ | ⟨a, b, h⟩
  · rw [h] at e; cases e
  · simp only [linkCall] at h
    split at h
    · cases h
    · next hab => rw [← Option.some.inj h] at e; exact hab (Option.some.inj e)
  · simp only [blockingCall] at h
    split at h
    · cases h
    · next hab => rw [← Option.some.inj h] at e; exact hab (Option.some.inj e)

/-- Calls that take one lock, or take two in ascending order, waiting for the first before they request
the second. -/
def Ordered (c : Nat → Call) : Prop :=
  ∀ t, (c t).snd = none ∨ ∃ b, (c t).snd = some b ∧ (c t).blocking = true ∧ (c t).fst < b

theorem Ordered.proper {c : Nat → Call} (h : Ordered c) : Proper c := by
  intro t e
  rcases h t with h | ⟨b, h, _, hlt⟩
  · rw [h] at e; cases e
  · rw [h] at e; cases e; omega

theorem not_begun (c : Nat → Call) (n : Nat) (ops : List Op) (hn : ∀ op ∈ ops, op.task < n) :
    ∀ u, n ≤ u → (after c ops).stage u = .new := by
  intro u hu
  have : ∀ (ops : List Op) (s : St), (∀ op ∈ ops, op.task < n) → s.stage u = .new →
      (s.exec c ops).stage u = .new := by
    intro ops
    induction ops with
    | nil => intro s _ h; exact h
    | cons op l ih =>
      intro s h1 h2
      refine ih _ (fun o ho => h1 o (by simp [ho])) ?_
      have hne : u ≠ op.task := by have := h1 op (by simp); omega
      unfold St.step
      split
      · cases op with
        | req1 t => simp only [Op.task] at hne; simp [St.mark, St.request, hne, h2]
        | req2 t =>
          simp only [Op.task] at hne
          simp only
          split <;> simp [St.mark, St.request, hne, h2]
        | fin t => simp only [Op.task] at hne; simp [St.leave, hne, h2]
        | drop t => simp only [Op.task] at hne; simp [St.leave, hne, h2]
      · exact h2
  exact this ops {} hn rfl

/-- **C26**, what holds for the blocking calls: if all calls that take two locks are blocking ones and
name their actors in an order common to all, then whenever no call can go on, all calls have completed
(or were given up). Together with `calls_take_finitely_many_steps`: every schedule completes all calls.

Missing from the full claim: calls in other orders and the async calls; false there, see
`opposite_links_deadlock`, `opposite_blocking_links_deadlock`, `ascending_links_deadlock`. -/
theorem ordered_blocking_calls_complete_partial (c : Nat → Call)
    (hm : ∀ t, (∃ a, c t = oneLock a) ∨ ∃ a b, a < b ∧ blockingCall a b = some (c t)) (n : Nat)
    (ops : List Op) (hn : ∀ op ∈ ops, op.task < n)
    (hstop : ∀ op : Op, op.task < n → (∀ u, op ≠ .drop u) → (after c ops).enabled c op = false) (t : Nat) (ht : t < n) :
    (after c ops).stage t = .done := by
  have hc : Ordered c := by
    intro t
    rcases hm t with ⟨a, h⟩ | ⟨a, b, hlt, h⟩
    · left; rw [h]; rfl
    · right
      have hne : a ≠ b := by omega
      simp only [blockingCall, hne, if_false, Option.some.injEq] at h
      exact ⟨b, by rw [← h], by rw [← h], by rw [← h]; exact hlt⟩
  have hok := ok_after hc.proper ops
  have hnew := not_begun c n ops hn
  generalize after c ops = s at *
  refine Classical.byContradiction fun hnd => ?_
  -- the lock an unfinished call waits for
  let w : Nat → Nat := fun t => match s.stage t with
    | .two => ((c t).snd).getD 0
    | _ => (c t).fst
  obtain ⟨t, ht, htd, hmax⟩ := exists_max (P := fun t => s.stage t ≠ .done) w n ⟨t, ht, hnd⟩
  -- nobody is before its first request
  have hnn : ∀ u, u < n → s.stage u ≠ .new := by
    intro u hu e
    have := hstop (.req1 u) hu (by simp)
    simp [St.enabled, e] at this
  -- an unfinished call waits for a lock that another one holds
  have hwait : ∃ u, u < n ∧ u ≠ t ∧ (s.queue (w t)).head? = some u := by
    have hin : t ∈ s.queue (w t) := by
      rw [hok.mem]
      cases hst : s.stage t with
      | new => exact (hnn t ht hst).elim
      | done => exact (htd hst).elim
      | one => left; simp [w, hst]
      | two =>
        right
        rcases hc t with h1 | ⟨b, h1, _⟩
        · exact (hok.two t hst h1).elim
        · simp [w, hst, h1]
    obtain ⟨u, hu⟩ : ∃ u, (s.queue (w t)).head? = some u := by
      cases hq : s.queue (w t) with
      | nil => rw [hq] at hin; cases hin
      | cons a l => exact ⟨a, rfl⟩
    refine ⟨u, ?_, ?_, hu⟩
    · refine Classical.byContradiction fun h => ?_
      have hm : u ∈ s.queue (w t) := by
        cases hq : s.queue (w t) with
        | nil => rw [hq] at hu; cases hu
        | cons a l => rw [hq] at hu; simp at hu; simp [hu]
      rw [hok.mem] at hm
      have := hnew u (by omega)
      simp [asked, this] at hm
    · rintro rfl
      have hf := hstop (.fin u) ht (by simp)
      have hr2 := hstop (.req2 u) ht (by simp)
      cases hst : s.stage u with
      | new => exact hnn u ht hst
      | done => exact htd hst
      | one =>
        have hh : s.holds u (c u).fst = true := by
          rw [holds_iff]; simpa [w, hst] using hu
        rcases hc u with h1 | ⟨b, h1, h2, _⟩
        · simp [St.enabled, h1, hst, hh] at hf
        · simp [St.enabled, h1, hst, hh] at hr2
      | two =>
        rcases hc u with h1 | ⟨b, h1, h2, _⟩
        · exact hok.two u hst h1
        · have hh : s.holds u (c u).fst = true := holds_iff.mpr (hok.hold u h2 hst)
          have hh2 : s.holds u b = true := by rw [holds_iff]; simpa [w, hst, h1] using hu
          simp [St.enabled, h1, hst, hh, hh2] at hf
  -- the holder is ahead: it waits for a larger lock
  obtain ⟨u, hun, hut, hhead⟩ := hwait
  have hm : u ∈ s.queue (w t) := by
    cases hq : s.queue (w t) with
    | nil => rw [hq] at hhead; cases hhead
    | cons a l => rw [hq] at hhead; simp at hhead; simp [hhead]
  rw [hok.mem] at hm
  have hf := hstop (.fin u) hun (by simp)
  have hr2 := hstop (.req2 u) hun (by simp)
  cases hst : s.stage u with
  | new => exact hnn u hun hst
  | done => simp [asked, hst] at hm
  | one =>
    simp [asked, hst] at hm
    have hh : s.holds u (c u).fst = true := by rw [holds_iff, ← hm]; exact hhead
    rcases hc u with h1 | ⟨b, h1, h2, _⟩
    · simp [St.enabled, h1, hst, hh] at hf
    · simp [St.enabled, h1, hst, hh] at hr2
  | two =>
    rcases hc u with h1 | ⟨b, h1, h2, h3⟩
    · exact hok.two u hst h1
    · have hh : s.holds u (c u).fst = true := holds_iff.mpr (hok.hold u h2 hst)
      have hle := hmax u hun (by rw [hst]; simp)
      simp only [w, hst, h1, Option.getD_some] at hle
      simp [asked, hst, h1] at hm
      rcases hm with hm | hm
      · simp only [w] at hm; omega
      · have hh2 : s.holds u b = true := by rw [holds_iff, ← hm]; exact hhead
        simp [St.enabled, h1, hst, hh, hh2] at hf

/-- Three blocking calls in ascending order, all of them in each other's way, and one stopping actor. -/
def orderedDemo : Nat → Call := fun t =>
  if t = 0 then ⟨0, some 1, true⟩ else if t = 1 then ⟨1, some 2, true⟩ else if t = 2 then ⟨0, some 2, true⟩
  else oneLock 0

example : (∀ t, (∃ a, orderedDemo t = oneLock a) ∨ ∃ a b, a < b ∧ blockingCall a b = some (orderedDemo t)) ∧
    (after orderedDemo [.req1 1, .req1 0, .req2 0, .req1 2, .req2 2, .req1 3, .req2 1]).stage 0 = .two ∧
    (after orderedDemo [.req1 1, .req1 0, .req2 0, .req1 2, .req2 2, .req1 3, .req2 1]).stage 2 = .one ∧
    Runs orderedDemo {} [.req1 1, .req1 0, .req2 0, .req1 2, .req1 3, .req2 1, .fin 1, .fin 0, .req2 2, .fin 2,
      .fin 3] ∧
    ∀ op : Op, op.task < 4 → (∀ u, op ≠ .drop u) → (after orderedDemo [.req1 1, .req1 0, .req2 0, .req1 2, .req1 3, .req2 1,
      .fin 1, .fin 0, .req2 2, .fin 2, .fin 3]).enabled orderedDemo op = false := by
  refine ⟨?_, by decide, by decide, by simp only [Runs]; decide, ?_⟩
  · intro t
    simp only [orderedDemo]
    split
    · exact Or.inr ⟨0, 1, by decide, rfl⟩
    · split
      · exact Or.inr ⟨1, 2, by decide, rfl⟩
      · split
        · exact Or.inr ⟨0, 2, by decide, rfl⟩
        · exact Or.inl ⟨0, rfl⟩
  · intro op hop hd
    have h01 : op.task = 0 ∨ op.task = 1 ∨ op.task = 2 ∨ op.task = 3 := by omega
    cases op with
    | drop t => exact (hd t rfl).elim
    | _ t =>
      simp only [Op.task] at h01
      rcases h01 with rfl | rfl | rfl | rfl <;> decide

/-- A step of a schedule in which the first poll of a call is not interrupted: it requests all its locks
at once, as when all tasks share one thread. -/
inductive Burst where
  | call (t : Nat)
  | fin (t : Nat)
  | drop (t : Nat)
  deriving DecidableEq, Repr

/-- The lock operations of a step. -/
def Burst.ops (c : Nat → Call) : Burst → List Op
  | .call t => if (c t).snd = none then [.req1 t] else [.req1 t, .req2 t]
  | .fin t => [.fin t]
  | .drop t => [.drop t]

/-- Does the call need the lock? -/
def Call.needs (k : Call) (l : Nat) : Bool := l == k.fst || some l == k.snd

/-- All queues are in the order in which the calls began. -/
def InLine (c : Nat → Call) (s : St) : Prop :=
  ∃ L : List Nat, (∀ t, t ∈ L ↔ s.stage t = .one ∨ s.stage t = .two) ∧
    (∀ l, s.queue l = L.filter (fun t => (c t).needs l)) ∧
    ∀ t, (s.stage t = .one → (c t).snd = none) ∧ (s.stage t = .two → (c t).snd ≠ none)

theorem inLine_leave {c : Nat → Call} {s : St} (h : InLine c s) (t : Nat) : InLine c (s.leave t) := by
  obtain ⟨L, h1, h2, h3⟩ := h
  refine ⟨L.filter (· != t), ?_, ?_, ?_⟩
  · intro u
    simp only [List.mem_filter, h1, St.leave]
    by_cases hut : u = t <;> simp [hut]
  · intro l
    simp only [St.leave, h2, List.filter_filter]
    congr 1; funext u; exact Bool.and_comm _ _
  · intro u
    simp only [St.leave]
    split
    · simp
    · exact h3 u

theorem inLine_burst {c : Nat → Call} (hp : Proper c) (hb : ∀ t, (c t).blocking = false) {s : St}
    (h : InLine c s) (b : Burst) : InLine c (s.exec c (b.ops c)) := by
  cases b with
  | fin t =>
    simp only [Burst.ops, St.exec, List.foldl_cons, List.foldl_nil, St.step]
    split
    · exact inLine_leave h t
    · exact h
  | drop t =>
    simp only [Burst.ops, St.exec, List.foldl_cons, List.foldl_nil, St.step]
    split
    · exact inLine_leave h t
    · exact h
  | call t =>
    by_cases hst : s.stage t = .new
    · obtain ⟨L, h1, h2, h3⟩ := h
      have htL : t ∉ L := by rw [h1, hst]; simp
      cases hs : (c t).snd with
      | none =>
        have e : s.exec c ((Burst.call t).ops c) = (s.request t (c t).fst).mark t .one := by
          simp [Burst.ops, hs, St.exec, St.step, St.enabled, hst]
        rw [e]
        refine ⟨L ++ [t], ?_, ?_, ?_⟩
        · intro u
          simp only [List.mem_append, h1, List.mem_singleton, St.mark, St.request]
          by_cases hut : u = t <;> simp [hut]
        · intro l
          simp only [St.mark, St.request, h2, List.filter_append]
          by_cases hl : l = (c t).fst
          · subst hl; simp [Call.needs]
          · simp [Call.needs, hl, hs]
        · intro u
          simp only [St.mark, St.request]
          split
          · next e => subst e; simp [hs]
          · exact h3 u
      | some b =>
        have hne : b ≠ (c t).fst := fun e => hp t (by rw [hs, e])
        have e : s.exec c ((Burst.call t).ops c) =
            ((((s.request t (c t).fst).mark t .one).request t b).mark t .two) := by
          simp [Burst.ops, hs, St.exec, St.step, St.enabled, hst, hb, St.mark, St.request]
        rw [e]
        refine ⟨L ++ [t], ?_, ?_, ?_⟩
        · intro u
          simp only [List.mem_append, h1, List.mem_singleton, St.mark, St.request]
          by_cases hut : u = t <;> simp [hut]
        · intro l
          simp only [St.mark, St.request, h2, List.filter_append]
          by_cases hl : l = (c t).fst
          · subst hl; simp [Call.needs, Ne.symm hne]
          · by_cases hl2 : l = b
            · subst hl2; simp [Call.needs, hl, hs]
            · simp [Call.needs, hl, hs, hl2]
        · intro u
          simp only [St.mark, St.request]
          split
          · next e => subst e; simp [hs]
          · exact h3 u
    · have e1 : s.step c (.req1 t) = s := by simp [St.step, St.enabled, hst]
      have e2 : (c t).snd ≠ none → s.step c (.req2 t) = s := by
        intro hs
        obtain ⟨L, h1, h2, h3⟩ := h
        have : s.stage t ≠ .one := fun e => hs ((h3 t).1 e)
        simp [St.step, St.enabled, this]
      have e : s.exec c ((Burst.call t).ops c) = s := by
        simp only [Burst.ops]
        split
        · simp [St.exec, e1]
        · next hs => simp [St.exec, e1, e2 hs]
      rw [e]; exact h

/-- **C26**, what holds for the async calls: if the first poll of each call is not interrupted by another
call's requests (all tasks on one thread, and the budget with which tokio makes tasks take turns not used up exactly
between the two requests), then, whatever pairs of actors the calls are about, whenever
no call can go on all calls have completed (or were given up). Together with
`calls_take_finitely_many_steps`: every such schedule completes all calls.

Missing from the full claim: calls running in several threads; false there, see
`opposite_links_deadlock`. -/
theorem async_calls_on_one_thread_complete_partial (c : Nat → Call) (hm : Made c)
    (hb : ∀ t, (c t).blocking = false) (n : Nat) (bs : List Burst)
    (hn : ∀ op ∈ bs.flatMap (Burst.ops c), op.task < n)
    (hstop : ∀ op : Op, op.task < n → (∀ u, op ≠ .drop u) → (after c (bs.flatMap (Burst.ops c))).enabled c op = false)
    (t : Nat) (ht : t < n) : (after c (bs.flatMap (Burst.ops c))).stage t = .done := by
  have hp := hm.proper
  have hline : InLine c (after c (bs.flatMap (Burst.ops c))) := by
    have key : ∀ (bs : List Burst) (s : St), InLine c s → InLine c (s.exec c (bs.flatMap (Burst.ops c))) := by
      intro bs
      induction bs with
      | nil => intro s h; exact h
      | cons b l ih =>
        intro s h
        rw [List.flatMap_cons, exec_append]
        exact ih _ (inLine_burst hp hb h b)
    exact key bs {} ⟨[], by simp, by simp, by simp⟩
  have hnew := not_begun c n _ hn
  generalize after c (bs.flatMap (Burst.ops c)) = s at *
  obtain ⟨L, h1, h2, h3⟩ := hline
  cases L with
  | nil =>
    cases hst : s.stage t with
    | done => rfl
    | new => have := hstop (.req1 t) ht (by simp); simp [St.enabled, hst] at this
    | one => have := (h1 t).mpr (Or.inl hst); cases this
    | two => have := (h1 t).mpr (Or.inr hst); cases this
  | cons u L =>
    exfalso
    have hu := (h1 u).mp (by simp)
    have hun : u < n := by
      refine Classical.byContradiction fun h => ?_
      have := hnew u (by omega)
      rw [this] at hu; simp at hu
    have hq : ∀ l, (c u).needs l = true → s.holds u l = true := by
      intro l hl
      rw [holds_iff, h2 l]
      simp [List.filter_cons, hl]
    have hf := hstop (.fin u) hun (by simp)
    have hq1 := hq (c u).fst (by simp [Call.needs])
    rcases hu with hu | hu
    · have hs := (h3 u).1 hu
      simp [St.enabled, hs, hu, hq1] at hf
    · cases hs : (c u).snd with
      | none => exact (h3 u).2 hu hs
      | some b =>
        have hq2 := hq b (by simp [Call.needs, hs])
        simp [St.enabled, hs, hu, hq1, hq2] at hf

/-- The two calls that can deadlock on two threads. -/
example : Made oppositeCalls ∧ (∀ t, (oppositeCalls t).blocking = false) ∧
    (after oppositeCalls ([.call 0, .call 1].flatMap (Burst.ops oppositeCalls))).stage 1 = .two ∧
    (after oppositeCalls ([.call 0, .call 1, .fin 0, .fin 1].flatMap (Burst.ops oppositeCalls))).stage 1 =
      .done ∧
    ∀ op : Op, op.task < 2 → (∀ u, op ≠ .drop u) →
      (after oppositeCalls ([.call 0, .call 1, .fin 0, .fin 1].flatMap (Burst.ops oppositeCalls))).enabled oppositeCalls op =
        false := by
  refine ⟨?_, ?_, by decide, by decide, ?_⟩
  · intro t
    simp only [oppositeCalls]
    split
    · exact Or.inr (Or.inl ⟨0, 1, rfl⟩)
    · exact Or.inr (Or.inl ⟨1, 0, rfl⟩)
  · intro t; simp only [oppositeCalls]; split <;> decide
  · intro op hop hd
    have h01 : op.task = 0 ∨ op.task = 1 := by omega
    cases op with
    | drop t => exact (hd t rfl).elim
    | _ t =>
      simp only [Op.task] at h01
      rcases h01 with rfl | rfl <;> decide

end Verif.Locks
