import Verif.Locks.Props

/-!
Property theorems C26, continued: calls that get stuck wait for each other in a circle, and links made along a tree never
get stuck.
-/

namespace Verif.Locks

/-- Nothing can go on: none of the first `n` calls can make a request or finish. (That an async call can be given up does
not count.) Specification. -/
def AtRest (c : Nat → Call) (n : Nat) (s : St) : Prop :=
  ∀ op : Op, op.task < n → (∀ u, op ≠ .drop u) → s.enabled c op = false

/-- The call `t` waits for a lock of its own that the call `u` holds. Specification. -/
def WaitsOn (c : Nat → Call) (s : St) (t u : Nat) (l : Nat) : Prop :=
  (l = (c t).fst ∨ some l = (c t).snd) ∧ t ∈ s.queue l ∧ (s.queue l).head? = some u ∧ u ≠ t

theorem mem_of_head {q : List Nat} {u : Nat} (h : q.head? = some u) : u ∈ q := by
  cases q with
  | nil => cases h
  | cons a l => simp only [List.head?_cons, Option.some.injEq] at h; simp [h]

theorem head_of_mem {q : List Nat} {u : Nat} (h : u ∈ q) : ∃ v, q.head? = some v := by
  cases q with
  | nil => cases h
  | cons a l => exact ⟨a, rfl⟩

/-- When nothing can go on an unfinished call waits for another one, which has made both its requests and is unfinished
too. -/
theorem rest_waits {c : Nat → Call} {n : Nat} {s : St} (hok : Ok c s) (hnew : ∀ u, n ≤ u → s.stage u = .new)
    (hrest : AtRest c n s) {t : Nat} (ht : t < n) (hnd : s.stage t ≠ .done) :
    ∃ u l, WaitsOn c s t u l ∧ u < n ∧ s.stage u = .two := by
  have hnn : ∀ u, u < n → s.stage u ≠ .new := by
    intro u hu e
    have := hrest (.req1 u) hu (by simp)
    simp [St.enabled, e] at this
  have holder : ∀ u l, (s.queue l).head? = some u → u < n ∧ s.stage u = .two := by
    intro u l hu
    have hm := (hok.mem u l).mp (mem_of_head hu)
    have hun : u < n := by
      refine Classical.byContradiction fun h => ?_
      have := hnew u (by omega)
      simp [asked, this] at hm
    refine ⟨hun, ?_⟩
    have hf := hrest (.fin u) hun (by simp)
    have hr2 := hrest (.req2 u) hun (by simp)
    rcases hm with ⟨rfl, h | h⟩ | ⟨_, h⟩
    · exfalso
      have hh := holds_iff.mpr hu
      cases hs : (c u).snd with
      | none => simp [St.enabled, hs, h, hh] at hf
      | some b => simp [St.enabled, hs, h, hh] at hr2
    · exact h
    · exact h
  have fin : ∀ l, (l = (c t).fst ∨ some l = (c t).snd) → t ∈ s.queue l → s.holds t l = false →
      ∃ u l, WaitsOn c s t u l ∧ u < n ∧ s.stage u = .two := by
    intro l hl hm hh
    obtain ⟨u, hu⟩ := head_of_mem hm
    have hne : u ≠ t := by
      rintro rfl
      rw [holds_iff.mpr hu] at hh
      cases hh
    exact ⟨u, l, ⟨hl, hm, hu, hne⟩, holder u l hu⟩
  have hf := hrest (.fin t) ht (by simp)
  have hr2 := hrest (.req2 t) ht (by simp)
  cases hst : s.stage t with
  | new => exact (hnn t ht hst).elim
  | done => exact (hnd hst).elim
  | one =>
    have hm : t ∈ s.queue (c t).fst := (hok.mem t _).mpr (.inl ⟨rfl, .inl hst⟩)
    refine fin _ (.inl rfl) hm ?_
    cases hs : (c t).snd with
    | none => simpa [St.enabled, hs, hst] using hf
    | some b =>
      simp [St.enabled, hs, hst] at hr2
      exact hr2.2
  | two =>
    cases hs : (c t).snd with
    | none => exact (hok.two t hst hs).elim
    | some b =>
      have hm1 : t ∈ s.queue (c t).fst := (hok.mem t _).mpr (.inl ⟨rfl, .inr hst⟩)
      have hm2 : t ∈ s.queue b := (hok.mem t _).mpr (.inr ⟨hs.symm, hst⟩)
      cases hh : s.holds t (c t).fst with
      | false => exact fin _ (.inl rfl) hm1 hh
      | true =>
        refine fin b (.inr hs.symm) hm2 ?_
        simpa [St.enabled, hs, hst, hh] using hf

theorem locks_pigeon {N : Nat} {f : Nat → Nat} (h : ∀ i, f i < N) : ∃ i j, i < j ∧ f i = f j := by
  refine Classical.byContradiction fun hno => ?_
  have hinj : ∀ i j, f i = f j → i = j := by
    intro i j e
    rcases Nat.lt_trichotomy i j with h | h | h
    · exact (hno ⟨i, j, h, e⟩).elim
    · exact h
    · exact (hno ⟨j, i, h, e.symm⟩).elim
  have hnd : ((List.range (N + 1)).map f).Nodup :=
    List.Pairwise.map f (fun a b hab e => hab (hinj a b e)) List.nodup_range
  have hsub : ((List.range (N + 1)).map f) ⊆ List.range N := by
    intro x hx
    obtain ⟨i, _, rfl⟩ := List.mem_map.mp hx
    exact List.mem_range.mpr (h i)
  have := hnd.length_le_of_subset hsub
  simp at this
  omega

/-- **C26**: the converse of `circle_never_completes`. Whatever calls there are, in whatever order and in however many
threads: when none of them can go on, all are over, or there is a circle of calls each of which waits for a lock that the
next one holds. So calls fail to complete only by waiting in a circle. -/
theorem complete_or_circle (c : Nat → Call) (hm : Made c) (n : Nat) (ops : List Op) (hn : ∀ op ∈ ops, op.task < n)
    (hrest : AtRest c n (after c ops)) :
    (∀ t, t < n → (after c ops).stage t = .done) ∨
      ∃ (k : Nat) (w : Nat → Nat), 0 < k ∧ w k = w 0 ∧ ∀ i, i < k → ∃ l, WaitsOn c (after c ops) (w i) (w (i + 1)) l := by
  have hok := ok_after hm.proper ops
  have hnew := not_begun c n ops hn
  generalize after c ops = s at *
  by_cases hall : ∀ t, t < n → s.stage t = .done
  · exact .inl hall
  · right
    obtain ⟨t0, ht0⟩ := Classical.not_forall.mp hall
    have ht0' : t0 < n ∧ s.stage t0 ≠ .done := by
      refine ⟨Classical.byContradiction fun h => ht0 fun h' => (h h').elim, fun h => ht0 fun _ => h⟩
    have hstep : ∀ x : {x // x < n ∧ s.stage x ≠ .done}, ∃ y : {x // x < n ∧ s.stage x ≠ .done},
        ∃ l, WaitsOn c s x.1 y.1 l := by
      rintro ⟨x, hx, hxd⟩
      obtain ⟨u, l, hw, hu, hu2⟩ := rest_waits hok hnew hrest hx hxd
      exact ⟨⟨u, hu, by rw [hu2]; simp⟩, l, hw⟩
    let nxt := fun x => Classical.choose (hstep x)
    have hnxt : ∀ x, ∃ l, WaitsOn c s x.1 (nxt x).1 l := fun x => Classical.choose_spec (hstep x)
    let g : Nat → {x // x < n ∧ s.stage x ≠ .done} := fun i => Nat.rec ⟨t0, ht0'⟩ (fun _ x => nxt x) i
    have hg : ∀ i, g (i + 1) = nxt (g i) := fun i => rfl
    obtain ⟨i, j, hij, he⟩ := locks_pigeon (f := fun i => (g i).1) (fun i => (g i).2.1)
    refine ⟨j - i, fun l => (g (i + l)).1, by omega, ?_, fun l _ => ?_⟩
    · show (g (i + (j - i))).1 = (g (i + 0)).1
      rw [show i + (j - i) = j by omega]; exact he.symm
    · show ∃ l', WaitsOn c s (g (i + l)).1 (g (i + (l + 1))).1 l'
      rw [show i + (l + 1) = i + l + 1 by omega, hg]
      exact hnxt _

/-- Both cases occur: of two opposite links either both complete, or they wait for each other. -/
example : Made oppositeCalls ∧ (∀ op ∈ [Op.req1 0, .req1 1, .req2 0, .req2 1], op.task < 2) ∧
    AtRest oppositeCalls 2 (after oppositeCalls [.req1 0, .req1 1, .req2 0, .req2 1]) ∧
    (after oppositeCalls [.req1 0, .req1 1, .req2 0, .req2 1]).stage 0 = .two ∧
    AtRest oppositeCalls 2 (after oppositeCalls [.req1 0, .req2 0, .req1 1, .req2 1, .fin 0, .fin 1]) := by
  refine ⟨?_, by decide, ?_, by decide, ?_⟩
  · intro t
    simp only [oppositeCalls]
    split
    · exact Or.inr (Or.inl ⟨0, 1, rfl⟩)
    · exact Or.inr (Or.inl ⟨1, 0, rfl⟩)
  all_goals
    intro op hop hd
    have h01 : op.task = 0 ∨ op.task = 1 := by omega
    cases op with
    | drop t => exact (hd t rfl).elim
    | _ t =>
      simp only [Op.task] at h01
      rcases h01 with rfl | rfl <;> decide

/-- The calls that take two locks are about an actor, `child t`, and its parent in a tree, in either direction, blocking or
not; the others take one lock. Specification. -/
def AlongTree (c : Nat → Call) (child parent depth : Nat → Nat) : Prop :=
  ∀ t, (∃ a, c t = oneLock a) ∨
    (depth (parent (child t)) < depth (child t) ∧ ∃ a b, (linkCall a b = some (c t) ∨ blockingCall a b = some (c t)) ∧
      (a = child t ∧ b = parent (child t) ∨ a = parent (child t) ∧ b = child t))

theorem AlongTree.made {c : Nat → Call} {child parent depth : Nat → Nat} (h : AlongTree c child parent depth) : Made c := by
  intro t
  rcases h t with h | ⟨_, a, b, h | h, _⟩
  · exact .inl h
  · exact .inr (.inl ⟨a, b, h⟩)
  · exact .inr (.inr ⟨a, b, h⟩)

/-- The locks of a call along a tree. -/
theorem AlongTree.locks {c : Nat → Call} {child parent depth : Nat → Nat} (h : AlongTree c child parent depth) {t : Nat}
    (hs : (c t).snd ≠ none) : depth (parent (child t)) < depth (child t) ∧
      ∀ l, (l = (c t).fst ∨ some l = (c t).snd) ↔ (l = child t ∨ l = parent (child t)) := by
  rcases h t with ⟨a, ha⟩ | ⟨hd, a, b, hab, hc⟩
  · rw [ha] at hs
    exact (hs rfl).elim
  · refine ⟨hd, fun l => ?_⟩
    have hct : (c t).fst = a ∧ (c t).snd = some b := by
      rcases hab with h | h
      · simp only [linkCall] at h
        split at h
        · cases h
        · rw [← Option.some.inj h]; exact ⟨rfl, rfl⟩
      · simp only [blockingCall] at h
        split at h
        · cases h
        · rw [← Option.some.inj h]; exact ⟨rfl, rfl⟩
    rw [hct.1, hct.2, Option.some.injEq]
    rcases hc with ⟨rfl, rfl⟩ | ⟨rfl, rfl⟩
    · exact Iff.rfl
    · exact Or.comm

/-- **C26**, what holds along a tree, as when actors are linked with their supervisors: if no two calls about the same
child are under way together, then whatever the directions, blocking or not, in however many threads, whenever no call can
go on all calls have completed (or were given up). Together with `calls_take_finitely_many_steps`: every schedule completes
all calls.

Missing from the full claim: links that form circles, or several calls about the same pair under way together; false
there, see `ascending_links_deadlock`, `opposite_links_deadlock`. -/
theorem tree_links_complete_partial (c : Nat → Call) (child parent depth : Nat → Nat)
    (hc : AlongTree c child parent depth) (n : Nat) (ops : List Op) (hn : ∀ op ∈ ops, op.task < n)
    (hone : ∀ t u, t < n → u < n → (c t).snd ≠ none → (c u).snd ≠ none → (after c ops).stage t ≠ .done →
      (after c ops).stage u ≠ .done → child t = child u → t = u)
    (hrest : AtRest c n (after c ops)) (t : Nat) (ht : t < n) : (after c ops).stage t = .done := by
  have hok := ok_after hc.made.proper ops
  have hnew := not_begun c n ops hn
  generalize after c ops = s at *
  refine Classical.byContradiction fun hnd => ?_
  -- a holder that waits: the next one holds its other lock
  have next : ∀ u, u < n → s.stage u = .two → ∀ l, (s.queue l).head? = some u →
      (l = child u ∧ ∃ v, v < n ∧ s.stage v = .two ∧ v ≠ u ∧ (s.queue (parent (child u))).head? = some v) ∨
      (l = parent (child u) ∧ ∃ v, v < n ∧ s.stage v = .two ∧ v ≠ u ∧ (s.queue (child u)).head? = some v) := by
    intro u hu hu2 l hl
    obtain ⟨v, l', ⟨hl', hm, hv, hne⟩, hvn, hv2⟩ := rest_waits hok hnew hrest hu (by rw [hu2]; simp)
    have hlocks := (hc.locks (hok.two u hu2)).2
    have h1 : l = child u ∨ l = parent (child u) := by
      refine (hlocks l).mp ?_
      rcases (hok.mem u l).mp (mem_of_head hl) with ⟨h, _⟩ | ⟨h, _⟩
      · exact .inl h
      · exact .inr h
    have h2 := (hlocks l').mp hl'
    have hll : l' ≠ l := by
      rintro rfl
      rw [hl] at hv
      cases hv
      exact hne rfl
    rcases h1 with h1 | h1 <;> rcases h2 with h2 | h2
    · exact (hll (h2.trans h1.symm)).elim
    · exact .inl ⟨h1, v, hvn, hv2, hne, h2 ▸ hv⟩
    · exact .inr ⟨h1, v, hvn, hv2, hne, h2 ▸ hv⟩
    · exact (hll (h2.trans h1.symm)).elim
  -- nobody holds the parent's lock
  have hpar : ¬ ∃ u, u < n ∧ (s.stage u = .two ∧ (s.queue (parent (child u))).head? = some u) := by
    intro hex
    obtain ⟨u, hu, ⟨hu2, hq⟩, hmax⟩ := exists_max (fun u => depth (child u)) n hex
    have hd := (hc.locks (hok.two u hu2)).1
    rcases next u hu hu2 _ hq with ⟨h, _⟩ | ⟨_, v, hv, hv2, hne, hvq⟩
    · rw [h] at hd; exact Nat.lt_irrefl _ hd
    · rcases next v hv hv2 _ hvq with ⟨h, _⟩ | ⟨h, _⟩
      · exact hne (hone v u hv hu (hok.two v hv2) (hok.two u hu2) (by rw [hv2]; simp) (by rw [hu2]; simp) h.symm)
      · have := (hc.locks (hok.two v hv2)).1
        have := hmax v hv ⟨hv2, h ▸ hvq⟩
        rw [← h] at *
        omega
  -- nobody holds the child's lock
  have hchild : ∀ d u, depth (child u) = d → u < n → s.stage u = .two → (s.queue (child u)).head? = some u → False := by
    intro d
    induction d using Nat.strongRecOn with
    | ind d ih =>
      intro u hd hu hu2 hq
      have hlt := (hc.locks (hok.two u hu2)).1
      rcases next u hu hu2 _ hq with ⟨_, v, hv, hv2, hne, hvq⟩ | ⟨h, _⟩
      · rcases next v hv hv2 _ hvq with ⟨h, _⟩ | ⟨h, _⟩
        · exact ih (depth (child v)) (by rw [← h]; omega) v rfl hv hv2 (h ▸ hvq)
        · exact hpar ⟨v, hv, hv2, h ▸ hvq⟩
      · rw [← h] at hlt; exact Nat.lt_irrefl _ hlt
  obtain ⟨u, l, ⟨_, _, hq, _⟩, hu, hu2⟩ := rest_waits hok hnew hrest ht hnd
  rcases next u hu hu2 l hq with ⟨rfl, _⟩ | ⟨rfl, _⟩
  · exact hchild _ u rfl hu hu2 hq
  · exact hpar ⟨u, hu, hu2, hq⟩

/-- Three actors below actor 0 and one below actor 1; the links go up or down, one of them blocks. -/
def treeDemo : Nat → Call := fun t =>
  if t = 0 then ⟨1, some 0, false⟩ else if t = 1 then ⟨0, some 2, false⟩ else if t = 2 then ⟨3, some 0, true⟩
  else if t = 3 then ⟨1, some 4, false⟩ else oneLock 0

/-- The four links all get into each other's way, and all complete. -/
example : AlongTree treeDemo (· + 1) (fun a => if a = 4 then 1 else 0) (fun a => if a = 4 then 2 else if a = 0 then 0 else 1) ∧
    (∀ t u, t < 5 → u < 5 → (t + 1) = (u + 1) → t = u) ∧
    (after treeDemo [.req1 3, .req1 1, .req1 0, .req2 0, .req1 2, .req2 3, .req2 1]).stage 0 = .two ∧
    Runs treeDemo {} [.req1 3, .req1 1, .req1 0, .req2 0, .req1 2, .req2 3, .req2 1, .fin 1, .req2 2, .fin 3, .fin 0,
      .fin 2, .req1 4, .fin 4] ∧
    AtRest treeDemo 5 (after treeDemo [.req1 3, .req1 1, .req1 0, .req2 0, .req1 2, .req2 3, .req2 1, .fin 1, .req2 2,
      .fin 3, .fin 0, .fin 2, .req1 4, .fin 4]) := by
  refine ⟨?_, by omega, by decide, by simp only [Runs]; decide, ?_⟩
  · intro t
    by_cases h0 : t = 0
    · subst h0; exact .inr ⟨by decide, 1, 0, by decide, by decide⟩
    · by_cases h1 : t = 1
      · subst h1; exact .inr ⟨by decide, 0, 2, by decide, by decide⟩
      · by_cases h2 : t = 2
        · subst h2; exact .inr ⟨by decide, 3, 0, by decide, by decide⟩
        · by_cases h3 : t = 3
          · subst h3; exact .inr ⟨by decide, 1, 4, by decide, by decide⟩
          · exact .inl ⟨0, by simp [treeDemo, h0, h1, h2, h3]⟩
  · intro op hop hd
    have h01 : op.task = 0 ∨ op.task = 1 ∨ op.task = 2 ∨ op.task = 3 ∨ op.task = 4 := by omega
    cases op with
    | drop t => exact (hd t rfl).elim
    | _ t =>
      simp only [Op.task] at h01
      rcases h01 with rfl | rfl | rfl | rfl | rfl <;> decide

end Verif.Locks
