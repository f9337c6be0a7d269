import Verif.Locks.Ring

/-!
Which calls about the links of actors can fail to complete: exactly those among which there is a ring. C26,
`src/actor/actor_ref.rs` L514-526, L553-565, L637-646, L675-684.
-/

namespace Verif.Locks

/-- The number after `i` in the circle of the numbers `0` to `k`. Specification. -/
def nextIn (k i : Nat) : Nat := if i = k then 0 else i + 1

/-- Two or more of the first `N` calls, `w 0` to `w k`, form a ring: there are as many different actors, and call `w i` is
a `link` or `unlink` of actor `v i` and the next one, in either direction if it is async, and `v i`'s of the next one if it
is blocking. Specification. -/
structure Ring (c : Nat → Call) (N k : Nat) (v w : Nat → Nat) : Prop where
  pos : 1 ≤ k
  task : ∀ i, i ≤ k → w i < N
  vinj : ∀ i j, i ≤ k → j ≤ k → v i = v j → i = j
  winj : ∀ i j, i ≤ k → j ≤ k → w i = w j → i = j
  call : ∀ i, i ≤ k → linkCall (v i) (v (nextIn k i)) = some (c (w i)) ∨
    blockingCall (v i) (v (nextIn k i)) = some (c (w i)) ∨ linkCall (v (nextIn k i)) (v i) = some (c (w i))

/-- The numbers `0` to `k`, begun after `m`. -/
def turned (k m i : Nat) : Nat := if i + m + 1 ≤ k then i + m + 1 else i + m - k

theorem turned_le {k m i : Nat} (hm : m ≤ k) (hi : i ≤ k) : turned k m i ≤ k := by
  simp only [turned]; split <;> omega

theorem turned_inj {k m i j : Nat} (_ : m ≤ k) (hi : i ≤ k) (hj : j ≤ k) (h : turned k m i = turned k m j) : i = j := by
  simp only [turned] at h; split at h <;> split at h <;> omega

theorem turned_next {k m i : Nat} (_ : m ≤ k) (hi : i < k) : turned k m (i + 1) = nextIn k (turned k m i) := by
  simp only [turned, nextIn]; split <;> split <;> split <;> omega

theorem turned_last {k m : Nat} (hm : m ≤ k) : turned k m k = m := by
  simp only [turned]; split <;> omega

theorem turned_first {k m : Nat} (hm : m ≤ k) : turned k m 0 = nextIn k m := by
  simp only [turned, nextIn]; split <;> split <;> omega

/-- The calls of a ring can get to wait for each other. -/
theorem Ring.jam {c : Nat → Call} {N k : Nat} {v w : Nat → Nat} (h : Ring c N k v w) :
    ∃ ops D, (∀ op ∈ ops, op.task < N) ∧ (∃ t, t < N ∧ D t) ∧ Jam c D (after c ops) := by
  by_cases hal : ∃ m, m ≤ k ∧ (linkCall (v m) (v (nextIn k m)) = some (c (w m)) ∨
      blockingCall (v m) (v (nextIn k m)) = some (c (w m)))
  · obtain ⟨m, hm, hal⟩ := hal
    obtain ⟨ops, h1, h2⟩ := ring_jam k h.pos (fun i => v (turned k m i)) (fun i => w (turned k m i))
      (fun i j hi hj e => turned_inj hm hi hj (h.vinj _ _ (turned_le hm hi) (turned_le hm hj) e))
      (fun i j hi hj e => turned_inj hm hi hj (h.winj _ _ (turned_le hm hi) (turned_le hm hj) e)) c
      (by rw [turned_last hm, turned_first hm]; exact hal)
      (fun t ht => by
        rw [turned_next hm ht]
        exact h.call _ (turned_le hm (by omega)))
    refine ⟨ops, _, fun op ho => ?_, ⟨w (turned k m 0), h.task _ (turned_le hm (by omega)), 0, by omega, rfl⟩, h2⟩
    obtain ⟨i, hi, e⟩ := h1 op ho
    rw [e]; exact h.task _ (turned_le hm hi)
  · have hback : ∀ i, i ≤ k → linkCall (v (nextIn k i)) (v i) = some (c (w i)) := by
      intro i hi
      rcases h.call i hi with e | e | e
      · exact (hal ⟨i, hi, .inl e⟩).elim
      · exact (hal ⟨i, hi, .inr e⟩).elim
      · exact e
    let f := fun i => if i < k then k - 1 - i else k
    have hf : ∀ i, i ≤ k → f i ≤ k := by intro i hi; simp only [f]; split <;> omega
    obtain ⟨ops, h1, h2⟩ := ring_jam k h.pos (fun i => v (k - i)) (fun i => w (f i))
      (fun i j hi hj e => by have := h.vinj _ _ (by omega) (by omega) e; omega)
      (fun i j hi hj e => by
        have := h.winj _ _ (hf i hi) (hf j hj) e
        simp only [f] at this; split at this <;> split at this <;> omega) c
      (by
        have := hback k (Nat.le_refl _)
        simpa [f, nextIn] using Or.inl (b := blockingCall (v (k - k)) (v (k - 0)) = some (c (w (f k)))) this)
      (fun t ht => by
        have := hback (k - 1 - t) (by omega)
        have e1 : nextIn k (k - 1 - t) = k - t := by simp only [nextIn]; split <;> omega
        rw [e1] at this
        have e2 : k - (t + 1) = k - 1 - t := by omega
        simp only [f, ht, if_true, e2]
        exact .inl this)
    refine ⟨ops, _, fun op ho => ?_, ⟨w (f 0), h.task _ (hf _ (by omega)), 0, by omega, rfl⟩, h2⟩
    obtain ⟨i, hi, e⟩ := h1 op ho
    rw [e]; exact h.task _ (hf _ hi)

/-- Without a dropped future the calls go on until nothing can go on. -/
theorem reach_rest (c : Nat → Call) (n : Nat) : ∀ (m : Nat) (s : St), s.left n ≤ m →
    ∃ ops, (∀ op ∈ ops, op.task < n ∧ ∀ u, op ≠ .drop u) ∧ AtRest c n (s.exec c ops) := by
  intro m
  induction m with
  | zero =>
    intro s hs
    refine ⟨[], by simp, fun op ht _ => ?_⟩
    cases he : s.enabled c op with
    | false => exact he
    | true => have := step_left he n ht; omega
  | succ m ih =>
    intro s hs
    by_cases hr : AtRest c n s
    · exact ⟨[], by simp, hr⟩
    · obtain ⟨op, hop⟩ := Classical.not_forall.mp hr
      obtain ⟨ht, hop⟩ := Classical.not_imp.mp hop
      obtain ⟨hd, hop⟩ := Classical.not_imp.mp hop
      have he : s.enabled c op = true := by simpa using hop
      obtain ⟨ops, h1, h2⟩ := ih (s.step c op) (by have := step_left he n ht; omega)
      refine ⟨op :: ops, fun o ho => ?_, h2⟩
      rcases List.mem_cons.mp ho with rfl | ho
      · exact ⟨ht, hd⟩
      · exact h1 o ho

/-- Calls that wait in a circle form a ring. -/
theorem ring_of_circle {c : Nat → Call} {N : Nat} {s : St} (hm : Made c) (hok : Ok c s)
    (hnew : ∀ u, N ≤ u → s.stage u = .new) :
    ∀ (k : Nat) (w : Nat → Nat), 0 < k → w k = w 0 → (∀ i, i < k → ∃ l, WaitsOn c s (w i) (w (i + 1)) l) →
      ∃ k v w, Ring c N k v w := by
  intro k
  induction k using Nat.strongRecOn with
  | _ k ih =>
    intro w hk hw hwait
    by_cases hinj : ∃ i j, i < j ∧ j < k ∧ w i = w j
    · obtain ⟨i, j, hij, hjk, e⟩ := hinj
      refine ih (j - i) (by omega) (fun l => w (i + l)) (by omega) ?_ fun l hl => ?_
      · show w (i + (j - i)) = w (i + 0)
        rw [show i + (j - i) = j by omega]; exact e.symm
      · exact hwait (i + l) (by omega)
    · have winj : ∀ i j, i < k → j < k → w i = w j → i = j := by
        intro i j hi hj e
        rcases Nat.lt_trichotomy i j with h | h | h
        · exact (hinj ⟨i, j, h, hj, e⟩).elim
        · exact h
        · exact (hinj ⟨j, i, h, hi, e.symm⟩).elim
      have hk2 : 2 ≤ k := by
        refine Classical.byContradiction fun h => ?_
        have : k = 1 := by omega
        subst this
        obtain ⟨l, hl⟩ := hwait 0 (by omega)
        exact hl.2.2.2 hw
      have hch : ∃ l : Nat → Nat, ∀ i, i < k → WaitsOn c s (w i) (w (i + 1)) (l i) := by
        refine ⟨fun i => if h : i < k then Classical.choose (hwait i h) else 0, fun i h => ?_⟩
        simp only [h, dif_pos]
        exact Classical.choose_spec (hwait i h)
      obtain ⟨l, hl⟩ := hch
      let v := fun i => if i = 0 then l (k - 1) else l (i - 1)
      have hhead : ∀ i, i < k → (s.queue (v i)).head? = some (w i) := by
        intro i hi
        by_cases h0 : i = 0
        · subst h0
          have := (hl (k - 1) (by omega)).2.2.1
          rw [show k - 1 + 1 = k by omega, hw] at this
          simpa [v] using this
        · have := (hl (i - 1) (by omega)).2.2.1
          rw [show i - 1 + 1 = i by omega] at this
          simpa [v, h0] using this
      have hnx : ∀ i, i < k → v (nextIn (k - 1) i) = l i := by
        intro i hi
        simp only [nextIn, v]
        split
        · next h => simp [h]
        · simp
      refine ⟨k - 1, v, w, by omega, fun i hi => ?_, fun i j hi hj e => ?_, fun i j hi hj e => ?_, fun i hi => ?_⟩
      · refine Classical.byContradiction fun h => ?_
        have h1 := (hok.mem _ _).mp (mem_of_head (hhead i (by omega)))
        have h2 := hnew (w i) (by omega)
        simp [asked, h2] at h1
      · have h1 := hhead i (by omega)
        rw [e, hhead j (by omega)] at h1
        exact (winj j i (by omega) (by omega) (Option.some.inj h1)).symm
      · exact winj i j (by omega) (by omega) e
      · rw [hnx i (by omega)]
        have h1 := hl i (by omega)
        have h2 := hhead i (by omega)
        have hne : v i ≠ l i := fun e => by
          have := h1.2.2.1
          rw [← e, h2] at this
          exact h1.2.2.2 (Option.some.inj this).symm
        have ha := (hok.mem _ _).mp (mem_of_head h2)
        have hsnd : some (v i) = (c (w i)).snd → s.stage (w i) = .two := by
          intro e
          rcases ha with ⟨e', _⟩ | ⟨_, h⟩
          · exact (hm.proper (w i) (e' ▸ e)).elim
          · exact h
        have hfs : v i = (c (w i)).fst ∧ some (l i) = (c (w i)).snd ∨
            l i = (c (w i)).fst ∧ some (v i) = (c (w i)).snd := by
          have ha' : v i = (c (w i)).fst ∨ some (v i) = (c (w i)).snd := ha.imp And.left And.left
          rcases ha' with e1 | e1 <;> rcases h1.1 with e2 | e2
          · exact (hne (e1.trans e2.symm)).elim
          · exact .inl ⟨e1, e2⟩
          · exact .inr ⟨e2, e1⟩
          · exact (hne (Option.some.inj (e1.trans e2.symm))).elim
        have hbl : (c (w i)).blocking = true → v i = (c (w i)).fst := by
          intro hb
          rcases hfs with h | h
          · exact h.1
          · have h3 := hok.hold _ hb (hsnd h.2)
            rw [← h.1, h1.2.2.1] at h3
            exact (h1.2.2.2 (Option.some.inj h3)).elim
        rcases hm (w i) with ⟨a, e⟩ | ⟨a, b, e⟩ | ⟨a, b, e⟩
        · rw [e] at hfs
          simp [oneLock] at hfs
        · have hab : a ≠ b := by rintro rfl; simp [linkCall] at e
          have e' : (⟨a, some b, false⟩ : Call) = c (w i) := by simpa [linkCall, hab] using e
          rw [← e'] at hfs
          simp only [Option.some.injEq] at hfs
          rcases hfs with ⟨rfl, rfl⟩ | ⟨rfl, rfl⟩
          · exact .inl e
          · exact .inr (.inr e)
        · have hab : a ≠ b := by rintro rfl; simp [blockingCall] at e
          have e' : (⟨a, some b, true⟩ : Call) = c (w i) := by simpa [blockingCall, hab] using e
          have := hbl (by rw [← e'])
          rw [← e'] at hfs this
          simp only [Option.some.injEq] at hfs this
          rcases hfs with ⟨_, h⟩ | ⟨h, _⟩
          · right; left; rw [this, h]; exact e
          · exact (hne (this.trans h.symm)).elim

/-- **C26**, exactly: whatever calls of a program there are, they can get into a state in which they will not all complete
(unless a future is dropped) if and only if there is a ring among them: two or more of them about two or more different
actors, each about one of these and the next one, of which the blocking ones all go round in the same direction. -/
theorem can_deadlock_iff_ring (c : Nat → Call) (hm : Made c) (N : Nat) :
    (∃ ops, (∀ op ∈ ops, op.task < N) ∧ ∀ ops', (∀ op ∈ ops', ∀ u, op ≠ .drop u) →
        ∃ t, t < N ∧ (after c (ops ++ ops')).stage t ≠ .done) ↔
      ∃ k v w, Ring c N k v w := by
  constructor
  · rintro ⟨ops, hn, h⟩
    obtain ⟨ops', h1, h2⟩ := reach_rest c N _ (after c ops) (Nat.le_refl _)
    rw [← after_append] at h2
    have hn' : ∀ op ∈ ops ++ ops', op.task < N := by
      intro op ho
      rcases List.mem_append.mp ho with ho | ho
      · exact hn op ho
      · exact (h1 op ho).1
    rcases complete_or_circle c hm N (ops ++ ops') hn' h2 with hd | ⟨k, w, hk, hw, hc⟩
    · obtain ⟨t, ht, hnd⟩ := h ops' (fun op ho => (h1 op ho).2)
      exact (hnd (hd t ht)).elim
    · exact ring_of_circle hm (ok_after hm.proper _) (not_begun c N _ hn') k w hk hw hc
  · rintro ⟨k, v, w, hr⟩
    obtain ⟨ops, D, h1, ⟨t, ht, hD⟩, hj⟩ := hr.jam
    refine ⟨ops, h1, fun ops' h => ⟨t, ht, ?_⟩⟩
    rw [after_append]
    exact circle_never_completes _ _ _ hj _ (fun op ho u _ _ => h op ho u) t hD

/-- The four calls of `ringDemo` are a ring. -/
example : Ring ringDemo 4 3 id id := by
  refine ⟨by omega, fun i hi => by simp only [id]; omega, fun _ _ _ _ h => h, fun _ _ _ _ h => h, fun i hi => ?_⟩
  have : i = 0 ∨ i = 1 ∨ i = 2 ∨ i = 3 := by omega
  rcases this with rfl | rfl | rfl | rfl
  · exact .inl rfl
  · exact .inr (.inr rfl)
  · exact .inr (.inl rfl)
  · exact .inl rfl

/-- Two opposite links are one. -/
example : Made oppositeCalls ∧ Ring oppositeCalls 2 1 id id := by
  refine ⟨fun t => ?_, by omega, fun i hi => by simp only [id]; omega, fun _ _ _ _ h => h, fun _ _ _ _ h => h,
    fun i hi => ?_⟩
  · simp only [oppositeCalls]
    split
    · exact Or.inr (Or.inl ⟨0, 1, rfl⟩)
    · exact Or.inr (Or.inl ⟨1, 0, rfl⟩)
  · have : i = 0 ∨ i = 1 := by omega
    rcases this with rfl | rfl <;> exact .inl rfl

/-- Two equal blocking calls are none, so they always complete. -/
example : ¬ ∃ ops, (∀ op ∈ ops, op.task < 2) ∧ ∀ ops', (∀ op ∈ ops', ∀ u, op ≠ .drop u) →
    ∃ t, t < 2 ∧ (after (fun _ => ⟨5, some 7, true⟩) (ops ++ ops')).stage t ≠ .done := by
  rw [can_deadlock_iff_ring _ (fun _ => Or.inr (Or.inr ⟨5, 7, rfl⟩))]
  rintro ⟨k, v, w, h⟩
  have key : ∀ i, i ≤ k → v i = 5 := by
    intro i hi
    rcases h.call i hi with e | e | e
    · simp only [linkCall] at e; split at e <;> simp at e
    · simp only [blockingCall] at e; split at e <;> simp at e; exact e.1
    · simp only [linkCall] at e; split at e <;> simp at e
  have := h.vinj 0 1 (by omega) h.pos (by rw [key 0 (by omega), key 1 h.pos])
  omega

end Verif.Locks
