import Verif.Hook.Model

namespace Verif.Hook

/-- Specification: the state after the messages `ms` when each passes through `on_message`. -/
def throughHook (c : Code σ μ) (s0 : σ) (ms : List μ) : σ := ms.foldl (fun s m => (c.onMessage s m).1) s0

/-- The claim of C56: what an actor does with its messages is what its `on_message` does with them. -/
def HookSeesAll (c : Code σ μ) : Prop :=
  ∀ s0 sigs, (run c s0 sigs).state = throughHook c s0 (run c s0 sigs).handled

theorem step_handle (c : Code σ μ) (s0 : σ) (b : Beh σ μ) (sig : Sig μ)
    (h : b.state = b.handled.foldl (fun s m => (c.handle s m).1) s0) :
    (b.step c sig).state = (b.step c sig).handled.foldl (fun s m => (c.handle s m).1) s0 := by
  have hm : ∀ (b : Beh σ μ) m w, b.state = b.handled.foldl (fun s m => (c.handle s m).1) s0 →
      (handleMessage c b m w).1.state = (handleMessage c b m w).1.handled.foldl (fun s m => (c.handle s m).1) s0 := by
    intro b m w h
    unfold handleMessage
    split
    · exact h
    · simp [h]
  have hd : ∀ (ms : List μ) (b : Beh σ μ), b.state = b.handled.foldl (fun s m => (c.handle s m).1) s0 →
      (drain c b ms).state = (drain c b ms).handled.foldl (fun s m => (c.handle s m).1) s0 := by
    intro ms
    induction ms with
    | nil => exact fun _ h => h
    | cons m ms ih =>
      intro b h
      simp only [drain]
      split
      · exact ih _ (hm b m false h)
      · exact hm b m false h
  cases sig with
  | startupFinished => exact hd _ _ h
  | msg m w => exact hm _ _ _ h

theorem run_handle (c : Code σ μ) (s0 : σ) (sigs : List (Sig μ)) :
    (run c s0 sigs).state = (run c s0 sigs).handled.foldl (fun s m => (c.handle s m).1) s0 := by
  suffices h : ∀ (sigs : List (Sig μ)) (b : Beh σ μ), b.state = b.handled.foldl (fun s m => (c.handle s m).1) s0 →
      (sigs.foldl (Beh.step c) b).state =
        (sigs.foldl (Beh.step c) b).handled.foldl (fun s m => (c.handle s m).1) s0 from h sigs _ rfl
  intro sigs
  induction sigs with
  | nil => exact fun _ h => h
  | cons sig sigs ih => exact fun b h => ih _ (step_handle c s0 b sig h)

/-- **C56** For an actor that does not override `on_message`, every message is handled as `on_message` would.

Missing for the full claim: actors that do override it; for them it fails (`hook_ignored`). -/
theorem default_hook_partial (handle : σ → μ → σ × Res) : HookSeesAll (Code.default handle) :=
  fun s0 sigs => run_handle (Code.default handle) s0 sigs

/-- An actor that adds its messages up, with the default hook. -/
example : (run (Code.default fun (s m : Nat) => (s + m, .ok)) 0 [.msg 5 false, .startupFinished, .msg 7 false]).state = 12 ∧
    throughHook (Code.default fun (s m : Nat) => (s + m, .ok)) 0 [5, 7] = 12 := by decide

/-- The messages among the signals, in order. -/
def msgs : List (Sig μ) → List μ
  | [] => []
  | .startupFinished :: rest => msgs rest
  | .msg m _ :: rest => m :: msgs rest

/-- The messages of others, all handled well, are handled in the order in which they arrived, once each. -/
theorem handled_in_order (c : Code σ μ) (hok : ∀ s m, (c.handle s m).2 = .ok) (s0 : σ) (sigs : List (Sig μ))
    (hw : ∀ m, .msg m true ∉ sigs) :
    (run c s0 sigs).handled ++ (run c s0 sigs).buffer = msgs sigs ∧
      (.startupFinished ∈ sigs → (run c s0 sigs).buffer = []) := by
  have hd : ∀ (ms : List μ) (b : Beh σ μ), b.finished = true → b.buffer = [] →
      (drain c b ms).handled = b.handled ++ ms ∧ (drain c b ms).finished = true ∧ (drain c b ms).buffer = [] := by
    intro ms
    induction ms with
    | nil => intro b h1 h2; exact ⟨by simp [drain], h1, h2⟩
    | cons m ms ih =>
      intro b h1 h2
      have := ih { b with state := (c.handle b.state m).1, handled := b.handled ++ [m] } h1 h2
      rw [h1] at this
      simp only [drain, handleMessage, h1, hok, Bool.not_true, Bool.and_false, Bool.false_eq_true, if_false,
        decide_true, if_true]
      exact ⟨by rw [this.1]; simp, this.2⟩
  have key : ∀ (sigs : List (Sig μ)) (b : Beh σ μ), (∀ m, .msg m true ∉ sigs) → (b.finished = true → b.buffer = []) →
      (sigs.foldl (Beh.step c) b).handled ++ (sigs.foldl (Beh.step c) b).buffer = b.handled ++ b.buffer ++ msgs sigs ∧
      (b.finished = true ∨ .startupFinished ∈ sigs → (sigs.foldl (Beh.step c) b).buffer = []) := by
    intro sigs
    induction sigs with
    | nil => intro b _ h; exact ⟨by simp [msgs], fun h' => h (h'.resolve_right (by simp))⟩
    | cons sig sigs ih =>
      intro b hw hb
      have hw' : ∀ m, Sig.msg m true ∉ sigs := fun m h => hw m (List.mem_cons_of_mem _ h)
      cases sig with
      | startupFinished =>
        have h1 := hd b.buffer { b with finished := true, buffer := [] } rfl rfl
        have h2 := ih _ hw' (fun _ => h1.2.2)
        refine ⟨?_, fun _ => h2.2 (.inl h1.2.1)⟩
        simp only [List.foldl_cons, Beh.step, msgs]
        rw [h2.1, h1.1, h1.2.2]
        simp
      | msg m w =>
        cases w with
        | true => exact absurd (List.mem_cons_self ..) (hw m)
        | false =>
          cases hf : b.finished with
          | false =>
            have h2 := ih { b with buffer := b.buffer ++ [m] } hw' (fun h => absurd h (by simp [hf]))
            simp only [List.foldl_cons, Beh.step, handleMessage, hf, msgs, Bool.not_false, Bool.and_self, if_true]
            refine ⟨by rw [← hf, h2.1]; simp, fun h => ?_⟩
            rw [← hf]
            refine h2.2 (.inr ?_)
            rcases h with h | h
            · cases h
            · simpa using h
          | true =>
            have h2 := ih { b with state := (c.handle b.state m).1, handled := b.handled ++ [m] } hw' hb
            simp only [List.foldl_cons, Beh.step, handleMessage, hf, msgs, Bool.not_true, Bool.and_false,
              Bool.false_eq_true, if_false]
            rw [← hf]
            exact ⟨by rw [h2.1]; simp [hb hf], fun _ => h2.2 (.inl hf)⟩
  have h := key sigs { state := s0 } hw (by simp)
  exact ⟨h.1.trans (by simp), fun hs => h.2 (.inr hs)⟩

/-- **C56** For an actor that does not override `on_message` and whose handlers do not fail: once it has started, its state
is what `on_message` makes of all the messages it was sent, in the order of their arrival.

Missing for the full claim: actors that do override it; for them it fails (`hook_ignored`). -/
theorem hook_over_arrivals_partial (handle : σ → μ → σ × Res) (hok : ∀ s m, (handle s m).2 = .ok) (s0 : σ)
    (sigs : List (Sig μ)) (hw : ∀ m, .msg m true ∉ sigs) (hs : .startupFinished ∈ sigs) :
    (run (Code.default handle) s0 sigs).state = throughHook (Code.default handle) s0 (msgs sigs) := by
  have h := handled_in_order (Code.default handle) hok s0 sigs hw
  rw [h.2 hs, List.append_nil] at h
  rw [default_hook_partial handle s0 sigs, h.1]

example : (∀ s m : Nat, ((fun s m => (10 * s + m, Res.ok)) s m).2 = .ok) ∧
    (run (Code.default fun (s m : Nat) => (10 * s + m, .ok)) 0 [.msg 5 false, .msg 6 false, .startupFinished, .msg 7 false]).state
      = 567 := ⟨fun _ _ => rfl, by decide⟩

/-- The state the handlers make of the messages `ms`, one after the other. -/
def byHandlers (c : Code σ μ) (s0 : σ) (ms : List μ) : σ := ms.foldl (fun s m => (c.handle s m).1) s0

/-- **C56** (messages kept back during the start) What reaches the handler when the start has finished: the messages
kept back, in order, up to the first whose handler fails; if not all of them, then because the last one failed. -/
theorem kept_back_until_error (c : Code σ μ) (s0 : σ) (ms : List μ) :
    let b := run c s0 (ms.map (.msg · false) ++ [.startupFinished])
    b.handled <+: ms ∧
    (∀ l m r, b.handled = l ++ m :: r → r ≠ [] → (c.handle (byHandlers c s0 l) m).2 = .ok) ∧
    (b.handled ≠ ms → ∃ l m, b.handled = l ++ [m] ∧ (c.handle (byHandlers c s0 l) m).2 ≠ .ok) := by
  have hbuf : ∀ (ms : List μ) (b : Beh σ μ), b.finished = false →
      (ms.map (Sig.msg · false)).foldl (Beh.step c) b = { b with buffer := b.buffer ++ ms } := by
    intro ms
    induction ms with
    | nil => intro b _; simp
    | cons m ms ih =>
      intro b hf
      have h1 : Beh.step c b (.msg m false) = { b with buffer := b.buffer ++ [m] } := by
        simp [Beh.step, handleMessage, hf]
      rw [List.map_cons, List.foldl_cons, h1, ih _ (by simpa using hf)]
      simp
  have hd : ∀ (ms : List μ) (b : Beh σ μ), b.finished = true → ∃ t, (drain c b ms).handled = b.handled ++ t ∧ t <+: ms ∧
      (∀ l m r, t = l ++ m :: r → r ≠ [] → (c.handle (byHandlers c b.state l) m).2 = .ok) ∧
      (t ≠ ms → ∃ l m, t = l ++ [m] ∧ (c.handle (byHandlers c b.state l) m).2 ≠ .ok) := by
    intro ms
    induction ms with
    | nil =>
      intro b _
      exact ⟨[], by simp [drain], List.prefix_refl _, fun l m r h => by simp at h, fun h => absurd rfl h⟩
    | cons m ms ih =>
      intro b hf
      by_cases hok : (c.handle b.state m).2 = .ok
      · obtain ⟨t, h1, h2, h3, h4⟩ := ih { b with state := (c.handle b.state m).1, handled := b.handled ++ [m] } hf
        refine ⟨m :: t, ?_, ?_, ?_, ?_⟩
        · simp only [drain, handleMessage, hf, hok, Bool.not_true, Bool.and_false, Bool.false_eq_true, if_false,
            decide_true, if_true]
          rw [hf] at h1
          rw [h1]
          simp
        · exact List.cons_prefix_cons.mpr ⟨rfl, h2⟩
        · intro l m' r hl hr
          cases l with
          | nil =>
            simp only [List.nil_append, List.cons.injEq] at hl
            rw [← hl.1]
            exact hok
          | cons x l =>
            simp only [List.cons_append, List.cons.injEq] at hl
            rw [← hl.1]
            exact h3 l m' r hl.2 hr
        · intro hne
          obtain ⟨l, m', hl, he⟩ := h4 (fun h => hne (by rw [h]))
          exact ⟨m :: l, m', by rw [hl]; rfl, he⟩
      · refine ⟨[m], ?_, ⟨ms, rfl⟩, ?_, ?_⟩
        · simp only [drain, handleMessage, hf, hok, Bool.not_true, Bool.and_false, Bool.false_eq_true, if_false,
            decide_false]
        · intro l m' r hl hr
          cases l with
          | nil =>
            simp only [List.nil_append, List.cons.injEq] at hl
            exact absurd hl.2.symm hr
          | cons x l => simp at hl
        · intro _
          exact ⟨[], m, rfl, hok⟩
  intro b
  have hb : b = drain c { state := s0, finished := true, buffer := [], handled := [] } ms := by
    show List.foldl _ _ _ = _
    rw [List.foldl_append, hbuf _ _ rfl]
    simp [Beh.step]
  obtain ⟨t, h1, h2, h3, h4⟩ := hd ms { state := s0, finished := true, buffer := [], handled := [] } rfl
  rw [hb, h1, List.nil_append]
  exact ⟨h2, h3, h4⟩

/-- The second of three messages fails: the third never reaches its handler. -/
example : (run (Code.default fun (s m : Nat) => (s + m, if m = 6 then .err else .ok)) 0
    ([5, 6, 7].map (.msg · false) ++ [.startupFinished])).handled = [5, 6] := by decide

/-- **C56** fails: `on_message` has no influence at all. Two actors that differ only in `on_message` behave
the same in every execution. -/
theorem hook_ignored (handle hook hook' : σ → μ → σ × Res) (s0 : σ) (sigs : List (Sig μ)) :
    run ⟨handle, hook⟩ s0 sigs = run ⟨handle, hook'⟩ s0 sigs := by
  have hm : ∀ (b : Beh σ μ) m w, handleMessage ⟨handle, hook⟩ b m w = handleMessage ⟨handle, hook'⟩ b m w :=
    fun _ _ _ => rfl
  have hd : ∀ (ms : List μ) (b : Beh σ μ), drain ⟨handle, hook⟩ b ms = drain ⟨handle, hook'⟩ b ms := by
    intro ms
    induction ms with
    | nil => exact fun _ => rfl
    | cons m ms ih => intro b; simp only [drain, hm, ih]
  have hs : ∀ (b : Beh σ μ) sig, b.step ⟨handle, hook⟩ sig = b.step ⟨handle, hook'⟩ sig := by
    intro b sig
    cases sig with
    | startupFinished => exact hd _ _
    | msg m w => rfl
  unfold run
  generalize ({ state := s0 } : Beh σ μ) = b
  induction sigs generalizing b with
  | nil => rfl
  | cons sig sigs ih => simp only [List.foldl_cons, hs, ih]

/-- A hook that doubles each message has no effect. -/
example : (run (⟨fun s m => (s + m, .ok), fun s m => (s + 2 * m, .ok)⟩ : Code Nat Nat) 0
    [.msg 5 false, .startupFinished, .msg 7 false]).state = 12 := by decide

/-- **C56** at full strength holds of exactly those actors for which it makes no difference: whose
`on_message` has the effect of the handler, on every state and message. -/
theorem hook_sees_all_iff (c : Code σ μ) :
    HookSeesAll c ↔ ∀ s m, (c.onMessage s m).1 = (c.handle s m).1 := by
  constructor
  · intro h s m
    have := h s [.startupFinished, .msg m false]
    simpa [run, Beh.step, drain, handleMessage, throughHook] using this.symm
  · intro h s0 sigs
    rw [run_handle]
    unfold throughHook
    congr 1
    funext s m
    exact (h s m).symm

/-- A hook of its own that has the effect of the handler. -/
example : ∀ s m : Nat, ((⟨fun s m => (s + m, .ok), fun s m => (m + s, .ok)⟩ : Code Nat Nat).onMessage s m).1 = s + m :=
  fun _ _ => Nat.add_comm _ _

/-- An actor that counts its messages in `on_message` before it handles them. -/
def counting : Code (Nat × Nat) Nat where
  handle s m := ((s.1, s.2 + m), .ok)
  onMessage s m := ((s.1 + 1, s.2 + m), .ok)

/-- **C56** fails for an actor that counts its messages in `on_message`. -/
theorem counting_not_called : ¬ HookSeesAll counting := by
  rw [hook_sees_all_iff]
  intro h
  exact absurd (h (0, 0) 0) (by decide)

example : (run counting (0, 0) [.msg 5 false, .startupFinished, .msg 7 false]).state = (0, 12) := by decide
example : throughHook counting (0, 0) [5, 7] = (2, 12) := by decide

end Verif.Hook
