import Verif.Remote.Flight

/-!
# Links between nodes with calls and deaths under way at once: C90
-/

namespace Verif.Remote.Flight

/-! ## Specification -/

/-- The two actors `a` and `b` are `x` and `y`. -/
def pair (x y a b : Nat) : Prop := (a = x ∧ b = y) ∨ (a = y ∧ b = x)

instance (x y a b : Nat) : Decidable (pair x y a b) := inferInstanceAs (Decidable (_ ∨ _))

/-- The call is between `x` and `y`, from either side. -/
def Call.between (c : Call) (x y : Nat) : Prop := pair x y c.a c.b

/-- What the last call between `x` and `y` was to do, in the order in which the calls began. -/
def lastSaid (x y : Nat) : List Op → Option Kind
  | [] => none
  | op :: rest =>
    match lastSaid x y rest, op with
    | some k, _ => some k
    | none, .begin k a b => if pair x y a b then some k else none
    | none, _ => none

/-- All calls between `x` and `y` have returned, with `Ok`. -/
def AllOk (s : Net) (x y : Nat) : Prop := ∀ n c, s.calls n = some c → c.between x y → c.caller = .over .ok

/-- Each time a call between `x` and `y` begins, those that have not returned are of the same kind. -/
def NoCross (among : List Nat) (x y : Nat) (ops : List Op) : Prop :=
  ∀ pre k a b, pre ++ [Op.begin k a b] <+: ops → pair x y a b →
    ∀ n c, (run among pre).calls n = some c → c.between x y → (∀ r, c.caller ≠ .over r) → c.kind = k

/-- No call between `x` and `y` can do anything any more: all have returned, and no request is still to be served. -/
def Settled (s : Net) (x y : Nat) : Prop :=
  ∀ n c, s.calls n = some c → c.between x y →
    (∃ r, c.caller = .over r) ∧ c.request ≠ .sent ∧ c.request ≠ .found

/-! ## Steps -/

theorem run_snoc (among : List Nat) (ops : List Op) (op : Op) :
    run among (ops ++ [op]) = (run among ops).step among op := by simp [run]

theorem snoc_induction {motive : List Op → Prop} (nil : motive [])
    (snoc : ∀ l a, motive l → motive (l ++ [a])) (l : List Op) : motive l := by
  suffices ∀ n (l : List Op), l.length = n → motive l from this _ l rfl
  intro n
  induction n with
  | zero => intro l hl; rw [List.length_eq_zero_iff.mp hl]; exact nil
  | succ n ih =>
    intro l hl
    have hne : l ≠ [] := by intro h; subst h; simp at hl
    rw [← List.dropLast_concat_getLast hne]
    exact snoc _ _ (ih _ (by simp [hl]))

theorem lastSaid_append (x y : Nat) (l r : List Op) :
    lastSaid x y (l ++ r) = (lastSaid x y r).or (lastSaid x y l) := by
  induction l with
  | nil => simp [lastSaid]
  | cons op l ih =>
    simp only [List.cons_append, lastSaid, ih]
    cases hr : lastSaid x y r <;> simp

theorem lastSaid_snoc_other {x y : Nat} {l : List Op} {op : Op} (h : ∀ k a b, op = .begin k a b → ¬ pair x y a b) :
    lastSaid x y (l ++ [op]) = lastSaid x y l := by
  rw [lastSaid_append]
  cases op <;> simp [lastSaid]
  rename_i k a b
  simp [h k a b rfl]

theorem lastSaid_snoc {x y a b : Nat} {l : List Op} {k : Kind} (h : pair x y a b) :
    lastSaid x y (l ++ [.begin k a b]) = some k := by
  rw [lastSaid_append]
  simp [lastSaid, h]

/-- How one call changes in a step. -/
inductive Moved (s t : Net) (n : Nat) (c : Call) : Call → Prop where
  | same : Moved s t n c c
  | list : c.caller = .begun → c.kind = .link → Moved s t n c { c with caller := .listed }
  | write : c.caller = .begun ∨ c.caller = .listed → t.links c.a c.b = c.kind.value →
      Moved s t n c { c with caller := .waiting, request := .sent }
  | ok : c.caller = .waiting → c.request = .done → Moved s t n c { c with caller := .over .ok }
  | refused : c.caller = .waiting → c.request = .refused → Moved s t n c { c with caller := .over .refused }
  | failed : c.caller = .waiting → Moved s t n c { c with caller := .over .network }
  | found : c.request = .sent → Moved s t n c { c with request := .found }
  | unfound : c.request = .sent → Moved s t n c { c with request := .refused }
  | lost : c.request = .sent → Moved s t n c { c with request := .lost }
  | served : c.request = .found → t.links c.b c.a = c.kind.value → Moved s t n c { c with request := .done }

/-- What holds of all histories. -/
structure Sound (s : Net) : Prop where
  few : ∀ n c, s.calls n = some c → n < s.made
  none : ∀ n c, s.calls n = some c → c.caller = .begun ∨ c.caller = .listed → c.request = .none
  done : ∀ n c, s.calls n = some c → c.caller = .over .ok → c.request = .done
  two : ∀ n c, s.calls n = some c → c.a ≠ c.b
  flight : ∀ p ∈ s.flight, s.life p.1 ≠ .alive
  inbox : ∀ x y, y ∈ s.inbox x → s.life y ≠ .alive

theorem step_life {among : List Nat} {s : Net} {op : Op} {x : Nat} (h : s.life x ≠ .alive) :
    (s.step among op).life x ≠ .alive := by
  cases op <;> simp only [Net.step, Net.setCall, Net.setLink, Net.next, Net.serve] <;> repeat' split
  all_goals first | exact h | (simp only; split <;> simp_all)

/-- The calls after a step: those before, moved, or a new one. -/
theorem step_call {among : List Nat} {s : Net} (hs : Sound s) {op : Op} {n : Nat} {d : Call}
    (h : (s.step among op).calls n = some d) :
    (∃ c, s.calls n = some c ∧ Moved s (s.step among op) n c d) ∨
      (∃ k a b, op = .begin k a b ∧ a ≠ b ∧ n = s.made ∧ s.calls n = none ∧ d = { kind := k, a := a, b := b }) := by
  have hfresh : s.calls s.made = none := by
    cases hc : s.calls s.made with
    | none => rfl
    | some c => exact absurd (hs.few _ _ hc) (Nat.lt_irrefl _)
  cases op with
  | «begin» k a b =>
    simp only [Net.step] at h
    split at h
    · exact .inl ⟨d, h, .same⟩
    · simp only [Net.setCall] at h
      split at h
      · rename_i hab hn
        exact .inr ⟨k, a, b, rfl, hab, hn, hn ▸ hfresh, (Option.some.inj h).symm⟩
      · exact .inl ⟨d, h, .same⟩
  | next m =>
    refine .inl ?_
    cases hm : s.calls m with
    | none => simp only [Net.step, hm] at h; exact ⟨d, h, .same⟩
    | some c =>
      by_cases hn : n = m
      · subst hn
        refine ⟨c, hm, ?_⟩
        simp only [Net.step, hm] at h ⊢
        unfold Net.next at h ⊢
        split at h
        · simp only [Net.setCall, if_true] at h; cases h; exact .list ‹_› ‹_›
        · simp only [Net.setCall, Net.setLink, if_true] at h; cases h
          exact .write (.inl ‹_›) (by simp [Net.setLink])
        · simp only [Net.setCall, Net.setLink, if_true] at h; cases h
          exact .write (.inr ‹_›) (by simp [Net.setLink])
        · split at h
          · simp only [Net.setCall, if_true] at h; cases h; exact .ok ‹_› ‹_›
          · simp only [Net.setCall, if_true] at h; cases h; exact .refused ‹_› ‹_›
          · rw [hm] at h; cases h; exact .same
        · rw [hm] at h; cases h; exact .same
      · refine ⟨d, ?_, .same⟩
        simp only [Net.step, hm] at h
        unfold Net.next at h
        repeat' split at h
        all_goals first | exact h | (simp only [Net.setCall, Net.setLink, if_neg hn] at h; exact h)
  | serve m =>
    refine .inl ?_
    cases hm : s.calls m with
    | none => simp only [Net.step, hm] at h; exact ⟨d, h, .same⟩
    | some c =>
      by_cases hn : n = m
      · subst hn
        refine ⟨c, hm, ?_⟩
        simp only [Net.step, hm] at h ⊢
        unfold Net.serve at h ⊢
        split at h
        · simp only [Net.setCall, if_true] at h
          cases h
          split
          · exact .found ‹_›
          · exact .unfound ‹_›
        · simp only [Net.setCall, Net.setLink, if_true] at h; cases h
          exact .served ‹_› (by simp [Net.setLink])
        · rw [hm] at h; cases h; exact .same
      · refine ⟨d, ?_, .same⟩
        simp only [Net.step, hm] at h
        unfold Net.serve at h
        repeat' split at h
        all_goals first | exact h | (simp only [Net.setCall, Net.setLink, if_neg hn] at h; exact h)
  | lose m =>
    refine .inl ?_
    simp only [Net.step] at h
    split at h
    · exact ⟨d, h, .same⟩
    · rename_i c hm
      split at h
      · by_cases hn : n = m
        · subst hn
          simp only [Net.setCall, if_true] at h; cases h
          exact ⟨c, hm, .lost ‹_›⟩
        · simp only [Net.setCall, if_neg hn] at h; exact ⟨d, h, .same⟩
      · exact ⟨d, h, .same⟩
  | fail m =>
    refine .inl ?_
    simp only [Net.step] at h
    split at h
    · exact ⟨d, h, .same⟩
    · rename_i c hm
      split at h
      · by_cases hn : n = m
        · subst hn
          simp only [Net.setCall, if_true] at h; cases h
          exact ⟨c, hm, .failed ‹_›⟩
        · simp only [Net.setCall, if_neg hn] at h; exact ⟨d, h, .same⟩
      · exact ⟨d, h, .same⟩
  | register x => exact .inl ⟨d, h, .same⟩
  | drain x => simp only [Net.step] at h; split at h <;> exact .inl ⟨d, h, .same⟩
  | deliver i =>
    simp only [Net.step] at h
    repeat' split at h
    all_goals exact .inl ⟨d, h, .same⟩
  | drop i => exact .inl ⟨d, h, .same⟩
  | leave x => simp only [Net.step] at h; split at h <;> exact .inl ⟨d, h, .same⟩
  | hear x => simp only [Net.step, Net.setLink] at h; split at h <;> exact .inl ⟨d, h, .same⟩

theorem step_calls_mono {among : List Nat} {s : Net} (hs : Sound s) {op : Op} {n : Nat} {c : Call}
    (h : s.calls n = some c) : ∃ d, (s.step among op).calls n = some d := by
  have hlt := hs.few _ _ h
  cases op <;> simp only [Net.step, Net.setCall, Net.setLink, Net.next, Net.serve] <;> repeat' split
  all_goals first | exact ⟨_, h⟩ | (simp only; split <;> first | exact ⟨_, rfl⟩ | exact ⟨_, h⟩)

/-- How a link can change in a step. -/
theorem step_links {among : List Nat} {s : Net} {op : Op} {x y : Nat}
    (h : (s.step among op).links x y ≠ s.links x y) :
    (∃ n c, s.calls n = some c ∧ c.a = x ∧ c.b = y ∧ (c.caller = .begun ∧ c.kind = .unlink ∨ c.caller = .listed) ∧
      (s.step among op).links x y = c.kind.value) ∨
    (∃ n c, s.calls n = some c ∧ c.a = y ∧ c.b = x ∧ c.request = .found ∧
      (s.step among op).links x y = c.kind.value) ∨
    op = .drain x ∨ (y ∈ s.inbox x ∧ op = .hear x) := by
  cases op with
  | «begin» k a b => exfalso; apply h; simp only [Net.step, Net.setCall]; split <;> rfl
  | next m =>
    refine .inl ?_
    cases hm : s.calls m with
    | none => exact absurd (by simp only [Net.step, hm]) h
    | some c =>
      simp only [Net.step, hm, Net.next] at h ⊢
      split at h
      · exact absurd rfl h
      · simp only [Net.setLink, Net.setCall] at h ⊢
        split at h
        · rename_i hx
          exact ⟨m, c, hm, hx.1.symm, hx.2.symm, .inl ⟨‹_›, ‹_›⟩, by simp [hx]⟩
        · exact absurd rfl h
      · simp only [Net.setLink, Net.setCall] at h ⊢
        split at h
        · rename_i hx
          exact ⟨m, c, hm, hx.1.symm, hx.2.symm, .inr ‹_›, by simp [hx]⟩
        · exact absurd rfl h
      · split at h <;> exact absurd rfl h
      · exact absurd rfl h
  | serve m =>
    refine .inr (.inl ?_)
    cases hm : s.calls m with
    | none => exact absurd (by simp only [Net.step, hm]) h
    | some c =>
      simp only [Net.step, hm, Net.serve] at h ⊢
      split at h
      · exact absurd rfl h
      · simp only [Net.setLink, Net.setCall] at h ⊢
        split at h
        · rename_i hx
          exact ⟨m, c, hm, hx.2.symm, hx.1.symm, ‹_›, by simp [hx]⟩
        · exact absurd rfl h
      · exact absurd rfl h
  | lose m => exfalso; apply h; simp only [Net.step, Net.setCall]; repeat' split
              all_goals rfl
  | fail m => exfalso; apply h; simp only [Net.step, Net.setCall]; repeat' split
              all_goals rfl
  | register z => exact absurd rfl h
  | drain z =>
    by_cases hz : z = x
    · subst hz; exact .inr (.inr (.inl rfl))
    · exfalso; apply h; simp only [Net.step]; split
      · simp [Ne.symm hz]
      · rfl
  | deliver i => exfalso; apply h; simp only [Net.step]; repeat' split
                 all_goals rfl
  | drop i => exact absurd rfl h
  | leave z => exfalso; apply h; simp only [Net.step]; split <;> rfl
  | hear z =>
    simp only [Net.step] at h
    split at h
    · rename_i w rest _ hi
      simp only [Net.setLink] at h
      split at h
      · rename_i hx
        rw [hx.1, hx.2]
        exact .inr (.inr (.inr ⟨by rw [hi]; exact List.mem_cons_self, rfl⟩))
      · exact absurd rfl h
    · exact absurd rfl h

theorem step_flight {among : List Nat} {s : Net} {op : Op} {p : Nat × Nat} (h : p ∈ (s.step among op).flight) :
    p ∈ s.flight ∨ (op = .drain p.1 ∧ s.life p.1 = .alive ∧ s.links p.1 p.2 = true ∧ p.2 ∈ among) := by
  cases op <;> simp only [Net.step, Net.setCall, Net.setLink, Net.next, Net.serve] at h <;> repeat' split at h
  all_goals first
    | exact .inl h
    | exact .inl (List.mem_of_mem_eraseIdx h)
    | skip
  simp only [List.mem_append, List.mem_map, List.mem_filter] at h
  rcases h with h | ⟨y, ⟨hy, hl⟩, rfl⟩
  · exact .inl h
  · exact .inr ⟨rfl, ‹_›, hl, hy⟩

theorem step_inbox {among : List Nat} {s : Net} {op : Op} {x y : Nat} (h : y ∈ (s.step among op).inbox x) :
    y ∈ s.inbox x ∨ (y, x) ∈ s.flight := by
  cases op <;> simp only [Net.step, Net.setCall, Net.setLink, Net.next, Net.serve] at h <;> repeat' split at h
  all_goals first | exact .inl h | skip
  · rename_i i u v hf hl
    simp only at h
    split at h
    · rename_i hx
      subst hx
      simp only [List.mem_append, List.mem_singleton] at h
      rcases h with h | h
      · exact .inl h
      · subst h; exact .inr (List.mem_of_getElem? hf)
    · exact .inl h
  · rename_i hi
    simp only at h
    split at h
    · rename_i hx; subst hx; exact .inl (by rw [hi]; exact List.mem_cons_of_mem _ h)
    · exact .inl h

theorem Sound.step {among : List Nat} {s : Net} (hs : Sound s) (op : Op) : Sound (s.step among op) := by
  have hmade : s.made ≤ (s.step among op).made := by
    cases op <;> simp only [Net.step, Net.setCall, Net.setLink, Net.next, Net.serve] <;> repeat' split
    all_goals first | exact Nat.le_refl _ | exact Nat.le_succ _
  refine ⟨?_, ?_, ?_, ?_, ?_, ?_⟩
  · intro n d h
    rcases step_call hs h with ⟨c, hc, -⟩ | ⟨k, a, b, hop, hab, hn, -⟩
    · exact Nat.lt_of_lt_of_le (hs.few _ _ hc) hmade
    · subst hop; simp only [Net.step, if_neg hab]; rw [hn]; exact Nat.lt_succ_self _
  · intro n d h hd
    rcases step_call hs h with ⟨c, hc, hm⟩ | ⟨k, a, b, hop, hab, hn, -, rfl⟩
    · have h1 := hs.none _ _ hc
      cases hm <;> simp_all
    · rfl
  · intro n d h hd
    rcases step_call hs h with ⟨c, hc, hm⟩ | ⟨k, a, b, hop, hab, hn, -, rfl⟩
    · have h1 := hs.done _ _ hc
      have h2 := hs.none _ _ hc
      cases hm <;> simp_all
    · simp at hd
  · intro n d h
    rcases step_call hs h with ⟨c, hc, hm⟩ | ⟨k, a, b, hop, hab, hn, -, rfl⟩
    · have h1 := hs.two _ _ hc
      cases hm <;> exact h1
    · exact hab
  · intro p hp
    rcases step_flight hp with h | ⟨rfl, hl, -⟩
    · exact step_life (hs.flight p h)
    · simp [Net.step, hl]
  · intro x y h
    rcases step_inbox h with h | h
    · exact step_life (hs.inbox _ _ h)
    · exact step_life (hs.flight _ h)

theorem sound_run (among : List Nat) (ops : List Op) : Sound (run among ops) := by
  induction ops using snoc_induction with
  | nil => exact ⟨by simp [run], by simp [run], by simp [run], by simp [run], by simp [run], by simp [run]⟩
  | snoc l a ih => rw [run_snoc]; exact ih.step a

theorem alive_of_not_drained {among : List Nat} {ops : List Op} {x : Nat} (h : Op.drain x ∉ ops) :
    (run among ops).life x = .alive := by
  induction ops using snoc_induction with
  | nil => rfl
  | snoc l a ih =>
    rw [run_snoc]
    have hl := ih (fun hh => h (List.mem_append_left _ hh))
    have ha : a ≠ .drain x := fun hh => h (by simp [hh])
    cases a <;> simp only [Net.step, Net.setCall, Net.setLink, Net.next, Net.serve] <;> repeat' split
    all_goals first
      | exact hl
      | (simp only; split <;> simp_all)

/-! ## Both sides agree -/

/-- What the last call says about the links. -/
def said (m : Option Kind) : Bool := decide (m = some .link)

theorem said_kind (k : Kind) : said (some k) = k.value := by cases k <;> rfl

/-- No call between `x` and `y` has returned anything but `Ok`. -/
def NoBad (s : Net) (x y : Nat) : Prop :=
  ∀ n c, s.calls n = some c → c.between x y → ∀ r, c.caller = .over r → r = .ok

structure Agree (s : Net) (x y : Nat) (m : Option Kind) : Prop where
  kind : ∀ n c, s.calls n = some c → c.between x y → (∀ r, c.caller ≠ .over r) → m = some c.kind
  home : ∀ n c, s.calls n = some c → c.between x y → c.caller = .waiting → s.links c.a c.b = c.kind.value
  away : ∀ n c, s.calls n = some c → c.between x y → (∀ r, c.caller ≠ .over r) → c.request = .done →
    s.links c.b c.a = c.kind.value
  quiet : (∀ n c, s.calls n = some c → c.between x y → ∃ r, c.caller = .over r) →
    s.links x y = said m ∧ s.links y x = said m

theorem noBad_back {among : List Nat} {s : Net} (hs : Sound s) {op : Op} {x y : Nat}
    (h : NoBad (s.step among op) x y) : NoBad s x y := by
  intro n c hc hb r hr
  obtain ⟨d, hd⟩ := step_calls_mono (among := among) hs (op := op) hc
  rcases step_call hs hd with ⟨c', hc', hm⟩ | ⟨k, a, b, -, -, -, hno, -⟩
  · have : c' = c := Option.some.inj (hc'.symm.trans hc)
    subst this
    have h1 := h n d hd
    cases hm <;> simp_all [Call.between]
  · rw [hc] at hno; exact absurd hno (by simp)

theorem agree_run {among : List Nat} {x y : Nat} {ops : List Op} (hxy : x ≠ y) (hc : NoCross among x y ops)
    (hx : Op.drain x ∉ ops) (hy : Op.drain y ∉ ops) (hb : NoBad (run among ops) x y) :
    Agree (run among ops) x y (lastSaid x y ops) := by
  induction ops using snoc_induction with
  | nil =>
    exact ⟨by simp [run], by simp [run], by simp [run], fun _ => ⟨rfl, rfl⟩⟩
  | snoc l op ih =>
    have hs := sound_run among l
    rw [run_snoc] at hb ⊢
    have hbl := noBad_back hs hb
    have hxl : Op.drain x ∉ l := fun hh => hx (List.mem_append_left _ hh)
    have hyl : Op.drain y ∉ l := fun hh => hy (List.mem_append_left _ hh)
    have ih := ih (fun pre k a b hp => hc pre k a b (hp.trans (List.prefix_append _ _))) hxl hyl hbl
    have hax := alive_of_not_drained (among := among) hxl
    have hay := alive_of_not_drained (among := among) hyl
    -- the mode of the calls under way does not change
    have hmode : ∀ n c, (run among l).calls n = some c → c.between x y → (∀ r, c.caller ≠ .over r) →
        lastSaid x y (l ++ [op]) = some c.kind := by
      intro n c hn hbt ho
      by_cases hop : ∃ k a b, op = .begin k a b ∧ pair x y a b
      · obtain ⟨k, a, b, rfl, hp⟩ := hop
        rw [lastSaid_snoc hp, hc l k a b (List.prefix_refl _) hp n c hn hbt ho]
      · rw [lastSaid_snoc_other (fun k a b h1 h2 => hop ⟨k, a, b, h1, h2⟩)]
        exact ih.kind n c hn hbt ho
    -- links between the two change only to what the mode says
    have hlink : ∀ u v, pair x y u v → ((run among l).step among op).links u v ≠ (run among l).links u v →
        ∃ n c, (run among l).calls n = some c ∧ c.between x y ∧ (∀ r, c.caller ≠ .over r) ∧
          ((run among l).step among op).links u v = c.kind.value := by
      intro u v huv hne
      rcases step_links hne with ⟨n, c, hn, ha, hb', hcal, hv⟩ | ⟨n, c, hn, ha, hb', hreq, hv⟩ | hd | ⟨hd, -⟩
      · refine ⟨n, c, hn, ?_, ?_, hv⟩
        · simpa [Call.between, ha, hb'] using huv
        · intro r; rcases hcal with h | h <;> simp [h]
      · have hbt : c.between x y := by
          simp only [Call.between, ha, hb']; rcases huv with h | h <;> simp [pair, h.1, h.2]
        refine ⟨n, c, hn, hbt, ?_, hv⟩
        intro r hr
        have := hbl n c hn hbt r hr
        subst this
        have := hs.done n c hn hr
        rw [this] at hreq; exact absurd hreq (by simp)
      · subst hd; rcases huv with h | h <;> simp_all
      · have := hs.inbox _ _ hd
        rcases huv with h | h
        · rw [h.2] at this; exact absurd hay this
        · rw [h.2] at this; exact absurd hax this
    have hkeep : ∀ n c, (run among l).calls n = some c → c.between x y → (∀ r, c.caller ≠ .over r) →
        ∀ u v, pair x y u v → (run among l).links u v = c.kind.value →
          ((run among l).step among op).links u v = c.kind.value := by
      intro n c hn hbt ho u v huv hv
      by_cases hne : ((run among l).step among op).links u v = (run among l).links u v
      · rw [hne, hv]
      · obtain ⟨n', c', hn', hbt', ho', hv'⟩ := hlink u v huv hne
        have h1 := hmode n c hn hbt ho
        rw [hmode n' c' hn' hbt' ho'] at h1
        rw [hv', Option.some.inj h1]
    have hflip : ∀ {c : Call}, c.between x y → pair x y c.b c.a := by
      intro c h; rcases h with h | h <;> simp [pair, h.1, h.2]
    refine ⟨?_, ?_, ?_, ?_⟩
    · intro n d hd hbt ho
      rcases step_call hs hd with ⟨c, hn, hm⟩ | ⟨k, a, b, rfl, -, -, -, rfl⟩
      · have hbt' : c.between x y := by cases hm <;> exact hbt
        have ho' : ∀ r, c.caller ≠ .over r := by
          intro r hr
          have h2 := hs.none n c hn
          have h3 := hs.done n c hn
          have h4 := hbl n c hn hbt' r hr
          subst h4
          have h3 := h3 hr
          cases hm <;> simp_all
        have := hmode n c hn hbt' ho'
        cases hm <;> exact this
      · exact lastSaid_snoc hbt
    · intro n d hd hbt hw
      rcases step_call hs hd with ⟨c, hn, hm⟩ | ⟨k, a, b, rfl, -, -, -, rfl⟩
      · have hbt' : c.between x y := by cases hm <;> exact hbt
        have hold : c.caller = .waiting → ((run among l).step among op).links c.a c.b = c.kind.value := fun hw' =>
          hkeep n c hn hbt' (by rw [hw']; simp) _ _ hbt' (ih.home n c hn hbt' hw')
        cases hm <;> first | exact hold hw | assumption | simp_all
      · simp at hw
    · intro n d hd hbt ho hdone
      rcases step_call hs hd with ⟨c, hn, hm⟩ | ⟨k, a, b, rfl, -, -, -, rfl⟩
      · have hbt' : c.between x y := by cases hm <;> exact hbt
        have hold : (∀ r, c.caller ≠ .over r) → c.request = .done →
            ((run among l).step among op).links c.b c.a = c.kind.value := fun ho' hr =>
          hkeep n c hn hbt' ho' _ _ (hflip hbt') (ih.away n c hn hbt' ho' hr)
        have h2 := hs.none n c hn
        cases hm <;> first | exact hold ho hdone | assumption | simp_all
      · simp at hdone
    · intro hall
      -- was some call of the two under way before?
      by_cases hbefore : ∀ n c, (run among l).calls n = some c → c.between x y → ∃ r, c.caller = .over r
      · have hq := ih.quiet hbefore
        have hsame : ∀ u v, pair x y u v →
            ((run among l).step among op).links u v = (run among l).links u v := by
          intro u v huv
          apply Classical.byContradiction
          intro hne
          obtain ⟨n, c, hn, hbt, ho, -⟩ := hlink u v huv hne
          obtain ⟨r, hr⟩ := hbefore n c hn hbt
          exact ho r hr
        have hop : ∀ k a b, op = .begin k a b → ¬ pair x y a b := by
          rintro k a b rfl hp
          have hab : a ≠ b := by rcases hp with h | h <;> rw [h.1, h.2] <;> first | exact hxy | exact hxy.symm
          have : ((run among l).step among (.begin k a b)).calls (run among l).made
              = some { kind := k, a := a, b := b } := by simp [Net.step, hab, Net.setCall]
          obtain ⟨r, hr⟩ := hall _ _ this hp
          simp at hr
        rw [lastSaid_snoc_other hop, hsame x y (.inl ⟨rfl, rfl⟩), hsame y x (.inr ⟨rfl, rfl⟩)]
        exact hq
      · -- that call has just returned
        simp only [Classical.not_forall] at hbefore
        obtain ⟨n, c, hn, hbt, ho⟩ := hbefore
        have ho : ∀ r, c.caller ≠ .over r := fun r hr => ho ⟨r, hr⟩
        obtain ⟨d, hd⟩ := step_calls_mono (among := among) hs (op := op) hn
        have hm : Moved (run among l) ((run among l).step among op) n c d := by
          rcases step_call hs hd with ⟨c', hn', hm⟩ | ⟨k, a, b, -, -, -, hno, -⟩
          · rw [hn] at hn'; cases hn'; exact hm
          · rw [hn] at hno; simp at hno
        have hbt' : d.between x y := by cases hm <;> exact hbt
        obtain ⟨r, hr⟩ := hall n d hd hbt'
        have hrok := hb n d hd hbt' r hr
        subst hrok
        have hwd : c.caller = .waiting ∧ c.request = .done := by
          cases hm <;> simp_all
        have h1 := hkeep n c hn hbt ho _ _ hbt (ih.home n c hn hbt hwd.1)
        have h2 := hkeep n c hn hbt ho _ _ (hflip hbt) (ih.away n c hn hbt ho hwd.2)
        rw [hmode n c hn hbt ho, said_kind]
        rcases hbt with h | h
        · rw [h.1, h.2] at h1 h2; exact ⟨h1, h2⟩
        · rw [h.1, h.2] at h1 h2; exact ⟨h2, h1⟩

/-- **C90.** Two actors on different nodes, and any number of calls from both sides, under way at once, that link them or
unlink them. If links and unlinks are never under way together, all calls have returned `Ok` and neither actor has ended,
each of the two has the other among its links exactly if the last call that began was to link them. (`_partial`: without
the first condition it is false, `crossed_calls`; so it is if a call fails before, `late_request`.) -/
theorem both_sides_agree_partial {among : List Nat} {x y : Nat} {ops : List Op} (hxy : x ≠ y)
    (hc : NoCross among x y ops) (hx : Op.drain x ∉ ops) (hy : Op.drain y ∉ ops) (hok : AllOk (run among ops) x y) :
    ((run among ops).links x y = true ↔ lastSaid x y ops = some .link) ∧
      ((run among ops).links y x = true ↔ lastSaid x y ops = some .link) := by
  have hb : NoBad (run among ops) x y := by
    intro n c hn hbt r hr
    have := hok n c hn hbt
    rw [hr] at this
    injection this
  have h := (agree_run hxy hc hx hy hb).quiet (fun n c hn hbt => ⟨_, hok n c hn hbt⟩)
  rw [h.1, h.2]
  simp [said]

/-- A run for both_sides_agree_partial: 1 links 2 while 2 links 1, both at once, then 2 unlinks 1. -/
def together : List Op :=
  [.register 2, .begin .link 1 2, .begin .link 2 1, .next 0, .next 1, .next 1, .serve 1, .next 0, .serve 0, .serve 1, .next 1,
    .serve 0, .next 0, .begin .unlink 2 1, .next 2, .serve 2, .serve 2, .next 2]

theorem calls_below {among : List Nat} {ops : List Op} {P : Call → Prop} (h : ∀ n < (run among ops).made,
    ∀ c, (run among ops).calls n = some c → P c) : ∀ n c, (run among ops).calls n = some c → P c :=
  fun n c hc => h n ((sound_run among ops).few n c hc) c hc

instance (among : List Nat) (ops : List Op) (P : Call → Prop) [DecidablePred P] :
    Decidable (∀ n < (run among ops).made, ∀ c, (run among ops).calls n = some c → P c) :=
  have (n : Nat) : Decidable (∀ c, (run among ops).calls n = some c → P c) :=
    match h : (run among ops).calls n with
    | none => .isTrue (fun c hc => by simp at hc)
    | some d => if hd : P d then .isTrue (fun c hc => by cases hc; exact hd)
      else .isFalse (fun hh => hd (hh d rfl))
  Nat.decidableBallLT _ (fun n _ => ∀ c, (run among ops).calls n = some c → P c)

/-- Two links at once and an unlink after them, and the two actors are linked before the unlink and not after it. -/
example : NoCross [1, 2] 1 2 together ∧ Op.drain 1 ∉ together ∧ Op.drain 2 ∉ together ∧
    AllOk (run [1, 2] together) 1 2 ∧ lastSaid 1 2 together = some .unlink ∧
    (run [1, 2] (together.take 13)).links 1 2 = true ∧ (run [1, 2] (together.take 13)).links 2 1 = true ∧
    AllOk (run [1, 2] (together.take 13)) 1 2 ∧
    (run [1, 2] together).links 1 2 = false := by
  refine ⟨?_, by decide, by decide, ?_, by decide, by decide, by decide, ?_, by decide⟩
  · intro pre k a b hp hab
    have hpre : pre = together.take pre.length := by
      obtain ⟨r, hr⟩ := hp; rw [← hr]; simp
    have hlen : pre.length < together.length := by
      have := hp.length_le; simp only [List.length_append, List.length_cons, List.length_nil] at this; omega
    have hget : together[pre.length]? = some (.begin k a b) := by
      obtain ⟨r, hr⟩ := hp; rw [← hr]; simp
    generalize pre.length = m at hpre hlen hget
    subst hpre
    have hm : m < 18 := hlen
    revert hget
    have : m = 0 ∨ m = 1 ∨ m = 2 ∨ m = 3 ∨ m = 4 ∨ m = 5 ∨ m = 6 ∨ m = 7 ∨ m = 8 ∨ m = 9 ∨ m = 10 ∨ m = 11 ∨ m = 12 ∨
      m = 13 ∨ m = 14 ∨ m = 15 ∨ m = 16 ∨ m = 17 := by omega
    rcases this with h | h | h | h | h | h | h | h | h | h | h | h | h | h | h | h | h | h <;> subst h <;>
      simp only [together, List.getElem?_cons_zero, List.getElem?_cons_succ, reduceCtorEq, false_implies,
        Option.some.injEq, Op.begin.injEq] <;>
      rintro ⟨rfl, rfl, rfl⟩ <;> intro n c hc hb ho
    · simp [run, Net.step] at hc
    · have : c.kind = .link := calls_below (among := [1, 2]) (ops := together.take 2) (P := fun c => c.kind = .link)
        (by decide) n c hc
      exact this
    · have : c.caller = .over .ok := calls_below (among := [1, 2]) (ops := together.take 13)
        (P := fun c => c.caller = .over .ok) (by decide) n c hc
      exact absurd this (ho _)
  · intro n c hc _
    exact calls_below (P := fun c => c.caller = .over .ok) (by decide) n c hc
  · intro n c hc _
    exact calls_below (P := fun c => c.caller = .over .ok) (by decide) n c hc

/-! ## Links stay as they are -/

/-- The operation begins no call between `x` and `y` and ends neither. -/
def Aside (x y : Nat) (op : Op) : Prop := (∀ k a b, op = .begin k a b → ¬ pair x y a b) ∧ op ≠ .drain x ∧ op ≠ .drain y

theorem settled_step {among : List Nat} {s : Net} (hs : Sound s) {x y : Nat} {op : Op} (h : Settled s x y)
    (ha : ∀ k a b, op = .begin k a b → ¬ pair x y a b) : Settled (s.step among op) x y := by
  intro n d hd hbt
  rcases step_call hs hd with ⟨c, hn, hm⟩ | ⟨k, a, b, rfl, -, -, -, rfl⟩
  · have hbt' : c.between x y := by cases hm <;> exact hbt
    obtain ⟨⟨r, hr⟩, h1, h2⟩ := h n c hn hbt'
    cases hm <;> simp_all
  · exact absurd hbt (ha k a b rfl)

theorem settled_links {among : List Nat} {s : Net} {x y : Nat} {op : Op} (h : Settled s x y)
    (hin : y ∉ s.inbox x) (ha : op ≠ .drain x) : (s.step among op).links x y = s.links x y := by
  apply Classical.byContradiction
  intro hne
  rcases step_links hne with ⟨n, c, hn, ha', hb', hcal, hv⟩ | ⟨n, c, hn, ha', hb', hreq, hv⟩ | hd | ⟨hd, -⟩
  · obtain ⟨⟨r, hr⟩, -⟩ := h n c hn (.inl ⟨ha', hb'⟩)
    rw [hr] at hcal; simp at hcal
  · exact (h n c hn (.inr ⟨ha', hb'⟩)).2.2 hreq
  · exact ha hd
  · exact hin hd

theorem settled_symm {s : Net} {x y : Nat} (h : Settled s x y) : Settled s y x :=
  fun n c hc hb => h n c hc (hb.symm)

theorem run_append_snoc (among : List Nat) (ops more : List Op) (op : Op) :
    run among (ops ++ (more ++ [op])) = (run among (ops ++ more)).step among op := by
  rw [← List.append_assoc, run_snoc]

theorem links_stay {among : List Nat} {ops more : List Op} {x y : Nat} (hset : Settled (run among ops) x y)
    (hx : Op.drain x ∉ ops) (hy : Op.drain y ∉ ops) (ha : ∀ op ∈ more, Aside x y op) :
    Settled (run among (ops ++ more)) x y ∧ (run among (ops ++ more)).links x y = (run among ops).links x y ∧
      (run among (ops ++ more)).links y x = (run among ops).links y x := by
  induction more using snoc_induction with
  | nil => simpa using hset
  | snoc l op ih =>
    have hop := ha op (by simp)
    obtain ⟨h1, h2, h3⟩ := ih (fun o ho => ha o (List.mem_append_left _ ho))
    have hs := sound_run among (ops ++ l)
    have hax : (run among (ops ++ l)).life x = .alive := alive_of_not_drained (by
      simp only [List.mem_append, not_or]
      exact ⟨hx, fun hh => (ha _ (List.mem_append_left _ hh)).2.1 rfl⟩)
    have hay : (run among (ops ++ l)).life y = .alive := alive_of_not_drained (by
      simp only [List.mem_append, not_or]
      exact ⟨hy, fun hh => (ha _ (List.mem_append_left _ hh)).2.2 rfl⟩)
    rw [run_append_snoc]
    refine ⟨settled_step hs h1 hop.1, ?_, ?_⟩
    · rw [settled_links h1 (fun hi => hs.inbox _ _ hi hay) hop.2.1, h2]
    · rw [settled_links (settled_symm h1) (fun hi => hs.inbox _ _ hi hax) hop.2.2, h3]

/-- 1 links 2 while 2 unlinks 1: each writes at home, then the two requests pass each other. -/
def crossing (x y : Nat) : List Op :=
  [.register x, .register y, .begin .link x y, .next 0, .next 0, .begin .unlink y x, .next 1, .serve 1, .serve 1, .serve 0,
    .serve 0, .next 0, .next 1]

theorem crossing_calls (among : List Nat) {x y : Nat} (hxy : x ≠ y) (n : Nat) (c : Call)
    (h : (run among (crossing x y)).calls n = some c) : c.caller = .over .ok ∧ c.request = .done := by
  have hyx := Ne.symm hxy
  simp [run, crossing, Net.step, Net.setCall, Net.setLink, Net.next, Net.serve, hxy, hyx] at h
  split at h
  · cases h; simp
  · split at h
    · cases h; simp
    · simp at h

/-- **C90, what the code does instead.** `x` links `y` while `y` unlinks `x`. Both calls return `Ok`, no connection is lost and
nobody ends, and `y` has `x` among its links while `x` does not have `y`. It stays so until one of the two ends or they are
linked or unlinked again, whatever else happens. -/
theorem crossed_calls (among : List Nat) {x y : Nat} (hxy : x ≠ y) :
    AllOk (run among (crossing x y)) x y ∧ (∀ n, Op.fail n ∉ crossing x y ∧ Op.lose n ∉ crossing x y) ∧
      ∀ more, (∀ op ∈ more, Aside x y op) →
        (run among (crossing x y ++ more)).links x y = false ∧ (run among (crossing x y ++ more)).links y x = true := by
  have hyx := Ne.symm hxy
  refine ⟨fun n c hc _ => (crossing_calls among hxy n c hc).1, by simp [crossing], fun more hm => ?_⟩
  have hset : Settled (run among (crossing x y)) x y := fun n c hc _ => by
    have := crossing_calls among hxy n c hc
    exact ⟨⟨_, this.1⟩, by simp [this.2], by simp [this.2]⟩
  obtain ⟨-, h2, h3⟩ := links_stay (more := more) hset (by simp [crossing]) (by simp [crossing]) hm
  rw [h2, h3]
  simp [run, crossing, Net.step, Net.setCall, Net.setLink, Net.next, Net.serve, Kind.value, hxy, hyx]

example : (run [1, 2] (crossing 1 2 ++ [.register 3, .begin .link 1 3, .next 2])).links 2 1 = true :=
  ((crossed_calls [1, 2] (by decide : (1 : Nat) ≠ 2)).2.2 _ (by
    intro op h
    simp only [List.mem_cons, List.not_mem_nil, or_false] at h
    rcases h with rfl | rfl | rfl <;> simp [Aside]
    decide)).2

/-- 1 links 2, the call runs into a timeout while the request is still under way; then 1 unlinks 2, and after that the old
request arrives. -/
def afterTimeout (x y : Nat) : List Op :=
  [.register x, .register y, .begin .link x y, .next 0, .next 0, .fail 0, .begin .unlink x y, .next 1, .serve 1, .serve 1,
    .next 1, .serve 0, .serve 0]

/-- **C90, what the code does instead.** One caller makes two calls, the second after the first has returned: `link_remote`,
which fails with a timeout, and `unlink_remote`, which returns `Ok`. The request of the first is served after that of the
second, and `y` has `x` among its links for good, though the last word was to unlink them. -/
theorem late_request (among : List Nat) {x y : Nat} (hxy : x ≠ y) :
    NoCross among x y (afterTimeout x y) ∧ lastSaid x y (afterTimeout x y) = some .unlink ∧
      (∃ c, (run among (afterTimeout x y)).calls 1 = some c ∧ c.kind = .unlink ∧ c.caller = .over .ok) ∧
      ∀ more, (∀ op ∈ more, Aside x y op) →
        (run among (afterTimeout x y ++ more)).links x y = false ∧
          (run among (afterTimeout x y ++ more)).links y x = true := by
  have hyx := Ne.symm hxy
  refine ⟨?_, ?_, ?_, fun more hm => ?_⟩
  · intro pre k a b hp hab
    have hpre : pre = (afterTimeout x y).take pre.length := by
      obtain ⟨r, hr⟩ := hp; rw [← hr]; simp
    have hget : (afterTimeout x y)[pre.length]? = some (.begin k a b) := by
      obtain ⟨r, hr⟩ := hp; rw [← hr]; simp
    have hlen : pre.length < 13 := by
      have := hp.length_le
      simp only [List.length_append, List.length_cons, List.length_nil, afterTimeout] at this
      omega
    generalize pre.length = m at hpre hlen hget
    subst hpre
    revert hget
    have : m = 0 ∨ m = 1 ∨ m = 2 ∨ m = 3 ∨ m = 4 ∨ m = 5 ∨ m = 6 ∨ m = 7 ∨ m = 8 ∨ m = 9 ∨ m = 10 ∨ m = 11 ∨ m = 12 := by
      omega
    rcases this with h | h | h | h | h | h | h | h | h | h | h | h | h <;> subst h <;>
      simp only [afterTimeout, List.getElem?_cons_zero, List.getElem?_cons_succ, reduceCtorEq, false_implies,
        Option.some.injEq, Op.begin.injEq] <;>
      rintro ⟨rfl, rfl, rfl⟩ <;> intro n c hc hb ho
    · simp [run, Net.step] at hc
    · simp [run, Net.step, Net.setCall, Net.setLink, Net.next, hxy] at hc
      split at hc
      · cases hc; exact absurd rfl (ho .network)
      · simp at hc
  · simp [afterTimeout, lastSaid, pair]
  · simp [run, afterTimeout, Net.step, Net.setCall, Net.setLink, Net.next, Net.serve, Kind.value, hxy, hyx]
  · have hset : Settled (run among (afterTimeout x y)) x y := fun n c hc _ => by
      simp [run, afterTimeout, Net.step, Net.setCall, Net.setLink, Net.next, Net.serve, hxy, hyx] at hc
      split at hc
      · cases hc; simp
      · split at hc
        · cases hc; simp
        · simp at hc
    obtain ⟨-, h2, h3⟩ := links_stay (more := more) hset (by simp [afterTimeout]) (by simp [afterTimeout]) hm
    rw [h2, h3]
    simp [run, afterTimeout, Net.step, Net.setCall, Net.setLink, Net.next, Net.serve, Kind.value, hxy, hyx]

example : (run [1, 2] (afterTimeout 1 2)).links 2 1 = true := by
  have := (late_request [1, 2] (by decide : (1 : Nat) ≠ 2)).2.2.2 [] (by simp)
  simpa using this.2

/-! ## Who is told of a death -/

theorem step_told {among : List Nat} {s : Net} {op : Op} {x y : Nat} (h : x ∈ (s.step among op).told y) :
    x ∈ s.told y ∨ (x, y) ∈ s.flight := by
  cases op <;> simp only [Net.step, Net.setCall, Net.setLink, Net.next, Net.serve] at h <;> repeat' split at h
  all_goals first | exact .inl h | skip
  rename_i i u v hf hl
  simp only at h
  split at h
  · rename_i hx
    subst hx
    simp only [List.mem_append, List.mem_singleton] at h
    rcases h with h | h
    · exact .inl h
    · subst h; exact .inr (List.mem_of_getElem? hf)
  · exact .inl h

/-- What is under way or in the mailbox about `x`'s death. -/
def news (s : Net) (x y : Nat) : Nat := s.flight.count (x, y) + (s.told y).count x

theorem count_eraseIdx_le (l : List (Nat × Nat)) (i : Nat) (p : Nat × Nat) : (l.eraseIdx i).count p ≤ l.count p :=
  (List.eraseIdx_sublist l i).count_le p

theorem count_eraseIdx_self {l : List (Nat × Nat)} {i : Nat} {p : Nat × Nat} (h : l[i]? = some p) (q : Nat × Nat) :
    (if p = q then 1 else 0) + (l.eraseIdx i).count q = l.count q := by
  induction l generalizing i with
  | nil => simp at h
  | cons a l ih =>
    cases i with
    | zero =>
      simp only [List.getElem?_cons_zero, Option.some.injEq] at h
      subst h
      simp only [List.eraseIdx_cons_zero, List.count_cons, beq_iff_eq]
      omega
    | succ i =>
      have := ih (i := i) (by simpa using h)
      simp only [List.eraseIdx_cons_succ, List.count_cons]
      omega

theorem count_notices {among : List Nat} (hn : among.Nodup) (f : Nat → Bool) (x u v : Nat) :
    (((among.filter f).map (fun y => (x, y))).count (u, v)) ≤ if u = x then 1 else 0 := by
  split
  · rename_i h
    subst h
    have : ((among.filter f).map (fun y => (u, y))).Nodup := by
      show List.Pairwise (· ≠ ·) _
      rw [List.pairwise_map]
      exact (hn.filter f).imp (fun h hh => h (Prod.mk.inj hh).2)
    exact List.nodup_iff_count.mp this _
  · rename_i h
    rw [List.count_eq_zero.mpr]
    · exact Nat.le_refl _
    · simp only [List.mem_map, not_exists, not_and]
      intro z _ hz
      exact h (Prod.mk.inj hz).1.symm

theorem step_quiet {among : List Nat} {s : Net} {op : Op} (h1 : ∀ z, op ≠ .drain z) (h2 : ∀ i, op ≠ .deliver i)
    (h3 : ∀ i, op ≠ .drop i) (h4 : ∀ z, op ≠ .leave z) :
    (s.step among op).flight = s.flight ∧ (s.step among op).told = s.told ∧ (s.step among op).life = s.life := by
  cases op <;> simp only [Net.step, Net.setCall, Net.setLink, Net.next, Net.serve] <;> repeat' split
  all_goals first | exact ⟨rfl, rfl, rfl⟩ | simp_all

theorem news_step {among : List Nat} (hn : among.Nodup) {s : Net} {op : Op} {x y : Nat}
    (h : news s x y ≤ if s.life x = .alive then 0 else 1) :
    news (s.step among op) x y ≤ if (s.step among op).life x = .alive then 0 else 1 := by
  have quiet : (s.step among op).flight = s.flight ∧ (s.step among op).told = s.told ∧ (s.step among op).life = s.life →
      news (s.step among op) x y ≤ if (s.step among op).life x = .alive then 0 else 1 := by
    rintro ⟨h1, h2, h3⟩
    simpa only [news, h1, h2, h3] using h
  have fewer : news (s.step among op) x y ≤ news s x y → (s.step among op).life = s.life →
      news (s.step among op) x y ≤ if (s.step among op).life x = .alive then 0 else 1 := by
    intro h1 h2
    rw [h2]; exact Nat.le_trans h1 h
  cases op with
  | drain z =>
    by_cases hz : s.life z = .alive
    · have e1 : (s.step among (.drain z)).flight = s.flight ++ (among.filter (fun y => s.links z y)).map (fun y => (z, y)) := by
        simp [Net.step, hz]
      have e2 : (s.step among (.drain z)).told = s.told := by simp [Net.step, hz]
      have e3 : (s.step among (.drain z)).life x = if x = z then .drained else s.life x := by simp [Net.step, hz]
      have h1 := count_notices hn (fun y => s.links z y) z x y
      simp only [news, e1, e2, e3, List.count_append] at h ⊢
      by_cases hxz : x = z
      · subst hxz
        simp only [hz, if_true] at h h1 ⊢
        simp
        omega
      · simp only [if_neg hxz] at h1 ⊢
        omega
    · exact quiet (by simp [Net.step, hz])
  | deliver i =>
    cases hf : s.flight[i]? with
    | none => exact quiet (by simp [Net.step, hf])
    | some p =>
      obtain ⟨u, v⟩ := p
      have hc := count_eraseIdx_self hf (x, y)
      by_cases hl : s.listed v = true ∧ s.life v = .alive
      · refine fewer ?_ (by simp [Net.step, hf, hl])
        simp only [Net.step, hf, if_pos hl, news]
        by_cases hp : (u, v) = (x, y)
        · cases hp
          simp only [if_true] at hc ⊢
          simp only [List.count_append, List.count_singleton, beq_self_eq_true, if_true]
          omega
        · rw [if_neg hp] at hc
          split
          · rename_i hy
            subst hy
            have hu : u ≠ x := fun hh => hp (by rw [hh])
            simp only [List.count_append, List.count_singleton, beq_iff_eq, if_neg hu]
            omega
          · omega
      · refine fewer ?_ (by simp [Net.step, hf, hl])
        simp only [Net.step, hf, if_neg hl, news]
        omega
  | drop i =>
    refine fewer ?_ rfl
    have := count_eraseIdx_le s.flight i (x, y)
    simp only [Net.step, news]
    omega
  | leave z =>
    by_cases hz : s.life z = .drained ∧ (∀ p ∈ s.flight, p.1 ≠ z)
    · have e1 : (s.step among (.leave z)).flight = s.flight := by simp only [Net.step, if_pos hz]
      have e2 : (s.step among (.leave z)).told = s.told := by simp only [Net.step, if_pos hz]
      have e3 : (s.step among (.leave z)).life x = if x = z then .gone else s.life x := by simp only [Net.step, if_pos hz]
      simp only [news, e1, e2, e3] at h ⊢
      by_cases hxz : x = z
      · subst hxz; rw [hz.1] at h; simpa using h
      · simpa [hxz] using h
    · exact quiet (by simp only [Net.step, if_neg hz]; trivial)
  | _ => exact quiet (step_quiet (by simp) (by simp) (by simp) (by simp))

/-- **C90.** Whatever happens, an actor is told at most once of the death of an actor on another node, and only if it was
among that actor's links at the moment that one ended. -/
theorem told_once_if_linked {among : List Nat} (hn : among.Nodup) (ops : List Op) (x y : Nat) :
    ((run among ops).told y).count x ≤ 1 ∧
      (x ∈ (run among ops).told y → ∃ pre, pre ++ [Op.drain x] <+: ops ∧ (run among pre).life x = .alive ∧
        (run among pre).links x y = true) := by
  constructor
  · suffices h : news (run among ops) x y ≤ if (run among ops).life x = .alive then 0 else 1 by
      simp only [news] at h
      split at h <;> omega
    induction ops using snoc_induction with
    | nil => simp [run, news]
    | snoc l op ih => rw [run_snoc]; exact news_step hn ih
  · have h : ∀ ops, (x, y) ∈ (run among ops).flight ∨ x ∈ (run among ops).told y →
        ∃ pre, pre ++ [Op.drain x] <+: ops ∧ (run among pre).life x = .alive ∧ (run among pre).links x y = true := by
      intro ops
      induction ops using snoc_induction with
      | nil => simp [run]
      | snoc l op ih =>
        rw [run_snoc]
        intro h
        have up : (∃ pre, pre ++ [Op.drain x] <+: l ∧ (run among pre).life x = .alive ∧
            (run among pre).links x y = true) → ∃ pre, pre ++ [Op.drain x] <+: l ++ [op] ∧
            (run among pre).life x = .alive ∧ (run among pre).links x y = true := by
          rintro ⟨pre, hp, h1, h2⟩
          exact ⟨pre, hp.trans (List.prefix_append _ _), h1, h2⟩
        rcases h with h | h
        · rcases step_flight h with h | ⟨rfl, h1, h2, -⟩
          · exact up (ih (.inl h))
          · exact ⟨l, List.prefix_refl _, h1, h2⟩
        · rcases step_told h with h | h
          · exact up (ih (.inr h))
          · exact up (ih (.inl h))
    exact fun hx => h ops (.inr hx)

/-- 1 and 2 are linked and 1 ends. -/
def linkedDeath : List Op :=
  [.register 1, .register 2, .begin .link 1 2, .next 0, .next 0, .serve 0, .serve 0, .next 0, .drain 1, .deliver 0, .leave 1]

example : ((run [1, 2] linkedDeath).told 2).count 1 = 1 ∧ (run [1, 2] linkedDeath).life 1 = .gone := by decide

theorem listed_death_told {among : List Nat} {pre more : List Op} {x y : Nat} (hxy : x ≠ y) (hy : y ∈ among)
    (hlink : (run among pre).links x y = true) (halive : (run among pre).life x = .alive)
    (hlist : (run among pre).listed y = true) (hno : Op.drain y ∉ pre ++ more) (hdrop : ∀ i, Op.drop i ∉ more)
    (hgone : (run among (pre ++ .drain x :: more)).life x = .gone) :
    x ∈ (run among (pre ++ .drain x :: more)).told y := by
  have key : ∀ more, Op.drain y ∉ pre ++ more → (∀ i, Op.drop i ∉ more) →
      (run among (pre ++ .drain x :: more)).listed y = true ∧
      ((x, y) ∈ (run among (pre ++ .drain x :: more)).flight ∨ x ∈ (run among (pre ++ .drain x :: more)).told y) ∧
      ((run among (pre ++ .drain x :: more)).life x = .gone →
        ∀ p ∈ (run among (pre ++ .drain x :: more)).flight, p.1 ≠ x) := by
    intro more
    induction more using snoc_induction with
    | nil =>
      intro _ _
      rw [run_snoc]
      refine ⟨?_, .inl ?_, ?_⟩
      · simpa [Net.step, halive] using hlist
      · simp only [Net.step, halive, if_true, List.mem_append, List.mem_map, List.mem_filter]
        exact .inr ⟨y, ⟨hy, hlink⟩, rfl⟩
      · simp [Net.step, halive]
    | snoc l op ih =>
      intro hno hdrop
      have e : pre ++ Op.drain x :: (l ++ [op]) = (pre ++ Op.drain x :: l) ++ [op] := by simp
      rw [e, run_snoc]
      have hno' : Op.drain y ∉ pre ++ l := fun hh => hno (by
        simp only [List.mem_append] at hh ⊢; rcases hh with h | h <;> simp [h])
      obtain ⟨h1, h2, h3⟩ := ih hno' (fun i hh => hdrop i (List.mem_append_left _ hh))
      have hay : (run among (pre ++ Op.drain x :: l)).life y = .alive := alive_of_not_drained (by
        simp only [List.mem_append, List.mem_cons, not_or] at hno' ⊢
        exact ⟨hno'.1, by simp [Ne.symm hxy], hno'.2⟩)
      have hdead : (run among (pre ++ Op.drain x :: l)).life x ≠ .alive := by
        have : ∀ l s, Net.life s x ≠ .alive → (List.foldl (Net.step among) s l).life x ≠ .alive := by
          intro l
          induction l with
          | nil => exact fun s h => h
          | cons o l ih => exact fun s h => ih _ (step_life h)
        have e2 : run among (pre ++ Op.drain x :: l) = List.foldl (Net.step among) ((run among pre).step among (.drain x)) l := by
          simp [run]
        rw [e2]
        exact this l _ (by simp [Net.step, halive])
      generalize run among (pre ++ Op.drain x :: l) = s at h1 h2 h3 hay hdead ⊢
      have hnd : ∀ i, op ≠ .drop i := fun i hh => hdrop i (by simp [hh])
      refine ⟨?_, ?_, ?_⟩
      · cases op <;> simp only [Net.step, Net.setCall, Net.setLink, Net.next, Net.serve] <;> repeat' split
        all_goals first | exact h1 | simp [h1] | skip
        rename_i z hz
        have : y ≠ z := fun hh => by subst hh; rw [hay] at hz; simp at hz
        simp [this]
      · cases op with
        | drop i => exact absurd rfl (hnd i)
        | drain z =>
          simp only [Net.step]; split
          · simp only [List.mem_append]; rcases h2 with h | h
            · exact .inl (.inl h)
            · exact .inr h
          · exact h2
        | deliver i =>
          simp only [Net.step]
          split
          · exact h2
          · rename_i u v hf
            by_cases hp : (u, v) = (x, y)
            · cases hp
              rw [if_pos ⟨h1, hay⟩]
              exact .inr (by simp)
            · rcases h2 with h | h
              · have hc := count_eraseIdx_self hf (x, y)
                rw [if_neg hp] at hc
                have hpos : 0 < s.flight.count (x, y) := List.count_pos_iff.mpr h
                have : (x, y) ∈ s.flight.eraseIdx i := List.count_pos_iff.mp (by omega)
                split <;> exact .inl this
              · split
                · refine .inr ?_; simp only; split <;> simp [h]
                · exact .inr h
        | leave z => simp only [Net.step]; split <;> exact h2
        | «begin» k a b => simp only [Net.step, Net.setCall]; split <;> exact h2
        | next n => simp only [Net.step, Net.next, Net.setCall, Net.setLink]; repeat' split
                    all_goals exact h2
        | serve n => simp only [Net.step, Net.serve, Net.setCall, Net.setLink]; repeat' split
                     all_goals exact h2
        | lose n => simp only [Net.step, Net.setCall]; repeat' split
                    all_goals exact h2
        | fail n => simp only [Net.step, Net.setCall]; repeat' split
                    all_goals exact h2
        | register z => exact h2
        | hear z => simp only [Net.step, Net.setLink]; split <;> exact h2
      · intro hg p hp hpx
        rcases step_flight hp with h | ⟨rfl, hl, -⟩
        · by_cases hgs : s.life x = .gone
          · exact h3 hgs p h hpx
          · cases op <;> simp only [Net.step, Net.setCall, Net.setLink, Net.next, Net.serve] at hg <;> repeat' split at hg
            all_goals first | exact hgs hg | skip
            · simp only at hg
              split at hg
              · simp at hg
              · exact hgs hg
            · rename_i z hz
              simp only at hg
              split at hg
              · rename_i hxz; exact hz.2 p h (hpx.trans hxz)
              · exact hgs hg
        · rw [hpx] at hl; exact hdead hl
  obtain ⟨-, h2, h3⟩ := key more hno hdrop
  rcases h2 with h | h
  · exact absurd rfl (h3 hgone _ h)
  · exact h

theorem step_listed {among : List Nat} {s : Net} {op : Op} {x : Nat} (h : s.listed x = true)
    (hl : (s.step among op).life x = .alive) : (s.step among op).listed x = true := by
  have hal : s.life x = .alive := Classical.byContradiction fun hh => step_life (op := op) hh hl
  cases op <;> simp only [Net.step, Net.setCall, Net.setLink, Net.next, Net.serve] <;> repeat' split
  all_goals first | exact h | simp [h] | skip
  rename_i z hz
  have : x ≠ z := fun hh => by subst hh; rw [hal] at hz; simp at hz
  simp [this]

/-- Whoever lives and has links, or is about to, is in the registry. -/
structure Reach (s : Net) : Prop where
  own : ∀ n c, s.calls n = some c → c.caller = .listed → s.life c.a = .alive → s.listed c.a = true
  other : ∀ n c, s.calls n = some c → c.request = .found → s.life c.b = .alive → s.listed c.b = true
  links : ∀ x y, s.links x y = true → s.life x = .alive → s.listed x = true

theorem reach_run (among : List Nat) (ops : List Op) : Reach (run among ops) := by
  induction ops using snoc_induction with
  | nil => exact ⟨by simp [run], by simp [run], by simp [run]⟩
  | snoc l op ih =>
    have hs := sound_run among l
    rw [run_snoc]
    generalize run among l = s at hs ih ⊢
    have alive : ∀ {x}, (s.step among op).life x = .alive → s.life x = .alive := fun {x} h =>
      Classical.byContradiction fun hh => step_life (op := op) hh h
    refine ⟨?_, ?_, ?_⟩
    · intro n d hd hcal hl
      rcases step_call hs hd with ⟨c, hn, hm⟩ | ⟨k, a, b, rfl, -, -, -, rfl⟩
      · have keep : c.caller = .listed → (s.step among op).life c.a = .alive → (s.step among op).listed c.a = true :=
          fun h1 h2 => step_listed (ih.own n c hn h1 (alive h2)) h2
        by_cases hold : c.caller = .listed
        · cases hm <;> exact keep hold hl
        · -- the step in which it lists itself
          have hne : d.caller ≠ c.caller := by rw [hcal]; exact fun hh => hold hh.symm
          have hda : d.a = c.a := by cases hm <;> rfl
          have hbeg : c.caller = .begun ∧ c.kind = .link := by
            cases hm <;> simp_all
          cases op with
          | next m =>
            by_cases hmn : m = n
            · subst hmn
              rw [hda]
              simp [Net.step, hn, Net.next, hbeg]
            · have : (s.step among (.next m)).calls n = s.calls n := by
                simp only [Net.step]
                split
                · rfl
                · simp only [Net.next]
                  repeat' split
                  all_goals simp [Net.setCall, Net.setLink, Ne.symm hmn]
              rw [this, hn] at hd
              cases hd
              exact absurd rfl hne
          | _ =>
            exfalso
            simp only [Net.step, Net.setCall, Net.setLink, Net.serve] at hd
            repeat' split at hd
            all_goals first
              | (rw [hn] at hd; cases hd; exact hne rfl)
              | skip
            all_goals
              simp only at hd
              split at hd
              · rename_i hh
                subst hh
                simp_all
                try (subst hd; simp_all)
              · rw [hn] at hd; cases hd; exact hne rfl
      · simp at hcal
    · intro n d hd hreq hl
      rcases step_call hs hd with ⟨c, hn, hm⟩ | ⟨k, a, b, rfl, -, -, -, rfl⟩
      · have keep : c.request = .found → (s.step among op).life c.b = .alive → (s.step among op).listed c.b = true :=
          fun h1 h2 => step_listed (ih.other n c hn h1 (alive h2)) h2
        by_cases hold : c.request = .found
        · cases hm <;> exact keep hold hl
        · have hne : d.request ≠ c.request := by rw [hreq]; exact fun hh => hold hh.symm
          have hdb : d.b = c.b := by cases hm <;> rfl
          have hsent : c.request = .sent := by cases hm <;> simp_all
          rw [hdb] at hl ⊢
          refine step_listed ?_ hl
          cases op with
          | serve m =>
            by_cases hmn : m = n
            · subst hmn
              simp only [Net.step, hn, Net.serve, hsent, Net.setCall, if_true] at hd
              cases hd
              simp only at hreq
              split at hreq
              · assumption
              · simp at hreq
            · have : (s.step among (.serve m)).calls n = s.calls n := by
                simp only [Net.step]
                split
                · rfl
                · simp only [Net.serve]
                  repeat' split
                  all_goals simp [Net.setCall, Net.setLink, Ne.symm hmn]
              rw [this, hn] at hd
              cases hd
              exact absurd rfl hne
          | _ =>
            exfalso
            simp only [Net.step, Net.setCall, Net.setLink, Net.next] at hd
            repeat' split at hd
            all_goals first
              | (rw [hn] at hd; cases hd; exact hne rfl)
              | skip
            all_goals
              simp only at hd
              split at hd
              · rename_i hh
                subst hh
                simp_all
                try (subst hd; simp_all)
              · rw [hn] at hd; cases hd; exact hne rfl
      · simp at hreq
    · intro x y hlink hl
      by_cases hsame : (s.step among op).links x y = s.links x y
      · exact step_listed (ih.links x y (hsame ▸ hlink) (alive hl)) hl
      · rcases step_links hsame with ⟨n, c, hn, ha, hb, hcal, hv⟩ | ⟨n, c, hn, ha, hb, hreq, hv⟩ | rfl | ⟨-, rfl⟩
        · rcases hcal with h | h
          · -- only an unlink writes to the links first
            rw [hv, h.2] at hlink; simp [Kind.value] at hlink
          · rw [← ha]; exact step_listed (ih.own n c hn h (alive (ha ▸ hl))) (ha ▸ hl)
        · rw [← hb]; exact step_listed (ih.other n c hn hreq (alive (hb ▸ hl))) (hb ▸ hl)
        · by_cases hx : s.life x = .alive
          · simp [Net.step, hx] at hlink
          · simp [Net.step, hx] at hsame
        · exfalso
          have hle : s.links x y = true := by
            simp only [Net.step] at hlink
            split at hlink
            · simp only [Net.setLink] at hlink; split at hlink
              · simp at hlink
              · exact hlink
            · exact hlink
          exact hsame (by rw [hlink, hle])

/-- **C90.** An actor `y` lives and is among the links of `x` on another node when `x` ends. If `y` has `x` among its links too,
or is registered, it has been told of it by the time `x` has left the registry, if no notice gets lost. (`_partial`: that
`x` gets there, and that no notice is lost, is not the code's to say; a lost notice is not sent again.) -/
theorem linked_death_told_partial {among : List Nat} {pre more : List Op} {x y : Nat} (hxy : x ≠ y) (hy : y ∈ among)
    (hlink : (run among pre).links x y = true) (halive : (run among pre).life x = .alive)
    (hback : (run among pre).links y x = true ∨ (run among pre).listed y = true)
    (hno : Op.drain y ∉ pre ++ more) (hdrop : ∀ i, Op.drop i ∉ more)
    (hgone : (run among (pre ++ .drain x :: more)).life x = .gone) :
    x ∈ (run among (pre ++ .drain x :: more)).told y := by
  refine listed_death_told hxy hy hlink halive ?_ hno hdrop hgone
  rcases hback with h | h
  · exact (reach_run among pre).links y x h (alive_of_not_drained fun hh => hno (List.mem_append_left _ hh))
  · exact h

example : 1 ∈ (run [1, 2] linkedDeath).told 2 ∧ (run [1, 2] (linkedDeath.take 8)).links 2 1 = true :=
  ⟨linked_death_told_partial (pre := linkedDeath.take 8) (more := [.deliver 0, .leave 1]) (by decide) (by decide) (by decide)
    (by decide) (.inl (by decide)) (by decide) (by simp) (by decide), by decide⟩

/-- 2 never registered; it has linked 1, and hears of the end of 1. -/
def callerHears : List Op :=
  [.register 1, .begin .link 2 1, .next 0, .next 0, .serve 0, .serve 0, .next 0, .drain 1, .deliver 0, .leave 1]

example : 1 ∈ (run [1, 2] callerHears).told 2 :=
  linked_death_told_partial (pre := callerHears.take 7) (more := [.deliver 0, .leave 1]) (by decide) (by decide) (by decide)
    (by decide) (.inl (by decide)) (by decide) (by simp) (by decide)

theorem never_told {among : List Nat} {ops more : List Op} {x y : Nat} (hd : (run among ops).life x ≠ .alive)
    (hf : (x, y) ∉ (run among ops).flight) (ht : x ∉ (run among ops).told y) :
    x ∉ (run among (ops ++ more)).told y := by
  suffices (run among (ops ++ more)).life x ≠ .alive ∧ (x, y) ∉ (run among (ops ++ more)).flight ∧
      x ∉ (run among (ops ++ more)).told y from this.2.2
  induction more using snoc_induction with
  | nil => simpa using ⟨hd, hf, ht⟩
  | snoc l op ih =>
    rw [run_append_snoc]
    obtain ⟨h1, h2, h3⟩ := ih
    refine ⟨step_life h1, fun h => ?_, fun h => ?_⟩
    · rcases step_flight h with h | ⟨-, hl, -⟩
      · exact h2 h
      · exact h1 hl
    · rcases step_told h with h | h
      · exact h3 h
      · exact h2 h

theorem news_run {among : List Nat} (hn : among.Nodup) (ops : List Op) (x y : Nat) :
    news (run among ops) x y ≤ if (run among ops).life x = .alive then 0 else 1 := by
  induction ops using snoc_induction with
  | nil => simp [run, news]
  | snoc l op ih => rw [run_snoc]; exact news_step hn ih

/-- **C57, what the code does instead**, and **C90**: a notice of a death that gets lost, or that arrives where the actor is
not registered, is not sent again: the actor, although it was linked, is never told of that death, whatever happens. -/
theorem lost_notice_never_told {among : List Nat} (hn : among.Nodup) (ops : List Op) {x y i : Nat}
    (hi : (run among ops).flight[i]? = some (x, y)) (op : Op)
    (hop : op = .drop i ∨ op = .deliver i ∧ (run among ops).listed y = false) (more : List Op) :
    x ∉ (run among (ops ++ op :: more)).told y := by
  have hmem : (x, y) ∈ (run among ops).flight := List.mem_of_getElem? hi
  have hlife := (sound_run among ops).flight _ hmem
  have hnews := news_run hn ops x y
  simp only [news, if_neg hlife] at hnews
  have hpos : 0 < (run among ops).flight.count (x, y) := List.count_pos_iff.2 hmem
  have hc := count_eraseIdx_self hi (x, y)
  simp only [if_true] at hc
  have hstep : ((run among ops).step among op).flight = (run among ops).flight.eraseIdx i ∧
      ((run among ops).step among op).told = (run among ops).told := by
    rcases hop with rfl | ⟨rfl, hl⟩
    · exact ⟨rfl, rfl⟩
    · simp [Net.step, hi, hl]
  rw [show ops ++ op :: more = (ops ++ [op]) ++ more by simp]
  apply never_told
  · rw [run_snoc]; exact step_life hlife
  · rw [run_snoc, hstep.1]
    intro h
    have := List.count_pos_iff.2 h
    omega
  · rw [run_snoc, hstep.2]
    intro h
    have := List.count_pos_iff.2 h
    omega

/-- 1 and 2 are linked, 1 ends, the notice for 2 gets lost. -/
example : let ops : List Op := [.register 2, .begin .link 1 2, .next 0, .next 0, .serve 0, .serve 0, .next 0, .drain 1]
    (run [1, 2] ops).flight[0]? = some (1, 2) ∧ (run [1, 2] ops).links 2 1 = true ∧
      (run [1, 2] (ops ++ [.drop 0, .leave 1])).life 1 = .gone ∧
      (run [1, 2] (ops ++ [.drop 0, .leave 1])).links 2 1 = true := by decide

/-- `y` links `x` while `x` is ending: `x` has taken its links out and is still in the registry. -/
def lateLink (x y : Nat) : List Op :=
  [.register x, .drain x, .begin .link y x, .next 0, .next 0, .serve 0, .serve 0, .next 0]

/-- **C90, what the code does instead.** `link_remote` returns `Ok`, both actors have each other among their links, and yet
`y` is never told that `x` has ended: `x` was ending when the request came, its notices had been sent. -/
theorem linked_and_never_told (among : List Nat) {x y : Nat} (hxy : x ≠ y) :
    AllOk (run among (lateLink x y)) x y ∧ (run among (lateLink x y)).links x y = true ∧
      (run among (lateLink x y)).links y x = true ∧
      ∀ more, x ∉ (run among (lateLink x y ++ more)).told y := by
  have hyx := Ne.symm hxy
  refine ⟨?_, ?_, ?_, fun more => never_told ?_ ?_ ?_⟩
  · intro n c h _
    simp [run, lateLink, Net.step, Net.setCall, Net.setLink, Net.next, Net.serve, hxy, hyx] at h
    split at h
    · injection h with h; rw [← h]
    · simp at h
  all_goals simp [run, lateLink, Net.step, Net.setCall, Net.setLink, Net.next, Net.serve, Kind.value, hxy, hyx]

example : (run [1, 2] (lateLink 1 2 ++ [.leave 1])).life 1 = .gone ∧
    1 ∉ (run [1, 2] (lateLink 1 2 ++ [.leave 1])).told 2 :=
  ⟨by decide, (linked_and_never_told [1, 2] (by decide)).2.2.2 _⟩

/-- `x` and `y` are linked, `x` ends, `y` unlinks `x` while the notice is under way. -/
def lateNews (x y : Nat) : List Op :=
  [.register x, .register y, .begin .link x y, .next 0, .next 0, .serve 0, .serve 0, .next 0, .drain x, .begin .unlink y x,
    .next 1, .serve 1, .serve 1, .next 1]

/-- **C90, what the code does instead.** `y.unlink_remote(x)` has returned `Ok`, neither actor has the other among its links
and no call is under way; and then `y` is told that `x` has died. -/
theorem unlinked_and_told {among : List Nat} {x y : Nat} (hxy : x ≠ y) (hy : y ∈ among) (hn : among.Nodup) :
    AllOk (run among (lateNews x y)) x y ∧ lastSaid x y (lateNews x y) = some .unlink ∧
      (run among (lateNews x y)).links x y = false ∧ (run among (lateNews x y)).links y x = false ∧
      (run among (lateNews x y)).told y = [] ∧ (run among (lateNews x y ++ [.deliver 0])).told y = [x] := by
  have hyx := Ne.symm hxy
  have hfil : (among.filter (fun z => decide (z = y))) = [y] := by
    have h1 : among.filter (fun z => decide (z = y)) = List.replicate (among.count y) y := by
      rw [List.count_eq_length_filter]
      apply List.eq_replicate_iff.mpr
      constructor
      · congr 1
      · intro b hb; simpa using (List.mem_filter.mp hb).2
    rw [h1]
    have : among.count y = 1 := by
      have := List.nodup_iff_count.mp hn y
      have := List.count_pos_iff.mpr hy
      omega
    rw [this]; rfl
  refine ⟨?_, ?_, ?_, ?_, ?_, ?_⟩
  · intro n c h _
    simp [run, lateNews, Net.step, Net.setCall, Net.setLink, Net.next, Net.serve, hxy, hyx] at h
    split at h
    · cases h; rfl
    · split at h
      · cases h; rfl
      · simp at h
  · simp [lateNews, lastSaid, pair]
  all_goals
    simp [run, lateNews, Net.step, Net.setCall, Net.setLink, Net.next, Net.serve, Kind.value, hxy, hyx, hfil]

example : (run [1, 2] (lateNews 1 2 ++ [.deliver 0])).told 2 = [1] :=
  (unlinked_and_told (among := [1, 2]) (by decide) (by decide) (by decide)).2.2.2.2.2

end Verif.Remote.Flight
