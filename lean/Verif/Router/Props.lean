import Verif.Router.Lemmas

/-!
C45 (message broker), C46 (message bus) and C47 (delivery strategies).

Vocabulary of the statements: `s.view k` are the subscriptions filed under `k`; `St.outcomes` counts what became
of the deliveries of one publish to one subscription.
-/

namespace Verif.Router

variable {K : Type} [DecidableEq K]

/-- How many deliveries of publish `n` to recipient `r` filed under `k` have an outcome. -/
def St.outcomes (s : St K) (n : Nat) (k : K) (r : Rcpt) : Nat := (s.fates.filter (fun x => x.1 = ⟨n, k, r⟩)).length

/-- Publish `n` is over: the handler has returned and no task of it is left. -/
def St.Over (s : St K) (n : Nat) : Prop :=
  (∀ todo gone, s.phase ≠ .publishing n todo gone) ∧ ∀ x ∈ s.tasks, x.no ≠ n

theorem outcomes_eq (s : St K) (n : Nat) (k : K) (r : Rcpt) :
    s.outcomes n k r = (s.fates.map (·.1)).count ⟨n, k, r⟩ := by
  unfold St.outcomes
  rw [List.count_eq_countP, List.countP_map, List.countP_eq_length_filter]
  congr 1

/-- A publish makes, for each subscription that was there when it began and is to be looked at, one delivery; and no
other. While it runs the number is less. -/
theorem publish_counts {cast : K → Rcpt → Bool} {s : St K} (hi : Inv s) (hp : s.phase = .idle) (sel : K → Bool)
    (rest : List (Op K)) (hn : (run cast s (.publish sel :: rest)).phase ≠ .panicked) (k : K) (r : Rcpt) :
    let s' := run cast s (.publish sel :: rest)
    s'.outcomes s.pubs k r ≤ (if sel k then (s.view k).count r else 0) ∧
      (s'.Over s.pubs → s'.outcomes s.pubs k r = if sel k then (s.view k).count r else 0) := by
  intro s'
  have h := (tally_run (tally_publish (cast := cast) hi hp sel k r) rest hn).2
  have e : run cast (s.step cast (.publish sel)) rest = s' := rfl
  rw [e] at h
  rw [outcomes_eq]
  refine ⟨by omega, fun ho => ?_⟩
  have h1 : s'.tasks.count ⟨s.pubs, k, r⟩ = 0 := by
    rw [List.count_eq_zero]
    intro hm
    exact ho.2 _ hm rfl
  have h2 : s'.todo s.pubs = [] := by
    unfold St.todo
    split
    · rename_i m todo gone hph
      split
      · rename_i hm
        subst hm
        exact absurd hph (ho.1 _ _)
      · rfl
    · rfl
  rw [h1, h2] at h
  simpa using h

/-! ### What happens to subscriptions -/

theorem view_subscribe {cast : K → Rcpt → Bool} {s : St K} (hp : s.phase = .idle) (k j : K) (r : Rcpt) :
    (s.step cast (.subscribe k r)).view j = if j = k then s.view j ++ [r] else s.view j := by
  simp only [St.step, hp, St.view, Map.find_put]
  by_cases hj : j = k
  · subst hj; simp
  · simp [hj]

theorem view_unsubscribe {cast : K → Rcpt → Bool} {s : St K} (hi : Inv s) (hp : s.phase = .idle) (k : Option K)
    (a : Nat) (j : K) :
    (s.step cast (.unsubscribe k a)).view j =
      if k = none ∨ k = some j then (s.view j).filter (fun r => r.actor ≠ a) else s.view j := by
  cases k with
  | none =>
    simp only [St.step, hp, St.view]
    rw [getD_unsubAll hi.ok]
    simp
  | some k =>
    simp only [St.step, hp, St.view]
    rw [getD_unsub hi.ok]
    by_cases hj : j = k
    · subst hj; simp
    · simp [hj, Ne.symm hj]

/-- What is not a subscribe or unsubscribe removes none but subscriptions of actors that are not running, adds none,
and keeps the order. -/
theorem view_other {cast : K → Rcpt → Bool} {s : St K} (hi : Inv s) (op : Op K)
    (h1 : ∀ k r, op ≠ .subscribe k r) (h2 : ∀ k a, op ≠ .unsubscribe k a) (k : K) :
    ∃ keep : Rcpt → Bool, (s.step cast op).view k = (s.view k).filter keep ∧
      ∀ r ∈ s.view k, keep r = false → s.isOpen r.actor = false := by
  have same : ∀ s' : St K, s'.subs = s.subs → ∃ keep : Rcpt → Bool, s'.view k = (s.view k).filter keep ∧
      ∀ r ∈ s.view k, keep r = false → s.isOpen r.actor = false := by
    intro s' hs
    refine ⟨fun _ => true, ?_, by simp⟩
    simp only [St.view, hs]
    exact (List.filter_eq_self.mpr (by simp)).symm
  cases op with
  | subscribe j r => exact absurd rfl (h1 j r)
  | unsubscribe j a => exact absurd rfl (h2 j a)
  | publish sel => apply same; simp only [St.step]; split <;> rfl
  | deliver e =>
    apply same
    simp only [St.step]
    repeat' split
    all_goals rfl
  | finish =>
    simp only [St.step]
    split
    · rename_i no gone hp
      refine ⟨fun r => decide ((k, r.actor) ∉ gone), ?_, ?_⟩
      · simp only [St.view]
        exact getD_foldl hi.ok gone k
      · intro r _ hr
        simp only [decide_eq_false_iff_not, Classical.not_not] at hr
        exact hi.goneStopped _ _ _ hp _ hr
    · exact same s rfl
  | task i e =>
    apply same
    simp only [St.step]
    repeat' split
    all_goals rfl
  | handleUnsub =>
    simp only [St.step]
    split
    · rename_i j a rest hp hu
      by_cases hj : k = j
      · subst hj
        refine ⟨fun r => decide (r.actor ≠ a), ?_, ?_⟩
        · simp only [St.view]
          rw [getD_unsub hi.ok]
          simp
        · intro r _ hr
          simp only [ne_eq, decide_not, Bool.not_eq_eq_eq_not, Bool.not_false, decide_eq_true_eq] at hr
          rw [hr]
          exact hi.unsubStopped (k, a) (by rw [hu]; simp)
      · refine ⟨fun _ => true, ?_, by simp⟩
        simp only [St.view]
        rw [getD_unsub hi.ok, if_neg hj]
        exact (List.filter_eq_self.mpr (by simp)).symm
    · exact same s rfl
  | close a => exact same _ rfl
  | setRoom a b => exact same _ rfl

/-- The end of a publish that made its deliveries itself removes exactly the subscriptions of the actors it found
stopped, where it found them. -/
theorem view_finish {cast : K → Rcpt → Bool} {s : St K} (hi : Inv s) (h1 : s.strat ≠ .spawned)
    (h2 : s.strat ≠ .spawnedTimed) {n : Nat} {gone : List (K × Nat)} (hp : s.phase = .publishing n [] gone) (k : K)
    (r : Rcpt) :
    ((∃ r' : Rcpt, r'.actor = r.actor ∧ (⟨n, k, r'⟩, Fate.stopped) ∈ s.fates) →
      ((s.step cast .finish).view k).count r = 0) ∧
    ((¬ ∃ r' : Rcpt, r'.actor = r.actor ∧ (⟨n, k, r'⟩, Fate.stopped) ∈ s.fates) →
      ((s.step cast .finish).view k).count r = (s.view k).count r) := by
  have hg := hi.gone h1 h2 _ _ _ hp k r.actor
  have hv : (s.step cast .finish).view k = (s.view k).filter (fun r => decide ((k, r.actor) ∉ gone)) := by
    simp only [St.step, hp, St.view]
    exact getD_foldl hi.ok gone k
  rw [hv]
  constructor
  · intro he
    rw [List.count_eq_zero]
    intro hm
    have := (List.mem_filter.mp hm).2
    simp only [decide_eq_true_eq] at this
    exact this (hg.mpr he)
  · intro he
    rw [List.count_filter]
    simp only [decide_eq_true_eq]
    exact fun hm => he (hg.mp hm)

/-- Actor `a`, not running, has no subscription under `k`, or is about to lose it. -/
def Leaving (s : St K) (k : K) (a : Nat) : Prop :=
  s.isOpen a = false ∧
  ((∀ r ∈ s.view k, r.actor ≠ a) ∨
   (∃ n todo gone, s.phase = .publishing n todo gone ∧ ((∃ r, (k, r) ∈ todo ∧ r.actor = a) ∨ (k, a) ∈ gone)) ∨
   (∃ it ∈ s.tasks, it.key = k ∧ it.r.actor = a) ∨
   (k, a) ∈ s.unsubs ∨ s.phase = .panicked)

theorem leaving_step {cast : K → Rcpt → Bool} {s : St K} (hi : Inv s) {k : K} {a : Nat} (h : Leaving s k a)
    (op : Op K) (hop : ∀ r, op = .subscribe k r → r.actor ≠ a) : Leaving (s.step cast op) k a := by
  refine ⟨closed_step h.1 op, ?_⟩
  obtain ⟨hcl, h⟩ := h
  -- once it has no subscription, it gets none
  have gone1 : (∀ r ∈ s.view k, r.actor ≠ a) → ∀ r ∈ (s.step cast op).view k, r.actor ≠ a := by
    intro hv
    by_cases h1 : ∃ j r, op = .subscribe j r
    · obtain ⟨j, r, rfl⟩ := h1
      cases hph : s.phase with
      | idle =>
        rw [view_subscribe hph]
        split
        · rename_i hj
          subst hj
          intro r' hr'
          rcases List.mem_append.mp hr' with hr' | hr'
          · exact hv r' hr'
          · rw [List.mem_singleton.mp hr']
            exact hop r rfl
        · exact hv
      | publishing n td gn => simp only [St.step, hph]; exact hv
      | panicked => simp only [St.step, hph]; exact hv
    · by_cases h2 : ∃ j b, op = .unsubscribe j b
      · obtain ⟨j, b, rfl⟩ := h2
        cases hph : s.phase with
        | idle =>
          rw [view_unsubscribe hi hph]
          split
          · exact fun r hr => hv r (List.mem_filter.mp hr).1
          · exact hv
        | publishing n td gn => simp only [St.step, hph]; exact hv
        | panicked => simp only [St.step, hph]; exact hv
      · obtain ⟨keep, hk, _⟩ := view_other (cast := cast) hi op (fun j r e => h1 ⟨j, r, e⟩)
          (fun j b e => h2 ⟨j, b, e⟩) k
        rw [hk]
        exact fun r hr => hv r (List.mem_filter.mp hr).1
  rcases h with h | ⟨n, todo, gone, hph, h⟩ | ⟨it, hit, hk, ha⟩ | h | h
  · exact Or.inl (gone1 h)
  · cases op with
    | deliver e =>
      simp only [St.step, hph]
      cases todo with
      | nil => exact Or.inr (Or.inl ⟨n, [], gone, hph, h⟩)
      | cons p todo =>
        obtain ⟨j, r⟩ := p
        dsimp only
        split
        · exact Or.inr (Or.inr (Or.inr (Or.inr rfl)))
        · split
          · rcases h with ⟨r', hm, hr'⟩ | h
            · rcases List.mem_cons.mp hm with hm | hm
              · cases hm
                exact Or.inr (Or.inr (Or.inl ⟨⟨n, k, r⟩, by simp, rfl, hr'⟩))
              · exact Or.inr (Or.inl ⟨n, todo, gone, rfl, Or.inl ⟨r', hm, hr'⟩⟩)
            · exact Or.inr (Or.inl ⟨n, todo, gone, rfl, Or.inr h⟩)
          · split
            · exact Or.inr (Or.inl ⟨n, _, gone, hph, h⟩)
            · rename_i f hf
              refine Or.inr (Or.inl ⟨n, todo, _, rfl, ?_⟩)
              rcases h with ⟨r', hm, hr'⟩ | h
              · rcases List.mem_cons.mp hm with hm | hm
                · cases hm
                  right
                  have : f = .stopped := by
                    rw [hr', attempt_stopped.mpr hcl] at hf
                    exact (Option.some.inj hf).symm
                  simp [this, hr']
                · exact Or.inl ⟨r', hm, hr'⟩
              · right
                split
                · exact List.mem_append_left _ h
                · exact h
    | finish =>
      simp only [St.step, hph]
      cases todo with
      | cons p todo => exact Or.inr (Or.inl ⟨n, _, gone, hph, h⟩)
      | nil =>
        left
        rcases h with ⟨r', hm, _⟩ | h
        · cases hm
        · intro r hr he
          simp only [St.view, getD_foldl hi.ok gone k] at hr
          have := (List.mem_filter.mp hr).2
          simp only [decide_eq_true_eq] at this
          rw [he] at this
          exact this h
    | task i e =>
      right; left
      refine ⟨n, todo, gone, ?_, h⟩
      simp only [St.step]
      repeat' split
      all_goals exact hph
    | close b => exact Or.inr (Or.inl ⟨n, todo, gone, hph, h⟩)
    | setRoom b c => exact Or.inr (Or.inl ⟨n, todo, gone, hph, h⟩)
    | _ =>
      simp only [St.step, hph]
      first
        | exact Or.inr (Or.inl ⟨n, todo, gone, hph, h⟩)
        | exact Or.inr (Or.inl ⟨n, todo, gone, rfl, h⟩)
  · cases op with
    | task i e =>
      simp only [St.step]
      split
      · exact Or.inr (Or.inr (Or.inl ⟨it, hit, hk, ha⟩))
      · rename_i it' hit'
        split
        · exact Or.inr (Or.inr (Or.inl ⟨it, hit, hk, ha⟩))
        · rename_i f hf
          by_cases he : it' = it
          · subst he
            have : f = .stopped := by
              rw [ha, attempt_stopped.mpr hcl] at hf
              exact (Option.some.inj hf).symm
            right; right; right; left
            simp [this, hk, ha]
          · right; right; left
            refine ⟨it, ?_, hk, ha⟩
            have h1 := count_eraseIdx hit' it
            rw [if_neg he] at h1
            have h2 := List.count_pos_iff.mpr hit
            have h3 : 0 < (s.tasks.eraseIdx i).count it := by omega
            exact List.count_pos_iff.mp h3
    | deliver e =>
      right; right; left
      refine ⟨it, ?_, hk, ha⟩
      simp only [St.step]
      repeat' split
      all_goals first
        | exact hit
        | exact List.mem_append_left _ hit
    | _ =>
      right; right; left
      refine ⟨it, ?_, hk, ha⟩
      simp only [St.step]
      repeat' split
      all_goals exact hit
  · cases op with
    | handleUnsub =>
      simp only [St.step]
      split
      · rename_i j b rest hp hu
        rw [hu] at h
        rcases List.mem_cons.mp h with h | h
        · cases h
          left
          intro r hr
          simp only [St.view, getD_unsub hi.ok, if_true] at hr
          simpa using (List.mem_filter.mp hr).2
        · exact Or.inr (Or.inr (Or.inr (Or.inl h)))
      · exact Or.inr (Or.inr (Or.inr (Or.inl h)))
    | task i e =>
      right; right; right; left
      simp only [St.step]
      split
      · exact h
      · split
        · exact h
        · dsimp only
          split
          · exact List.mem_append_left _ h
          · exact h
    | _ =>
      right; right; right; left
      simp only [St.step]
      repeat' split
      all_goals exact h
  · exact Or.inr (Or.inr (Or.inr (Or.inr (panicked_step h op))))

/-- A publish is on its way to remove every subscription of an actor that is not running. -/
theorem leaving_publish {cast : K → Rcpt → Bool} {s : St K} (hi : Inv s) (hp : s.phase = .idle) (sel : K → Bool)
    {k : K} {a : Nat} (hs : sel k = true) (ha : s.isOpen a = false) : Leaving (s.step cast (.publish sel)) k a := by
  simp only [St.step, hp]
  refine ⟨ha, ?_⟩
  by_cases h : ∃ r ∈ s.view k, r.actor = a
  · obtain ⟨r, hr, hra⟩ := h
    exact Or.inr (Or.inl ⟨s.pubs, _, [], rfl, Or.inl ⟨r, (mem_snap hi.ok sel k r).mpr ⟨hs, hr⟩, hra⟩⟩)
  · exact Or.inl fun r hr e => h ⟨r, hr, e⟩

theorem stopped_gone {cast : K → Rcpt → Bool} {s : St K} (hi : Inv s) (hp : s.phase = .idle) (sel : K → Bool)
    {k : K} {a : Nat} (hs : sel k = true) (ha : s.isOpen a = false) (rest : List (Op K))
    (hr : ∀ op ∈ rest, ∀ r, op = .subscribe k r → r.actor ≠ a) :
    let s' := run cast s (.publish sel :: rest)
    s'.phase = .idle → s'.tasks = [] → s'.unsubs = [] → ∀ r ∈ s'.view k, r.actor ≠ a := by
  intro s' h1 h2 h3
  have : Inv s' ∧ Leaving s' k a := by
    refine run_induct_of (P := fun t => Inv t ∧ Leaving t k a)
      (Q := fun op => ∀ r, op = .subscribe k r → r.actor ≠ a)
      ⟨inv_step hi (.publish sel), leaving_publish hi hp sel hs ha⟩ ?_ rest hr
    intro t op hq ⟨hi, hl⟩
    exact ⟨inv_step hi op, leaving_step hi hl op hq⟩
  rcases this.2.2 with h | ⟨n, todo, gone, hph, _⟩ | ⟨it, hit, _⟩ | h | h
  · exact h
  · rw [h1] at hph; cases hph
  · rw [h2] at hit; cases hit
  · rw [h3] at h; cases h
  · rw [h1] at h; cases h

/-! ### C45: the broker -/

/-- Patterns that match topics: here a pattern is a list of the topics it matches. -/
abbrev exMat (p : List Nat) (t : Nat) : Bool := p.contains t

/-- Actors 1 and 2 and again 1 under pattern `[5,6]`, actor 3 under `[5]`, actor 4 under `[7]`. -/
abbrev exPast : List (BrokerOp (List Nat) Nat) :=
  [.subscribe [5, 6] 1, .subscribe [5, 6] 2, .subscribe [5, 6] 1, .subscribe [5] 3, .subscribe [7] 4]

/-- A publish on topic 5 that finds actor 2 stopped. -/
abbrev exRest : List (BrokerOp (List Nat) Nat) :=
  [.deliver false, .close 2, .deliver false, .deliver false, .deliver false, .finish]

section Broker

variable {P T : Type} [DecidableEq P] (mat : P → T → Bool) (strat : Strategy)

theorem broker_append (past rest : List (BrokerOp P T)) :
    broker mat strat (past ++ rest) = run (fun _ _ => true) (broker mat strat past) (rest.map (BrokerOp.op mat)) := by
  simp [broker, run_append]

theorem broker_snoc (past : List (BrokerOp P T)) (op : BrokerOp P T) :
    broker mat strat (past ++ [op]) = (broker mat strat past).step (fun _ _ => true) (op.op mat) := by
  rw [broker_append]; rfl

theorem broker_inv (ops : List (BrokerOp P T)) : Inv (broker mat strat ops) := inv_run (inv_init strat) _

theorem broker_no_panic (ops : List (BrokerOp P T)) : (broker mat strat ops).phase ≠ .panicked := by
  refine run_induct (P := fun s : St P => s.phase ≠ .panicked) (by simp) ?_ _
  intro s op h
  cases op <;> simp only [St.step] <;> repeat' split
  all_goals first
    | exact h
    | (simp; done)
    | (rename_i hc; exact absurd hc (by simp))

/-- **C45, once per matching subscription and to no one else**: after a publish is over, the deliveries it made to
recipient `r` filed under `p` are as many as the subscriptions of `r` under `p` when it began, if `p` matches the
topic; none, if not. Whatever else happens meanwhile. -/
theorem broker_publish_exact (past rest : List (BrokerOp P T)) (t : T)
    (hp : (broker mat strat past).phase = .idle) (p : P) (r : Rcpt) :
    let s := broker mat strat past
    let s' := broker mat strat (past ++ .publish t :: rest)
    s'.outcomes s.pubs p r ≤ (if mat p t then (s.view p).count r else 0) ∧
      (s'.Over s.pubs → s'.outcomes s.pubs p r = if mat p t then (s.view p).count r else 0) := by
  have hn := broker_no_panic mat strat (past ++ .publish t :: rest)
  have h := publish_counts (broker_inv mat strat past) hp (fun p => mat p t) (rest.map (BrokerOp.op mat))
    (by rw [broker_append] at hn; exact hn) p r
  rw [broker_append]
  exact h

example : let s := broker exMat .guaranteed exPast
    let s' := broker exMat .guaranteed (exPast ++ .publish 5 :: exRest)
    s.phase = .idle ∧ s'.phase = .idle ∧ s'.tasks = [] ∧ s.view [5, 6] = [⟨1, 0⟩, ⟨2, 0⟩, ⟨1, 0⟩] ∧
      s'.outcomes 0 [5, 6] ⟨1, 0⟩ = 2 ∧ s'.outcomes 0 [5] ⟨3, 0⟩ = 1 ∧ s'.outcomes 0 [7] ⟨4, 0⟩ = 0 ∧
      s'.view [5, 6] = [⟨1, 0⟩, ⟨1, 0⟩] := by
  decide

/-- **C45, subscribing**: adds that subscription, at the end, and changes no other. -/
theorem broker_subscribe (past : List (BrokerOp P T)) (hp : (broker mat strat past).phase = .idle) (p q : P)
    (a : Nat) :
    (broker mat strat (past ++ [.subscribe p a])).view q =
      if q = p then (broker mat strat past).view q ++ [⟨a, 0⟩] else (broker mat strat past).view q := by
  rw [broker_snoc]
  exact view_subscribe hp p q _

example : (broker exMat .guaranteed exPast).phase = .idle ∧
    (broker exMat .guaranteed (exPast ++ [.subscribe [5] 1])).view [5] = [⟨3, 0⟩, ⟨1, 0⟩] ∧
    (broker exMat .guaranteed (exPast ++ [.subscribe [5] 1])).view [7] = [⟨4, 0⟩] := by
  decide

/-- **C45, unsubscribing** removes exactly the subscriptions of that actor under that pattern (or under all), keeps
the others and their order. -/
theorem broker_unsubscribe (past : List (BrokerOp P T)) (hp : (broker mat strat past).phase = .idle) (p : Option P)
    (a : Nat) (q : P) :
    (broker mat strat (past ++ [.unsubscribe p a])).view q =
      if p = none ∨ p = some q then ((broker mat strat past).view q).filter (fun r => r.actor ≠ a)
      else (broker mat strat past).view q := by
  rw [broker_snoc]
  exact view_unsubscribe (broker_inv mat strat past) hp p a q

example : (broker exMat .guaranteed exPast).phase = .idle ∧
    (broker exMat .guaranteed (exPast ++ [.unsubscribe none 1])).view [5, 6] = [⟨2, 0⟩] ∧
    (broker exMat .guaranteed (exPast ++ [.unsubscribe (some [5]) 3])).view [5] = [] := by
  decide

/-- **C45, no other subscription changes** and **C47, only recipients not running are unsubscribed**: everything else than subscribing and unsubscribing adds none, keeps the
order, and removes none but those of actors that are not running. -/
theorem broker_keeps (past : List (BrokerOp P T)) (op : BrokerOp P T) (h1 : ∀ p a, op ≠ .subscribe p a)
    (h2 : ∀ p a, op ≠ .unsubscribe p a) (q : P) :
    let s := broker mat strat past
    ∃ keep : Rcpt → Bool, (broker mat strat (past ++ [op])).view q = (s.view q).filter keep ∧
      ∀ r ∈ s.view q, keep r = false → s.isOpen r.actor = false := by
  intro s
  rw [broker_snoc]
  apply view_other (broker_inv mat strat past)
  · intro k r h
    cases op <;> simp [BrokerOp.op] at h
    exact h1 _ _ rfl
  · intro k a h
    cases op <;> simp [BrokerOp.op] at h
    exact h2 _ _ rfl

/-- The end of a publish takes away the subscriptions of the stopped actor 1. -/
example : let past := exPast ++ [.close 1] ++ .publish 6 :: [.deliver false, .deliver false, .deliver false]
    (broker exMat .guaranteed past).isOpen 1 = false ∧
    (broker exMat .guaranteed past).view [5, 6] = [⟨1, 0⟩, ⟨2, 0⟩, ⟨1, 0⟩] ∧
    (broker exMat .guaranteed (past ++ [.finish])).view [5, 6] = [⟨2, 0⟩] := by
  decide

/-- **C45, stopped subscribers are dropped** from the deliveries under the pattern where they were found (missing: from
those under other patterns, `stopped_kept_under_other_pattern` in `Verif/Router/Kept.lean`): if an actor is not running when a publish that matches `p` begins then
it has no subscription under `p` any more once the broker has nothing to do; unless it is subscribed again. -/
theorem broker_drops_stopped_partial (past rest : List (BrokerOp P T)) (t : T)
    (hp : (broker mat strat past).phase = .idle) (p : P) (a : Nat) (hm : mat p t = true)
    (ha : (broker mat strat past).isOpen a = false) (hr : .subscribe p a ∉ rest) :
    let s' := broker mat strat (past ++ .publish t :: rest)
    s'.phase = .idle → s'.tasks = [] → s'.unsubs = [] → ∀ r ∈ s'.view p, r.actor ≠ a := by
  rw [broker_append]
  refine stopped_gone (broker_inv mat strat past) hp (fun p => mat p t) hm ha (rest.map (BrokerOp.op mat)) ?_
  intro op hop r he
  obtain ⟨o, ho, rfl⟩ := List.mem_map.mp hop
  cases o <;> simp [BrokerOp.op] at he
  rename_i p' a'
  obtain ⟨h1, h2⟩ := he
  subst h1 h2
  rintro rfl
  exact hr ho

example : let s := broker exMat .guaranteed (exPast ++ [.close 1])
    s.phase = .idle ∧ s.isOpen 1 = false ∧ exMat [5, 6] 6 = true ∧
    (broker exMat .guaranteed (exPast ++ [.close 1] ++ .publish 6 :: [.deliver false, .deliver false, .deliver false,
      .finish])).view [5, 6] = [⟨2, 0⟩] := by
  decide

/-- As above, with a task for each delivery. -/
example : let s' := broker exMat .spawned (exPast ++ [.close 1] ++ .publish 6 :: [.deliver false, .deliver false,
      .deliver false, .finish, .task 2 false, .task 0 false, .task 0 false, .handleUnsub, .handleUnsub])
    s'.phase = .idle ∧ s'.tasks = [] ∧ s'.unsubs = [] ∧ s'.view [5, 6] = [⟨2, 0⟩] := by
  decide

/-- **C45, stopped subscribers are dropped**: the `Unsubscribe` that a task sends, when the broker takes it from its mailbox,
takes away the subscriptions of that actor under that pattern, and nothing else; it is then no longer in the mailbox. -/
theorem broker_task_unsubscribe (past : List (BrokerOp P T)) (hp : (broker mat strat past).phase = .idle) {p : P}
    {a : Nat} {rest : List (P × Nat)} (hu : (broker mat strat past).unsubs = (p, a) :: rest) (q : P) :
    (broker mat strat (past ++ [.handleUnsub])).view q =
      (if p = q then ((broker mat strat past).view q).filter (fun r => r.actor ≠ a)
       else (broker mat strat past).view q) ∧
    (broker mat strat (past ++ [.handleUnsub])).unsubs = rest := by
  rw [broker_snoc]
  have h := view_unsubscribe (cast := fun _ _ => true) (broker_inv mat strat past) hp (some p) a q
  generalize broker mat strat past = s at *
  simp only [BrokerOp.op, St.step, hp, hu, St.view] at h ⊢
  simpa using h

/-- Two tasks found actor 1 stopped; the first of their messages is handled. -/
example : let past := exPast ++ [.close 1] ++ .publish 6 :: [.deliver false, .deliver false, .deliver false, .finish,
      .task 2 false, .task 0 false]
    (broker exMat .spawned past).phase = .idle ∧ (broker exMat .spawned past).unsubs = [([5, 6], 1), ([5, 6], 1)] ∧
    (broker exMat .spawned past).view [5, 6] = [⟨1, 0⟩, ⟨2, 0⟩, ⟨1, 0⟩] ∧
    (broker exMat .spawned (past ++ [.handleUnsub])).view [5, 6] = [⟨2, 0⟩] := by
  decide

/-- **C45, exactly those found stopped are dropped** when a publish that made its deliveries itself ends: each
subscription under `p` of an actor that this publish found stopped there, and no other. -/
theorem broker_finish_exact (past : List (BrokerOp P T)) (h1 : strat ≠ .spawned) (h2 : strat ≠ .spawnedTimed)
    {n : Nat} {gone : List (P × Nat)} (hp : (broker mat strat past).phase = .publishing n [] gone) (p : P) (r : Rcpt) :
    let s := broker mat strat past
    let s' := broker mat strat (past ++ [.finish])
    ((∃ r' : Rcpt, r'.actor = r.actor ∧ (⟨n, p, r'⟩, Fate.stopped) ∈ s.fates) → (s'.view p).count r = 0) ∧
    ((¬ ∃ r' : Rcpt, r'.actor = r.actor ∧ (⟨n, p, r'⟩, Fate.stopped) ∈ s.fates) →
      (s'.view p).count r = (s.view p).count r) := by
  intro s s'
  have hs : (broker mat strat past).strat = strat := by unfold broker; rw [strat_run]
  have := view_finish (cast := fun _ _ => true) (broker_inv mat strat past) (by rw [hs]; exact h1)
    (by rw [hs]; exact h2) hp p r
  have e : s' = (broker mat strat past).step (fun _ _ => true) .finish := broker_snoc mat strat past .finish
  rw [e]
  exact this

example : let s := broker exMat .timed (exPast ++ [.close 1] ++ .publish 6 :: [.deliver false, .deliver false,
      .deliver false])
    s.phase = .publishing 0 [] [([5, 6], 1), ([5, 6], 1)] ∧ (⟨0, [5, 6], ⟨1, 0⟩⟩, Fate.stopped) ∈ s.fates ∧
    (s.view [5, 6]).count ⟨1, 0⟩ = 2 := by
  decide

end Broker

/-! ### C46: the bus -/

/-- Recipients are filed under their type. -/
structure Typed (s : St Nat) : Prop where
  subs : ∀ k r, r ∈ s.view k → r.ty = k
  todo : ∀ n todo gone, s.phase = .publishing n todo gone → ∀ x ∈ todo, x.2.ty = x.1
  ok : s.phase ≠ .panicked

theorem typed_step {s : St Nat} (hi : Inv s) (h : Typed s) (op : BusOp) :
    Typed (s.step (fun k r => r.ty == k) op.op) := by
  have hsub : ∀ k r, r ∈ (s.step (fun k r => r.ty == k) op.op).view k → r.ty = k := by
    intro k r hr
    by_cases h1 : ∃ t a, op = .register t a
    · obtain ⟨t, a, rfl⟩ := h1
      cases hp : s.phase with
      | idle =>
        rw [BusOp.op, view_subscribe hp] at hr
        split at hr
        · rename_i hk
          rcases List.mem_append.mp hr with hr | hr
          · exact h.subs k r hr
          · rw [List.mem_singleton.mp hr]
            exact hk.symm
        · exact h.subs k r hr
      | publishing n td gn => simp only [BusOp.op, St.step, hp] at hr; exact h.subs k r hr
      | panicked => exact absurd hp h.ok
    · by_cases h2 : ∃ t a, op = .unregister t a
      · obtain ⟨t, a, rfl⟩ := h2
        cases hp : s.phase with
        | idle =>
          rw [BusOp.op, view_unsubscribe hi hp] at hr
          split at hr
          · exact h.subs k r (List.mem_filter.mp hr).1
          · exact h.subs k r hr
        | publishing n td gn => simp only [BusOp.op, St.step, hp] at hr; exact h.subs k r hr
        | panicked => exact absurd hp h.ok
      · obtain ⟨keep, hk, _⟩ := view_other (cast := fun k r => r.ty == k) hi op.op
          (fun j r e => h1 (by cases op <;> simp [BusOp.op] at e; exact ⟨_, _, rfl⟩))
          (fun j b e => h2 (by cases op <;> simp [BusOp.op] at e; exact ⟨_, _, rfl⟩)) k
        rw [hk] at hr
        exact h.subs k r (List.mem_filter.mp hr).1
  constructor
  · exact hsub
  · cases op with
    | publish ty =>
      simp only [BusOp.op, St.step]
      split
      · rintro n td gn he x hx
        cases he
        have := (mem_snap hi.ok (fun k => k == ty) x.1 x.2).mp hx
        exact h.subs _ _ this.2
      · exact h.todo
    | deliver e =>
      simp only [BusOp.op, St.step]
      split
      · rename_i no k r todo gone hp
        have ht := h.todo _ _ _ hp
        repeat' split
        · rintro n td gn he; cases he
        · rintro n td gn he
          cases he
          exact fun x hx => ht x (List.mem_cons_of_mem _ hx)
        · exact h.todo
        all_goals
          rintro n td gn he
          cases he
          exact fun x hx => ht x (List.mem_cons_of_mem _ hx)
      · exact h.todo
    | finish =>
      simp only [BusOp.op, St.step]
      split
      · rintro n td gn he; cases he
      · exact h.todo
    | _ =>
      simp only [BusOp.op, St.step]
      repeat' split
      all_goals exact h.todo
  · cases op with
    | deliver e =>
      simp only [BusOp.op, St.step]
      split
      · rename_i no k r todo gone hp
        have ht : r.ty = k := h.todo _ _ _ hp (k, r) (by simp)
        rw [if_neg (by simp [ht])]
        repeat' split
        · simp
        · exact h.ok
        all_goals simp
      · exact h.ok
    | _ =>
      simp only [BusOp.op, St.step]
      repeat' split
      all_goals first
        | exact h.ok
        | simp

/-- Actors 1, 2 and again 1 for type 5, actor 1 for type 6. -/
abbrev exBus : List BusOp := [.register 5 1, .register 6 1, .register 5 2, .register 5 1]

section Bus

variable (strat : Strategy)

theorem bus_append (past rest : List BusOp) :
    bus strat (past ++ rest) = run (fun k r => r.ty == k) (bus strat past) (rest.map BusOp.op) := by
  simp [bus, run_append]

theorem bus_snoc (past : List BusOp) (op : BusOp) :
    bus strat (past ++ [op]) = (bus strat past).step (fun k r => r.ty == k) op.op := by
  rw [bus_append]; rfl

theorem bus_inv (ops : List BusOp) : Inv (bus strat ops) := inv_run (inv_init strat) _

theorem bus_typed (ops : List BusOp) : Typed (bus strat ops) := by
  suffices h : ∀ past rest : List BusOp, rest = past.reverse → Typed (bus strat rest) from
    h ops.reverse ops (by simp)
  intro past
  induction past with
  | nil =>
    rintro rest rfl
    exact ⟨by simp [bus, run, St.view, Map.find], by simp [bus, run], by simp [bus, run]⟩
  | cons op past ih =>
    rintro rest rfl
    rw [List.reverse_cons, bus_snoc]
    exact typed_step (bus_inv strat _) (ih _ rfl) op

/-- **C46, the internal downcast never fails**: no history makes the bus panic. -/
theorem bus_never_panics (ops : List BusOp) : (bus strat ops).phase ≠ .panicked := (bus_typed strat ops).ok

/-- Recipients of three types, one of which is published to. -/
example : let s := bus .guaranteed [.register 5 1, .register 6 1, .register 7 2, .publish 6, .deliver false]
    s.fates.map (·.1.r) = [⟨1, 6⟩] ∧ s.phase = .publishing 0 [] [] := by
  decide

/-- **C46, no mis-delivery**: whatever is delivered, or to be delivered, goes to a recipient of the type that was
published: registrations are filed under the type of their recipient. -/
theorem bus_types (ops : List BusOp) (k : Nat) (r : Rcpt) (h : r ∈ (bus strat ops).view k) : r.ty = k :=
  (bus_typed strat ops).subs k r h

example : (⟨1, 6⟩ : Rcpt) ∈ (bus .bestEffort exBus).view 6 ∧ (⟨1, 5⟩ : Rcpt) ∈ (bus .bestEffort exBus).view 5 := by
  decide

/-- **C46, once per registration for exactly its type and to no other.** -/
theorem bus_publish_exact (past rest : List BusOp) (ty : Nat) (hp : (bus strat past).phase = .idle) (k : Nat)
    (r : Rcpt) :
    let s := bus strat past
    let s' := bus strat (past ++ .publish ty :: rest)
    s'.outcomes s.pubs k r ≤ (if k = ty then (s.view k).count r else 0) ∧
      (s'.Over s.pubs → s'.outcomes s.pubs k r = if k = ty then (s.view k).count r else 0) := by
  have hn := bus_never_panics strat (past ++ .publish ty :: rest)
  have h := publish_counts (bus_inv strat past) hp (fun k => k == ty) (rest.map BusOp.op)
    (by rw [bus_append] at hn; exact hn) k r
  rw [bus_append]
  simp only [beq_iff_eq] at h
  exact h

example : let s := bus .bestEffort exBus
    let s' := bus .bestEffort (exBus ++ .publish 5 :: [.setRoom 2 false, .deliver false, .deliver false, .close 1,
      .deliver false, .finish])
    s.phase = .idle ∧ s'.phase = .idle ∧ s'.tasks = [] ∧ s'.outcomes 0 5 ⟨1, 5⟩ = 2 ∧ s'.outcomes 0 5 ⟨2, 5⟩ = 1 ∧
      s'.outcomes 0 6 ⟨1, 6⟩ = 0 ∧ s'.view 5 = [⟨2, 5⟩] ∧ s'.view 6 = [⟨1, 6⟩] := by
  decide

/-- **C46, every delivery is of the type of its recipient.** -/
theorem bus_delivers_own_type (past rest : List BusOp) (ty : Nat) (hp : (bus strat past).phase = .idle) (k : Nat)
    (r : Rcpt) (h : 0 < (bus strat (past ++ .publish ty :: rest)).outcomes (bus strat past).pubs k r) :
    k = ty ∧ r.ty = ty := by
  have h1 := (bus_publish_exact strat past rest ty hp k r).1
  split at h1
  · rename_i hk
    refine ⟨hk, ?_⟩
    subst hk
    exact bus_types strat past k r (List.count_pos_iff.mp (by omega))
  · omega

example : (bus .timed exBus).phase = .idle ∧
    0 < (bus .timed (exBus ++ .publish 5 :: [.deliver false])).outcomes (bus .timed exBus).pubs 5 ⟨1, 5⟩ := by
  decide

/-- **C46, registering** adds that registration and changes no other. -/
theorem bus_register (past : List BusOp) (hp : (bus strat past).phase = .idle) (ty k : Nat) (a : Nat) :
    (bus strat (past ++ [.register ty a])).view k =
      if k = ty then (bus strat past).view k ++ [⟨a, ty⟩] else (bus strat past).view k := by
  rw [bus_snoc]
  exact view_subscribe hp ty k _

example : (bus .bestEffort exBus).phase = .idle ∧
    (bus .bestEffort (exBus ++ [.register 6 2])).view 6 = [⟨1, 6⟩, ⟨2, 6⟩] ∧
    (bus .bestEffort (exBus ++ [.register 6 2])).view 5 = [⟨1, 5⟩, ⟨2, 5⟩, ⟨1, 5⟩] := by
  decide

/-- **C46, unregistering** removes exactly the registrations of that actor for that type. -/
theorem bus_unregister (past : List BusOp) (hp : (bus strat past).phase = .idle) (ty a k : Nat) :
    (bus strat (past ++ [.unregister ty a])).view k =
      if k = ty then ((bus strat past).view k).filter (fun r => r.actor ≠ a) else (bus strat past).view k := by
  rw [bus_snoc, BusOp.op, view_unsubscribe (bus_inv strat past) hp]
  simp [eq_comm]

example : (bus .bestEffort exBus).phase = .idle ∧
    (bus .bestEffort (exBus ++ [.unregister 5 1])).view 5 = [⟨2, 5⟩] ∧
    (bus .bestEffort (exBus ++ [.unregister 5 1])).view 6 = [⟨1, 6⟩] := by
  decide

/-- **C46, no other registration changes** and **C47, only recipients not running are unregistered.** -/
theorem bus_keeps (past : List BusOp) (op : BusOp) (h1 : ∀ t a, op ≠ .register t a) (h2 : ∀ t a, op ≠ .unregister t a)
    (k : Nat) :
    let s := bus strat past
    ∃ keep : Rcpt → Bool, (bus strat (past ++ [op])).view k = (s.view k).filter keep ∧
      ∀ r ∈ s.view k, keep r = false → s.isOpen r.actor = false := by
  intro s
  rw [bus_snoc]
  apply view_other (bus_inv strat past)
  · intro k r h
    cases op <;> simp [BusOp.op] at h
    exact h1 _ _ rfl
  · intro k a h
    cases op <;> simp [BusOp.op] at h
    exact h2 _ _ rfl

/-- An `Unregister` that a task has sent is handled: actor 1 has stopped. -/
example : let past := exBus ++ [.close 1, .publish 5, .deliver false, .deliver false, .deliver false, .finish, .task 0 false]
    (bus .spawned past).isOpen 1 = false ∧ (bus .spawned past).view 5 = [⟨1, 5⟩, ⟨2, 5⟩, ⟨1, 5⟩] ∧
    (bus .spawned (past ++ [.handleUnsub])).view 5 = [⟨2, 5⟩] := by
  decide

/-- **C46, stopped receivers are removed.** -/
theorem bus_drops_stopped (past rest : List BusOp) (ty : Nat) (hp : (bus strat past).phase = .idle) (a : Nat)
    (ha : (bus strat past).isOpen a = false) (hr : .register ty a ∉ rest) :
    let s' := bus strat (past ++ .publish ty :: rest)
    s'.phase = .idle → s'.tasks = [] → s'.unsubs = [] → ∀ r ∈ s'.view ty, r.actor ≠ a := by
  rw [bus_append]
  refine stopped_gone (bus_inv strat past) hp (fun k => k == ty) (by simp) ha (rest.map BusOp.op) ?_
  intro op hop r he
  obtain ⟨o, ho, rfl⟩ := List.mem_map.mp hop
  cases o <;> simp [BusOp.op] at he
  rename_i p' a'
  obtain ⟨h1, h2⟩ := he
  subst h1 h2
  rintro rfl
  exact hr ho

example : let s' := bus .timed (exBus ++ [.close 1] ++ .publish 5 :: [.deliver false, .deliver false, .deliver false,
      .finish])
    (bus .timed (exBus ++ [.close 1])).phase = .idle ∧ (bus .timed (exBus ++ [.close 1])).isOpen 1 = false ∧
      s'.phase = .idle ∧ s'.tasks = [] ∧ s'.unsubs = [] ∧ s'.view 5 = [⟨2, 5⟩] := by
  decide

/-- **C46, stopped receivers are removed**: the `Unregister` that a task sends, when the bus takes it from its mailbox, takes away
the registrations of that actor for that type, and nothing else; it is then no longer in the mailbox. -/
theorem bus_task_unregister (past : List BusOp) (hp : (bus strat past).phase = .idle) {ty a : Nat}
    {rest : List (Nat × Nat)} (hu : (bus strat past).unsubs = (ty, a) :: rest) (k : Nat) :
    (bus strat (past ++ [.handleUnsub])).view k =
      (if ty = k then ((bus strat past).view k).filter (fun r => r.actor ≠ a) else (bus strat past).view k) ∧
    (bus strat (past ++ [.handleUnsub])).unsubs = rest := by
  rw [bus_snoc]
  have h := view_unsubscribe (cast := fun k r => r.ty == k) (bus_inv strat past) hp (some ty) a k
  generalize bus strat past = s at *
  simp only [BusOp.op, St.step, hp, hu, St.view] at h ⊢
  simpa using h

example : let past := exBus ++ [.close 1, .publish 5, .deliver false, .deliver false, .deliver false, .finish, .task 0 false]
    (bus .spawned past).phase = .idle ∧ (bus .spawned past).unsubs = [(5, 1)] ∧
    (bus .spawned past).view 5 = [⟨1, 5⟩, ⟨2, 5⟩, ⟨1, 5⟩] ∧
    (bus .spawned (past ++ [.handleUnsub])).view 5 = [⟨2, 5⟩] := by
  decide

end Bus

end Verif.Router
