import Verif.Router.Model

/-! Facts about the model of the broker and the bus that the theorems of `Props.lean` rest on. -/

namespace Verif.Router

variable {K : Type} [DecidableEq K]

/-- The subscriptions filed under `k`, in order. -/
def St.view (s : St K) (k : K) : List Rcpt := (s.subs.find k).getD []

theorem run_append (cast : K → Rcpt → Bool) (s : St K) (a b : List (Op K)) :
    run cast s (a ++ b) = run cast (run cast s a) b := by
  simp [run, List.foldl_append]

theorem run_induct {cast : K → Rcpt → Bool} {P : St K → Prop} {s : St K} (h0 : P s)
    (hs : ∀ s op, P s → P (s.step cast op)) (ops : List (Op K)) : P (run cast s ops) := by
  induction ops generalizing s with
  | nil => exact h0
  | cons op rest ih => exact ih (hs _ op h0)

/-- As `run_induct`, for operations that satisfy `Q`. -/
theorem run_induct_of {cast : K → Rcpt → Bool} {P : St K → Prop} {Q : Op K → Prop} {s : St K} (h0 : P s)
    (hs : ∀ s op, Q op → P s → P (s.step cast op)) (ops : List (Op K)) (hq : ∀ op ∈ ops, Q op) :
    P (run cast s ops) := by
  induction ops generalizing s with
  | nil => exact h0
  | cons op rest ih =>
    exact ih (hs _ op (hq _ (by simp)) h0) (fun o ho => hq o (by simp [ho]))

theorem ok_unsub {m : Map K (List Rcpt)} (h : m.Ok) (k : K) (a : Nat) : (unsub m k a).Ok := by
  unfold unsub
  split
  · exact h
  · dsimp only
    split
    · exact Map.ok_del h k
    · exact Map.ok_put h k _

theorem getD_unsub {m : Map K (List Rcpt)} (h : m.Ok) (k j : K) (a : Nat) :
    ((unsub m k a).find j).getD [] =
      if j = k then ((m.find j).getD []).filter (fun r => r.actor ≠ a) else (m.find j).getD [] := by
  unfold unsub
  split
  · rename_i hn
    by_cases hj : j = k
    · subst hj; simp [hn]
    · simp [hj]
  · rename_i rs hs
    dsimp only
    by_cases he : rs.filter (fun r => decide (r.actor ≠ a)) = []
    · rw [if_pos he, Map.find_del h]
      by_cases hj : j = k
      · subst hj
        simp only [if_true, hs, Option.getD_none, Option.getD_some]
        exact he.symm
      · simp [hj]
    · rw [if_neg he, Map.find_put]
      by_cases hj : j = k
      · subst hj
        simp [hs]
      · simp [hj]

theorem ok_foldl {m : Map K (List Rcpt)} (h : m.Ok) (gs : List (K × Nat)) :
    (gs.foldl (fun subs g => unsub subs g.1 g.2) m).Ok := by
  induction gs generalizing m with
  | nil => exact h
  | cons g rest ih => exact ih (ok_unsub h g.1 g.2)

theorem getD_foldl {m : Map K (List Rcpt)} (h : m.Ok) (gs : List (K × Nat)) (j : K) :
    ((gs.foldl (fun subs g => unsub subs g.1 g.2) m).find j).getD [] =
      ((m.find j).getD []).filter (fun r => (j, r.actor) ∉ gs) := by
  induction gs generalizing m with
  | nil =>
    rw [List.filter_eq_self.mpr (by simp)]
    rfl
  | cons g rest ih =>
    rw [List.foldl_cons, ih (ok_unsub h g.1 g.2), getD_unsub h]
    by_cases hj : j = g.1
    · simp only [hj, if_true, List.filter_filter]
      apply List.filter_congr
      intro r _
      rw [Bool.eq_iff_iff]
      simp only [Bool.and_eq_true, decide_eq_true_eq, List.mem_cons, not_or]
      constructor
      · rintro ⟨h1, h2⟩
        exact ⟨fun e => h2 (by rw [← e]), h1⟩
      · rintro ⟨h1, h2⟩
        exact ⟨h2, fun e => h1 (by rw [e])⟩
    · simp only [hj, if_false]
      apply List.filter_congr
      intro r _
      rw [Bool.eq_iff_iff]
      simp only [decide_eq_true_eq, List.mem_cons, not_or]
      constructor
      · intro h1
        exact ⟨fun e => hj (by rw [← e]), h1⟩
      · exact fun h1 => h1.2

theorem ok_unsubAll {m : Map K (List Rcpt)} (h : m.Ok) (a : Nat) : (unsubAll m a).Ok := by
  unfold Map.Ok Map.keys unsubAll at *
  apply List.Nodup.sublist (List.Sublist.map _ List.filter_sublist)
  rw [List.map_map]
  exact h

theorem getD_unsubAll {m : Map K (List Rcpt)} (h : m.Ok) (j : K) (a : Nat) :
    ((unsubAll m a).find j).getD [] = ((m.find j).getD []).filter (fun r => r.actor ≠ a) := by
  induction m with
  | nil => simp [unsubAll, Map.find]
  | cons p rest ih =>
    obtain ⟨k', v'⟩ := p
    have hr : Map.Ok rest := by
      simp only [Map.Ok, Map.keys, List.map_cons, List.nodup_cons] at h ⊢
      exact h.2
    have hk : k' ∉ Map.keys rest := by
      simp only [Map.Ok, Map.keys, List.map_cons, List.nodup_cons] at h ⊢
      exact h.1
    have ih := ih hr
    have hun : unsubAll ((k', v') :: rest) a =
        if v'.filter (fun r => r.actor ≠ a) = [] then unsubAll rest a
        else (k', v'.filter (fun r => r.actor ≠ a)) :: unsubAll rest a := by
      simp only [unsubAll, List.map_cons, List.filter_cons]
      by_cases he : v'.filter (fun r => decide (r.actor ≠ a)) = []
      · simp only [he, ne_eq, not_true, decide_false, if_true]
        rfl
      · simp only [he, ne_eq, not_false_eq_true, decide_true, if_true, if_false]
    rw [hun]
    by_cases hj : k' = j
    · subst hj
      have hn : (Map.find rest k') = none := (Map.find_none_iff _ _).mpr hk
      rw [hn] at ih
      split
      · rename_i he
        rw [ih]
        simp only [Map.find, if_true, Option.getD_some, Option.getD_none, he]
        simp
      · simp [Map.find]
    · split
      · rw [ih]; simp [Map.find, hj]
      · simp only [Map.find, hj, if_false]
        exact ih

/-- The subscriptions looked at by a publish, with what they are filed under. -/
def snap (m : Map K (List Rcpt)) (sel : K → Bool) : List (K × Rcpt) :=
  (m.filter (fun e => sel e.1)).flatMap (fun e => e.2.map (fun r => (e.1, r)))

theorem count_pair (l : List Rcpt) (k j : K) (r : Rcpt) :
    (l.map (fun r => (k, r))).count (j, r) = if j = k then l.count r else 0 := by
  induction l with
  | nil => simp
  | cons x rest ih =>
    rw [List.map_cons, List.count_cons, ih, List.count_cons]
    by_cases hj : j = k
    · subst hj
      simp
    · have : ((k, x) == (j, r)) = false := by
        simp only [beq_eq_false_iff_ne, ne_eq, Prod.mk.injEq, not_and]
        exact fun e => absurd e.symm hj
      simp [hj, this]

/-- Each subscription looked at is there as often as it is filed. -/
theorem count_snap {m : Map K (List Rcpt)} (h : m.Ok) (sel : K → Bool) (k : K) (r : Rcpt) :
    (snap m sel).count (k, r) = if sel k then ((m.find k).getD []).count r else 0 := by
  induction m with
  | nil => simp [snap, Map.find]
  | cons p rest ih =>
    obtain ⟨k', v'⟩ := p
    have hr : Map.Ok rest := by
      simp only [Map.Ok, Map.keys, List.map_cons, List.nodup_cons] at h ⊢
      exact h.2
    have hk : k' ∉ Map.keys rest := by
      simp only [Map.Ok, Map.keys, List.map_cons, List.nodup_cons] at h ⊢
      exact h.1
    have ih := ih hr
    have hs : snap ((k', v') :: rest) sel =
        (if sel k' then v'.map (fun r => (k', r)) else []) ++ snap rest sel := by
      simp only [snap, List.filter_cons]
      by_cases he : sel k' <;> simp [he]
    rw [hs, List.count_append, ih]
    by_cases hj : k' = k
    · subst hj
      have hn : (Map.find rest k') = none := (Map.find_none_iff _ _).mpr hk
      by_cases he : sel k'
      · simp [he, Map.find, hn, count_pair]
      · simp [he]
    · have : (if sel k' then v'.map (fun r => (k', r)) else []).count (k, r) = 0 := by
        by_cases he : sel k'
        · simp [he, count_pair, Ne.symm hj]
        · simp [he]
      rw [this]
      simp [Map.find, hj]

theorem mem_snap {m : Map K (List Rcpt)} (h : m.Ok) (sel : K → Bool) (k : K) (r : Rcpt) :
    (k, r) ∈ snap m sel ↔ sel k = true ∧ r ∈ (m.find k).getD [] := by
  rw [← List.count_pos_iff, count_snap h]
  by_cases hs : sel k = true
  · simp [hs, List.count_pos_iff]
  · simp [hs]

/-! ### What is always so -/

/-- The deliveries publish `n` has still to make. -/
def St.todo (s : St K) (n : Nat) : List (K × Rcpt) :=
  match s.phase with
  | .publishing m todo _ => if m = n then todo else []
  | _ => []

structure Inv (s : St K) : Prop where
  ok : s.subs.Ok
  fateNo : ∀ x ∈ s.fates, x.1.no < s.pubs
  taskNo : ∀ x ∈ s.tasks, x.no < s.pubs
  phaseNo : ∀ n todo gone, s.phase = .publishing n todo gone → n < s.pubs
  fateStopped : ∀ x ∈ s.fates, x.2 = .stopped → s.isOpen x.1.r.actor = false
  unsubStopped : ∀ x ∈ s.unsubs, s.isOpen x.2 = false
  goneStopped : ∀ n todo gone, s.phase = .publishing n todo gone → ∀ x ∈ gone, s.isOpen x.2 = false
  gone : s.strat ≠ .spawned → s.strat ≠ .spawnedTimed → ∀ n todo gone, s.phase = .publishing n todo gone →
    ∀ k a, (k, a) ∈ gone ↔ ∃ r, r.actor = a ∧ (⟨n, k, r⟩, Fate.stopped) ∈ s.fates
  noTasks : s.strat ≠ .spawned → s.strat ≠ .spawnedTimed → s.tasks = []
  goneSpawned : s.strat = .spawned ∨ s.strat = .spawnedTimed → ∀ n todo gone,
    s.phase = .publishing n todo gone → gone = []

omit [DecidableEq K] in
theorem attempt_stopped {s : St K} {a : Nat} {w t e : Bool} :
    s.attempt a w t e = some .stopped ↔ s.isOpen a = false := by
  unfold St.attempt
  cases h : s.isOpen a <;> simp
  repeat' split
  all_goals simp

omit [DecidableEq K] in
theorem inv_init (strat : Strategy) : Inv ({ strat := strat } : St K) := by
  constructor <;> simp [Map.ok_nil]

theorem inv_step {cast : K → Rcpt → Bool} {s : St K} (h : Inv s) (op : Op K) : Inv (s.step cast op) := by
  cases op with
  | subscribe k r =>
    simp only [St.step]
    split
    · rename_i hp
      exact { h with ok := Map.ok_put h.ok _ _ }
    · exact h
  | unsubscribe k a =>
    simp only [St.step]
    split
    · split
      · exact { h with ok := ok_unsub h.ok _ _ }
      · exact { h with ok := ok_unsubAll h.ok _ }
    · exact h
  | publish sel =>
    simp only [St.step]
    split
    · refine { h with fateNo := ?_, taskNo := ?_, phaseNo := ?_, goneStopped := ?_, gone := ?_, goneSpawned := ?_ }
      · exact fun x hx => Nat.lt_succ_of_lt (h.fateNo x hx)
      · exact fun x hx => Nat.lt_succ_of_lt (h.taskNo x hx)
      · rintro n todo gone he
        cases he
        exact Nat.lt_succ_self _
      · rintro n todo gone he
        cases he
        simp
      · rintro _ _ n todo gone he k a
        cases he
        simp only [List.not_mem_nil, false_iff]
        rintro ⟨r, _, hr⟩
        exact absurd (h.fateNo _ hr) (Nat.lt_irrefl _)
      · rintro _ n todo gone he
        cases he
        rfl
    · exact h
  | deliver e =>
    simp only [St.step]
    split
    · rename_i no k r todo gone hp
      split
      · refine { h with phaseNo := ?_, goneStopped := ?_, gone := ?_, goneSpawned := ?_ } <;> simp
      · split
        · rename_i hst
          have hg := h.goneSpawned hst _ _ _ hp
          subst hg
          refine { h with taskNo := ?_, phaseNo := ?_, goneStopped := ?_, gone := ?_, noTasks := ?_, goneSpawned := ?_ }
          · intro x hx
            rcases List.mem_append.mp hx with hx | hx
            · exact h.taskNo x hx
            · rw [List.mem_singleton.mp hx]
              exact h.phaseNo _ _ _ hp
          · rintro n td gn he
            cases he
            exact h.phaseNo _ _ _ hp
          · rintro n td gn he
            cases he
            simp
          · intro h1 h2
            rcases hst with hst | hst
            · exact absurd hst h1
            · exact absurd hst h2
          · intro h1 h2
            rcases hst with hst | hst
            · exact absurd hst h1
            · exact absurd hst h2
          · rintro _ n td gn he
            cases he
            rfl
        · rename_i hst
          split
          · exact h
          · rename_i f hf
            have hfs : f = .stopped → s.isOpen r.actor = false := by
              rintro rfl
              exact attempt_stopped.mp hf
            refine { h with
              fateNo := ?_, phaseNo := ?_, fateStopped := ?_, goneStopped := ?_, gone := ?_, goneSpawned := ?_ }
            · intro x hx
              rcases List.mem_append.mp hx with hx | hx
              · exact h.fateNo x hx
              · rw [List.mem_singleton.mp hx]
                exact h.phaseNo _ _ _ hp
            · rintro n td gn he
              cases he
              exact h.phaseNo _ _ _ hp
            · intro x hx hs
              rcases List.mem_append.mp hx with hx | hx
              · exact h.fateStopped x hx hs
              · rw [List.mem_singleton.mp hx] at hs ⊢
                exact hfs hs
            · rintro n td gn he
              cases he
              intro x hx
              split at hx
              · rename_i hfe
                rcases List.mem_append.mp hx with hx | hx
                · exact h.goneStopped _ _ _ hp x hx
                · rw [List.mem_singleton.mp hx]
                  exact hfs hfe
              · exact h.goneStopped _ _ _ hp x hx
            · rintro h1 h2 n td gn he j a
              cases he
              have hg := h.gone h1 h2 _ _ _ hp j a
              split
              · rename_i hfe
                subst hfe
                rw [List.mem_append, hg, List.mem_singleton]
                constructor
                · rintro (⟨r', h1, h2⟩ | h1)
                  · exact ⟨r', h1, List.mem_append_left _ h2⟩
                  · cases h1
                    exact ⟨r, rfl, List.mem_append_right _ (by simp)⟩
                · rintro ⟨r', h1, h2⟩
                  rcases List.mem_append.mp h2 with h2 | h2
                  · exact Or.inl ⟨r', h1, h2⟩
                  · rw [List.mem_singleton] at h2
                    cases h2
                    cases h1
                    exact Or.inr rfl
              · rename_i hfe
                rw [hg]
                constructor
                · rintro ⟨r', h1, h2⟩
                  exact ⟨r', h1, List.mem_append_left _ h2⟩
                · rintro ⟨r', h1, h2⟩
                  rcases List.mem_append.mp h2 with h2 | h2
                  · exact ⟨r', h1, h2⟩
                  · rw [List.mem_singleton] at h2
                    cases h2
                    exact absurd rfl hfe
            · intro h1
              exact absurd h1 hst
    · exact h
  | finish =>
    simp only [St.step]
    split
    · refine { h with ok := ok_foldl h.ok _, phaseNo := ?_, goneStopped := ?_, gone := ?_, goneSpawned := ?_ } <;> simp
    · exact h
  | task i e =>
    simp only [St.step]
    split
    · exact h
    · rename_i it hit
      have hm : it ∈ s.tasks := List.mem_of_getElem? hit
      split
      · exact h
      · rename_i f hf
        have hfs : f = .stopped → s.isOpen it.r.actor = false := by
          rintro rfl
          exact attempt_stopped.mp hf
        have hns : ¬ (s.strat ≠ .spawned ∧ s.strat ≠ .spawnedTimed) := by
          rintro ⟨h1, h2⟩
          rw [h.noTasks h1 h2] at hm
          cases hm
        refine { h with fateNo := ?_, taskNo := ?_, fateStopped := ?_, unsubStopped := ?_, gone := ?_, noTasks := ?_ }
        · intro x hx
          rcases List.mem_append.mp hx with hx | hx
          · exact h.fateNo x hx
          · rw [List.mem_singleton.mp hx]
            exact h.taskNo _ hm
        · exact fun x hx => h.taskNo x (List.mem_of_mem_eraseIdx hx)
        · intro x hx hs
          rcases List.mem_append.mp hx with hx | hx
          · exact h.fateStopped x hx hs
          · rw [List.mem_singleton.mp hx] at hs ⊢
            exact hfs hs
        · intro x hx
          dsimp only at hx
          split at hx
          · rename_i hfe
            rcases List.mem_append.mp hx with hx | hx
            · exact h.unsubStopped x hx
            · rw [List.mem_singleton.mp hx]
              exact hfs hfe
          · exact h.unsubStopped x hx
        · exact fun h1 h2 => absurd ⟨h1, h2⟩ hns
        · exact fun h1 h2 => absurd ⟨h1, h2⟩ hns
  | handleUnsub =>
    simp only [St.step]
    split
    · rename_i k a rest hp hu
      refine { h with ok := ok_unsub h.ok _ _, unsubStopped := ?_ }
      intro x hx
      exact h.unsubStopped x (by rw [hu]; exact List.mem_cons_of_mem _ hx)
    · exact h
  | close a =>
    have hc : ∀ b, s.isOpen b = false → (if b = a then false else s.isOpen b) = false := by
      intro b hb
      split
      · rfl
      · exact hb
    exact { h with
      fateStopped := fun x hx hs => hc _ (h.fateStopped x hx hs)
      unsubStopped := fun x hx => hc _ (h.unsubStopped x hx)
      goneStopped := fun n td gn hp x hx => hc _ (h.goneStopped n td gn hp x hx) }
  | setRoom a b => exact { h with }

theorem inv_run {cast : K → Rcpt → Bool} {s : St K} (h : Inv s) (ops : List (Op K)) : Inv (run cast s ops) :=
  run_induct h (fun _ op hs => inv_step hs op) ops

theorem closed_step {cast : K → Rcpt → Bool} {s : St K} {a : Nat} (h : s.isOpen a = false) (op : Op K) :
    (s.step cast op).isOpen a = false := by
  cases op <;> simp only [St.step] <;> repeat' split
  all_goals first
    | exact h
    | rfl
    | (simp only [h]; split <;> rfl)

theorem strat_step {cast : K → Rcpt → Bool} {s : St K} (op : Op K) : (s.step cast op).strat = s.strat := by
  cases op <;> simp only [St.step] <;> repeat' split
  all_goals rfl

theorem strat_run {cast : K → Rcpt → Bool} {s : St K} (ops : List (Op K)) : (run cast s ops).strat = s.strat :=
  run_induct (P := fun t => t.strat = s.strat) rfl (fun _ op h => (strat_step op).trans h) ops

/-- A publish, once it has begun, accounts for each subscription: as often as it was there when the publish began,
it has an outcome, is with a task, or is still to be done. -/
def Tally (s : St K) (n : Nat) (k : K) (r : Rcpt) (c : Nat) : Prop :=
  n < s.pubs ∧ (s.fates.map (·.1)).count ⟨n, k, r⟩ + s.tasks.count ⟨n, k, r⟩ + (s.todo n).count (k, r) = c

theorem count_eraseIdx {α : Type} [DecidableEq α] {l : List α} {i : Nat} {x : α} (h : l[i]? = some x) (y : α) :
    (l.eraseIdx i).count y + (if x = y then 1 else 0) = l.count y := by
  induction l generalizing i with
  | nil => simp at h
  | cons z rest ih =>
    cases i with
    | zero =>
      simp only [List.getElem?_cons_zero, Option.some.injEq] at h
      subst h
      simp [List.count_cons]
    | succ i =>
      simp only [List.getElem?_cons_succ] at h
      have := ih h
      simp only [List.eraseIdx_cons_succ, List.count_cons]
      omega

theorem count_single {α : Type} [DecidableEq α] (x y : α) : [x].count y = if x = y then 1 else 0 := by
  by_cases h : x = y <;> simp [h]

theorem tally_step {cast : K → Rcpt → Bool} {s : St K} {n : Nat} {k : K} {r : Rcpt} {c : Nat}
    (h : Tally s n k r c) (op : Op K) (hp : (s.step cast op).phase = .panicked → s.phase = .panicked) :
    Tally (s.step cast op) n k r c := by
  obtain ⟨hn, h⟩ := h
  cases op with
  | subscribe j r' =>
    simp only [St.step]
    split
    · exact ⟨hn, h⟩
    · exact ⟨hn, h⟩
  | unsubscribe j a =>
    simp only [St.step]
    split
    · split
      · exact ⟨hn, h⟩
      · exact ⟨hn, h⟩
    · exact ⟨hn, h⟩
  | publish sel =>
    simp only [St.step]
    split
    · rename_i hi
      refine ⟨Nat.lt_succ_of_lt hn, ?_⟩
      have h1 : s.todo n = [] := by simp [St.todo, hi]
      rw [h1] at h
      rw [← h]
      simp only [St.todo]
      rw [if_neg (by omega)]
    · exact ⟨hn, h⟩
  | deliver e =>
    simp only [St.step] at hp ⊢
    split
    · rename_i no j r' todo gone hph
      rw [hph] at hp
      have ht : s.todo n = if no = n then (j, r') :: todo else [] := by simp [St.todo, hph]
      rw [ht] at h
      have hpair : (if ((j, r') : K × Rcpt) = (k, r) then 1 else 0) = (if j = k ∧ r' = r then 1 else 0) := by
        simp
      split
      · rename_i hc
        simp only [hc, if_true] at hp
        exact absurd (hp trivial) (by simp)
      · split
        · refine ⟨hn, ?_⟩
          simp only [St.todo, List.count_append, count_single]
          by_cases he : no = n
          · subst he
            simp only [if_true, List.count_cons] at h ⊢
            by_cases hjr : j = k ∧ r' = r
            · obtain ⟨h1, h2⟩ := hjr
              subst h1 h2
              simp only [if_true, beq_self_eq_true] at h ⊢
              omega
            · have e1 : ¬ ((⟨no, j, r'⟩ : Item K) = ⟨no, k, r⟩) := by simpa using hjr
              have e2 : (((j, r') : K × Rcpt) == (k, r)) = false := by simpa using hjr
              simp only [e1, e2, if_false] at h ⊢
              simpa using h
          · have e1 : ¬ ((⟨no, j, r'⟩ : Item K) = ⟨n, k, r⟩) := by simp [he]
            simp only [he, e1, if_false] at h ⊢
            simpa using h
        · split
          · refine ⟨hn, ?_⟩
            rw [ht]
            exact h
          · refine ⟨hn, ?_⟩
            simp only [St.todo, List.map_append, List.map_cons, List.map_nil, List.count_append, count_single]
            by_cases he : no = n
            · subst he
              simp only [if_true, List.count_cons] at h ⊢
              by_cases hjr : j = k ∧ r' = r
              · obtain ⟨h1, h2⟩ := hjr
                subst h1 h2
                simp only [if_true, beq_self_eq_true] at h ⊢
                omega
              · have e1 : ¬ ((⟨no, j, r'⟩ : Item K) = ⟨no, k, r⟩) := by simpa using hjr
                have e2 : (((j, r') : K × Rcpt) == (k, r)) = false := by simpa using hjr
                simp only [e1, e2, if_false] at h ⊢
                simpa using h
            · have e1 : ¬ ((⟨no, j, r'⟩ : Item K) = ⟨n, k, r⟩) := by simp [he]
              simp only [he, e1, if_false] at h ⊢
              simpa using h
    · exact ⟨hn, h⟩
  | finish =>
    simp only [St.step]
    split
    · rename_i m gone hph
      refine ⟨hn, ?_⟩
      have h1 : s.todo n = [] := by simp [St.todo, hph]
      rw [h1] at h
      simpa [St.todo] using h
    · exact ⟨hn, h⟩
  | task i e =>
    simp only [St.step]
    split
    · exact ⟨hn, h⟩
    · rename_i it hit
      split
      · exact ⟨hn, h⟩
      · refine ⟨hn, ?_⟩
        have h1 := count_eraseIdx hit (⟨n, k, r⟩ : Item K)
        have h2 : ∀ t u f, St.todo { s with tasks := t, unsubs := u, fates := f } n = s.todo n := fun _ _ _ => rfl
        simp only [h2, List.map_append, List.map_cons, List.map_nil, List.count_append, count_single]
        omega
  | handleUnsub =>
    simp only [St.step]
    split
    · exact ⟨hn, h⟩
    · exact ⟨hn, h⟩
  | close a => exact ⟨hn, h⟩
  | setRoom a b => exact ⟨hn, h⟩

theorem panicked_step {cast : K → Rcpt → Bool} {s : St K} (h : s.phase = .panicked) (op : Op K) :
    (s.step cast op).phase = .panicked := by
  cases op <;> simp only [St.step, h] <;> repeat' split
  all_goals first
    | exact h
    | rfl
    | (rename_i h1 _; exact absurd h1 (by simp))

theorem tally_run {cast : K → Rcpt → Bool} {s : St K} {n : Nat} {k : K} {r : Rcpt} {c : Nat}
    (h : Tally s n k r c) (ops : List (Op K)) (hp : (run cast s ops).phase ≠ .panicked) :
    Tally (run cast s ops) n k r c := by
  have : (run cast s ops).phase = .panicked ∨ Tally (run cast s ops) n k r c := by
    refine run_induct (P := fun t => t.phase = .panicked ∨ Tally t n k r c) (Or.inr h) ?_ ops
    intro t op ht
    by_cases hq : (t.step cast op).phase = .panicked
    · exact Or.inl hq
    · rcases ht with ht | ht
      · exact absurd (panicked_step ht op) hq
      · exact Or.inr (tally_step ht op (fun h' => absurd h' hq))
  rcases this with h' | h'
  · exact absurd h' hp
  · exact h'

/-- When a publish begins. -/
theorem tally_publish {cast : K → Rcpt → Bool} {s : St K} (hi : Inv s) (hp : s.phase = .idle) (sel : K → Bool)
    (k : K) (r : Rcpt) :
    Tally (s.step cast (.publish sel)) s.pubs k r (if sel k then (s.view k).count r else 0) := by
  simp only [St.step, hp]
  refine ⟨Nat.lt_succ_self _, ?_⟩
  have h1 : (s.fates.map (·.1)).count ⟨s.pubs, k, r⟩ = 0 := by
    rw [List.count_eq_zero]
    intro hm
    obtain ⟨x, hx, he⟩ := List.mem_map.mp hm
    have := hi.fateNo x hx
    rw [he] at this
    exact Nat.lt_irrefl _ this
  have h2 : s.tasks.count ⟨s.pubs, k, r⟩ = 0 := by
    rw [List.count_eq_zero]
    intro hm
    exact Nat.lt_irrefl _ (hi.taskNo _ hm)
  have h3 := count_snap hi.ok sel k r
  simp only [h1, h2, St.todo, if_true, Nat.zero_add]
  exact h3

end Verif.Router
