import Verif.Router.Kept

/-!
C103 for the broker and the bus: in which order the recipients get what is published. The handler of `Publish`
(`actors/src/broker.rs` L193-264, `actors/src/message_bus.rs` L180-245) waits for each `tell` unless the strategy is one of
those that spawn a task per delivery; the tasks run in any order.
-/

namespace Verif.Router

variable {K : Type} [DecidableEq K]

/-! ### Specification -/

/-- The handler of `Publish` itself makes the deliveries. -/
def Strategy.Awaited (s : Strategy) : Prop := s ≠ .spawned ∧ s ≠ .spawnedTimed

/-- Between two moments the outcomes `old` have become `all`; those added are of publishes with number `n` or more,
those before of publishes with lesser numbers. -/
def Parted (n : Nat) (old all : List (Item K × Fate)) : Prop :=
  ∃ new, all = old ++ new ∧ (∀ x ∈ old, x.1.no < n) ∧ ∀ x ∈ new, n ≤ x.1.no

/-- The steps the router and its tasks take of themselves: nothing is sent to it. -/
def Op.Own : Op K → Prop
  | .deliver _ => True
  | .finish => True
  | .task _ _ => True
  | _ => False

/-! ### The strategies that wait -/

theorem since_step {cast : K → Rcpt → Bool} {s : St K} {n : Nat} {old : List (Item K × Fate)} (hs : s.strat.Awaited)
    (hi : Inv s) (h : (∃ new, s.fates = old ++ new ∧ ∀ x ∈ new, n ≤ x.1.no) ∧ n ≤ s.pubs ∧
      ∀ m todo gone, s.phase = .publishing m todo gone → n ≤ m) (op : Op K) :
    (∃ new, (s.step cast op).fates = old ++ new ∧ ∀ x ∈ new, n ≤ x.1.no) ∧ n ≤ (s.step cast op).pubs ∧
      ∀ m todo gone, (s.step cast op).phase = .publishing m todo gone → n ≤ m := by
  have ht := hi.noTasks hs.1 hs.2
  obtain ⟨⟨new, h1, h1'⟩, h2, h3⟩ := h
  cases op with
  | deliver e =>
    simp only [St.step]
    split
    · rename_i no k r todo gone hp
      have hn := h3 _ _ _ hp
      split
      · exact ⟨⟨new, h1, h1'⟩, h2, by simp⟩
      · split
        · rename_i hsp
          exact absurd hsp (by simp [hs.1, hs.2])
        · split
          · exact ⟨⟨new, h1, h1'⟩, h2, h3⟩
          · refine ⟨⟨new ++ [_], by simp [h1]; rfl, ?_⟩, h2, ?_⟩
            · intro x hx
              rcases List.mem_append.1 hx with hx | hx
              · exact h1' x hx
              · rw [List.mem_singleton.1 hx]; exact hn
            · intro m t g he
              simp only [Phase.publishing.injEq] at he
              rw [← he.1]; exact hn
    · exact ⟨⟨new, h1, h1'⟩, h2, h3⟩
  | publish sel =>
    simp only [St.step]
    split
    · refine ⟨⟨new, h1, h1'⟩, Nat.le_succ_of_le h2, ?_⟩
      intro m t g he
      simp only [Phase.publishing.injEq] at he
      rw [← he.1]; exact h2
    · exact ⟨⟨new, h1, h1'⟩, h2, h3⟩
  | task i e =>
    simp only [St.step, ht]
    exact ⟨⟨new, h1, h1'⟩, h2, h3⟩
  | _ =>
    simp only [St.step]
    (repeat' split) <;> first
      | exact ⟨⟨new, h1, h1'⟩, h2, h3⟩
      | exact ⟨⟨new, h1, h1'⟩, h2, by simp⟩
      | exact ⟨⟨new, h1, h1'⟩, h2, by simp_all⟩

theorem since_run {cast : K → Rcpt → Bool} {n : Nat} {old : List (Item K × Fate)} (ops : List (Op K)) :
    ∀ s : St K, s.strat.Awaited → Inv s → ((∃ new, s.fates = old ++ new ∧ ∀ x ∈ new, n ≤ x.1.no) ∧ n ≤ s.pubs ∧
      ∀ m todo gone, s.phase = .publishing m todo gone → n ≤ m) →
    (∃ new, (run cast s ops).fates = old ++ new ∧ ∀ x ∈ new, n ≤ x.1.no) := by
  induction ops with
  | nil => exact fun s _ _ h => h.1
  | cons op ops ih =>
    intro s hs hi h
    exact ih (s.step cast op) (by rw [strat_step]; exact hs) (inv_step hi op) (since_step hs hi h op)

/-- A publish that begins parts the outcomes: those of earlier publishes are all there, and no more come. -/
theorem parted {cast : K → Rcpt → Bool} {s : St K} (hs : s.strat.Awaited) (hi : Inv s) (hp : s.phase = .idle)
    (ops : List (Op K)) : Parted s.pubs s.fates (run cast s ops).fates := by
  obtain ⟨new, h1, h2⟩ := since_run (cast := cast) (n := s.pubs) (old := s.fates) ops s hs hi
    ⟨⟨[], by simp, by simp⟩, Nat.le_refl _, by simp [hp]⟩
  exact ⟨new, h1, hi.fateNo, h2⟩

/-- The outcomes come in the order of the publishes. -/
theorem sorted_step {cast : K → Rcpt → Bool} {s : St K} (hs : s.strat.Awaited)
    (hi : Inv s) (h : s.fates.Pairwise (fun x y => x.1.no ≤ y.1.no) ∧
      ∀ m todo gone, s.phase = .publishing m todo gone → ∀ x ∈ s.fates, x.1.no ≤ m) (op : Op K) :
    (s.step cast op).fates.Pairwise (fun x y => x.1.no ≤ y.1.no) ∧
      ∀ m todo gone, (s.step cast op).phase = .publishing m todo gone → ∀ x ∈ (s.step cast op).fates, x.1.no ≤ m := by
  have ht := hi.noTasks hs.1 hs.2
  obtain ⟨h1, h2⟩ := h
  cases op with
  | deliver e =>
    simp only [St.step]
    split
    · rename_i no k r todo gone hp
      have hn := h2 _ _ _ hp
      split
      · exact ⟨h1, by simp⟩
      · split
        · rename_i hsp
          exact absurd hsp (by simp [hs.1, hs.2])
        · split
          · exact ⟨h1, h2⟩
          · refine ⟨?_, ?_⟩
            · rw [List.pairwise_append]
              refine ⟨h1, by simp, ?_⟩
              intro x hx y hy
              rw [List.mem_singleton.1 hy]
              exact hn x hx
            · intro m t g he x hx
              simp only [Phase.publishing.injEq] at he
              rw [← he.1]
              rcases List.mem_append.1 hx with hx | hx
              · exact hn x hx
              · rw [List.mem_singleton.1 hx]
                exact Nat.le_refl _
    · exact ⟨h1, h2⟩
  | publish sel =>
    simp only [St.step]
    split
    · refine ⟨h1, ?_⟩
      intro m t g he x hx
      simp only [Phase.publishing.injEq] at he
      rw [← he.1]
      exact Nat.le_of_lt (hi.fateNo x hx)
    · exact ⟨h1, h2⟩
  | task i e =>
    simp only [St.step, ht]
    exact ⟨h1, h2⟩
  | _ =>
    simp only [St.step]
    (repeat' split) <;> first
      | exact ⟨h1, h2⟩
      | exact ⟨h1, by simp⟩
      | exact ⟨h1, by simp_all⟩

theorem sorted_run {cast : K → Rcpt → Bool} (ops : List (Op K)) : ∀ s : St K, s.strat.Awaited → Inv s →
    (s.fates.Pairwise (fun x y => x.1.no ≤ y.1.no) ∧
      ∀ m todo gone, s.phase = .publishing m todo gone → ∀ x ∈ s.fates, x.1.no ≤ m) →
    (run cast s ops).fates.Pairwise (fun x y => x.1.no ≤ y.1.no) := by
  induction ops with
  | nil => exact fun s _ _ h => h.1
  | cons op ops ih =>
    intro s hs hi h
    exact ih (s.step cast op) (by rw [strat_step]; exact hs) (inv_step hi op) (sorted_step hs hi h op)

/-! ### The strategies that spawn -/

theorem perm_eraseIdx {α : Type} {l : List α} {i : Nat} {x : α} (h : l[i]? = some x) : l.Perm (x :: l.eraseIdx i) := by
  induction l generalizing i with
  | nil => simp at h
  | cons z rest ih =>
    cases i with
    | zero =>
      simp only [List.getElem?_cons_zero, Option.some.injEq] at h
      subst h
      simp
    | succ i =>
      simp only [List.getElem?_cons_succ] at h
      rw [List.eraseIdx_cons_succ]
      exact ((ih h).cons z).trans (List.Perm.swap x z _)

/-- Every spawned delivery can be the next one. -/
theorem tasks_any_order {cast : K → Rcpt → Bool} (l : List (Item K)) : ∀ s : St K, l.Perm s.tasks →
    (∀ x ∈ s.tasks, s.isOpen x.r.actor = true ∧ s.room x.r.actor = true) →
    ∃ ops : List (Op K), (∀ op ∈ ops, ∃ i e, op = .task i e) ∧ (run cast s ops).tasks = [] ∧
      (run cast s ops).fates = s.fates ++ l.map (fun x => (x, Fate.accepted)) := by
  induction l with
  | nil =>
    intro s hp _
    exact ⟨[], by simp, by simpa [run] using hp.symm.eq_nil, by simp [run]⟩
  | cons x l ih =>
    intro s hp ho
    have hx : x ∈ s.tasks := hp.subset (by simp)
    obtain ⟨i, hi⟩ := List.getElem?_of_mem hx
    have he : s.step cast (.task i false) =
        { s with tasks := s.tasks.eraseIdx i, fates := s.fates ++ [(x, .accepted)] } := by
      simp [St.step, hi, St.attempt, ho x hx]
    have hper : l.Perm (s.tasks.eraseIdx i) := by
      exact (List.perm_cons x).1 (hp.trans (perm_eraseIdx hi))
    obtain ⟨ops, h1, h2, h3⟩ := ih (s.step cast (.task i false)) (by rw [he]; exact hper) (by
      rw [he]
      exact fun y hy => ho y (mem_of_eraseIdx hy))
    refine ⟨.task i false :: ops, ?_, h2, ?_⟩
    · intro op hop
      rcases List.mem_cons.1 hop with rfl | hop
      · exact ⟨i, false, rfl⟩
      · exact h1 op hop
    · rw [show run cast s (.task i false :: ops) = run cast (s.step cast (.task i false)) ops from rfl, h3, he]
      simp

/-- The loop of a publish with a spawning strategy: it ends, and leaves one task per delivery. -/
theorem spawn_all {cast : K → Rcpt → Bool} (todo : List (K × Rcpt)) : ∀ (s : St K) (n : Nat),
    s.strat = .spawned ∨ s.strat = .spawnedTimed → s.phase = .publishing n todo [] →
    (∀ x ∈ todo, cast x.1 x.2 = true) →
    run cast s (List.replicate todo.length (.deliver false) ++ [.finish]) =
      { s with phase := .idle, tasks := s.tasks ++ todo.map (fun x => ⟨n, x.1, x.2⟩) } := by
  induction todo with
  | nil =>
    intro s n hs hp _
    simp [run, St.step, hp]
  | cons x todo ih =>
    intro s n hs hp hc
    have he : s.step cast (.deliver false) =
        { s with phase := .publishing n todo [], tasks := s.tasks ++ [⟨n, x.1, x.2⟩] } := by
      obtain ⟨k, r⟩ := x
      have := hc (k, r) (by simp)
      simp only at this
      simp [St.step, hp, this, hs]
    have := ih (s.step cast (.deliver false)) n (by rw [strat_step]; exact hs) (by rw [he])
      (fun y hy => hc y (by simp [hy]))
    rw [List.length_cons, List.replicate_succ, List.cons_append,
      show run cast s (.deliver false :: (List.replicate todo.length (.deliver false) ++ [.finish])) =
        run cast (s.step cast (.deliver false)) (List.replicate todo.length (.deliver false) ++ [.finish]) from rfl, this, he]
    simp

/-- The steps of the tasks of two deliveries: first the second, then the first. -/
theorem task_pair {cast : K → Rcpt → Bool} {s : St K} {x y : Item K} (hx : x ∈ s.tasks) (hy : y ∈ s.tasks) (hne : x ≠ y)
    (ox : s.isOpen x.r.actor = true ∧ s.room x.r.actor = true) (oy : s.isOpen y.r.actor = true ∧ s.room y.r.actor = true) :
    ∃ i j, (run cast s [.task i false, .task j false]).fates = s.fates ++ [(y, .accepted), (x, .accepted)] := by
  obtain ⟨i, hi⟩ := List.getElem?_of_mem hy
  have hx' : x ∈ s.tasks.eraseIdx i := by
    have := (perm_eraseIdx hi).subset hx
    rcases List.mem_cons.1 this with h | h
    · exact absurd h hne
    · exact h
  obtain ⟨j, hj⟩ := List.getElem?_of_mem hx'
  refine ⟨i, j, ?_⟩
  have he : s.step cast (.task i false) =
      { s with tasks := s.tasks.eraseIdx i, fates := s.fates ++ [(y, .accepted)] } := by
    simp [St.step, hi, St.attempt, oy]
  show ((s.step cast (.task i false)).step cast (.task j false)).fates = _
  rw [he]
  simp [St.step, hj, St.attempt, ox]

/-- Of two publishes that come upon the same subscription the second overtakes the first. -/
theorem overtakes {cast : K → Rcpt → Bool} {s : St K} (hi : Inv s) (hs : s.strat = .spawned ∨ s.strat = .spawnedTimed)
    (hp : s.phase = .idle) (hc : ∀ k r, r ∈ s.view k → cast k r = true) {k : K} {r : Rcpt} (hr : r ∈ s.view k)
    (ho : s.isOpen r.actor = true ∧ s.room r.actor = true) (sel sel' : K → Bool) (h1 : sel k = true) (h2 : sel' k = true) :
    ∃ a b i j, (run cast s (.publish sel :: (List.replicate a (.deliver false) ++ [.finish]) ++
        .publish sel' :: (List.replicate b (.deliver false) ++ [.finish]) ++ [.task i false, .task j false])).fates =
      s.fates ++ [(⟨s.pubs + 1, k, r⟩, .accepted), (⟨s.pubs, k, r⟩, .accepted)] := by
  have hall : ∀ (f : K → Bool), ∀ x ∈ snap s.subs f, cast x.1 x.2 = true := by
    intro f x hx
    obtain ⟨j, q⟩ := x
    exact hc _ _ ((mem_snap hi.ok f j q).1 hx).2
  have hmem : ∀ (f : K → Bool), f k = true → (k, r) ∈ snap s.subs f := fun f hf => (mem_snap hi.ok f k r).2 ⟨hf, hr⟩
  -- the first publish
  have e1 : s.step cast (.publish sel) =
      { s with phase := .publishing s.pubs (snap s.subs sel) [], pubs := s.pubs + 1 } := by
    simp only [St.step, hp]; rfl
  have r1 := spawn_all (cast := cast) (snap s.subs sel) (s.step cast (.publish sel)) s.pubs (by rw [e1]; exact hs)
    (by rw [e1]) (hall sel)
  rw [e1] at r1
  -- the second
  have e2 : (run cast s (.publish sel :: (List.replicate (snap s.subs sel).length (.deliver false) ++ [.finish]))).step cast
      (.publish sel') = { s with
        phase := .publishing (s.pubs + 1) (snap s.subs sel') []
        pubs := s.pubs + 1 + 1
        tasks := s.tasks ++ (snap s.subs sel).map (fun x => ⟨s.pubs, x.1, x.2⟩) } := by
    rw [show run cast s (.publish sel :: (List.replicate (snap s.subs sel).length (.deliver false) ++ [.finish])) =
      run cast (s.step cast (.publish sel)) (List.replicate (snap s.subs sel).length (.deliver false) ++ [.finish]) from rfl,
      e1, r1]
    simp only [St.step]; rfl
  have r2 := spawn_all (cast := cast) (snap s.subs sel') ({ s with
        phase := .publishing (s.pubs + 1) (snap s.subs sel') []
        pubs := s.pubs + 1 + 1
        tasks := s.tasks ++ (snap s.subs sel).map (fun x => ⟨s.pubs, x.1, x.2⟩) }) (s.pubs + 1) hs rfl (hall sel')
  obtain ⟨i, j, h⟩ := task_pair (cast := cast) (x := ⟨s.pubs, k, r⟩) (y := ⟨s.pubs + 1, k, r⟩)
    (s := { s with
        phase := .idle
        pubs := s.pubs + 1 + 1
        tasks := s.tasks ++ (snap s.subs sel).map (fun x => ⟨s.pubs, x.1, x.2⟩) ++
          (snap s.subs sel').map (fun x => ⟨s.pubs + 1, x.1, x.2⟩) })
    (by simp only [List.mem_append, List.mem_map]
        exact .inl (.inr ⟨(k, r), hmem sel h1, rfl⟩))
    (by simp only [List.mem_append, List.mem_map]
        exact .inr ⟨(k, r), hmem sel' h2, rfl⟩)
    (by simp) ho ho
  refine ⟨(snap s.subs sel).length, (snap s.subs sel').length, i, j, ?_⟩
  rw [run_append, run_append, show ∀ l, run cast
    (run cast s (.publish sel :: (List.replicate (snap s.subs sel).length (.deliver false) ++ [.finish])))
      (.publish sel' :: l) = run cast ((run cast s (.publish sel :: (List.replicate (snap s.subs sel).length
        (.deliver false) ++ [.finish]))).step cast (.publish sel')) l from fun _ => rfl, e2, r2]
  exact h

/-! ### The broker -/

omit [DecidableEq K] in
theorem acceptedBy_pairwise {s : St K} (h : s.fates.Pairwise (fun x y => x.1.no ≤ y.1.no)) (a : Nat) :
    (s.acceptedBy a).Pairwise (fun x y => x.no ≤ y.no) := by
  unfold St.acceptedBy
  rw [List.pairwise_map]
  exact h.filter _

section Broker

variable {P T : Type} [DecidableEq P] (mat : P → T → Bool) (strat : Strategy)

/-- **C103, the broker waits**: with a strategy that spawns no tasks, every actor is handed what is published in the order
of the publishes, under whatever patterns it has subscribed; and when the broker begins a publish, all that is to
become of the publishes before it, for any recipient, has become of them. -/
theorem broker_in_order_partial (hs : strat.Awaited) (past rest : List (BrokerOp P T))
    (hp : (broker mat strat past).phase = .idle) (a : Nat) :
    Parted (broker mat strat past).pubs (broker mat strat past).fates (broker mat strat (past ++ rest)).fates ∧
      ((broker mat strat (past ++ rest)).acceptedBy a).Pairwise (fun x y => x.no ≤ y.no) := by
  refine ⟨?_, acceptedBy_pairwise (sorted_run _ _ hs (inv_init strat) ⟨.nil, by simp⟩) a⟩
  rw [broker_append]
  exact parted (by rw [broker, strat_run]; exact hs) (broker_inv mat strat past) hp _

/-- Actor 1 has no room when the first message is published: the broker waits, also with the second message. -/
example : let past : List (BrokerOp (List Nat) Nat) := [.subscribe [5, 6] 1, .subscribe [5] 2, .setRoom 1 false, .publish 5,
      .deliver true, .setRoom 1 true, .deliver true, .deliver true, .finish]
    Strategy.Awaited .guaranteed ∧ (broker exMat .guaranteed past).phase = .idle ∧
      ((broker exMat .guaranteed (past ++ [.publish 6, .deliver false, .finish])).acceptedBy 1).map (·.no) = [0, 1] := by
  simp only [Strategy.Awaited]
  decide

/-- **C103 is false of the strategies that spawn**: whatever has happened, of two publishes that match a subscription of a
running actor with room the second can be handed to it before the first, with nothing else going on. -/
theorem broker_spawned_overtakes (hs : strat = .spawned ∨ strat = .spawnedTimed) (past : List (BrokerOp P T))
    (hp : (broker mat strat past).phase = .idle) (p : P) (r : Rcpt) (hr : r ∈ (broker mat strat past).view p)
    (ho : (broker mat strat past).isOpen r.actor = true) (hm : (broker mat strat past).room r.actor = true)
    (t t' : T) (h1 : mat p t = true) (h2 : mat p t' = true) :
    ∃ mid rest : List (BrokerOp P T), (∀ op ∈ mid ++ rest, (op.op mat).Own) ∧
      (broker mat strat (past ++ (.publish t :: mid ++ .publish t' :: rest))).acceptedBy r.actor =
        (broker mat strat past).acceptedBy r.actor ++
          [⟨(broker mat strat past).pubs + 1, p, r⟩, ⟨(broker mat strat past).pubs, p, r⟩] := by
  obtain ⟨a, b, i, j, h⟩ := overtakes (cast := fun _ _ => true) (broker_inv mat strat past)
    (by rw [broker, strat_run]; exact hs) hp (fun _ _ _ => rfl) hr ⟨ho, hm⟩ (fun p => mat p t) (fun p => mat p t') h1 h2
  refine ⟨List.replicate a (.deliver false) ++ [.finish],
    List.replicate b (.deliver false) ++ [.finish] ++ [.task i false, .task j false], ?_, ?_⟩
  · intro op hop
    simp only [List.mem_append, List.mem_replicate, List.mem_cons, List.not_mem_nil, or_false] at hop
    rcases hop with (⟨_, rfl⟩ | rfl) | (⟨_, rfl⟩ | rfl) | rfl | rfl <;> exact trivial
  · rw [broker_append]
    unfold St.acceptedBy
    simp only [List.map_append, List.map_cons, List.map_replicate, List.map_nil, BrokerOp.op, List.cons_append,
      List.append_assoc, List.nil_append] at h ⊢
    rw [h]
    simp

example : let past : List (BrokerOp (List Nat) Nat) := [.subscribe [5, 6] 1, .subscribe [5] 2, .publish 5, .deliver false,
      .deliver false, .finish]
    (broker exMat .spawned past).phase = .idle ∧ (⟨1, 0⟩ : Rcpt) ∈ (broker exMat .spawned past).view [5, 6] ∧
      (broker exMat .spawned past).isOpen 1 = true ∧ (broker exMat .spawned past).room 1 = true ∧
      exMat [5, 6] 5 = true ∧ exMat [5, 6] 6 = true ∧ (broker exMat .spawned past).tasks.length = 2 := by
  decide

/-- **C103, spawned deliveries come in any order**: whatever has happened, the deliveries under way can be made in every
order there is, if their recipients run and have room. -/
theorem broker_spawned_any_order (past : List (BrokerOp P T)) (l : List (Item P))
    (hl : l.Perm (broker mat strat past).tasks)
    (ho : ∀ x ∈ l, (broker mat strat past).isOpen x.r.actor = true ∧ (broker mat strat past).room x.r.actor = true) :
    ∃ rest : List (BrokerOp P T), (∀ op ∈ rest, (op.op mat).Own) ∧ ∀ a,
      (broker mat strat (past ++ rest)).acceptedBy a =
        (broker mat strat past).acceptedBy a ++ l.filter (fun x => x.r.actor = a) := by
  obtain ⟨ops, h1, h2, h3⟩ := tasks_any_order (cast := fun _ _ => true) l (broker mat strat past) hl
    (fun x hx => ho x (hl.symm.subset hx))
  have hback : ∃ rest : List (BrokerOp P T), rest.map (BrokerOp.op mat) = ops ∧ ∀ op ∈ rest, (op.op mat).Own := by
    clear h2 h3
    induction ops with
    | nil => exact ⟨[], rfl, by simp⟩
    | cons op ops ih =>
      obtain ⟨rest, e, ho⟩ := ih (fun o h => h1 o (by simp [h]))
      obtain ⟨i, x, rfl⟩ := h1 op (by simp)
      refine ⟨.task i x :: rest, by simp [BrokerOp.op, e], ?_⟩
      intro o h
      rcases List.mem_cons.1 h with rfl | h
      · exact trivial
      · exact ho o h
  obtain ⟨rest, e, how⟩ := hback
  refine ⟨rest, how, fun a => ?_⟩
  rw [broker_append, e]
  unfold St.acceptedBy
  rw [h3, List.filter_append, List.map_append]
  congr 1
  clear h3 e how hl ho h1
  induction l with
  | nil => rfl
  | cons x l ih =>
    simp only [List.map_cons, List.filter_cons]
    by_cases hx : x.r.actor = a <;> simpa [hx] using ih

/-- Three messages under way to actor 1, which can come in the order 2, 0, 1. -/
example : let past : List (BrokerOp (List Nat) Nat) := [.subscribe [5, 6] 1, .publish 5, .deliver false, .finish, .publish 6,
      .deliver false, .finish, .publish 5, .deliver false, .finish]
    List.Perm [⟨2, [5, 6], ⟨1, 0⟩⟩, ⟨0, [5, 6], ⟨1, 0⟩⟩, ⟨1, [5, 6], ⟨1, 0⟩⟩] (broker exMat .spawnedTimed past).tasks ∧
      (broker exMat .spawnedTimed past).isOpen 1 = true ∧ (broker exMat .spawnedTimed past).room 1 = true := by
  decide

end Broker

/-! ### The bus -/

/-- **C103, the bus waits**: with a strategy that spawns no tasks, every actor is handed what is published in the order of
the publishes, of whatever types; and when the bus begins a publish, all that is to become of the publishes before it
has become of them. -/
theorem bus_in_order_partial (strat : Strategy) (hs : strat.Awaited) (past rest : List BusOp)
    (hp : (bus strat past).phase = .idle) (a : Nat) :
    Parted (bus strat past).pubs (bus strat past).fates (bus strat (past ++ rest)).fates ∧
      ((bus strat (past ++ rest)).acceptedBy a).Pairwise (fun x y => x.no ≤ y.no) := by
  refine ⟨?_, acceptedBy_pairwise (sorted_run _ _ hs (inv_init strat) ⟨.nil, by simp⟩) a⟩
  rw [bus_append]
  exact parted (by rw [bus, strat_run]; exact hs) (bus_inv strat past) hp _

example : let past : List BusOp := [.register 5 1, .register 6 1, .publish 5, .deliver false, .finish]
    Strategy.Awaited .bestEffort ∧ (bus .bestEffort past).phase = .idle ∧
      ((bus .bestEffort (past ++ [.publish 6, .deliver false, .finish, .publish 5, .deliver false])).acceptedBy 1).map
        (fun x => (x.no, x.r.ty)) = [(0, 5), (1, 6), (2, 5)] := by
  simp only [Strategy.Awaited]
  decide

/-- **C103 is false of the strategies that spawn**, for the bus as for the broker: of two messages of a type the second
can be handed to an actor before the first. -/
theorem bus_spawned_overtakes (strat : Strategy) (hs : strat = .spawned ∨ strat = .spawnedTimed) (past : List BusOp)
    (hp : (bus strat past).phase = .idle) (ty : Nat) (r : Rcpt) (hr : r ∈ (bus strat past).view ty)
    (ho : (bus strat past).isOpen r.actor = true) (hm : (bus strat past).room r.actor = true) :
    ∃ mid rest : List BusOp, (∀ op ∈ mid ++ rest, op.op.Own) ∧
      (bus strat (past ++ (.publish ty :: mid ++ .publish ty :: rest))).acceptedBy r.actor =
        (bus strat past).acceptedBy r.actor ++ [⟨(bus strat past).pubs + 1, ty, r⟩, ⟨(bus strat past).pubs, ty, r⟩] := by
  obtain ⟨a, b, i, j, h⟩ := overtakes (cast := fun k r => r.ty == k) (bus_inv strat past)
    (by rw [bus, strat_run]; exact hs) hp (fun k r h => by simp [bus_types strat past k r h]) hr ⟨ho, hm⟩
    (fun k => k == ty) (fun k => k == ty) (by simp) (by simp)
  refine ⟨List.replicate a (.deliver false) ++ [.finish],
    List.replicate b (.deliver false) ++ [.finish] ++ [.task i false, .task j false], ?_, ?_⟩
  · intro op hop
    simp only [List.mem_append, List.mem_replicate, List.mem_cons, List.not_mem_nil, or_false] at hop
    rcases hop with (⟨_, rfl⟩ | rfl) | (⟨_, rfl⟩ | rfl) | rfl | rfl <;> exact trivial
  · rw [bus_append]
    unfold St.acceptedBy
    simp only [List.map_append, List.map_cons, List.map_replicate, List.map_nil, BusOp.op, List.cons_append,
      List.append_assoc, List.nil_append] at h ⊢
    rw [h]
    simp

example : let past : List BusOp := [.register 5 1, .register 6 1, .register 5 2, .publish 5, .deliver false, .deliver false,
      .finish, .task 1 false]
    (bus .spawnedTimed past).phase = .idle ∧ (⟨1, 5⟩ : Rcpt) ∈ (bus .spawnedTimed past).view 5 ∧
      (bus .spawnedTimed past).isOpen 1 = true ∧ (bus .spawnedTimed past).room 1 = true ∧
      (bus .spawnedTimed past).tasks.length = 1 := by
  decide

end Verif.Router
