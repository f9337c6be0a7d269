import Verif.Router.Props

/-!
C47: what the delivery strategies promise. The theorems are about every state a broker or bus can be in (`Inv`),
so they hold of both; `broker_inv` and `bus_inv` say so.
-/

namespace Verif.Router

variable {K : Type} [DecidableEq K]

/-- **C47, Guaranteed (and Spawned) never drops**: no delivery is ever given up for want of room. -/
theorem guaranteed_never_drops {cast : K → Rcpt → Bool} (strat : Strategy)
    (hst : strat = .guaranteed ∨ strat = .spawned) (ops : List (Op K)) :
    ∀ x ∈ (run cast { strat := strat } ops).fates, x.2 ≠ .full := by
  suffices h : ∀ x ∈ (run cast { strat := strat } ops).fates, x.2 ≠ .full from h
  have hat : ∀ (s : St K) a e f, s.attempt a true false e = some f → f ≠ .full := by
    intro s a e f
    simp only [St.attempt]
    repeat' split
    all_goals simp_all
    all_goals (rintro rfl; simp)
  refine (run_induct (P := fun s : St K => s.strat = strat ∧ ∀ x ∈ s.fates, x.2 ≠ .full) ⟨rfl, by simp⟩ ?_ ops).2
  rintro s op ⟨hs, h⟩
  refine ⟨by rw [strat_step]; exact hs, ?_⟩
  cases op with
  | deliver e =>
    simp only [St.step]
    repeat' split
    all_goals first
      | exact h
      | skip
    all_goals
      rename_i hn _ f hf _
      intro x hx
      rcases List.mem_append.mp hx with hx | hx
      · exact h x hx
      · rw [List.mem_singleton.mp hx]
        have hg : s.strat = .guaranteed := by
          rcases hst with hst | hst
          · rw [hs, hst]
          · exact absurd (Or.inl (by rw [hs, hst])) hn
        rw [hg] at hf
        exact hat s _ e f (by simpa using hf)
  | task i e =>
    simp only [St.step]
    repeat' split
    all_goals first
      | exact h
      | skip
    all_goals
      rename_i f hf _
      intro x hx
      rcases List.mem_append.mp hx with hx | hx
      · exact h x hx
      · rw [List.mem_singleton.mp hx]
        have hg : decide (s.strat = .spawnedTimed) = false := by
          rw [hs]
          rcases hst with hst | hst <;> simp [hst]
        rw [hg] at hf
        exact hat s _ e f hf
  | _ =>
    simp only [St.step]
    repeat' split
    all_goals exact h

example : ((run (fun _ _ => true) { strat := .guaranteed } [.subscribe 0 ⟨1, 0⟩, .subscribe 0 ⟨2, 0⟩, .setRoom 1 false,
      .publish (fun _ => true), .deliver true, .setRoom 1 true, .deliver true, .deliver true]).fates : List (Item Nat × Fate))
    = [(⟨0, 0, ⟨1, 0⟩⟩, .accepted), (⟨0, 0, ⟨2, 0⟩⟩, .accepted)] := by
  decide

/-- How many deliveries of publish `n` to `r` filed under `k` were accepted by its mailbox. -/
def St.accepted (s : St K) (n : Nat) (k : K) (r : Rcpt) : Nat :=
  (s.fates.filter (fun x => x = (⟨n, k, r⟩, Fate.accepted))).length

theorem accepted_eq {s : St K} {n : Nat} {k : K} {r : Rcpt}
    (h : ∀ x ∈ s.fates, x.1 = ⟨n, k, r⟩ → x.2 = .accepted) : s.accepted n k r = s.outcomes n k r := by
  unfold St.accepted St.outcomes
  congr 1
  apply List.filter_congr
  intro x hx
  rw [Bool.eq_iff_iff]
  simp only [decide_eq_true_eq]
  constructor
  · rintro rfl; rfl
  · intro he
    have := h x hx he
    obtain ⟨a, b⟩ := x
    simp only at he this
    rw [he, this]

/-- **C47, Guaranteed reaches every live recipient**: when a publish is over, every recipient that is still running
has accepted the message once per subscription. (With Spawned as well.) -/
theorem guaranteed_reaches_live {cast : K → Rcpt → Bool} (strat : Strategy)
    (hst : strat = .guaranteed ∨ strat = .spawned) (past rest : List (Op K)) (sel : K → Bool)
    (hp : (run cast { strat := strat } past).phase = .idle)
    (hn : (run cast { strat := strat } (past ++ .publish sel :: rest)).phase ≠ .panicked) (k : K) (r : Rcpt) :
    let s := run cast { strat := strat } past
    let s' := run cast { strat := strat } (past ++ .publish sel :: rest)
    s'.Over s.pubs → s'.isOpen r.actor = true → s'.accepted s.pubs k r = if sel k then (s.view k).count r else 0 := by
  intro s s' ho hop
  have hi : Inv s := inv_run (inv_init strat) past
  have hi' : Inv s' := inv_run (inv_init strat) _
  have hf := guaranteed_never_drops (cast := cast) strat hst (past ++ .publish sel :: rest)
  rw [accepted_eq]
  · have hc := publish_counts (cast := cast) hi hp sel rest (by rw [run_append] at hn; exact hn) k r
    have e : run cast s (.publish sel :: rest) = s' := (run_append cast _ past _).symm
    rw [e] at hc
    exact hc.2 ho
  · intro x hx he
    cases hf2 : x.2 with
    | accepted => rfl
    | full => exact absurd hf2 (hf x hx)
    | stopped =>
      have := hi'.fateStopped x hx hf2
      rw [he, hop] at this
      cases this

example : let s' := run (fun _ _ => true) { strat := .guaranteed } ([.subscribe 0 ⟨1, 0⟩, .subscribe 0 ⟨2, 0⟩,
      .subscribe 0 ⟨3, 0⟩, .setRoom 1 false] ++ .publish (fun _ => true) :: [.deliver true, .setRoom 1 true,
      .deliver true, .close 2, .deliver true, .deliver true, .finish])
    s'.phase = .idle ∧ s'.tasks = [] ∧ s'.isOpen 3 = true ∧ s'.accepted 0 0 ⟨3, 0⟩ = 1 ∧ s'.accepted 0 0 ⟨2, 0⟩ = 0 := by
  decide

/-- What becomes of a send, said without the model's `attempt`: `none` if it has to wait. -/
def Ruling (running room waits limited expired : Bool) (f : Option Fate) : Prop :=
  (f = some .stopped ↔ running = false) ∧
  (f = some .accepted ↔ running = true ∧ room = true) ∧
  (f = some .full ↔ running = true ∧ room = false ∧ (waits = false ∨ (limited = true ∧ expired = true))) ∧
  (f = none ↔ running = true ∧ room = false ∧ waits = true ∧ (limited = false ∨ expired = false))

omit [DecidableEq K] in
theorem ruling (s : St K) (a : Nat) (w l e : Bool) : Ruling (s.isOpen a) (s.room a) w l e (s.attempt a w l e) := by
  unfold Ruling St.attempt
  cases s.isOpen a <;> cases s.room a <;> cases w <;> cases l <;> cases e <;> simp

/-- The next delivery of a publish is done, with that outcome, or (`none`) is left for later. -/
def Delivered (s s' : St K) (n : Nat) (k : K) (r : Rcpt) (todo : List (K × Rcpt)) : Option Fate → Prop
  | none => s'.fates = s.fates ∧ s'.todo n = (k, r) :: todo
  | some f => s'.fates = s.fates ++ [(⟨n, k, r⟩, f)] ∧ s'.todo n = todo

theorem deliver_ruling {cast : K → Rcpt → Bool} {s : St K} {n : Nat} {k : K} {r : Rcpt} {todo : List (K × Rcpt)}
    {gone : List (K × Nat)} (hp : s.phase = .publishing n ((k, r) :: todo) gone) (hc : cast k r = true) (e : Bool)
    (h1 : s.strat ≠ .spawned) (h2 : s.strat ≠ .spawnedTimed) :
    ∃ f, Ruling (s.isOpen r.actor) (s.room r.actor) (s.strat ≠ .bestEffort) (s.strat = .timed) e f ∧
      Delivered s (s.step cast (.deliver e)) n k r todo f := by
  refine ⟨_, ruling s r.actor _ _ e, ?_⟩
  simp only [St.step, hp, hc, h1, h2, Bool.not_true, Bool.false_eq_true, if_false, or_self]
  split
  · rename_i hf
    rw [hf]
    exact ⟨rfl, by simp [St.todo, hp]⟩
  · rename_i f hf
    rw [hf]
    exact ⟨rfl, by simp [St.todo]⟩

/-- **C47, BestEffort never waits and drops exactly for full mailboxes**: the next delivery of a publish is always
done at once; it is dropped exactly if the recipient runs and has no room, and accepted if it has. -/
theorem best_effort_exact {cast : K → Rcpt → Bool} {s : St K} (hst : s.strat = .bestEffort) {n : Nat} {k : K}
    {r : Rcpt} {todo : List (K × Rcpt)} {gone : List (K × Nat)}
    (hp : s.phase = .publishing n ((k, r) :: todo) gone) (hc : cast k r = true) (e : Bool) :
    ∃ f, (s.step cast (.deliver e)).fates = s.fates ++ [(⟨n, k, r⟩, f)] ∧ (s.step cast (.deliver e)).todo n = todo ∧
      (f = .full ↔ s.isOpen r.actor = true ∧ s.room r.actor = false) ∧
      (f = .accepted ↔ s.isOpen r.actor = true ∧ s.room r.actor = true) ∧
      (f = .stopped ↔ s.isOpen r.actor = false) := by
  obtain ⟨f, ⟨r1, r2, r3, r4⟩, hd⟩ := deliver_ruling hp hc e (by simp [hst]) (by simp [hst])
  cases f with
  | none => simp [hst] at r4
  | some f =>
    refine ⟨f, hd.1, hd.2, ?_⟩
    simp [hst] at r1 r2 r3
    exact ⟨r3, r2, r1⟩

example : ∃ s : St Nat, s.strat = .bestEffort ∧ s.phase = .publishing 0 [(0, ⟨1, 0⟩), (0, ⟨2, 0⟩)] [] ∧
    s.isOpen 1 = true ∧ s.room 1 = false ∧
    (s.step (fun _ _ => true) (.deliver false)).fates = [(⟨0, 0, ⟨1, 0⟩⟩, .full)] :=
  ⟨run (fun _ _ => true) { strat := .bestEffort } [.subscribe 0 ⟨1, 0⟩, .subscribe 0 ⟨2, 0⟩, .setRoom 1 false,
    .publish (fun _ => true)], by decide⟩

/-- **C47, TimedDelivery gives up only on recipients without room within the time**: a delivery is dropped exactly
if the recipient runs, has no room, and the time is over. -/
theorem timed_exact {cast : K → Rcpt → Bool} {s : St K} (hst : s.strat = .timed) {n : Nat} {k : K}
    {r : Rcpt} {todo : List (K × Rcpt)} {gone : List (K × Nat)}
    (hp : s.phase = .publishing n ((k, r) :: todo) gone) (hc : cast k r = true) (e : Bool) :
    ∃ f, Delivered s (s.step cast (.deliver e)) n k r todo f ∧
      (f = some .full ↔ s.isOpen r.actor = true ∧ s.room r.actor = false ∧ e = true) ∧
      (f = some .accepted ↔ s.isOpen r.actor = true ∧ s.room r.actor = true) ∧
      (f = some .stopped ↔ s.isOpen r.actor = false) ∧
      (f = none ↔ s.isOpen r.actor = true ∧ s.room r.actor = false ∧ e = false) := by
  obtain ⟨f, ⟨r1, r2, r3, r4⟩, hd⟩ := deliver_ruling hp hc e (by simp [hst]) (by simp [hst])
  refine ⟨f, hd, ?_⟩
  simp [hst] at r1 r2 r3 r4
  exact ⟨r3, r2, r1, r4⟩

example : ∃ s : St Nat, s.strat = .timed ∧ s.phase = .publishing 0 [(0, ⟨1, 0⟩), (0, ⟨2, 0⟩)] [] ∧
    (s.step (fun _ _ => true) (.deliver false)).fates = [] ∧
    (s.step (fun _ _ => true) (.deliver true)).fates = [(⟨0, 0, ⟨1, 0⟩⟩, .full)] :=
  ⟨run (fun _ _ => true) { strat := .timed } [.subscribe 0 ⟨1, 0⟩, .subscribe 0 ⟨2, 0⟩, .setRoom 1 false,
    .publish (fun _ => true)], by decide⟩

/-- **C47, Guaranteed waits**: a delivery is never dropped; it waits exactly while the recipient runs without room. -/
theorem guaranteed_waits {cast : K → Rcpt → Bool} {s : St K} (hst : s.strat = .guaranteed) {n : Nat} {k : K}
    {r : Rcpt} {todo : List (K × Rcpt)} {gone : List (K × Nat)}
    (hp : s.phase = .publishing n ((k, r) :: todo) gone) (hc : cast k r = true) (e : Bool) :
    ∃ f, Delivered s (s.step cast (.deliver e)) n k r todo f ∧ f ≠ some .full ∧
      (f = some .accepted ↔ s.isOpen r.actor = true ∧ s.room r.actor = true) ∧
      (f = some .stopped ↔ s.isOpen r.actor = false) ∧
      (f = none ↔ s.isOpen r.actor = true ∧ s.room r.actor = false) := by
  obtain ⟨f, ⟨r1, r2, r3, r4⟩, hd⟩ := deliver_ruling hp hc e (by simp [hst]) (by simp [hst])
  refine ⟨f, hd, ?_⟩
  simp [hst] at r1 r2 r3 r4
  exact ⟨r3, r2, r1, r4⟩

example : ∃ s : St Nat, s.strat = .guaranteed ∧ s.phase = .publishing 0 [(0, ⟨1, 0⟩), (0, ⟨2, 0⟩)] [] ∧
    (s.step (fun _ _ => true) (.deliver true)).fates = [] :=
  ⟨run (fun _ _ => true) { strat := .guaranteed } [.subscribe 0 ⟨1, 0⟩, .subscribe 0 ⟨2, 0⟩, .setRoom 1 false,
    .publish (fun _ => true)], by decide⟩

/-- **C47, a task's delivery** is up to its recipient alone: what the other recipients do plays no part. -/
theorem task_ruling {cast : K → Rcpt → Bool} {s : St K} {i : Nat} {it : Item K} (hi : s.tasks[i]? = some it)
    (e : Bool) :
    ∃ f, Ruling (s.isOpen it.r.actor) (s.room it.r.actor) true (s.strat = .spawnedTimed) e f ∧
      match f with
      | none => s.step cast (.task i e) = s
      | some f => (s.step cast (.task i e)).fates = s.fates ++ [(it, f)] ∧
          (s.step cast (.task i e)).tasks = s.tasks.eraseIdx i := by
  refine ⟨_, ruling s it.r.actor true _ e, ?_⟩
  simp only [St.step, hi]
  split
  · rename_i hf
    simp [hf]
  · rename_i f hf
    simp [hf]

example : ∃ s : St Nat, s.tasks[1]? = some ⟨0, 0, ⟨2, 0⟩⟩ ∧ s.room 1 = false ∧
    (s.step (fun _ _ => true) (.task 1 false)).fates = [(⟨0, 0, ⟨2, 0⟩⟩, .accepted)] :=
  ⟨run (fun _ _ => true) { strat := .spawned } [.subscribe 0 ⟨1, 0⟩, .subscribe 0 ⟨2, 0⟩, .setRoom 1 false,
    .publish (fun _ => true), .deliver false, .deliver false], by decide⟩

/-- **C47, the broker's tasks**: with a spawning strategy, a publish on a broker makes a task of each delivery at once, and a
task that is polled while its recipient runs and has room delivers, whatever the broker is doing. -/
theorem broker_spawned_delivers {P T : Type} [DecidableEq P] (mat : P → T → Bool) (strat : Strategy)
    (hst : strat = .spawned ∨ strat = .spawnedTimed) (past : List (BrokerOp P T)) :
    (∀ n k r todo gone e, (broker mat strat past).phase = .publishing n ((k, r) :: todo) gone →
      (broker mat strat (past ++ [.deliver e])).tasks = (broker mat strat past).tasks ++ [⟨n, k, r⟩] ∧
      (broker mat strat (past ++ [.deliver e])).phase = .publishing n todo gone) ∧
    (∀ i it e, (broker mat strat past).tasks[i]? = some it → (broker mat strat past).isOpen it.r.actor = true →
      (broker mat strat past).room it.r.actor = true →
      (broker mat strat (past ++ [.task i e])).fates = (broker mat strat past).fates ++ [(it, .accepted)] ∧
      (broker mat strat (past ++ [.task i e])).tasks = (broker mat strat past).tasks.eraseIdx i) := by
  have hs : (broker mat strat past).strat = strat := strat_run _
  constructor
  · intro n k r todo gone e hp
    rw [broker_snoc]
    simp only [BrokerOp.op, St.step, hp, hs, hst, Bool.not_true, Bool.false_eq_true, if_false, if_true, and_self]
  · intro i it e hi ho hr
    rw [broker_snoc]
    obtain ⟨f, hf, hd⟩ := task_ruling (cast := fun _ _ => true) hi e
    have := hf.2.1.mpr ⟨ho, hr⟩
    subst this
    exact hd

/-- Actor 1 has no room; the task for actor 2 delivers. -/
example : let past : List (BrokerOp (List Nat) Nat) := [.subscribe [5] 1, .subscribe [5] 2, .setRoom 1 false, .publish 5, .deliver false, .deliver false]
    (broker exMat .spawned past).tasks = [⟨0, [5], ⟨1, 0⟩⟩, ⟨0, [5], ⟨2, 0⟩⟩] ∧
    (broker exMat .spawned (past ++ [.task 0 true, .task 1 false])).fates = [(⟨0, [5], ⟨2, 0⟩⟩, .accepted)] := by decide

/-- **C47, the bus's tasks**: likewise for the message bus. -/
theorem bus_spawned_delivers (strat : Strategy) (hst : strat = .spawned ∨ strat = .spawnedTimed) (past : List BusOp) :
    (∀ n k r todo gone e, (bus strat past).phase = .publishing n ((k, r) :: todo) gone →
      (bus strat (past ++ [.deliver e])).tasks = (bus strat past).tasks ++ [⟨n, k, r⟩] ∧
      (bus strat (past ++ [.deliver e])).phase = .publishing n todo gone) ∧
    (∀ i it e, (bus strat past).tasks[i]? = some it → (bus strat past).isOpen it.r.actor = true →
      (bus strat past).room it.r.actor = true →
      (bus strat (past ++ [.task i e])).fates = (bus strat past).fates ++ [(it, .accepted)] ∧
      (bus strat (past ++ [.task i e])).tasks = (bus strat past).tasks.eraseIdx i) := by
  have hs : (bus strat past).strat = strat := strat_run _
  constructor
  · intro n k r todo gone e hp
    have hp' := bus_never_panics strat (past ++ [.deliver e])
    rw [bus_snoc] at hp' ⊢
    simp only [BusOp.op, St.step, hp, hs, hst, if_true] at hp' ⊢
    split
    · rename_i hc
      rw [if_pos hc] at hp'
      exact absurd rfl hp'
    · exact ⟨rfl, rfl⟩
  · intro i it e hi ho hr
    rw [bus_snoc]
    obtain ⟨f, hf, hd⟩ := task_ruling (cast := fun k r => decide (r.ty = k)) hi e
    have := hf.2.1.mpr ⟨ho, hr⟩
    subst this
    exact hd

example : let past : List BusOp := [.register 5 1, .register 5 2, .setRoom 1 false, .publish 5, .deliver false, .deliver false]
    (bus .spawned past).tasks = [⟨0, 5, ⟨1, 5⟩⟩, ⟨0, 5, ⟨2, 5⟩⟩] ∧
    (bus .spawned (past ++ [.task 0 true, .task 1 false])).fates = [(⟨0, 5, ⟨2, 5⟩⟩, .accepted)] := by decide

/-- The full statement that no recipient prevents delivery to the others: let the time pass, and the deliveries of a
publish are all done; those to recipients with room are accepted (or with a task of their own). -/
def NotPrevented (strat : Strategy) : Prop :=
  ∀ (past : List (Op Nat)) (n : Nat) (todo : List (Nat × Rcpt)) (gone : List (Nat × Nat)),
    let s := run (fun _ _ => true) { strat := strat } past
    s.phase = .publishing n todo gone →
    let s' := run (fun _ _ => true) s (List.replicate todo.length (.deliver true))
    s'.todo n = [] ∧ ∀ x ∈ todo, s.isOpen x.2.actor = true → s.room x.2.actor = true →
      (⟨n, x.1, x.2⟩, Fate.accepted) ∈ s'.fates ∨ ⟨n, x.1, x.2⟩ ∈ s'.tasks

theorem fates_grow {cast : K → Rcpt → Bool} {s : St K} (op : Op K) : ∀ x ∈ s.fates, x ∈ (s.step cast op).fates := by
  intro x hx
  cases op <;> simp only [St.step] <;> repeat' split
  all_goals first
    | exact hx
    | exact List.mem_append_left _ hx

theorem tasks_kept {cast : K → Rcpt → Bool} {s : St K} (e : Bool) :
    ∀ x ∈ s.tasks, x ∈ (s.step cast (.deliver e)).tasks := by
  intro x hx
  simp only [St.step]
  repeat' split
  all_goals first
    | exact hx
    | exact List.mem_append_left _ hx

theorem env_deliver {cast : K → Rcpt → Bool} {s : St K} (e : Bool) :
    (s.step cast (.deliver e)).isOpen = s.isOpen ∧ (s.step cast (.deliver e)).room = s.room := by
  simp only [St.step]
  repeat' split
  all_goals exact ⟨rfl, rfl⟩

/-- **C47, no recipient prevents delivery to the others**, for every strategy but Guaranteed. Which of the others
are slow or dead is arbitrary. -/
theorem others_reached {cast : K → Rcpt → Bool} (todo : List (K × Rcpt)) (hc : ∀ x ∈ todo, cast x.1 x.2 = true)
    {s : St K} (hst : s.strat ≠ .guaranteed) {n : Nat} {gone : List (K × Nat)}
    (hp : s.phase = .publishing n todo gone) :
    let s' := run cast s (List.replicate todo.length (.deliver true))
    s'.todo n = [] ∧ (∃ gone', s'.phase = .publishing n [] gone') ∧
    (∀ x ∈ s.fates, x ∈ s'.fates) ∧ (∀ x ∈ s.tasks, x ∈ s'.tasks) ∧
    ∀ x ∈ todo, s.isOpen x.2.actor = true → s.room x.2.actor = true →
      (⟨n, x.1, x.2⟩, Fate.accepted) ∈ s'.fates ∨ ⟨n, x.1, x.2⟩ ∈ s'.tasks := by
  induction todo generalizing s gone with
  | nil =>
    exact ⟨by simp [run, St.todo, hp], ⟨gone, hp⟩, fun _ h => h, fun _ h => h, by simp⟩
  | cons x todo ih =>
    obtain ⟨k, r⟩ := x
    have h1 : ∃ gone', (s.step cast (.deliver true)).phase = .publishing n todo gone' ∧
        (s.isOpen r.actor = true → s.room r.actor = true →
          (⟨n, k, r⟩, Fate.accepted) ∈ (s.step cast (.deliver true)).fates ∨
            ⟨n, k, r⟩ ∈ (s.step cast (.deliver true)).tasks) := by
      have hck := hc (k, r) (by simp)
      simp only at hck
      simp only [St.step, hp, hck, Bool.not_true, Bool.false_eq_true, if_false]
      split
      · exact ⟨gone, rfl, fun _ _ => Or.inr (by simp)⟩
      · rename_i hsp
        have hr := ruling s r.actor (decide (s.strat ≠ .bestEffort)) (decide (s.strat = .timed)) true
        split
        · rename_i hf
          rw [hf] at hr
          have h4 := hr.2.2.2.mp rfl
          have hb : s.strat = .bestEffort ∨ s.strat = .timed := by
            cases hs : s.strat <;> simp_all
          rcases hb with hb | hb <;> simp [hb] at h4
        · rename_i f hf
          rw [hf] at hr
          refine ⟨_, rfl, fun ho hro => Or.inl ?_⟩
          have := hr.2.1.mpr ⟨ho, hro⟩
          cases this
          simp
    obtain ⟨gone', hp', hx⟩ := h1
    have ih := ih (s := s.step cast (.deliver true)) (fun y hy => hc y (by simp [hy]))
      (by rw [strat_step]; exact hst) hp'
    have e : run cast s (List.replicate ((k, r) :: todo).length (.deliver true)) =
        run cast (s.step cast (.deliver true)) (List.replicate todo.length (.deliver true)) := rfl
    rw [e]
    obtain ⟨i1, i2, i3, i4, i5⟩ := ih
    refine ⟨i1, i2, fun y hy => i3 y (fates_grow _ y hy), fun y hy => i4 y (tasks_kept _ y hy), ?_⟩
    intro y hy ho hro
    obtain ⟨e1, e2⟩ := env_deliver (cast := cast) (s := s) true
    rcases List.mem_cons.mp hy with hy | hy
    · subst hy
      rcases hx ho hro with h | h
      · exact Or.inl (i3 _ h)
      · exact Or.inr (i4 _ h)
    · exact i5 y hy (by rw [e1]; exact ho) (by rw [e2]; exact hro)

/-- A task for each of three recipients, one of which is slow and one stopped. -/
example : ∃ s : St Nat, s.strat = .spawned ∧ s.phase = .publishing 0 [(0, ⟨1, 0⟩), (0, ⟨2, 0⟩), (0, ⟨3, 0⟩)] [] ∧
    s.room 1 = false ∧ s.isOpen 2 = false ∧
    (run (fun _ _ => true) s (List.replicate 3 (.deliver true))).tasks.map (·.r.actor) = [1, 2, 3] :=
  ⟨run (fun _ _ => true) { strat := .spawned } [.subscribe 0 ⟨1, 0⟩, .subscribe 0 ⟨2, 0⟩, .subscribe 0 ⟨3, 0⟩,
    .setRoom 1 false, .close 2, .publish (fun _ => true)], by decide⟩

/-- **C47, no recipient prevents delivery to the others**, the statement in full, for every strategy but
Guaranteed. -/
theorem not_prevented_partial (strat : Strategy) (hst : strat ≠ .guaranteed) : NotPrevented strat := by
  intro past n todo gone s hp s'
  have := others_reached (cast := fun _ _ => true) todo (by simp) (s := s)
    (by show (run _ _ _).strat ≠ _; rw [strat_run]; exact hst) hp
  exact ⟨this.1, this.2.2.2.2⟩

example : ∃ s : St Nat, s.strat = .timed ∧ s.phase = .publishing 0 [(0, ⟨1, 0⟩), (0, ⟨2, 0⟩), (0, ⟨3, 0⟩)] [] ∧
    s.room 1 = false ∧ s.isOpen 2 = false ∧
    (run (fun _ _ => true) s (List.replicate 3 (.deliver true))).fates =
      [(⟨0, 0, ⟨1, 0⟩⟩, .full), (⟨0, 0, ⟨2, 0⟩⟩, .stopped), (⟨0, 0, ⟨3, 0⟩⟩, .accepted)] :=
  ⟨run (fun _ _ => true) { strat := .timed } [.subscribe 0 ⟨1, 0⟩, .subscribe 0 ⟨2, 0⟩, .subscribe 0 ⟨3, 0⟩,
    .setRoom 1 false, .close 2, .publish (fun _ => true)], by decide⟩

/-- **C47, the code disagrees for Guaranteed**: while the recipient whose turn it is runs and has no room, nothing is
delivered to any other, whatever happens (and the router does nothing else). -/
theorem guaranteed_blocks {cast : K → Rcpt → Bool} {s : St K} (hi : Inv s) (hst : s.strat = .guaranteed) {n : Nat}
    {k : K} {r : Rcpt} {todo : List (K × Rcpt)} {gone : List (K × Nat)}
    (hp : s.phase = .publishing n ((k, r) :: todo) gone) (hc : cast k r = true) (ho : s.isOpen r.actor = true)
    (hr : s.room r.actor = false) (ops : List (Op K)) (h1 : .close r.actor ∉ ops)
    (h2 : .setRoom r.actor true ∉ ops) :
    (run cast s ops).fates = s.fates ∧ (run cast s ops).todo n = (k, r) :: todo ∧
      (run cast s ops).subs = s.subs := by
  have ht : s.tasks = [] := hi.noTasks (by simp [hst]) (by simp [hst])
  have key : (run cast s ops).fates = s.fates ∧ (run cast s ops).phase = .publishing n ((k, r) :: todo) gone ∧
      (run cast s ops).subs = s.subs ∧ (run cast s ops).strat = .guaranteed ∧
      (run cast s ops).isOpen r.actor = true ∧ (run cast s ops).room r.actor = false ∧ (run cast s ops).tasks = [] := by
    refine run_induct_of (Q := fun op => op ≠ .close r.actor ∧ op ≠ .setRoom r.actor true)
      (P := fun t => t.fates = s.fates ∧ t.phase = .publishing n ((k, r) :: todo) gone ∧ t.subs = s.subs ∧
        t.strat = .guaranteed ∧ t.isOpen r.actor = true ∧ t.room r.actor = false ∧ t.tasks = [])
      ⟨rfl, hp, rfl, hst, ho, hr, ht⟩ ?_ ops
      (fun op hop => ⟨fun e => h1 (e ▸ hop), fun e => h2 (e ▸ hop)⟩)
    rintro t op ⟨q1, q2⟩ ⟨a1, a2, a3, a4, a5, a6, a7⟩
    cases op with
    | close b =>
      refine ⟨a1, a2, a3, a4, ?_, a6, a7⟩
      have : r.actor ≠ b := fun e => q1 (by rw [e])
      simp only [St.step, if_neg this]
      exact a5
    | setRoom b c =>
      refine ⟨a1, a2, a3, a4, a5, ?_, a7⟩
      simp only [St.step]
      split
      · rename_i hb
        cases c with
        | false => rfl
        | true => exact absurd (by rw [hb]) q2
      · exact a6
    | deliver e =>
      have : t.step cast (.deliver e) = t := by
        simp [St.step, a2, hc, a4, St.attempt, a5, a6]
      rw [this]
      exact ⟨a1, a2, a3, a4, a5, a6, a7⟩
    | task i e =>
      have : t.step cast (.task i e) = t := by simp [St.step, a7]
      rw [this]
      exact ⟨a1, a2, a3, a4, a5, a6, a7⟩
    | subscribe j r' => simp only [St.step, a2, a1, a3, a4, a5, a6, a7, and_self]
    | unsubscribe j b => simp only [St.step, a2, a1, a3, a4, a5, a6, a7, and_self]
    | publish sel => simp only [St.step, a2, a1, a3, a4, a5, a6, a7, and_self]
    | finish => simp only [St.step, a2, a1, a3, a4, a5, a6, a7, and_self]
    | handleUnsub => simp only [St.step, a2, a1, a3, a4, a5, a6, a7, and_self]
  refine ⟨key.1, ?_, key.2.2.1⟩
  simp [St.todo, key.2.1]

example : ∃ s : St Nat, Inv s ∧ s.strat = .guaranteed ∧ s.phase = .publishing 0 [(0, ⟨1, 0⟩), (0, ⟨2, 0⟩)] [] ∧
    s.isOpen 1 = true ∧ s.room 1 = false ∧ s.room 2 = true :=
  ⟨run (fun _ _ => true) { strat := .guaranteed } [.subscribe 0 ⟨1, 0⟩, .subscribe 0 ⟨2, 0⟩, .setRoom 1 false,
    .publish (fun _ => true)], inv_run (inv_init _) _, by decide⟩

/-- **C47, Guaranteed does not meet the statement.** -/
theorem guaranteed_prevents : ¬ NotPrevented .guaranteed := by
  intro h
  have := (h [.subscribe 0 ⟨1, 0⟩, .subscribe 0 ⟨2, 0⟩, .setRoom 1 false, .publish (fun _ => true)] 0
    [(0, ⟨1, 0⟩), (0, ⟨2, 0⟩)] [] (by decide)).1
  exact absurd this (by decide)

end Verif.Router
