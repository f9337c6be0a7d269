import Verif.Boot.Ending

/-
Property theorems about the end of actors and the swarm (C93).
-/

namespace Verif.Boot.Ending

structure Inv (links : List Link) (boot : Option Bool) (s : State) : Prop where
  here : s.phase ≠ .crashed → ∀ i, s.told.count i + s.deaf.count i + (s.ready.count (.here i) + s.waiting.count (.here i)) =
    links.count (.here i)
  there : s.phase ≠ .crashed → ∀ i, s.asked.count i + (s.ready.count (.there i) + s.waiting.count (.there i)) =
    if boot = none then 0 else links.count (.there i)
  empty : s.phase = .unlisted ∨ s.phase = .over → s.ready = [] ∧ s.waiting = []
  listed : s.listed = true ↔ s.phase = .telling ∨ s.phase = .crashed
  published : s.published = true ↔ s.phase = .over
  asked : ∀ i, .asked i ∈ s.ready ++ s.waiting → i ∈ s.asked
  known : ∀ i, i ∈ s.asked ∨ .there i ∈ s.ready ++ s.waiting → boot ≠ none ∧ .there i ∈ links

theorem count_here (b : Bool) (links : List Link) (i : Nat) :
    (links.filterMap (futOf b)).count (.here i) = links.count (.here i) := by
  induction links with
  | nil => rfl
  | cons l links ih =>
    cases l <;> cases b <;> simp_all [futOf, List.count_cons, List.filterMap_cons]

theorem count_there (b : Bool) (links : List Link) (i : Nat) :
    (links.filterMap (futOf b)).count (.there i) = if b then links.count (.there i) else 0 := by
  induction links with
  | nil => cases b <;> rfl
  | cons l links ih =>
    cases l <;> cases b <;> simp_all [futOf, List.count_cons, List.filterMap_cons]

theorem count_asked (b : Bool) (links : List Link) (i : Nat) :
    (links.filterMap (futOf b)).count (.asked i) = 0 := by
  induction links with
  | nil => cases b <;> rfl
  | cons l links ih =>
    cases l <;> cases b <;> simp_all [futOf, List.count_cons, List.filterMap_cons]

theorem inv_init (links : List Link) (boot : Option Bool) : Inv links boot (init links boot) where
  here := fun _ i => by simp [init, count_here]
  there := fun _ i => by
    simp only [init, count_there]
    cases boot <;> simp
  empty := by simp [init]
  listed := by simp [init]
  published := by simp [init]
  asked := by
    intro i h
    simp only [init, List.append_nil, List.mem_filterMap] at h
    obtain ⟨l, _, hl⟩ := h
    cases l <;> cases boot <;> simp [futOf] at hl
  known := by
    intro i h
    simp only [init, List.append_nil, List.mem_filterMap, List.not_mem_nil, false_or] at h
    obtain ⟨l, hm, hl⟩ := h
    cases l <;> cases boot <;> simp_all [futOf]

theorem inv_step {links : List Link} {boot : Option Bool} {s : State} (h : Inv links boot s) (op : Op) :
    Inv links boot (s.step op) := by
  obtain ⟨h1, h2, h3, h4, h5, h6, h7⟩ := h
  cases op with
  | poll o =>
    simp only [State.step]
    split
    · next f rest hp hr =>
      cases f <;> cases o <;> simp only [State.poll] <;> (repeat' split) <;> constructor <;>
        grind [List.count_append, List.count_cons, List.count_nil]
    · exact ⟨h1, h2, h3, h4, h5, h6, h7⟩
  | wake f =>
    simp only [State.step]
    split
    · constructor <;> grind [List.count_append, List.count_cons, List.count_nil, List.count_erase, List.mem_of_mem_erase,
        List.count_pos_iff]
    · exact ⟨h1, h2, h3, h4, h5, h6, h7⟩
  | swarmEnds =>
    simp only [State.step]
    exact ⟨h1, h2, h3, h4, h5, h6, h7⟩
  | unlist =>
    simp only [State.step]
    split
    · constructor <;> grind
    · exact ⟨h1, h2, h3, h4, h5, h6, h7⟩
  | publish =>
    simp only [State.step]
    split
    · constructor <;> grind
    · exact ⟨h1, h2, h3, h4, h5, h6, h7⟩

theorem inv_run (links : List Link) (boot : Option Bool) (ops : List Op) : Inv links boot (run links boot ops) := by
  suffices ∀ s, Inv links boot s → Inv links boot (ops.foldl State.step s) from this _ (inv_init links boot)
  induction ops with
  | nil => exact fun _ h => h
  | cons op ops ih => exact fun s h => ih _ (inv_step h op)

/-- A command that was sent has been answered, or a future waits for the answer. -/
def Answ (s : State) : Prop := s.phase ≠ .crashed →
  ∀ i, s.answered.count i + (s.ready.count (.asked i) + s.waiting.count (.asked i)) = s.asked.count i

theorem answ_step {s : State} (h : Answ s) (op : Op) : Answ (s.step op) := by
  cases op with
  | poll o =>
    simp only [State.step]
    split
    · next f rest hp hr =>
      intro hc i
      have h := h (by rw [hp]; simp) i
      rw [hr] at h
      cases f <;> cases o <;> simp only [State.poll] at hc ⊢ <;> (repeat' split) <;>
        simp_all [List.count_append, List.count_cons] <;> omega
    · exact h
  | wake f =>
    simp only [State.step]
    split
    · intro hc i
      have h := h hc i
      simp only [List.count_append, List.count_cons, List.count_nil, List.count_erase] at h ⊢
      grind [List.count_pos_iff]
    · exact h
  | swarmEnds => exact h
  | unlist => simp only [State.step]; split <;> grind [Answ]
  | publish => simp only [State.step]; split <;> grind [Answ]

theorem answ_run (links : List Link) (boot : Option Bool) (ops : List Op) : Answ (run links boot ops) := by
  suffices ∀ s, Answ s → Answ (ops.foldl State.step s) from this _ (fun _ i => by simp [init, count_asked])
  induction ops with
  | nil => exact fun _ h => h
  | cons op ops ih => exact fun s h => ih _ (answ_step h op)

/-- The swarm stays, or the actor has nothing to do with it: the node was never bootstrapped, or the actor has no links to
other nodes. -/
def Untroubled (links : List Link) (boot : Option Bool) (ops : List Op) : Prop :=
  boot = none ∨ (∀ i, .there i ∉ links) ∨ (boot = some true ∧ .swarmEnds ∉ ops)

theorem poll_phase (s : State) (f : Fut) (rest : List Fut) (o : Out) :
    (s.poll f rest o).swarm = s.swarm ∧ ((s.poll f rest o).phase = s.phase ∨
      ((s.poll f rest o).phase = .crashed ∧ s.swarm = false ∧ ∃ i, f = .there i ∨ f = .asked i)) := by
  cases f <;> cases o <;> simp only [State.poll] <;> (repeat' split) <;> simp_all

theorem swarm_step (s : State) (op : Op) : op ≠ .swarmEnds → (s.step op).swarm = s.swarm := by
  cases op with
  | poll o =>
    simp only [State.step]
    split
    · exact fun _ => (poll_phase _ _ _ _).1
    · exact fun _ => rfl
  | swarmEnds => exact fun h => absurd rfl h
  | _ => simp only [State.step]; split <;> simp

/-- **C93**: a task ends by a panic only if the swarm is gone and there is a link to another node. -/
theorem crash_cause (links : List Link) (boot : Option Bool) (ops : List Op)
    (h : (run links boot ops).phase = .crashed) : ¬ Untroubled links boot ops := by
  have key : ∀ (ops : List Op) (s : State), Inv links boot s →
      (ops.foldl State.step s).phase = .crashed → s.phase ≠ .crashed →
      ∃ i, boot ≠ none ∧ .there i ∈ links ∧ (s.swarm = false ∨ .swarmEnds ∈ ops) := by
    intro ops
    induction ops with
    | nil => exact fun s _ h h' => absurd h h'
    | cons op ops ih =>
      intro s hi h h'
      by_cases hc : (s.step op).phase = .crashed
      · cases op with
        | poll o =>
          simp only [State.step] at hc
          split at hc
          · next f rest hp hr =>
            rcases (poll_phase s f rest o).2 with e | ⟨_, hs, i, hf⟩
            · exact absurd (e.symm.trans hc) h'
            · refine ⟨i, ?_⟩
              have hm : f ∈ s.ready ++ s.waiting := by simp [hr]
              rcases hf with rfl | rfl
              · exact ⟨(hi.known i (.inr hm)).1, (hi.known i (.inr hm)).2, .inl hs⟩
              · have := hi.known i (.inl (hi.asked i hm))
                exact ⟨this.1, this.2, .inl hs⟩
          · exact absurd hc h'
        | wake f => simp only [State.step] at hc; split at hc <;> exact absurd hc h'
        | swarmEnds => exact absurd hc h'
        | unlist =>
          simp only [State.step] at hc
          split at hc
          · cases hc
          · exact absurd hc h'
        | publish =>
          simp only [State.step] at hc
          split at hc
          · cases hc
          · exact absurd hc h'
      · obtain ⟨i, h1, h2, h3⟩ := ih (s.step op) (inv_step hi op) h hc
        refine ⟨i, h1, h2, ?_⟩
        rcases h3 with h3 | h3
        · by_cases ho : op = .swarmEnds
          · right; simp [ho]
          · left; rw [← swarm_step s op ho]; exact h3
        · right; exact List.mem_cons_of_mem _ h3
  obtain ⟨i, h1, h2, h3⟩ := key ops _ (inv_init links boot) h (by simp [init])
  rintro (hu | hu | ⟨hu, hu'⟩)
  · exact h1 hu
  · exact hu i h2
  · rcases h3 with h3 | h3
    · simp [init, hu] at h3
    · exact hu' h3

/-- **C93**: where the swarm stays, or has nothing to do with it, the task does not end by a panic; and when it is over,
each link on this node has got its signal once or its mailbox was closed, the swarm has been given one command for each
link to another node (if it was ever bootstrapped) and has answered it, and the actor has left the registry and published its result. -/
theorem ends_properly_partial (links : List Link) (boot : Option Bool) (ops : List Op) (h : Untroubled links boot ops) :
    let s := run links boot ops
    s.phase ≠ .crashed ∧ (s.phase = .over → s.listed = false ∧ s.published = true ∧
      ∀ i, s.told.count i + s.deaf.count i = links.count (.here i) ∧
        s.asked.count i = (if boot = none then 0 else links.count (.there i)) ∧ s.answered.count i = s.asked.count i) := by
  dsimp only
  have hi := inv_run links boot ops
  have hnc : (run links boot ops).phase ≠ .crashed := fun hc => crash_cause links boot ops hc h
  refine ⟨hnc, fun ho => ⟨?_, ?_, fun i => ?_⟩⟩
  · cases hl : (run links boot ops).listed with
    | false => rfl
    | true => rw [hi.listed] at hl; simp [ho] at hl
  · exact hi.published.mpr ho
  · have h1 := hi.here hnc i
    have h2 := hi.there hnc i
    have h5 := answ_run links boot ops hnc i
    obtain ⟨h3, h4⟩ := hi.empty (.inr ho)
    rw [h3, h4] at h1 h2 h5
    simp only [List.count_nil, Nat.add_zero] at h1 h2 h5
    exact ⟨h1, h2, h5⟩

/-- Two links here, one of them with a full mailbox at first, and one to another node. -/
example : Untroubled [.here 1, .there 2, .here 3] (some true)
    [.poll .full, .poll .room, .poll .room, .wake (.asked 2), .poll .answered, .wake (.here 1), .poll .room, .unlist, .publish] ∧
    (run [.here 1, .there 2, .here 3] (some true)
      [.poll .full, .poll .room, .poll .room, .wake (.asked 2), .poll .answered, .wake (.here 1), .poll .room, .unlist,
        .publish]).phase = .over := by
  refine ⟨.inr (.inr ⟨rfl, by decide⟩), by decide⟩

/-- How many steps a future has before it at best. -/
def weight : Fut → Nat
  | .here _ => 1
  | .there _ => 3
  | .asked _ => 1

theorem swarm_run (links : List Link) (boot : Option Bool) (ops : List Op) :
    (run links boot ops).swarm = true ↔ boot = some true ∧ .swarmEnds ∉ ops := by
  have : ∀ (ops : List Op) (s : State), (ops.foldl State.step s).swarm = true ↔ s.swarm = true ∧ .swarmEnds ∉ ops := by
    intro ops
    induction ops with
    | nil => intro s; simp
    | cons op ops ih =>
      intro s
      rw [List.foldl_cons, ih]
      by_cases ho : op = .swarmEnds
      · subst ho; simp [State.step]
      · rw [swarm_step s op ho]
        simp [Ne.symm ho]
  rw [run, this]
  cases boot <;> simp [init]

/-- A task that has not ended by a panic can get to its end, if the swarm is there or no command is left to be sent. -/
theorem can_finish (s : State) (hnc : s.phase ≠ .crashed)
    (hsw : ∀ i, .there i ∈ s.ready ++ s.waiting → s.swarm = true) (dead : Nat → Bool) :
    ∃ more : List Op, .swarmEnds ∉ more ∧ (more.foldl State.step s).phase = .over ∧
      ∀ i, (dead i = true → (more.foldl State.step s).told.count i = s.told.count i) ∧
        (dead i = false → (more.foldl State.step s).deaf.count i = s.deaf.count i) := by
  have hwt : (∀ i, weight (.here i) = 1) ∧ (∀ i, weight (.there i) = 3) ∧ ∀ i, weight (.asked i) = 1 :=
    ⟨fun _ => rfl, fun _ => rfl, fun _ => rfl⟩
  have key : ∀ (n : Nat) (s : State), (s.ready.map (fun f => weight f)).sum +
        (s.waiting.map (fun f => weight f + 1)).sum ≤ n → s.phase = .telling →
      (∀ i, .there i ∈ s.ready ++ s.waiting → s.swarm = true) →
      ∃ more : List Op, .swarmEnds ∉ more ∧ (more.foldl State.step s).phase = .over ∧
        ∀ i, (dead i = true → (more.foldl State.step s).told.count i = s.told.count i) ∧
          (dead i = false → (more.foldl State.step s).deaf.count i = s.deaf.count i) := by
    intro n
    induction n with
    | zero =>
      intro s hn hp hs
      match hr : s.ready, hw : s.waiting with
      | [], [] => exact ⟨[.unlist, .publish], by simp, by simp [State.step, hp, hr, hw], by simp [State.step, hp, hr, hw]⟩
      | f :: r, w => rw [hr] at hn; cases f <;> simp [weight] at hn
      | [], f :: w => rw [hr, hw] at hn; simp at hn
    | succ n ih =>
      intro s hn hp hs
      match hr : s.ready with
      | f :: r =>
        rw [hr] at hn
        match f, hr with
        | .here i, hr =>
          cases hd : dead i with
          | false =>
            obtain ⟨more, h1, h2, h3⟩ := ih (s.step (.poll .room))
              (by simp only [State.step, hp, hr, State.poll]; simp only [List.map_cons, List.sum_cons, hwt.1, hwt.2.2] at hn; omega)
              (by simp only [State.step, hp, hr, State.poll])
              (by
                simp only [State.step, hp, hr, State.poll]
                intro j hj
                exact hs j (by rw [hr]; simp at hj ⊢; exact hj))
            refine ⟨.poll .room :: more, by simpa using h1, h2, fun k => ?_⟩
            have h3 := h3 k
            rw [show (s.step (.poll .room)).told = s.told ++ [i] by simp only [State.step, hp, hr, State.poll],
              show (s.step (.poll .room)).deaf = s.deaf by simp only [State.step, hp, hr, State.poll]] at h3
            refine ⟨fun hk => (h3.1 hk).trans ?_, fun hk => h3.2 hk⟩
            have : i ≠ k := by rintro rfl; rw [hd] at hk; cases hk
            simp [this]
          | true =>
            obtain ⟨more, h1, h2, h3⟩ := ih (s.step (.poll .closed))
              (by simp only [State.step, hp, hr, State.poll]; simp only [List.map_cons, List.sum_cons, hwt.1, hwt.2.2] at hn; omega)
              (by simp only [State.step, hp, hr, State.poll])
              (by
                simp only [State.step, hp, hr, State.poll]
                intro j hj
                exact hs j (by rw [hr]; simp at hj ⊢; exact hj))
            refine ⟨.poll .closed :: more, by simpa using h1, h2, fun k => ?_⟩
            have h3 := h3 k
            rw [show (s.step (.poll .closed)).told = s.told by simp only [State.step, hp, hr, State.poll],
              show (s.step (.poll .closed)).deaf = s.deaf ++ [i] by simp only [State.step, hp, hr, State.poll]] at h3
            refine ⟨fun hk => h3.1 hk, fun hk => (h3.2 hk).trans ?_⟩
            have : i ≠ k := by rintro rfl; rw [hd] at hk; cases hk
            simp [this]
        | .asked i, hr =>
          obtain ⟨more, h1, h2, h3⟩ := ih (s.step (.poll .answered))
            (by simp only [State.step, hp, hr, State.poll]; simp only [List.map_cons, List.sum_cons, hwt.1, hwt.2.2] at hn; omega)
            (by simp only [State.step, hp, hr, State.poll])
            (by
              simp only [State.step, hp, hr, State.poll]
              intro j hj
              exact hs j (by rw [hr]; simp at hj ⊢; exact hj))
          refine ⟨.poll .answered :: more, by simpa using h1, h2, fun k => ?_⟩
          have h3 := h3 k
          rw [show (s.step (.poll .answered)).told = s.told by simp only [State.step, hp, hr, State.poll],
            show (s.step (.poll .answered)).deaf = s.deaf by simp only [State.step, hp, hr, State.poll]] at h3
          exact h3
        | .there i, hr =>
          have hsw := hs i (by rw [hr]; simp)
          obtain ⟨more, h1, h2, h3⟩ := ih (s.step (.poll .room))
            (by simp only [State.step, hp, hr, State.poll, hsw, if_true]; simp only [List.map_cons, List.map_append, List.map_nil, List.sum_cons, List.sum_append, List.sum_nil,
              hwt.2.1, hwt.2.2] at hn ⊢; omega)
            (by simp only [State.step, hp, hr, State.poll, hsw, if_true])
            (by simp only [State.step, hp, hr, State.poll, hsw, if_true]; exact fun _ _ => trivial)
          refine ⟨.poll .room :: more, by simpa using h1, h2, fun k => ?_⟩
          have h3 := h3 k
          rw [show (s.step (.poll .room)).told = s.told by simp only [State.step, hp, hr, State.poll, hsw, if_true],
            show (s.step (.poll .room)).deaf = s.deaf by simp only [State.step, hp, hr, State.poll, hsw, if_true]] at h3
          exact h3
      | [] =>
        match hw : s.waiting with
        | [] => exact ⟨[.unlist, .publish], by simp, by simp [State.step, hp, hr, hw], by simp [State.step, hp, hr, hw]⟩
        | f :: w =>
          obtain ⟨more, h1, h2, h3⟩ := ih (s.step (.wake f))
            (by simp only [State.step, hr, hw]; simp; rw [hr, hw] at hn; simp at hn; omega)
            (by simp [State.step, hr, hw, hp])
            (by
              simp only [State.step, hr, hw]
              intro j hj
              have := hs j (by rw [hr, hw]; simp at hj ⊢; grind)
              simp [this])
          refine ⟨.wake f :: more, by simpa using h1, h2, fun k => ?_⟩
          have h3 := h3 k
          rw [show (s.step (.wake f)).told = s.told by simp [State.step, hw],
            show (s.step (.wake f)).deaf = s.deaf by simp [State.step, hw]] at h3
          exact h3
  cases hp : s.phase with
  | telling => exact key _ s (Nat.le_refl _) hp hsw
  | unlisted => exact ⟨[.publish], by simp, by simp [State.step, hp], by simp [State.step, hp]⟩
  | over => exact ⟨[], by simp, hp, fun _ => ⟨fun _ => rfl, fun _ => rfl⟩⟩
  | crashed => exact absurd hp hnc

/-- **C93**: and it can always come to that: from wherever it is, if linked actors make room or are gone (`dead`), and
answers come, the task gets to its end; of the links on this node that have not been told yet exactly those that are not
gone are told. -/
theorem can_end_partial (links : List Link) (boot : Option Bool) (ops : List Op) (h : Untroubled links boot ops)
    (dead : Nat → Bool) :
    ∃ more, .swarmEnds ∉ more ∧ (run links boot (ops ++ more)).phase = .over ∧
      ∀ i, (dead i = true → (run links boot (ops ++ more)).told.count i = (run links boot ops).told.count i) ∧
        (dead i = false → (run links boot (ops ++ more)).deaf.count i = (run links boot ops).deaf.count i) := by
  have hnc : (run links boot ops).phase ≠ .crashed := fun hc => crash_cause links boot ops hc h
  have hsw : ∀ i, .there i ∈ (run links boot ops).ready ++ (run links boot ops).waiting →
      (run links boot ops).swarm = true := by
    intro i hm
    obtain ⟨h1, h2⟩ := (inv_run links boot ops).known i (.inr hm)
    rcases h with h | h | ⟨h, h'⟩
    · exact absurd h h1
    · exact absurd h2 (h i)
    · exact (swarm_run links boot ops).mpr ⟨h, h'⟩
  have happ : ∀ more, run links boot (ops ++ more) = more.foldl State.step (run links boot ops) := fun l => by simp [run]
  simp only [happ]
  exact can_finish _ hnc hsw dead

example : Untroubled [.here 1, .there 2] (some true) [.poll .full, .poll .full] ∧
    (run [.here 1, .there 2] (some true) [.poll .full, .poll .full]).waiting = [.here 1, .asked 2] :=
  ⟨.inr (.inr ⟨rfl, by decide⟩), by decide⟩

/-- A link to an actor of this node. -/
def Link.isHere : Link → Bool
  | .here _ => true
  | .there _ => false

/-- Where a task is that ends on a node whose swarm is gone: it has done with the first of the links before the first link
to another node, and that one is to come. -/
def Doomed (links : List Link) (polls : Nat) (s : State) : Prop :=
  s.swarm = false ∧ s.asked = [] ∧ ((s.phase = .crashed ∧ ∀ i, s.told.count i ≤ (links.takeWhile Link.isHere).count (.here i)) ∨
    (s.phase = .telling ∧ ∃ (a : List Link) (b : List Nat) (j : Nat) (r : List Fut), links.takeWhile Link.isHere = a ++ b.map Link.here ∧ a.length = polls ∧
      s.ready = b.map Fut.here ++ .there j :: r ∧ ∀ i, s.told.count i ≤ a.count (.here i)))

/-- The op polls. -/
def Op.isPoll : Op → Bool
  | .poll _ => true
  | _ => false

theorem doomed_init {links : List Link} {j : Nat} (h : .there j ∈ links) : Doomed links 0 (init links (some false)) := by
  refine ⟨rfl, rfl, .inr ⟨rfl, [], ?_⟩⟩
  suffices ∃ (b : List Nat) (j : Nat) (r : List Fut), links.takeWhile Link.isHere = b.map Link.here ∧
      links.filterMap (futOf true) = b.map Fut.here ++ .there j :: r by
    obtain ⟨b, j, r, h1, h2⟩ := this
    exact ⟨b, j, r, by simpa using h1, rfl, h2, by simp [init]⟩
  induction links with
  | nil => simp at h
  | cons l links ih =>
    cases l with
    | there i => exact ⟨[], i, links.filterMap (futOf true), by simp [Link.isHere], by simp [futOf]⟩
    | here i =>
      obtain ⟨b, j', r, h1, h2⟩ := ih (by simpa using h)
      exact ⟨i :: b, j', r, by simp [List.takeWhile_cons, Link.isHere, h1], by simp [futOf, h2]⟩

theorem doomed_step {links : List Link} {n : Nat} {s : State} (h : Doomed links n s) (op : Op) :
    Doomed links (if op.isPoll then n + 1 else n) (s.step op) := by
  obtain ⟨h1, h2, h3⟩ := h
  rcases h3 with ⟨h3, h4⟩ | ⟨h3, a, b, j, r, h4, h5, h6, h7⟩
  · cases op with
    | poll o => simp only [State.step, h3]; exact ⟨h1, h2, .inl ⟨h3, h4⟩⟩
    | wake f =>
      show Doomed links n _
      simp only [State.step]
      split <;> exact ⟨h1, h2, .inl ⟨h3, h4⟩⟩
    | swarmEnds => exact ⟨rfl, h2, .inl ⟨h3, h4⟩⟩
    | unlist => simp only [State.step, h3]; exact ⟨h1, h2, .inl ⟨h3, h4⟩⟩
    | publish => simp only [State.step, h3]; exact ⟨h1, h2, .inl ⟨h3, h4⟩⟩
  · cases op with
    | poll o =>
      show Doomed links (n + 1) _
      cases b with
      | nil =>
        have hs : s.step (.poll o) = { s with phase := .crashed, ready := r } := by
          simp [State.step, h3, h6, State.poll, h1]
        rw [hs]
        refine ⟨h1, h2, .inl ⟨rfl, fun i => ?_⟩⟩
        rw [h4]
        simpa using h7 i
      | cons i b =>
        have hs : s.step (.poll o) = s.poll (.here i) (b.map Fut.here ++ .there j :: r) o := by
          simp [State.step, h3, h6]
        rw [hs]
        have hlen : (a ++ [Link.here i]).length = n + 1 := by simp [h5]
        have heq : links.takeWhile Link.isHere = (a ++ [Link.here i]) ++ b.map Link.here := by rw [h4]; simp
        have hle : ∀ k, s.told.count k ≤ (a ++ [Link.here i]).count (.here k) := by
          intro k
          have := h7 k
          rw [List.count_append]
          omega
        cases o with
        | room =>
          refine ⟨h1, h2, .inr ⟨h3, _, b, j, r, heq, hlen, rfl, fun k => ?_⟩⟩
          have := h7 k
          simp only [State.poll, List.count_append, List.count_cons, List.count_nil] at this ⊢
          by_cases hk : i = k <;> simp [hk] <;> omega
        | full => exact ⟨h1, h2, .inr ⟨h3, _, b, j, r, heq, hlen, rfl, hle⟩⟩
        | closed => exact ⟨h1, h2, .inr ⟨h3, _, b, j, r, heq, hlen, rfl, hle⟩⟩
        | answered => exact ⟨h1, h2, .inr ⟨h3, _, b, j, r, heq, hlen, rfl, hle⟩⟩
        | dropped => exact ⟨h1, h2, .inr ⟨h3, _, b, j, r, heq, hlen, rfl, hle⟩⟩
    | wake f =>
      show Doomed links n _
      simp only [State.step]
      split
      · exact ⟨h1, h2, .inr ⟨h3, a, b, j, r ++ [f], h4, h5, by simp [h6], h7⟩⟩
      · exact ⟨h1, h2, .inr ⟨h3, a, b, j, r, h4, h5, h6, h7⟩⟩
    | swarmEnds => exact ⟨rfl, h2, .inr ⟨h3, a, b, j, r, h4, h5, h6, h7⟩⟩
    | unlist =>
      have hs : s.step .unlist = s := by simp [State.step, h6]
      rw [hs]
      exact ⟨h1, h2, .inr ⟨h3, a, b, j, r, h4, h5, h6, h7⟩⟩
    | publish =>
      have hs : s.step .publish = s := by simp [State.step, h3]
      rw [hs]
      exact ⟨h1, h2, .inr ⟨h3, a, b, j, r, h4, h5, h6, h7⟩⟩

theorem doomed_run {links : List Link} {j : Nat} (h : .there j ∈ links) (ops : List Op) :
    Doomed links (ops.filter Op.isPoll).length (run links (some false) ops) := by
  suffices ∀ (ops : List Op) (n : Nat) (s : State), Doomed links n s →
      Doomed links (n + (ops.filter Op.isPoll).length) (ops.foldl State.step s) by
    simpa [run] using this ops 0 _ (doomed_init h)
  intro ops
  induction ops with
  | nil => exact fun _ _ h => h
  | cons op ops ih =>
    intro n s hd
    have := ih _ _ (doomed_step hd op)
    rw [List.foldl_cons]
    cases hp : op.isPoll <;> simp [hp, List.filter_cons] at this ⊢
    · exact this
    · rw [show n + ((ops.filter Op.isPoll).length + 1) = n + 1 + (ops.filter Op.isPoll).length by omega]
      exact this

/-- **C93** (negation): on a node whose swarm is gone, an actor with a link to another node never gets to its end, whatever
happens. Its result is never published, it stays in the registry; of the links on this node, those behind the first link to
another node are never told, whatever room they have; and after one poll more than there are links before that one, its task
has ended by a panic. -/
theorem swarm_gone_never_ends (links : List Link) {j : Nat} (h : .there j ∈ links) (ops : List Op) :
    let s := run links (some false) ops
    s.phase ≠ .over ∧ s.published = false ∧ s.listed = true ∧ s.asked = [] ∧
      (∀ i, s.told.count i ≤ (links.takeWhile Link.isHere).count (.here i)) ∧
      ((links.takeWhile Link.isHere).length < (ops.filter Op.isPoll).length → s.phase = .crashed) := by
  dsimp only
  have hi := inv_run links (some false) ops
  obtain ⟨h1, h2, h3⟩ := doomed_run h ops
  have hph : (run links (some false) ops).phase = .telling ∨ (run links (some false) ops).phase = .crashed := by
    rcases h3 with ⟨h3, _⟩ | ⟨h3, _⟩
    · exact .inr h3
    · exact .inl h3
  have hno : (run links (some false) ops).phase ≠ .over := by rcases hph with h | h <;> rw [h] <;> simp
  refine ⟨hno, ?_, hi.listed.mpr hph, h2, ?_, ?_⟩
  · cases hp : (run links (some false) ops).published with
    | false => rfl
    | true => exact absurd (hi.published.mp hp) hno
  · rcases h3 with ⟨_, h4⟩ | ⟨_, a, b, j, r, h4, h5, h6, h7⟩
    · exact h4
    · intro i
      have := h7 i
      rw [h4, List.count_append]
      omega
  · intro hlt
    rcases h3 with ⟨h3, _⟩ | ⟨h3, a, b, j, r, h4, h5, h6, h7⟩
    · exact h3
    · rw [h4, List.length_append] at hlt
      omega

/-- The actor's links are drained so that one on this node comes before, and one behind, that to another node. -/
example : Link.there 2 ∈ [Link.here 1, .there 2, .here 3] ∧
    run [.here 1, .there 2, .here 3] (some false) [.poll .room, .poll .room, .poll .room, .unlist, .publish] =
      { phase := .crashed, ready := [.here 3], waiting := [], swarm := false, told := [1], deaf := [], asked := [],
        answered := [], listed := true, published := false } := by decide

/-- **C93** (negation): a task that has ended by a panic has done all it will ever do: those it has not told it never tells,
it stays in the registry, and its result is never published. -/
theorem crashed_for_good (links : List Link) (boot : Option Bool) (ops more : List Op)
    (h : (run links boot ops).phase = .crashed) :
    let s := run links boot (ops ++ more)
    s.phase = .crashed ∧ s.told = (run links boot ops).told ∧ s.asked = (run links boot ops).asked ∧
      s.listed = true ∧ s.published = false := by
  dsimp only
  have hi := inv_run links boot (ops ++ more)
  have key : ∀ (more : List Op) (s : State), s.phase = .crashed → (more.foldl State.step s).phase = .crashed ∧
      (more.foldl State.step s).told = s.told ∧ (more.foldl State.step s).asked = s.asked := by
    intro more
    induction more with
    | nil => exact fun s h => ⟨h, rfl, rfl⟩
    | cons op more ih =>
      intro s hs
      have hstep : (s.step op).phase = .crashed ∧ (s.step op).told = s.told ∧ (s.step op).asked = s.asked := by
        cases op with
        | wake f => simp only [State.step]; split <;> exact ⟨hs, rfl, rfl⟩
        | _ => simp [State.step, hs]
      obtain ⟨h1, h2, h3⟩ := ih _ hstep.1
      exact ⟨h1, h2.trans hstep.2.1, h3.trans hstep.2.2⟩
  have happ : run links boot (ops ++ more) = more.foldl State.step (run links boot ops) := by simp [run]
  obtain ⟨h1, h2, h3⟩ := key more _ h
  rw [← happ] at h1 h2 h3
  refine ⟨h1, h2, h3, hi.listed.mpr (.inr h1), ?_⟩
  cases hp : (run links boot (ops ++ more)).published with
  | false => rfl
  | true => have := hi.published.mp hp; rw [h1] at this; cases this

/-- The swarm ends while the actor waits for its answer; a link on this node whose mailbox had no room at first is never
told. -/
example : (run [.there 2, .here 3] (some true) [.poll .room, .poll .full, .swarmEnds, .wake (.asked 2), .wake (.here 3),
    .poll .dropped]).phase = .crashed ∧
    (run [.there 2, .here 3] (some true) ([.poll .room, .poll .full, .swarmEnds, .wake (.asked 2), .wake (.here 3),
      .poll .dropped] ++ [.poll .room])).told = [] := by decide

/-- A future that has to do with the swarm. -/
def Fut.away : Fut → Bool
  | .here _ => false
  | _ => true

theorem drop_crashes : ∀ (n : Nat) (s : State), s.phase = .telling → s.swarm = false → s.ready.length ≤ n →
    (∃ f ∈ s.ready, f.away = true) → ∃ k, ((List.replicate k (Op.poll .dropped)).foldl State.step s).phase = .crashed := by
  intro n
  induction n with
  | zero =>
    intro s _ _ hl ⟨f, hf, _⟩
    have : s.ready = [] := List.eq_nil_of_length_eq_zero (by omega)
    rw [this] at hf; simp at hf
  | succ n ih =>
    intro s hp hs hl ⟨f, hf, ha⟩
    match hr : s.ready with
    | [] => rw [hr] at hf; simp at hf
    | g :: rest =>
      rw [hr] at hf hl
      have hc : ∀ g', g'.away = true → (s.poll g' rest .dropped).phase = .crashed := by
        intro g' hg
        cases g' <;> simp_all [Fut.away, State.poll]
      have hstep : s.step (.poll .dropped) = s.poll g rest .dropped := by simp [State.step, hp, hr]
      cases hg : g.away with
      | true => exact ⟨1, by simp [hstep, hc g hg]⟩
      | false =>
        cases g with
        | here i =>
          have hf : f ∈ rest := by
            rcases List.mem_cons.mp hf with rfl | h
            · simp [Fut.away] at ha
            · exact h
          obtain ⟨k, hk⟩ := ih (s.poll (.here i) rest .dropped) hp hs (by simpa [State.poll] using hl) ⟨f, hf, ha⟩
          exact ⟨k + 1, by rw [List.replicate_succ, List.foldl_cons, hstep]; exact hk⟩
        | _ => simp [Fut.away] at hg

theorem unanswered_step {s : State} {i : Nat} (h : s.answered.count i < s.asked.count i) {op : Op}
    (hne : op ≠ .poll .answered) : (s.step op).answered.count i < (s.step op).asked.count i := by
  cases op with
  | poll o =>
    simp only [State.step]
    split
    · next f rest hp hr =>
      cases f <;> cases o <;> simp only [State.poll] <;> (repeat' split) <;>
        simp_all [List.count_append, List.count_cons] <;> omega
    · exact h
  | wake f => simp only [State.step]; split <;> exact h
  | swarmEnds => exact h
  | unlist => simp only [State.step]; split <;> exact h
  | publish => simp only [State.step]; split <;> exact h

theorem swarm_gone {ops : List Op} (h : .swarmEnds ∈ ops) (s : State) : (ops.foldl State.step s).swarm = false := by
  have stay : ∀ (ops : List Op) (s : State), s.swarm = false → (ops.foldl State.step s).swarm = false := by
    intro ops
    induction ops with
    | nil => exact fun _ h => h
    | cons op ops ih =>
      intro s hs
      refine ih _ ?_
      by_cases ho : op = .swarmEnds
      · rw [ho]; rfl
      · rw [swarm_step s op ho]; exact hs
  obtain ⟨l1, l2, rfl⟩ := List.append_of_mem h
  rw [List.foldl_append, List.foldl_cons]
  exact stay _ _ rfl

/-- **C93** (negation): a command was sent and the swarm ended before it was answered. Then the task never gets to its end
unless the answer had been sent; its result is not published; and from wherever it gets to, it can come to a panic. -/
theorem unanswered_never_ends (links : List Link) (boot : Option Bool) (ops : List Op) {i : Nat}
    (hi : (run links boot ops).answered.count i < (run links boot ops).asked.count i) (hs : .swarmEnds ∈ ops)
    (more : List Op) (hm : .poll .answered ∉ more) :
    (run links boot (ops ++ more)).phase ≠ .over ∧ (run links boot (ops ++ more)).published = false ∧
      ∃ more', .poll .answered ∉ more' ∧ (run links boot (ops ++ more ++ more')).phase = .crashed := by
  have hun : ∀ (more : List Op) (s : State), .poll .answered ∉ more → s.answered.count i < s.asked.count i →
      (more.foldl State.step s).answered.count i < (more.foldl State.step s).asked.count i := by
    intro more
    induction more with
    | nil => exact fun _ _ h => h
    | cons op more ih =>
      intro s hm h
      exact ih _ (fun hh => hm (List.mem_cons_of_mem _ hh)) (unanswered_step h (fun he => hm (by simp [he])))
  have hlt := hun more _ hm hi
  have hsw : (run links boot (ops ++ more)).swarm = false := swarm_gone (by simp [hs]) _
  have happ : ∀ l, run links boot (ops ++ more ++ l) = l.foldl State.step (run links boot (ops ++ more)) :=
    fun l => by simp [run]
  rw [show more.foldl State.step (run links boot ops) = run links boot (ops ++ more) by simp [run]] at hlt
  have hinv := inv_run links boot (ops ++ more)
  have hans := answ_run links boot (ops ++ more)
  simp only [happ]
  generalize run links boot (ops ++ more) = s at *
  have hph : s.phase = .telling ∨ s.phase = .crashed := by
    cases hp : s.phase with
    | telling => exact .inl rfl
    | crashed => exact .inr rfl
    | _ =>
      have h1 := hans (by rw [hp]; simp) i
      obtain ⟨h2, h3⟩ := hinv.empty (by simp [hp])
      rw [h2, h3] at h1
      simp at h1
      omega
  have hno : s.phase ≠ .over := by rcases hph with h | h <;> rw [h] <;> simp
  refine ⟨hno, ?_, ?_⟩
  · cases hp : s.published with
    | false => rfl
    | true => exact absurd (hinv.published.mp hp) hno
  · rcases hph with hp | hp
    · have h1 := hans (by rw [hp]; simp) i
      have hmem : .asked i ∈ s.ready ∨ .asked i ∈ s.waiting := by
        by_cases hr : .asked i ∈ s.ready
        · exact .inl hr
        · right
          rw [List.count_eq_zero.mpr hr] at h1
          exact List.count_pos_iff.mp (by omega)
      rcases hmem with hr | hw
      · obtain ⟨k, hk⟩ := drop_crashes _ s hp hsw (Nat.le_refl _) ⟨_, hr, rfl⟩
        exact ⟨_, by simp [List.mem_replicate], hk⟩
      · have hst : s.step (.wake (.asked i)) =
            { s with waiting := s.waiting.erase (.asked i), ready := s.ready ++ [.asked i] } := by
          simp only [State.step, hw, if_true]
        obtain ⟨k, hk⟩ := drop_crashes _ (s.step (.wake (.asked i))) (by rw [hst]; exact hp) (by rw [hst]; exact hsw)
          (Nat.le_refl _) ⟨.asked i, by rw [hst]; simp, rfl⟩
        exact ⟨.wake (.asked i) :: List.replicate k (.poll .dropped), by simp [List.mem_replicate], hk⟩
    · exact ⟨[], by simp, hp⟩

/-- The command for a link to another node was sent, the swarm ended, and the link here has got its signal. -/
example : (run [.there 2, .here 3] (some true) [.poll .room, .swarmEnds]).answered.count 2 <
      (run [.there 2, .here 3] (some true) [.poll .room, .swarmEnds]).asked.count 2 ∧
    (run [.there 2, .here 3] (some true) ([.poll .room, .swarmEnds] ++ [.poll .room, .unlist])).told = [3] ∧
    (run [.there 2, .here 3] (some true) ([.poll .room, .swarmEnds] ++ [.poll .room, .unlist])).phase = .telling := by decide

end Verif.Boot.Ending
