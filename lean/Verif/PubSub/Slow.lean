import Verif.PubSub.Props

/-
Model of `PubSub::publish` step by step, with the mailboxes of the subscribers (`actors/src/pubsub.rs` L98-122), and the
property theorems about subscribers that are slow or want to leave (C81).
-/

namespace Verif.PubSub

variable {M : Type}

/-- The mailbox of a subscriber: its capacity (`none`: unbounded), what waits in it, whether its actor has ended.
`src/mailbox.rs` L20-60. The messages of others in it are messages like those published. -/
structure Box (M : Type) where
  cap : Option Nat := none
  queue : List M := []
  closed : Bool := false

/-- Is there room for a message? `src/mailbox.rs` L66-71. -/
def Box.room (b : Box M) : Bool :=
  match b.cap with
  | none => true
  | some c => b.queue.length < c

/-- A publish under way, `actors/src/pubsub.rs` L98-112: the message, the subscribers whose filters said yes, in the order of
the iteration; those whose `tell` has not ended yet; those whose `tell` ended with `ActorNotRunning`. -/
structure Cur (M : Type) where
  msg : M
  targets : List Nat
  pending : List Nat
  dead : List Nat := []

/-- The pubsub object or actor with its subscribers, `actors/src/pubsub.rs` L63-65. `waiting`: the messages to publish, which
wait in the actor's mailbox (L225-238) or, for an object, in the program that owns it. `cur`: the publish under way;
there is at most one, for `publish` takes `&mut self` (L98). `begun`, `copies`: history only; the publishes begun, and
the copies taken by mailboxes: number of the publish, actor, message. -/
structure Co (M : Type) where
  subs : Map Nat (Sub M) := []
  boxes : Nat → Box M := fun _ => {}
  waiting : List M := []
  cur : Option (Cur M) := none
  begun : List M := []
  copies : List (Nat × Nat × M) := []

/-- The steps. `request`: a message to publish is taken over. `start`: `publish` is called and asks the filters (`actors/src/pubsub.rs`
L102-110). `startPanic n`: likewise, but the filter of the subscriber with number `n` panics. `send`: the `tell` to one
subscriber is polled (L106). `finish`: all have ended (L111), the stopped are removed (L112-121). `giveUp`: the future of
`publish` is dropped, because the actor was killed or by the caller. `subscribe`: L155-207. The others are what the
subscribers and other senders do. -/
inductive COp (M : Type) where
  | request (m : M)
  | start
  | startPanic (n : Nat)
  | send (id : Nat)
  | finish
  | giveUp
  | subscribe (id : Nat) (f : Filter M)
  | handle (id : Nat)
  | other (id : Nat) (m : M)
  | close (id : Nat)

/-- A mailbox replaced. Bookkeeping for `src/mailbox.rs` L66-71. -/
def Co.setBox (s : Co M) (id : Nat) (b : Box M) : Co M :=
  { s with boxes := fun x => if x = id then b else s.boxes x }

/-- Every filter of the list is asked about `m`. `actors/src/pubsub.rs` L103-104. -/
def askAll (subs : Map Nat (Sub M)) (m : M) : Map Nat (Sub M) :=
  subs.map (fun e => (e.1, ({ e.2 with seen := e.2.seen ++ [m] } : Sub M)))

/-- The subscribers whose filters say yes. `actors/src/pubsub.rs` L104. -/
def wanting (subs : Map Nat (Sub M)) (m : M) : List Nat := (subs.filter (fun e => e.2.filter e.2.seen m)).map (·.1)

/-- One `tell` is polled (`actors/src/pubsub.rs` L106): it fails if the actor has ended, delivers if there is room, and waits
otherwise. -/
def Co.send (s : Co M) (id : Nat) : Co M :=
  match s.cur with
  | none => s
  | some c =>
    if id ∈ c.pending then
      if (s.boxes id).closed then
        { s with cur := some { c with pending := c.pending.filter (· != id), dead := id :: c.dead } }
      else if (s.boxes id).room then
        { s.setBox id { s.boxes id with queue := (s.boxes id).queue ++ [c.msg] } with
          cur := some { c with pending := c.pending.filter (· != id) }
          copies := s.copies ++ [(s.begun.length, id, c.msg)] }
      else s
    else s

/-- One step, `actors/src/pubsub.rs` L98-207. While a publish is under way nothing else happens to the pubsub. -/
def Co.step (s : Co M) : COp M → Co M
  | .request m => { s with waiting := s.waiting ++ [m] }
  | .start =>
    match s.cur, s.waiting with
    | none, m :: rest => { s with
      waiting := rest
      subs := askAll s.subs m
      cur := some { msg := m, targets := wanting s.subs m, pending := wanting s.subs m }
      begun := s.begun ++ [m] }
    | _, _ => s
  | .startPanic n =>
    match s.cur, s.waiting with
    | none, m :: rest => if n < s.subs.length then { s with
        waiting := rest
        subs := askAll (s.subs.take (n + 1)) m ++ s.subs.drop (n + 1)
        begun := s.begun ++ [m] }
      else s
    | _, _ => s
  | .send id => s.send id
  | .finish =>
    match s.cur with
    | none => s
    | some c => if c.pending = [] then { s with
        subs := c.targets.foldl (fun subs id => if id ∈ c.dead then subs.del id else subs) s.subs
        cur := none }
      else s
  | .giveUp => { s with cur := none }
  | .subscribe id f =>
    match s.cur with
    | none => { s with subs := s.subs.put id { filter := f } }
    | some _ => s
  | .handle id => s.setBox id { s.boxes id with queue := (s.boxes id).queue.tail }
  | .other id m =>
    if (s.boxes id).closed = false ∧ (s.boxes id).room then
      s.setBox id { s.boxes id with queue := (s.boxes id).queue ++ [m] }
    else s
  | .close id => s.setBox id { s.boxes id with queue := [], closed := true }

/-- The state after the steps `ops`, from `PubSub::new` (`actors/src/pubsub.rs` L71-75) with actors whose mailboxes have the
capacities `caps`. -/
def Co.run (caps : Nat → Option Nat) (ops : List (COp M)) : Co M :=
  ops.foldl Co.step { boxes := fun id => { cap := caps id } }

/-- The state after the first `n` steps of an infinite execution, from `PubSub::new` (`actors/src/pubsub.rs` L71-75). -/
def Co.upto (caps : Nat → Option Nat) (ops : Nat → COp M) : Nat → Co M
  | 0 => { boxes := fun id => { cap := caps id } }
  | n + 1 => (Co.upto caps ops n).step (ops n)

/-! ## Specification -/

/-- The number of copies of publish `k` that the mailbox of `id` has taken. -/
def Co.count (s : Co M) (k id : Nat) : Nat := (s.copies.filter (fun x => x.1 == k && x.2.1 == id)).length

/-- The step is not one by which a publish ends early. -/
def COp.regular : COp M → Prop
  | .giveUp => False
  | .startPanic _ => False
  | _ => True

/-- The mailbox is bounded and holds as many messages as it may. -/
def Box.Full (b : Box M) : Prop := ∃ c, b.cap = some c ∧ c ≤ b.queue.length

/-- In the execution the `tell` to `id` is polled again and again with room in the mailbox, or with the actor ended. -/
def Heeds (caps : Nat → Option Nat) (ops : Nat → COp M) (id : Nat) : Prop :=
  ∀ n, ∃ k, n ≤ k ∧ ops k = .send id ∧
    (((Co.upto caps ops k).boxes id).closed = true ∨ ¬ ((Co.upto caps ops k).boxes id).Full)

/-! ## Helper lemmas -/

theorem room_false_iff (b : Box M) : b.room = false ↔ b.Full := by
  unfold Box.room Box.Full
  cases b.cap with
  | none => simp
  | some c => simp

theorem room_true_iff (b : Box M) : b.room = true ↔ ¬ b.Full := by
  rw [← room_false_iff]
  cases b.room <;> simp

theorem setBox_box (s : Co M) (id x : Nat) (b : Box M) : (s.setBox id b).boxes x = if x = id then b else s.boxes x := rfl

theorem corun_snoc (caps : Nat → Option Nat) (ops : List (COp M)) (op : COp M) :
    Co.run caps (ops ++ [op]) = (Co.run caps ops).step op := by simp [Co.run]

theorem corun_append (caps : Nat → Option Nat) (ops more : List (COp M)) :
    Co.run caps (ops ++ more) = more.foldl Co.step (Co.run caps ops) := by simp [Co.run]

theorem wanting_targets (subs : Map Nat (Sub M)) (m : M) (log : List (M × List Nat)) :
    wanting subs m = targets { subs := subs, log := log } m := rfl

/-- What polling one `tell` does. -/
theorem send_cases (s : Co M) (id : Nat) :
    s.send id = s ∨ ∃ c, s.cur = some c ∧ id ∈ c.pending ∧
      (((s.boxes id).closed = true ∧
          s.send id = { s with cur := some { c with pending := c.pending.filter (· != id), dead := id :: c.dead } }) ∨
        ((s.boxes id).closed = false ∧ (s.boxes id).room = true ∧
          s.send id = { s.setBox id { s.boxes id with queue := (s.boxes id).queue ++ [c.msg] } with
            cur := some { c with pending := c.pending.filter (· != id) }
            copies := s.copies ++ [(s.begun.length, id, c.msg)] })) := by
  unfold Co.send
  cases hc : s.cur with
  | none => left; rfl
  | some c =>
    dsimp only
    by_cases hp : id ∈ c.pending
    · rw [if_pos hp]
      cases hcl : (s.boxes id).closed with
      | true => right; exact ⟨c, rfl, hp, .inl ⟨rfl, by simp⟩⟩
      | false =>
        cases hr : (s.boxes id).room with
        | true => right; exact ⟨c, rfl, hp, .inr ⟨rfl, rfl, by simp⟩⟩
        | false => left; simp
    · left; rw [if_neg hp]

/-- What the steps know of the publish under way and of the copies made. -/
structure CoInv (s : Co M) : Prop where
  ok : s.subs.Ok
  nodup : ∀ c, s.cur = some c → c.targets.Nodup
  sub : ∀ c, s.cur = some c → ∀ x ∈ c.pending, x ∈ c.targets
  deadIn : ∀ c, s.cur = some c → ∀ x ∈ c.dead, x ∈ c.targets ∧ x ∉ c.pending
  deadClosed : ∀ c, s.cur = some c → ∀ x ∈ c.dead, (s.boxes x).closed = true
  /-- copies of publishes begun only -/
  num : ∀ x ∈ s.copies, x.1 ≤ s.begun.length
  /-- the copies of the publish under way -/
  now : ∀ c, s.cur = some c → ∀ id,
    s.count s.begun.length id = if id ∈ c.targets ∧ id ∉ c.pending ∧ id ∉ c.dead then 1 else 0
  one : ∀ k id, s.count k id ≤ 1

theorem count_snoc (s : Co M) (cs : List (Nat × Nat × M)) (k id k' id' : Nat) (m : M) (h : cs = s.copies ++ [(k', id', m)]) :
    (cs.filter (fun x => x.1 == k && x.2.1 == id)).length = s.count k id + if k' = k ∧ id' = id then 1 else 0 := by
  subst h
  simp only [Co.count, List.filter_append, List.length_append]
  by_cases hh : k' = k ∧ id' = id
  · simp [hh.1, hh.2]
  · simp only [List.filter_cons, List.filter_nil]
    rw [if_neg (by simp only [Bool.and_eq_true, beq_iff_eq]; exact hh), if_neg hh]
    rfl

theorem askAll_keys (subs : Map Nat (Sub M)) (m : M) : Map.keys (askAll subs m) = Map.keys subs := by
  simp [askAll, Map.keys, List.map_map, Function.comp_def]

theorem foldl_del_ok (l : List Nat) (p : Nat → Prop) [DecidablePred p] : ∀ subs : Map Nat (Sub M), subs.Ok →
    Map.Ok (l.foldl (fun subs id => if p id then subs.del id else subs) subs) := by
  induction l with
  | nil => exact fun _ h => h
  | cons a l ih =>
    intro subs h
    refine ih _ ?_
    dsimp only
    split
    · exact Map.ok_del h a
    · exact h

theorem foldl_del_find (l : List Nat) (p : Nat → Prop) [DecidablePred p] (k : Nat) : ∀ subs : Map Nat (Sub M), subs.Ok →
    Map.find (l.foldl (fun subs id => if p id then subs.del id else subs) subs) k =
      if k ∈ l ∧ p k then none else subs.find k := by
  induction l with
  | nil => intro subs _; simp
  | cons a l ih =>
    intro subs h
    simp only [List.foldl_cons]
    by_cases ha : p a
    · rw [if_pos ha, ih _ (Map.ok_del h a), Map.find_del h]
      by_cases hka : k = a
      · subst hka; simp [ha]
      · simp [hka]
    · rw [if_neg ha, ih _ h]
      by_cases hka : k = a
      · subst hka; simp [ha]
      · simp [hka]

theorem coinv_init (caps : Nat → Option Nat) : CoInv ({ boxes := fun id => { cap := caps id } } : Co M) :=
  ⟨Map.ok_nil, by simp, by simp, by simp, by simp, by simp, by simp, by simp [Co.count]⟩

theorem count_zero_of_num {s : Co M} (h : ∀ x ∈ s.copies, x.1 ≤ s.begun.length) (k id : Nat) (hk : s.begun.length < k) :
    s.count k id = 0 := by
  simp only [Co.count, List.length_eq_zero_iff, List.filter_eq_nil_iff, Bool.and_eq_true, beq_iff_eq, not_and]
  intro x hx he
  have := h x hx
  omega

theorem coinv_step {s : Co M} (h : CoInv s) (op : COp M) : CoInv (s.step op) := by
  have hbox : ∀ id (b : Box M), ((s.boxes id).closed = true → b.closed = true) → CoInv (s.setBox id b) := by
    intro id b hb
    refine ⟨h.ok, h.nodup, h.sub, h.deadIn, ?_, h.num, h.now, h.one⟩
    intro c hc x hx
    rw [setBox_box]
    split
    · rename_i e; subst e; exact hb (h.deadClosed c hc x hx)
    · exact h.deadClosed c hc x hx
  cases op with
  | request m => exact ⟨h.ok, h.nodup, h.sub, h.deadIn, h.deadClosed, h.num, h.now, h.one⟩
  | start =>
    simp only [Co.step]
    split
    · rename_i m rest hc hw
      have hok : Map.Ok (askAll s.subs m) := by rw [Map.Ok, askAll_keys]; exact h.ok
      have hn : (wanting s.subs m).Nodup := targets_nodup (s := { subs := s.subs }) h.ok m
      refine ⟨hok, ?_, ?_, ?_, ?_, ?_, ?_, h.one⟩
      · intro c e; cases e; exact hn
      · intro c e; cases e; exact fun x hx => hx
      · intro c e; cases e; exact fun x hx => by cases hx
      · intro c e; cases e; exact fun x hx => by cases hx
      · intro x hx
        have := h.num x hx
        simp only [List.length_append, List.length_singleton]
        omega
      · intro c e id
        cases e
        have := count_zero_of_num h.num (s.begun.length + 1) id (by omega)
        simp only [Co.count, List.length_append, List.length_singleton] at this ⊢
        rw [this, if_neg (fun hh => hh.2.1 hh.1)]
    · exact h
  | startPanic n =>
    simp only [Co.step]
    split
    · rename_i m rest hc hw
      split
      · refine ⟨?_, by simp [hc], by simp [hc], by simp [hc], by simp [hc], ?_, by simp [hc], h.one⟩
        · have : Map.keys (askAll (s.subs.take (n + 1)) m ++ s.subs.drop (n + 1)) = Map.keys s.subs := by
            simp only [Map.keys, List.map_append]
            have e := askAll_keys (s.subs.take (n + 1)) m
            simp only [Map.keys] at e
            rw [e, ← List.map_append, List.take_append_drop]
          rw [Map.Ok, this]
          exact h.ok
        · intro x hx
          have := h.num x hx
          simp only [List.length_append, List.length_singleton]
          omega
      · exact h
    · exact h
  | send id =>
    show CoInv (s.send id)
    rcases send_cases s id with e | ⟨c, hc, hp, ⟨hcl, e⟩ | ⟨hcl, hr, e⟩⟩ <;> rw [e]
    · exact h
    · refine ⟨h.ok, ?_, ?_, ?_, ?_, h.num, ?_, h.one⟩
      · intro c' e'; cases e'; exact h.nodup c hc
      · intro c' e'; cases e'; exact fun x hx => h.sub c hc x (List.mem_filter.mp hx).1
      · intro c' e' x hx
        cases e'
        rcases List.mem_cons.mp hx with rfl | hx
        · exact ⟨h.sub c hc x hp, by simp⟩
        · have := h.deadIn c hc x hx
          exact ⟨this.1, fun hh => this.2 (List.mem_filter.mp hh).1⟩
      · intro c' e' x hx
        cases e'
        rcases List.mem_cons.mp hx with rfl | hx
        · exact hcl
        · exact h.deadClosed c hc x hx
      · intro c' e' x
        cases e'
        have := h.now c hc x
        simp only [Co.count] at this ⊢
        rw [this]
        by_cases hx : x = id
        · subst hx; simp [hp]
        · simp [List.mem_filter, hx]
    · refine ⟨h.ok, ?_, ?_, ?_, ?_, ?_, ?_, ?_⟩
      · intro c' e'; cases e'; exact h.nodup c hc
      · intro c' e'; cases e'; exact fun x hx => h.sub c hc x (List.mem_filter.mp hx).1
      · intro c' e' x hx
        cases e'
        have := h.deadIn c hc x hx
        exact ⟨this.1, fun hh => this.2 (List.mem_filter.mp hh).1⟩
      · intro c' e' x hx
        cases e'
        show ((s.setBox id _).boxes x).closed = true
        rw [setBox_box]
        split
        · rename_i e2; subst e2; exact h.deadClosed c hc x hx
        · exact h.deadClosed c hc x hx
      · intro x hx
        rcases List.mem_append.mp hx with hx | hx
        · exact h.num x hx
        · simp only [List.mem_singleton] at hx
          subst hx
          exact Nat.le_refl _
      · intro c' e' x
        cases e'
        refine (count_snoc s _ _ x _ id c.msg rfl).trans ?_
        have := h.now c hc x
        show s.count s.begun.length x + _ = _
        rw [this]
        by_cases hx : x = id
        · subst hx
          have hd : x ∉ c.dead := fun hh => (h.deadIn c hc x hh).2 hp
          simp [hp, hd, h.sub c hc x hp, Co.setBox]
        · simp [List.mem_filter, hx, Ne.symm hx]
      · intro k x
        refine Nat.le_trans (Nat.le_of_eq (count_snoc s _ k x s.begun.length id c.msg rfl)) ?_
        split
        · rename_i hh
          rw [← hh.1, ← hh.2, h.now c hc id]
          simp [hp]
        · exact h.one k x
  | finish =>
    simp only [Co.step]
    split
    · exact h
    · rename_i c hc
      split
      · exact ⟨foldl_del_ok _ _ _ h.ok, by simp, by simp, by simp, by simp, h.num, by simp, h.one⟩
      · exact h
  | giveUp => exact ⟨h.ok, by simp [Co.step], by simp [Co.step], by simp [Co.step], by simp [Co.step], h.num,
      by simp [Co.step], h.one⟩
  | subscribe id f =>
    simp only [Co.step]
    split
    · rename_i hc
      exact ⟨Map.ok_put h.ok _ _, by simp [hc], by simp [hc], by simp [hc], by simp [hc], h.num, by simp [hc], h.one⟩
    · exact h
  | handle id => exact hbox id _ (fun hh => hh)
  | other id m =>
    simp only [Co.step]
    split
    · exact hbox id _ (fun hh => hh)
    · exact h
  | close id => exact hbox id _ (fun _ => rfl)

theorem coinv_fold (ops : List (COp M)) : ∀ s : Co M, CoInv s → CoInv (ops.foldl Co.step s) := by
  induction ops with
  | nil => exact fun _ h => h
  | cons op rest ih => exact fun s h => ih _ (coinv_step h op)

theorem coinv_run (caps : Nat → Option Nat) (ops : List (COp M)) : CoInv (Co.run caps ops) :=
  coinv_fold ops _ (coinv_init caps)

theorem coinv_upto (caps : Nat → Option Nat) (ops : Nat → COp M) (n : Nat) : CoInv (Co.upto caps ops n) := by
  induction n with
  | zero => exact coinv_init caps
  | succ n ih => exact coinv_step ih _

/-! ## Publishing step by step is publishing at once (C44) -/

/-- The publishes that are over are those of `a`. -/
structure Past (s : Co M) (a : St M) (n : Nat) : Prop where
  msgs : a.log.map (·.1) = s.begun.take n
  len : a.log.length = n
  counts : ∀ k id, k < n → s.count (k + 1) id = (match a.log[k]? with
    | none => 0
    | some e => e.2.count id)

/-- The state is that of the atomic model, or that within one of its publishes. -/
def Refines (s : Co M) (a : St M) : Prop :=
  match s.cur with
  | none => s.subs = a.subs ∧ Past s a s.begun.length
  | some c => s.subs = askAll a.subs c.msg ∧ c.targets = wanting a.subs c.msg ∧
      ∃ n, s.begun.length = n + 1 ∧ Past s a n ∧ s.begun = s.begun.take n ++ [c.msg]

theorem publish_eq (a : St M) (m : M) (dead : List Nat) :
    publish a m (fun id => if id ∈ dead then Res.notRunning else Res.ok) =
      { subs := (wanting a.subs m).foldl (fun subs id => if id ∈ dead then subs.del id else subs) (askAll a.subs m)
        log := a.log ++ [(m, (wanting a.subs m).filter (fun id => decide (id ∉ dead)))] } := by
  simp only [publish, St.mk.injEq]
  constructor
  · rw [List.foldl_map]
    congr 1
    funext subs id
    by_cases hd : id ∈ dead <;> simp [hd]
  · congr 2
    simp only [wanting]
    generalize (a.subs.filter (fun e => e.2.filter e.2.seen m)).map (·.1) = l
    induction l with
    | nil => rfl
    | cons x l ih =>
      by_cases hx : x ∈ dead <;> simp_all

theorem past_of_count {s s' : Co M} {a : St M} {n : Nat} (h : Past s a n) (hb : s'.begun.take n = s.begun.take n)
    (hc : ∀ k id, k < n → s'.count (k + 1) id = s.count (k + 1) id) : Past s' a n :=
  ⟨by rw [hb]; exact h.msgs, h.len, fun k id hk => by rw [hc k id hk]; exact h.counts k id hk⟩

theorem refines_step {s : Co M} (hi : CoInv s) {ops : List (Op M)} (h : Refines s (after ops)) (op : COp M)
    (hr : op.regular) : ∃ more, Refines (s.step op) (after (ops ++ more)) := by
  have same : ∀ s' : Co M, s'.subs = s.subs → s'.cur = s.cur → s'.begun = s.begun → s'.copies = s.copies →
      ∃ more, Refines s' (after (ops ++ more)) := by
    intro s' e1 e2 e3 e4
    refine ⟨[], ?_⟩
    rw [List.append_nil]
    have hcnt : ∀ k id, s'.count k id = s.count k id := by intro k id; simp only [Co.count, e4]
    simp only [Refines] at h ⊢
    rw [e2]
    cases hc : s.cur with
    | none =>
      rw [hc] at h
      exact ⟨by rw [e1]; exact h.1, past_of_count (by rw [e3]; exact h.2) (by rw [e3]) (fun k id _ => hcnt _ id)⟩
    | some c =>
      rw [hc] at h
      obtain ⟨h1, h2, n, h3, h4, h5⟩ := h
      exact ⟨by rw [e1]; exact h1, h2, n, by rw [e3]; exact h3,
        past_of_count h4 (by rw [e3]) (fun k id _ => hcnt _ id), by rw [e3]; exact h5⟩
  cases op with
  | request m => exact same _ rfl rfl rfl rfl
  | startPanic n => exact hr.elim
  | giveUp => exact hr.elim
  | handle id => exact same _ rfl rfl rfl rfl
  | other id m =>
    simp only [Co.step]
    split
    · exact same _ rfl rfl rfl rfl
    · exact same _ rfl rfl rfl rfl
  | close id => exact same _ rfl rfl rfl rfl
  | start =>
    simp only [Co.step]
    split
    · rename_i m rest hc hw
      refine ⟨[], ?_⟩
      rw [List.append_nil]
      simp only [Refines, hc] at h ⊢
      refine ⟨by rw [h.1], by rw [h.1], s.begun.length, by simp, ?_, by simp⟩
      exact past_of_count h.2 (by simp) (fun k id hk => rfl)
    · exact same _ rfl rfl rfl rfl
  | send id =>
    show ∃ more, Refines (s.send id) _
    rcases send_cases s id with e | ⟨c, hc, hp, ⟨hcl, e⟩ | ⟨hcl, hro, e⟩⟩ <;> rw [e]
    · exact same _ rfl rfl rfl rfl
    · refine ⟨[], ?_⟩
      rw [List.append_nil]
      simp only [Refines, hc] at h ⊢
      obtain ⟨h1, h2, n, h3, h4, h5⟩ := h
      exact ⟨h1, h2, n, h3, past_of_count h4 rfl (fun k id _ => rfl), h5⟩
    · refine ⟨[], ?_⟩
      rw [List.append_nil]
      simp only [Refines, hc] at h ⊢
      obtain ⟨h1, h2, n, h3, h4, h5⟩ := h
      refine ⟨h1, h2, n, h3, past_of_count h4 rfl (fun k x hk => ?_), h5⟩
      refine (count_snoc s _ (k + 1) x s.begun.length id c.msg rfl).trans ?_
      rw [if_neg (by omega)]
      rfl
  | finish =>
    simp only [Co.step]
    split
    · exact same _ rfl rfl rfl rfl
    · rename_i c hc
      split
      · rename_i hp
        refine ⟨[.publish c.msg (fun id => if id ∈ c.dead then Res.notRunning else Res.ok)], ?_⟩
        rw [after_snoc]
        simp only [St.step]
        rw [publish_eq]
        simp only [Refines, hc] at h ⊢
        obtain ⟨h1, h2, n, h3, h4, h5⟩ := h
        refine ⟨by rw [h1, h2], ?_, ?_, ?_⟩
        · simp only [List.map_append, List.map_cons, List.map_nil, h4.msgs, List.take_length]
          exact h5.symm
        · simp [h4.len, h3]
        · intro k x hk
          dsimp only at hk ⊢
          by_cases hkn : k < n
          · rw [List.getElem?_append_left (by rw [h4.len]; exact hkn)]
            exact h4.counts k x hkn
          · have hk2 : k = n := by omega
            subst hk2
            rw [List.getElem?_append_right (by rw [h4.len]; exact Nat.le_refl _)]
            simp only [h4.len, Nat.sub_self, List.getElem?_cons_zero]
            have hn := hi.now c hc x
            rw [h3] at hn
            refine Eq.trans hn ?_
            rw [← h2]
            have hnd := (hi.nodup c hc).filter (fun id => decide (id ∉ c.dead))
            by_cases hx : x ∈ c.targets ∧ x ∉ c.dead
            · rw [if_pos ⟨hx.1, by simp [hp], hx.2⟩, count_nodup hnd (List.mem_filter.mpr ⟨hx.1, by simp [hx.2]⟩)]
            · rw [if_neg (fun hh => hx ⟨hh.1, hh.2.2⟩), List.count_eq_zero_of_not_mem]
              intro hh
              have := List.mem_filter.mp hh
              exact hx ⟨this.1, by simpa using this.2⟩
      · exact same _ rfl rfl rfl rfl
  | subscribe id f =>
    simp only [Co.step]
    split
    · rename_i hc
      refine ⟨[.subscribeFilter id f], ?_⟩
      rw [after_snoc]
      simp only [Refines, hc, St.step] at h ⊢
      exact ⟨by rw [h.1], h.2.msgs, h.2.len, h.2.counts⟩
    · exact same _ rfl rfl rfl rfl

/-- **C44** (step by step): whatever mailboxes are full or closed in between and in whatever order the sends of each publish
go through, when no publish is under way the pubsub is as if each publish had happened at once: the same subscribers are
left with the same filters, and each actor has taken the same number of copies of each message. So the theorems about
publishes at once hold for publishes step by step. The publishes are in the order of the requests. -/
theorem publish_step_by_step (caps : Nat → Option Nat) (ops : List (COp M)) (hr : ∀ op ∈ ops, op.regular)
    (hidle : (Co.run caps ops).cur = none) :
    ∃ past : List (Op M), (Co.run caps ops).subs = (after past).subs ∧
      (Co.run caps ops).begun = (after past).log.map (·.1) ∧
      ∀ k id, k < (Co.run caps ops).begun.length → (Co.run caps ops).count (k + 1) id =
        ((after past).log[k]?.map (fun e => e.2.count id)).getD 0 := by
  have key : ∀ (l : List (COp M)) (s : Co M) (past : List (Op M)), CoInv s → Refines s (after past) →
      (∀ op ∈ l, op.regular) → ∃ past', Refines (l.foldl Co.step s) (after past') := by
    intro l
    induction l with
    | nil => exact fun s past _ h _ => ⟨past, h⟩
    | cons op rest ih =>
      intro s past hi h hl
      obtain ⟨more, hm⟩ := refines_step hi h op (hl op (List.mem_cons_self ..))
      exact ih _ _ (coinv_step hi op) hm (fun o ho => hl o (List.mem_cons_of_mem _ ho))
  obtain ⟨past, hp⟩ := key ops _ [] (coinv_init caps) ⟨rfl, rfl, rfl, fun k id hk => by simp at hk⟩ hr
  change Refines (Co.run caps ops) (after past) at hp
  simp only [Refines, hidle] at hp
  refine ⟨past, hp.1, by rw [hp.2.msgs, List.take_length], fun k id hk => ?_⟩
  rw [hp.2.counts k id hk]
  cases (after past).log[k]? <;> rfl

/-- Actor 1 has a mailbox for one message, actor 2 one without bound and wants even numbers only, actor 3 has ended. The
second message waits for actor 1. -/
def slowDemo : List (COp Nat) :=
  [.subscribe 1 passAll, .subscribe 2 (fun _ m => m % 2 = 0), .subscribe 3 passAll, .close 3, .request 4, .request 6,
    .request 5, .start, .send 2, .send 3, .send 1, .finish, .start, .send 1, .send 2]

/-- Everybody gets one copy of each after actor 1 has handled its message; actor 3 is no longer subscribed. -/
example : (∀ op ∈ slowDemo ++ [.handle 1, .send 1, .finish], COp.regular op) ∧
    (Co.run (fun id => if id = 1 then some 1 else none) (slowDemo ++ [.handle 1, .send 1, .finish])).cur.isNone = true ∧
    (Co.run (fun id => if id = 1 then some 1 else none) (slowDemo ++ [.handle 1, .send 1, .finish])).copies =
      [(1, 2, 4), (1, 1, 4), (2, 2, 6), (2, 1, 6)] ∧
    (Co.run (fun id => if id = 1 then some 1 else none) (slowDemo ++ [.handle 1, .send 1, .finish])).subs.map (·.1) =
      [1, 2] := by
  refine ⟨?_, by decide, by decide, by decide⟩
  intro op hop
  simp only [slowDemo, List.cons_append, List.nil_append, List.mem_cons, List.not_mem_nil, or_false] at hop
  rcases hop with rfl | rfl | rfl | rfl | rfl | rfl | rfl | rfl | rfl | rfl | rfl | rfl | rfl | rfl | rfl | rfl | rfl | rfl <;>
    trivial

/-- **C44** (never twice): also if publishes are given up half-way or a filter panics, no mailbox takes a message of one
publish twice. -/
theorem at_most_one_copy (caps : Nat → Option Nat) (ops : List (COp M)) (k id : Nat) :
    (Co.run caps ops).count k id ≤ 1 := (coinv_run caps ops).one k id

example : (Co.run (fun id => if id = 1 then some 1 else none) (slowDemo ++ [.giveUp, .start, .send 2, .send 1])).count 2 2 = 1 ∧
    (Co.run (fun id => if id = 1 then some 1 else none) (slowDemo ++ [.giveUp, .start, .send 2, .send 1])).count 2 1 = 0 := by
  decide

/-! ## C81 -/

/-- While a publish is under way the pubsub does nothing else. -/
theorem busy_step {s : Co M} {c : Cur M} (hc : s.cur = some c) : s.step .start = s ∧ (∀ n, s.step (.startPanic n) = s) ∧
    (∀ x f, s.step (.subscribe x f) = s) ∧ (c.pending ≠ [] → s.step .finish = s) :=
  ⟨by simp only [Co.step, hc], fun n => by simp only [Co.step, hc], fun x f => by simp only [Co.step, hc],
    fun hp => by simp only [Co.step, hc, if_neg hp]⟩

/-- The publish under way waits for room in the mailbox of `id`. -/
def Co.WaitsFor (s : Co M) (id : Nat) : Prop :=
  ∃ c, s.cur = some c ∧ id ∈ c.pending ∧ (s.boxes id).closed = false ∧ (s.boxes id).Full

theorem waits_step {s : Co M} {id : Nat} (h : s.WaitsFor id) (op : COp M) (h1 : op ≠ .handle id) (h2 : op ≠ .close id)
    (h3 : op ≠ .giveUp) : (s.step op).WaitsFor id ∧ (s.step op).begun = s.begun ∧ (s.step op).subs = s.subs ∧
      s.waiting <+: (s.step op).waiting ∧
      ∃ x, (s.step op).copies = s.copies ++ x ∧ ∀ y ∈ x, y.1 = s.begun.length := by
  obtain ⟨c, hc, hp, hcl, hfull⟩ := h
  have hro := (room_false_iff _).mpr hfull
  have same : ∀ s' : Co M, s'.cur = s.cur → s'.boxes id = s.boxes id → s'.begun = s.begun → s'.subs = s.subs →
      s.waiting <+: s'.waiting → s'.copies = s.copies → s'.WaitsFor id ∧ s'.begun = s.begun ∧ s'.subs = s.subs ∧
        s.waiting <+: s'.waiting ∧ ∃ x, s'.copies = s.copies ++ x ∧ ∀ y ∈ x, y.1 = s.begun.length :=
    fun s' e1 e2 e3 e4 e5 e6 => ⟨⟨c, by rw [e1]; exact hc, hp, by rw [e2]; exact hcl, by rw [e2]; exact hfull⟩, e3, e4, e5,
      [], by simp [e6], by simp⟩
  have sameBox : ∀ x b, x ≠ id → (s.setBox x b).boxes id = s.boxes id := by
    intro x b hx
    rw [setBox_box, if_neg (Ne.symm hx)]
  cases op with
  | request m => exact same _ rfl rfl rfl rfl (List.prefix_append _ _) rfl
  | start => rw [(busy_step hc).1]; exact same s rfl rfl rfl rfl (List.prefix_refl _) rfl
  | startPanic n => rw [(busy_step hc).2.1 n]; exact same s rfl rfl rfl rfl (List.prefix_refl _) rfl
  | finish =>
    rw [(busy_step hc).2.2.2 (List.ne_nil_of_mem hp)]
    exact same s rfl rfl rfl rfl (List.prefix_refl _) rfl
  | giveUp => exact absurd rfl h3
  | subscribe x f => rw [(busy_step hc).2.2.1 x f]; exact same s rfl rfl rfl rfl (List.prefix_refl _) rfl
  | handle x =>
    have hx : x ≠ id := by rintro rfl; exact h1 rfl
    exact same _ rfl (sameBox x _ hx) rfl rfl (List.prefix_refl _) rfl
  | close x =>
    have hx : x ≠ id := by rintro rfl; exact h2 rfl
    exact same _ rfl (sameBox x _ hx) rfl rfl (List.prefix_refl _) rfl
  | other x m =>
    simp only [Co.step]
    split
    · rename_i hh
      have hx : x ≠ id := by
        rintro rfl
        rw [hro] at hh
        exact absurd hh.2 (by simp)
      exact same _ rfl (sameBox x _ hx) rfl rfl (List.prefix_refl _) rfl
    · exact same s rfl rfl rfl rfl (List.prefix_refl _) rfl
  | send x =>
    show (s.send x).WaitsFor id ∧ _
    rcases send_cases s x with e | ⟨c', hc', hp', hx⟩
    · rw [show s.step (.send x) = s.send x from rfl, e]
      exact same s rfl rfl rfl rfl (List.prefix_refl _) rfl
    · rw [hc] at hc'
      cases hc'
      have hne : x ≠ id := by
        rintro rfl
        rcases hx with ⟨h, _⟩ | ⟨_, h, _⟩
        · rw [hcl] at h; cases h
        · rw [hro] at h; cases h
      rw [show s.step (.send x) = s.send x from rfl]
      rcases hx with ⟨_, e⟩ | ⟨_, _, e⟩ <;> rw [e]
      · exact ⟨⟨_, rfl, List.mem_filter.mpr ⟨hp, by simpa using Ne.symm hne⟩, hcl, hfull⟩, rfl, rfl, List.prefix_refl _, [],
          by simp, by simp⟩
      · refine ⟨⟨_, rfl, List.mem_filter.mpr ⟨hp, by simpa using Ne.symm hne⟩, ?_, ?_⟩, rfl, rfl, List.prefix_refl _, _, rfl,
          by simp⟩
        · show ((s.setBox x _).boxes id).closed = false
          rw [sameBox x _ hne]; exact hcl
        · show ((s.setBox x _).boxes id).Full
          rw [sameBox x _ hne]; exact hfull

/-- **C81** (negation). One subscriber stops everything: while a publish waits for room in the mailbox of `id`, and `id`
neither handles a message nor ends, no other publish begins, none of the waiting messages reaches anybody, nobody can
subscribe, and the publish never ends, whatever all others do. -/
theorem slow_subscriber_blocks_all (caps : Nat → Option Nat) (ops later : List (COp M)) (id : Nat)
    (h : (Co.run caps ops).WaitsFor id)
    (hl : ∀ op ∈ later, op ≠ .handle id ∧ op ≠ .close id ∧ op ≠ .giveUp) :
    (Co.run caps (ops ++ later)).WaitsFor id ∧
    (Co.run caps (ops ++ later)).begun = (Co.run caps ops).begun ∧
    (Co.run caps (ops ++ later)).subs = (Co.run caps ops).subs ∧
    (Co.run caps ops).waiting <+: (Co.run caps (ops ++ later)).waiting ∧
    ∀ k x, k ≠ (Co.run caps ops).begun.length →
      (Co.run caps (ops ++ later)).count k x = (Co.run caps ops).count k x := by
  rw [corun_append]
  generalize Co.run caps ops = s at h
  induction later generalizing s with
  | nil => exact ⟨h, rfl, rfl, List.prefix_refl _, fun _ _ _ => rfl⟩
  | cons op rest ih =>
    have h1 := hl op (List.mem_cons_self ..)
    obtain ⟨a1, a2, a3, a4, x, a5, a6⟩ := waits_step h op h1.1 h1.2.1 h1.2.2
    obtain ⟨b1, b2, b3, b4, b5⟩ := ih (fun o ho => hl o (List.mem_cons_of_mem _ ho)) _ a1
    refine ⟨b1, b2.trans a2, b3.trans a3, a4.trans b4, fun k y hk => ?_⟩
    rw [List.foldl_cons, b5 k y (by rw [a2]; exact hk)]
    simp only [Co.count, a5, List.filter_append, List.length_append]
    have : (x.filter (fun z => z.1 == k && z.2.1 == y)) = [] := by
      rw [List.filter_eq_nil_iff]
      intro z hz
      have := a6 z hz
      simp only [Bool.and_eq_true, beq_iff_eq, not_and]
      intro e
      exact absurd (e.symm.trans this) hk
    rw [this]
    rfl

/-- The second publish waits for actor 1; the third message waits for the second publish, though actor 2, which has room,
would get it. -/
example : (Co.run (fun id => if id = 1 then some 1 else none) slowDemo).WaitsFor 1 ∧
    (Co.run (fun id => if id = 1 then some 1 else none) slowDemo).waiting = [5] ∧
    (Co.run (fun id => if id = 1 then some 1 else none) (slowDemo ++ [.handle 2, .handle 2, .finish, .start, .send 1,
      .send 2, .subscribe 7 passAll])).copies = [(1, 2, 4), (1, 1, 4), (2, 2, 6)] :=
  ⟨⟨_, rfl, by decide, by decide, 1, by decide, by decide⟩, by decide, by decide⟩

/-- The step keeps `id` waiting, unless the `tell` to it goes through or the publish is given up. -/
theorem pending_step {s : Co M} {id : Nat} {c : Cur M} (hc : s.cur = some c) (hp : id ∈ c.pending) (op : COp M)
    (h1 : op ≠ .giveUp) (h2 : op = .send id → (s.boxes id).closed = false ∧ (s.boxes id).room = false) :
    ∃ c', (s.step op).cur = some c' ∧ id ∈ c'.pending ∧ (s.step op).begun = s.begun ∧
      c'.pending.Sublist c.pending ∧ c'.targets = c.targets ∧ c'.msg = c.msg := by
  have same : ∀ s' : Co M, s'.cur = s.cur → s'.begun = s.begun → ∃ c', s'.cur = some c' ∧ id ∈ c'.pending ∧
      s'.begun = s.begun ∧ c'.pending.Sublist c.pending ∧ c'.targets = c.targets ∧ c'.msg = c.msg :=
    fun s' e1 e2 => ⟨c, by rw [e1, hc], hp, e2, List.Sublist.refl _, rfl, rfl⟩
  cases op with
  | request m => exact same _ rfl rfl
  | start => rw [(busy_step hc).1]; exact same s rfl rfl
  | startPanic n => rw [(busy_step hc).2.1 n]; exact same s rfl rfl
  | finish =>
    rw [(busy_step hc).2.2.2 (List.ne_nil_of_mem hp)]
    exact same s rfl rfl
  | giveUp => exact absurd rfl h1
  | subscribe x f => rw [(busy_step hc).2.2.1 x f]; exact same s rfl rfl
  | handle x => exact same _ rfl rfl
  | close x => exact same _ rfl rfl
  | other x m =>
    simp only [Co.step]
    split
    · exact same _ rfl rfl
    · exact same s rfl rfl
  | send x =>
    rw [show s.step (.send x) = s.send x from rfl]
    rcases send_cases s x with e | ⟨c', hc', hp', hx⟩
    · rw [e]; exact same s rfl rfl
    · rw [hc] at hc'
      cases hc'
      have hne : x ≠ id := by
        rintro rfl
        have := h2 rfl
        rcases hx with ⟨h, _⟩ | ⟨_, h, _⟩
        · rw [this.1] at h; cases h
        · rw [this.2] at h; cases h
      rcases hx with ⟨_, e⟩ | ⟨_, _, e⟩ <;> rw [e] <;>
        exact ⟨_, rfl, List.mem_filter.mpr ⟨hp, by simpa using Ne.symm hne⟩, rfl, List.filter_sublist,
          rfl, rfl⟩

/-- While a publish goes on, and until the `tell` to `id` goes through, `id` is waited for. -/
theorem pending_until {caps : Nat → Option Nat} {ops : Nat → COp M} (hg : ∀ n, ops n ≠ .giveUp) {n id : Nat} {c : Cur M}
    (hc : (Co.upto caps ops n).cur = some c) (hp : id ∈ c.pending) (k : Nat) (hk : n ≤ k)
    (hq : ∀ j, n ≤ j → j < k → ops j = .send id →
      ((Co.upto caps ops j).boxes id).closed = false ∧ ((Co.upto caps ops j).boxes id).room = false) :
    ∃ c', (Co.upto caps ops k).cur = some c' ∧ id ∈ c'.pending ∧
      (Co.upto caps ops k).begun = (Co.upto caps ops n).begun ∧ c'.pending.Sublist c.pending ∧
      c'.targets = c.targets ∧ c'.msg = c.msg := by
  induction k with
  | zero =>
    have : n = 0 := by omega
    subst this
    exact ⟨c, hc, hp, rfl, List.Sublist.refl _, rfl, rfl⟩
  | succ k ih =>
    by_cases hkn : n = k + 1
    · subst hkn
      exact ⟨c, hc, hp, rfl, List.Sublist.refl _, rfl, rfl⟩
    · obtain ⟨c1, a1, a2, a3, a4, a5, a6⟩ := ih (by omega) (fun j h1 h2 h3 => hq j h1 (by omega) h3)
      obtain ⟨c2, b1, b2, b3, b4, b5, b6⟩ := pending_step a1 a2 (ops k) (hg k) (fun e => hq k (by omega) (by omega) e)
      exact ⟨c2, b1, b2, b3.trans a3, b4.trans a4, b5.trans a5, b6.trans a6⟩

/-- The `tell` to a heeding subscriber goes through at some time, while the same publish is still under way. -/
theorem heeded_at {caps : Nat → Option Nat} {ops : Nat → COp M} (hg : ∀ n, ops n ≠ .giveUp) {n id : Nat} {c : Cur M}
    (hh : Heeds caps ops id) (hc : (Co.upto caps ops n).cur = some c) (hp : id ∈ c.pending) :
    ∃ k c', n ≤ k ∧ ops k = .send id ∧
      (((Co.upto caps ops k).boxes id).closed = true ∨ ((Co.upto caps ops k).boxes id).room = true) ∧
      (Co.upto caps ops k).cur = some c' ∧ id ∈ c'.pending ∧
      (Co.upto caps ops k).begun = (Co.upto caps ops n).begun ∧ c'.pending.Sublist c.pending ∧
      c'.targets = c.targets ∧ c'.msg = c.msg := by
  -- the first such time
  have hex : ∃ k, n ≤ k ∧ ops k = .send id ∧
      (((Co.upto caps ops k).boxes id).closed = true ∨ ((Co.upto caps ops k).boxes id).room = true) := by
    simpa only [room_true_iff] using hh n
  obtain ⟨d, hd⟩ : ∃ d, n ≤ n + d ∧ ops (n + d) = .send id ∧
      (((Co.upto caps ops (n + d)).boxes id).closed = true ∨ ((Co.upto caps ops (n + d)).boxes id).room = true) := by
    obtain ⟨k, hk⟩ := hex
    exact ⟨k - n, by rw [Nat.add_sub_cancel' hk.1]; exact hk⟩
  have hmin : ∀ m, (∃ d, d ≤ m ∧ ops (n + d) = .send id ∧
      (((Co.upto caps ops (n + d)).boxes id).closed = true ∨ ((Co.upto caps ops (n + d)).boxes id).room = true)) →
      ∃ d, ops (n + d) = .send id ∧
        (((Co.upto caps ops (n + d)).boxes id).closed = true ∨ ((Co.upto caps ops (n + d)).boxes id).room = true) ∧
        ∀ j, j < d → ops (n + j) = .send id →
          ((Co.upto caps ops (n + j)).boxes id).closed = false ∧ ((Co.upto caps ops (n + j)).boxes id).room = false := by
    intro m
    induction m with
    | zero =>
      rintro ⟨d, h0, h1, h2⟩
      have : d = 0 := by omega
      subst this
      exact ⟨0, h1, h2, fun j hj => by omega⟩
    | succ m ih =>
      rintro ⟨d, h0, h1, h2⟩
      by_cases he : ∃ d', d' ≤ m ∧ ops (n + d') = .send id ∧
          (((Co.upto caps ops (n + d')).boxes id).closed = true ∨ ((Co.upto caps ops (n + d')).boxes id).room = true)
      · exact ih he
      · refine ⟨d, h1, h2, fun j hj hs => ?_⟩
        have hj' : j ≤ m := by omega
        constructor
        · cases hx : ((Co.upto caps ops (n + j)).boxes id).closed with
          | false => rfl
          | true => exact absurd ⟨j, hj', hs, .inl hx⟩ he
        · cases hx : ((Co.upto caps ops (n + j)).boxes id).room with
          | false => rfl
          | true => exact absurd ⟨j, hj', hs, .inr hx⟩ he
  obtain ⟨d, h1, h2, h3⟩ := hmin d ⟨d, Nat.le_refl _, hd.2⟩
  obtain ⟨c', a1, a2, a3, a4, a5, a6⟩ := pending_until hg hc hp (n + d) (by omega) (fun j hj1 hj2 hs => by
    have := h3 (j - n) (by omega)
    rw [Nat.add_sub_cancel' hj1] at this
    exact this hs)
  exact ⟨n + d, c', by omega, h1, h2, a1, a2, a3, a4, a5, a6⟩

theorem cap_step (s : Co M) (op : COp M) (id : Nat) : ((s.step op).boxes id).cap = (s.boxes id).cap := by
  have hb : ∀ x (b : Box M), b.cap = (s.boxes x).cap → ((s.setBox x b).boxes id).cap = (s.boxes id).cap := by
    intro x b e
    rw [setBox_box]
    split
    · rename_i h; rw [e, h]
    · rfl
  cases op with
  | send x =>
    show ((s.send x).boxes id).cap = _
    rcases send_cases s x with e | ⟨c, hc, hp, ⟨hcl, e⟩ | ⟨hcl, hr, e⟩⟩ <;> rw [e]
    exact hb x _ rfl
  | handle x => exact hb x _ rfl
  | close x => exact hb x _ rfl
  | other x m =>
    simp only [Co.step]
    split
    · exact hb x _ rfl
    · rfl
  | request m => rfl
  | giveUp => rfl
  | start => simp only [Co.step]; split <;> rfl
  | startPanic n => simp only [Co.step]; repeat' split
                    all_goals rfl
  | finish => simp only [Co.step]; repeat' split
              all_goals rfl
  | subscribe x f => simp only [Co.step]; split <;> rfl

theorem cap_upto (caps : Nat → Option Nat) (ops : Nat → COp M) (n id : Nat) :
    ((Co.upto caps ops n).boxes id).cap = caps id := by
  induction n with
  | zero => rfl
  | succ n ih => exact (cap_step _ _ id).trans ih

/-- An actor with an unbounded mailbox heeds. -/
theorem heeds_unbounded (caps : Nat → Option Nat) (ops : Nat → COp M) (id : Nat) (hu : caps id = none)
    (h : ∀ n, ∃ k, n ≤ k ∧ ops k = .send id) : Heeds caps ops id := by
  intro n
  obtain ⟨k, h1, h2⟩ := h n
  refine ⟨k, h1, h2, .inr ?_⟩
  rintro ⟨c, hc, -⟩
  rw [cap_upto, hu] at hc
  cases hc

/-- **C81** (partial: the publish under way). The sends of one publish do not wait for each other: a subscriber whose mailbox
has room again and again gets its copy of the message being published, or has ended, also if other subscribers never
have room. -/
theorem own_copy_arrives_partial (caps : Nat → Option Nat) (ops : Nat → COp M) (hg : ∀ n, ops n ≠ .giveUp) (n id : Nat)
    (c : Cur M) (hh : Heeds caps ops id) (hc : (Co.upto caps ops n).cur = some c) (hp : id ∈ c.pending) :
    ∃ k, n ≤ k ∧ ((Co.upto caps ops k).count (Co.upto caps ops n).begun.length id = 1 ∨
      ((Co.upto caps ops k).boxes id).closed = true) := by
  obtain ⟨k, c', h1, h2, h3, h4, h5, h6, -, -, -⟩ := heeded_at hg hh hc hp
  cases hcl : ((Co.upto caps ops k).boxes id).closed with
  | true => exact ⟨k, h1, .inr hcl⟩
  | false =>
    refine ⟨k + 1, by omega, .inl ?_⟩
    have hro : ((Co.upto caps ops k).boxes id).room = true := by
      rcases h3 with h | h
      · rw [hcl] at h; cases h
      · exact h
    have hstep : Co.upto caps ops (k + 1) = (Co.upto caps ops k).send id := by
      show (Co.upto caps ops k).step (ops k) = _
      rw [h2]; rfl
    have hcur : ((Co.upto caps ops k).send id).cur = some { c' with pending := c'.pending.filter (· != id) } ∧
        ((Co.upto caps ops k).send id).begun = (Co.upto caps ops k).begun := by
      simp only [Co.send, h4, if_pos h5, hcl, hro, Bool.false_eq_true, if_false, if_true, Co.setBox, and_self]
    have hinv := coinv_upto caps ops (k + 1)
    have := hinv.now _ (by rw [hstep]; exact hcur.1) id
    have hinv0 := coinv_upto caps ops k
    have hdead : id ∉ c'.dead := fun hd => (hinv0.deadIn c' h4 id hd).2 h5
    rw [if_pos ⟨hinv0.sub c' h4 id h5, by simp, hdead⟩] at this
    rw [hstep, hcur.2, ← hstep, h6] at this
    exact this

/-- Actor 1, whose mailbox is full and who never handles anything, and actor 2, without bound, are sent the number 4. -/
def unevenRun : Nat → COp Nat
  | 0 => .subscribe 1 passAll
  | 1 => .subscribe 2 passAll
  | 2 => .other 1 9
  | 3 => .request 4
  | 4 => .start
  | n + 5 => if n % 2 = 0 then .send 2 else .send 1

example : (∀ n, unevenRun n ≠ .giveUp) ∧ Heeds (fun id => if id = 1 then some 1 else none) unevenRun 2 ∧
    ∃ c, (Co.upto (fun id => if id = 1 then some 1 else none) unevenRun 5).cur = some c ∧ c.pending = [1, 2] := by
  refine ⟨?_, heeds_unbounded _ _ _ rfl (fun n => ⟨5 + 2 * n, by omega, ?_⟩), _, rfl, rfl⟩
  · intro n
    unfold unevenRun
    split <;> try simp
    split <;> simp
  · show unevenRun (5 + 2 * n) = _
    rw [Nat.add_comm]
    simp [unevenRun]

/-- **C81** (partial: if all have room). A publish ends if the mailboxes of all those it waits for have room again and
again. -/
theorem publish_ends_partial (caps : Nat → Option Nat) (ops : Nat → COp M) (hg : ∀ n, ops n ≠ .giveUp) (n : Nat)
    (c : Cur M) (hc : (Co.upto caps ops n).cur = some c) (hh : ∀ id ∈ c.pending, Heeds caps ops id)
    (hfin : ∀ n, ∃ k, n ≤ k ∧ ops k = .finish) : ∃ k, n ≤ k ∧ (Co.upto caps ops k).cur = none := by
  generalize hl : c.pending.length = l
  induction l using Nat.strongRecOn generalizing n c with
  | _ l ih =>
    cases hpe : c.pending with
    | nil =>
      -- wait for `finish`
      obtain ⟨k, hk, hf⟩ := hfin n
      have hstay : ∀ k, n ≤ k → (∃ j, n ≤ j ∧ j ≤ k ∧ (Co.upto caps ops j).cur = none) ∨
          ∃ c', (Co.upto caps ops k).cur = some c' ∧ c'.pending = [] := by
        intro k
        induction k with
        | zero =>
          intro hk
          have : n = 0 := by omega
          subst this
          exact .inr ⟨c, hc, hpe⟩
        | succ k ihk =>
          intro hk
          by_cases hkn : n = k + 1
          · subst hkn; exact .inr ⟨c, hc, hpe⟩
          · rcases ihk (by omega) with ⟨j, h1, h2, h3⟩ | ⟨c', h1, h2⟩
            · exact .inl ⟨j, h1, by omega, h3⟩
            · have hs : (Co.upto caps ops (k + 1)) = (Co.upto caps ops k).step (ops k) := rfl
              cases hop : ops k with
              | finish =>
                refine .inl ⟨k + 1, by omega, Nat.le_refl _, ?_⟩
                rw [hs, hop]
                simp only [Co.step, h1, h2, if_true]
              | giveUp => exact absurd hop (hg k)
              | start => right; refine ⟨c', ?_, h2⟩; rw [hs, hop]; simp only [Co.step, h1]
              | startPanic m => right; refine ⟨c', ?_, h2⟩; rw [hs, hop]; simp only [Co.step, h1]
              | subscribe x f => right; refine ⟨c', ?_, h2⟩; rw [hs, hop]; simp only [Co.step, h1]
              | request m => right; refine ⟨c', ?_, h2⟩; rw [hs, hop]; exact h1
              | handle x => right; refine ⟨c', ?_, h2⟩; rw [hs, hop]; exact h1
              | close x => right; refine ⟨c', ?_, h2⟩; rw [hs, hop]; exact h1
              | other x m =>
                right; refine ⟨c', ?_, h2⟩; rw [hs, hop]
                simp only [Co.step]
                split <;> exact h1
              | send x =>
                right; refine ⟨c', ?_, h2⟩; rw [hs, hop]
                show ((Co.upto caps ops k).send x).cur = some c'
                simp only [Co.send, h1, h2, List.not_mem_nil, if_false]
      rcases hstay k hk with ⟨j, h1, _, h3⟩ | ⟨c', h1, h2⟩
      · exact ⟨j, h1, h3⟩
      · refine ⟨k + 1, by omega, ?_⟩
        show ((Co.upto caps ops k).step (ops k)).cur = none
        rw [hf]
        simp only [Co.step, h1, h2, if_true]
    | cons id rest =>
      have hp : id ∈ c.pending := by rw [hpe]; exact List.mem_cons_self ..
      obtain ⟨k, c', h1, h2, h3, h4, h5, h6, h7, -, -⟩ := heeded_at hg (hh id hp) hc hp
      have hcur : ∃ c2, (Co.upto caps ops (k + 1)).cur = some c2 ∧ c2.pending = c'.pending.filter (· != id) := by
        show ∃ c2, ((Co.upto caps ops k).step (ops k)).cur = some c2 ∧ _
        rw [h2]
        show ∃ c2, ((Co.upto caps ops k).send id).cur = some c2 ∧ _
        cases hcl : ((Co.upto caps ops k).boxes id).closed with
        | true =>
          simp only [Co.send, h4, if_pos h5, hcl, if_true]
          exact ⟨_, rfl, rfl⟩
        | false =>
          have hro : ((Co.upto caps ops k).boxes id).room = true := by
            rcases h3 with h | h
            · rw [hcl] at h; cases h
            · exact h
          simp only [Co.send, h4, if_pos h5, hcl, hro, Bool.false_eq_true, if_false, if_true]
          exact ⟨_, rfl, rfl⟩
      obtain ⟨c2, e1, e2⟩ := hcur
      have hlt : c2.pending.length < l := by
        rw [e2, ← hl]
        refine Nat.lt_of_lt_of_le ?_ h7.length_le
        rw [List.length_filter_lt_length_iff_exists]
        exact ⟨id, h5, by simp⟩
      obtain ⟨k2, g1, g2⟩ := ih _ hlt (k + 1) c2 e1 (fun x hx => hh x (h7.subset (by
        rw [e2] at hx; exact (List.mem_filter.mp hx).1))) rfl
      exact ⟨k2, by omega, g2⟩

/-- Two actors without bound are sent the numbers 4, 5, 6, and so on, one after the other. -/
def evenRun (n : Nat) : COp Nat :=
  if n = 0 then .subscribe 1 passAll else if n = 1 then .subscribe 2 passAll
  else if n % 5 = 0 then .request n else if n % 5 = 1 then .start else if n % 5 = 2 then .send 2
  else if n % 5 = 3 then .send 1 else .finish

theorem evenRun_at (n r : Nat) (hr : r < 5) (op : COp Nat)
    (h : ∀ m, 2 ≤ m → m % 5 = r → evenRun m = op ∨ ∃ x, evenRun m = .request x ∧ r = 0) (h0 : r ≠ 0) :
    ∃ k, n ≤ k ∧ evenRun k = op := by
  refine ⟨5 * (n + 1) + r, by omega, ?_⟩
  rcases h (5 * (n + 1) + r) (by omega) (by omega) with h | ⟨_, _, h⟩
  · exact h
  · exact absurd h h0

theorem evenRun_facts : (∀ n, evenRun n ≠ .giveUp) ∧ (∀ n, ∃ k, n ≤ k ∧ evenRun k = .finish) ∧
    (∀ n, ∃ k, n ≤ k ∧ evenRun k = .start) ∧ (∀ n, ∃ k, n ≤ k ∧ evenRun k = .send 1) ∧
    (∀ n, ∃ k, n ≤ k ∧ evenRun k = .send 2) := by
  refine ⟨?_, ?_, ?_, ?_, ?_⟩
  · intro n
    unfold evenRun
    repeat' split
    all_goals simp
  · refine fun n => evenRun_at n 4 (by omega) _ (fun m h1 h2 => .inl ?_) (by omega)
    unfold evenRun
    rw [if_neg (by omega), if_neg (by omega), h2]
    simp
  · refine fun n => evenRun_at n 1 (by omega) _ (fun m h1 h2 => .inl ?_) (by omega)
    unfold evenRun
    rw [if_neg (by omega), if_neg (by omega), h2]
    simp
  · refine fun n => evenRun_at n 3 (by omega) _ (fun m h1 h2 => .inl ?_) (by omega)
    unfold evenRun
    rw [if_neg (by omega), if_neg (by omega), h2]
    simp
  · refine fun n => evenRun_at n 2 (by omega) _ (fun m h1 h2 => .inl ?_) (by omega)
    unfold evenRun
    rw [if_neg (by omega), if_neg (by omega), h2]
    simp

example : ∃ c, (Co.upto (fun _ => none) evenRun 7).cur = some c ∧ c.pending = [1, 2] ∧
    ∀ id ∈ c.pending, Heeds (fun _ => none) evenRun id := by
  refine ⟨_, rfl, rfl, fun id hid => heeds_unbounded _ _ _ rfl ?_⟩
  change id ∈ [1, 2] at hid
  simp only [List.mem_cons, List.not_mem_nil, or_false] at hid
  rcases hid with rfl | rfl
  · exact evenRun_facts.2.2.2.1
  · exact evenRun_facts.2.2.2.2

/-- The messages that were or wait to be published only get more. -/
theorem queue_step (s : Co M) (op : COp M) : (s.begun ++ s.waiting) <+: ((s.step op).begun ++ (s.step op).waiting) := by
  cases op with
  | request m =>
    simp only [Co.step, ← List.append_assoc]
    exact List.prefix_append _ _
  | start =>
    simp only [Co.step]
    split
    · rename_i m rest _ hw
      rw [hw]
      simp
    · exact List.prefix_refl _
  | startPanic n =>
    simp only [Co.step]
    split
    · rename_i m rest _ hw
      split
      · rw [hw]; simp
      · exact List.prefix_refl _
    · exact List.prefix_refl _
  | send x =>
    show _ <+: ((s.send x).begun ++ (s.send x).waiting)
    rcases send_cases s x with e | ⟨c, hc, hp, ⟨hcl, e⟩ | ⟨hcl, hr, e⟩⟩ <;> rw [e] <;> exact List.prefix_refl _
  | finish =>
    simp only [Co.step]
    repeat' split
    all_goals exact List.prefix_refl _
  | other x m =>
    simp only [Co.step]
    split <;> exact List.prefix_refl _
  | subscribe x f =>
    simp only [Co.step]
    split <;> exact List.prefix_refl _
  | giveUp => exact List.prefix_refl _
  | handle x => exact List.prefix_refl _
  | close x => exact List.prefix_refl _

theorem begun_step (s : Co M) (op : COp M) : s.begun <+: (s.step op).begun := by
  cases op with
  | start => simp only [Co.step]; split <;> simp
  | startPanic n => simp only [Co.step]; repeat' split
                    all_goals simp
  | send x =>
    show s.begun <+: (s.send x).begun
    rcases send_cases s x with e | ⟨c, hc, hp, ⟨hcl, e⟩ | ⟨hcl, hr, e⟩⟩ <;> rw [e] <;> exact List.prefix_refl _
  | finish => simp only [Co.step]; repeat' split
              all_goals simp
  | other x m => simp only [Co.step]; split <;> exact List.prefix_refl _
  | subscribe x f => simp only [Co.step]; split <;> exact List.prefix_refl _
  | _ => exact List.prefix_refl _

theorem queue_upto (caps : Nat → Option Nat) (ops : Nat → COp M) (n d : Nat) :
    ((Co.upto caps ops n).begun ++ (Co.upto caps ops n).waiting) <+:
      ((Co.upto caps ops (n + d)).begun ++ (Co.upto caps ops (n + d)).waiting) ∧
    (Co.upto caps ops n).begun <+: (Co.upto caps ops (n + d)).begun := by
  induction d with
  | zero => exact ⟨List.prefix_refl _, List.prefix_refl _⟩
  | succ d ih => exact ⟨ih.1.trans (queue_step _ _), ih.2.trans (begun_step _ _)⟩

/-- The next message is begun to be published, if all heed. -/
theorem next_begun {caps : Nat → Option Nat} {ops : Nat → COp M} (hg : ∀ n, ops n ≠ .giveUp)
    (hh : ∀ n c, (Co.upto caps ops n).cur = some c → ∀ id ∈ c.pending, Heeds caps ops id)
    (hfin : ∀ n, ∃ k, n ≤ k ∧ ops k = .finish) (hst : ∀ n, ∃ k, n ≤ k ∧ ops k = .start)
    (n : Nat) (hw : (Co.upto caps ops n).waiting ≠ []) :
    ∃ k, n ≤ k ∧ (Co.upto caps ops n).begun.length < (Co.upto caps ops k).begun.length := by
  -- first a time at which no publish is under way
  have hidle : ∃ k, n ≤ k ∧ (Co.upto caps ops k).cur = none := by
    cases hc : (Co.upto caps ops n).cur with
    | none => exact ⟨n, Nat.le_refl _, hc⟩
    | some c => exact publish_ends_partial caps ops hg n c hc (hh n c hc) hfin
  obtain ⟨k0, hk0, hc0⟩ := hidle
  obtain ⟨k1, hk1, hs⟩ := hst k0
  by_cases hlt : ∃ k, n ≤ k ∧ (Co.upto caps ops n).begun.length < (Co.upto caps ops k).begun.length
  · exact hlt
  exfalso
  have hle : ∀ k, n ≤ k → (Co.upto caps ops k).begun = (Co.upto caps ops n).begun := by
    intro k hk
    have h1 := (queue_upto caps ops n (k - n)).2
    rw [Nat.add_sub_cancel' hk] at h1
    have h2 : ¬ (Co.upto caps ops n).begun.length < (Co.upto caps ops k).begun.length := fun h => hlt ⟨k, hk, h⟩
    exact (h1.eq_of_length_le (by omega)).symm
  have hwait : ∀ k, n ≤ k → (Co.upto caps ops k).waiting ≠ [] := by
    intro k hk he
    have h1 := (queue_upto caps ops n (k - n)).1
    rw [Nat.add_sub_cancel' hk, he, hle k hk, List.append_nil] at h1
    have := h1.length_le
    simp only [List.length_append] at this
    exact hw (List.length_eq_zero_iff.mp (by omega))
  -- nothing begins, so that no publish is under way until `start`
  have hnone : ∀ d, (Co.upto caps ops (k0 + d)).cur = none := by
    intro d
    induction d with
    | zero => exact hc0
    | succ d ih =>
      have hb := hle (k0 + (d + 1)) (by omega)
      have hb' := hle (k0 + d) (by omega)
      change ((Co.upto caps ops (k0 + d)).step (ops (k0 + d))).cur = none
      change ((Co.upto caps ops (k0 + d)).step (ops (k0 + d))).begun = _ at hb
      rw [← hb'] at hb
      generalize Co.upto caps ops (k0 + d) = s at ih hb
      revert hb
      generalize ops (k0 + d) = op
      intro hb
      cases op with
      | start =>
        simp only [Co.step, ih] at hb ⊢
        cases hw' : s.waiting with
        | nil => simp only [ih]
        | cons m rest => rw [hw'] at hb; simp at hb
      | startPanic m =>
        simp only [Co.step, ih]
        repeat' split
        all_goals first | exact ih | rfl
      | send x => show (s.send x).cur = none; simp only [Co.send, ih]
      | finish => simp only [Co.step, ih]
      | subscribe x f => simp only [Co.step, ih]
      | other x m => simp only [Co.step]; split <;> exact ih
      | giveUp => rfl
      | request m => exact ih
      | handle x => exact ih
      | close x => exact ih
  have hc1 := hnone (k1 - k0)
  rw [Nat.add_sub_cancel' hk1] at hc1
  have hb := hle (k1 + 1) (by omega)
  change ((Co.upto caps ops k1).step (ops k1)).begun = _ at hb
  rw [hs, ← hle k1 (by omega)] at hb
  cases hw' : (Co.upto caps ops k1).waiting with
  | nil => exact hwait k1 (by omega) hw'
  | cons m rest => simp [Co.step, hc1, hw'] at hb

/-- **C81** (partial: if all have room). Every message handed over is published, in order, if the mailbox of
everybody it is sent to has room again and again. -/
theorem every_message_published_partial (caps : Nat → Option Nat) (ops : Nat → COp M) (hg : ∀ n, ops n ≠ .giveUp)
    (hh : ∀ n c, (Co.upto caps ops n).cur = some c → ∀ id ∈ c.pending, Heeds caps ops id)
    (hfin : ∀ n, ∃ k, n ≤ k ∧ ops k = .finish) (hst : ∀ n, ∃ k, n ≤ k ∧ ops k = .start)
    (n : Nat) : ∃ k, n ≤ k ∧ ((Co.upto caps ops n).begun ++ (Co.upto caps ops n).waiting) <+: (Co.upto caps ops k).begun := by
  have key : ∀ d, d ≤ (Co.upto caps ops n).waiting.length →
      ∃ k, n ≤ k ∧ (Co.upto caps ops n).begun.length + d ≤ (Co.upto caps ops k).begun.length := by
    intro d
    induction d with
    | zero => exact fun _ => ⟨n, Nat.le_refl _, Nat.le_refl _⟩
    | succ d ih =>
      intro hd
      obtain ⟨k, hk, h1⟩ := ih (by omega)
      by_cases h2 : (Co.upto caps ops n).begun.length + (d + 1) ≤ (Co.upto caps ops k).begun.length
      · exact ⟨k, hk, h2⟩
      · have hw : (Co.upto caps ops k).waiting ≠ [] := by
          intro he
          have h3 := (queue_upto caps ops n (k - n)).1.length_le
          rw [Nat.add_sub_cancel' hk, he] at h3
          simp only [List.length_append, List.length_nil] at h3
          omega
        obtain ⟨k', hk', h3⟩ := next_begun hg hh hfin hst k hw
        exact ⟨k', by omega, by omega⟩
  obtain ⟨k, hk, h1⟩ := key _ (Nat.le_refl _)
  refine ⟨k, hk, ?_⟩
  have h2 := (queue_upto caps ops n (k - n)).1
  rw [Nat.add_sub_cancel' hk] at h2
  exact List.prefix_of_prefix_length_le h2 (List.prefix_append _ _) (by simp only [List.length_append]; omega)

/-- Only actors that subscribed are sent anything. -/
theorem pending_subscribed (caps : Nat → Option Nat) (ops : Nat → COp M) (n : Nat) :
    (∀ x ∈ Map.keys (Co.upto caps ops n).subs, ∃ j f, j < n ∧ ops j = .subscribe x f) ∧
    ∀ c, (Co.upto caps ops n).cur = some c → ∀ x ∈ c.pending, ∃ j f, j < n ∧ ops j = .subscribe x f := by
  induction n with
  | zero => exact ⟨fun x hx => absurd hx (by simp [Co.upto, Map.keys]), fun c hc => by simp [Co.upto] at hc⟩
  | succ n ih =>
    have up : ∀ x, (∃ j f, j < n ∧ ops j = .subscribe x f) → ∃ j f, j < n + 1 ∧ ops j = .subscribe x f :=
      fun x ⟨j, f, h1, h2⟩ => ⟨j, f, by omega, h2⟩
    have keep : ∀ s' : Co M, (∀ x ∈ Map.keys s'.subs, x ∈ Map.keys (Co.upto caps ops n).subs) →
        (∀ c, s'.cur = some c → ∀ x ∈ c.pending, x ∈ Map.keys (Co.upto caps ops n).subs ∨
          ∃ c', (Co.upto caps ops n).cur = some c' ∧ x ∈ c'.pending) →
        (∀ x ∈ Map.keys s'.subs, ∃ j f, j < n + 1 ∧ ops j = .subscribe x f) ∧
        ∀ c, s'.cur = some c → ∀ x ∈ c.pending, ∃ j f, j < n + 1 ∧ ops j = .subscribe x f := by
      intro s' h1 h2
      refine ⟨fun x hx => up x (ih.1 x (h1 x hx)), fun c hc x hx => ?_⟩
      rcases h2 c hc x hx with h | ⟨c', hc', h⟩
      · exact up x (ih.1 x h)
      · exact up x (ih.2 c' hc' x h)
    show (∀ x ∈ Map.keys ((Co.upto caps ops n).step (ops n)).subs, _) ∧ _
    have hs : Co.upto caps ops (n + 1) = (Co.upto caps ops n).step (ops n) := rfl
    rw [hs]
    generalize hgen : Co.upto caps ops n = s at ih keep
    have self : ∀ c, s.cur = some c → ∀ x ∈ c.pending, x ∈ Map.keys s.subs ∨ ∃ c', s.cur = some c' ∧ x ∈ c'.pending :=
      fun c hc x hx => .inr ⟨c, hc, hx⟩
    cases hop : ops n with
    | request m => exact keep _ (fun x hx => hx) self
    | handle y => exact keep _ (fun x hx => hx) self
    | close y => exact keep _ (fun x hx => hx) self
    | giveUp => exact keep _ (fun x hx => hx) (fun c hc => by cases hc)
    | other y m =>
      rw [← hop]
      refine keep _ ?_ ?_ <;> rw [hop] <;> simp only [Co.step] <;> split
      · exact fun x hx => hx
      · exact fun x hx => hx
      · exact self
      · exact self
    | start =>
      rw [← hop]
      refine keep _ ?_ ?_ <;> rw [hop] <;> simp only [Co.step] <;> split
      · intro x hx; rwa [askAll_keys] at hx
      · exact fun x hx => hx
      · intro c hc x hx
        cases hc
        left
        simp only [wanting, List.mem_map, List.mem_filter] at hx
        obtain ⟨e, he, rfl⟩ := hx
        exact List.mem_map.mpr ⟨e, he.1, rfl⟩
      · exact self
    | startPanic m =>
      rw [← hop]
      refine keep _ ?_ ?_ <;> rw [hop] <;> simp only [Co.step]
      · repeat' split
        · intro x hx
          simp only [Map.keys, List.map_append] at hx
          have e := askAll_keys (s.subs.take (m + 1))
          simp only [Map.keys] at e
          rw [e, ← List.map_append, List.take_append_drop] at hx
          exact hx
        · exact fun x hx => hx
        · exact fun x hx => hx
      · repeat' split
        all_goals exact self
    | send y =>
      rw [← hop]
      have hst : s.step (ops n) = s.send y := by rw [hop]; rfl
      refine keep _ ?_ ?_ <;> rw [hst]
      · rcases send_cases s y with e | ⟨c, hc, hp, ⟨hcl, e⟩ | ⟨hcl, hr, e⟩⟩ <;> rw [e] <;> exact fun x hx => hx
      · rcases send_cases s y with e | ⟨c, hc, hp, ⟨hcl, e⟩ | ⟨hcl, hr, e⟩⟩ <;> rw [e]
        · exact self
        · intro c' hc' x hx
          cases hc'
          exact .inr ⟨c, hc, (List.mem_filter.mp hx).1⟩
        · intro c' hc' x hx
          cases hc'
          exact .inr ⟨c, hc, (List.mem_filter.mp hx).1⟩
    | finish =>
      rw [← hop]
      have hdel : ∀ (l : List Nat) (p : Nat → Prop) [DecidablePred p] (subs : Map Nat (Sub M)),
          ∀ x ∈ Map.keys (l.foldl (fun subs id => if p id then subs.del id else subs) subs), x ∈ Map.keys subs := by
        intro l p _
        induction l with
        | nil => exact fun subs x hx => hx
        | cons a l ihl =>
          intro subs x hx
          have := ihl _ x hx
          dsimp only at this
          split at this
          · exact Map.mem_keys_del_of _ _ _ this
          · exact this
      refine keep _ ?_ ?_ <;> rw [hop] <;> simp only [Co.step]
      · repeat' split
        · exact fun x hx => hx
        · exact hdel _ _ _
        · exact fun x hx => hx
      · repeat' split
        · exact self
        · exact fun c hc => by cases hc
        · exact self
    | subscribe y f =>
      simp only [Co.step]
      cases hc : s.cur with
      | none =>
        dsimp only
        refine ⟨fun x hx => ?_, fun c hc' => by cases hc'⟩
        rcases (Map.mem_keys_put _ _ _ _).mp hx with rfl | hx
        · exact ⟨n, f, by omega, hop⟩
        · exact up x (ih.1 x hx)
      | some c =>
        dsimp only
        exact ⟨fun x hx => up x (ih.1 x hx), fun c' hc' x hx => up x (ih.2 c' hc' x hx)⟩

example (n : Nat) (c : Cur Nat) (hc : (Co.upto (fun _ => none) evenRun n).cur = some c) (id : Nat) (hid : id ∈ c.pending) :
    Heeds (fun _ => none) evenRun id := by
  obtain ⟨j, f, -, hj⟩ := (pending_subscribed _ _ n).2 c hc id hid
  refine heeds_unbounded _ _ _ rfl ?_
  have : id = 1 ∨ id = 2 := by
    unfold evenRun at hj
    repeat' split at hj
    all_goals first | (cases hj; simp) | cases hj
  rcases this with rfl | rfl
  · exact evenRun_facts.2.2.2.1
  · exact evenRun_facts.2.2.2.2

/-! ### Nobody can leave -/

/-- What holds of a subscriber who stays: it is subscribed with its filter, its actor runs, and it was sent all that was
published since. -/
structure Stays (id n0 : Nat) (f : Filter M) (s : Co M) : Prop where
  inv : CoInv s
  sub : ∃ sub, s.subs.find id = some sub ∧ sub.filter = f
  live : (s.boxes id).closed = false
  target : ∀ c, s.cur = some c → id ∈ c.targets ∧ id ∉ c.dead
  got : ∀ k, n0 < k → k ≤ s.begun.length → s.cur = none ∨ k < s.begun.length → s.count k id = 1

theorem stays_step {id n0 : Nat} {f : Filter M} (hf : ∀ seen m, f seen m = true) {s : Co M} (h : Stays id n0 f s)
    (op : COp M) (h1 : op ≠ .close id) (h2 : ∀ g, op ≠ .subscribe id g) (hr : op.regular) : Stays id n0 f (s.step op) := by
  have hinv := coinv_step h.inv op
  obtain ⟨sub, hs1, hs2⟩ := h.sub
  -- steps that touch a mailbox only
  have hbox : ∀ x (b : Box M), CoInv (s.setBox x b) → (x = id → b.closed = false) → Stays id n0 f (s.setBox x b) := by
    intro x b hi hb
    refine ⟨hi, ⟨sub, hs1, hs2⟩, ?_, h.target, h.got⟩
    rw [setBox_box]
    split
    · rename_i e; exact hb e.symm
    · exact h.live
  cases op with
  | request m => exact ⟨hinv, ⟨sub, hs1, hs2⟩, h.live, h.target, h.got⟩
  | startPanic n => exact hr.elim
  | giveUp => exact hr.elim
  | handle x => exact hbox x _ hinv (fun e => by subst e; exact h.live)
  | close x => exact hbox x _ hinv (fun e => absurd (by rw [e]) h1)
  | other x m =>
    simp only [Co.step] at hinv ⊢
    split
    · rename_i hc
      rw [if_pos hc] at hinv
      exact hbox x _ hinv (fun e => by subst e; exact h.live)
    · exact h
  | start =>
    simp only [Co.step] at hinv ⊢
    split
    · rename_i m rest hc hw
      simp only [hc, hw] at hinv
      refine ⟨hinv, ⟨{ sub with seen := sub.seen ++ [m] }, ?_, hs2⟩, h.live, ?_, ?_⟩
      · refine (find_map s.subs (fun sub => ({ sub with seen := sub.seen ++ [m] } : Sub M)) id).trans ?_
        rw [hs1]; rfl
      · intro c e
        cases e
        refine ⟨?_, by simp⟩
        have := (mem_targets (s := { subs := s.subs }) h.inv.ok m id).mpr ⟨sub, hs1, by rw [hs2]; exact hf _ _⟩
        exact this
      · intro k hk1 hk2 hk3
        simp only [List.length_append, List.length_singleton] at hk2 hk3
        have hk4 : k ≤ s.begun.length := by
          rcases hk3 with h | h
          · cases h
          · omega
        exact h.got k hk1 hk4 (.inl hc)
    · exact h
  | send x =>
    have hst : s.step (.send x) = s.send x := rfl
    rw [hst] at hinv ⊢
    rcases send_cases s x with e | ⟨c, hc, hp, ⟨hcl, e⟩ | ⟨hcl, hro, e⟩⟩
    · rw [e]; exact h
    · have hx : x ≠ id := by rintro rfl; rw [h.live] at hcl; cases hcl
      rw [e] at hinv ⊢
      refine ⟨hinv, ⟨sub, hs1, hs2⟩, h.live, ?_, ?_⟩
      · intro c' e'
        cases e'
        have := h.target c hc
        exact ⟨this.1, by simp [Ne.symm hx, this.2]⟩
      · intro k hk1 hk2 hk3
        refine h.got k hk1 hk2 (.inr ?_)
        rcases hk3 with h | h
        · cases h
        · exact h
    · rw [e] at hinv ⊢
      refine ⟨hinv, ⟨sub, hs1, hs2⟩, ?_, ?_, ?_⟩
      · show ((s.setBox x _).boxes id).closed = false
        rw [setBox_box]
        split
        · rename_i e2; subst e2; exact h.live
        · exact h.live
      · intro c' e'
        cases e'
        exact h.target c hc
      · intro k hk1 hk2 hk3
        have hk4 : k < s.begun.length := by
          rcases hk3 with h | h
          · cases h
          · exact h
        refine (count_snoc s _ k id s.begun.length x c.msg rfl).trans ?_
        rw [if_neg (by omega), h.got k hk1 hk2 (.inr hk4)]
  | finish =>
    simp only [Co.step] at hinv ⊢
    split
    · exact h
    · rename_i c hc
      simp only [hc] at hinv
      split
      · rename_i hp
        rw [if_pos hp] at hinv
        refine ⟨hinv, ⟨sub, ?_, hs2⟩, h.live, by simp, ?_⟩
        · dsimp only
          rw [foldl_del_find c.targets (· ∈ c.dead) id s.subs h.inv.ok, if_neg (fun hh => (h.target c hc).2 hh.2)]
          exact hs1
        · intro k hk1 hk2 hk3
          by_cases hk : k < s.begun.length
          · exact h.got k hk1 hk2 (.inr hk)
          · have : k = s.begun.length := Nat.le_antisymm hk2 (by omega)
            subst this
            refine (h.inv.now c hc id).trans ?_
            rw [if_pos ⟨(h.target c hc).1, by simp [hp], (h.target c hc).2⟩]
      · exact h
  | subscribe x g =>
    have hx : id ≠ x := by rintro rfl; exact h2 g rfl
    simp only [Co.step] at hinv ⊢
    split
    · rename_i hc
      simp only [hc] at hinv
      refine ⟨by rw [hc]; exact hinv, ⟨sub, ?_, hs2⟩, h.live, h.target, h.got⟩
      dsimp only
      rw [Map.find_put, if_neg hx]
      exact hs1
    · exact h

/-- **C81** (negation: "subscribe and unsubscribe dynamically", `actors/src/pubsub.rs` L14). There is no way to unsubscribe: an
actor that has subscribed without a filter is subscribed for ever, and is sent every message that is published to the end,
unless it ends itself or subscribes again with a filter. -/
theorem nobody_can_leave (caps : Nat → Option Nat) (ops later : List (COp M)) (id : Nat)
    (hidle : (Co.run caps ops).cur = none) (hlive : ((Co.run caps ops).boxes id).closed = false)
    (hl : ∀ op ∈ later, op ≠ .close id ∧ (∀ g, op ≠ .subscribe id g) ∧ op.regular) :
    (Co.run caps (ops ++ .subscribe id passAll :: later)).subs.has id = true ∧
    ∀ k, (Co.run caps ops).begun.length < k → k ≤ (Co.run caps (ops ++ .subscribe id passAll :: later)).begun.length →
      (Co.run caps (ops ++ .subscribe id passAll :: later)).cur = none ∨
        k < (Co.run caps (ops ++ .subscribe id passAll :: later)).begun.length →
      (Co.run caps (ops ++ .subscribe id passAll :: later)).count k id = 1 := by
  have h0 : Stays id (Co.run caps ops).begun.length passAll ((Co.run caps ops).step (.subscribe id passAll)) := by
    have hinv := coinv_step (coinv_run caps ops) (.subscribe id passAll)
    simp only [Co.step, hidle] at hinv ⊢
    refine ⟨hinv, ⟨{ filter := passAll }, by simp [Map.find_put], rfl⟩, hlive, by simp, ?_⟩
    intro k h1 h2
    dsimp only at h2
    omega
  have key : ∀ (l : List (COp M)) (s : Co M), Stays id (Co.run caps ops).begun.length passAll s →
      (∀ op ∈ l, op ≠ .close id ∧ (∀ g, op ≠ .subscribe id g) ∧ op.regular) →
      Stays id (Co.run caps ops).begun.length passAll (l.foldl Co.step s) := by
    intro l
    induction l with
    | nil => exact fun s h _ => h
    | cons op rest ih =>
      intro s h hl
      have h1 := hl op (List.mem_cons_self ..)
      exact ih _ (stays_step (fun _ _ => rfl) h op h1.1 h1.2.1 h1.2.2) (fun o ho => hl o (List.mem_cons_of_mem _ ho))
  have h := key later _ h0 hl
  have hr : Co.run caps (ops ++ .subscribe id passAll :: later) =
      later.foldl Co.step ((Co.run caps ops).step (.subscribe id passAll)) := by simp [Co.run]
  rw [hr]
  obtain ⟨sub, hs, -⟩ := h.sub
  exact ⟨by simp [Map.has, hs], h.got⟩

/-- Actor 1 joins after a publish to actor 2, and gets all that is published later. -/
example :
    (Co.run (fun _ => none) ([.subscribe 2 passAll, .request 4, .start, .send 2, .finish] : List (COp Nat))).cur.isNone = true ∧
    ((Co.run (fun _ => none) ([.subscribe 2 passAll, .request 4, .start, .send 2, .finish] : List (COp Nat))).boxes 1).closed
      = false ∧
    (Co.run (fun _ => none) ([.subscribe 2 passAll, .request 4, .start, .send 2, .finish, .subscribe 1 passAll, .close 2,
      .request 5, .start, .send 1, .send 2, .finish, .handle 1, .request 6, .start, .send 1, .finish] : List (COp Nat))).copies =
      [(1, 2, 4), (2, 1, 5), (3, 1, 6)] := by decide

/-- Once a publish is over, nobody gets a copy of it any more. -/
theorem over_step {s : Co M} {n : Nat} (h1 : s.cur = none ∨ n < s.begun.length) (h2 : n ≤ s.begun.length) (op : COp M) (id : Nat) :
    ((s.step op).cur = none ∨ n < (s.step op).begun.length) ∧ n ≤ (s.step op).begun.length ∧
      (s.step op).count n id = s.count n id := by
  cases op with
  | request m => exact ⟨h1, h2, rfl⟩
  | giveUp => exact ⟨.inl rfl, h2, rfl⟩
  | handle x => exact ⟨h1, h2, rfl⟩
  | close x => exact ⟨h1, h2, rfl⟩
  | other x m => simp only [Co.step]; split <;> exact ⟨h1, h2, rfl⟩
  | subscribe x g => simp only [Co.step]; split <;> exact ⟨by first | exact h1 | (left; assumption), h2, rfl⟩
  | start =>
    simp only [Co.step]
    split
    · exact ⟨.inr (by simp; omega), by simp; omega, rfl⟩
    · exact ⟨h1, h2, rfl⟩
  | startPanic k =>
    simp only [Co.step]
    split
    · split
      · exact ⟨.inr (by simp; omega), by simp; omega, rfl⟩
      · exact ⟨h1, h2, rfl⟩
    · exact ⟨h1, h2, rfl⟩
  | finish =>
    simp only [Co.step]
    split
    · exact ⟨h1, h2, rfl⟩
    · split
      · exact ⟨.inl rfl, h2, rfl⟩
      · exact ⟨h1, h2, rfl⟩
  | send x =>
    have hst : s.step (.send x) = s.send x := rfl
    rw [hst]
    rcases send_cases s x with e | ⟨c, hc, hp, ⟨hcl, e⟩ | ⟨hcl, hro, e⟩⟩
    · rw [e]; exact ⟨h1, h2, rfl⟩
    · have h3 : n < s.begun.length := h1.resolve_left (by rw [hc]; simp)
      rw [e]; exact ⟨.inr h3, h2, rfl⟩
    · have h3 : n < s.begun.length := h1.resolve_left (by rw [hc]; simp)
      rw [e]
      refine ⟨.inr h3, h2, (count_snoc s _ n id s.begun.length x c.msg rfl).trans ?_⟩
      rw [if_neg (by omega)]
      rfl

/-- **C81** (a publish given up, `actors/src/pubsub.rs` L98-122): if the task that publishes is dropped half-way, those it had
not reached never get a copy, whatever happens later, those it had reached keep theirs, and actors it found ended stay
subscribed. -/
theorem given_up_publish (caps : Nat → Option Nat) (ops later : List (COp M)) (c : Cur M)
    (hc : (Co.run caps ops).cur = some c) :
    (Co.run caps (ops ++ [.giveUp])).subs.keys = (Co.run caps ops).subs.keys ∧
    ∀ id, (Co.run caps (ops ++ .giveUp :: later)).count (Co.run caps ops).begun.length id =
      if id ∈ c.targets ∧ id ∉ c.pending ∧ id ∉ c.dead then 1 else 0 := by
  refine ⟨by rw [corun_snoc]; rfl, fun id => ?_⟩
  have key : ∀ (l : List (COp M)) (s : Co M) (n : Nat), (s.cur = none ∨ n < s.begun.length) → n ≤ s.begun.length →
      (l.foldl Co.step s).count n id = s.count n id := by
    intro l
    induction l with
    | nil => exact fun _ _ _ _ => rfl
    | cons op l ih =>
      intro s n h1 h2
      have h := over_step h1 h2 op id
      exact (ih _ n h.1 h.2.1).trans h.2.2
  have hr : Co.run caps (ops ++ .giveUp :: later) = later.foldl Co.step ((Co.run caps ops).step .giveUp) := by simp [Co.run]
  rw [hr, ← (coinv_run caps ops).now c hc id]
  exact key later ((Co.run caps ops).step .giveUp) (Co.run caps ops).begun.length (.inl rfl) (Nat.le_refl _)

example : (∃ c, (Co.run (fun id => if id = 1 then some 1 else none) slowDemo).cur = some c ∧ 1 ∈ c.pending ∧ 2 ∉ c.pending ∧
      2 ∈ c.targets) ∧
    (Co.run (fun id => if id = 1 then some 1 else none) (slowDemo ++ [.giveUp, .handle 1, .send 1])).cur.isNone = true := by
  refine ⟨⟨_, rfl, ?_⟩, ?_⟩ <;> decide

/-- **C81** (a filter that panics, `actors/src/pubsub.rs` L102-110): all filters are asked before the first message is sent.
So if one panics, nobody ever gets a copy of that message, whatever happens later; the filters up to that one have been
asked, no others; and nobody is removed. -/
theorem panicking_filter (caps : Nat → Option Nat) (ops later : List (COp M)) (n : Nat) (m : M) (rest : List M)
    (hc : (Co.run caps ops).cur = none) (hw : (Co.run caps ops).waiting = m :: rest)
    (hn : n < (Co.run caps ops).subs.length) :
    let s := Co.run caps ops
    let s' := Co.run caps (ops ++ [.startPanic n])
    s'.cur.isNone = true ∧ s'.waiting = rest ∧ s'.begun = s.begun ++ [m] ∧ s'.subs.keys = s.subs.keys ∧
    (∀ i e, s.subs[i]? = some e → ∃ e', s'.subs[i]? = some e' ∧ e'.1 = e.1 ∧ e'.2.filter = e.2.filter ∧
      e'.2.seen = if i ≤ n then e.2.seen ++ [m] else e.2.seen) ∧
    ∀ id, (Co.run caps (ops ++ .startPanic n :: later)).count (s.begun.length + 1) id = 0 := by
  intro s s'
  have hs' : s' = { s with
        waiting := rest
        subs := askAll (s.subs.take (n + 1)) m ++ s.subs.drop (n + 1)
        begun := s.begun ++ [m] } := by
    show Co.run caps (ops ++ [.startPanic n]) = _
    rw [corun_snoc]
    simp only [Co.step, hc, hw, if_pos hn, s]
  have hl : (askAll (s.subs.take (n + 1)) m).length = n + 1 := by
    have : n < s.subs.length := hn
    simp only [askAll, List.length_map, List.length_take]
    omega
  refine ⟨by rw [hs']; simp only [s, hc]; rfl, by rw [hs'], by rw [hs'], ?_, ?_, ?_⟩
  · rw [hs']
    have h1 : ∀ l : Map Nat (Sub M), Map.keys (askAll l m) = Map.keys l := by
      intro l
      simp [Map.keys, askAll]
    show Map.keys (askAll (s.subs.take (n + 1)) m ++ s.subs.drop (n + 1)) = Map.keys s.subs
    have h2 : ∀ a b : Map Nat (Sub M), Map.keys (a ++ b) = Map.keys a ++ Map.keys b := by
      intro a b
      simp [Map.keys]
    rw [h2, h1, ← h2, List.take_append_drop]
  · intro i e he
    rw [hs']
    by_cases hi : i ≤ n
    · refine ⟨(e.1, { e.2 with seen := e.2.seen ++ [m] }), ?_, rfl, rfl, by rw [if_pos hi]⟩
      show (askAll (s.subs.take (n + 1)) m ++ s.subs.drop (n + 1))[i]? = _
      rw [List.getElem?_append_left (by omega)]
      simp only [askAll, List.getElem?_map, List.getElem?_take, if_pos (Nat.lt_succ_of_le hi), he]
      rfl
    · refine ⟨e, ?_, rfl, rfl, by rw [if_neg hi]⟩
      show (askAll (s.subs.take (n + 1)) m ++ s.subs.drop (n + 1))[i]? = _
      rw [List.getElem?_append_right (by omega), hl, List.getElem?_drop]
      rw [← he]
      congr 1
      omega
  · intro id
    have key : ∀ (l : List (COp M)) (s : Co M) (n : Nat), (s.cur = none ∨ n < s.begun.length) → n ≤ s.begun.length →
        (l.foldl Co.step s).count n id = s.count n id := by
      intro l
      induction l with
      | nil => exact fun _ _ _ _ => rfl
      | cons op l ih =>
        intro s n h1 h2
        have h := over_step h1 h2 op id
        exact (ih _ n h.1 h.2.1).trans h.2.2
    have hr : Co.run caps (ops ++ .startPanic n :: later) = later.foldl Co.step s' := by simp [Co.run, s']
    rw [hr, key later s' (s.begun.length + 1) (.inl (by rw [hs']; exact hc)) (by rw [hs']; simp)]
    have hnum := (coinv_run caps ops).num
    rw [hs']
    simp only [Co.count, List.length_eq_zero_iff, List.filter_eq_nil_iff, Bool.and_eq_true, beq_iff_eq, not_and]
    intro x hx he
    have := hnum x hx
    have h2 : (Co.run caps ops).begun.length = s.begun.length := rfl
    omega

/-- The filter of the second of three subscribers panics: the first two have been asked, nobody gets the message, and
the next one is published to all. -/
example :
    let ops : List (COp Nat) := [.subscribe 1 (fun _ _ => true), .subscribe 2 (fun _ _ => true), .subscribe 3 (fun _ _ => true),
      .request 7, .request 8]
    (Co.run (fun _ => none) ops).cur.isNone = true ∧ (Co.run (fun _ => none) ops).waiting = [7, 8] ∧
    (Co.run (fun _ => none) (ops ++ [.startPanic 1])).subs.map (fun e => e.2.seen) = [[7], [7], []] ∧
    (Co.run (fun _ => none) (ops ++ [.startPanic 1, .start, .send 3, .send 1, .send 2])).copies = [(2, 3, 8), (2, 1, 8), (2, 2, 8)] := by
  decide

/-- **C81** (a filter that panics): only the filter of a subscriber can panic. -/
theorem only_subscribers_panic (caps : Nat → Option Nat) (ops : List (COp M)) (n : Nat)
    (hn : (Co.run caps ops).subs.length ≤ n) : Co.run caps (ops ++ [.startPanic n]) = Co.run caps ops := by
  rw [corun_snoc]
  simp only [Co.step]
  split
  · rw [if_neg (by omega)]
  · rfl

example : (Co.run (fun _ => none) [.subscribe 1 (fun _ _ => true), .request 7] : Co Nat).subs.length ≤ 1 := by decide

/-- **C81** (mailboxes, `src/mailbox.rs` L66-71): whatever is published and sent, no mailbox holds more messages than its capacity,
and what the mailbox of an ended actor held is lost. -/
theorem mailboxes_bounded (caps : Nat → Option Nat) (ops : List (COp M)) (id : Nat) :
    (∀ c, caps id = some c → ((Co.run caps ops).boxes id).queue.length ≤ c) ∧
    (((Co.run caps ops).boxes id).closed = true → ((Co.run caps ops).boxes id).queue = []) := by
  have key : ∀ (s : Co M), (s.boxes id).cap = caps id → ((∀ c, caps id = some c → (s.boxes id).queue.length ≤ c) ∧
      ((s.boxes id).closed = true → (s.boxes id).queue = [])) → ∀ op : COp M,
      ((∀ c, caps id = some c → ((s.step op).boxes id).queue.length ≤ c) ∧
        (((s.step op).boxes id).closed = true → ((s.step op).boxes id).queue = [])) := by
    intro s hcap h op
    have push : ∀ (m : M), (s.boxes id).closed = false → (s.boxes id).room = true →
        (∀ c, caps id = some c → ((s.boxes id).queue ++ [m]).length ≤ c) ∧
        ((s.boxes id).closed = true → (s.boxes id).queue ++ [m] = []) := by
      intro m hcl hr
      refine ⟨fun c hc => ?_, fun h => by rw [hcl] at h; cases h⟩
      rw [room_true_iff] at hr
      have : ¬ c ≤ (s.boxes id).queue.length := fun hle => hr ⟨c, hcap.trans hc, hle⟩
      simp only [List.length_append, List.length_singleton]
      omega
    cases op with
    | request m => exact h
    | giveUp => exact h
    | start => simp only [Co.step]; split <;> exact h
    | startPanic n => simp only [Co.step]; (repeat' split) <;> exact h
    | finish => simp only [Co.step]; (repeat' split) <;> exact h
    | subscribe x f => simp only [Co.step]; split <;> exact h
    | handle x =>
      simp only [Co.step, setBox_box]
      split
      · rename_i e; subst e
        refine ⟨fun c hc => ?_, fun hc => by simp [h.2 hc]⟩
        have := h.1 c hc
        simp only [List.length_tail]
        omega
      · exact h
    | close x =>
      simp only [Co.step, setBox_box]
      split
      · exact ⟨fun c _ => by simp, fun _ => rfl⟩
      · exact h
    | other x m =>
      simp only [Co.step]
      split
      · rename_i hh
        simp only [setBox_box]
        split
        · rename_i e; subst e
          exact push m hh.1 hh.2
        · exact h
      · exact h
    | send x =>
      rw [show s.step (.send x) = s.send x from rfl]
      rcases send_cases s x with e | ⟨c, hc, hp, ⟨hcl, e⟩ | ⟨hcl, hr, e⟩⟩ <;> rw [e]
      · exact h
      · exact h
      · simp only [setBox_box]
        split
        · rename_i e; subst e
          exact push c.msg hcl hr
        · exact h
  have all : ∀ (ops : List (COp M)) (s : Co M), (s.boxes id).cap = caps id →
      ((∀ c, caps id = some c → (s.boxes id).queue.length ≤ c) ∧ ((s.boxes id).closed = true → (s.boxes id).queue = [])) →
      ((∀ c, caps id = some c → ((ops.foldl Co.step s).boxes id).queue.length ≤ c) ∧
        (((ops.foldl Co.step s).boxes id).closed = true → ((ops.foldl Co.step s).boxes id).queue = [])) := by
    intro ops
    induction ops with
    | nil => exact fun _ _ h => h
    | cons op rest ih => exact fun s hc h => ih _ ((cap_step s op id).trans hc) (key s hc h op)
  exact all ops _ rfl ⟨fun c _ => by simp, fun h => by simp at h⟩

example : ((Co.run (fun id => if id = 1 then some 1 else none) slowDemo).boxes 1).queue = [4] ∧
    ((Co.run (fun id => if id = 1 then some 1 else none) slowDemo).boxes 2).queue = [4, 6] ∧
    ((Co.run (fun id => if id = 1 then some 1 else none) (slowDemo ++ [.close 2])).boxes 2).closed = true := by decide

end Verif.PubSub
