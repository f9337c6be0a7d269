import Verif.Router.Props

/-
What becomes of an actor that the broker or the bus found stopped. `actors/src/broker.rs` L193-264 and
`actors/src/message_bus.rs` L180-245 take away the subscriptions under which it was found: those under other patterns
(types) stay, and are tried again by every publish that comes upon them; but nothing is accepted in its name any more.
-/

namespace Verif.Router

variable {K : Type} [DecidableEq K]

/-- Nobody is about to take away the subscriptions of `a` under `k`: no delivery to it is to be made or under way, none
has found it stopped. -/
structure Untried (k : K) (a : Nat) (s : St K) : Prop where
  tasks : ∀ x ∈ s.tasks, x.key = k → x.r.actor ≠ a
  unsubs : (k, a) ∉ s.unsubs
  todo : ∀ n todo gone, s.phase = .publishing n todo gone → ∀ x ∈ todo, x.1 = k → x.2.actor ≠ a
  gone : ∀ n todo gone, s.phase = .publishing n todo gone → (k, a) ∉ gone

/-- An operation that is neither an `Unsubscribe` of `a` under `k` nor a publish that comes upon `k`. -/
def Beside (k : K) (a : Nat) : Op K → Prop
  | .unsubscribe j b => b ≠ a ∨ (j ≠ none ∧ j ≠ some k)
  | .publish sel => sel k = false
  | _ => True

theorem mem_of_eraseIdx {α : Type} {l : List α} {i : Nat} {x : α} (h : x ∈ l.eraseIdx i) : x ∈ l :=
  (List.eraseIdx_sublist l i).subset h

theorem untried_step {cast : K → Rcpt → Bool} {s : St K} (hi : Inv s) {k : K} {a : Nat} (h : Untried k a s)
    (op : Op K) (hb : Beside k a op) :
    Untried k a (s.step cast op) ∧ ∀ r ∈ s.view k, r.actor = a → r ∈ (s.step cast op).view k := by
  obtain ⟨h1, h2, h3, h4⟩ := h
  cases op with
  | subscribe j r =>
    cases hp : s.phase with
    | idle =>
      refine ⟨?_, ?_⟩
      · simp only [St.step, hp]
        exact ⟨h1, h2, by simp, by simp⟩
      · intro r' hr _
        rw [view_subscribe hp]
        split <;> simp [hr]
    | _ => simp only [St.step, hp]; exact ⟨⟨h1, h2, h3, h4⟩, fun _ h _ => h⟩
  | unsubscribe j b =>
    cases hp : s.phase with
    | idle =>
      refine ⟨?_, ?_⟩
      · cases j <;> simp only [St.step, hp] <;> exact ⟨h1, h2, by simp, by simp⟩
      · intro r' hr ha
        rw [view_unsubscribe hi hp]
        simp only [Beside] at hb
        split
        · rename_i hj
          have hne : b ≠ a := by
            cases hb with
            | inl h => exact h
            | inr h => cases hj with
              | inl e => exact absurd e h.1
              | inr e => exact absurd e h.2
          simp [hr, ha, Ne.symm hne]
        · exact hr
    | _ => simp only [St.step, hp]; exact ⟨⟨h1, h2, h3, h4⟩, fun _ h _ => h⟩
  | publish sel =>
    cases hp : s.phase with
    | idle =>
      simp only [St.step, hp]
      refine ⟨⟨h1, h2, ?_, ?_⟩, fun _ h _ => h⟩
      · intro n todo gone he x hx hk
        simp only [Phase.publishing.injEq] at he
        obtain ⟨_, rfl, _⟩ := he
        simp only [List.mem_flatMap, List.mem_filter, List.mem_map] at hx
        obtain ⟨e, ⟨_, hs⟩, r, _, rfl⟩ := hx
        simp only [Beside] at hb
        simp only at hk
        rw [hk, hb] at hs
        cases hs
      · intro n todo gone he
        simp only [Phase.publishing.injEq] at he
        obtain ⟨_, _, rfl⟩ := he
        simp
    | _ => simp only [St.step, hp]; exact ⟨⟨h1, h2, h3, h4⟩, fun _ h _ => h⟩
  | deliver e =>
    simp only [St.step]
    split
    · rename_i no j r todo gone hp
      have hr := h3 _ _ _ hp (j, r) (by simp)
      have ht := fun x hx => h3 _ _ _ hp x (List.mem_cons_of_mem _ hx)
      have hg := h4 _ _ _ hp
      split
      · exact ⟨⟨h1, h2, by simp, by simp⟩, fun _ h _ => h⟩
      · split
        · refine ⟨⟨?_, h2, ?_, ?_⟩, fun _ h _ => h⟩
          · intro x hx
            rcases List.mem_append.1 hx with hx | hx
            · exact h1 x hx
            · simp only [List.mem_singleton] at hx
              subst hx
              exact hr
          · intro n t g he
            simp only [Phase.publishing.injEq] at he
            obtain ⟨_, rfl, _⟩ := he
            exact ht
          · intro n t g he
            simp only [Phase.publishing.injEq] at he
            obtain ⟨_, _, rfl⟩ := he
            exact hg
        · split
          · exact ⟨⟨h1, h2, h3, h4⟩, fun _ h _ => h⟩
          · refine ⟨⟨h1, h2, ?_, ?_⟩, fun _ h _ => h⟩
            · intro n t g he
              simp only [Phase.publishing.injEq] at he
              obtain ⟨_, rfl, _⟩ := he
              exact ht
            · intro n t g he
              simp only [Phase.publishing.injEq] at he
              obtain ⟨_, _, rfl⟩ := he
              split
              · intro hm
                rcases List.mem_append.1 hm with hm | hm
                · exact hg hm
                · simp only [List.mem_singleton, Prod.mk.injEq] at hm
                  exact hr hm.1.symm hm.2.symm
              · exact hg
    · exact ⟨⟨h1, h2, h3, h4⟩, fun _ h _ => h⟩
  | finish =>
    simp only [St.step]
    split
    · rename_i no gone hp
      refine ⟨⟨h1, h2, by simp, by simp⟩, ?_⟩
      intro r hr ha
      have hv := getD_foldl hi.ok gone k
      simp only [St.view] at hr ⊢
      rw [hv, List.mem_filter]
      refine ⟨hr, ?_⟩
      have := h4 _ _ _ hp
      rw [← ha] at this
      simp [this]
    · exact ⟨⟨h1, h2, h3, h4⟩, fun _ h _ => h⟩
  | task i e =>
    simp only [St.step]
    split
    · exact ⟨⟨h1, h2, h3, h4⟩, fun _ h _ => h⟩
    · rename_i it hit
      split
      · exact ⟨⟨h1, h2, h3, h4⟩, fun _ h _ => h⟩
      · refine ⟨⟨fun x hx => h1 x (mem_of_eraseIdx hx), ?_, h3, h4⟩, fun _ h _ => h⟩
        show (k, a) ∉ ite _ _ _
        split
        · intro hm
          rcases List.mem_append.1 hm with hm | hm
          · exact h2 hm
          · simp only [List.mem_singleton, Prod.mk.injEq] at hm
            exact h1 it (List.mem_of_getElem? hit) hm.1.symm hm.2.symm
        · exact h2
  | handleUnsub =>
    simp only [St.step]
    split
    · rename_i j b rest hp hu
      rw [hu] at h2
      simp only [List.mem_cons, Prod.mk.injEq, not_or] at h2
      refine ⟨⟨h1, h2.2, h3, h4⟩, ?_⟩
      intro r hr ha
      simp only [St.view] at hr ⊢
      rw [getD_unsub hi.ok]
      split
      · rename_i hj
        rw [List.mem_filter]
        exact ⟨hr, by simpa [ha] using fun e : a = b => h2.1 ⟨hj, e⟩⟩
      · exact hr
    · exact ⟨⟨h1, h2, h3, h4⟩, fun _ h _ => h⟩
  | close b => exact ⟨⟨h1, h2, h3, h4⟩, fun _ h _ => h⟩
  | setRoom b c => exact ⟨⟨h1, h2, h3, h4⟩, fun _ h _ => h⟩

theorem untried_run {cast : K → Rcpt → Bool} {s : St K} (hi : Inv s) {k : K} {a : Nat} (h : Untried k a s)
    (ops : List (Op K)) (hb : ∀ op ∈ ops, Beside k a op) :
    Untried k a (run cast s ops) ∧ ∀ r ∈ s.view k, r.actor = a → r ∈ (run cast s ops).view k := by
  induction ops generalizing s with
  | nil => exact ⟨h, fun _ h _ => h⟩
  | cons op rest ih =>
    have h' := untried_step (cast := cast) hi h op (hb op (by simp))
    have h'' := ih (inv_step hi op) h'.1 (fun o ho => hb o (by simp [ho]))
    exact ⟨h''.1, fun r hr ha => h''.2 r (h'.2 r hr ha) ha⟩

/-- What was accepted for actor `a`: publish, key and recipient, in order. -/
def St.acceptedBy (s : St K) (a : Nat) : List (Item K) :=
  (s.fates.filter (fun x => x.1.r.actor = a ∧ x.2 = .accepted)).map (·.1)

omit [DecidableEq K] in
theorem attempt_closed {s : St K} {a : Nat} (h : s.isOpen a = false) (w t e : Bool) :
    s.attempt a w t e = some .stopped := attempt_stopped.2 h

theorem accepted_step {cast : K → Rcpt → Bool} {s : St K} {a : Nat} (h : s.isOpen a = false) (op : Op K) :
    (s.step cast op).acceptedBy a = s.acceptedBy a := by
  have new : ∀ (it : Item K) (f : Fate) (w t e : Bool), s.attempt it.r.actor w t e = some f →
      (s.fates ++ [(it, f)]).filter (fun x => x.1.r.actor = a ∧ x.2 = .accepted) =
        s.fates.filter (fun x => x.1.r.actor = a ∧ x.2 = .accepted) := by
    intro it f w t e hf
    rw [List.filter_append, List.filter_cons]
    by_cases ha : it.r.actor = a
    · rw [ha, attempt_closed h] at hf
      cases hf
      simp
    · simp [ha]
  cases op with
  | deliver e =>
    simp only [St.step]
    split
    · split
      · rfl
      · split
        · rfl
        · split
          · rfl
          · rename_i f hf
            simp only [St.acceptedBy]
            rw [new _ f _ _ _ hf]
    · rfl
  | task i e =>
    simp only [St.step]
    split
    · rfl
    · split
      · rfl
      · rename_i f hf
        simp only [St.acceptedBy]
        rw [new _ f _ _ _ hf]
  | _ => simp only [St.step] <;> (repeat' split) <;> rfl

theorem accepted_run {cast : K → Rcpt → Bool} {s : St K} {a : Nat} (h : s.isOpen a = false) (ops : List (Op K)) :
    (run cast s ops).acceptedBy a = s.acceptedBy a := by
  induction ops generalizing s with
  | nil => rfl
  | cons op rest ih => exact (ih (closed_step h op)).trans (accepted_step h op)

/-- What comes of deliveries to an actor that is not running. -/
theorem fates_closed {cast : K → Rcpt → Bool} {s : St K} {a : Nat} (h : s.isOpen a = false) (ops : List (Op K)) :
    ∀ x ∈ (run cast s ops).fates, x.1.r.actor = a → x ∈ s.fates ∨ x.2 = .stopped := by
  induction ops generalizing s with
  | nil => exact fun x hx _ => Or.inl hx
  | cons op rest ih =>
    intro x hx ha
    rcases ih (closed_step h op) x hx ha with hx | hx
    · have new : ∀ (it : Item K) (f : Fate) (w t e : Bool), s.attempt it.r.actor w t e = some f →
          x ∈ s.fates ++ [(it, f)] → x ∈ s.fates ∨ x.2 = .stopped := by
        intro it f w t e hf hm
        rcases List.mem_append.1 hm with hm | hm
        · exact Or.inl hm
        · simp only [List.mem_singleton] at hm
          subst hm
          rw [show it.r.actor = a from ha, attempt_closed h] at hf
          cases hf
          exact Or.inr rfl
      cases op with
      | deliver e =>
        simp only [St.step] at hx
        (repeat' split at hx) <;> first
          | exact Or.inl hx
          | exact new _ _ _ _ _ (by assumption) hx
      | task i e =>
        simp only [St.step] at hx
        (repeat' split at hx) <;> first
          | exact Or.inl hx
          | exact new _ _ _ _ _ (by assumption) hx
      | _ =>
        simp only [St.step] at hx
        (repeat' split at hx) <;> exact Or.inl hx
    · exact Or.inr hx

/-! ### The broker -/

section Broker

variable {P T : Type} [DecidableEq P] (mat : P → T → Bool) (strat : Strategy)

/-- **C45, a subscriber found stopped is dropped from every later delivery, `delivery' being what its mailbox
accepts**: once a delivery has found the actor stopped, whatever happens, nothing more is accepted in its name; under
any pattern, by any publish, earlier or later. -/
theorem broker_stopped_accepts_nothing (past rest : List (BrokerOp P T)) (it : Item P)
    (h : (it, Fate.stopped) ∈ (broker mat strat past).fates) :
    (broker mat strat (past ++ rest)).acceptedBy it.r.actor = (broker mat strat past).acceptedBy it.r.actor := by
  rw [broker_append]
  exact accepted_run ((broker_inv mat strat past).fateStopped _ h rfl) _

example : let past : List (BrokerOp (List Nat) Nat) :=
      [.subscribe [5] 1, .subscribe [6] 1, .publish 5, .deliver false, .finish, .close 1, .publish 5, .deliver false]
    (⟨1, [5], ⟨1, 0⟩⟩, Fate.stopped) ∈ (broker exMat .guaranteed past).fates ∧
      (broker exMat .guaranteed past).acceptedBy 1 = [⟨0, [5], ⟨1, 0⟩⟩] ∧
      (broker exMat .guaranteed (past ++ [.finish, .publish 6, .deliver false])).fates.length = 3 := by
  decide

/-- **C45, what is not dropped**: a subscription of an actor that was found stopped under other patterns stays, for
every history in which no publish matches its own pattern and nobody unsubscribes it; and the first publish that does
match it tries the actor once more. So `dropped from every later delivery' is false of the attempts: the broker takes
away only the subscriptions under which it found the actor stopped. -/
theorem stopped_kept_under_other_pattern (past rest rest' : List (BrokerOp P T)) (it : Item P) (q : P) (t : T) (r : Rcpt)
    (hf : (it, Fate.stopped) ∈ (broker mat strat past).fates) (hr : r.actor = it.r.actor)
    (hq : r ∈ (broker mat strat past).view q)
    (hu : Untried q r.actor (broker mat strat past))
    (h1 : ∀ t', .publish t' ∈ rest → mat q t' = false) (h2 : .unsubscribe (some q) r.actor ∉ rest)
    (h3 : .unsubscribe none r.actor ∉ rest)
    (hp : (broker mat strat (past ++ rest)).phase = .idle) (hm : mat q t = true)
    (ho : (broker mat strat (past ++ rest ++ .publish t :: rest')).Over (broker mat strat (past ++ rest)).pubs) :
    r ∈ (broker mat strat (past ++ rest)).view q ∧
      (⟨(broker mat strat (past ++ rest)).pubs, q, r⟩, Fate.stopped) ∈
        (broker mat strat (past ++ rest ++ .publish t :: rest')).fates := by
  have hkeep : r ∈ (broker mat strat (past ++ rest)).view q := by
    rw [broker_append]
    refine (untried_run (broker_inv mat strat past) hu (rest.map (BrokerOp.op mat)) ?_).2 r hq rfl
    intro op hop
    obtain ⟨o, ho, rfl⟩ := List.mem_map.1 hop
    cases o with
    | unsubscribe j b =>
      by_cases hb : b = r.actor
      · subst hb
        refine Or.inr ⟨fun e => h3 (e ▸ ho), fun e => h2 (e ▸ ho)⟩
      · exact Or.inl hb
    | publish t' => exact h1 t' ho
    | _ => exact trivial
  refine ⟨hkeep, ?_⟩
  have hc := (broker_publish_exact mat strat (past ++ rest) rest' t hp q r).2 ho
  rw [if_pos hm] at hc
  have hpos : 0 < ((broker mat strat (past ++ rest)).view q).count r := List.count_pos_iff.2 hkeep
  rw [← hc, St.outcomes, List.length_pos_iff_exists_mem] at hpos
  obtain ⟨⟨x, f⟩, hx⟩ := hpos
  simp only [List.mem_filter, decide_eq_true_eq] at hx
  obtain ⟨hx, rfl⟩ := hx
  have hcl : (broker mat strat past).isOpen r.actor = false := by
    rw [hr]
    exact (broker_inv mat strat past).fateStopped _ hf rfl
  rw [broker_append] at hx
  have hcl' : (broker mat strat (past ++ rest)).isOpen r.actor = false := by
    rw [broker_append]
    exact run_induct (P := fun s : St P => s.isOpen r.actor = false) hcl (fun _ op h => closed_step h op) _
  rcases fates_closed hcl' _ _ hx rfl with hx' | hx'
  · exact absurd ((broker_inv mat strat (past ++ rest)).fateNo _ hx') (Nat.lt_irrefl _)
  · rw [broker_append (past := past ++ rest)]
    cases hx'
    exact hx

/-- Actor 1 is found stopped under the pattern that matches 5 only, and tried again, by a later publish, under the one
that matches 6 only. -/
example : let past : List (BrokerOp (List Nat) Nat) :=
      [.subscribe [5] 1, .subscribe [6] 1, .close 1, .publish 5, .deliver false, .finish]
    let s := broker exMat .guaranteed past
    (⟨0, [5], ⟨1, 0⟩⟩, Fate.stopped) ∈ s.fates ∧ s.view [5] = [] ∧ s.view [6] = [⟨1, 0⟩] ∧ s.phase = .idle ∧
      Untried [6] 1 s ∧
      (broker exMat .guaranteed (past ++ [.publish 5, .finish])).phase = .idle ∧
      (broker exMat .guaranteed (past ++ [.publish 5, .finish] ++ .publish 6 :: [.deliver false, .finish])).Over 2 ∧
      (⟨2, [6], ⟨1, 0⟩⟩, Fate.stopped) ∈
        (broker exMat .guaranteed (past ++ [.publish 5, .finish] ++ .publish 6 :: [.deliver false, .finish])).fates := by
  refine ⟨by decide, by decide, by decide, by decide, ⟨by decide, by decide, ?_, ?_⟩, by decide, ?_, by decide⟩
  · intro n t g h; simp [show (broker exMat .guaranteed
      [.subscribe [5] 1, .subscribe [6] 1, .close 1, .publish 5, .deliver false, .finish]).phase = .idle from by decide] at h
  · intro n t g h; simp [show (broker exMat .guaranteed
      [.subscribe [5] 1, .subscribe [6] 1, .close 1, .publish 5, .deliver false, .finish]).phase = .idle from by decide] at h
  · refine ⟨?_, by decide⟩
    intro t g h
    have hi : (broker exMat .guaranteed ([.subscribe [5] 1, .subscribe [6] 1, .close 1, .publish 5, .deliver false,
      .finish] ++ [.publish 5, .finish] ++ .publish 6 :: [.deliver false, .finish])).phase = .idle := by decide
    rw [hi] at h
    cases h

end Broker

/-! ### The bus -/

/-- **C46, stopped receivers get nothing**: once a delivery has found an actor stopped, nothing more is accepted in its
name, of any type. -/
theorem bus_stopped_accepts_nothing (strat : Strategy) (past rest : List BusOp) (it : Item Nat)
    (h : (it, Fate.stopped) ∈ (bus strat past).fates) :
    (bus strat (past ++ rest)).acceptedBy it.r.actor = (bus strat past).acceptedBy it.r.actor := by
  rw [bus_append]
  exact accepted_run ((bus_inv strat past).fateStopped _ h rfl) _

example : let past : List BusOp := [.register 5 1, .publish 5, .deliver false, .finish, .close 1, .publish 5, .deliver false]
    (⟨1, 5, ⟨1, 5⟩⟩, Fate.stopped) ∈ (bus .bestEffort past).fates ∧
      (bus .bestEffort past).acceptedBy 1 = [⟨0, 5, ⟨1, 5⟩⟩] := by
  decide

/-- **C46, which registrations stay**: a registration is left alone by everything but an `Unregister` of the actor for
that type and publishes of that type; also if publishes of other types found the actor stopped. -/
theorem bus_kept_under_other_type (strat : Strategy) (past rest : List BusOp) (ty : Nat) (r : Rcpt)
    (hq : r ∈ (bus strat past).view ty) (hu : Untried ty r.actor (bus strat past))
    (h1 : .publish ty ∉ rest) (h2 : .unregister ty r.actor ∉ rest) :
    r ∈ (bus strat (past ++ rest)).view ty := by
  rw [bus_append]
  refine (untried_run (bus_inv strat past) hu (rest.map BusOp.op) ?_).2 r hq rfl
  intro op hop
  obtain ⟨o, ho, rfl⟩ := List.mem_map.1 hop
  cases o with
  | unregister j b =>
    by_cases hb : b = r.actor
    · subst hb
      refine Or.inr ⟨by simp, fun e => ?_⟩
      cases e
      exact h2 ho
    · exact Or.inl hb
  | publish t' =>
    show (ty == t') = false
    rw [beq_eq_false_iff_ne]
    intro e
    subst e
    exact h1 ho
  | _ => exact trivial

/-- Actor 1 stops, a publish of type 5 finds it stopped, its registration for type 6 stays. -/
example : let past : List BusOp := [.register 5 1, .register 6 1]
    let rest : List BusOp := [.close 1, .publish 5, .deliver false, .finish]
    (⟨1, 6⟩ : Rcpt) ∈ (bus .guaranteed past).view 6 ∧ Untried 6 1 (bus .guaranteed past) ∧ .publish 6 ∉ rest ∧
      .unregister 6 1 ∉ rest ∧ (bus .guaranteed (past ++ rest)).view 5 = [] ∧
      (⟨0, 5, ⟨1, 5⟩⟩, Fate.stopped) ∈ (bus .guaranteed (past ++ rest)).fates := by
  refine ⟨by decide, ⟨by decide, by decide, ?_, ?_⟩, by decide, by decide, by decide, by decide⟩ <;>
    (intro n t g h; simp [show (bus .guaranteed [.register 5 1, .register 6 1]).phase = .idle from by decide] at h)

end Verif.Router
