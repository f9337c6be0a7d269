import Verif.Swarm.Peers

/-
Property theorems about lost connections (C51).
-/

namespace Verif.Swarm

open Verif.ActorId

variable {P : Type} [DecidableEq P]

structure PInv (own : P) (s : Peers P) : Prop where
  ownEq : s.own = own
  reg : s.registry.Nodup
  /-- no two links of an actor name the same actor -/
  nodup : ∀ a, (s.links a).Pairwise (fun x y => ActorId.eq (some own) x y = false)
  /-- an actor with a link to another node is in the registry, unless it has stopped -/
  registered : ∀ a, a ∉ s.stopped → ∀ id ∈ s.links a, id.peer.get (some own) ≠ some own → a ∈ s.registry

theorem eq_comm' (w : World P) (a b : ActorID P) : ActorId.eq w a b = ActorId.eq w b a := by
  simp only [ActorId.eq]
  rw [Bool.eq_iff_iff]
  simp only [Bool.and_eq_true, beq_iff_eq]
  constructor <;> rintro ⟨h1, h2⟩ <;> exact ⟨h1.symm, h2.symm⟩

theorem addLink_pairwise (own : P) (l : List (ActorID P)) (id : ActorID P)
    (h : l.Pairwise (fun x y => ActorId.eq (some own) x y = false)) :
    (addLink own l id).Pairwise (fun x y => ActorId.eq (some own) x y = false) := by
  unfold addLink
  split
  · exact h
  · rename_i hn
    rw [List.pairwise_append]
    refine ⟨h, List.pairwise_singleton _ _, fun x hx y hy => ?_⟩
    simp only [List.mem_singleton] at hy
    subst hy
    simp only [List.any_eq_true, not_exists, not_and, Bool.not_eq_true] at hn
    exact hn x hx

theorem mem_addLink {own : P} {l : List (ActorID P)} {id x : ActorID P} (h : x ∈ addLink own l id) : x ∈ l ∨ x = id := by
  unfold addLink at h
  split at h
  · exact Or.inl h
  · simpa using h

omit [DecidableEq P] in
theorem mem_addActor {l : List Nat} {a b : Nat} : b ∈ addActor l a ↔ b ∈ l ∨ b = a := by
  unfold addActor
  split
  · rename_i h
    exact ⟨Or.inl, fun h' => h'.elim id (fun e => by rw [e]; exact h)⟩
  · simp

theorem addActor_nodup {l : List Nat} {a : Nat} (h : l.Nodup) : (addActor l a).Nodup := by
  unfold addActor
  split
  · exact h
  · rename_i hn
    rw [List.nodup_append]
    refine ⟨h, by simp, fun x hx y hy => ?_⟩
    simp only [List.mem_singleton] at hy
    subst hy
    rintro rfl
    exact hn hx

theorem pinv_step {own : P} {s : Peers P} (h : PInv own s) (op : POp P) : PInv own (s.step op) := by
  have hset : ∀ (reg st : List Nat) (a : Nat) (l : List (ActorID P)),
      reg.Nodup → l.Pairwise (fun x y => ActorId.eq (some own) x y = false) →
      (∀ b, b ∉ st → ∀ id ∈ (if b = a then l else s.links b), id.peer.get (some own) ≠ some own → b ∈ reg) →
      PInv own ({ s with registry := reg, stopped := st }.setLinks a l) := by
    intro reg st a l h1 h2 h3
    refine ⟨h.ownEq, h1, fun b => ?_, h3⟩
    simp only [Peers.setLinks]
    split
    · exact h2
    · exact h.nodup b
  cases op with
  | connected p => exact { h with }
  | closed p =>
    simp only [Peers.step]
    split
    · exact h
    · exact { h with }
  | task n =>
    simp only [Peers.step]
    split
    · exact h
    · exact { h with }
  | register a =>
    exact { h with reg := addActor_nodup h.reg, registered := fun b hb id hid hp =>
      mem_addActor.mpr (Or.inl (h.registered b hb id hid hp)) }
  | linkRemote a id =>
    have hs : s.step (.linkRemote a id) =
        { s with registry := addActor s.registry a, stopped := s.stopped }.setLinks a (addLink own (s.links a) id) := by
      rw [← h.ownEq]; rfl
    rw [hs]
    refine hset _ s.stopped a _ (addActor_nodup h.reg) (addLink_pairwise own _ id (h.nodup a)) ?_
    intro b hb x hx hp
    split at hx
    · rename_i he; exact mem_addActor.mpr (Or.inr he)
    · exact mem_addActor.mpr (Or.inl (h.registered b hb x hx hp))
  | linkRequest a id =>
    simp only [Peers.step, h.ownEq]
    split
    · rename_i ha
      refine hset s.registry s.stopped a _ h.reg (addLink_pairwise own _ id (h.nodup a)) ?_
      intro b hb x hx hp
      split at hx
      · rename_i he; rw [he]; exact ha
      · exact h.registered b hb x hx hp
    · exact h
  | linkLocal a seq =>
    simp only [Peers.step, h.ownEq]
    refine hset s.registry s.stopped a _ h.reg (addLink_pairwise own _ _ (h.nodup a)) ?_
    intro b hb x hx hp
    split at hx
    · rename_i he
      subst he
      rcases mem_addLink hx with h1 | h1
      · exact h.registered b hb x h1 hp
      · subst h1; exact absurd rfl hp
    · exact h.registered b hb x hx hp
  | unlink a id =>
    simp only [Peers.step, h.ownEq]
    refine hset s.registry s.stopped a _ h.reg ((h.nodup a).filter _) ?_
    intro b hb x hx hp
    split at hx
    · rename_i he
      subst he
      exact h.registered b hb x (List.mem_filter.mp hx).1 hp
    · exact h.registered b hb x hx hp
  | stop a =>
    simp only [Peers.step]
    refine hset _ (a :: s.stopped) a [] (h.reg.filter _) List.Pairwise.nil ?_
    intro b hb x hx hp
    simp only [List.mem_cons, not_or] at hb
    rw [if_neg hb.1] at hx
    exact List.mem_filter.mpr ⟨h.registered b hb.2 x hx hp, by simp [hb.1]⟩

theorem prun_snoc (own : P) (ops : List (POp P)) (op : POp P) :
    Peers.run own (ops ++ [op]) = (Peers.run own ops).step op := by
  simp [Peers.run]

theorem pinv_run (own : P) (ops : List (POp P)) : PInv own (Peers.run own ops) := by
  have : ∀ (ops : List (POp P)) (s : Peers P), PInv own s → PInv own (ops.foldl Peers.step s) := by
    intro ops
    induction ops with
    | nil => intro s h; exact h
    | cons op ops ih => intro s h; exact ih _ (pinv_step h op)
  refine this ops _ ⟨rfl, List.nodup_nil, fun a => List.Pairwise.nil, ?_⟩
  intro a _ id hid
  cases hid

theorem nodup_of_pairwise {own : P} {l : List (ActorID P)}
    (h : l.Pairwise (fun x y => ActorId.eq (some own) x y = false)) : l.Nodup := by
  refine List.Pairwise.imp ?_ h
  intro a b hab he
  subst he
  simp [ActorId.eq] at hab

/-- How often a signal is among those of one closed connection. -/
theorem closedSignals_count {own : P} {s : Peers P} (h : PInv own s) (p q : P) (a : Nat) (id : ActorID P) :
    (s.closedSignals p).count (q, a, id) =
      if q = p ∧ a ∈ s.registry ∧ id ∈ s.links a ∧ id.peer.get (some own) = some p then 1 else 0 := by
  have hinner : ∀ b, (((s.links b).filter (fun id => id.peer.get (some own) = some p)).map (fun id => (p, b, id))).count
      (q, a, id) = if b = a ∧ q = p ∧ id ∈ s.links a ∧ id.peer.get (some own) = some p then 1 else 0 := by
    intro b
    have hnd : (((s.links b).filter (fun id => id.peer.get (some own) = some p)).map (fun id => (p, b, id))).Nodup := by
      refine List.Pairwise.map _ ?_ ((nodup_of_pairwise (h.nodup b)).filter _)
      intro x y hxy he
      exact hxy (by simpa using he)
    rw [hnd.count]
    by_cases hb : b = a
    · subst hb
      by_cases hq : q = p
      · subst hq; simp
      · simp [hq, Ne.symm hq]
    · simp [hb]
  unfold Peers.closedSignals
  rw [h.ownEq, List.count_flatMap]
  have hreg := h.reg
  revert hreg
  generalize s.registry = reg
  intro hreg
  induction reg with
  | nil => simp
  | cons b rest ih =>
    have hn := List.nodup_cons.mp hreg
    simp only [List.map_cons, List.sum_cons, Function.comp_apply, ih hn.2, hinner]
    by_cases hb : b = a
    · subst hb
      simp [hn.1]
    · have hab : a ≠ b := fun e => hb e.symm
      simp [hb, hab]

/-- **C51** (exactly the actors linked to that peer): when the task for a closed connection to `p` runs, it sends, for
every actor of this node that has not stopped, one signal for each link that names an actor of `p`, and none for any other
link; actors in the registry that have stopped or have no such link get none. -/
theorem disconnect_signals_exact (own : P) (ops : List (POp P)) (n : Nat) (p : P)
    (ht : (Peers.run own ops).tasks[n]? = some p) (hp : p ≠ own) :
    let s := Peers.run own ops
    let s' := Peers.run own (ops ++ [.task n])
    ∃ new, s'.signals = s.signals ++ new ∧
      (∀ a ∉ s.stopped, ∀ id, new.count (p, a, id) = if id ∈ s.links a ∧ id.peer.get (some own) = some p then 1 else 0) ∧
      (∀ q a id, (q, a, id) ∈ new → q = p ∧ a ∈ s.registry ∧ id ∈ s.links a ∧ id.peer.get (some own) = some p) := by
  have h := pinv_run own ops
  dsimp only
  refine ⟨(Peers.run own ops).closedSignals p, ?_, ?_, ?_⟩
  · rw [prun_snoc]
    simp only [Peers.step, ht]
  · intro a ha id
    rw [closedSignals_count h]
    by_cases hc : id ∈ (Peers.run own ops).links a ∧ id.peer.get (some own) = some p
    · have : a ∈ (Peers.run own ops).registry := h.registered a ha id hc.1 (by rw [hc.2]; simpa using hp)
      rw [if_pos hc, if_pos ⟨rfl, this, hc⟩]
    · rw [if_neg hc, if_neg (fun hh => hc hh.2.2)]
  · intro q a id hm
    have hc := List.count_pos_iff.mpr hm
    rw [closedSignals_count h] at hc
    split at hc
    · assumption
    · omega

/-- Node 1: actor 0 is linked to actor 7 of node 2 and actor 8 of node 3, actor 1 to actor 9 of node 2. The connection to
node 2 closes. -/
def peersDemo : List (POp Byte) :=
  [.connected 2, .connected 3, .linkRemote 0 ⟨7, .peerId 2⟩, .linkRemote 0 ⟨8, .peerId 3⟩, .linkRemote 1 ⟨9, .peerId 2⟩,
    .linkLocal 0 1, .closed 2]

example : (Peers.run 1 peersDemo).tasks[0]? = some 2 ∧ (Peers.run 1 (peersDemo ++ [.task 0])).signals =
    [(2, 0, ⟨7, .peerId 2⟩), (2, 1, ⟨9, .peerId 2⟩)] := by decide

theorem count_eraseIdx' (p : P) : ∀ (l : List P) (n : Nat) (q : P), l[n]? = some q →
    l.count p = (l.eraseIdx n).count p + if q == p then 1 else 0
  | [], n, q, h => by simp at h
  | x :: l, 0, q, h => by
    simp only [List.getElem?_cons_zero, Option.some.injEq] at h
    subst h
    simp [List.count_cons]
  | x :: l, n + 1, q, h => by
    rw [List.getElem?_cons_succ] at h
    have := count_eraseIdx' p l n q h
    simp only [List.eraseIdx_cons_succ, List.count_cons]
    omega

/-- The tasks of a peer: every closed connection has spawned one, which has run or is waiting. -/
theorem tasks_of_closures (own : P) (ops : List (POp P)) (p : P) :
    (Peers.run own ops).ran.count p + (Peers.run own ops).tasks.count p = (Peers.run own ops).closures.count p := by
  have : ∀ (ops : List (POp P)) (s : Peers P), s.ran.count p + s.tasks.count p = s.closures.count p →
      (ops.foldl Peers.step s).ran.count p + (ops.foldl Peers.step s).tasks.count p
        = (ops.foldl Peers.step s).closures.count p := by
    intro ops
    induction ops with
    | nil => intro s h; exact h
    | cons op ops ih =>
      intro s h
      refine ih _ ?_
      cases op with
      | closed q =>
        simp only [Peers.step]
        split
        · exact h
        · simp only [List.count_append]; omega
      | task n =>
        simp only [Peers.step]
        split
        · exact h
        · rename_i q hq
          have hc := count_eraseIdx' p s.tasks n q hq
          simp only [List.count_append, List.count_singleton]
          omega
      | linkRequest a id =>
        simp only [Peers.step]
        split <;> exact h
      | _ => exact h
  exact this ops _ rfl

/-- The signals about a link are at most as many as the tasks of its peer that ran: a link of an actor is signalled at most
once for each closed connection. -/
theorem signals_le_ran (own : P) (ops : List (POp P)) (p : P) (a : Nat) (id : ActorID P) :
    (Peers.run own ops).signals.count (p, a, id) ≤ (Peers.run own ops).ran.count p := by
  have : ∀ (ops : List (POp P)) (s : Peers P), PInv own s → s.signals.count (p, a, id) ≤ s.ran.count p →
      (ops.foldl Peers.step s).signals.count (p, a, id) ≤ (ops.foldl Peers.step s).ran.count p := by
    intro ops
    induction ops with
    | nil => intro s _ h; exact h
    | cons op ops ih =>
      intro s hi h
      refine ih _ (pinv_step hi op) ?_
      cases op with
      | closed q =>
        simp only [Peers.step]
        split <;> exact h
      | task n =>
        simp only [Peers.step]
        split
        · exact h
        · rename_i q hq
          simp only [List.count_append, List.count_singleton]
          have hc := closedSignals_count hi q p a id
          by_cases hpq : p = q
          · subst hpq
            have : (s.closedSignals p).count (p, a, id) ≤ 1 := by rw [hc]; split <;> omega
            simp only [beq_self_eq_true, if_true]
            omega
          · rw [if_neg (fun hh => hpq hh.1)] at hc
            omega
      | linkRequest a id =>
        simp only [Peers.step]
        split <;> exact h
      | _ => exact h
  exact this ops _ (pinv_run own []) (Nat.le_refl _)

/-- **C51** (no signal without a lost connection, none to unrelated peers): a signal about a link to an actor of `p` is only
ever sent after a connection to that same peer has closed, at most once for each closed connection. -/
theorem signals_bounded_by_closures (own : P) (ops : List (POp P)) (p : P) (a : Nat) (id : ActorID P) :
    (Peers.run own ops).signals.count (p, a, id) ≤ (Peers.run own ops).closures.count p := by
  have h1 := signals_le_ran own ops p a id
  have h2 := tasks_of_closures own ops p
  omega

example : (Peers.run 1 (peersDemo ++ [.task 0])).closures = [2] ∧
    (Peers.run 1 (peersDemo ++ [.task 0])).signals = [(2, 0, ⟨7, .peerId 2⟩), (2, 1, ⟨9, .peerId 2⟩)] := by decide

/-- The step takes the link of `a` to `id` away: it unlinks the two or ends `a`. -/
def POp.drops (own : P) (a : Nat) (id : ActorID P) : POp P → Prop
  | .unlink b x => b = a ∧ ActorId.eq (some own) id x = true
  | .stop b => b = a
  | _ => False

theorem link_kept {own : P} {s : Peers P} (h : PInv own s) {a : Nat} {id : ActorID P} (ha : a ∉ s.stopped)
    (hid : id ∈ s.links a) (op : POp P) (hd : ¬ op.drops own a id) :
    a ∉ (s.step op).stopped ∧ id ∈ (s.step op).links a := by
  have hadd : ∀ l : List (ActorID P), ∀ x, id ∈ l → id ∈ addLink own l x := by
    intro l x hl
    unfold addLink
    split
    · exact hl
    · exact List.mem_append_left _ hl
  cases op with
  | connected p => exact ⟨ha, hid⟩
  | closed p =>
    simp only [Peers.step]
    split <;> exact ⟨ha, hid⟩
  | task n =>
    simp only [Peers.step]
    split <;> exact ⟨ha, hid⟩
  | register b => exact ⟨ha, hid⟩
  | linkRemote b x =>
    simp only [Peers.step, h.ownEq]
    refine ⟨ha, ?_⟩
    simp only [Peers.setLinks]
    split
    · rename_i he; subst he; exact hadd _ _ hid
    · exact hid
  | linkRequest b x =>
    simp only [Peers.step, h.ownEq]
    split
    · refine ⟨ha, ?_⟩
      simp only [Peers.setLinks]
      split
      · rename_i he; subst he; exact hadd _ _ hid
      · exact hid
    · exact ⟨ha, hid⟩
  | linkLocal b x =>
    simp only [Peers.step, h.ownEq]
    refine ⟨ha, ?_⟩
    simp only [Peers.setLinks]
    split
    · rename_i he; subst he; exact hadd _ _ hid
    · exact hid
  | unlink b x =>
    simp only [Peers.step, h.ownEq]
    refine ⟨ha, ?_⟩
    simp only [Peers.setLinks]
    split
    · rename_i he
      subst he
      refine List.mem_filter.mpr ⟨hid, ?_⟩
      cases hx : ActorId.eq (some own) id x with
      | false => rfl
      | true => exact absurd ⟨rfl, hx⟩ hd
    · exact hid
  | stop b =>
    have hb : a ≠ b := fun e => hd e.symm
    simp only [Peers.step, Peers.setLinks]
    rw [if_neg hb]
    exact ⟨by simp [hb, ha], hid⟩

theorem signals_of_runs {own : P} (p : P) (hp : p ≠ own) (a : Nat) (id : ActorID P) (hip : id.peer.get (some own) = some p)
    (later : List (POp P)) : ∀ (s : Peers P), PInv own s → a ∉ s.stopped → id ∈ s.links a →
    (∀ op ∈ later, ¬ op.drops own a id) →
    (later.foldl Peers.step s).signals.count (p, a, id) + s.ran.count p =
      s.signals.count (p, a, id) + (later.foldl Peers.step s).ran.count p := by
  induction later with
  | nil => intro s _ _ _ _; rfl
  | cons op rest ih =>
    intro s h ha hid hd
    have hk := link_kept h ha hid op (hd op (List.mem_cons_self ..))
    have hr := ih (s.step op) (pinv_step h op) hk.1 hk.2 (fun o ho => hd o (List.mem_cons_of_mem _ ho))
    simp only [List.foldl_cons]
    have hstep : (s.step op).signals.count (p, a, id) + s.ran.count p =
        s.signals.count (p, a, id) + (s.step op).ran.count p := by
      cases op with
      | closed q =>
        simp only [Peers.step]
        split <;> rfl
      | task n =>
        simp only [Peers.step]
        split
        · rfl
        · rename_i q hq
          simp only [List.count_append, List.count_singleton]
          have hc := closedSignals_count h q p a id
          by_cases hpq : p = q
          · subst hpq
            rw [if_pos ⟨rfl, h.registered a ha id hid (by rw [hip]; simpa using hp), hid, hip⟩] at hc
            simp only [beq_self_eq_true, if_true]
            omega
          · rw [if_neg (fun hh => hpq hh.1)] at hc
            have : (q == p) = false := by simp [Ne.symm hpq]
            rw [this]
            simp only [Bool.false_eq_true, if_false]
            omega
      | linkRequest b x =>
        simp only [Peers.step]
        split <;> rfl
      | _ => rfl
    omega

/-- **C51** (every closed connection is reported to every linked actor, once): while actor `a` stays linked to an actor of
peer `p`, it gets one signal about that link for each task of a closed connection to `p` that runs; so once no task for `p`
is waiting, one for each connection closed since. The link may be made from either side. What is missing for the property
as stated: a signal for the last connection only; see `disconnect_signalled_while_connected`. -/
theorem each_closure_signalled_partial (own : P) (ops later : List (POp P)) (p : P) (hp : p ≠ own) (a : Nat)
    (id : ActorID P) (hip : id.peer.get (some own) = some p) (ha : a ∉ (Peers.run own ops).stopped)
    (hid : id ∈ (Peers.run own ops).links a) (hd : ∀ op ∈ later, ¬ op.drops own a id)
    (h0 : p ∉ (Peers.run own ops).tasks) (h1 : p ∉ (Peers.run own (ops ++ later)).tasks) :
    (Peers.run own (ops ++ later)).signals.count (p, a, id) + (Peers.run own ops).closures.count p =
      (Peers.run own ops).signals.count (p, a, id) + (Peers.run own (ops ++ later)).closures.count p := by
  have h := signals_of_runs p hp a id hip later _ (pinv_run own ops) ha hid hd
  have hr : later.foldl Peers.step (Peers.run own ops) = Peers.run own (ops ++ later) := by simp [Peers.run]
  rw [hr] at h
  have c0 := tasks_of_closures own ops p
  have c1 := tasks_of_closures own (ops ++ later) p
  rw [List.count_eq_zero_of_not_mem h0] at c0
  rw [List.count_eq_zero_of_not_mem h1] at c1
  omega

/-- The first six steps of `peersDemo` make the links; then the connection to 2 closes, and its task runs. -/
example : 0 ∉ (Peers.run 1 (peersDemo.take 6)).stopped ∧ ⟨7, .peerId 2⟩ ∈ (Peers.run 1 (peersDemo.take 6)).links 0 ∧
    2 ∉ (Peers.run 1 (peersDemo.take 6)).tasks ∧
    2 ∉ (Peers.run 1 (peersDemo.take 6 ++ [.closed 2, .task 0])).tasks ∧
    (Peers.run 1 (peersDemo.take 6 ++ [.closed 2, .task 0])).signals.count (2, 0, ⟨7, .peerId 2⟩) = 1 := by decide

/-- The step links `a` to `id`, from either side. -/
def POp.makes (own : P) (a : Nat) (id : ActorID P) : POp P → Prop
  | .linkRemote b x => b = a ∧ ActorId.eq (some own) x id = true
  | .linkRequest b x => b = a ∧ ActorId.eq (some own) x id = true
  | .linkLocal b seq => b = a ∧ ActorId.eq (some own) ⟨seq, .isLocal⟩ id = true
  | _ => False

/-- `a` has no link that names the same actor as `id`. -/
def Peers.apart (own : P) (s : Peers P) (a : Nat) (id : ActorID P) : Prop :=
  ∀ x ∈ s.links a, ActorId.eq (some own) x id = false

theorem apart_drop {own : P} {s : Peers P} (h : PInv own s) {a : Nat} {id : ActorID P} (op : POp P)
    (hd : op.drops own a id) : (s.step op).apart own a id := by
  cases op with
  | unlink b x =>
    obtain ⟨rfl, hx⟩ := hd
    intro y hy
    simp only [Peers.step, Peers.setLinks, if_true, h.ownEq] at hy
    have hy := (List.mem_filter.mp hy).2
    cases hyi : ActorId.eq (some own) y id with
    | false => rfl
    | true =>
      have : ActorId.eq (some own) y x = true := by
        simp only [ActorId.eq, Bool.and_eq_true, beq_iff_eq] at hyi hx ⊢
        exact ⟨hyi.1.trans hx.1, hyi.2.trans hx.2⟩
      simp [this] at hy
  | stop b =>
    have hb : b = a := hd
    subst hb
    intro y hy
    simp [Peers.step, Peers.setLinks] at hy
  | _ => exact hd.elim

theorem apart_kept {own : P} {s : Peers P} (h : PInv own s) {a : Nat} {id : ActorID P} (ha : s.apart own a id)
    (op : POp P) (hm : ¬ op.makes own a id) : (s.step op).apart own a id := by
  have hadd : ∀ b x, ¬ (b = a ∧ ActorId.eq (some own) x id = true) → ∀ y,
      y ∈ (if a = b then addLink own (s.links b) x else s.links a) → ActorId.eq (some own) y id = false := by
    intro b x hn y hy
    split at hy
    · rename_i hab
      subst hab
      rcases mem_addLink hy with hy | rfl
      · exact ha y hy
      · cases hc : ActorId.eq (some own) y id with
        | false => rfl
        | true => exact (hn ⟨rfl, hc⟩).elim
    · exact ha y hy
  cases op with
  | closed p =>
    simp only [Peers.step]
    split <;> exact ha
  | task n =>
    simp only [Peers.step]
    split <;> exact ha
  | linkRemote b x =>
    intro y hy
    simp only [Peers.step, Peers.setLinks, h.ownEq] at hy
    exact hadd b x hm y hy
  | linkRequest b x =>
    simp only [Peers.step]
    split
    · intro y hy
      simp only [Peers.setLinks, h.ownEq] at hy
      exact hadd b x hm y hy
    · exact ha
  | linkLocal b seq =>
    intro y hy
    simp only [Peers.step, Peers.setLinks, h.ownEq] at hy
    exact hadd b _ hm y hy
  | unlink b x =>
    intro y hy
    simp only [Peers.step, Peers.setLinks] at hy
    split at hy
    · rename_i hab; subst hab; exact ha y (List.mem_filter.mp hy).1
    · exact ha y hy
  | stop b =>
    intro y hy
    simp only [Peers.step, Peers.setLinks] at hy
    split at hy
    · cases hy
    · exact ha y hy
  | _ => exact ha

theorem no_signals_apart {own : P} (p : P) (a : Nat) (id : ActorID P) (later : List (POp P)) :
    ∀ (s : Peers P), PInv own s → s.apart own a id → (∀ op ∈ later, ¬ op.makes own a id) →
    (later.foldl Peers.step s).signals.count (p, a, id) = s.signals.count (p, a, id) := by
  induction later with
  | nil => intro s _ _ _; rfl
  | cons op rest ih =>
    intro s h ha hm
    have hk := apart_kept h ha op (hm op (List.mem_cons_self ..))
    simp only [List.foldl_cons]
    rw [ih (s.step op) (pinv_step h op) hk (fun o ho => hm o (List.mem_cons_of_mem _ ho))]
    cases op with
    | closed q =>
      simp only [Peers.step]
      split <;> rfl
    | task n =>
      simp only [Peers.step]
      split
      · rfl
      · rename_i q hq
        have hc := closedSignals_count h q p a id
        have hn : id ∉ s.links a := by
          intro hin
          have := ha id hin
          simp [ActorId.eq] at this
        rw [if_neg (fun hh => hn hh.2.2.1)] at hc
        simp only [List.count_append, hc, Nat.add_zero]
    | linkRequest b x =>
      simp only [Peers.step]
      split <;> rfl
    | _ => rfl

/-- **C51** (nobody else): once a link was taken back, or its actor has stopped, the actor gets no signal about it
any more, whatever connections close, until the two are linked again. -/
theorem dropped_link_not_signalled (own : P) (ops later : List (POp P)) (op : POp P) (p : P) (a : Nat)
    (id : ActorID P) (hd : op.drops own a id) (hm : ∀ o ∈ later, ¬ o.makes own a id) :
    (Peers.run own (ops ++ op :: later)).signals.count (p, a, id) =
      (Peers.run own ops).signals.count (p, a, id) := by
  have h := pinv_run own ops
  have hr : Peers.run own (ops ++ op :: later) = later.foldl Peers.step ((Peers.run own ops).step op) := by
    simp [Peers.run]
  rw [hr, no_signals_apart p a id later _ (pinv_step h op) (apart_drop h op hd) hm]
  cases op with
  | unlink b x => rfl
  | stop b => rfl
  | _ => exact hd.elim

example : (POp.unlink 0 ⟨7, .peerId 2⟩ : POp Byte).drops 1 0 ⟨7, .peerId 2⟩ ∧
    (Peers.run 1 [.connected 2, .linkRemote 0 ⟨7, .peerId 2⟩, .unlink 0 ⟨7, .peerId 2⟩, .closed 2, .task 0]).signals =
      ([] : List (Byte × Nat × ActorID Byte)) := ⟨⟨rfl, by decide⟩, by decide⟩

/-- The step is a new connection to `p`. (Specification.) -/
def POp.connects (p : P) : POp P → Bool
  | .connected q => decide (q = p)
  | _ => false

/-- **C51** (connections are told apart): the connections to `p` that are open and those that were closed are those that
were established to `p`, whatever happens with other peers. -/
theorem connections_counted (own : P) (ops : List (POp P)) (p : P) :
    (Peers.run own ops).conns p + (Peers.run own ops).closures.count p = ops.countP (POp.connects p) := by
  have : ∀ (ops : List (POp P)) (s : Peers P), (ops.foldl Peers.step s).conns p +
      (ops.foldl Peers.step s).closures.count p = s.conns p + s.closures.count p + ops.countP (POp.connects p) := by
    intro ops
    induction ops with
    | nil => simp
    | cons op ops ih =>
      intro s
      rw [List.foldl_cons, ih, List.countP_cons]
      cases op with
      | connected q =>
        by_cases hq : q = p
        · subst hq; simp [Peers.step, POp.connects]; omega
        · simp [Peers.step, POp.connects, hq, Ne.symm hq]
      | closed q =>
        simp only [Peers.step, POp.connects]
        by_cases h0 : s.conns q = 0
        · simp [h0]
        · by_cases hq : q = p
          · subst hq; simp [h0]; omega
          · simp [h0, Ne.symm hq, List.count_append, List.count_cons, hq]
      | task n =>
        simp only [Peers.step, POp.connects]
        split <;> simp
      | linkRequest b x =>
        simp only [Peers.step, POp.connects]
        split <;> simp [Peers.setLinks]
      | _ => simp [Peers.step, Peers.setLinks, POp.connects]
  rw [Peers.run, this]
  simp

example : (Peers.run 1 [.connected 2, .connected 3, .connected 2, .closed 2]).conns (2 : Byte) = 1 ∧
    ([.connected 2, .connected 3, .connected 2, .closed 2] : List (POp Byte)).countP (POp.connects 2) = 2 := by decide

/-- **C51** (one connection at a time): if the node never has two connections to `p` at once, a task for `p` is spawned only
when the last connection to `p` has just closed: each closure leaves no connection. -/
theorem closure_is_last_partial (own : P) (ops : List (POp P)) (p : P)
    (hone : ∀ pre, pre <+: ops → (Peers.run own pre).conns p ≤ 1) (pre : List (POp P)) (op : POp P)
    (hpre : pre ++ [op] <+: ops)
    (ht : (Peers.run own pre).tasks.count p < (Peers.run own (pre ++ [op])).tasks.count p) :
    op = .closed p ∧ (Peers.run own pre).conns p = 1 ∧ (Peers.run own (pre ++ [op])).conns p = 0 := by
  have h1 := hone pre ((List.prefix_append _ _).trans hpre)
  rw [prun_snoc] at ht ⊢
  revert ht h1
  generalize Peers.run own pre = s
  intro ht h1
  cases op with
  | closed q =>
    simp only [Peers.step] at ht ⊢
    split at ht
    · omega
    · rename_i hq
      simp only [List.count_append, List.count_singleton] at ht
      by_cases hqp : q = p
      · subst hqp
        refine ⟨rfl, by omega, ?_⟩
        rw [if_neg hq]
        simp only [if_true]
        omega
      · have : (q == p) = false := by simp [hqp]
        rw [this] at ht
        simp at ht
  | task n =>
    simp only [Peers.step] at ht
    split at ht
    · omega
    · rename_i q hq
      have := count_eraseIdx' p s.tasks n q hq
      simp only at ht
      omega
  | linkRequest b x =>
    simp only [Peers.step] at ht
    split at ht
    · simp only [Peers.setLinks] at ht; omega
    · omega
  | _ => exact absurd ht (Nat.lt_irrefl _)

example : (Peers.run 1 peersDemo).conns 2 = 0 ∧ (Peers.run 1 (peersDemo ++ [.task 0])).closures.count 2 = 1 ∧
    (Peers.run 1 (peersDemo ++ [.task 0])).signals.count (2, 0, ⟨7, .peerId 2⟩) = 1 := by decide

/-- Two nodes with two connections (both may dial at once; libp2p keeps several connections to one peer), of which one
closes. -/
def twoConns : List (POp Byte) :=
  [.connected 2, .connected 2, .linkRemote 0 ⟨7, .peerId 2⟩, .closed 2, .task 0]

/-- **C51** (negation): the handler does not look at `num_established`: an actor gets the signal although the node is still
connected to the peer of the linked actor, and a second one when the other connection closes. -/
theorem disconnect_signalled_while_connected :
    (Peers.run 1 twoConns).conns 2 = 1 ∧ (Peers.run 1 twoConns).signals.count (2, 0, ⟨7, .peerId 2⟩) = 1 ∧
    (Peers.run 1 (twoConns ++ [.closed 2, .task 0])).conns 2 = 0 ∧
    (Peers.run 1 (twoConns ++ [.closed 2, .task 0])).signals.count (2, 0, ⟨7, .peerId 2⟩) = 2 := by decide

/-- **C51 is false** whenever a node has a second connection to the peer: if any one of them closes, the task for it
signals every link of every actor of this node to an actor of that peer, although the peer is still connected. -/
theorem signalled_while_connected (own : P) (ops : List (POp P)) (p : P) (hp : p ≠ own)
    (hc : 2 ≤ (Peers.run own ops).conns p) (a : Nat) (ha : a ∉ (Peers.run own ops).stopped) (id : ActorID P)
    (hid : id ∈ (Peers.run own ops).links a) (hip : id.peer.get (some own) = some p) :
    let s := Peers.run own ops
    let s' := Peers.run own (ops ++ [.closed p, .task s.tasks.length])
    1 ≤ s'.conns p ∧ s'.signals.count (p, a, id) = s.signals.count (p, a, id) + 1 := by
  dsimp only
  have hs : Peers.run own (ops ++ [.closed p]) = { Peers.run own ops with
      conns := fun q => if q = p then (Peers.run own ops).conns q - 1 else (Peers.run own ops).conns q
      tasks := (Peers.run own ops).tasks ++ [p]
      closures := (Peers.run own ops).closures ++ [p] } := by
    rw [prun_snoc]
    simp only [Peers.step]
    rw [if_neg (by omega)]
  have ht : (Peers.run own (ops ++ [.closed p])).tasks[(Peers.run own ops).tasks.length]? = some p := by
    rw [hs]; simp
  obtain ⟨new, h1, h2, -⟩ := disconnect_signals_exact own (ops ++ [.closed p]) _ p ht hp
  have hcons : ops ++ [.closed p, .task (Peers.run own ops).tasks.length] =
      (ops ++ [.closed p]) ++ [.task (Peers.run own ops).tasks.length] := by simp
  rw [hcons]
  refine ⟨?_, ?_⟩
  · rw [prun_snoc]
    simp only [Peers.step, ht]
    rw [hs]
    simp
    omega
  · rw [h1, List.count_append]
    have := h2 a (by rw [hs]; exact ha) id
    rw [this, hs]
    simp [hid, hip]

example : 2 ≤ (Peers.run 1 (twoConns.take 3)).conns 2 ∧ (⟨7, .peerId 2⟩ : ActorID Byte) ∈ (Peers.run 1 (twoConns.take 3)).links 0 ∧
    0 ∉ (Peers.run 1 (twoConns.take 3)).stopped := by decide

end Verif.Swarm
