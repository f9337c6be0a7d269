import Verif.Swarm.PropsPeers

/-
Model of what an actor does with the news that a linked actor is gone: the link-died signals wait in its mailbox,
`on_link_died` runs, and afterwards the link is taken out of the links (`handle_link_died`, `src/actor/kind.rs` L128-150).
Property theorems about links that are renewed after a connection was lost (C80).
-/

namespace Verif.Swarm

open Verif.ActorId

variable {P : Type} [DecidableEq P]

/-- A node with the mailboxes of its actors, as far as they hold link-died signals. `base`: connections, registry and
links (`Verif/Swarm/Peers.lean`). `inbox a`: the ids named by the link-died signals that wait for actor `a`, oldest first
(`Signal::LinkDied`, `src/mailbox.rs` L449-452). `hook a`: the id for which `on_link_died` of `a` is running
(`src/actor/kind.rs` L133-139). Simplified: a signal that waits for room in a full mailbox counts as waiting in it; the
other messages of the mailbox are left out, since handlers can only change links by the calls in `POp`, which may come at
any time. -/
structure Inboxes (P : Type) where
  base : Peers P
  inbox : Nat → List (ActorID P) := fun _ => []
  hook : Nat → Option (ActorID P) := fun _ => none

/-- The steps: those of the node; the request of another node that tells `a` of the death of `id`
(`_internal::signal_link_died`, `src/remote/_internal.rs` L276-297); the actor takes the next link-died signal out of its
mailbox and calls `on_link_died` (`src/actor/spawn.rs` L646-650, `src/actor/kind.rs` L133-139); `on_link_died` is over
(L140). Calls to `link_remote` and so on by the hook itself are steps of the node between the two. -/
inductive IOp (P : Type) where
  | node (op : POp P)
  | died (a : Nat) (id : ActorID P)
  | take (a : Nat)
  | hookEnd (a : Nat)

/-- One step. The task for a closed connection puts its signals into the mailboxes (`src/remote/swarm.rs` L794-816), as does
the request that tells of a death (`src/remote/_internal.rs` L276-297); an actor that has stopped takes none. When
`on_link_died` has returned, whatever it returned, the link is removed (`src/actor/kind.rs` L140). The end of an actor
drops its mailbox (`src/actor/spawn.rs` L515-590). -/
def Inboxes.step (s : Inboxes P) : IOp P → Inboxes P
  | .node (.task n) => { s with
    base := s.base.step (.task n)
    inbox := fun a => if a ∈ s.base.stopped then s.inbox a else
      s.inbox a ++ (match s.base.tasks[n]? with
        | none => []
        | some p => ((s.base.closedSignals p).filter (fun x => x.2.1 == a)).map (·.2.2)) }
  | .node (.stop a) =>
    { base := s.base.step (.stop a)
      inbox := fun b => if b = a then [] else s.inbox b
      hook := fun b => if b = a then none else s.hook b }
  | .node op => { s with base := s.base.step op }
  | .died a id =>
    if a ∈ s.base.registry ∧ a ∉ s.base.stopped then
      { s with inbox := fun b => if b = a then s.inbox b ++ [id] else s.inbox b }
    else s
  | .take a =>
    match s.hook a, s.inbox a with
    | none, id :: rest => { s with
      inbox := fun b => if b = a then rest else s.inbox b
      hook := fun b => if b = a then some id else s.hook b }
    | _, _ => s
  | .hookEnd a =>
    match s.hook a with
    | none => s
    | some id => { s with base := s.base.step (.unlink a id), hook := fun b => if b = a then none else s.hook b }

/-- The state after a sequence of steps, from a node that has just been bootstrapped
(`ActorSwarm::bootstrap_with_swarm`, `src/remote/swarm.rs` L140-166). -/
def Inboxes.run (own : P) (ops : List (IOp P)) : Inboxes P := ops.foldl Inboxes.step { base := { own := own } }

/-! ## Specification -/

/-- Actor `a` of the node has a link to the actor named by `id`. -/
def Inboxes.Linked (own : P) (s : Inboxes P) (a : Nat) (id : ActorID P) : Prop :=
  ∃ x ∈ s.base.links a, ActorId.eq (some own) x id = true

/-- Some news that the actor named by `id` is gone is on its way to `a`: waiting, or being handled. -/
def Inboxes.News (own : P) (s : Inboxes P) (a : Nat) (id : ActorID P) : Prop :=
  (∃ x ∈ s.inbox a, ActorId.eq (some own) x id = true) ∨
  ∃ x, s.hook a = some x ∧ ActorId.eq (some own) x id = true

/-- The step links `a` with the actor named by `id`, from either side. -/
def IOp.makes (own : P) (a : Nat) (id : ActorID P) : IOp P → Prop
  | .node op => op.makes own a id
  | _ => False

/-- The step unlinks the two, or ends `a`. -/
def IOp.drops (own : P) (a : Nat) (id : ActorID P) : IOp P → Prop
  | .node op => op.drops own a id
  | _ => False

/-- The step is news that the actor named by `id`, of peer `p`, is gone: a connection to `p` closes, or the death of the
actor is told. -/
def IOp.isNews (own : P) (p : P) (a : Nat) (id : ActorID P) : IOp P → Prop
  | .node (.closed q) => q = p
  | .died b x => b = a ∧ ActorId.eq (some own) x id = true
  | _ => False

/-- The step tells `a` that the actor named by `id`, of peer `p`, is gone: the task for a closed connection to `p` runs, or
the death of the actor is told. -/
def IOp.tells (own p : P) (s : Inboxes P) (a : Nat) (id : ActorID P) : IOp P → Prop
  | .node (.task n) => s.base.tasks[n]? = some p
  | .died b x => b = a ∧ ActorId.eq (some own) x id = true
  | _ => False

/-! ## Helper lemmas -/

theorem eq_trans' {w : World P} {a b c : ActorID P} (h1 : ActorId.eq w a b = true) (h2 : ActorId.eq w b c = true) :
    ActorId.eq w a c = true := by
  simp only [ActorId.eq, Bool.and_eq_true, beq_iff_eq] at *
  exact ⟨h1.1.trans h2.1, h1.2.trans h2.2⟩

theorem eq_refl' (w : World P) (a : ActorID P) : ActorId.eq w a a = true := by
  simp [ActorId.eq]

theorem not_linked_iff {own : P} {s : Inboxes P} {a : Nat} {id : ActorID P} :
    ¬ s.Linked own a id ↔ s.base.apart own a id := by
  constructor
  · intro h x hx
    cases hc : ActorId.eq (some own) x id with
    | false => rfl
    | true => exact absurd ⟨x, hx, hc⟩ h
  · rintro h ⟨x, hx, hc⟩
    rw [h x hx] at hc
    cases hc

/-- What a step does to the node: a step of the node, or nothing. -/
theorem istep_base (s : Inboxes P) (op : IOp P) :
    (s.step op).base = s.base ∨
    (∃ o, op = .node o ∧ (s.step op).base = s.base.step o) ∨
    ∃ a id, op = .hookEnd a ∧ s.hook a = some id ∧ (s.step op).base = s.base.step (.unlink a id) := by
  cases op with
  | node o =>
    right; left
    refine ⟨o, rfl, ?_⟩
    cases o <;> rfl
  | died a id =>
    left
    simp only [Inboxes.step]
    split <;> rfl
  | take a =>
    left
    simp only [Inboxes.step]
    split <;> rfl
  | hookEnd a =>
    cases h : s.hook a with
    | none => left; simp only [Inboxes.step, h]
    | some id =>
      right; right
      exact ⟨a, id, rfl, h, by simp only [Inboxes.step, h]⟩

theorem iinv_step {own : P} {s : Inboxes P} (h : PInv own s.base) (op : IOp P) : PInv own (s.step op).base := by
  rcases istep_base s op with e | ⟨o, _, e⟩ | ⟨a, id, _, _, e⟩ <;> rw [e]
  · exact h
  · exact pinv_step h o
  · exact pinv_step h _

theorem iinv_fold {own : P} (ops : List (IOp P)) : ∀ s : Inboxes P, PInv own s.base →
    PInv own (ops.foldl Inboxes.step s).base := by
  induction ops with
  | nil => exact fun _ h => h
  | cons op rest ih => exact fun s h => ih _ (iinv_step h op)

theorem iinv_run (own : P) (ops : List (IOp P)) : PInv own (Inboxes.run own ops).base :=
  iinv_fold ops _ (pinv_run own [])

theorem irun_append (own : P) (ops more : List (IOp P)) :
    Inboxes.run own (ops ++ more) = more.foldl Inboxes.step (Inboxes.run own ops) := by
  simp [Inboxes.run]

theorem iapart_kept {own : P} {s : Inboxes P} (h : PInv own s.base) {a : Nat} {id : ActorID P}
    (ha : s.base.apart own a id) (op : IOp P) (hm : ¬ op.makes own a id) : (s.step op).base.apart own a id := by
  rcases istep_base s op with e | ⟨o, rfl, e⟩ | ⟨b, x, _, _, e⟩ <;> rw [e]
  · exact ha
  · exact apart_kept h ha o hm
  · exact apart_kept h ha _ (fun hh => hh.elim)

theorem iapart_fold {own : P} {a : Nat} {id : ActorID P} (later : List (IOp P)) : ∀ s : Inboxes P, PInv own s.base →
    s.base.apart own a id → (∀ op ∈ later, ¬ op.makes own a id) →
    (later.foldl Inboxes.step s).base.apart own a id := by
  induction later with
  | nil => exact fun _ _ h _ => h
  | cons op rest ih =>
    intro s h ha hm
    exact ih _ (iinv_step h op) (iapart_kept h ha op (hm op (List.mem_cons_self ..)))
      (fun o ho => hm o (List.mem_cons_of_mem _ ho))

/-- While `on_link_died` runs it goes on, unless it ends or the actor does. -/
theorem hook_kept {s : Inboxes P} {a : Nat} {id : ActorID P} (h : s.hook a = some id) (op : IOp P)
    (h1 : op ≠ .hookEnd a) (h2 : op ≠ .node (.stop a)) : (s.step op).hook a = some id := by
  cases op with
  | node o =>
    cases o with
    | stop b =>
      have hb : a ≠ b := by rintro rfl; exact h2 rfl
      simp only [Inboxes.step, if_neg hb, h]
    | _ => exact h
  | died b x =>
    simp only [Inboxes.step]
    split <;> exact h
  | take b =>
    by_cases hb : a = b
    · subst hb; simp only [Inboxes.step, h]
    · simp only [Inboxes.step]
      split
      · simp only [if_neg hb, h]
      · exact h
  | hookEnd b =>
    have hb : a ≠ b := by rintro rfl; exact h1 rfl
    simp only [Inboxes.step]
    split
    · exact h
    · simp only [if_neg hb, h]

theorem hook_fold {a : Nat} {id : ActorID P} (mid : List (IOp P)) : ∀ s : Inboxes P, s.hook a = some id →
    (∀ op ∈ mid, op ≠ .hookEnd a ∧ op ≠ .node (.stop a)) → (mid.foldl Inboxes.step s).hook a = some id := by
  induction mid with
  | nil => exact fun _ h _ => h
  | cons op rest ih =>
    intro s h hm
    have h1 := hm op (List.mem_cons_self ..)
    exact ih _ (hook_kept h op h1.1 h1.2) (fun o ho => hm o (List.mem_cons_of_mem _ ho))

theorem hookEnd_apart {own : P} {s : Inboxes P} (h : PInv own s.base) {a : Nat} {id : ActorID P}
    (hh : s.hook a = some id) : (s.step (.hookEnd a)).base.apart own a id := by
  have : (s.step (.hookEnd a)).base = s.base.step (.unlink a id) := by simp only [Inboxes.step, hh]
  rw [this]
  exact apart_drop h (.unlink a id) ⟨rfl, eq_refl' _ _⟩

/-! ## C80 -/

/-- **C80** (negation). Whatever links are made while `on_link_died` runs, by the hook itself, by other tasks or at the
request of the other node: when it returns, the actor is not linked to the actor the hook was called for, and it stays so
until the two are linked once more. A hook that renews the link with an actor of a peer that was lost and has come back
renews it for nothing. -/
theorem relink_in_hook_lost (own : P) (ops mid later : List (IOp P)) (a : Nat) (id : ActorID P)
    (h : (Inboxes.run own ops).hook a = some id)
    (hmid : ∀ op ∈ mid, op ≠ .hookEnd a ∧ op ≠ .node (.stop a)) (hl : ∀ op ∈ later, ¬ op.makes own a id) :
    ¬ (Inboxes.run own (ops ++ mid ++ .hookEnd a :: later)).Linked own a id := by
  rw [not_linked_iff, irun_append, irun_append]
  have h1 := hook_fold mid _ h hmid
  have h2 := iinv_fold mid _ (iinv_run own ops)
  exact iapart_fold later _ (iinv_step h2 _) (hookEnd_apart h2 h1) hl

/-- Node 1 loses the connection to node 2; actor 0, linked to actor 7 of node 2, is told and `on_link_died` runs. -/
def lostDemo : List (IOp Byte) :=
  [.node (.connected 2), .node (.linkRemote 0 ⟨7, .peerId 2⟩), .node (.closed 2), .node (.task 0), .take 0]

/-- The connection is back, and `on_link_died` links again. It was linked; after the hook it is not, and when the connection
is lost again nobody tells it. -/
example : (Inboxes.run 1 lostDemo).hook 0 = some ⟨7, .peerId 2⟩ ∧
    (Inboxes.run 1 (lostDemo ++ [.node (.connected 2), .node (.linkRemote 0 ⟨7, .peerId 2⟩)])).base.links 0 =
      [⟨7, .peerId 2⟩] ∧
    (Inboxes.run 1 (lostDemo ++ [.node (.connected 2), .node (.linkRemote 0 ⟨7, .peerId 2⟩), .hookEnd 0])).base.links 0 =
      [] ∧
    (Inboxes.run 1 (lostDemo ++ [.node (.connected 2), .node (.linkRemote 0 ⟨7, .peerId 2⟩), .hookEnd 0,
      .node (.closed 2), .node (.task 0)])).inbox 0 = [] := by decide

/-- **C80** (negation). Old news cuts a new link: if a link-died signal about `id` waits in the mailbox when the two are
linked anew, then whenever the mailbox has been worked off, the actor is not linked, unless they were linked yet again. -/
theorem old_news_cuts_new_link (own : P) (ops later : List (IOp P)) (a : Nat) (id : ActorID P)
    (h : id ∈ (Inboxes.run own ops).inbox a) (hl : ∀ op ∈ later, ¬ op.makes own a id)
    (hq : ¬ (Inboxes.run own (ops ++ later)).News own a id) :
    ¬ (Inboxes.run own (ops ++ later)).Linked own a id := by
  rw [not_linked_iff]
  rw [irun_append] at hq ⊢
  have key : ∀ (later : List (IOp P)) (s : Inboxes P), PInv own s.base →
      (id ∈ s.inbox a ∨ s.hook a = some id ∨ s.base.apart own a id) → (∀ op ∈ later, ¬ op.makes own a id) →
      (id ∈ (later.foldl Inboxes.step s).inbox a ∨ (later.foldl Inboxes.step s).hook a = some id ∨
        (later.foldl Inboxes.step s).base.apart own a id) := by
    intro later
    induction later with
    | nil => exact fun _ _ h _ => h
    | cons op rest ih =>
      intro s hs h hm
      refine ih _ (iinv_step hs op) ?_ (fun o ho => hm o (List.mem_cons_of_mem _ ho))
      have hm := hm op (List.mem_cons_self ..)
      rcases h with h | h | h
      · cases op with
        | node o =>
          cases o with
          | task n =>
            left
            simp only [Inboxes.step]
            split
            · exact h
            · exact List.mem_append_left _ h
          | stop b =>
            by_cases hb : a = b
            · subst hb
              right; right
              exact apart_drop hs (.stop a) rfl
            · left
              simp only [Inboxes.step, if_neg hb]
              exact h
          | _ => exact .inl h
        | died b x =>
          left
          simp only [Inboxes.step]
          split
          · show id ∈ (if a = b then s.inbox a ++ [x] else s.inbox a)
            split
            · exact List.mem_append_left _ h
            · exact h
          · exact h
        | take b =>
          by_cases hb : a = b
          · subst hb
            simp only [Inboxes.step]
            split
            · rename_i y rest' hn hi
              rw [hi] at h
              simp only [if_true]
              rcases List.mem_cons.mp h with rfl | h
              · exact .inr (.inl rfl)
              · exact .inl h
            · exact .inl h
          · left
            simp only [Inboxes.step]
            split
            · simp only [if_neg hb]; exact h
            · exact h
        | hookEnd b =>
          left
          simp only [Inboxes.step]
          split <;> exact h
      · by_cases h1 : op = .hookEnd a
        · subst h1
          exact .inr (.inr (hookEnd_apart hs h))
        · by_cases h2 : op = .node (.stop a)
          · subst h2
            right; right
            exact apart_drop hs (.stop a) rfl
          · exact .inr (.inl (hook_kept h op h1 h2))
      · exact .inr (.inr (iapart_kept hs h op hm))
  rcases key later _ (iinv_run own ops) (.inl h) hl with h | h | h
  · exact absurd (.inl ⟨id, h, eq_refl' _ _⟩) hq
  · exact absurd (.inr ⟨id, h, eq_refl' _ _⟩) hq
  · exact h

/-- The actor is busy while the connection is lost, comes back, and the other node asks for the link again. -/
example : ⟨7, .peerId 2⟩ ∈ (Inboxes.run 1 (lostDemo.take 4 ++ [.node (.connected 2),
      .node (.linkRequest 0 ⟨7, .peerId 2⟩)])).inbox 0 ∧
    (Inboxes.run 1 (lostDemo.take 4 ++ [.node (.connected 2), .node (.linkRequest 0 ⟨7, .peerId 2⟩)])).base.links 0 =
      [⟨7, .peerId 2⟩] ∧
    (Inboxes.run 1 (lostDemo.take 4 ++ [.node (.connected 2), .node (.linkRequest 0 ⟨7, .peerId 2⟩)] ++
      [.take 0, .hookEnd 0])).base.links 0 = [] ∧
    (Inboxes.run 1 (lostDemo.take 4 ++ [.node (.connected 2), .node (.linkRequest 0 ⟨7, .peerId 2⟩)] ++
      [.take 0, .hookEnd 0])).inbox 0 = [] := by decide

theorem linkRemote_linked {own : P} {s : Inboxes P} (h : PInv own s.base) (a : Nat) (id : ActorID P) :
    (s.step (.node (.linkRemote a id))).Linked own a id := by
  show ∃ x ∈ (s.base.step (.linkRemote a id)).links a, _
  simp only [Peers.step, Peers.setLinks, if_true, h.ownEq, addLink]
  split
  · rename_i hh
    obtain ⟨x, hx, he⟩ := List.any_eq_true.mp hh
    exact ⟨x, hx, he⟩
  · exact ⟨id, by simp, eq_refl' _ _⟩

/-- The state in which a link is safe: linked, and no news about the other on its way. -/
structure Safe (own p : P) (s : Inboxes P) (a : Nat) (id : ActorID P) : Prop where
  inv : PInv own s.base
  live : a ∉ s.base.stopped
  linked : s.Linked own a id
  quiet : ¬ s.News own a id
  noTask : p ∉ s.base.tasks

theorem closed_step_tasks {s : Peers P} {p : P} (h : p ∉ s.tasks) (op : POp P) (hc : op ≠ .closed p) :
    p ∉ (s.step op).tasks := by
  cases op with
  | closed q =>
    have hq : p ≠ q := by rintro rfl; exact hc rfl
    simp only [Peers.step]
    split
    · exact h
    · simp [h, hq]
  | task n =>
    simp only [Peers.step]
    split
    · exact h
    · exact fun hm => h (List.mem_of_mem_eraseIdx hm)
  | linkRequest b x =>
    simp only [Peers.step]
    split <;> exact h
  | _ => exact h

/-- The actor lives and is linked, and no news about the other is at hand. -/
structure Calm (own : P) (s : Inboxes P) (a : Nat) (id : ActorID P) : Prop where
  inv : PInv own s.base
  live : a ∉ s.base.stopped
  linked : s.Linked own a id
  quiet : ¬ s.News own a id

theorem calm_step {own p : P} {s : Inboxes P} {a : Nat} {id : ActorID P} (hip : id.peer.get (some own) = some p)
    (h : Calm own s a id) (op : IOp P) (hd : ¬ op.drops own a id) (hn : ¬ op.tells own p s a id) :
    Calm own (s.step op) a id := by
  obtain ⟨x, hx, hxe⟩ := h.linked
  have hinv := iinv_step h.inv op
  have hdx : ∀ o : POp P, ¬ o.drops own a id → ¬ o.drops own a x := by
    intro o ho hh
    cases o with
    | unlink b y =>
      obtain ⟨rfl, hy⟩ := hh
      exact ho ⟨rfl, eq_trans' (by rw [eq_comm']; exact hxe) hy⟩
    | stop b => exact ho hh
    | _ => exact hh.elim
  have hq1 : ∀ y ∈ s.inbox a, ActorId.eq (some own) y id = false := by
    intro y hy
    cases hc : ActorId.eq (some own) y id with
    | false => rfl
    | true => exact absurd (.inl ⟨y, hy, hc⟩) h.quiet
  have hq2 : ∀ y, s.hook a = some y → ActorId.eq (some own) y id = false := by
    intro y hy
    cases hc : ActorId.eq (some own) y id with
    | false => rfl
    | true => exact absurd (.inr ⟨y, hy, hc⟩) h.quiet
  -- it is enough to show that no news arrives, and that the node's step keeps the link
  have close : (∀ y ∈ (s.step op).inbox a, ActorId.eq (some own) y id = false) →
      (∀ y, (s.step op).hook a = some y → ActorId.eq (some own) y id = false) → Calm own (s.step op) a id := by
    intro c1 c2
    have c3 : ¬ (s.step op).News own a id := by
      rintro (⟨y, hy, he⟩ | ⟨y, hy, he⟩)
      · rw [c1 y hy] at he; cases he
      · rw [c2 y hy] at he; cases he
    rcases istep_base s op with e | ⟨o, rfl, e⟩ | ⟨b, y, rfl, hy, e⟩
    · exact ⟨hinv, by rw [e]; exact h.live, ⟨x, by rw [e]; exact hx, hxe⟩, c3⟩
    · have hk := link_kept h.inv h.live hx o (hdx o hd)
      exact ⟨hinv, by rw [e]; exact hk.1, ⟨x, by rw [e]; exact hk.2, hxe⟩, c3⟩
    · have hk := link_kept h.inv h.live hx (.unlink b y) (by
        rintro ⟨rfl, hxy⟩
        have := hq2 y hy
        rw [eq_comm', eq_trans' (by rw [eq_comm']; exact hxe) hxy] at this
        cases this)
      exact ⟨hinv, by rw [e]; exact hk.1, ⟨x, by rw [e]; exact hk.2, hxe⟩, c3⟩
  apply close
  · intro y hy
    cases op with
    | node o =>
      cases o with
      | task n =>
        simp only [Inboxes.step, if_neg h.live] at hy
        rcases List.mem_append.mp hy with hy | hy
        · exact hq1 y hy
        · split at hy
          · cases hy
          · rename_i q hq
            have hqp : q ≠ p := by
              rintro rfl
              exact hn hq
            obtain ⟨z, hz, rfl⟩ := List.mem_map.mp hy
            have hz := (List.mem_filter.mp hz).1
            simp only [Peers.closedSignals, List.mem_flatMap, List.mem_map, List.mem_filter, decide_eq_true_eq] at hz
            obtain ⟨b, _, w, ⟨_, hw⟩, rfl⟩ := hz
            cases hc : ActorId.eq (some own) w id with
            | false => rfl
            | true =>
              simp only [ActorId.eq, Bool.and_eq_true, beq_iff_eq] at hc
              rw [h.inv.ownEq] at hw
              have h2 := hc.2
              rw [hw, hip] at h2
              exact absurd (Option.some.inj h2) hqp
      | stop b =>
        simp only [Inboxes.step] at hy
        split at hy
        · cases hy
        · exact hq1 y hy
      | _ => exact hq1 y hy
    | died b z =>
      simp only [Inboxes.step] at hy
      split at hy
      · change y ∈ (if a = b then s.inbox a ++ [z] else s.inbox a) at hy
        split at hy
        · rename_i hab
          subst hab
          rcases List.mem_append.mp hy with hy | hy
          · exact hq1 y hy
          · simp only [List.mem_singleton] at hy
            subst hy
            cases hc : ActorId.eq (some own) y id with
            | false => rfl
            | true => exact absurd ⟨rfl, hc⟩ hn
        · exact hq1 y hy
      · exact hq1 y hy
    | take b =>
      simp only [Inboxes.step] at hy
      split at hy
      · rename_i z rest hh hi
        dsimp only at hy
        split at hy
        · rename_i hab
          subst hab
          exact hq1 y (by rw [hi]; exact List.mem_cons_of_mem _ hy)
        · exact hq1 y hy
      · exact hq1 y hy
    | hookEnd b =>
      simp only [Inboxes.step] at hy
      split at hy <;> exact hq1 y hy
  · intro y hy
    cases op with
    | node o =>
      cases o with
      | stop b =>
        simp only [Inboxes.step] at hy
        split at hy
        · cases hy
        · exact hq2 y hy
      | _ => exact hq2 y hy
    | died b z =>
      simp only [Inboxes.step] at hy
      split at hy <;> exact hq2 y hy
    | take b =>
      simp only [Inboxes.step] at hy
      split at hy
      · rename_i z rest hh hi
        dsimp only at hy
        split at hy
        · rename_i hab
          subst hab
          cases hy
          exact hq1 y (by rw [hi]; exact List.mem_cons_self ..)
        · exact hq2 y hy
      · exact hq2 y hy
    | hookEnd b =>
      simp only [Inboxes.step] at hy
      split at hy
      · exact hq2 y hy
      · dsimp only at hy
        split at hy
        · cases hy
        · exact hq2 y hy

theorem safe_step {own p : P} {s : Inboxes P} {a : Nat} {id : ActorID P} (hip : id.peer.get (some own) = some p)
    (h : Safe own p s a id) (op : IOp P) (hd : ¬ op.drops own a id) (hn : ¬ op.isNews own p a id) :
    Safe own p (s.step op) a id := by
  have hc := calm_step hip ⟨h.inv, h.live, h.linked, h.quiet⟩ op hd (by
    intro ht
    cases op with
    | node o => cases o with
      | task n => exact h.noTask (List.mem_of_getElem? ht)
      | _ => exact ht
    | died b x => exact hn ht
    | _ => exact ht)
  refine ⟨hc.inv, hc.live, hc.linked, hc.quiet, ?_⟩
  rcases istep_base s op with e | ⟨o, rfl, e⟩ | ⟨b, y, rfl, _, e⟩ <;> rw [e]
  · exact h.noTask
  · exact closed_step_tasks h.noTask o (by rintro rfl; exact hn rfl)
  · exact closed_step_tasks h.noTask _ (by simp)

theorem safe_fold {own p : P} {a : Nat} {id : ActorID P} (hip : id.peer.get (some own) = some p) (later : List (IOp P)) :
    ∀ s : Inboxes P, Safe own p s a id → (∀ op ∈ later, ¬ op.drops own a id ∧ ¬ op.isNews own p a id) →
    Safe own p (later.foldl Inboxes.step s) a id := by
  induction later with
  | nil => exact fun _ h _ => h
  | cons op rest ih =>
    intro s h hm
    have h1 := hm op (List.mem_cons_self ..)
    exact ih _ (safe_step hip h op h1.1 h1.2) (fun o ho => hm o (List.mem_cons_of_mem _ ho))

/-- **C80** (partial: if no old news is about). A link made with `link_remote` while nothing tells of an earlier loss of the
other any more, neither a signal in the mailbox, nor a running `on_link_died`, nor the task for a connection closed
before, stays until the two are unlinked, the actor ends, a connection to that peer closes, or the death of the other
is told. -/
theorem renewed_link_holds_partial (own p : P) (ops later : List (IOp P)) (a : Nat) (id : ActorID P)
    (hip : id.peer.get (some own) = some p) (ha : a ∉ (Inboxes.run own ops).base.stopped)
    (hq : ¬ (Inboxes.run own ops).News own a id) (ht : p ∉ (Inboxes.run own ops).base.tasks)
    (hl : ∀ op ∈ later, ¬ op.drops own a id ∧ ¬ op.isNews own p a id) :
    (Inboxes.run own (ops ++ .node (.linkRemote a id) :: later)).Linked own a id := by
  rw [irun_append]
  have h := iinv_run own ops
  exact (safe_fold hip later _ ⟨iinv_step h _, ha, linkRemote_linked h a id, hq, ht⟩ hl).linked

/-- The actor has done with the first loss when it links again: then the link holds while other connections close and other
signals are handled, and the next loss is told. -/
example : 0 ∉ (Inboxes.run 1 (lostDemo ++ [.hookEnd 0, .node (.connected 2)])).base.stopped ∧
    (Inboxes.run 1 (lostDemo ++ [.hookEnd 0, .node (.connected 2)])).inbox 0 = [] ∧
    (Inboxes.run 1 (lostDemo ++ [.hookEnd 0, .node (.connected 2)])).hook 0 = none ∧
    2 ∉ (Inboxes.run 1 (lostDemo ++ [.hookEnd 0, .node (.connected 2)])).base.tasks ∧
    (Inboxes.run 1 (lostDemo ++ [.hookEnd 0, .node (.connected 2)] ++ [.node (.linkRemote 0 ⟨7, .peerId 2⟩),
      .died 0 ⟨9, .peerId 2⟩, .take 0, .hookEnd 0])).base.links 0 = [⟨7, .peerId 2⟩] ∧
    (Inboxes.run 1 (lostDemo ++ [.hookEnd 0, .node (.connected 2)] ++ [.node (.linkRemote 0 ⟨7, .peerId 2⟩),
      .node (.closed 2), .node (.task 0)])).inbox 0 = [⟨7, .peerId 2⟩] := by decide

/-- **C80** (news is heard): a link-died signal is taken by the actor that has no other hook running, and names the link it
was sent for; afterwards the link is gone. The links of an actor do not fill up with those of lost actors. -/
theorem news_heard_and_forgotten (own : P) (ops : List (IOp P)) (a : Nat) (id : ActorID P) (rest : List (ActorID P))
    (hi : (Inboxes.run own ops).inbox a = id :: rest) (hh : (Inboxes.run own ops).hook a = none) :
    (Inboxes.run own (ops ++ [.take a])).hook a = some id ∧
    (Inboxes.run own (ops ++ [.take a, .hookEnd a])).hook a = none ∧
    (Inboxes.run own (ops ++ [.take a, .hookEnd a])).inbox a = rest ∧
    ¬ (Inboxes.run own (ops ++ [.take a, .hookEnd a])).Linked own a id ∧
    ∀ b y, (b, y.seq, y.peer.get (some own)) ≠ (a, id.seq, id.peer.get (some own)) →
      ((Inboxes.run own (ops ++ [.take a, .hookEnd a])).Linked own b y ↔ (Inboxes.run own ops).Linked own b y) := by
  have h := iinv_run own ops
  have e1 : Inboxes.run own (ops ++ [.take a]) = (Inboxes.run own ops).step (.take a) := by rw [irun_append]; rfl
  have e2 : Inboxes.run own (ops ++ [.take a, .hookEnd a]) =
      ((Inboxes.run own ops).step (.take a)).step (.hookEnd a) := by rw [irun_append]; rfl
  have hk : ((Inboxes.run own ops).step (.take a)).hook a = some id := by simp [Inboxes.step, hh, hi]
  have hb : ((Inboxes.run own ops).step (.take a)).base = (Inboxes.run own ops).base := by simp [Inboxes.step, hh, hi]
  rw [e1, e2]
  refine ⟨hk, ?_, ?_, ?_, ?_⟩
  · simp [Inboxes.step, hh, hi]
  · simp [Inboxes.step, hh, hi]
  · rw [not_linked_iff]
    exact hookEnd_apart (iinv_step h _) hk
  · intro b y hne
    have hbase : (((Inboxes.run own ops).step (.take a)).step (.hookEnd a)).base =
        (Inboxes.run own ops).base.step (.unlink a id) := by
      simp [Inboxes.step, hh, hi]
    simp only [Inboxes.Linked, hbase, Peers.step, Peers.setLinks, h.ownEq]
    split
    · rename_i hab
      subst hab
      constructor
      · rintro ⟨x, hx, he⟩
        exact ⟨x, (List.mem_filter.mp hx).1, he⟩
      · rintro ⟨x, hx, he⟩
        refine ⟨x, List.mem_filter.mpr ⟨hx, ?_⟩, he⟩
        cases hc : ActorId.eq (some own) x id with
        | false => rfl
        | true =>
          exfalso
          apply hne
          simp only [ActorId.eq, Bool.and_eq_true, beq_iff_eq] at hc he
          rw [← he.1, ← he.2, hc.1, hc.2]
    · exact Iff.rfl

example : (Inboxes.run 1 (lostDemo.take 4)).inbox 0 = [⟨7, .peerId 2⟩] ∧ (Inboxes.run 1 (lostDemo.take 4)).hook 0 = none ∧
    (Inboxes.run 1 (lostDemo.take 4)).base.links 0 = [⟨7, .peerId 2⟩] := by decide

/-- News that waits stays until it is taken. -/
theorem inbox_kept {s : Inboxes P} {a : Nat} {id : ActorID P} (h : id ∈ s.inbox a) (op : IOp P)
    (h2 : op ≠ .node (.stop a)) : id ∈ (s.step op).inbox a ∨ (s.step op).hook a = some id := by
  cases op with
  | node o =>
    cases o with
    | stop b =>
      have hb : a ≠ b := by rintro rfl; exact h2 rfl
      simp only [Inboxes.step, if_neg hb, h, true_or]
    | task n =>
      simp only [Inboxes.step]
      split
      · exact .inl h
      · exact .inl (List.mem_append_left _ h)
    | _ => exact .inl h
  | died b x =>
    simp only [Inboxes.step]
    split
    · simp only
      split
      · exact .inl (List.mem_append_left _ h)
      · exact .inl h
    · exact .inl h
  | take b =>
    simp only [Inboxes.step]
    split
    · rename_i y rest hh hi
      by_cases hb : a = b
      · subst hb
        rw [hi] at h
        rcases List.mem_cons.mp h with e | e
        · right; simp [e]
        · left; simpa using e
      · left; simpa [hb] using h
    · exact .inl h
  | hookEnd b =>
    simp only [Inboxes.step]
    split <;> exact .inl h

/-- **C80** (news is heard): an actor that runs and is registered is told of every death it is sent news of: the news waits in its
mailbox until `on_link_died` is called with it, unless the actor ends before. -/
theorem told_death_heard (own : P) (ops later : List (IOp P)) (a : Nat) (id : ActorID P)
    (hr : a ∈ (Inboxes.run own ops).base.registry) (hs : a ∉ (Inboxes.run own ops).base.stopped)
    (hl : .node (.stop a) ∉ later) :
    id ∈ (Inboxes.run own (ops ++ .died a id :: later)).inbox a ∨
    ∃ l, l <+: later ∧ (Inboxes.run own (ops ++ .died a id :: l)).hook a = some id := by
  have e : ∀ l, Inboxes.run own (ops ++ .died a id :: l) =
      l.foldl Inboxes.step ((Inboxes.run own ops).step (.died a id)) := fun l => by rw [irun_append]; rfl
  have h0 : id ∈ ((Inboxes.run own ops).step (.died a id)).inbox a := by simp [Inboxes.step, hr, hs]
  simp only [e]
  generalize (Inboxes.run own ops).step (.died a id) = s at h0
  clear e hr hs
  induction later generalizing s with
  | nil => exact .inl h0
  | cons op rest ih =>
    rcases inbox_kept h0 op (fun h => hl (by simp [h])) with h | h
    · rcases ih (fun h => hl (List.mem_cons_of_mem _ h)) _ h with h | ⟨l, h1, h2⟩
      · exact .inl h
      · exact .inr ⟨op :: l, List.cons_prefix_cons.mpr ⟨rfl, h1⟩, h2⟩
    · exact .inr ⟨[op], List.cons_prefix_cons.mpr ⟨rfl, List.nil_prefix⟩, h⟩

/-- **C80** (a lost peer is news): when the task for a lost connection to `p` has run, exactly those registered actors that
have not ended have been told of each actor of `p` they are linked with, after all earlier news; nobody else hears
anything. -/
theorem lost_peer_is_news (own : P) (ops : List (IOp P)) (n : Nat) (p : P) (a : Nat) (id : ActorID P)
    (hp : (Inboxes.run own ops).base.tasks[n]? = some p) :
    ∃ news, (Inboxes.run own (ops ++ [.node (.task n)])).inbox a = (Inboxes.run own ops).inbox a ++ news ∧
      (id ∈ news ↔ a ∉ (Inboxes.run own ops).base.stopped ∧ a ∈ (Inboxes.run own ops).base.registry ∧
        id ∈ (Inboxes.run own ops).base.links a ∧ id.peer.get (some own) = some p) := by
  have hi := iinv_run own ops
  have ho : (Inboxes.run own ops).base.own = own := hi.ownEq
  rw [irun_append]
  generalize Inboxes.run own ops = s at *
  simp only [List.foldl_cons, List.foldl_nil, Inboxes.step, hp]
  by_cases hs : a ∈ s.base.stopped
  · exact ⟨[], by simp [hs]⟩
  · refine ⟨_, by rw [if_neg hs], ?_⟩
    simp only [Peers.closedSignals, List.mem_map, List.mem_filter, List.mem_flatMap, hs, not_false_eq_true, true_and, ho]
    constructor
    · rintro ⟨⟨q, b, i⟩, ⟨⟨c, hc, x, hx, hxe⟩, hb⟩, rfl⟩
      simp only [Prod.mk.injEq] at hxe
      obtain ⟨rfl, rfl, rfl⟩ := hxe
      simp only [beq_iff_eq] at hb
      subst hb
      exact ⟨hc, hx.1, by simpa using hx.2⟩
    · rintro ⟨h1, h2, h3⟩
      exact ⟨(p, a, id), ⟨⟨a, h1, id, ⟨h2, by simpa using h3⟩, rfl⟩, by simp⟩, rfl⟩

example : (Inboxes.run 1 (lostDemo.take 3)).base.tasks[0]? = some (2 : Byte) ∧
    (Inboxes.run 1 (lostDemo.take 4)).inbox 0 = [⟨7, .peerId 2⟩] ∧ (Inboxes.run 1 (lostDemo.take 4)).inbox 1 = [] := by
  decide

/-- **C80** An actor that has ended hears no news: none waits for it, and none is being handled. -/
theorem no_news_for_stopped (own : P) (ops : List (IOp P)) (a : Nat) (h : a ∈ (Inboxes.run own ops).base.stopped) :
    (Inboxes.run own ops).inbox a = [] ∧ (Inboxes.run own ops).hook a = none := by
  have key : ∀ (s : Inboxes P), (a ∈ s.base.stopped → s.inbox a = [] ∧ s.hook a = none) → ∀ op : IOp P,
      a ∈ (s.step op).base.stopped → (s.step op).inbox a = [] ∧ (s.step op).hook a = none := by
    intro s hs op ha
    cases op with
    | node o =>
      cases o with
      | stop b =>
        by_cases hb : a = b
        · simp [Inboxes.step, hb]
        · have : a ∈ s.base.stopped := by
            simp only [Inboxes.step, Peers.step] at ha
            exact (List.mem_cons.mp ha).resolve_left hb
          simpa [Inboxes.step, hb] using hs this
      | task n =>
        have : a ∈ s.base.stopped := by
          simp only [Inboxes.step, Peers.step] at ha
          split at ha <;> exact ha
        simpa [Inboxes.step, this] using hs this
      | _ =>
        have : a ∈ s.base.stopped := by
          simp only [Inboxes.step, Peers.step] at ha
          (repeat' split at ha) <;> first | exact ha | simpa [Peers.setLinks] using ha
        exact hs this
    | died b x =>
      simp only [Inboxes.step] at ha ⊢
      split at ha
      · rename_i hh
        have hb : a ≠ b := by rintro rfl; exact hh.2 ha
        rw [if_pos hh]
        simpa [hb] using hs ha
      · rename_i hh
        rw [if_neg hh]
        exact hs ha
    | take b =>
      have : a ∈ s.base.stopped := by
        simp only [Inboxes.step] at ha
        split at ha <;> exact ha
      have h1 := hs this
      simp only [Inboxes.step]
      split
      · rename_i y rest hh hi
        have hb : a ≠ b := by rintro rfl; rw [h1.1] at hi; cases hi
        simpa [hb] using h1
      · exact h1
    | hookEnd b =>
      have : a ∈ s.base.stopped := by
        simp only [Inboxes.step] at ha
        split at ha
        · exact ha
        · simpa [Peers.step, Peers.setLinks] using ha
      have h1 := hs this
      simp only [Inboxes.step]
      split
      · exact h1
      · refine ⟨h1.1, ?_⟩
        simp only
        split
        · rfl
        · exact h1.2
  have all : ∀ (ops : List (IOp P)) (s : Inboxes P), (a ∈ s.base.stopped → s.inbox a = [] ∧ s.hook a = none) →
      (a ∈ (ops.foldl Inboxes.step s).base.stopped →
        (ops.foldl Inboxes.step s).inbox a = [] ∧ (ops.foldl Inboxes.step s).hook a = none) := by
    intro ops
    induction ops with
    | nil => exact fun _ h => h
    | cons op rest ih => exact fun s h => ih _ (key s h op)
  exact all ops _ (by simp) h

/-- Actor 0 is registered and hears of the death of actor 9 of peer 2; once it has ended it hears nothing. -/
example : 0 ∈ (Inboxes.run 1 lostDemo).base.registry ∧ 0 ∉ (Inboxes.run 1 lostDemo).base.stopped ∧
    (Inboxes.run 1 (lostDemo ++ .died 0 ⟨9, .peerId 2⟩ :: [.node (.connected 2)])).inbox 0 = [⟨9, .peerId 2⟩] ∧
    (Inboxes.run 1 (lostDemo ++ .died 0 ⟨9, .peerId 2⟩ :: [.hookEnd 0, .take 0])).hook 0 = some ⟨9, .peerId 2⟩ ∧
    0 ∈ (Inboxes.run 1 (lostDemo ++ [.node (.stop 0), .died 0 ⟨9, .peerId 2⟩])).base.stopped ∧
    (Inboxes.run 1 (lostDemo ++ [.node (.stop 0), .died 0 ⟨9, .peerId 2⟩])).inbox 0 = [] := by decide

end Verif.Swarm
