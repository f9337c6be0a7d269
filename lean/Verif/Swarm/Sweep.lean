import Verif.Swarm.PropsPeers

/-!
# The task for a closed connection, step by step: C51

`Verif/Swarm/Peers.lean` lets the task that tells the actors of a lost connection read the registry and all links at one
moment. Here it goes through them as the code does (`src/remote/swarm.rs` L791-818): it holds the lock of the registry for
the whole loop, takes the lock of each actor's links in turn, and sends the signals after the loop, in any order, each when
there is room in that actor's mailbox. In between, links are made and removed, actors end, other connections close.
-/

namespace Verif.Swarm.Sweep

open Verif.ActorId

variable {P : Type}

/-- A task in the loop of `src/remote/swarm.rs` L794-814: for which peer, the actors still to come (in the order of the map),
those it has been to, and the signals to be sent (`futures`, L804). -/
structure Pass (P : Type) where
  peer : P
  todo : List Nat
  past : List Nat := []
  found : List (Nat × ActorID P) := []

/-- The node, as in `Peers`, `Verif/Swarm/Peers.lean`. `tasks`: spawned and waiting for the lock of the registry
(`src/remote/swarm.rs` L792, L798). `pass`: the one that has it. `sending`: signals whose futures are being polled (L816).
`signals`: those that got into a mailbox. `ended`: actors whose mailbox is closed. `closures`, `begun`: history only, the
peers of the closed connections and of the tasks that got the lock. -/
structure Node (P : Type) where
  own : P
  registry : List Nat := []
  links : Nat → List (ActorID P) := fun _ => []
  ended : List Nat := []
  tasks : List P := []
  pass : Option (Pass P) := none
  sending : List (P × Nat × ActorID P) := []
  signals : List (P × Nat × ActorID P) := []
  closures : List P := []
  begun : List P := []

/-- What can happen. `closed`: `src/remote/swarm.rs` L791-792. `lock n order`: task `n` gets the lock; `order`, the order of the
map's values. `visit`: the lock of the next actor's links (L800). `unlock`: the loop is over (L814). `send n`: the `n`-th signal
being sent gets into its mailbox, or its actor is gone (L806-812, L816). `register`: `src/remote/swarm.rs` L376,
`src/actor/actor_ref.rs` L601. `insert`: `src/actor/actor_ref.rs` L521-525, L610, `src/remote/_internal.rs` L244-248. `remove`:
`src/actor/actor_ref.rs` L644-645, L720, `src/remote/_internal.rs` L271, `src/actor/kind.rs` L140. `finish`: the actor
closes its mailbox and takes out its links, `src/actor/spawn.rs` L515-521. `leave`: L567. -/
inductive NOp (P : Type) where
  | closed (p : P)
  | lock (n : Nat) (order : List Nat)
  | visit
  | unlock
  | send (n : Nat)
  | register (a : Nat)
  | insert (a : Nat) (id : ActorID P)
  | remove (a : Nat) (id : ActorID P)
  | finish (a : Nat)
  | leave (a : Nat)

/-- The links of `a` replaced, `src/actor/actor_ref.rs` L610. -/
def Node.setLinks (s : Node P) (a : Nat) (l : List (ActorID P)) : Node P :=
  { s with links := fun b => if b = a then l else s.links b }

/-- The links that name actors of `p`, `src/remote/swarm.rs` L800-801. -/
def Node.of [DecidableEq P] (s : Node P) (p : P) (a : Nat) : List (ActorID P) :=
  (s.links a).filter (fun id => id.peer.get (some s.own) = some p)

/-- One step; for the lines see `NOp`. What takes the lock of the registry does not happen while a task holds it. -/
def Node.step [DecidableEq P] (s : Node P) : NOp P → Node P
  | .closed p => { s with tasks := s.tasks ++ [p], closures := s.closures ++ [p] }
  | .lock n order =>
    match s.pass, s.tasks[n]? with
    | none, some p =>
      if order.isPerm s.registry then
        { s with tasks := s.tasks.eraseIdx n, pass := some { peer := p, todo := order }, begun := s.begun ++ [p] }
      else s
    | _, _ => s
  | .visit =>
    match s.pass with
    | some ⟨p, a :: rest, past, found⟩ =>
      { s with pass := some ⟨p, rest, past ++ [a], found ++ (s.of p a).map (fun id => (a, id))⟩ }
    | _ => s
  | .unlock =>
    match s.pass with
    | some ⟨p, [], _, found⟩ => { s with pass := none, sending := s.sending ++ found.map (fun x => (p, x.1, x.2)) }
    | _ => s
  | .send n =>
    match s.sending[n]? with
    | none => s
    | some x => { s with
      sending := s.sending.eraseIdx n
      signals := if x.2.1 ∈ s.ended then s.signals else s.signals ++ [x] }
  | .register a => if s.pass.isNone then { s with registry := addActor s.registry a } else s
  | .insert a id => s.setLinks a (addLink s.own (s.links a) id)
  | .remove a id => s.setLinks a ((s.links a).filter (fun x => !ActorId.eq (some s.own) x id))
  | .finish a => { s with ended := a :: s.ended }.setLinks a []
  | .leave a => if s.pass.isNone then { s with registry := s.registry.filter (· != a) } else s

/-- A history of the node with peer id `own`, `src/remote/swarm.rs` L140-166. -/
def Node.run [DecidableEq P] (own : P) (ops : List (NOp P)) : Node P := ops.foldl Node.step { own := own }

variable [DecidableEq P]

/-! ## Invariant -/

structure NInv (own : P) (s : Node P) : Prop where
  ownEq : s.own = own
  reg : s.registry.Nodup
  nodup : ∀ a, (s.links a).Pairwise (fun x y => ActorId.eq (some own) x y = false)
  /-- the actors gone through and to come are those of the registry -/
  all : ∀ w, s.pass = some w → (w.past ++ w.todo).Perm s.registry
  once : ∀ w, s.pass = some w → w.found.Nodup ∧ ∀ x ∈ w.found, x.1 ∈ w.past ∧ x.2.peer.get (some own) = some w.peer

theorem remove_pairwise {own : P} {l : List (ActorID P)} (f : ActorID P → Bool)
    (h : l.Pairwise (fun x y => ActorId.eq (some own) x y = false)) :
    (l.filter f).Pairwise (fun x y => ActorId.eq (some own) x y = false) := h.filter f

theorem ninv_step {own : P} {s : Node P} (h : NInv own s) (op : NOp P) : NInv own (s.step op) := by
  obtain ⟨h1, h2, h3, h4, h5⟩ := h
  have hlinks : ∀ a l, l.Pairwise (fun x y => ActorId.eq (some own) x y = false) →
      ∀ b, (if b = a then l else s.links b).Pairwise (fun x y => ActorId.eq (some own) x y = false) := by
    intro a l hl b
    split
    · exact hl
    · exact h3 b
  cases op with
  | closed p => exact ⟨h1, h2, h3, h4, h5⟩
  | lock n order =>
    simp only [Node.step]
    split
    · split
      · rename_i hperm
        refine ⟨h1, h2, h3, ?_, ?_⟩
        · intro w hw
          simp only [Option.some.injEq] at hw
          subst hw
          simpa using List.isPerm_iff.mp hperm
        · intro w hw
          simp only [Option.some.injEq] at hw
          subst hw
          simp
      · exact ⟨h1, h2, h3, h4, h5⟩
    · exact ⟨h1, h2, h3, h4, h5⟩
  | visit =>
    simp only [Node.step]
    split
    · rename_i p a rest past found hp
      obtain ⟨hn, hin⟩ := h5 _ hp
      have hall := h4 _ hp
      simp only at hn hin hall
      refine ⟨h1, h2, h3, ?_, ?_⟩
      · intro w hw
        simp only [Option.some.injEq] at hw
        subst hw
        simpa using hall
      · intro w hw
        simp only [Option.some.injEq] at hw
        subst hw
        have hnd : (past ++ a :: rest).Nodup := hall.nodup_iff.mpr h2
        refine ⟨?_, ?_⟩
        · rw [List.nodup_append]
          refine ⟨hn, ?_, ?_⟩
          · refine List.Pairwise.map _ ?_ ((nodup_of_pairwise (h3 a)).filter _)
            intro x y hxy he
            exact hxy (by simpa using he)
          · intro x hx y hy hxy
            subst hxy
            simp only [List.mem_map] at hy
            obtain ⟨id, -, rfl⟩ := hy
            have := (hin _ hx).1
            have := (List.nodup_append.mp hnd).2.2 a this a List.mem_cons_self
            exact this rfl
        · intro x hx
          simp only [List.mem_append, List.mem_map] at hx ⊢
          rcases hx with hx | ⟨id, hid, rfl⟩
          · exact ⟨.inl (hin x hx).1, (hin x hx).2⟩
          · refine ⟨.inr (by simp), ?_⟩
            have := (List.mem_filter.mp hid).2
            rw [h1] at this
            simpa using this
    · exact ⟨h1, h2, h3, h4, h5⟩
  | unlock =>
    simp only [Node.step]
    split
    · exact ⟨h1, h2, h3, by simp, by simp⟩
    · exact ⟨h1, h2, h3, h4, h5⟩
  | send n => simp only [Node.step]; split <;> exact ⟨h1, h2, h3, h4, h5⟩
  | register a =>
    simp only [Node.step]
    split
    · rename_i hp
      have hp : s.pass = none := by simpa using hp
      exact ⟨h1, addActor_nodup h2, h3, by simp [hp], by simp [hp]⟩
    · exact ⟨h1, h2, h3, h4, h5⟩
  | insert a id =>
    exact ⟨h1, h2, hlinks a _ (by rw [h1]; exact addLink_pairwise own _ id (h3 a)), h4, h5⟩
  | remove a id => exact ⟨h1, h2, hlinks a _ ((h3 a).filter _), h4, h5⟩
  | finish a => exact ⟨h1, h2, hlinks a _ List.Pairwise.nil, h4, h5⟩
  | leave a =>
    simp only [Node.step]
    split
    · rename_i hp
      have hp : s.pass = none := by simpa using hp
      exact ⟨h1, h2.filter _, h3, by simp [hp], by simp [hp]⟩
    · exact ⟨h1, h2, h3, h4, h5⟩

theorem ninv_fold {own : P} (ops : List (NOp P)) : ∀ s : Node P, NInv own s → NInv own (ops.foldl Node.step s) := by
  induction ops with
  | nil => exact fun s h => h
  | cons op ops ih => exact fun s h => ih _ (ninv_step h op)

theorem ninv_run (own : P) (ops : List (NOp P)) : NInv own (Node.run own ops) :=
  ninv_fold ops _ ⟨rfl, List.nodup_nil, fun _ => List.Pairwise.nil, by simp, by simp⟩

theorem nrun_append (own : P) (ops more : List (NOp P)) :
    Node.run own (ops ++ more) = more.foldl Node.step (Node.run own ops) := by simp [Node.run]

/-! ## What one task finds -/

/-- The signals task number `n`'s pass leads to when it goes through the registry in the given order while `mid` happens. -/
theorem pass_kept {s : Node P} {w : Pass P} (hw : s.pass = some w) {op : NOp P} (hop : op ≠ .unlock) :
    ∃ w', (s.step op).pass = some w' ∧ w'.peer = w.peer ∧ (s.step op).registry = s.registry ∧
      (s.step op).sending = (match op with | .send n => s.sending.eraseIdx n | _ => s.sending) ∧
      (w' = w ∨ ∃ a rest, op = .visit ∧ w.todo = a :: rest ∧ w'.todo = rest ∧ w'.past = w.past ++ [a] ∧
        w'.found = w.found ++ (s.of w.peer a).map (fun id => (a, id))) := by
  cases op with
  | visit =>
    obtain ⟨p, todo, past, found⟩ := w
    cases todo with
    | nil => exact ⟨_, by simp only [Node.step, hw], rfl, by simp only [Node.step, hw], by simp only [Node.step, hw], .inl rfl⟩
    | cons a rest =>
      refine ⟨⟨p, rest, past ++ [a], found ++ (s.of p a).map (fun id => (a, id))⟩, ?_, rfl, ?_, ?_,
        .inr ⟨a, rest, rfl, rfl, rfl, rfl, rfl⟩⟩ <;> simp only [Node.step, hw]
  | unlock => exact absurd rfl hop
  | lock n order => exact ⟨w, by simp only [Node.step, hw], rfl, by simp only [Node.step, hw], by simp only [Node.step, hw], .inl rfl⟩
  | closed p => exact ⟨w, hw, rfl, rfl, rfl, .inl rfl⟩
  | send n =>
    refine ⟨w, ?_, rfl, ?_, ?_, .inl rfl⟩
    · simp only [Node.step]; split <;> exact hw
    · simp only [Node.step]; split <;> rfl
    · simp only [Node.step]
      split
      · rename_i hn
        exact (List.eraseIdx_of_length_le (List.getElem?_eq_none_iff.mp hn)).symm
      · rfl
  | register a => exact ⟨w, by simp [Node.step, hw], rfl, by simp [Node.step, hw], by simp [Node.step, hw], .inl rfl⟩
  | insert a id => exact ⟨w, hw, rfl, rfl, rfl, .inl rfl⟩
  | remove a id => exact ⟨w, hw, rfl, rfl, rfl, .inl rfl⟩
  | finish a => exact ⟨w, hw, rfl, rfl, rfl, .inl rfl⟩
  | leave a => exact ⟨w, by simp [Node.step, hw], rfl, by simp [Node.step, hw], by simp [Node.step, hw], .inl rfl⟩

theorem snoc_ind {α : Type} {motive : List α → Prop} (nil : motive [])
    (snoc : ∀ l a, motive l → motive (l ++ [a])) (l : List α) : motive l := by
  suffices ∀ n (l : List α), l.length = n → motive l from this _ l rfl
  intro n
  induction n with
  | zero => intro l hl; rw [List.length_eq_zero_iff.mp hl]; exact nil
  | succ n ih =>
    intro l hl
    have hne : l ≠ [] := by intro h; subst h; simp at hl
    rw [← List.dropLast_concat_getLast hne]
    exact snoc _ _ (ih _ (by simp [hl]))

theorem fold_snoc (mid : List (NOp P)) (op : NOp P) (s : Node P) :
    (mid ++ [op]).foldl Node.step s = (mid.foldl Node.step s).step op := by simp

/-- What a pass has found after `mid`. -/
theorem pass_finds {own p : P} {s : Node P} (hs : NInv own s) {order : List Nat}
    (hpass : s.pass = some { peer := p, todo := order }) (mid : List (NOp P)) (hmid : ∀ op ∈ mid, op ≠ .unlock) :
    ∃ w, (mid.foldl Node.step s).pass = some w ∧ w.peer = p ∧ (mid.foldl Node.step s).registry = s.registry ∧
      (∀ a ∈ w.past, ∀ id, id.peer.get (some own) = some p →
        (∀ pre, pre <+: mid → id ∈ (pre.foldl Node.step s).links a) → (a, id) ∈ w.found) ∧
      (∀ x ∈ w.found, ∃ pre, pre <+: mid ∧ x.2 ∈ (pre.foldl Node.step s).links x.1) := by
  induction mid using snoc_ind with
  | nil => exact ⟨_, hpass, rfl, rfl, by simp, by simp⟩
  | snoc mid op ih =>
    obtain ⟨w, h1, h2, h3, h4, h5⟩ := ih (fun o ho => hmid o (List.mem_append_left _ ho))
    obtain ⟨w', k1, k2, k3, -, k5⟩ := pass_kept h1 (hmid op (by simp))
    rw [fold_snoc]
    have hown := (ninv_fold mid s hs).ownEq
    refine ⟨w', k1, k2.trans h2, k3.trans h3, ?_, ?_⟩
    · intro a ha id hid hpre
      have hold : a ∈ w.past → (a, id) ∈ w.found := fun hp =>
        h4 a hp id hid (fun pre hp' => hpre pre (hp'.trans (List.prefix_append _ _)))
      rcases k5 with rfl | ⟨b, rest, -, -, -, hpast, hfound⟩
      · exact hold ha
      · rw [hpast] at ha
        rw [hfound, List.mem_append]
        rcases List.mem_append.mp ha with ha | ha
        · exact .inl (hold ha)
        · simp only [List.mem_singleton] at ha
          subst ha
          refine .inr (List.mem_map.mpr ⟨id, List.mem_filter.mpr ⟨hpre mid (List.prefix_append _ _), ?_⟩, rfl⟩)
          rw [hown, h2]
          simpa using hid
    · intro x hx
      have hold : x ∈ w.found → ∃ pre, pre <+: mid ++ [op] ∧ x.2 ∈ (pre.foldl Node.step s).links x.1 := fun h =>
        let ⟨pre, hp, hl⟩ := h5 x h
        ⟨pre, hp.trans (List.prefix_append _ _), hl⟩
      rcases k5 with rfl | ⟨b, rest, -, -, -, -, hfound⟩
      · exact hold hx
      · rw [hfound, List.mem_append] at hx
        rcases hx with hx | hx
        · exact hold hx
        · obtain ⟨id, hid, rfl⟩ := List.mem_map.mp hx
          exact ⟨mid, List.prefix_append _ _, (List.mem_filter.mp hid).1⟩

omit [DecidableEq P] in
theorem nodup_tag {p : P} {l : List (Nat × ActorID P)} (h : l.Nodup) : (l.map (fun x => (p, x.1, x.2))).Nodup := by
  refine List.Pairwise.map _ ?_ h
  intro x y hxy he
  obtain ⟨x1, x2⟩ := x
  obtain ⟨y1, y2⟩ := y
  simp only [Prod.mk.injEq, true_and] at he
  exact hxy (by rw [he.1, he.2])

theorem unlock_early {s : Node P} {p : P} {a : Nat} {rest past : List Nat} {found : List (Nat × ActorID P)}
    (h : s.pass = some ⟨p, a :: rest, past, found⟩) : s.step .unlock = s := by simp only [Node.step, h]

theorem unlock_done {s : Node P} {p : P} {past : List Nat} {found : List (Nat × ActorID P)}
    (h : s.pass = some ⟨p, [], past, found⟩) :
    s.step .unlock = { s with pass := none, sending := s.sending ++ found.map (fun x => (p, x.1, x.2)) } := by
  simp only [Node.step, h]

/-- **C51** (step by step). The connection to `p` has closed and its task goes through the registry, in any order, while
anything else happens (`mid`). The signals it then sends: no two alike; one for each actor that was registered when it began
and each link of it to an actor of `p` that was there all the while; and none for a link that was there at no moment of it,
or to an actor of another peer, or of an actor that was not registered. -/
theorem pass_tells (own p : P) (ops mid : List (NOp P)) (n : Nat) (order : List Nat)
    (hfree : (Node.run own ops).pass = none) (ht : (Node.run own ops).tasks[n]? = some p)
    (horder : order.Perm (Node.run own ops).registry) (hmid : ∀ op ∈ mid, op ≠ .unlock)
    (hend : (Node.run own (ops ++ .lock n order :: mid ++ [.unlock])).pass = none) :
    ∃ new, (Node.run own (ops ++ .lock n order :: mid ++ [.unlock])).sending =
        (Node.run own (ops ++ .lock n order :: mid)).sending ++ new ∧ new.Nodup ∧
      (∀ a ∈ (Node.run own ops).registry, ∀ id, id.peer.get (some own) = some p →
        (∀ pre, pre <+: mid → id ∈ (Node.run own (ops ++ .lock n order :: pre)).links a) → (p, a, id) ∈ new) ∧
      (∀ q a id, (q, a, id) ∈ new → q = p ∧ a ∈ (Node.run own ops).registry ∧ id.peer.get (some own) = some p ∧
        ∃ pre, pre <+: mid ∧ id ∈ (Node.run own (ops ++ .lock n order :: pre)).links a) := by
  have hs := ninv_run own ops
  have e : ∀ l, Node.run own (ops ++ .lock n order :: l) = l.foldl Node.step ((Node.run own ops).step (.lock n order)) := by
    intro l; simp [Node.run]
  have hstep : (Node.run own ops).step (.lock n order) = { Node.run own ops with
      tasks := (Node.run own ops).tasks.eraseIdx n, pass := some { peer := p, todo := order },
      begun := (Node.run own ops).begun ++ [p] } := by
    simp only [Node.step, hfree, ht, List.isPerm_iff.mpr horder, if_true]
  have hs1 := ninv_step hs (.lock n order)
  have hp1 : ((Node.run own ops).step (.lock n order)).pass = some { peer := p, todo := order } := by rw [hstep]
  have hr1 : ((Node.run own ops).step (.lock n order)).registry = (Node.run own ops).registry := by rw [hstep]
  obtain ⟨w, h1, h2, h3, h4, h5⟩ := pass_finds hs1 hp1 mid hmid
  have hs2 := ninv_fold mid _ hs1
  rw [List.append_assoc, List.cons_append, e, fold_snoc] at hend ⊢
  obtain ⟨wp, todo, past, found⟩ := w
  simp only at h2
  subst h2
  cases todo with
  | cons a rest => rw [unlock_early h1, h1] at hend; simp at hend
  | nil =>
    have hall := hs2.all _ h1
    obtain ⟨hn, hin⟩ := hs2.once _ h1
    simp only [List.append_nil] at hall
    simp only at hn hin h4 h5
    refine ⟨found.map (fun x => (wp, x.1, x.2)), ?_, nodup_tag hn, ?_, ?_⟩
    · rw [e, unlock_done h1]
    · intro a ha id hid hpre
      refine List.mem_map.mpr ⟨(a, id), h4 a ?_ id hid ?_, rfl⟩
      · exact hall.mem_iff.mpr (by rw [h3, hr1]; exact ha)
      · intro pre hp; have := hpre pre hp; rw [e] at this; exact this
    · intro q a id hm
      obtain ⟨x, hx, he⟩ := List.mem_map.mp hm
      simp only [Prod.mk.injEq] at he
      obtain ⟨rfl, rfl, rfl⟩ := he
      obtain ⟨hpast, hpeer⟩ := hin x hx
      refine ⟨rfl, ?_, hpeer, ?_⟩
      · have := hall.mem_iff.mp hpast
        rw [h3, hr1] at this
        exact this
      · obtain ⟨pre, hp, hl⟩ := h5 x hx
        exact ⟨pre, hp, by rw [e]; exact hl⟩

/-! ## It ends -/

theorem visits (l : List Nat) : ∀ {p : P} {past : List Nat} {found : List (Nat × ActorID P)} {s : Node P},
    s.pass = some ⟨p, l, past, found⟩ → (List.replicate l.length NOp.visit).foldl Node.step s =
      { s with pass := some ⟨p, [], past ++ l, found ++ l.flatMap (fun a => (s.of p a).map (fun id => (a, id)))⟩ } := by
  induction l with
  | nil =>
    intro p past found s h
    simp only [List.length_nil, List.replicate_zero, List.foldl_nil, List.append_nil, List.flatMap_nil]
    rw [← h]
  | cons a l ih =>
    intro p past found s h
    have hstep : s.step .visit = { s with pass := some ⟨p, l, past ++ [a], found ++ (s.of p a).map (fun id => (a, id))⟩ } := by
      simp only [Node.step, h]
    simp only [List.length_cons, List.replicate_succ, List.foldl_cons]
    rw [hstep, ih rfl]
    simp [List.flatMap_cons, Node.of]

/-- What `Verif/Swarm/Peers.lean` would see of the node (`src/remote/swarm.rs` L791-818). -/
def Node.atOnce (s : Node P) : Peers P := { own := s.own, registry := s.registry, links := s.links }

theorem flatMap_perm {α β : Type} (f : α → List β) {l r : List α} (h : l.Perm r) : (l.flatMap f).Perm (r.flatMap f) := by
  induction h with
  | nil => exact .refl _
  | cons a _ ih => simp only [List.flatMap_cons]; exact (List.Perm.refl _).append ih
  | swap a b l =>
    simp only [List.flatMap_cons, ← List.append_assoc]
    exact List.perm_append_comm.append (.refl _)
  | trans _ _ ih1 ih2 => exact ih1.trans ih2

/-- **C51** (a task gets through). A task that has the lock of the registry gives it back after it has been to each actor,
however many there are; if nothing else happens meanwhile the signals it sends are those that `Peers.closedSignals` gives,
which reads everything at one moment. -/
theorem pass_ends (own p : P) (ops : List (NOp P)) (n : Nat) (order : List Nat)
    (hfree : (Node.run own ops).pass = none) (ht : (Node.run own ops).tasks[n]? = some p)
    (horder : order.Perm (Node.run own ops).registry) :
    (Node.run own (ops ++ .lock n order :: List.replicate order.length .visit ++ [.unlock])).pass = none ∧
    ∃ new, (Node.run own (ops ++ .lock n order :: List.replicate order.length .visit ++ [.unlock])).sending =
        (Node.run own ops).sending ++ new ∧ new.Perm ((Node.run own ops).atOnce.closedSignals p) := by
  have e : Node.run own (ops ++ .lock n order :: List.replicate order.length .visit ++ [.unlock]) =
      ((List.replicate order.length NOp.visit).foldl Node.step ((Node.run own ops).step (.lock n order))).step .unlock := by
    simp [Node.run]
  have hstep : (Node.run own ops).step (.lock n order) = { Node.run own ops with
      tasks := (Node.run own ops).tasks.eraseIdx n, pass := some { peer := p, todo := order },
      begun := (Node.run own ops).begun ++ [p] } := by
    simp only [Node.step, hfree, ht, List.isPerm_iff.mpr horder, if_true]
  rw [e, visits order (s := (Node.run own ops).step (.lock n order)) (by rw [hstep])]
  rw [unlock_done rfl]
  refine ⟨rfl, _, by rw [hstep], ?_⟩
  rw [List.nil_append, List.map_flatMap]
  refine List.Perm.trans (flatMap_perm _ horder) ?_
  rw [Peers.closedSignals]
  simp only [List.map_map, Node.of]
  exact .refl _

/-! ## Counting -/

theorem count_tag {p q : P} {l : List (Nat × ActorID P)} {a : Nat} {id : ActorID P} :
    (l.map (fun x => (p, x.1, x.2))).count (q, a, id) = if p = q then l.count (a, id) else 0 := by
  induction l with
  | nil => simp
  | cons x l ih =>
    obtain ⟨b, y⟩ := x
    simp only [List.map_cons, List.count_cons, ih]
    by_cases h : p = q
    · subst h; simp
    · simp [h]

theorem count_erase {α : Type} [BEq α] [LawfulBEq α] (x : α) : ∀ (l : List α) (n : Nat) (y : α), l[n]? = some y →
    l.count x = (l.eraseIdx n).count x + if y == x then 1 else 0
  | [], n, y, h => by simp at h
  | z :: l, 0, y, h => by
    simp only [List.getElem?_cons_zero, Option.some.injEq] at h
    subst h
    simp [List.count_cons]
  | z :: l, n + 1, y, h => by
    have := count_erase x l n y (by simpa using h)
    simp only [List.eraseIdx_cons_succ, List.count_cons]
    omega

theorem begun_of_closures (own : P) (ops : List (NOp P)) (p : P) :
    (Node.run own ops).begun.count p + (Node.run own ops).tasks.count p = (Node.run own ops).closures.count p := by
  induction ops using snoc_ind with
  | nil => simp [Node.run]
  | snoc l op ih =>
    rw [nrun_append]
    simp only [List.foldl_cons, List.foldl_nil]
    generalize Node.run own l = s at ih
    cases op with
    | closed q => simp only [Node.step, List.count_append]; omega
    | lock n order =>
      simp only [Node.step]
      split
      · rename_i q _ hq
        split
        · have := count_erase p s.tasks n q hq
          simp only [List.count_append, List.count_singleton]
          omega
        · exact ih
      · exact ih
    | visit => simp only [Node.step]; split <;> exact ih
    | unlock => simp only [Node.step]; split <;> exact ih
    | send n => simp only [Node.step]; split <;> exact ih
    | register a => simp only [Node.step]; split <;> exact ih
    | leave a => simp only [Node.step]; split <;> exact ih
    | _ => exact ih

/-- A signal about a link is found, being sent, or sent, at most once for each task that has begun. -/
theorem signals_le_begun (own : P) (ops : List (NOp P)) (p : P) (a : Nat) (id : ActorID P) :
    (Node.run own ops).signals.count (p, a, id) + (Node.run own ops).sending.count (p, a, id) +
      (match (Node.run own ops).pass with | some w => if w.peer = p then 1 else 0 | none => 0) ≤
        (Node.run own ops).begun.count p := by
  induction ops using snoc_ind with
  | nil => simp [Node.run]
  | snoc l op ih =>
    have hinv := ninv_run own l
    rw [nrun_append]
    simp only [List.foldl_cons, List.foldl_nil]
    generalize Node.run own l = s at ih hinv
    cases op with
    | closed q => exact ih
    | lock n order =>
      simp only [Node.step]
      split
      · rename_i q hp hq
        rw [hp] at ih
        split
        · simp only [List.count_append, List.count_singleton, beq_iff_eq]
          simp only at ih
          omega
        · simp only [hp]; exact ih
      · exact ih
    | visit =>
      simp only [Node.step]
      split
      · rename_i hp
        rw [hp] at ih
        exact ih
      · exact ih
    | unlock =>
      simp only [Node.step]
      split
      · rename_i q past found hp
        have hn := (hinv.once _ hp).1
        rw [hp] at ih
        have h1 : found.count (a, id) ≤ 1 := List.nodup_iff_count.mp hn _
        simp only [List.count_append, count_tag]
        simp only at ih
        split at ih <;> simp_all <;> omega
      · exact ih
    | send n =>
      simp only [Node.step]
      split
      · exact ih
      · rename_i x hx
        have := count_erase (p, a, id) s.sending n x hx
        simp only
        refine Nat.le_trans ?_ ih
        split
        · omega
        · simp only [List.count_append, List.count_singleton]
          omega
    | register b => simp only [Node.step]; split <;> exact ih
    | leave b => simp only [Node.step]; split <;> exact ih
    | _ => exact ih

/-- **C51** (step by step, no more than one each). However the tasks, the sends and everything else interleave, an actor gets
at most one signal about a link for each closed connection to that peer. -/
theorem signals_bounded_stepwise (own : P) (ops : List (NOp P)) (p : P) (a : Nat) (id : ActorID P) :
    (Node.run own ops).signals.count (p, a, id) ≤ (Node.run own ops).closures.count p := by
  have h1 := signals_le_begun own ops p a id
  have h2 := begun_of_closures own ops p
  omega

/-- The step removes the link of `a` to `id`, or ends `a`. (Specification.) -/
def NOp.drops (own : P) (a : Nat) (id : ActorID P) : NOp P → Prop
  | .remove b x => b = a ∧ ActorId.eq (some own) id x = true
  | .finish b => b = a
  | .leave b => b = a
  | _ => False

theorem link_stays {own : P} {s : Node P} (hs : NInv own s) {a : Nat} {id : ActorID P} (hl : id ∈ s.links a)
    (hr : a ∈ s.registry) (he : a ∉ s.ended) {op : NOp P} (hd : ¬ op.drops own a id) :
    id ∈ (s.step op).links a ∧ a ∈ (s.step op).registry ∧ a ∉ (s.step op).ended := by
  cases op with
  | lock n order => simp only [Node.step]; repeat' split
                    all_goals exact ⟨hl, hr, he⟩
  | visit => simp only [Node.step]; split <;> exact ⟨hl, hr, he⟩
  | unlock => simp only [Node.step]; split <;> exact ⟨hl, hr, he⟩
  | send n => simp only [Node.step]; split <;> exact ⟨hl, hr, he⟩
  | register b =>
    simp only [Node.step]
    split
    · exact ⟨hl, mem_addActor.mpr (.inl hr), he⟩
    · exact ⟨hl, hr, he⟩
  | insert b x =>
    refine ⟨?_, hr, he⟩
    simp only [Node.step, Node.setLinks]
    split
    · rename_i h
      subst h
      unfold addLink
      split
      · exact hl
      · exact List.mem_append_left _ hl
    · exact hl
  | remove b x =>
    refine ⟨?_, hr, he⟩
    simp only [Node.step, Node.setLinks]
    split
    · rename_i h
      subst h
      refine List.mem_filter.mpr ⟨hl, ?_⟩
      rw [hs.ownEq]
      cases hx : ActorId.eq (some own) id x with
      | false => rfl
      | true => exact absurd ⟨rfl, hx⟩ hd
    · exact hl
  | finish b =>
    have hb : a ≠ b := fun e => hd e.symm
    refine ⟨?_, hr, ?_⟩
    · simp only [Node.step, Node.setLinks, if_neg hb]; exact hl
    · simp only [Node.step, Node.setLinks, List.mem_cons, not_or]; exact ⟨hb, he⟩
  | leave b =>
    have hb : a ≠ b := fun e => hd e.symm
    simp only [Node.step]
    split
    · exact ⟨hl, List.mem_filter.mpr ⟨hr, by simpa using hb⟩, he⟩
    · exact ⟨hl, hr, he⟩
  | closed p => exact ⟨hl, hr, he⟩

/-- Where the news of a link is: got, being sent, found by the pass under way, or still to be found by it. -/
def Node.tally (s : Node P) (p : P) (a : Nat) (id : ActorID P) : Nat :=
  s.signals.count (p, a, id) + s.sending.count (p, a, id) +
    match s.pass with
    | some w => if w.peer = p then w.found.count (a, id) + (if a ∈ w.todo then 1 else 0) else 0
    | none => 0

theorem tally_step {own p : P} {s : Node P} (hs : NInv own s) {a : Nat} {id : ActorID P}
    (hip : id.peer.get (some own) = some p) (hl : id ∈ s.links a) (hr : a ∈ s.registry) (he : a ∉ s.ended) (op : NOp P) :
    (s.step op).tally p a id + s.begun.count p = s.tally p a id + (s.step op).begun.count p := by
  unfold Node.tally
  cases op with
  | lock n order =>
    simp only [Node.step]
    split
    · rename_i q hp hq
      split
      · rename_i hperm
        have ha : a ∈ order := (List.isPerm_iff.mp hperm).mem_iff.mpr hr
        simp only [hp, List.count_append, List.count_singleton, beq_iff_eq, List.count_nil, ha, if_true, Nat.zero_add]
        omega
      · simp only [hp]
    · rfl
  | visit =>
    simp only [Node.step]
    split
    · rename_i q b rest past found hp
      have hall := hs.all _ hp
      have hnd : (past ++ b :: rest).Nodup := hall.nodup_iff.mpr hs.reg
      have hb : b ∉ rest := (List.nodup_cons.mp (List.nodup_append.mp hnd).2.1).1
      simp only [hp]
      by_cases hq : q = p
      · subst hq
        simp only [if_true, List.count_append]
        have hc : ((s.of q b).map (fun id => (b, id))).count (a, id) = if b = a then 1 else 0 := by
          have hn : ((s.of q b).map (fun id => (b, id))).Nodup := by
            refine List.Pairwise.map _ ?_ ((nodup_of_pairwise (hs.nodup b)).filter _)
            intro x y hxy he'
            exact hxy (by simpa using he')
          rw [hn.count]
          by_cases hba : b = a
          · subst hba
            rw [if_pos rfl, if_pos]
            refine List.mem_map.mpr ⟨id, List.mem_filter.mpr ⟨hl, ?_⟩, rfl⟩
            rw [hs.ownEq]; simpa using hip
          · rw [if_neg hba, if_neg]
            intro hm
            obtain ⟨x, -, hx⟩ := List.mem_map.mp hm
            exact hba (Prod.mk.inj hx).1
        rw [hc]
        by_cases hba : b = a
        · subst hba
          simp only [if_true, List.mem_cons, true_or, if_neg hb]
        · have : a ≠ b := Ne.symm hba
          simp only [if_neg hba, List.mem_cons, this, false_or]
          omega
      · simp only [if_neg hq]
    · rfl
  | unlock =>
    simp only [Node.step]
    split
    · rename_i q past found hp
      simp only [hp, List.count_append, count_tag, List.not_mem_nil, if_false, Nat.add_zero]
      omega
    · rfl
  | send n =>
    simp only [Node.step]
    split
    · rfl
    · rename_i x hx
      have := count_erase (p, a, id) s.sending n x hx
      simp only
      split
      · rename_i hend
        have hne : x ≠ (p, a, id) := by rintro rfl; exact he hend
        rw [if_neg (by simpa using hne)] at this
        omega
      · simp only [List.count_append, List.count_singleton]
        omega
  | register b => simp only [Node.step]; split <;> rfl
  | leave b => simp only [Node.step]; split <;> rfl
  | _ => rfl

/-- **C51** (step by step, and one each). While a registered actor `a` stays linked to an actor of peer `p`, it gets one
signal about that link for each connection to `p` that closes, however the tasks' loops, the sends and everything else
interleave: if no task for `p` is waiting or in its loop at the beginning and at the end, and no signal about the link is
being sent, as many signals have come as connections have closed. What is missing for the property as stated: see
`each_closure_signalled_partial`. -/
theorem each_closure_signalled_stepwise_partial (own p : P) (ops later : List (NOp P)) (a : Nat)
    (id : ActorID P) (hip : id.peer.get (some own) = some p) (hr : a ∈ (Node.run own ops).registry)
    (he : a ∉ (Node.run own ops).ended) (hl : id ∈ (Node.run own ops).links a)
    (hd : ∀ op ∈ later, ¬ op.drops own a id)
    (hquiet : ∀ s, s = Node.run own ops ∨ s = Node.run own (ops ++ later) →
      p ∉ s.tasks ∧ s.pass = none ∧ (p, a, id) ∉ s.sending) :
    (Node.run own (ops ++ later)).signals.count (p, a, id) + (Node.run own ops).closures.count p =
      (Node.run own ops).signals.count (p, a, id) + (Node.run own (ops ++ later)).closures.count p := by
  have key : ∀ (later : List (NOp P)) (s : Node P), NInv own s → id ∈ s.links a → a ∈ s.registry → a ∉ s.ended →
      (∀ op ∈ later, ¬ op.drops own a id) →
      (later.foldl Node.step s).tally p a id + s.begun.count p = s.tally p a id + (later.foldl Node.step s).begun.count p := by
    intro later
    induction later with
    | nil => intro s _ _ _ _ _; rfl
    | cons op rest ih =>
      intro s hs hl hr he hd
      obtain ⟨k1, k2, k3⟩ := link_stays hs hl hr he (hd op List.mem_cons_self)
      have h1 := tally_step hs hip hl hr he op
      have h2 := ih (s.step op) (ninv_step hs op) k1 k2 k3 (fun o ho => hd o (List.mem_cons_of_mem _ ho))
      simp only [List.foldl_cons]
      omega
  have h := key later _ (ninv_run own ops) hl hr he hd
  rw [← nrun_append] at h
  obtain ⟨q1, q2, q3⟩ := hquiet _ (.inl rfl)
  obtain ⟨r1, r2, r3⟩ := hquiet _ (.inr rfl)
  have c0 := begun_of_closures own ops p
  have c1 := begun_of_closures own (ops ++ later) p
  rw [List.count_eq_zero_of_not_mem q1] at c0
  rw [List.count_eq_zero_of_not_mem r1] at c1
  simp only [Node.tally, q2, r2, List.count_eq_zero_of_not_mem q3, List.count_eq_zero_of_not_mem r3] at h
  omega

/-- Node 1: actors 0 and 1 are linked to actors 7 and 9 of node 2, actor 0 to actor 8 of node 3; the connection to node 2
closes. While the task is between the two, actor 1 is linked to actor 6 of node 2 and actor 0 is unlinked from actor 7. -/
def interleaved : List (NOp Byte) :=
  [.register 0, .register 1, .insert 0 ⟨7, .peerId 2⟩, .insert 0 ⟨8, .peerId 3⟩, .insert 1 ⟨9, .peerId 2⟩, .closed 2,
    .lock 0 [0, 1], .visit, .remove 0 ⟨7, .peerId 2⟩, .insert 1 ⟨6, .peerId 2⟩, .register 5, .visit, .unlock, .send 1, .send 0,
    .send 0]

/-- The news of the link that is no longer there comes all the same; actor 5 is not registered, the lock is not free. -/
example : (Node.run 1 interleaved).signals = [(2, 1, ⟨9, .peerId 2⟩), (2, 0, ⟨7, .peerId 2⟩), (2, 1, ⟨6, .peerId 2⟩)] ∧
    (Node.run 1 interleaved).registry = [0, 1] := by decide

/-- `pass_tells`, `pass_ends` and `each_closure_signalled_stepwise_partial` apply to it. -/
example : (Node.run 1 (interleaved.take 6)).pass.isNone = true ∧ (Node.run 1 (interleaved.take 6)).tasks[0]? = some 2 ∧
    [0, 1].Perm (Node.run 1 (interleaved.take 6)).registry ∧
    (Node.run 1 (interleaved.take 13)).pass.isNone = true ∧
    (Node.run 1 (interleaved.take 13)).sending.length = 3 := by decide

example : (Node.run 1 interleaved).signals.count (2, 1, ⟨9, .peerId 2⟩) = 1 := by
  have := each_closure_signalled_stepwise_partial (1 : Byte) 2 (interleaved.take 5) (interleaved.drop 5) 1 ⟨9, .peerId 2⟩
    (by decide) (by decide) (by decide) (by decide) (by
      intro op h
      simp only [interleaved, List.drop_succ_cons, List.drop_zero, List.mem_cons, List.not_mem_nil, or_false] at h
      rcases h with h | h | h | h | h | h | h | h | h | h | h <;> subst h <;> simp [NOp.drops])
    (by rintro s (rfl | rfl) <;> refine ⟨by decide, ?_, by decide⟩ <;> rfl)
  have e : Node.run (1 : Byte) (interleaved.take 5 ++ interleaved.drop 5) = Node.run 1 interleaved := by
    rw [List.take_append_drop]
  rw [e] at this
  have h1 : (Node.run (1 : Byte) (interleaved.take 5)).closures.count 2 = 0 := by decide
  have h2 : (Node.run (1 : Byte) (interleaved.take 5)).signals.count (2, 1, ⟨9, .peerId 2⟩) = 0 := by decide
  have h3 : (Node.run (1 : Byte) interleaved).closures.count 2 = 1 := by decide
  omega

end Verif.Swarm.Sweep
