import Verif.System.Propagate

/-!
C27: can linked actors finish stopping? The link-died signals are sent with a waiting `send`
(`src/actor/spawn.rs` L517-565, `src/mailbox.rs` L547-558), while the stopping actor does not receive any
more but its mailbox is still open.
-/

set_option linter.unusedSimpArgs false

namespace Verif.System

open Verif.Mailbox Verif.Lifecycle

/-- Open, bounded and full, with no slot handed over to a waiting sender. -/
def Full (m : Mb Sig) : Prop :=
  m.closed = false ∧ m.granted = [] ∧ m.cap = some m.queue.length

theorem Full.noRoom {m : Mb Sig} (h : Full m) : m.hasRoom = false := by
  obtain ⟨_, h2, h3⟩ := h
  simp [Mb.hasRoom, h2, h3]

/-- A full mailbox nobody receives from stays full, and who waits goes on waiting. -/
theorem full_step {m : Mb Sig} (h : Full m) (op : Mailbox.Op Sig) (hr : op ≠ .recv) (hc : op ≠ .close) :
    Full (m.step op) ∧ ∀ p, p ∈ m.waiting → op ≠ .cancel p.1 → p ∈ (m.step op).waiting := by
  have hn := h.noRoom
  obtain ⟨h1, h2, h3⟩ := h
  cases op with
  | recv => exact (hr rfl).elim
  | close => exact (hc rfl).elim
  | send a =>
    simp only [Mb.step, Mb.send, h1, hn]
    simp only [Bool.false_eq_true, if_false]
    exact ⟨⟨h1, h2, h3⟩, fun p hp _ => by simp [hp]⟩
  | trySend a =>
    simp only [Mb.step, Mb.trySend, h1, hn]
    simp only [Bool.false_eq_true, if_false]
    exact ⟨⟨h1, h2, h3⟩, fun p hp _ => hp⟩
  | poll t =>
    simp only [Mb.step, Mb.poll, h2, List.find?_nil]
    exact ⟨⟨h1, h2, h3⟩, fun p hp _ => hp⟩
  | cancel t =>
    simp only [Mb.step, Mb.cancel, h2, List.find?_nil]
    split
    · refine ⟨⟨h1, rfl, h3⟩, fun p hp hne => ?_⟩
      refine List.mem_filter.mpr ⟨hp, ?_⟩
      have : p.1 ≠ t := fun e => hne (by rw [e])
      simpa using this
    · exact ⟨⟨h1, h2, h3⟩, fun p hp _ => hp⟩

/-- What an actor that still has to notify others can do. -/
theorem notifying_step {s : St} {op : Lifecycle.Op} {r : Reason} {p : List Id} {res : Option Err}
    (hp : s.phase = .notifying r p res) (hne : p ≠ []) (ht : op ≠ .teardown) :
    ((s.step op).phase = s.phase ∨ ∃ k, op = .notifyEnd k ∧ (s.step op).phase = .notifying r (p.erase k) res) ∧
    ((s.step op).mb = s.mb ∨ ∃ mop : Mailbox.Op Sig, (s.step op).mb = s.mb.step mop ∧ mop ≠ .recv ∧
      mop ≠ .close ∧ ∀ t, mop = .cancel t → op = .cancel t) := by
  cases op with
  | teardown => exact (ht rfl).elim
  | send b => exact ⟨Or.inl rfl, Or.inr ⟨.send (.msg b), rfl, by simp, by simp, by simp⟩⟩
  | trySend b => exact ⟨Or.inl rfl, Or.inr ⟨.trySend (.msg b), rfl, by simp, by simp, by simp⟩⟩
  | poll t => exact ⟨Or.inl rfl, Or.inr ⟨.poll t, rfl, by simp, by simp, by simp⟩⟩
  | cancel t => exact ⟨Or.inl rfl, Or.inr ⟨.cancel t, rfl, by simp, by simp, by intro t h; cases h; rfl⟩⟩
  | sendStop => exact ⟨Or.inl rfl, Or.inr ⟨.send .stop, rfl, by simp, by simp, by simp⟩⟩
  | sendLinkDied i r => exact ⟨Or.inl rfl, Or.inr ⟨.send (.linkDied i r), rfl, by simp, by simp, by simp⟩⟩
  | notifyEnd k =>
    simp only [St.step, hp]
    split
    · exact ⟨Or.inr ⟨k, rfl, rfl⟩, Or.inl rfl⟩
    · next h => exact ⟨Or.inl hp, Or.inl rfl⟩
  | finish =>
    cases p with
    | nil => exact (hne rfl).elim
    | cons a l => simp [St.step, hp]
  | cloneRef => simp only [St.step]; split <;> simp [*]
  | giveUp t => simp only [St.step]; split <;> simp [*]
  | delegSend t r => simp only [St.step]; split <;> simp [*]
  | delegDrop t => simp only [St.step]; split <;> simp [*]
  | _ => simp [St.step, hp]

/-- A set of actors each of which still has to notify another one of the set, whose mailbox is full. -/
structure Stuck (D : Id → Prop) (S : Sys) : Prop where
  wait : ∀ i, D i → ∃ r p res j, (S.act i).phase = .notifying r p res ∧ j ∈ p ∧ D j
  full : ∀ i, D i → Full (S.act i).mb
  send : ∀ i j t, D i → D j → (i, j, t) ∈ S.flight → ∃ sg, (t, sg) ∈ (S.act j).mb.waiting

/-- The task of an actor of the set is not torn down from outside. -/
def SOp.spares (D : Id → Prop) : SOp → Prop
  | .loc i .teardown => ¬ D i
  | _ => True

theorem stuck_step {D : Id → Prop} {S : Sys} (h : Stuck D S) (op : SOp) (hop : op.spares D) :
    Stuck D (S.step op) := by
  -- one actor makes a step
  have one : ∀ x o, (D x → o ≠ .teardown) → (∀ k, o = .notifyEnd k → D x → ¬ D k) →
      (∀ i t, D i → D x → (i, x, t) ∈ S.flight → o ≠ .cancel t) → Stuck D (S.set x ((S.act x).step o)) := by
    intro x o h1 h2 h3
    refine ⟨?_, ?_, ?_⟩
    · intro i hi
      obtain ⟨r, p, res, j, hp, hj, hDj⟩ := h.wait i hi
      simp only [set_act]
      split
      · next e =>
        subst e
        rcases (notifying_step hp (List.ne_nil_of_mem hj) (h1 hi)).1 with e | ⟨k, e1, e2⟩
        · exact ⟨r, p, res, j, by rw [e]; exact hp, hj, hDj⟩
        · have : j ≠ k := fun e => h2 k e1 hi (e ▸ hDj)
          exact ⟨r, _, res, j, e2, (List.mem_erase_of_ne this).mpr hj, hDj⟩
      · exact ⟨r, p, res, j, hp, hj, hDj⟩
    · intro i hi
      obtain ⟨r, p, res, j, hp, hj, hDj⟩ := h.wait i hi
      simp only [set_act]
      split
      · next e =>
        subst e
        rcases (notifying_step hp (List.ne_nil_of_mem hj) (h1 hi)).2 with e | ⟨mop, e, e1, e2, _⟩
        · rw [e]; exact h.full i hi
        · rw [e]; exact (full_step (h.full i hi) mop e1 e2).1
      · exact h.full i hi
    · intro i j t hi hj hf
      obtain ⟨sg, hw⟩ := h.send i j t hi hj hf
      obtain ⟨r, p, res, k, hp, hk, hDk⟩ := h.wait j hj
      simp only [set_act]
      split
      · next e =>
        subst e
        rcases (notifying_step hp (List.ne_nil_of_mem hk) (h1 hj)).2 with e | ⟨mop, e, e1, e2, e3⟩
        · rw [e]; exact ⟨sg, hw⟩
        · rw [e]
          refine ⟨sg, (full_step (h.full j hj) mop e1 e2).2 _ hw ?_⟩
          intro e4
          exact h3 i t hi hj hf (e3 _ e4)
      · exact ⟨sg, hw⟩
  cases op with
  | loc x o =>
    simp only [Sys.step]
    split
    · next ha =>
      apply one x o
      · rintro hx rfl
        exact hop hx
      · rintro k rfl _
        have := allowed_local ha
        simp [isLocal] at this
      · rintro i t hi _ hf rfl
        obtain ⟨r, p, res, j, hp, _⟩ := h.wait i hi
        simp only [Sys.allowed, List.all_eq_true] at ha
        have := ha _ hf
        simp [hp] at this
    · exact h
  | link a b =>
    simp only [Sys.step]
    split
    · exact h
    · next hab =>
      have h1 := one a (.link b) (by simp) (by simp) (by simp)
      have h2 : ∀ {S : Sys}, Stuck D S → Stuck D (S.set b { S.act b with
          links := if a ∈ (S.act b).links then (S.act b).links else (S.act b).links ++ [a] }) := by
        intro S h
        refine ⟨?_, ?_, ?_⟩
        · intro i hi; simp only [set_act]; split
          · next e => subst e; exact h.wait i hi
          · exact h.wait i hi
        · intro i hi; simp only [set_act]; split
          · next e => subst e; exact h.full i hi
          · exact h.full i hi
        · intro i j t hi hj hf; simp only [set_act]; split
          · next e => subst e; exact h.send i j t hi hj hf
          · exact h.send i j t hi hj hf
      have h3 := h2 h1
      have e : (S.set a ((S.act a).step (.link b))).act b = S.act b := by simp [Ne.symm hab]
      rw [e] at h3
      exact h3
  | unlink a b =>
    simp only [Sys.step]
    split
    · exact h
    · next hab =>
      have h1 := one a (.unlink b) (by simp) (by simp) (by simp)
      have h2 : ∀ {S : Sys}, Stuck D S → Stuck D (S.set b { S.act b with
          links := (S.act b).links.filter (· != a) }) := by
        intro S h
        refine ⟨?_, ?_, ?_⟩
        · intro i hi; simp only [set_act]; split
          · next e => subst e; exact h.wait i hi
          · exact h.wait i hi
        · intro i hi; simp only [set_act]; split
          · next e => subst e; exact h.full i hi
          · exact h.full i hi
        · intro i j t hi hj hf; simp only [set_act]; split
          · next e => subst e; exact h.send i j t hi hj hf
          · exact h.send i j t hi hj hf
      have h3 := h2 h1
      have e : (S.set a ((S.act a).step (.unlink b))).act b = S.act b := by simp [Ne.symm hab]
      rw [e] at h3
      exact h3
  | notifyStart a b =>
    simp only [Sys.step]
    split
    · next r p res hp =>
      split
      · next hb =>
        have h1 := one b (.sendLinkDied a r) (by simp) (by simp) (by simp)
        refine ⟨h1.wait, h1.full, ?_⟩
        intro i j t hi hj hf
        simp only [List.mem_append, List.mem_singleton] at hf
        rcases hf with hf | hf
        · exact h1.send i j t hi hj hf
        · cases hf
          have hF := h.full b hj
          simp only [set_act, if_true]
          refine ⟨.linkDied a r, ?_⟩
          simp [St.step, Mb.send, hF.1, hF.noRoom]
      · exact h
    · exact h
  | notifyEnd a b =>
    simp only [Sys.step]
    split
    · next p hf =>
      split
      · exact h
      · next hpend =>
        have hm := List.mem_of_find?_eq_some hf
        have hk := List.find?_some hf
        obtain ⟨p1, p2, p3⟩ := p
        simp at hk
        obtain ⟨rfl, rfl⟩ := hk
        have hnot : D p1 → ¬ D p2 := by
          intro h1 h2
          obtain ⟨sg, hw⟩ := h.send p1 p2 p3 h1 h2 hm
          apply hpend
          simp only [pendingIn, List.any_eq_true]
          exact ⟨_, List.mem_append.mpr (Or.inl hw), by simp⟩
        have h1 := one p1 (.notifyEnd p2) (by simp) (by rintro k e; cases e; exact hnot) (by simp)
        exact ⟨h1.wait, h1.full, fun i j t hi hj hf => h1.send i j t hi hj (List.mem_of_mem_erase hf)⟩
    · exact h

/-- Actors that wait for each other never finish, whatever happens, unless a task is torn down. -/
theorem stuck_exec {D : Id → Prop} {S : Sys} (h : Stuck D S) (ops : List SOp) (hop : ∀ op ∈ ops, op.spares D) :
    Stuck D (S.exec ops) := by
  induction ops generalizing S with
  | nil => exact h
  | cons op l ih =>
    exact ih (stuck_step h op (hop op (by simp))) (fun o ho => hop o (by simp [ho]))

/-- Two linked actors with mailboxes of capacity 1, each with a message in its mailbox, are both stopped
by a kill. -/
def embraceDemo : List SOp := spawnDemo 0 ++ spawnDemo 1 ++ [.link 0 1, .loc 0 (.send (tell 7)),
  .loc 1 (.send (tell 8)), .loc 0 .kill, .loc 1 .kill, .loc 0 .pollEnd, .loc 1 .pollEnd,
  .loc 0 (.stopEnd .ok), .loc 1 (.stopEnd .ok), .notifyStart 0 1, .notifyStart 1 0]

/-- **C19** (among other actors): whoever waits for room to send a message can give up at any time, whatever else is
under way, notifications to the same actor included; nobody else notices. -/
theorem message_send_can_be_given_up (cap : Id → Option Nat) (ops : List SOp) (j : Id) (t : Nat) (b : Body)
    (h : (t, Sig.msg b) ∈ ((sysAfter cap ops).act j).mb.waiting ++ ((sysAfter cap ops).act j).mb.granted) :
    (t, Sig.msg b, Mailbox.Why.timeout) ∈ ((sysAfter cap (ops ++ [.loc j (.cancel t)])).act j).mb.failed ∧
    (∀ p ∈ ((sysAfter cap (ops ++ [.loc j (.cancel t)])).act j).mb.pushed, p.1 ≠ t) ∧
    ∀ x, x ≠ j → (sysAfter cap (ops ++ [.loc j (.cancel t)])).act x = (sysAfter cap ops).act x := by
  have hg := sys_good cap ops j
  have hfl := fl_after cap ops
  have hg2 := sys_good cap (ops ++ [.loc j (.cancel t)]) j
  rw [sysAfter_snoc] at hg2 ⊢
  generalize sysAfter cap ops = S at *
  have hsent : (t, Sig.msg b) ∈ (S.act j).mb.sent := by
    apply hg.shape.mb.mem_sent
    simp at h ⊢; grind
  have hal : S.allowed j (.cancel t) = true := by
    simp only [Sys.allowed, List.all_eq_true]
    rintro ⟨i, j', t'⟩ hp
    by_cases he : j' = j ∧ t' = t
    · obtain ⟨rfl, rfl⟩ := he
      rcases hfl.st _ _ _ hp with h1 | ⟨r, p, res, _, _, h1⟩
      · simp [h1]
      · exfalso
        have hnc : (S.act j').mb.closed = false := by
          cases hc : (S.act j').mb.closed
          · rfl
          · have := hg.shape.mb.closedEmpty hc
            simp_all
        have : (t', Sig.linkDied i r) ∈ (S.act j').mb.sent := by
          apply hg.shape.mb.mem_sent
          rcases h1 with h1 | h1 | h1 | h1
          · simp [h1]
          · simp [h1]
          · simp [h1]
          · rw [hnc] at h1; cases h1
        have := key_inj hg.shape.mb.sent_nodup hsent this rfl
        simp at this
    · simp; grind
  have hf : (t, Sig.msg b, Mailbox.Why.timeout) ∈ ((S.step (.loc j (.cancel t))).act j).mb.failed := by
    simp only [Sys.step, hal, if_true, set_act]
    exact cancel_failed hg.shape.mb h
  refine ⟨hf, ?_, ?_⟩
  · intro p hp e
    have hnd := hg2.shape.mb.part_nodup
    rw [List.map_append, List.nodup_append] at hnd
    exact hnd.2.2 t (List.mem_map.mpr ⟨p, by simp [hp], e⟩) t
      (List.mem_map.mpr ⟨_, List.mem_map.mpr ⟨_, hf, rfl⟩, rfl⟩) rfl
  · intro x hx
    simp [Sys.step, hal, hx]

/-- A message waits behind the notification of a death. -/
example : ((sysAfter (fun _ => some 1) (embraceDemo ++ [.loc 0 (.send (tell 9))])).act 0).mb.waiting =
    [(2, .linkDied 1 .killed), (3, .msg (tell 9))] := by decide

theorem embrace_stuck : Stuck (fun x => x = 0 ∨ x = 1) (sysAfter (fun _ => some 1) embraceDemo) := by
  refine ⟨?_, ?_, ?_⟩
  · rintro i (rfl | rfl)
    · exact ⟨.killed, [1], none, 1, by decide, by decide, Or.inr rfl⟩
    · exact ⟨.killed, [0], none, 0, by decide, by decide, Or.inl rfl⟩
  · rintro i (rfl | rfl) <;> exact ⟨by decide, by decide, by decide⟩
  · have hfl : (sysAfter (fun _ => some 1) embraceDemo).flight = [(0, 1, 2), (1, 0, 2)] := by decide
    intro i j t hi hj hf
    rw [hfl] at hf
    simp at hf
    rcases hf with ⟨rfl, rfl, rfl⟩ | ⟨rfl, rfl, rfl⟩
    · exact ⟨.linkDied 0 .killed, by decide⟩
    · exact ⟨.linkDied 1 .killed, by decide⟩

/-- **C27**, general form of the failure: if every actor of a set has left its loop, still has to notify
some actor of the set, and the mailboxes of the set are full and no notification inside the set has got
through, then none of them ever finishes stopping, whatever any actor, sender or timer does. (Only
tearing a task down from outside ends it.) -/
theorem full_mailboxes_deadlock (D : Id → Prop) (S : Sys) (h : Stuck D S) (ops : List SOp)
    (hop : ∀ op ∈ ops, op.spares D) (i : Id) (hi : D i) :
    ∃ r p res, p ≠ [] ∧ ((S.exec ops).act i).phase = .notifying r p res := by
  obtain ⟨r, p, res, j, hp, hj, _⟩ := (stuck_exec h ops hop).wait i hi
  exact ⟨r, p, res, List.ne_nil_of_mem hj, hp⟩

/-- The two actors of `embraceDemo`, whatever is sent to them and however long they go on. -/
example : ∀ op ∈ [SOp.loc 0 (.send (tell 9)), .notifyEnd 0 1, .loc 1 .finish, .loc 2 .teardown],
    op.spares (fun x => x = 0 ∨ x = 1) := by
  simp only [List.mem_cons, List.not_mem_nil, or_false]
  rintro op (rfl | rfl | rfl | rfl) <;> first | trivial | (rintro (h | h) <;> exact absurd h (by decide))

/-- **C27** is false: there is a history of two linked actors with bounded mailboxes after which both
have run `on_stop` and neither ever finishes, whatever happens afterwards (short of tearing the tasks
down): no caller of `wait_for_shutdown` ever returns. -/
theorem stopping_actors_deadlock : ∃ (cap : Id → Option Nat) (ops : List SOp),
    ∀ ops' : List SOp, (∀ op ∈ ops', ∀ x, x < 2 → op ≠ .loc x .teardown) → ∀ x, x < 2 →
      .sEnd .killed .ok ∈ ((sysAfter cap (ops ++ ops')).act x).log ∧
      (∀ r, ((sysAfter cap (ops ++ ops')).act x).phase ≠ .stopped r) ∧
      ((sysAfter cap (ops ++ ops')).act x).mb.closed = false := by
  refine ⟨fun _ => some 1, embraceDemo, fun ops' hops x hx => ?_⟩
  have hD : x = 0 ∨ x = 1 := by
    have : ∀ y : Nat, y < 2 → y = 0 ∨ y = 1 := by omega
    exact this x hx
  have hst := stuck_exec embrace_stuck ops' (by
    intro op ho
    have h1 := hops op ho
    cases op with
    | loc i o =>
      cases o with
      | teardown => rintro (rfl | rfl); exact h1 0 (by decide) rfl; exact h1 1 (by decide) rfl
      | _ => trivial
    | _ => trivial)
  have hlog : ∀ ops', ∃ y, ((sysAfter (fun _ => some 1) (embraceDemo ++ ops')).act x).log =
      ((sysAfter (fun _ => some 1) embraceDemo).act x).log ++ y := by
    intro ops'
    rw [sysAfter_append]
    clear hst hops
    generalize sysAfter (fun _ => some 1) embraceDemo = S
    induction ops' generalizing S with
    | nil => exact ⟨[], by simp [Sys.exec]⟩
    | cons op l ih =>
      obtain ⟨y1, h1⟩ := view_log (view S op x)
      obtain ⟨y2, h2⟩ := ih (S.step op)
      exact ⟨y1 ++ y2, by rw [← List.append_assoc, ← h1]; exact h2⟩
  rw [← sysAfter_append] at hst
  obtain ⟨y, hy⟩ := hlog ops'
  obtain ⟨r, p, res, j, hp, hj, _⟩ := hst.wait x hD
  refine ⟨?_, ?_, (hst.full x hD).1⟩
  · rw [hy, List.mem_append]; left
    rcases hD with rfl | rfl <;> decide
  · intro r; rw [hp]; simp

/-- The notification to `j` does not have to wait: `j` is gone, or its mailbox is unbounded, or has room. -/
def Ready (S : Sys) (i j : Id) : Prop :=
  (S.act j).mb.closed = true ∨ (S.act j).mb.cap = none ∨
  ((S.act j).mb.hasRoom = true ∧ (i, j) ∉ keys S)

/-- The stopping actor's task polls its notifications one after the other, and returns. -/
def finishOps (i : Id) (P : List Id) : List SOp :=
  P.flatMap (fun j => [.notifyStart i j, .notifyEnd i j]) ++ [.loc i .finish]

theorem pendingIn_closed {m : Mb Sig} (hi : Inv m) (h : m.closed = true ∨ m.cap = none) :
    m.waiting ++ m.granted = [] := by
  rcases h with h | h
  · obtain ⟨_, h2, h3⟩ := hi.closedEmpty h; simp [h2, h3]
  · obtain ⟨h2, h3⟩ := hi.unb h; simp [h2, h3]

theorem find_flight {S : Sys} {i j : Id} (h : (i, j) ∈ keys S) :
    ∃ t, S.flight.find? (fun p => p.1 == i && p.2.1 == j) = some (i, j, t) ∧ (i, j, t) ∈ S.flight := by
  have : ∃ p ∈ S.flight, (p.1 == i && p.2.1 == j) = true := by
    obtain ⟨p, hp, e⟩ := List.mem_map.mp h
    cases e
    exact ⟨p, hp, by simp⟩
  obtain ⟨q, hq⟩ := Option.isSome_iff_exists.mp (List.find?_isSome.mpr this)
  have h1 := List.find?_some hq
  have h2 := List.mem_of_find?_eq_some hq
  obtain ⟨q1, q2, q3⟩ := q
  simp at h1
  obtain ⟨rfl, rfl⟩ := h1
  exact ⟨q3, hq, h2⟩

/-- One notification that need not wait is over after two steps of the dying actor. -/
theorem notify_one {S : Sys} (hg : ∀ x, Good (S.act x)) {i j : Id} {r : Reason} {P : List Id}
    {res : Option Err} (hp : (S.act i).phase = .notifying r P res) (hj : j ∈ P) (hij : j ≠ i)
    (hr : Ready S i j) :
    let S' := (S.step (.notifyStart i j)).step (.notifyEnd i j)
    (S'.act i).phase = .notifying r (P.erase j) res ∧
    (∀ k, k ≠ i → k ≠ j → S'.act k = S.act k) ∧ (∀ k, k ≠ j → (i, k) ∈ keys S' → (i, k) ∈ keys S) := by
  have hinv := (hg j).shape.mb
  intro S'
  -- the second step, once the send is not pending
  have second : ∀ T : Sys, (T.act i).phase = .notifying r P res → (i, j) ∈ keys T →
      (∀ t, (i, j, t) ∈ T.flight → pendingIn (T.act j) t = false) →
      ((T.step (.notifyEnd i j)).act i).phase = .notifying r (P.erase j) res ∧
      (∀ k, k ≠ i → (T.step (.notifyEnd i j)).act k = T.act k) ∧
      (∀ k, (i, k) ∈ keys (T.step (.notifyEnd i j)) → (i, k) ∈ keys T) := by
    intro T hT hk hpd
    obtain ⟨t, hf, hm⟩ := find_flight hk
    simp only [Sys.step, hf, hpd t hm, Bool.false_eq_true, if_false]
    refine ⟨?_, ?_, ?_⟩
    · simp only [set_act, if_true]
      exact (notified_step (T.act i) j).2.1 r P res hT
    · intro k hki; simp [hki]
    · intro k hk
      obtain ⟨q, hq, e⟩ := List.mem_map.mp hk
      exact List.mem_map.mpr ⟨q, List.mem_of_mem_erase hq, e⟩
  by_cases hk : (i, j) ∈ keys S
  · have hS1 : S.step (.notifyStart i j) = S := by
      have : ¬ (j ∈ P ∧ S.flight.all (fun p => !(p.1 == i && p.2.1 == j)) = true) := by
        rw [keys_not_mem]; exact fun h => h.2 hk
      simp only [Sys.step, hp, this, if_false]
    have hpd : ∀ t, (i, j, t) ∈ S.flight → pendingIn (S.act j) t = false := by
      intro t _
      have : (S.act j).mb.closed = true ∨ (S.act j).mb.cap = none := by
        rcases hr with h | h | h
        · exact Or.inl h
        · exact Or.inr h
        · exact (h.2 hk).elim
      simp [pendingIn, pendingIn_closed hinv this]
    obtain ⟨h1, h2, h3⟩ := second S hp hk hpd
    simp only [S', hS1]
    exact ⟨h1, fun k a _ => h2 k a, fun k _ => h3 k⟩
  · have hcond : j ∈ P ∧ S.flight.all (fun p => !(p.1 == i && p.2.1 == j)) = true :=
      ⟨hj, keys_not_mem.mpr hk⟩
    have hS1 : S.step (.notifyStart i j) = { S.set j ((S.act j).step (.sendLinkDied i r)) with
          flight := S.flight ++ [(i, j, (S.act j).mb.next)] } := by
      simp only [Sys.step, hp]
      rw [if_pos hcond]
    have hact : ∀ k, (S.step (.notifyStart i j)).act k =
        if k = j then (S.act j).step (.sendLinkDied i r) else S.act k := by
      intro k; rw [hS1]; rfl
    have hfl : (S.step (.notifyStart i j)).flight = S.flight ++ [(i, j, (S.act j).mb.next)] := by rw [hS1]
    have hk1 : (i, j) ∈ keys (S.step (.notifyStart i j)) := by simp [keys, hfl]
    have hempty : ((S.act j).mb.send (.linkDied i r)).waiting = (S.act j).mb.waiting ∧
        ((S.act j).mb.send (.linkDied i r)).granted = (S.act j).mb.granted := by
      simp only [Mb.send]
      split
      · exact ⟨rfl, rfl⟩
      · next hc =>
        have hroom : (S.act j).mb.hasRoom = true := by
          rcases hr with h | h | h
          · exact (hc h).elim
          · simp [Mb.hasRoom, h]
          · exact h.1
        rw [if_pos hroom]; exact ⟨rfl, rfl⟩
    have hpd : ∀ t, (i, j, t) ∈ (S.step (.notifyStart i j)).flight →
        pendingIn ((S.step (.notifyStart i j)).act j) t = false := by
      intro t ht
      have htn : t = (S.act j).mb.next := by
        rw [hfl] at ht
        simp at ht
        rcases ht with ht | ht
        · exact (hk (List.mem_map.mpr ⟨_, ht, rfl⟩)).elim
        · exact ht
      rw [hact, if_pos rfl]
      simp only [pendingIn, St.step, hempty.1, hempty.2]
      rw [List.any_eq_false]
      intro q hq
      have hs : q ∈ (S.act j).mb.sent := by
        apply hinv.mem_sent
        simp only [List.mem_append] at hq ⊢
        grind
      have := hinv.sent_lt q hs
      simp; omega
    have hpi : ((S.step (.notifyStart i j)).act i).phase = .notifying r P res := by
      rw [hact, if_neg (Ne.symm hij)]; exact hp
    obtain ⟨h1, h2, h3⟩ := second _ hpi hk1 hpd
    refine ⟨h1, ?_, ?_⟩
    · intro k a b
      simp only [S']
      rw [h2 k a, hact, if_neg b]
    · intro k hkj hk2
      have := h3 k hk2
      simp only [keys, hfl, List.map_append, List.mem_append, List.map_cons, List.map_nil,
        List.mem_singleton, Prod.mk.injEq] at this
      rcases this with h | ⟨_, h⟩
      · exact h
      · exact (hkj h).elim

/-- **C27**, what holds: a stopping actor whose remaining notifications need not wait (each receiver is
gone, or has an unbounded mailbox, or has room) finishes by steps of its own task alone: no cooperation
of any other actor is needed, be it stopping or not.

Missing from the full claim: receivers with a full bounded mailbox; there it is false,
`stopping_actors_deadlock`. -/
theorem stopping_completes_partial (cap : Id → Option Nat) (ops : List SOp) (i : Id) (r : Reason)
    (P : List Id) (res : Option Err) (hp : ((sysAfter cap ops).act i).phase = .notifying r P res)
    (hr : ∀ j ∈ P, Ready (sysAfter cap ops) i j) :
    ((sysAfter cap (ops ++ finishOps i P)).act i).phase = .stopped r := by
  induction P generalizing ops with
  | nil =>
    rw [show ops ++ finishOps i [] = ops ++ [.loc i .finish] by rfl, sysAfter_snoc]
    simp [Sys.step, Sys.allowed, isLocal, St.step, hp, St.finishAll]
  | cons j P ih =>
    have hnd := (linksOk cap ops i).pnd
    have hirr := (linksOk cap ops i).pirr
    rw [hp] at hnd hirr
    simp only [pend, List.nodup_cons, List.mem_cons, not_or] at hnd hirr
    obtain ⟨h1, h2, h3⟩ := notify_one (sys_good cap ops) hp (by simp) (Ne.symm hirr.1) (hr j (by simp))
    have e : ops ++ finishOps i (j :: P) = (ops ++ [.notifyStart i j, .notifyEnd i j]) ++ finishOps i P := by
      simp [finishOps]
    have e2 : sysAfter cap (ops ++ [.notifyStart i j, .notifyEnd i j]) =
        ((sysAfter cap ops).step (.notifyStart i j)).step (.notifyEnd i j) := by
      rw [sysAfter_append]; rfl
    rw [e]
    apply ih
    · rw [e2]
      simpa using h1
    · intro k hk
      have hkj : k ≠ j := fun e => hnd.1 (e ▸ hk)
      have hki : k ≠ i := fun e => hirr.2 (e ▸ hk)
      rw [e2]
      unfold Ready
      rw [h2 k hki hkj]
      rcases hr k (by simp [hk]) with h | h | ⟨h, h'⟩
      · exact Or.inl h
      · exact Or.inr (Or.inl h)
      · exact Or.inr (Or.inr ⟨h, fun hc => h' (h3 k hkj hc)⟩)

/-- The two actors of `embraceDemo` if their mailboxes are unbounded. -/
example : ((sysAfter (fun _ => none) embraceDemo).act 0).phase = .notifying .killed [1] none ∧
    (∀ j ∈ [1], Ready (sysAfter (fun _ => none) embraceDemo) 0 j) ∧
    ((sysAfter (fun _ => none) (embraceDemo ++ finishOps 0 [1])).act 0).phase = .stopped .killed :=
  ⟨by decide, by intro j hj; cases List.mem_singleton.mp hj; exact Or.inr (Or.inl (by decide)), by decide⟩

/-- **C27**, unbounded mailboxes: in a system in which all mailboxes are unbounded, a stopping actor can
finish at every moment by steps of its own task alone. -/
theorem unbounded_stopping_completes (ops : List SOp) (i : Id) (r : Reason)
    (P : List Id) (res : Option Err) (hp : ((sysAfter (fun _ => none) ops).act i).phase = .notifying r P res) :
    ((sysAfter (fun _ => none) (ops ++ finishOps i P)).act i).phase = .stopped r := by
  apply stopping_completes_partial _ _ _ _ _ _ hp
  intro j _
  right; left
  obtain ⟨l, hl⟩ := actor_history (fun _ => none) ops j
  rw [hl]
  clear hp hl
  refine after_induct (cap := none) (P := fun _ s => s.mb.cap = none) rfl ?_ l
  intro ops op ih
  by_cases hc : ∃ t, op = .cancel t
  · obtain ⟨t, rfl⟩ := hc
    exact (step_cap _ (.cancel t)).trans ih
  · rcases step_mb_one (after none ops) op (fun t e => hc ⟨t, e⟩) with e | ⟨mop, e, _⟩
    · rw [e]; exact ih
    · rw [e, step_cap]; exact ih

/-- The two actors that deadlock with mailboxes of capacity 1 finish with unbounded ones. -/
example : ((sysAfter (fun _ => none) embraceDemo).act 0).phase = .notifying .killed [1] none ∧
    ((sysAfter (fun _ => none) embraceDemo).act 1).phase = .notifying .killed [0] none ∧
    ((sysAfter (fun _ => none) (embraceDemo ++ finishOps 0 [1] ++ finishOps 1 [0])).act 1).phase =
      .stopped .killed := by decide

/-- With capacity 2 there is room; actor 1 runs on. -/
example : ((sysAfter (fun _ => some 2) (chainDemo ++ dieDemo.take 3)).act 0).phase = .notifying .killed [1] none ∧
    Ready (sysAfter (fun _ => some 2) (chainDemo ++ dieDemo.take 3)) 0 1 :=
  ⟨by decide, Or.inr (Or.inr ⟨by decide, by decide⟩)⟩

end Verif.System
