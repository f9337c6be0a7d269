import Verif.Locks.Props

/-!
# The lock of the remote registry

`REMOTE_REGISTRY` (`src/remote.rs` L76-77) is behind one lock. When a connection to a peer closes, a task goes through the
registry and the links of every actor in it (`src/remote/swarm.rs` L791-818): the guard of the registry is a temporary of
the `for` loop's iterator and lives until the loop is over, so the task waits for the locks of link sets while it holds the
registry. Everything remote needs that lock for a moment: requests of other nodes, lookups, registrations, and the end of
every actor.

The calls are programs of requests for locks, waits and releases; a lock is a queue whose head holds it, as in
Verif.Locks.Model. Callers that give up are not modelled: the calls here are taken to be awaited.
-/

namespace Verif.Locks.Registry

/-- The locks: that of the registry (`src/remote.rs` L76-77) and those of the link sets of actors
(`src/actor/actor_ref.rs` L1357). -/
inductive Lock where
  | registry
  | links (a : Nat)
  deriving DecidableEq, Repr

/-- What a call does with locks: the first poll of `lock()`, the wait for it, the drop of the guard.
`src/actor/actor_ref.rs` L519-526. -/
inductive Act where
  | req (l : Lock)
  | await (l : Lock)
  | rel (l : Lock)
  deriving DecidableEq, Repr

/-- `lock().await` for a moment. `src/actor/kind.rs` L140 and the like. -/
def moment (l : Lock) : List Act := [.req l, .await l, .rel l]

/-- `a.link(&b)` and `a.unlink(&b)`: both locks are requested, then waited for. `src/actor/actor_ref.rs` L514-526,
L637-646. -/
def linkProg (a b : Nat) : List Act :=
  if a = b then []
  else [.req (.links a), .req (.links b), .await (.links a), .await (.links b), .rel (.links a), .rel (.links b)]

/-- `a.blocking_link(&b)` and `a.blocking_unlink(&b)`. `src/actor/actor_ref.rs` L553-565, L675-684. -/
def blockingProg (a b : Nat) : List Act :=
  if a = b then []
  else [.req (.links a), .await (.links a), .req (.links b), .await (.links b), .rel (.links b), .rel (.links a)]

/-- The end of an actor: its links, then the registry. `src/actor/spawn.rs` L517-560 and L567. -/
def endProg (a : Nat) : List Act := moment (.links a) ++ moment .registry

/-- `handle_link_died`, `unlink_remote`: `src/actor/kind.rs` L140, `src/actor/actor_ref.rs` L720. -/
def ownLinksProg (a : Nat) : List Act := moment (.links a)

/-- A request of another node, a lookup, a registration: `src/remote/_internal.rs` L95-104 (and L137-145, L176-184, L205-213, L284-292),
`src/remote/swarm.rs` L305, L376. -/
def requestProg : List Act := moment .registry

/-- A link or unlink request of another node (`src/remote/_internal.rs` L233-274), and `link_remote`
(`src/actor/actor_ref.rs` L601-613). -/
def remoteLinkProg (a : Nat) : List Act := moment .registry ++ moment (.links a)

/-- The task spawned for a closed connection, with the actors `as` in the registry, in the order of the map:
`src/remote/swarm.rs` L791-818. The signals are sent after the loop, with no lock held. -/
def sweepProg (as : List Nat) : List Act :=
  [.req .registry, .await .registry] ++ as.flatMap (fun a => moment (.links a)) ++ [.rel .registry]

/-- The requests for each lock, oldest first, and what each call has still to do. `src/actor/actor_ref.rs` L1357,
`src/remote.rs` L76-77. -/
structure St where
  queue : Lock → List Nat := fun _ => []
  rest : Nat → List Act

/-- Replace what a call has still to do. Bookkeeping for the programs above (`src/actor/actor_ref.rs` L514-684). -/
def St.set (s : St) (t : Nat) (p : List Act) : St := { s with rest := fun u => if u = t then p else s.rest u }

/-- Call `t` does its next action, if it can: a wait is over when the call is at the head of the queue. tokio's mutex, as
used at `src/actor/actor_ref.rs` L519-526. -/
def St.step (s : St) (t : Nat) : St :=
  match s.rest t with
  | [] => s
  | .req l :: p => { s.set t p with queue := fun x => if x = l then s.queue x ++ [t] else s.queue x }
  | .await l :: p => if (s.queue l).head? = some t then s.set t p else s
  | .rel l :: p => { s.set t p with queue := fun x => if x = l then (s.queue x).filter (· != t) else s.queue x }

/-- The calls `c` after a schedule. `src/actor/actor_ref.rs` L514-684. -/
def after (c : Nat → List Act) (sched : List Nat) : St := sched.foldl St.step { rest := c }

/-! ## The negation -/

/-- Two opposite links are in each other's way, and a sweep waits for one of them. -/
structure Stuck (a b : Nat) (s : St) : Prop where
  ha : (s.queue (.links a)).head? = some 0
  hb : (s.queue (.links b)).head? = some 1
  hr : (s.queue .registry).head? = some 2
  r0 : (∃ p, s.rest 0 = .await (.links b) :: p) ∨ ∃ p, s.rest 0 = .await (.links a) :: .await (.links b) :: p
  r1 : (∃ p, s.rest 1 = .await (.links a) :: p) ∨ ∃ p, s.rest 1 = .await (.links b) :: .await (.links a) :: p
  r2 : ∃ p, s.rest 2 = .await (.links a) :: p

theorem stuck_step {a b : Nat} (hab : a ≠ b) {s : St} (h : Stuck a b s) (t : Nat) : Stuck a b (s.step t) := by
  have hba := Ne.symm hab
  obtain ⟨ha, hb, hr, r0, r1, r2⟩ := h
  by_cases h0 : t = 0
  · subst h0
    rcases r0 with ⟨p, hp⟩ | ⟨p, hp⟩
    · have : s.step 0 = s := by simp [St.step, hp, hb]
      rw [this]; exact ⟨ha, hb, hr, .inl ⟨p, hp⟩, r1, r2⟩
    · have : s.step 0 = s.set 0 (.await (.links b) :: p) := by simp [St.step, hp, ha]
      rw [this]; exact ⟨ha, hb, hr, .inl ⟨p, by simp [St.set]⟩, by simpa [St.set] using r1, by simpa [St.set] using r2⟩
  by_cases h1 : t = 1
  · subst h1
    rcases r1 with ⟨p, hp⟩ | ⟨p, hp⟩
    · have : s.step 1 = s := by simp [St.step, hp, ha]
      rw [this]; exact ⟨ha, hb, hr, r0, .inl ⟨p, hp⟩, r2⟩
    · have : s.step 1 = s.set 1 (.await (.links a) :: p) := by simp [St.step, hp, hb]
      rw [this]; exact ⟨ha, hb, hr, by simpa [St.set] using r0, .inl ⟨p, by simp [St.set]⟩, by simpa [St.set] using r2⟩
  by_cases h2 : t = 2
  · subst h2
    obtain ⟨p, hp⟩ := r2
    have : s.step 2 = s := by simp [St.step, hp, ha]
    rw [this]; exact ⟨ha, hb, hr, r0, r1, ⟨p, hp⟩⟩
  have keep : ∀ (q : Lock → List Nat) (p : List Act), (q (.links a)).head? = some 0 → (q (.links b)).head? = some 1 →
      (q .registry).head? = some 2 → Stuck a b { s.set t p with queue := q } := by
    intro q p k1 k2 k3
    refine ⟨k1, k2, k3, ?_, ?_, ?_⟩
    · simpa [St.set, Ne.symm h0] using r0
    · simpa [St.set, Ne.symm h1] using r1
    · simpa [St.set, Ne.symm h2] using r2
  unfold St.step
  split
  · exact ⟨ha, hb, hr, r0, r1, r2⟩
  · refine keep _ _ ?_ ?_ ?_
    · split
      · exact head_append ha
      · exact ha
    · split
      · exact head_append hb
      · exact hb
    · split
      · exact head_append hr
      · exact hr
  · split
    · exact keep s.queue _ ha hb hr
    · exact ⟨ha, hb, hr, r0, r1, r2⟩
  · refine keep _ _ ?_ ?_ ?_
    · split
      · exact head_filter ha (Ne.symm h0)
      · exact ha
    · split
      · exact head_filter hb (Ne.symm h1)
      · exact hb
    · split
      · exact head_filter hr (Ne.symm h2)
      · exact hr

theorem stuck_waits {a b : Nat} {s : St} (h : Stuck a b s) (t u : Nat) (hu : u ≠ 2) (hw : .await .registry ∈ s.rest u) :
    .await .registry ∈ (s.step t).rest u := by
  by_cases htu : t = u
  · subst htu
    have hr := h.hr
    unfold St.step
    split
    · exact hw
    · next l p hp => simpa [St.set, hp] using hw
    · next l p hp =>
      split
      · next hh =>
        by_cases hl : l = .registry
        · subst hl; rw [hr] at hh; exact absurd (by simpa using hh.symm) hu
        · rw [hp] at hw; simpa [St.set, Ne.symm hl] using hw
      · exact hw
    · next l p hp => simpa [St.set, hp] using hw
  · have : (s.step t).rest u = s.rest u := by
      unfold St.step
      split
      · rfl
      · simp [St.set, Ne.symm htu]
      · split
        · simp [St.set, Ne.symm htu]
        · rfl
      · simp [St.set, Ne.symm htu]
    rw [this]; exact hw

theorem stuck_for_good {a b : Nat} (hab : a ≠ b) {c : Nat → List Act} {sched : List Nat} (hs : Stuck a b (after c sched))
    {t : Nat} (ht : 3 ≤ t) (hw : .await .registry ∈ (after c sched).rest t) (sched' : List Nat) :
    (after c (sched ++ sched')).rest t ≠ [] := by
  have key : ∀ (l : List Nat) (s : St), Stuck a b s → .await .registry ∈ s.rest t →
      .await .registry ∈ (l.foldl St.step s).rest t := by
    intro l
    induction l with
    | nil => exact fun s _ h => h
    | cons u l ih => exact fun s hs h => ih _ (stuck_step hab hs u) (stuck_waits hs u t (by omega) h)
  have := key sched' _ hs hw
  intro hn
  rw [after, List.foldl_append] at hn
  rw [show List.foldl St.step { rest := c } sched = after c sched from rfl] at hn
  rw [hn] at this; simp at this

/-- **C67** is false: two actors being linked with each other from both sides, and a connection that closes at that
moment, bring the node to a standstill. From then on no call that needs the registry completes, whatever else happens: no
request of another node, no lookup, no registration, no end of an actor. -/
theorem lost_connection_blocks_node (a b : Nat) (hab : a ≠ b) (others : List Nat) (c : Nat → List Act)
    (h0 : c 0 = linkProg a b) (h1 : c 1 = linkProg b a) (h2 : c 2 = sweepProg (a :: others)) :
    ∃ sched, ∀ sched', ∀ t, 3 ≤ t →
      (c t = requestProg ∨ (∃ i, c t = endProg i) ∨ (∃ i, c t = remoteLinkProg i) ∨ ∃ as, c t = sweepProg as) →
      (after c (sched ++ sched')).rest t ≠ [] := by
  refine ⟨[0, 1, 0, 1, 2, 2, 2], fun sched' t ht hc => ?_⟩
  have hba := Ne.symm hab
  have hlt : Lock.links a ≠ .links b := by simpa using hab
  have hlt' : Lock.links b ≠ .links a := by simpa using hba
  have hw : .await .registry ∈ c t := by
    rcases hc with h | ⟨i, h⟩ | ⟨i, h⟩ | ⟨as, h⟩ <;> rw [h] <;>
      simp [requestProg, endProg, remoteLinkProg, sweepProg, moment]
  have hs : Stuck a b (after c [0, 1, 0, 1, 2, 2, 2]) ∧
      (after c [0, 1, 0, 1, 2, 2, 2]).rest t = c t := by
    have t0 : t ≠ 0 := by omega
    have t1 : t ≠ 1 := by omega
    have t2 : t ≠ 2 := by omega
    refine ⟨⟨?_, ?_, ?_, ?_, ?_, ?_⟩, ?_⟩ <;>
      simp [after, St.step, St.set, h0, h1, h2, linkProg, sweepProg, moment, hab, hba, hlt, hlt', t0, t1, t2]
  exact stuck_for_good hab hs.1 ht (by rw [hs.2]; exact hw) sched'

/-- The calls of the theorem: actors 0 and 1 are linked from both sides, a connection closes, another node asks for
something, and actor 7 ends. -/
private def exCalls : Nat → List Act := fun t =>
  if t = 0 then linkProg 0 1 else if t = 1 then linkProg 1 0 else if t = 2 then sweepProg [0, 7]
  else if t = 3 then requestProg else endProg 7

example : (after exCalls ([0, 1, 0, 1, 2, 2, 2] ++ [3, 4, 3, 4, 4, 4, 4, 0, 1, 2])).rest 3 ≠ [] := by decide

/-- **C67** is false for blocking links as well: two threads that make `blocking_link` calls (or `blocking_unlink`) of two
actors from both sides, and a connection that closes at that moment, bring the node to the same standstill. -/
theorem blocking_links_block_node (a b : Nat) (hab : a ≠ b) (others : List Nat) (c : Nat → List Act)
    (h0 : c 0 = blockingProg a b) (h1 : c 1 = blockingProg b a) (h2 : c 2 = sweepProg (a :: others)) :
    ∃ sched, ∀ sched', ∀ t, 3 ≤ t →
      (c t = requestProg ∨ (∃ i, c t = endProg i) ∨ (∃ i, c t = remoteLinkProg i) ∨ ∃ as, c t = sweepProg as) →
      (after c (sched ++ sched')).rest t ≠ [] := by
  refine ⟨[0, 0, 1, 1, 0, 1, 2, 2, 2], fun sched' t ht hc => ?_⟩
  have hba := Ne.symm hab
  have hlt : Lock.links a ≠ .links b := by simpa using hab
  have hlt' : Lock.links b ≠ .links a := by simpa using hba
  have hw : .await .registry ∈ c t := by
    rcases hc with h | ⟨i, h⟩ | ⟨i, h⟩ | ⟨as, h⟩ <;> rw [h] <;>
      simp [requestProg, endProg, remoteLinkProg, sweepProg, moment]
  have hs : Stuck a b (after c [0, 0, 1, 1, 0, 1, 2, 2, 2]) ∧
      (after c [0, 0, 1, 1, 0, 1, 2, 2, 2]).rest t = c t := by
    have t0 : t ≠ 0 := by omega
    have t1 : t ≠ 1 := by omega
    have t2 : t ≠ 2 := by omega
    refine ⟨⟨?_, ?_, ?_, ?_, ?_, ?_⟩, ?_⟩ <;>
      simp [after, St.step, St.set, h0, h1, h2, blockingProg, sweepProg, moment, hab, hba, hlt, hlt', t0, t1, t2]
  exact stuck_for_good hab hs.1 ht (by rw [hs.2]; exact hw) sched'

/-- Actors 0 and 1, and a lookup. -/
example : (after (fun t => if t = 0 then blockingProg 0 1 else if t = 1 then blockingProg 1 0
    else if t = 2 then sweepProg [0] else requestProg) ([0, 0, 1, 1, 0, 1, 2, 2, 2] ++ [3, 3, 3, 0, 1, 2])).rest 3 ≠ [] := by
  decide

/-! ## What holds without asynchronous links -/

/-- The registry comes before every link set, and link sets are ordered as `f` says. -/
def rank (f : Nat → Nat) : Lock → Nat
  | .registry => 0
  | .links a => f a + 1

/-- With the locks `has` requested, the latest first, the rest of a program asks for one lock at a time, each above all it
has, and gives all of them back. -/
def Good (f : Nat → Nat) : List Lock → List Act → Prop
  | has, [] => has = []
  | has, .req l :: p => (∀ k ∈ has, rank f k < rank f l) ∧ (∃ p', p = .await l :: p') ∧ Good f (l :: has) p
  | has, .await l :: p => (∃ has', has = l :: has' ∧ ∀ k ∈ has', rank f k < rank f l) ∧ Good f has p
  | has, .rel l :: p => Good f (has.filter (· != l)) p

/-- Call `t` is in the queues of exactly the locks it has asked for, and at the head of all but the one it waits for. -/
structure Fits (f : Nat → Nat) (s : St) (t : Nat) (has : List Lock) : Prop where
  good : Good f has (s.rest t)
  mem : ∀ l, t ∈ s.queue l ↔ l ∈ has
  head : ∀ l ∈ has, (s.queue l).head? = some t ∨ ∃ p, s.rest t = .await l :: p

theorem fits_step {f : Nat → Nat} {s : St} (h : ∀ t, ∃ has, Fits f s t has) (u : Nat) :
    ∀ t, ∃ has, Fits f (s.step u) t has := by
  intro t
  obtain ⟨has, hg, hm, hh⟩ := h t
  obtain ⟨hasu, hgu, hmu, hhu⟩ := h u
  unfold St.step
  split
  · exact ⟨has, hg, hm, hh⟩
  · next l p hp =>
    by_cases htu : t = u
    · subst htu
      rw [hp] at hg
      obtain ⟨hlt, ⟨p', rfl⟩, hg'⟩ := hg
      refine ⟨l :: has, ?_, ?_, ?_⟩
      · simpa [St.set] using hg'
      · intro k
        by_cases hk : k = l
        · simp [hk]
        · simp [hk, hm]
      · intro k hk
        by_cases hkl : k = l
        · subst hkl; exact .inr ⟨p', by simp [St.set]⟩
        · have hk' : k ∈ has := by simpa [hkl] using hk
          rcases hh k hk' with h1 | ⟨q, h1⟩
          · left; simpa [hkl] using h1
          · rw [hp] at h1; cases h1
    · refine ⟨has, by simpa [St.set, htu] using hg, ?_, ?_⟩
      · intro k
        by_cases hk : k = l
        · subst hk; simp [htu, hm]
        · simp [hk, hm]
      · intro k hk
        rcases hh k hk with h1 | h1
        · left; dsimp; split
          · exact head_append h1
          · exact h1
        · right; simpa [St.set, htu] using h1
  · next l p hp =>
    split
    · next hhd =>
      by_cases htu : t = u
      · subst htu
        rw [hp] at hg
        refine ⟨has, by simpa [St.set] using hg.2, hm, ?_⟩
        intro k hk
        rcases hh k hk with h1 | ⟨q, h1⟩
        · exact .inl h1
        · rw [hp] at h1; cases h1; exact .inl hhd
      · exact ⟨has, by simpa [St.set, htu] using hg, hm, by simpa [St.set, htu] using hh⟩
    · exact ⟨has, hg, hm, hh⟩
  · next l p hp =>
    by_cases htu : t = u
    · subst htu
      rw [hp] at hg
      refine ⟨has.filter (· != l), by simpa [St.set, Good] using hg, ?_, ?_⟩
      · intro k
        by_cases hk : k = l
        · simp [hk]
        · simp [hk, hm]
      · intro k hk
        have hk' : k ∈ has ∧ k ≠ l := by simpa using hk
        rcases hh k hk'.1 with h1 | ⟨q, h1⟩
        · left; simpa [hk'.2] using h1
        · rw [hp] at h1; cases h1
    · refine ⟨has, by simpa [St.set, htu] using hg, ?_, ?_⟩
      · intro k
        by_cases hk : k = l
        · subst hk; simp [htu, hm]
        · simp [hk, hm]
      · intro k hk
        rcases hh k hk with h1 | h1
        · left; dsimp; split
          · exact head_filter h1 htu
          · exact h1
        · right; simpa [St.set, htu] using h1

theorem fits_after {f : Nat → Nat} {c : Nat → List Act} (hc : ∀ t, Good f [] (c t)) (sched : List Nat) :
    ∀ t, ∃ has, Fits f (after c sched) t has := by
  have key : ∀ (l : List Nat) (s : St), (∀ t, ∃ has, Fits f s t has) → ∀ t, ∃ has, Fits f (l.foldl St.step s) t has := by
    intro l
    induction l with
    | nil => exact fun s h => h
    | cons u l ih => exact fun s h => ih _ (fits_step h u)
  exact key sched _ fun t => ⟨[], hc t, by simp, by simp⟩

/-- A step that is taken uses up an action. -/
theorem step_rest (s : St) (t : Nat) :
    s.step t = s ∨ ∃ x, s.rest t = x :: (s.step t).rest t := by
  unfold St.step
  split
  · exact .inl rfl
  · next l p hp => exact .inr ⟨.req l, by simp [St.set, hp]⟩
  · next l p hp =>
    split
    · exact .inr ⟨.await l, by simp [St.set, hp]⟩
    · exact .inl rfl
  · next l p hp => exact .inr ⟨.rel l, by simp [St.set, hp]⟩

/-- The lock a call waits for. -/
def waits (s : St) (t : Nat) (l : Lock) : Prop := ∃ p, s.rest t = .await l :: p ∧ (s.queue l).head? ≠ some t

theorem unmoved {s : St} {t : Nat} (h : s.step t = s) : s.rest t = [] ∨ ∃ l, waits s t l := by
  have h' := congrArg (fun x => x.rest t) h
  match hp : s.rest t with
  | [] => exact .inl rfl
  | .req l :: p => simp [St.step, hp, St.set] at h'
  | .await l :: p =>
    right
    refine ⟨l, p, hp, fun hh => ?_⟩
    simp [St.step, hp, St.set, hh] at h'
  | .rel l :: p => simp [St.step, hp, St.set] at h'

theorem holder {f : Nat → Nat} {s : St} (h : ∀ t, ∃ has, Fits f s t has) {t : Nat} {l : Lock} (hw : waits s t l) :
    ∃ u, (s.queue l).head? = some u ∧ s.rest u ≠ [] ∧ ∀ l', waits s u l' → rank f l < rank f l' := by
  obtain ⟨p, hp, hne⟩ := hw
  obtain ⟨has, hg, hm, -⟩ := h t
  rw [hp] at hg
  obtain ⟨⟨has', rfl, -⟩, -⟩ := hg
  have ht : t ∈ s.queue l := (hm l).2 (by simp)
  match hq : (s.queue l).head? with
  | none => simp at hq; rw [hq] at ht; simp at ht
  | some u =>
    obtain ⟨hasu, hgu, hmu, -⟩ := h u
    have hu : l ∈ hasu := (hmu l).1 (List.mem_of_mem_head? (by simp [hq]))
    refine ⟨u, rfl, ?_, ?_⟩
    · intro hn; rw [hn] at hgu; simp [Good] at hgu; rw [hgu] at hu; simp at hu
    · rintro l' ⟨p', hp', hne'⟩
      rw [hp'] at hgu
      obtain ⟨⟨has'', rfl, hlt⟩, -⟩ := hgu
      rcases List.mem_cons.1 hu with rfl | hu
      · exact absurd hq hne'
      · exact hlt l hu

/-- The calls of the code without asynchronous links between two actors of this node; blocking ones are made in the order
`f` of the actors. `src/actor/actor_ref.rs` L553-565, L601-613, L720, `src/actor/kind.rs` L140, `src/actor/spawn.rs`
L517-567, `src/remote/_internal.rs` L95-292, `src/remote/swarm.rs` L791-818. -/
inductive Orderly (f : Nat → Nat) : List Act → Prop
  | none : Orderly f []
  | request : Orderly f requestProg
  | ends (a) : Orderly f (endProg a)
  | own (a) : Orderly f (ownLinksProg a)
  | remoteLink (a) : Orderly f (remoteLinkProg a)
  | sweep (as) : Orderly f (sweepProg as)
  | blocking (a b) : f a < f b → Orderly f (blockingProg a b)
  | blockingSelf (a) : Orderly f (blockingProg a a)
  | linkSelf (a) : Orderly f (linkProg a a)

theorem good_sweep (f : Nat → Nat) (as : List Nat) :
    Good f [.registry] (as.flatMap (fun a => moment (.links a)) ++ [.rel .registry]) := by
  induction as with
  | nil => simp [Good]
  | cons a as ih => simpa [Good, moment, rank] using ih

theorem Orderly.good {f : Nat → Nat} {p : List Act} (h : Orderly f p) : Good f [] p := by
  cases h with
  | sweep as => simpa [sweepProg, Good] using good_sweep f as
  | blocking a b hab =>
    have : a ≠ b := by rintro rfl; omega
    simp [blockingProg, this, Good, rank, hab]
  | blockingSelf a => simp [blockingProg, Good]
  | linkSelf a => simp [linkProg, Good]
  | _ => simp [requestProg, endProg, ownLinksProg, remoteLinkProg, moment, Good]

/-- **C67**, without the calls that link two actors of this node asynchronously: requests of other nodes, lookups,
registrations, ends of actors, remote links, closed connections, blocking links made in one order of the actors, and links
of an actor to itself never
bring the node to a standstill. Whatever has happened, as long as one of `n` calls is not over, one of them can go on; and
one that goes on has less to do. -/
theorem lost_connection_never_blocks_partial (f : Nat → Nat) (c : Nat → List Act) (n : Nat)
    (hc : ∀ t, Orderly f (c t)) (hn : ∀ t, n ≤ t → c t = []) (sched : List Nat) :
    (∀ t, (after c sched).rest t = []) ∨
      ∃ t, t < n ∧ ((after c sched).step t).rest t = ((after c sched).rest t).tail ∧ (after c sched).rest t ≠ [] := by
  have hfit := fits_after (fun t => (hc t).good) sched
  have hrest : ∀ t, n ≤ t → (after c sched).rest t = [] := by
    intro t ht
    have key : ∀ (l : List Nat) (s : St), s.rest t = [] → (l.foldl St.step s).rest t = [] := by
      intro l
      induction l with
      | nil => exact fun s h => h
      | cons u l ih =>
        intro s h
        refine ih _ ?_
        by_cases htu : t = u
        · subst htu
          rcases step_rest s t with h1 | ⟨x, h1⟩
          · rw [h1]; exact h
          · rw [h] at h1; cases h1
        · unfold St.step
          split
          · exact h
          · simpa [St.set, htu] using h
          · split
            · simpa [St.set, htu] using h
            · exact h
          · simpa [St.set, htu] using h
    exact key sched _ (hn t ht)
  generalize after c sched = s at *
  by_cases hstep : ∃ t, t < n ∧ s.step t ≠ s
  · obtain ⟨t, ht, hne⟩ := hstep
    rcases step_rest s t with h1 | ⟨x, h1⟩
    · exact absurd h1 hne
    · exact .inr ⟨t, ht, by rw [h1]; rfl, by rw [h1]; simp⟩
  · left
    have hall : ∀ t, t < n → s.step t = s := fun t ht => Classical.byContradiction fun h => hstep ⟨t, ht, h⟩
    refine fun t => Classical.byContradiction fun hne => ?_
    have hblk : ∀ t, s.rest t ≠ [] → t < n ∧ ∃ l, waits s t l := by
      intro t h
      have ht : t < n := Nat.lt_of_not_le fun hle => h (hrest t hle)
      exact ⟨ht, (unmoved (hall t ht)).resolve_left h⟩
    -- the rank of the lock a call waits for
    let g : Nat → Nat := fun t => match s.rest t with
      | .await l :: _ => rank f l
      | _ => 0
    have hg : ∀ t l, waits s t l → g t = rank f l := by
      rintro t l ⟨p, hp, -⟩; simp [g, hp]
    obtain ⟨m, hm, hmr, hmax⟩ := exists_max (P := fun t => s.rest t ≠ []) g n ⟨t, (hblk t hne).1, hne⟩
    obtain ⟨-, l, hw⟩ := hblk m hmr
    obtain ⟨u, -, hur, hlt⟩ := holder hfit hw
    obtain ⟨hun, l', hw'⟩ := hblk u hur
    have := hlt l' hw'
    have h2 := hmax u hun hur
    rw [hg _ _ hw, hg _ _ hw'] at h2
    omega

/-- A closed connection, a request, the end of actor 1 and a blocking link, all under way. -/
private def exOrderly : Nat → List Act := fun t =>
  if t = 0 then sweepProg [1, 0] else if t = 1 then requestProg else if t = 2 then endProg 1
  else if t = 3 then blockingProg 0 1 else []

example : (∀ t, Orderly id (exOrderly t)) ∧ (∀ t, 4 ≤ t → exOrderly t = []) := by
  constructor
  · intro t; unfold exOrderly
    split
    · exact .sweep _
    split
    · exact .request
    split
    · exact .ends _
    split
    · exact .blocking _ _ (by decide)
    · exact .none
  · intro t ht; simp [exOrderly, show t ≠ 0 by omega, show t ≠ 1 by omega, show t ≠ 2 by omega, show t ≠ 3 by omega]

/-- The sweep waits for the links of actor 1, which the blocking link holds; the request waits for the sweep. -/
example : waits (after exOrderly [3, 3, 3, 3, 0, 0, 0, 1]) 0 (.links 1) ∧
    waits (after exOrderly [3, 3, 3, 3, 0, 0, 0, 1]) 1 .registry := by
  exact ⟨⟨_, rfl, by decide⟩, ⟨_, rfl, by decide⟩⟩

end Verif.Locks.Registry
