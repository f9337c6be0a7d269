import Verif.Locks.Registry

/-
C67 on one thread: the calls of `Verif.Locks.Registry`, asynchronous links between any two actors among them, on a runtime
where a task is not interrupted between the two requests `tokio::join!` makes in one poll (`src/actor/actor_ref.rs`
L519-520, L641-642). That is so if all tasks run on one thread, and if the budget with which tokio makes tasks take turns
is not used up exactly between the two.
-/

namespace Verif.Locks.Registry

/-- The task of call `t` goes on: as `St.step`, and two requests made in one poll (`src/actor/actor_ref.rs` L519-520) are
not interrupted. -/
def St.turn (s : St) (t : Nat) : St :=
  match s.rest t with
  | .req _ :: .req _ :: _ => (s.step t).step t
  | _ => s.step t

/-- The calls `c` after such a schedule. `src/actor/actor_ref.rs` L514-684. -/
def turns (c : Nat → List Act) (sched : List Nat) : St := sched.foldl St.turn { rest := c }

/-- The calls of the code, without the blocking links; links of any two actors in any order. `src/actor/actor_ref.rs`
L514-526, L601-613, L637-646, L720, `src/actor/kind.rs` L140, `src/actor/spawn.rs` L517-567,
`src/remote/_internal.rs` L95-292, `src/remote/swarm.rs` L791-818. -/
inductive Async : List Act → Prop
  | none : Async []
  | request : Async requestProg
  | ends (a) : Async (endProg a)
  | own (a) : Async (ownLinksProg a)
  | remoteLink (a) : Async (remoteLinkProg a)
  | sweep (as) : Async (sweepProg as)
  | link (a b) : Async (linkProg a b)

/-- Is it the lock of a link set? -/
def Lock.isLinks : Lock → Bool
  | .links _ => true
  | .registry => false

/-- With the locks `has` requested, the rest of a program asks for locks only when it has no link sets, for two of them at
once at most, and does not wait for the registry while it has link sets. -/
def Tame : List Lock → List Act → Prop
  | has, [] => has = []
  | has, .req l :: .req l' :: p => l ≠ l' ∧ (∀ k ∈ has, k.isLinks = false) ∧ Tame (l' :: l :: has) p
  | has, .req l :: p => (∀ k ∈ has, k.isLinks = false) ∧ Tame (l :: has) p
  | has, .await l :: p => l ∈ has ∧ (l = .registry → ∀ k ∈ has, k.isLinks = false) ∧ Tame has p
  | has, .rel l :: p => Tame (has.filter (· != l)) p

/-- Every call is in the queues of the locks it has asked for, and there is a time for each call's latest requests by which
the queues of the link sets are ordered. -/
structure Timed (s : St) (w : Nat → Nat) (now : Nat) : Prop where
  fits : ∀ t, ∃ has, Tame has (s.rest t) ∧ ∀ l, t ∈ s.queue l ↔ l ∈ has
  past : ∀ t, w t < now
  sorted : ∀ x, (s.queue (.links x)).Pairwise (fun t u => w t < w u)

/-- The requests of one poll. -/
theorem timed_request {s : St} {w : Nat → Nat} {now : Nat} (h : Timed s w now) (t : Nat) (ls : List Lock) (p : List Act)
    (has : List Lock) (hm : ∀ l, t ∈ s.queue l ↔ l ∈ has) (hn : ∀ k ∈ has, k.isLinks = false)
    (htame : Tame (ls.reverse ++ has) p) :
    ∃ w' now', Timed { rest := fun u => if u = t then p else s.rest u,
                       queue := fun x => if x ∈ ls then s.queue x ++ [t] else s.queue x } w' now' := by
  refine ⟨fun u => if u = t then now else w u, now + 1, ?_, ?_, ?_⟩
  · intro u
    by_cases hu : u = t
    · subst hu
      refine ⟨ls.reverse ++ has, by simpa using htame, ?_⟩
      intro l
      by_cases hl : l ∈ ls <;> simp [hl, hm]
    · obtain ⟨hasu, h1, h2⟩ := h.fits u
      refine ⟨hasu, by simpa [hu] using h1, ?_⟩
      intro l
      by_cases hl : l ∈ ls <;> simp [hl, h2, hu]
  · intro u
    have := h.past u
    split <;> omega
  · intro x
    have ht : t ∉ s.queue (.links x) := by
      intro hmem
      have := hn _ ((hm _).1 hmem)
      simp [Lock.isLinks] at this
    have hold : (s.queue (.links x)).Pairwise
        (fun a b => (if a = t then now else w a) < (if b = t then now else w b)) := by
      refine (h.sorted x).imp_of_mem ?_
      intro a b ha hb hab
      have : a ≠ t := fun e => ht (e ▸ ha)
      have : b ≠ t := fun e => ht (e ▸ hb)
      simp [*]
    dsimp only
    split
    · rw [List.pairwise_append]
      refine ⟨hold, by simp, ?_⟩
      intro a ha b hb
      have hb' : b = t := by simpa using hb
      have : a ≠ t := fun e => ht (e ▸ ha)
      have := h.past a
      simp [*]
    · exact hold

theorem timed_turn {s : St} (h : ∃ w now, Timed s w now) (t : Nat) : ∃ w now, Timed (s.turn t) w now := by
  obtain ⟨w, now, h⟩ := h
  obtain ⟨has, hg, hm⟩ := h.fits t
  match hp : s.rest t with
  | [] => exact ⟨w, now, by simpa [St.turn, St.step, hp] using h⟩
  | .req l :: .req l' :: p =>
    rw [hp] at hg
    obtain ⟨hne, hn, hg⟩ := hg
    have e : s.turn t = { rest := fun u => if u = t then p else s.rest u,
                          queue := fun x => if x ∈ [l, l'] then s.queue x ++ [t] else s.queue x } := by
      have e1 : s.step t = { s.set t (.req l' :: p) with queue := fun x => if x = l then s.queue x ++ [t] else s.queue x } := by
        simp [St.step, hp]
      have e2 : (s.step t).rest t = .req l' :: p := by simp [e1, St.set]
      simp only [St.turn, hp]
      have e3 : ∀ s' : St, s'.rest t = .req l' :: p → s'.step t =
          { s'.set t p with queue := fun x => if x = l' then s'.queue x ++ [t] else s'.queue x } := by
        intro s' h'
        simp [St.step, h']
      rw [e3 _ e2, e1]
      simp only [St.set, St.mk.injEq]
      constructor
      · funext x
        by_cases h1 : x = l
        · have : x ≠ l' := h1 ▸ hne
          simp [h1, hne]
        · simp [h1]
      · funext u
        by_cases hu : u = t <;> simp [hu]
    rw [e]
    exact timed_request h t [l, l'] p has hm hn (by simpa using hg)
  | .req l :: [] =>
    rw [hp] at hg
    obtain ⟨hn, hg⟩ := hg
    have := timed_request h t [l] [] has hm hn (by simpa using hg)
    simpa [St.turn, St.step, hp, St.set] using this
  | .req l :: .await k :: p =>
    rw [hp] at hg
    obtain ⟨hn, hg⟩ := hg
    have := timed_request h t [l] (.await k :: p) has hm hn (by simpa using hg)
    simpa [St.turn, St.step, hp, St.set] using this
  | .req l :: .rel k :: p =>
    rw [hp] at hg
    obtain ⟨hn, hg⟩ := hg
    have := timed_request h t [l] (.rel k :: p) has hm hn (by simpa using hg)
    simpa [St.turn, St.step, hp, St.set] using this
  | .await l :: p =>
    rw [hp] at hg
    obtain ⟨hl, hr, hg⟩ := hg
    by_cases hh : (s.queue l).head? = some t
    · refine ⟨w, now, ?_, h.past, ?_⟩
      · intro u
        by_cases hu : u = t
        · subst hu
          exact ⟨has, by simpa [St.turn, St.step, hp, St.set, hh] using hg, by simpa [St.turn, St.step, hp, St.set, hh] using hm⟩
        · obtain ⟨hasu, h1, h2⟩ := h.fits u
          exact ⟨hasu, by simpa [St.turn, St.step, hp, St.set, hh, hu] using h1, by simpa [St.turn, St.step, hp, St.set, hh] using h2⟩
      · simpa [St.turn, St.step, hp, St.set, hh] using h.sorted
    · exact ⟨w, now, by simpa [St.turn, St.step, hp, hh] using h⟩
  | .rel l :: p =>
    rw [hp] at hg
    refine ⟨w, now, ?_, h.past, ?_⟩
    · intro u
      by_cases hu : u = t
      · subst hu
        refine ⟨has.filter (· != l), by simpa [St.turn, St.step, hp, St.set, Tame] using hg, ?_⟩
        intro k
        by_cases hk : k = l <;> simp [St.turn, St.step, hp, St.set, hk, hm]
      · obtain ⟨hasu, h1, h2⟩ := h.fits u
        refine ⟨hasu, by simpa [St.turn, St.step, hp, St.set, hu] using h1, ?_⟩
        intro k
        by_cases hk : k = l
        · subst hk; simp [St.turn, St.step, hp, St.set, hu, h2]
        · simp [St.turn, St.step, hp, St.set, hk, h2]
    · intro x
      have := h.sorted x
      by_cases hk : Lock.links x = l
      · simpa [St.turn, St.step, hp, St.set, hk] using (hk ▸ this).filter _
      · simpa [St.turn, St.step, hp, St.set, hk] using this

theorem tame_sweep (as : List Nat) :
    Tame [.registry] (as.flatMap (fun a => moment (.links a)) ++ [.rel .registry]) := by
  induction as with
  | nil => simp [Tame]
  | cons a as ih => simpa [Tame, moment, Lock.isLinks] using ih

theorem Async.tame {p : List Act} (h : Async p) : Tame [] p := by
  cases h with
  | sweep as => simpa [sweepProg, Tame, Lock.isLinks] using tame_sweep as
  | link a b =>
    by_cases hab : a = b
    · simp [linkProg, hab, Tame]
    · have hba : b ≠ a := fun e => hab e.symm
      simp [linkProg, hab, hba, Tame]
  | _ => simp [requestProg, endProg, ownLinksProg, remoteLinkProg, moment, Tame, Lock.isLinks]

theorem timed_turns {c : Nat → List Act} (hc : ∀ t, Async (c t)) (sched : List Nat) :
    ∃ w now, Timed (turns c sched) w now := by
  have key : ∀ (l : List Nat) (s : St), (∃ w now, Timed s w now) → ∃ w now, Timed (l.foldl St.turn s) w now := by
    intro l
    induction l with
    | nil => exact fun s h => h
    | cons u l ih => exact fun s h => ih _ (timed_turn h u)
  exact key sched _ ⟨fun _ => 0, 1, fun t => ⟨[], (hc t).tame, by simp⟩, by simp, by simp⟩

theorem turn_other (s : St) {t u : Nat} (h : t ≠ u) : (s.turn u).rest t = s.rest t := by
  have hs : ∀ s : St, (s.step u).rest t = s.rest t := by
    intro s
    unfold St.step
    split
    · rfl
    · simp [St.set, h]
    · split
      · simp [St.set, h]
      · rfl
    · simp [St.set, h]
  unfold St.turn
  split
  · rw [hs, hs]
  · exact hs s

/-- A turn that is taken uses up an action or two. -/
theorem turn_rest (s : St) (t : Nat) : s.turn t = s ∨ ((s.turn t).rest t).length < (s.rest t).length := by
  unfold St.turn
  split
  · next l l' p hp =>
    right
    rcases step_rest s t with h1 | ⟨x, h1⟩
    · exfalso
      have := congrArg (fun x => x.rest t) h1
      simp [St.step, hp, St.set] at this
    · rcases step_rest (s.step t) t with h2 | ⟨y, h2⟩
      · rw [h2, h1]; simp
      · rw [h1, h2]; simp; omega
  · rcases step_rest s t with h1 | ⟨x, h1⟩
    · exact .inl h1
    · right; rw [h1]; simp

theorem unturned {s : St} {t : Nat} (h : s.turn t = s) : s.rest t = [] ∨ ∃ l, waits s t l := by
  refine unmoved ?_
  rcases step_rest s t with h1 | ⟨x, h1⟩
  · exact h1
  · exfalso
    unfold St.turn at h
    split at h
    · rcases step_rest (s.step t) t with h2 | ⟨y, h2⟩
      · rw [h2] at h; rw [h] at h1
        have := congrArg List.length h1
        simp at this
      · rw [h] at h2; rw [h2] at h1
        have := congrArg List.length h1
        simp at this
        omega
    · rw [h] at h1
      have := congrArg List.length h1
      simp at this

/-- **C67**, for asynchronous links, if all tasks run on one thread and none is interrupted between the two requests of a
link: whatever links of whatever actors are under way, in whatever directions, a closed connection does not bring the node
to a standstill. Whatever has happened, as long as one of `n` calls is not over, one of them can go on; and one that goes
on has less to do. Together with `lost_connection_blocks_node`: it is the second thread that makes the difference.

Missing from the full claim: several threads, and blocking links; false there, see `lost_connection_blocks_node` and
`blocking_links_block_node`. -/
theorem lost_connection_one_thread_partial (c : Nat → List Act) (n : Nat)
    (hc : ∀ t, Async (c t)) (hn : ∀ t, n ≤ t → c t = []) (sched : List Nat) :
    (∀ t, (turns c sched).rest t = []) ∨
      ∃ t, t < n ∧ (((turns c sched).turn t).rest t).length < ((turns c sched).rest t).length := by
  obtain ⟨w, now, hT⟩ := timed_turns hc sched
  have hrest : ∀ t, n ≤ t → (turns c sched).rest t = [] := by
    intro t ht
    have key : ∀ (l : List Nat) (s : St), s.rest t = [] → (l.foldl St.turn s).rest t = [] := by
      intro l
      induction l with
      | nil => exact fun s h => h
      | cons u l ih =>
        intro s h
        refine ih _ ?_
        by_cases htu : t = u
        · subst htu
          rcases turn_rest s t with h1 | h1
          · rw [h1]; exact h
          · rw [h] at h1; simp at h1
        · rw [turn_other s htu]; exact h
    exact key sched _ (hn t ht)
  generalize turns c sched = s at *
  by_cases hstep : ∃ t, t < n ∧ s.turn t ≠ s
  · obtain ⟨t, ht, hne⟩ := hstep
    exact .inr ⟨t, ht, (turn_rest s t).resolve_left hne⟩
  · left
    have hall : ∀ t, t < n → s.turn t = s := fun t ht => Classical.byContradiction fun h => hstep ⟨t, ht, h⟩
    have hblk : ∀ t, s.rest t ≠ [] → t < n ∧ ∃ l, waits s t l := by
      intro t h
      have ht : t < n := Nat.lt_of_not_le fun hle => h (hrest t hle)
      exact ⟨ht, (unturned (hall t ht)).resolve_left h⟩
    -- who waits for a lock, waits for somebody who is not over
    have hhead : ∀ t l, waits s t l → ∃ u, (s.queue l).head? = some u ∧ u ≠ t ∧ t ∈ s.queue l ∧ s.rest u ≠ [] := by
      rintro t l ⟨p, hp, hne⟩
      obtain ⟨has, hg, hm⟩ := hT.fits t
      rw [hp] at hg
      have ht : t ∈ s.queue l := (hm l).2 hg.1
      match hq : (s.queue l).head? with
      | none => simp at hq; rw [hq] at ht; simp at ht
      | some u =>
        refine ⟨u, rfl, fun e => hne (e ▸ hq), ht, ?_⟩
        obtain ⟨hasu, hgu, hmu⟩ := hT.fits u
        have hu : l ∈ hasu := (hmu l).1 (List.mem_of_mem_head? (by simp [hq]))
        intro h0
        rw [h0] at hgu
        simp [Tame] at hgu
        rw [hgu] at hu
        simp at hu
    -- nobody waits for links
    have hlinks : ∀ k t x, w t < k → ¬ waits s t (.links x) := by
      intro k
      induction k with
      | zero => intro t x hk; omega
      | succ k ih =>
        intro t x hk hw
        obtain ⟨u, hq, hut, ht, hur⟩ := hhead t _ hw
        have hlt : w u < w t := by
          obtain ⟨q, hq'⟩ : ∃ q, s.queue (.links x) = u :: q := by
            cases hqq : s.queue (.links x) with
            | nil => rw [hqq] at hq; simp at hq
            | cons v q => rw [hqq] at hq; simp at hq; exact ⟨q, by rw [hq]⟩
          have hs := hT.sorted x
          rw [hq'] at hs ht
          rcases List.mem_cons.1 ht with h1 | h1
          · exact absurd h1.symm hut
          · exact (List.pairwise_cons.1 hs).1 t h1
        obtain ⟨-, l', hw'⟩ := hblk u hur
        cases l' with
        | links y => exact ih u y (by omega) hw'
        | registry =>
          obtain ⟨p, hp, -⟩ := hw'
          obtain ⟨hasu, hgu, hmu⟩ := hT.fits u
          have hu : Lock.links x ∈ hasu := (hmu _).1 (List.mem_of_mem_head? (by simp [hq]))
          rw [hp] at hgu
          have := hgu.2.1 rfl _ hu
          simp [Lock.isLinks] at this
    refine fun t => Classical.byContradiction fun hne => ?_
    obtain ⟨-, l, hw⟩ := hblk t hne
    cases l with
    | links x => exact hlinks (w t + 1) t x (by omega) hw
    | registry =>
      obtain ⟨u, hq, -, -, hur⟩ := hhead t _ hw
      obtain ⟨-, l', hw'⟩ := hblk u hur
      cases l' with
      | links x => exact hlinks (w u + 1) u x (by omega) hw'
      | registry => obtain ⟨p, -, h⟩ := hw'; exact h hq

/-- The calls that bring a node with two threads to a standstill: two links from both sides, a closed connection, a
lookup. On one thread all of them come to their ends. -/
private def exBoth : Nat → List Act := fun t =>
  if t = 0 then linkProg 0 1 else if t = 1 then linkProg 1 0 else if t = 2 then sweepProg [0, 1]
  else if t = 3 then requestProg else []

example : (∀ t, Async (exBoth t)) ∧ (∀ t, 4 ≤ t → exBoth t = []) ∧ (turns exBoth [0, 1, 2, 3, 2, 2]).rest 0 ≠ [] ∧
    (∀ t < 4, (turns exBoth ([0, 1, 2, 3, 2, 2] ++ [0, 0, 0, 0] ++ [1, 1, 1, 1] ++ [2, 2, 2, 2, 2, 2, 2] ++ [3, 3])).rest t = []) := by
  refine ⟨?_, ?_, by decide, by decide⟩
  · intro t; unfold exBoth
    split
    · exact .link _ _
    split
    · exact .link _ _
    split
    · exact .sweep _
    split
    · exact .request
    · exact .none
  · intro t ht; simp [exBoth, show t ≠ 0 by omega, show t ≠ 1 by omega, show t ≠ 2 by omega, show t ≠ 3 by omega]

end Verif.Locks.Registry
