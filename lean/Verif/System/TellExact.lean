import Verif.System.Unlinked

/-!
C23, C71, C87: exactly who is told of the end of an actor.
-/

namespace Verif.System

open Verif.Mailbox Verif.Lifecycle

/-! ### Specification -/

/-- `i` left its loop with reason `r` at some point of the history with `j` in its link set; and what ended its loop was not its own
`on_link_died` for `j`. -/
def LeftStillLinked (cap : Id → Option Nat) (ops : List SOp) (i j : Id) (r : Reason) : Prop :=
  ∃ pre op post, ops = pre ++ op :: post ∧ ((sysAfter cap pre).act i).phase.inLoop = true ∧
    j ∈ ((sysAfter cap pre).act i).links ∧ (∃ P, ((sysAfter cap (pre ++ [op])).act i).phase = .stopping r P true) ∧
    ¬ ((∃ r0, ((sysAfter cap pre).act i).phase = .linkDying j r0) ∧ ∃ o, op = .loc i (.linkEnd o))

/-! ### Lemmas -/

private theorem drain_leaves {a : St} {rest : List Msg} {ts : Bool} {r : Reason} {P : List Id}
    (h : (a.drain rest ts).phase = .stopping r P true) : P = a.links := by
  cases rest with
  | cons m ms => simp [St.drain] at h
  | nil => cases ts <;> simp [St.drain] at h; exact h.2.symm

/-- What an actor takes with it when it leaves its loop: its links, but for the one whose death it has just heard of. -/
theorem leaves_with (s : St) (o : Op) {r : Reason} {P : List Id} (hl : s.phase.inLoop = true)
    (h : (s.step o).phase = .stopping r P true) :
    (P = s.links ∧ ∀ fo, o ≠ .linkEnd fo) ∨ ∃ id r0 fo, s.phase = .linkDying id r0 ∧ o = .linkEnd fo ∧ P = s.links.filter (· != id) := by
  have hns : ∀ r P b, s.phase ≠ .stopping r P b := by
    intro r P b e; rw [e] at hl; cases hl
  by_cases hd : ∃ id r0, s.phase = .linkDying id r0
  · obtain ⟨id, r0, hd⟩ := hd
    cases o with
    | linkEnd fo =>
      refine Or.inr ⟨id, r0, fo, hd, rfl, ?_⟩
      simp only [St.step, hd] at h
      split at h
      · cases fo with
        | cont => simp [St.linkEnd] at h
        | brk r' => cases r' <;> simp [St.linkEnd, St.onShutdown, St.leave] at h <;> exact h.2.symm
        | err e => simp [St.linkEnd, St.onShutdown] at h
        | panic e => simp [St.linkEnd, St.onShutdown] at h
      · exact absurd (hd ▸ h) (by simp)
    | pollBegin =>
      refine Or.inl ⟨?_, by simp⟩
      simp only [St.step] at h
      split at h
      · split at h
        · simp [St.abortSeen] at h; exact h.2.symm
        · exact absurd h (hns _ _ _)
      · exact absurd h (hns _ _ _)
    | pollEnd =>
      refine Or.inl ⟨?_, by simp⟩
      simp only [St.step] at h
      split at h
      · split at h
        · simp [St.abortSeen] at h; exact h.2.symm
        · exact absurd h (hns _ _ _)
      · exact absurd h (hns _ _ _)
    | delegSend t r => simp only [St.step] at h; split at h <;> simp [hd, St.ev] at h
    | delegDrop t => simp only [St.step] at h; split at h <;> simp [hd] at h
    | giveUp t => simp only [St.step] at h; split at h <;> simp [hd] at h
    | cloneRef => simp only [St.step] at h; split at h <;> simp [hd] at h
    | teardown => simp [St.step, hd, St.crash] at h
    | _ => simp [St.step, hd] at h
  · refine Or.inl ⟨?_, ?_⟩
    case refine_2 =>
      rintro fo rfl
      simp only [St.step] at h
      split at h
      · next id r0 hp => exact hd ⟨id, r0, hp⟩
      · exact hns _ _ _ h
    have ht := step_tr s o
    generalize s.step o = s' at ht h
    cases ht with
    | recvNone hp => rw [drain_leaves h]; simp [St.ev]
    | recvStartup hp => rw [drain_leaves h]; simp
    | recvStop hp => rw [drain_leaves h]; simp [St.ev]
    | handlerReply _ _ _ _ hp => rw [drain_leaves h]; simp [St.ev]
    | handlerOk _ _ _ _ _ hp => rw [drain_leaves h]; simp [St.ev]
    | abort hp => simp [St.abortSeen] at h; exact h.2.symm
    | linkStop id r0 _ hp => exact absurd ⟨id, r0, hp⟩ hd
    | panicStop _ _ _ hp => simp [St.leave, St.ev] at h; exact h.2.symm
    | startOk => rw [(startOk_fields s).2.1] at h; cases h
    | startFail => simp [St.startFail] at h
    | startPanicStop => simp [St.stopFailed] at h
    | teardown => simp [St.crash] at h
    | refl => exact absurd h (hns _ _ _)
    | _ =>
      first
        | (exfalso; simp [St.step, St.ev] at h; done)
        | (simp [St.step, St.ev] at h; exact absurd h (hns _ _ _))

/-- The same in a system: only a step of its own takes an actor out of its loop. -/
theorem leaves_sys (S : Sys) (op : SOp) (i : Id) {r : Reason} {P : List Id} (hl : (S.act i).phase.inLoop = true)
    (h : ((S.step op).act i).phase = .stopping r P true) :
    P = (S.act i).links ∨ ∃ id r0 fo, (S.act i).phase = .linkDying id r0 ∧ op = .loc i (.linkEnd fo) ∧
      P = (S.act i).links.filter (· != id) := by
  have hns : (S.act i).phase ≠ .stopping r P true := by
    intro e; rw [e] at hl; cases hl
  cases op with
  | loc k o =>
    simp only [Sys.step] at h
    split at h
    · simp only [set_act] at h
      split at h
      · next e =>
        subst e
        rcases leaves_with _ o hl h with ⟨h2, _⟩ | ⟨id, r0, fo, h2, rfl, h3⟩
        · exact Or.inl h2
        · exact Or.inr ⟨id, r0, fo, h2, rfl, h3⟩
      · exact absurd h hns
    · exact absurd h hns
  | link a b =>
    exfalso
    apply hns
    simp only [Sys.step] at h
    split at h
    · exact h
    · simp only [set_act, St.step] at h
      split at h
      · next e => subst e; exact h
      · split at h
        · next e => subst e; exact h
        · exact h
  | unlink a b =>
    exfalso
    apply hns
    simp only [Sys.step] at h
    split at h
    · exact h
    · simp only [set_act, St.step] at h
      split at h
      · next e => subst e; exact h
      · split at h
        · next e => subst e; exact h
        · exact h
  | notifyStart a b =>
    exfalso
    apply hns
    simp only [Sys.step] at h
    split at h
    · split at h
      · simp only [set_act, St.step] at h
        split at h
        · next e => subst e; exact h
        · exact h
      · exact h
    · exact h
  | notifyEnd a b =>
    exfalso
    apply hns
    simp only [Sys.step] at h
    split at h
    · split at h
      · exact h
      · simp only [set_act] at h
        split at h
        · next e =>
          subst e
          simp only [St.step] at h
          split at h
          · split at h
            · simp at h
            · exact h
          · exact h
        · exact h
    · exact h

/-! ### Theorem -/

/-- **C23**, **C71**, **C87** — exactly who is told, and how often. When `i` has stopped, with reason `r`, the actors it has told are
exactly those that were in its link set when it left its loop, whenever those links were made and whatever was called afterwards, except
one for whose death its own `on_link_died` had just stopped it; each was told once, with the reason, and the signal is in its mailbox
unless that was closed. Everybody else was told nothing. In particular nobody is told of an actor whose `on_start` failed, since it
was never in its loop. -/
theorem told_iff_left_linked (cap : Id → Option Nat) (ops : List SOp) (i j : Id) (r : Reason)
    (h : ((sysAfter cap ops).act i).phase = .stopped r) :
    (LeftStillLinked cap ops i j r ↔ toldBy i ((sysAfter cap ops).act j) = [r]) ∧
    (LeftStillLinked cap ops i j r → (∃ t, (t, .linkDied i r) ∈ ((sysAfter cap ops).act j).mb.pushed) ∨
      ((sysAfter cap ops).act j).mb.closed = true) ∧
    (¬ LeftStillLinked cap ops i j r ↔ toldBy i ((sysAfter cap ops).act j) = []) := by
  have h1 : LeftStillLinked cap ops i j r → toldBy i ((sysAfter cap ops).act j) = [r] ∧
      ((∃ t, (t, .linkDied i r) ∈ ((sysAfter cap ops).act j).mb.pushed) ∨ ((sysAfter cap ops).act j).mb.closed = true) := by
    rintro ⟨pre, op, post, rfl, hl, hj, ⟨P, hP⟩, hno⟩
    have h' : ((sysAfter cap ((pre ++ [op]) ++ post)).act i).phase = .stopped r := by simpa using h
    have ht := ((linked_actors_told_exactly_once_partial cap (pre ++ [op]) post i r r P hP h').2 j).1
    have hjP : j ∈ P := by
      rw [sysAfter_snoc] at hP
      rcases leaves_sys _ op i hl hP with rfl | ⟨id, r0, fo, h2, h3, rfl⟩
      · exact hj
      · refine List.mem_filter.mpr ⟨hj, ?_⟩
        simp only [bne_iff_ne, ne_eq]
        rintro rfl
        exact hno ⟨⟨r0, h2⟩, fo, h3⟩
    simpa using ht hjP
  have h2 : ∀ r', r' ∈ toldBy i ((sysAfter cap ops).act j) → LeftStillLinked cap ops i j r := by
    intro r' hm
    obtain ⟨⟨i', r''⟩, hm', rfl⟩ := List.mem_map.mp hm
    obtain ⟨hd, e⟩ := List.mem_filter.mp hm'
    simp at e
    subst e
    obtain ⟨pre, op, post, rfl, hl, hj, P, hP⟩ := told_left_linked cap ops i' j r'' hd
    have h' : ((sysAfter cap ((pre ++ [op]) ++ post)).act i').phase = .stopped r := by simpa using h
    obtain ⟨rfl, ht⟩ := linked_actors_told_exactly_once_partial cap (pre ++ [op]) post i' r'' r P hP h'
    have hjP : j ∈ P := by
      apply Classical.byContradiction
      intro hn
      have h3 := (ht j).2 hn
      have h4 : r ∈ toldBy i' ((sysAfter cap ((pre ++ [op]) ++ post)).act j) :=
        List.mem_map.mpr ⟨(i', r), List.mem_filter.mpr ⟨by simpa using hd, by simp⟩, rfl⟩
      rw [h3] at h4
      cases h4
    refine ⟨pre, op, post, rfl, hl, hj, ⟨P, hP⟩, ?_⟩
    rintro ⟨⟨r0, h3⟩, fo, rfl⟩
    rw [sysAfter_snoc] at hP
    rcases leaves_with _ (.linkEnd fo) hl (by
      have hv := hP
      simp only [Sys.step] at hv
      split at hv
      · simpa using hv
      · rw [h3] at hv; cases hv) with ⟨_, e⟩ | ⟨id, r1, _, h4, _, rfl⟩
    · exact e fo rfl
    · rw [h3] at h4
      cases h4
      simp at hjP
  refine ⟨⟨fun hL => (h1 hL).1, fun ht => h2 r (by rw [ht]; simp)⟩, fun hL => (h1 hL).2, ?_, ?_⟩
  · intro hn
    cases ht : toldBy i ((sysAfter cap ops).act j) with
    | nil => rfl
    | cons r' l => exact absurd (h2 r' (by rw [ht]; simp)) hn
  · intro ht hL
    rw [(h1 hL).1] at ht
    cases ht

/-- 0 is linked with 1 before either runs, and with 2 and 3 later, unlinked from 2 in time and from 3 too late: 1 and 3 are told. -/
def tellDemo : List SOp := [.link 1 0] ++ spawnDemo 0 ++ [.link 0 2, .link 3 0, .unlink 0 2, .loc 0 .kill, .loc 0 .pollEnd,
  .unlink 0 3, .link 0 4, .loc 0 (.stopEnd .ok), .notifyStart 0 1, .notifyEnd 0 1, .notifyStart 0 3, .notifyEnd 0 3, .loc 0 .finish]

example : ((sysAfter (fun _ => none) tellDemo).act 0).phase = .stopped .killed ∧
    LeftStillLinked (fun _ => none) tellDemo 0 1 .killed ∧ LeftStillLinked (fun _ => none) tellDemo 0 3 .killed ∧
    toldBy 0 ((sysAfter (fun _ => none) tellDemo).act 2) = [] ∧ toldBy 0 ((sysAfter (fun _ => none) tellDemo).act 4) = [] := by
  refine ⟨by decide, ⟨tellDemo.take 9, .loc 0 .pollEnd, tellDemo.drop 10, by decide, by decide, by decide, ⟨[1, 3], by decide⟩, ?_⟩,
    ⟨tellDemo.take 9, .loc 0 .pollEnd, tellDemo.drop 10, by decide, by decide, by decide, ⟨[1, 3], by decide⟩, ?_⟩, by decide,
    by decide⟩
  all_goals
    rintro ⟨_, o, h⟩
    cases h

/-- 1 is stopped by its `on_link_died` for 0 and tells 2, but not 0. -/
example : ((sysAfter (fun _ => none) liveDemo).act 1).phase = .stopped (.linkDied 0 .killed) ∧
    toldBy 1 ((sysAfter (fun _ => none) liveDemo).act 2) = [.linkDied 0 .killed] ∧
    toldBy 1 ((sysAfter (fun _ => none) liveDemo).act 0) = [] := by decide

end Verif.System
