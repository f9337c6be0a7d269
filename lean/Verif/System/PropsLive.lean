import Verif.System.Live
import Verif.Lifecycle.LinkHook

/-!
Property theorems about fair executions of systems (`SysFair`, `Verif/System/Live.lean`): the liveness parts of C23, C24
and C27.
-/

set_option linter.unusedSimpArgs false

namespace Verif.System

open Verif.Mailbox Verif.Lifecycle

/-- Nobody waits for room in an unbounded mailbox. -/
theorem no_wait_unbounded {cap : Id → Option Nat} {j : Id} (hcap : cap j = none) (ops : Nat → SOp) (n t : Nat) :
    pendingIn ((sysUpto cap ops n).act j) t = false := by
  have h : ((sysUpto cap ops n).act j).mb.cap = none := by
    obtain ⟨l, hl⟩ := actor_history cap ((List.range n).map ops) j
    change (sysUpto cap ops n).act j = _ at hl
    rw [hl, hcap]
    clear hl
    refine after_induct (cap := none) (P := fun _ s => s.mb.cap = none) rfl ?_ l
    intro ops op ih
    by_cases hc : ∃ t, op = .cancel t
    · obtain ⟨t, rfl⟩ := hc
      exact (step_cap _ (.cancel t)).trans ih
    · rcases step_mb_one (after none ops) op (fun t e => hc ⟨t, e⟩) with e | ⟨mop, e, _⟩
      · rw [e]; exact ih
      · rw [e, step_cap]; exact ih
  simp [pendingIn, pendingIn_closed (sysUpto_good cap ops n j).shape.mb (Or.inr h)]

/-- In a system with unbounded mailboxes notifications get through. -/
theorem through_unbounded {cap : Id → Option Nat} (hcap : ∀ x, cap x = none) (ops : Nat → SOp) : Through cap ops :=
  fun n _ j t _ => ⟨n, Nat.le_refl _, no_wait_unbounded (hcap j) ops n t⟩

theorem sysUpto_split (cap : Id → Option Nat) (ops : Nat → SOp) {n k : Nat} (h : n ≤ k) :
    sysUpto cap ops k = sysAfter cap ((List.range n).map ops ++ (List.range (k - n)).map (fun i => ops (n + i))) := by
  obtain ⟨d, rfl⟩ := Nat.exists_eq_add_of_le h
  simp [sysUpto, List.range_add, Function.comp_def]

theorem spread_live {cap : Id → Option Nat} {ops : Nat → SOp} {n0 : Nat}
    (h0 : ∀ x, ¬ ((sysUpto cap ops n0).act x).phase.out)
    (h1 : ∀ x, ((sysUpto cap ops n0).act x).links ≠ [] → ((sysUpto cap ops n0).act x).phase.inLoop = true)
    (hc : ∀ n, n0 ≤ n → (ops n).calm = true) {n : Nat} (hn : n0 ≤ n) :
    Spread (fun i => ((sysUpto cap ops n0).act i).links) (sysUpto cap ops n) := by
  rw [sysUpto_split cap ops hn]
  refine spread cap _ _ ?_ h0 h1
  simp only [List.all_eq_true, List.mem_map, forall_exists_index, and_imp]
  rintro _ i _ rfl
  exact hc _ (by omega)

theorem sys_out_mono {cap : Id → Option Nat} {ops : Nat → SOp} {n k : Nat} (h : n ≤ k) {x : Id}
    (ho : ((sysUpto cap ops n).act x).phase.out) : ((sysUpto cap ops k).act x).phase.out := by
  induction h with
  | refl => exact ho
  | step _ ih => rw [sysUpto_succ]; exact (out_tr ih (view_tr (view _ _ x))).1

theorem sys_log_mono {cap : Id → Option Nat} {ops : Nat → SOp} {n k : Nat} (h : n ≤ k) {x : Id} {e : Ev}
    (ho : e ∈ ((sysUpto cap ops n).act x).log) : e ∈ ((sysUpto cap ops k).act x).log := by
  induction h with
  | refl => exact ho
  | step _ ih =>
    rw [sysUpto_succ]
    obtain ⟨y, hy⟩ := view_log (view (sysUpto cap ops _) (ops _) x)
    rw [hy]
    simp [ih]

/-! ### Fair executions to show -/

/-- The operations of `l`, and then nothing any more: polling a send that was never made has no effect. No code in /repo
corresponds to it; it is the idle rest of an execution. -/
def sysQuiet (l : List SOp) : Nat → SOp := fun n => (l[n]?).getD (.loc 0 (.poll 0))

theorem sysQuiet_take (cap : Id → Option Nat) (l : List SOp) {n : Nat} (h : n ≤ l.length) :
    sysUpto cap (sysQuiet l) n = sysAfter cap (l.take n) := by
  induction n with
  | zero => rfl
  | succ n ih =>
    have hn : n < l.length := by omega
    have hq : sysQuiet l n = l[n] := by simp [sysQuiet, List.getElem?_eq_getElem hn]
    rw [sysUpto_succ, ih (by omega), hq]
    unfold sysAfter Sys.exec
    rw [List.take_succ_eq_append_getElem hn, List.foldl_append]
    rfl

theorem sysQuiet_rest (cap : Id → Option Nat) (l : List SOp)
    (hg : ((sysAfter cap l).act 0).mb.granted = []) {n : Nat} (h : l.length ≤ n) :
    sysUpto cap (sysQuiet l) n = sysAfter cap l := by
  have hs : (sysAfter cap l).step (.loc 0 (.poll 0)) = sysAfter cap l := by
    have h1 : ((sysAfter cap l).act 0).step (.poll 0) = (sysAfter cap l).act 0 := by
      simp [St.step, Mb.poll, hg]
    simp only [Sys.step, h1]
    split
    · unfold Sys.set
      congr 1
      funext x
      split
      · next e => rw [e]; rfl
      · rfl
    · rfl
  induction h with
  | refl => rw [sysQuiet_take cap l (Nat.le_refl _), List.take_length]
  | @step k hk ih =>
    have hk : l.length ≤ k := hk
    rw [sysUpto_succ, ih, show sysQuiet l k = .loc 0 (.poll 0) by simp [sysQuiet, hk], hs]

theorem sys_prepared {cap : Id → Option Nat} {ops : Nat → SOp} {n k : Nat} (h : n ≤ k) {x : Id}
    (hp : ((sysUpto cap ops k).act x).phase = .prepared) : ((sysUpto cap ops n).act x).phase = .prepared := by
  apply Classical.byContradiction
  intro hn
  revert hp
  change ((sysUpto cap ops k).act x).phase ≠ .prepared
  induction h with
  | refl => exact hn
  | step _ ih => rw [← proj_upto, upto_succ]; rw [← proj_upto] at ih; exact not_prepared_step _ ih

/-- An execution in the end of which every actor that was spawned has ended is fair. -/
theorem sysFair_of_ended {cap : Id → Option Nat} {l : List SOp}
    (he : ∀ x, ((sysAfter cap l).act x).phase.ended = true ∨ ((sysAfter cap l).act x).phase = .prepared)
    (hg : ∀ x, ((sysAfter cap l).act x).mb.granted = []) : SysFair cap (sysQuiet l) := by
  have hr : ∀ n, sysUpto cap (sysQuiet l) (max n l.length) = sysAfter cap l :=
    fun n => sysQuiet_rest cap l (hg 0) (by omega)
  have he' : ∀ n x, ((sysUpto cap (sysQuiet l) (max n l.length)).act x).phase.ended = true ∨
      ((sysUpto cap (sysQuiet l) n).act x).phase = .prepared := by
    intro n x
    rcases he x with h | h
    · left; rw [hr]; exact h
    · right; exact sys_prepared (k := max n l.length) (by omega) (by rw [hr]; exact h)
  constructor
  · intro n x _ hp _
    refine ⟨max n l.length, by omega, Or.inr ?_⟩
    rcases he' n x with h | h
    · exact h
    · exact absurd h hp
  · intro n i j r p res hp _
    refine ⟨max n l.length, by omega, Or.inr ?_⟩
    rcases he' n i with h | h
    · intro h2; rw [h2] at h; cases h
    · rw [h] at hp; cases hp
  · intro n i j t hm _
    refine ⟨max n l.length, by omega, ?_⟩
    rcases he' n i with h | h
    · exact Or.inr (Or.inr h)
    · rcases (fl_after cap ((List.range n).map (sysQuiet l))).st i j t hm with h1 | ⟨r, p, res, h1, _⟩ <;>
        · change ((sysUpto cap (sysQuiet l) n).act i).phase = _ at h1
          rw [h] at h1; cases h1
  · intro n x _ hl
    refine ⟨max n l.length, by omega, Or.inr (Or.inr ?_)⟩
    rcases he' n x with h | h
    · revert h; cases ((sysUpto cap (sysQuiet l) (max n l.length)).act x).phase <;> simp
    · rw [h] at hl; cases hl
  · intro n x t _
    refine ⟨max n l.length, by omega, Or.inr ?_⟩
    rw [hr, hg]; simp

/-- The chain 0 – 1 – 2: actor 0 is killed, and in the end all three have stopped. -/
def liveDemo : List SOp := chainDemo ++ (dieDemo ++ fallDemo)

theorem liveDemo_ids : ∀ op ∈ liveDemo, ∀ x ∈ op.ids, x < 3 := by decide

theorem liveDemo_other {n : Nat} (hn : n ≤ liveDemo.length) {x : Id} (hx : ¬ x < 3) :
    (sysUpto (fun _ => none) (sysQuiet liveDemo) n).act x = after none [] := by
  rw [sysQuiet_take _ _ hn]
  exact untouched _ _ x (fun op ho hm => hx (liveDemo_ids op (List.mem_of_mem_take ho) x hm))

theorem liveDemo_granted (x : Id) : ((sysAfter (fun _ => none) liveDemo).act x).mb.granted = [] := by
  by_cases hx : x < 3
  · revert x; decide
  · rw [untouched _ _ x (fun op ho hm => hx (liveDemo_ids op ho x hm))]; rfl

theorem liveDemo_fair : SysFair (fun _ => none) (sysQuiet liveDemo) := by
  apply sysFair_of_ended
  · intro x
    by_cases hx : x < 3
    · left; revert x; decide
    · right; rw [untouched _ _ x (fun op ho hm => hx (liveDemo_ids op ho x hm))]; rfl
  · exact liveDemo_granted

/-- What holds of the states of `liveDemo` holds for ever. -/
theorem liveDemo_all {P : Sys → Prop} (h : ∀ n, n ≤ liveDemo.length → P (sysAfter (fun _ => none) (liveDemo.take n)))
    (n : Nat) : P (sysUpto (fun _ => none) (sysQuiet liveDemo) n) := by
  by_cases hn : n ≤ liveDemo.length
  · rw [sysQuiet_take _ _ hn]; exact h n hn
  · rw [sysQuiet_rest _ _ (liveDemo_granted 0) (by omega)]
    have := h _ (Nat.le_refl _)
    rwa [List.take_length] at this

theorem liveDemo_not_crashed (n : Nat) (x : Id) :
    ((sysUpto (fun _ => none) (sysQuiet liveDemo) n).act x).phase ≠ .crashed := by
  refine liveDemo_all (P := fun S => ∀ x, (S.act x).phase ≠ .crashed) ?_ n x
  intro n hn x
  by_cases hx : x < 3
  · revert x; revert n; decide
  · rw [← sysQuiet_take _ _ hn, liveDemo_other hn hx]; decide

theorem liveDemo_log {n : Nat} {x : Id} {e : Ev}
    (h : e ∈ ((sysUpto (fun _ => none) (sysQuiet liveDemo) n).act x).log) :
    x < 3 ∧ e ∈ ((sysAfter (fun _ => none) liveDemo).act x).log := by
  have h2 := sys_log_mono (k := max n liveDemo.length) (by omega) h
  rw [sysQuiet_rest _ _ (liveDemo_granted 0) (by omega)] at h2
  refine ⟨?_, h2⟩
  apply Classical.byContradiction
  intro hx
  rw [untouched _ _ x (fun op ho hm => hx (liveDemo_ids op ho x hm))] at h2
  cases h2

/-- In a fair execution in which its notifications get through and nobody's task is torn down, an actor that has left its
loop, or failed to start, comes to its end. -/
theorem out_stops {cap : Id → Option Nat} {ops : Nat → SOp} (hf : SysFair cap ops) {x : Id}
    (ht : ThroughBy cap ops x) (hcr : ∀ n x, ((sysUpto cap ops n).act x).phase ≠ .crashed) {n : Nat}
    (h : ((sysUpto cap ops n).act x).phase.out) :
    ∃ k r, n ≤ k ∧ ((sysUpto cap ops k).act x).phase = .stopped r := by
  have hnp : ((sysUpto cap ops n).act x).phase ≠ .prepared := by
    rintro e; rw [e] at h; cases h.2
  have hfx := proj_fair hf ht hnp
  have hov : (upto (cap x) (proj cap ops x) n).phase.over = true := by
    rw [proj_upto]
    rcases phase_cases ((sysUpto cap ops n).act x).phase with h2 | h2 | h2
    · rw [h.2] at h2; cases h2
    · rw [h.1] at h2; cases h2
    · exact h2
  obtain ⟨k, hk, h1, _⟩ := stopping_comes_to_end (cap x) _ hfx n hov
  rw [proj_upto] at h1
  have h2 := hcr k x
  revert h1 h2
  cases hp : ((sysUpto cap ops k).act x).phase <;> simp
  exact ⟨k, hk, _, hp⟩

/-- **C27** (liveness). In a fair execution of a system with unbounded mailboxes every actor that has begun to stop comes to
its end (if nobody's task is torn down from outside), however the actors are linked and however many of them stop at the
same time. -/
theorem stopping_ends_unbounded (ops : Nat → SOp) (hf : SysFair (fun _ => none) ops)
    (hcr : ∀ n x, ((sysUpto (fun _ => none) ops n).act x).phase ≠ .crashed) (n : Nat) (x : Id)
    (h : ((sysUpto (fun _ => none) ops n).act x).phase.out) :
    ∃ k r, n ≤ k ∧ ((sysUpto (fun _ => none) ops k).act x).phase = .stopped r :=
  out_stops hf ((through_unbounded (fun _ => rfl) ops).by x) hcr h

/-- Actor 0 has been killed and runs its `on_stop`; nobody's task is torn down. -/
example : SysFair (fun _ => none) (sysQuiet liveDemo) ∧
    (∀ n x, ((sysUpto (fun _ => none) (sysQuiet liveDemo) n).act x).phase ≠ .crashed) ∧
    ((sysUpto (fun _ => none) (sysQuiet liveDemo) (chainDemo.length + 2)).act 0).phase.out := by
  refine ⟨liveDemo_fair, liveDemo_not_crashed, ?_⟩
  rw [sysQuiet_take _ _ (by decide)]
  exact ⟨by decide, by decide⟩

/-- A dying actor that does not come to its end waits for ever for one notification. -/
theorem waits_for_one {cap : Id → Option Nat} {ops : Nat → SOp} (hf : SysFair cap ops)
    (hcr : ∀ n x, ((sysUpto cap ops n).act x).phase ≠ .crashed) {n : Nat} {i : Id}
    (h : ((sysUpto cap ops n).act i).phase.out)
    (hne : ∀ k r, n ≤ k → ((sysUpto cap ops k).act i).phase ≠ .stopped r) :
    ∃ m j t, ∀ k, m ≤ k → pendingIn ((sysUpto cap ops k).act j) t = true ∧
      ∃ r p res, ((sysUpto cap ops k).act i).phase = .notifying r p res ∧ j ∈ p := by
  have hnt : ¬ ThroughBy cap ops i := by
    intro ht
    obtain ⟨k, r, hk, h2⟩ := out_stops hf ht hcr h
    exact hne k r hk h2
  obtain ⟨m, j, t, hm, hp⟩ : ∃ m j t, (i, j, t) ∈ (sysUpto cap ops m).flight ∧
      ∀ k, m ≤ k → pendingIn ((sysUpto cap ops k).act j) t = true := by
    apply Classical.byContradiction
    intro hcon
    apply hnt
    intro m j t hm
    apply Classical.byContradiction
    intro hc2
    apply hcon
    refine ⟨m, j, t, hm, fun k hk => ?_⟩
    cases hb : pendingIn ((sysUpto cap ops k).act j) t with
    | true => rfl
    | false => exact absurd ⟨k, hk, hb⟩ hc2
  have hfly : ∀ k, m ≤ k → (i, j, t) ∈ (sysUpto cap ops k).flight := by
    intro k hk
    induction hk with
    | refl => exact hm
    | @step k hk ih =>
      rw [sysUpto_succ]
      rcases flight_step (op := ops k) ih with h1 | h1
      · exact h1
      · have hfi := find_unique (fl_after cap ((List.range k).map ops)).nd ih
        change (sysUpto cap ops k).flight.find? _ = _ at hfi
        rw [h1]
        simp only [Sys.step, hfi, hp k hk, if_true]
        exact ih
  refine ⟨m, j, t, fun k hk => ⟨hp k hk, ?_⟩⟩
  obtain ⟨r, p, res, h1, h2, _⟩ := ((fl_after cap _).st i j t (hfly k hk)).resolve_left (hcr k i)
  exact ⟨r, p, res, h1, h2⟩

theorem out_of_over {p : Phase} (h : p.over = true) : p.out := by
  refine ⟨?_, ?_⟩ <;> revert h <;> cases p <;> simp [Phase.over]

/-- Whoever is waited for for ever has itself begun to stop, or was never started. -/
theorem waited_for {cap : Id → Option Nat} {ops : Nat → SOp} (hcap : ∀ x, cap x ≠ some 0) (hf : SysFair cap ops)
    (hcr : ∀ n x, ((sysUpto cap ops n).act x).phase ≠ .crashed) {m : Nat} {j : Id} {t : Nat}
    (hw : ∀ k, m ≤ k → pendingIn ((sysUpto cap ops k).act j) t = true) :
    (∃ k, ((sysUpto cap ops k).act j).phase.out) ∨ ∀ k, ((sysUpto cap ops k).act j).phase = .prepared := by
  by_cases hout : ∃ k, ((sysUpto cap ops k).act j).phase.out
  · exact Or.inl hout
  · by_cases hpr : ∀ k, ((sysUpto cap ops k).act j).phase = .prepared
    · exact Or.inr hpr
    · exfalso
      obtain ⟨n0, hn0⟩ : ∃ n0, ((sysUpto cap ops n0).act j).phase ≠ .prepared := by
        apply Classical.byContradiction
        intro hc
        exact hpr fun k => Classical.byContradiction fun hk => hc ⟨k, hk⟩
      have htj : ThroughBy cap ops j := by
        intro k j2 t2 hfl
        obtain ⟨r, p, res, h1, _⟩ := ((fl_after cap _).st j j2 t2 hfl).resolve_left (hcr k j)
        exact absurd ⟨k, by
          change ((sysUpto cap ops k).act j).phase = _ at h1
          rw [h1]; exact ⟨rfl, rfl⟩⟩ hout
      have hfj := proj_fair hf htj hn0
      have hpm := hw m (Nat.le_refl _)
      simp only [pendingIn, List.any_eq_true, beq_iff_eq] at hpm
      obtain ⟨q, hq, hqt⟩ := hpm
      have hsent : q ∈ (upto (cap j) (proj cap ops j) m).mb.sent := by
        rw [proj_upto]
        apply (sysUpto_good cap ops m j).shape.mb.mem_sent
        simp only [List.mem_append] at hq ⊢
        rcases hq with hq | hq <;> simp [hq]
      obtain ⟨k, hk, hres⟩ := send_resolved (cap j) _ (hcap j) hfj m q hsent
      rw [proj_upto] at hres
      have hpk := hw k hk
      simp only [pendingIn, List.any_eq_true, beq_iff_eq] at hpk
      obtain ⟨q2, hq2, hq2t⟩ := hpk
      have hnd := (sysUpto_good cap ops k j).shape.mb.part_nodup
      have hq3 : q ∈ ((sysUpto cap ops k).act j).mb.pushed ∨
          q ∈ ((sysUpto cap ops k).act j).mb.failed.map unwhy := by
        rcases hres with h1 | ⟨w, h1⟩
        · exact Or.inl h1
        · exact Or.inr (List.mem_map.mpr ⟨_, h1, rfl⟩)
      simp only [List.map_append, List.nodup_append, List.mem_append] at hnd hq2
      have hk1 : q.1 = q2.1 := hqt.trans hq2t.symm
      have e1 : ∀ l : List (Nat × Sig), q ∈ l → q.1 ∈ l.map (·.1) := fun l h => List.mem_map_of_mem h
      have e2 : ∀ l : List (Nat × Sig), q2 ∈ l → q.1 ∈ l.map (·.1) := fun l h => hk1 ▸ List.mem_map_of_mem h
      rcases hq3 with h1 | h1
      · have h1 := e1 _ h1
        rcases hq2 with h2 | h2
        · exact hnd.1.2.2 _ (Or.inl h1) _ (e2 _ h2) rfl
        · exact hnd.1.1.2.2 _ h1 _ (e2 _ h2) rfl
      · have h1 := e1 _ h1
        rcases hq2 with h2 | h2
        · exact hnd.2.2 _ (Or.inr (e2 _ h2)) _ h1 rfl
        · exact hnd.2.2 _ (Or.inl (Or.inr (e2 _ h2))) _ h1 rfl

/-- **C27** (liveness, part). In a fair execution with mailboxes of any kind, an actor that has begun to stop comes to its
end, or it waits for ever for one actor which it has to tell of its death and which is itself waiting for ever for a third
in the same way, or was never started. In particular nobody ever waits for an actor that goes on running, however full its
mailbox.

Missing from the full claim: that the second case does not arise. It does, `stopping_actors_deadlock`. -/
theorem waits_only_for_waiting_partial (cap : Id → Option Nat) (ops : Nat → SOp) (hcap : ∀ x, cap x ≠ some 0)
    (hf : SysFair cap ops) (hcr : ∀ n x, ((sysUpto cap ops n).act x).phase ≠ .crashed) (n : Nat) (i : Id)
    (h : ((sysUpto cap ops n).act i).phase.out) :
    (∃ k r, n ≤ k ∧ ((sysUpto cap ops k).act i).phase = .stopped r) ∨
    ∃ m j, ∀ k, m ≤ k → (∃ r p res, ((sysUpto cap ops k).act i).phase = .notifying r p res ∧ j ∈ p) ∧
      (((sysUpto cap ops k).act j).phase = .prepared ∨
        ∃ r p res, ((sysUpto cap ops k).act j).phase = .notifying r p res ∧ p ≠ []) := by
  by_cases hne : ∃ k r, n ≤ k ∧ ((sysUpto cap ops k).act i).phase = .stopped r
  · exact Or.inl hne
  right
  have hne : ∀ k r, n ≤ k → ((sysUpto cap ops k).act i).phase ≠ .stopped r := fun k r hk h2 => hne ⟨k, r, hk, h2⟩
  obtain ⟨m, j, t, hw⟩ := waits_for_one hf hcr h hne
  by_cases hout : ∃ k, ((sysUpto cap ops k).act j).phase.out
  · obtain ⟨k0, hk0⟩ := hout
    obtain ⟨m2, j2, t2, hw2⟩ := waits_for_one (n := max m k0) hf hcr (sys_out_mono (by omega) hk0) (by
      intro k r hk hst
      have h1 := (hw k (by omega)).1
      have hg := sysUpto_good cap ops k j
      rw [pendingIn, pendingIn_closed hg.shape.mb (Or.inl (by rw [hg.shape.closed, hst]; rfl))] at h1
      cases h1)
    refine ⟨max m m2, j, fun k hk => ⟨(hw k (by omega)).2, Or.inr ?_⟩⟩
    obtain ⟨r, p, res, h1, h2⟩ := (hw2 k (by omega)).2
    exact ⟨r, p, res, h1, List.ne_nil_of_mem h2⟩
  · have hpr := (waited_for hcap hf hcr fun k hk => (hw k hk).1).resolve_left hout
    exact ⟨m, j, fun k hk => ⟨(hw k hk).2, Or.inl (hpr k)⟩⟩

/-- With unbounded mailboxes the first case: actor 0 of the chain is killed and comes to its end. (For the second case,
in a fair execution too, see `fair_deadlock`.) -/
example : SysFair (fun _ => none) (sysQuiet liveDemo) ∧
    (∀ n x, ((sysUpto (fun _ => none) (sysQuiet liveDemo) n).act x).phase ≠ .crashed) ∧
    ((sysUpto (fun _ => none) (sysQuiet liveDemo) (chainDemo.length + 2)).act 0).phase.out ∧
    ((sysUpto (fun _ => none) (sysQuiet liveDemo) liveDemo.length).act 0).phase = .stopped .killed := by
  refine ⟨liveDemo_fair, liveDemo_not_crashed, ?_, ?_⟩
  · rw [sysQuiet_take _ _ (by decide)]; constructor <;> decide
  · rw [sysQuiet_take _ _ (by decide)]; decide

/-- Nobody's `on_link_died` is called twice for one death. -/
theorem reacts_at_most_once {cap : Id → Option Nat} {ops : List SOp} {i j : Id} {r : Reason}
    (h : (i, r) ∈ linkRuns ((sysAfter cap ops).act j).log) :
    (linkRuns ((sysAfter cap ops).act j).log).filter (fun p => p.1 == i) = [(i, r)] := by
  obtain ⟨l, hl⟩ := actor_history cap ops j
  have hrun : linkRuns ((sysAfter cap ops).act j).log = ((sysAfter cap ops).act j).mb.received.filterMap linkTaken := by
    rw [hl]; exact on_link_died_per_signal _ _
  have hg : Good ((sysAfter cap ops).act j) := by rw [hl]; exact good_after _ _
  have hlen : ((linkRuns ((sysAfter cap ops).act j).log).filter (fun p => p.1 == i)).length ≤
      (toldBy i ((sysAfter cap ops).act j)).length := by
    rw [hrun]
    have h1 : ((sysAfter cap ops).act j).mb.received.Sublist (((sysAfter cap ops).act j).mb.pushed ++
        ((sysAfter cap ops).act j).mb.granted ++ ((sysAfter cap ops).act j).mb.waiting ++
        ((sysAfter cap ops).act j).mb.failed.map unwhy) := by
      rw [hg.shape.mb.hist]
      simp only [List.append_assoc]
      exact List.sublist_append_left _ _
    have h2 := ((h1.filterMap linkTaken).filter (fun p => p.1 == i)).length_le
    have h3 := ((hg.shape.mb.part.filterMap linkTaken).filter (fun p => p.1 == i)).length_eq
    rw [h3] at h2
    refine Nat.le_trans h2 (Nat.le_of_eq ?_)
    simp only [toldBy, deaths, List.length_map]
    congr 2
    congr 1
    funext ⟨t, sig⟩
    cases sig <;> rfl
  have hone : (toldBy i ((sysAfter cap ops).act j)).length ≤ 1 := by
    rcases told_at_most_once cap ops i j with e | ⟨r0, e, _⟩ <;> rw [e] <;> simp
  have hmem : (i, r) ∈ (linkRuns ((sysAfter cap ops).act j).log).filter (fun p => p.1 == i) := by
    simp [List.mem_filter, h]
  match hf : (linkRuns ((sysAfter cap ops).act j).log).filter (fun p => p.1 == i) with
  | [] => rw [hf] at hmem; cases hmem
  | [a] => rw [hf] at hmem; simp at hmem; rw [hf, hmem]
  | a :: b :: l => rw [hf] at hlen; simp at hlen; omega

/-- Whoever has a link-died signal in its mailbox, or is gone, reacts or stops or is never started. -/
theorem reached_reacts {cap : Id → Option Nat} {ops : Nat → SOp} (hf : SysFair cap ops) (ht : Through cap ops)
    (hcr : ∀ n x, ((sysUpto cap ops n).act x).phase ≠ .crashed) {k : Nat} {i j : Id} {r : Reason}
    (h : Reached i r ((sysUpto cap ops k).act j)) :
    (∃ k0, ∀ k, k0 ≤ k → (linkRuns ((sysUpto cap ops k).act j).log).filter (fun p => p.1 == i) = [(i, r)]) ∨
      (∃ k r', ((sysUpto cap ops k).act j).phase = .stopped r') ∨
      ∀ k, ((sysUpto cap ops k).act j).phase = .prepared := by
  have hout : ∀ {m}, ((sysUpto cap ops m).act j).phase.out → ∃ k r', ((sysUpto cap ops k).act j).phase = .stopped r' := by
    intro m hm
    obtain ⟨k2, r2, _, h2⟩ := out_stops hf (ht.by j) hcr hm
    exact ⟨k2, r2, h2⟩
  by_cases hpr : ∀ k, ((sysUpto cap ops k).act j).phase = .prepared
  · exact Or.inr (Or.inr hpr)
  obtain ⟨n0, hn0⟩ : ∃ n0, ((sysUpto cap ops n0).act j).phase ≠ .prepared := by
    apply Classical.byContradiction
    intro hc
    exact hpr fun k => Classical.byContradiction fun hk => hc ⟨k, hk⟩
  have hfj := proj_fair hf (ht.by j) hn0
  rcases h with ⟨t, htm⟩ | hcl
  · rcases over_or_stays hfj k with ⟨m, _, hm⟩ | ⟨m, hkm, hs⟩
    · rw [proj_upto] at hm
      exact Or.inr (Or.inl (hout (out_of_over hm)))
    · left
      obtain ⟨m2, hm2, _, _, h4⟩ := catches_up hfj hs
      have h5 : (t, Sig.linkDied i r) ∈ (upto (cap j) (proj cap ops j) m).mb.pushed :=
        (pushed_mono _ _ hkm).subset (by rw [proj_upto]; exact htm)
      have h6 := h4 _ h5
      rw [proj_upto] at h6
      refine ⟨m2, fun k2 hk2 => reacts_at_most_once ?_⟩
      obtain ⟨l, hl⟩ := actor_history cap ((List.range m2).map ops) j
      have h7 : (i, r) ∈ linkRuns ((sysUpto cap ops m2).act j).log := by
        change (sysUpto cap ops m2).act j = _ at hl
        rw [hl] at h6 ⊢
        rw [on_link_died_per_signal]
        exact List.mem_filterMap.mpr ⟨_, h6, rfl⟩
      simp only [linkRuns, List.mem_filterMap] at h7 ⊢
      obtain ⟨e, he, he2⟩ := h7
      exact ⟨e, sys_log_mono hk2 he, he2⟩
  · refine Or.inr (Or.inl (hout (m := k) ?_))
    rw [(sysUpto_good cap ops k j).shape.closed] at hcl
    refine ⟨?_, ?_⟩ <;> revert hcl <;> cases ((sysUpto cap ops k).act j).phase <;> simp [Phase.unborn]

/-- **C23** (liveness, part). In a fair execution in which notifications get through (with unbounded mailboxes they do) an
actor that leaves its loop stops with the reason for which it left, and everybody in its link set at that moment sooner or
later has its `on_link_died` called with this actor's id and this reason, exactly once, unless it comes to its own end
first or is never started.

Missing from the full claim: an actor whose `on_start` fails tells nobody (`failed_start_notifies_nobody`). -/
theorem linked_actors_react_partial (cap : Id → Option Nat) (ops : Nat → SOp) (hf : SysFair cap ops)
    (ht : Through cap ops) (hcr : ∀ n x, ((sysUpto cap ops n).act x).phase ≠ .crashed) (n : Nat) (i : Id) (r : Reason)
    (P : List Id) (h : ((sysUpto cap ops n).act i).phase = .stopping r P true) :
    (∃ k, n ≤ k ∧ ((sysUpto cap ops k).act i).phase = .stopped r) ∧
    ∀ j ∈ P, (∃ k0, ∀ k, k0 ≤ k →
        (linkRuns ((sysUpto cap ops k).act j).log).filter (fun p => p.1 == i) = [(i, r)]) ∨
      (∃ k r', ((sysUpto cap ops k).act j).phase = .stopped r') ∨
      ∀ k, ((sysUpto cap ops k).act j).phase = .prepared := by
  obtain ⟨k, r', hk, hst⟩ := out_stops hf (ht.by i) hcr (n := n) (x := i) (by rw [h]; exact ⟨rfl, rfl⟩)
  have hsp : sysUpto cap ops k =
      sysAfter cap ((List.range n).map ops ++ (List.range (k - n)).map (fun i => ops (n + i))) :=
    sysUpto_split cap ops hk
  have htold := linked_actors_told_exactly_once_partial cap ((List.range n).map ops)
    ((List.range (k - n)).map (fun i => ops (n + i))) i r r' P h (by rw [← hsp]; exact hst)
  rw [← hsp] at htold
  obtain ⟨rfl, htold⟩ := htold
  refine ⟨⟨k, hk, hst⟩, fun j hj => ?_⟩
  exact reached_reacts hf ht hcr ((htold j).1 hj).2

/-- Actor 0 of the chain is killed; actor 1 reacts, once. -/
example : SysFair (fun _ => none) (sysQuiet liveDemo) ∧ Through (fun _ => none) (sysQuiet liveDemo) ∧
    (∀ n x, ((sysUpto (fun _ => none) (sysQuiet liveDemo) n).act x).phase ≠ .crashed) ∧
    ((sysUpto (fun _ => none) (sysQuiet liveDemo) (chainDemo.length + 2)).act 0).phase = .stopping .killed [1] true ∧
    linkRuns ((sysUpto (fun _ => none) (sysQuiet liveDemo) liveDemo.length).act 1).log = [(0, .killed)] := by
  refine ⟨liveDemo_fair, through_unbounded (fun _ => rfl) _, liveDemo_not_crashed, ?_, ?_⟩
  · rw [sysQuiet_take _ _ (by decide)]; decide
  · rw [sysQuiet_take _ _ (by decide)]; decide

/-- **C24** (liveness, part). Take a system at a moment at which nobody has stopped and the linked actors are running, with
an arbitrary link graph, and let it run on for ever, fairly, without further `link`/`unlink` and with the default hooks;
messages may be sent and handled all the time. Let the actors in `roots`, and only those, stop for causes of their own,
each abnormally. Then everybody connected to one of the `roots` stops sooner or later, abnormally, and nobody else ever
does.

Missing from the full claim: actors linked before they are running (`h1`, see `Lifecycle.failed_start_notifies_nobody`),
and bounded mailboxes so full that a notification never gets through (`Through`, which holds of unbounded ones by
`through_unbounded`; see `stopping_actors_deadlock`). -/
theorem failure_takes_down_component_live_partial (cap : Id → Option Nat) (ops : Nat → SOp) (hf : SysFair cap ops)
    (ht : Through cap ops) (n0 : Nat) (roots : Id → Prop)
    (h0 : ∀ x, ¬ ((sysUpto cap ops n0).act x).phase.out)
    (h1 : ∀ x, ((sysUpto cap ops n0).act x).links ≠ [] → ((sysUpto cap ops n0).act x).phase.inLoop = true)
    (hc : ∀ n, n0 ≤ n → (ops n).calm = true) (hd : ∀ n, AllDefault (sysUpto cap ops n))
    (hcr : ∀ n x, ((sysUpto cap ops n).act x).phase ≠ .crashed)
    (hown : ∀ n j, ¬ roots j → ∀ r, .sBegin r ∈ ((sysUpto cap ops n).act j).log → ∃ i r', r = .linkDied i r')
    (hroot : ∀ j, roots j → (∃ n r, .sBegin r ∈ ((sysUpto cap ops n).act j).log) ∧
      ∀ n, .sBegin .normal ∉ ((sysUpto cap ops n).act j).log)
    (j : Id) :
    ((∃ n r, ((sysUpto cap ops n).act j).phase = .stopped r) ↔
      ∃ root, roots root ∧ Conn (fun i => ((sysUpto cap ops n0).act i).links) root j) ∧
    ∀ n, ((sysUpto cap ops n).act j).phase ≠ .stopped .normal := by
  have hsp := fun n (hn : n0 ≤ n) => spread_live h0 h1 hc hn
  have hsym : ∀ a b, a ∈ ((sysUpto cap ops n0).act b).links ↔ b ∈ ((sysUpto cap ops n0).act a).links :=
    fun a b => links_symmetric cap _ a b (h0 a) (h0 b)
  have hbegin : ∀ n x r, ((sysUpto cap ops n).act x).phase = .stopped r →
      .sBegin r ∈ ((sysUpto cap ops n).act x).log := fun n x r h => stopped_sBegin (sysUpto_good cap ops n x) h
  have habn : ∀ n x r, .sBegin r ∈ ((sysUpto cap ops n).act x).log → r ≠ .normal := by
    rintro n x r h rfl
    by_cases hx : roots x
    · exact (hroot x hx).2 n h
    · obtain ⟨i, r', h2⟩ := hown n x hx _ h
      cases h2
  have hlate : ∀ n x r, .sBegin r ∈ ((sysUpto cap ops n).act x).log → n0 ≤ n := by
    intro n x r h
    apply Classical.byContradiction
    intro hlt
    have h2 := sys_log_mono (k := n0) (by omega) h
    obtain ⟨l, hl⟩ := actor_history cap ((List.range n0).map ops) x
    change (sysUpto cap ops n0).act x = _ at hl
    rw [hl] at h2
    exact h0 x (by rw [hl]; exact out_of_sBegin _ _ h2)
  refine ⟨⟨?_, ?_⟩, fun n hp => habn n j _ (hbegin n j _ hp) rfl⟩
  · rintro ⟨n, r, hp⟩
    have hb := hbegin n j r hp
    have hn := hlate n j r hb
    clear hp
    have hdr := fun {j r} => @default_reason cap ((List.range n).map ops) (hd n) j r
    have hrel := rel_after cap ((List.range n).map ops)
    change ∀ {j r}, .sBegin r ∈ ((sysUpto cap ops n).act j).log → _ at hdr
    change Rel (sysUpto cap ops n) at hrel
    induction r generalizing j with
    | linkDied i r' ih =>
      by_cases hj : roots j
      · exact ⟨j, hj, .refl⟩
      · rcases hdr hb with h | ⟨i', r'', h2, _, h3⟩ | ⟨h2, _⟩
        · rcases h with ⟨h, _⟩ | ⟨h, _⟩ | ⟨e, h, _⟩ <;> cases h
        · cases h2
          obtain ⟨root, h4, h5⟩ := ih i (hrel.src i j _ h3).1
          exact ⟨root, h4, .step i j h5 ((hsp n hn).told i j _ h3)⟩
        · cases h2
    | _ =>
      by_cases hj : roots j
      · exact ⟨j, hj, .refl⟩
      · obtain ⟨i, r', h⟩ := hown n j hj _ hb; cases h
  · rintro ⟨root, hr, hconn⟩
    have hout : ∀ n x, ((sysUpto cap ops n).act x).phase.out →
        ∃ k r, ((sysUpto cap ops k).act x).phase = .stopped r := by
      intro n x h
      obtain ⟨k, r, _, h2⟩ := out_stops hf (ht.by x) hcr h
      exact ⟨k, r, h2⟩
    induction hconn with
    | refl =>
      obtain ⟨n, r, h⟩ := (hroot root hr).1
      obtain ⟨l, hl⟩ := actor_history cap ((List.range n).map ops) root
      change (sysUpto cap ops n).act root = _ at hl
      rw [hl] at h
      exact hout n root (by rw [hl]; exact out_of_sBegin _ _ h)
    | step i j _ hl ih =>
      obtain ⟨n, r, hp⟩ := ih
      have hb := hbegin n i r hp
      have hn := hlate n i r hb
      have hj0 : ((sysUpto cap ops n0).act j).phase.inLoop = true :=
        h1 j (List.ne_nil_of_mem ((hsym i j).mpr hl))
      have hfj := proj_fair (x := j) (n0 := n0) hf (ht.by j) (by intro e; rw [e] at hj0; cases hj0)
      have hre : ((sysUpto cap ops n).act j).phase.out ∨ Reached i r ((sysUpto cap ops n).act j) := by
        rcases (hsp n hn).duty i j hl with ⟨h4, _⟩ | ⟨r, p, h4, _⟩ | ⟨r, p, res, h4, _⟩ | ⟨r', h4, h5⟩ | h4
        · rw [hp] at h4; cases h4
        · rw [hp] at h4; cases h4
        · rw [hp] at h4; cases h4
        · rw [hp] at h4; cases h4; exact h5
        · rw [hp] at h4; cases h4
      rcases hre with h | ⟨t, htm⟩ | h
      · exact hout n j h
      · rcases over_or_stays hfj n with ⟨k, _, hk⟩ | ⟨k, hnk, hs⟩
        · rw [proj_upto] at hk
          refine hout k j ⟨?_, ?_⟩ <;> revert hk <;> cases ((sysUpto cap ops k).act j).phase <;> simp [Phase.over]
        · exfalso
          obtain ⟨m, hm, h2, _, h4⟩ := catches_up hfj hs
          have h5 : (t, Sig.linkDied i r) ∈ (upto (cap j) (proj cap ops j) k).mb.pushed :=
            (pushed_mono _ _ hnk).subset (by rw [proj_upto]; exact htm)
          have hdj : DefaultHooks (upto (cap j) (proj cap ops j) m).log := by rw [proj_upto]; exact hd m j
          rcases abnormal_death_stops (cap j) _ t i r hdj (h4 _ h5) (habn n i r hb) with h | h
          · have h6 : (upto (cap j) (proj cap ops j) m).phase.inLoop = false := h.1
            rw [hs m hm] at h6; cases h6
          · change (upto (cap j) (proj cap ops j) m).phase = _ at h
            rw [h2] at h; cases h
      · refine hout n j ?_
        rw [(sysUpto_good cap ops n j).shape.closed] at h
        refine ⟨?_, ?_⟩ <;> revert h <;> cases ((sysUpto cap ops n).act j).phase <;> simp [Phase.unborn]

/-- The chain 0 – 1 – 2; actor 0 is killed after the chain has been made. -/
example : SysFair (fun _ => none) (sysQuiet liveDemo) ∧ Through (fun _ => none) (sysQuiet liveDemo) ∧
    (∀ x, ¬ ((sysUpto (fun _ => none) (sysQuiet liveDemo) chainDemo.length).act x).phase.out) ∧
    (∀ x, ((sysUpto (fun _ => none) (sysQuiet liveDemo) chainDemo.length).act x).links ≠ [] →
      ((sysUpto (fun _ => none) (sysQuiet liveDemo) chainDemo.length).act x).phase.inLoop = true) ∧
    (∀ n, chainDemo.length ≤ n → (sysQuiet liveDemo n).calm = true) ∧
    (∀ n, AllDefault (sysUpto (fun _ => none) (sysQuiet liveDemo) n)) ∧
    (∀ n x, ((sysUpto (fun _ => none) (sysQuiet liveDemo) n).act x).phase ≠ .crashed) ∧
    (∀ n j, ¬ j = 0 → ∀ r, .sBegin r ∈ ((sysUpto (fun _ => none) (sysQuiet liveDemo) n).act j).log →
      ∃ i r', r = .linkDied i r') ∧
    (∀ j, j = 0 → (∃ n r, .sBegin r ∈ ((sysUpto (fun _ => none) (sysQuiet liveDemo) n).act j).log) ∧
      ∀ n, .sBegin .normal ∉ ((sysUpto (fun _ => none) (sysQuiet liveDemo) n).act j).log) := by
  have hlen : chainDemo.length ≤ liveDemo.length := by decide
  have htake : liveDemo.take chainDemo.length = chainDemo := by decide
  have hfin : sysUpto (fun _ => none) (sysQuiet liveDemo) liveDemo.length = sysAfter (fun _ => none) liveDemo :=
    sysQuiet_rest _ _ (liveDemo_granted 0) (Nat.le_refl _)
  refine ⟨liveDemo_fair, through_unbounded (fun _ => rfl) _, ?_, ?_, ?_, ?_, liveDemo_not_crashed, ?_, ?_⟩
  · intro x h
    by_cases hx : x < 3
    · rw [sysQuiet_take _ _ hlen, htake] at h
      replace h := h.1
      revert h; revert hx; revert x; decide
    · rw [liveDemo_other hlen hx] at h
      cases h.2
  · intro x h
    by_cases hx : x < 3
    · rw [sysQuiet_take _ _ hlen, htake] at h ⊢
      revert h; revert hx; revert x; decide
    · rw [liveDemo_other hlen hx] at h
      exact absurd rfl h
  · intro n hn
    by_cases h : n < liveDemo.length
    · revert hn; revert h; revert n; decide
    · simp [sysQuiet, List.getElem?_eq_none (by omega : liveDemo.length ≤ n), SOp.calm]
  · intro n x
    refine ⟨fun id r o h => ?_, fun e o h => ?_⟩
    · exact (fallDemo_default x).1 id r o (liveDemo_log h).2
    · exact (fallDemo_default x).2 e o (liveDemo_log h).2
  · intro n j hj r hr
    obtain ⟨h3, hr⟩ := liveDemo_log hr
    have h012 : ∀ k : Nat, k < 3 → k = 0 ∨ k = 1 ∨ k = 2 := by omega
    rcases h012 j h3 with rfl | rfl | rfl
    · exact (hj rfl).elim
    · rw [show ((sysAfter (fun _ => none) liveDemo).act 1).log =
        [.startBegin, .startEnd .ok, .lBegin 0 .killed, .lEnd 0 .killed (.brk (.linkDied 0 .killed)),
          .sBegin (.linkDied 0 .killed), .sEnd (.linkDied 0 .killed) .ok, .notified 2 (.linkDied 0 .killed),
          .returned (.linkDied 0 .killed)] by decide] at hr
      simp at hr
      exact ⟨_, _, hr⟩
    · rw [show ((sysAfter (fun _ => none) liveDemo).act 2).log =
        [.startBegin, .startEnd .ok, .lBegin 1 (.linkDied 0 .killed),
          .lEnd 1 (.linkDied 0 .killed) (.brk (.linkDied 1 (.linkDied 0 .killed))),
          .sBegin (.linkDied 1 (.linkDied 0 .killed)), .sEnd (.linkDied 1 (.linkDied 0 .killed)) .ok,
          .returned (.linkDied 1 (.linkDied 0 .killed))] by decide] at hr
      simp at hr
      exact ⟨_, _, hr⟩
  · rintro j rfl
    refine ⟨⟨liveDemo.length, .killed, by rw [hfin]; decide⟩, fun n hn => ?_⟩
    have := (liveDemo_log hn).2
    revert this; decide

end Verif.System
