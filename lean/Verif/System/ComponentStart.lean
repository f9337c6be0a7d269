import Verif.System.Honoured

/-!
C24 for actors that are linked before they run, as `spawn_link` does: a failure takes down exactly what can be reached from it through
actors whose `on_start` succeeded.
-/

namespace Verif.System

open Verif.Mailbox Verif.Lifecycle

/-- Reached from `a` through links of actors that speak. (Specification, over an arbitrary graph.) -/
inductive Reach (L : Id → List Id) (speaks : Id → Prop) (a : Id) : Id → Prop where
  | refl : Reach L speaks a a
  | step (i j : Id) (h : Reach L speaks a i) (hs : speaks i) (hl : j ∈ L i) : Reach L speaks a j

theorem Reach.conn {L : Id → List Id} {speaks : Id → Prop} {a b : Id} (h : Reach L speaks a b) : Conn L a b := by
  induction h with
  | refl => exact .refl
  | step i j _ _ hl ih => exact .step i j ih hl

theorem Conn.reach {L : Id → List Id} {speaks : Id → Prop} {a b : Id} (hs : ∀ i, speaks i) (h : Conn L a b) :
    Reach L speaks a b := by
  induction h with
  | refl => exact .refl
  | step i j _ hl ih => exact .step i j ih (hs i) hl

theorem calm_keeps {op : SOp} (h : op.calm = true) (i j : Id) : op.keeps i j := by
  constructor <;> (rintro rfl; cases h)

/-- Without `link` and `unlink`, whoever is told was linked from the start. -/
structure Within (L0 : Id → List Id) (S : Sys) : Prop where
  links : ∀ i j, j ∈ (S.act i).links → j ∈ L0 i
  pend : ∀ i j, j ∈ pend (S.act i).phase → j ∈ L0 i
  told : ∀ i j r, (i, r) ∈ deaths (S.act j) → j ∈ L0 i

theorem within_step {S : Sys} (op : SOp) (hc : op.calm = true) {L0 : Id → List Id} (h : Within L0 S) : Within L0 (S.step op) := by
  have hv := fun x => view_calm S op hc x
  have hv' := fun x => view S op x
  constructor
  · intro i j hj
    apply h.links i j
    rcases hv i with e | ⟨o, ho, e⟩ | ⟨k, r, p, res, hk, hx, e⟩ | ⟨k, t, hf, hp, e⟩
    · rw [e] at hj; exact hj
    · rw [e] at hj
      rcases links_loc _ o ho with h4 | ⟨h4, _⟩ | ⟨i0, r, _, h5⟩
      · rw [h4] at hj; exact hj
      · rw [h4] at hj; simp at hj
      · rw [h5] at hj; exact (List.mem_filter.mp hj).1
    · rw [e] at hj; exact hj
    · rw [e, notify_links] at hj; exact hj
  · intro i j hj
    rcases pend_tr (view_tr (hv' i)) with hp | hp
    · exact h.pend i j (hp.subset hj)
    · exact h.links i j (hp.subset hj)
  · intro i j r hd
    rcases view_deaths (hv' j) with e | ⟨i', r', p, res, h1, h2, e⟩
    · rw [e] at hd; exact h.told i j r hd
    · rw [e] at hd
      simp at hd
      rcases hd with hd | ⟨rfl, rfl⟩
      · exact h.told i j r hd
      · exact h.pend i j (mem_pend h1 h2)

theorem within (cap : Id → Option Nat) (ops ops' : List SOp) (hc : ops'.all SOp.calm = true)
    (h0 : ∀ x, ¬ ((sysAfter cap ops).act x).phase.out) :
    Within (fun i => ((sysAfter cap ops).act i).links) (sysAfter cap (ops ++ ops')) := by
  have hs : Within (fun i => ((sysAfter cap ops).act i).links) (sysAfter cap ops) := by
    refine ⟨fun _ _ h => h, ?_, ?_⟩
    · intro i j hj
      exfalso
      apply h0 i
      generalize ((sysAfter cap ops).act i).phase = p at hj
      cases p <;> simp [pend] at hj <;> exact ⟨rfl, rfl⟩
    · intro i j r hd
      exact (h0 i ((rel_after cap ops).src i j r hd).2.out).elim
  clear h0
  generalize (fun i => ((sysAfter cap ops).act i).links) = L0 at hs ⊢
  induction ops' generalizing ops with
  | nil => simpa using hs
  | cons op l ih =>
    simp only [List.all_cons, Bool.and_eq_true] at hc
    have := ih (ops ++ [op]) hc.2 (by rw [sysAfter_snoc]; exact within_step op hc.1 hs)
    simpa using this

/-- Whoever has told somebody has started well. -/
theorem teller_started (cap : Id → Option Nat) (ops : List SOp) {i j : Id} {r : Reason}
    (h : (i, r) ∈ deaths ((sysAfter cap ops).act j)) (hcr : ((sysAfter cap ops).act i).phase ≠ .crashed) :
    .startEnd .ok ∈ ((sysAfter cap ops).act i).log := by
  have hs := sys_start cap ops i
  have hne : ((sysAfter cap ops).act i).startupErr ≠ none := by
    rcases ((rel_after cap ops).src i j r h).2 with ⟨p, res, h1⟩ | h1 | h1
    · rw [hs.nott _ _ _ h1]; simp
    · exact (hs.stopped _ h1).2
    · exact absurd h1 hcr
  match hx : ((sysAfter cap ops).act i).startupErr with
  | none => exact absurd hx hne
  | some x =>
    obtain ⟨o, ho⟩ := (hs.res x hx).2.2
    by_cases hok : o = .ok
    · rw [← hok]; exact ho
    · have := failed_start_tells_nobody cap ops i j o hok ho
      simp only [toldBy, List.map_eq_nil_iff, List.filter_eq_nil_iff] at this
      exact absurd (by simp) (this _ h)

theorem owes_calm (cap : Id → Option Nat) (ops ops' : List SOp) (h0 : ∀ x, ¬ ((sysAfter cap ops).act x).phase.out)
    (hc : ops'.all SOp.calm = true) (i j : Id) (hl : j ∈ ((sysAfter cap ops).act i).links) : Owes (sysAfter cap (ops ++ ops')) i j := by
  refine owes_after cap ops ops' (fun op ho => calm_keeps (List.all_eq_true.mp hc op ho) i j) ?_
  cases hu : ((sysAfter cap ops).act i).phase.unborn with
  | true => exact Or.inl ⟨hu, Or.inl hl⟩
  | false =>
    refine Or.inr (Or.inr (Or.inl ⟨?_, Or.inl hl⟩))
    cases hi : ((sysAfter cap ops).act i).phase.inLoop with
    | true => rfl
    | false => exact absurd ⟨hi, hu⟩ (h0 i)

/-- **C24** — actors linked at any time, running, starting or before they are started (`spawn_link`): a failure takes down exactly what it
reaches. Take a system in which nobody has left its loop, with an arbitrary link graph. Let it run in any way without further
`link`/`unlink`, with the default hooks, with everybody linked started sooner or later, and with only the actors in `roots`
stopping for causes of their own, each abnormally; a failing `on_start` is such a cause. When all is quiet again, the stopped
actors are exactly those reached from one of the `roots` through links of actors whose `on_start` succeeded; and all of them
stopped abnormally. What is missing from the claim is exactly this last condition: an actor whose `on_start` failed does not pass
the failure on. -/
theorem failure_takes_down_exactly_what_it_reaches_partial (cap : Id → Option Nat) (ops ops' : List SOp) (roots : Id → Prop)
    (h0 : ∀ x, ¬ ((sysAfter cap ops).act x).phase.out)
    (h1 : ∀ x, ((sysAfter cap ops).act x).links ≠ [] → ((sysAfter cap (ops ++ ops')).act x).phase ≠ .prepared)
    (hc : ops'.all SOp.calm = true) (hd : AllDefault (sysAfter cap (ops ++ ops')))
    (hq : Quiet (sysAfter cap (ops ++ ops')))
    (hown : ∀ j, ¬ roots j → ∀ r, .sBegin r ∈ ((sysAfter cap (ops ++ ops')).act j).log → ∃ i r', r = .linkDied i r')
    (hroot : ∀ j, roots j → ∃ r, ((sysAfter cap (ops ++ ops')).act j).phase = .stopped r ∧ r ≠ .normal)
    (j : Id) :
    ((∃ r, ((sysAfter cap (ops ++ ops')).act j).phase = .stopped r) ↔
      ∃ root, roots root ∧ Reach (fun i => ((sysAfter cap ops).act i).links)
        (fun i => .startEnd .ok ∈ ((sysAfter cap (ops ++ ops')).act i).log) root j) ∧
    ((sysAfter cap (ops ++ ops')).act j).phase ≠ .stopped .normal := by
  have hsp := within cap ops ops' hc h0
  have hsym : ∀ a b, a ∈ ((sysAfter cap ops).act b).links ↔ b ∈ ((sysAfter cap ops).act a).links :=
    fun a b => links_symmetric cap ops a b (h0 a) (h0 b)
  have howes := owes_calm cap ops ops' h0 hc
  have hheard := fun i j hl r hst hok => heard_of_owes cap (ops ++ ops') (howes i j hl) r hst hok
  have htell := fun {i j r} => @teller_started cap (ops ++ ops') i j r
  have hrel := rel_after cap (ops ++ ops')
  have hg := sys_good cap (ops ++ ops')
  have hhist := actor_history cap (ops ++ ops')
  have hdr := fun {j r} => @default_reason cap (ops ++ ops') hd j r
  clear howes
  generalize sysAfter cap (ops ++ ops') = S at *
  generalize sysAfter cap ops = S0 at *
  have habn : ∀ x r, (S.act x).phase = .stopped r → r ≠ .normal := by
    intro x r hp
    by_cases hx : roots x
    · obtain ⟨r', h2, h3⟩ := hroot x hx
      rw [hp] at h2; cases h2; exact h3
    · obtain ⟨i, r', rfl⟩ := hown x hx r (stopped_sBegin (hg x) hp)
      simp
  refine ⟨⟨?_, ?_⟩, fun hp => habn j _ hp rfl⟩
  · rintro ⟨r, hp⟩
    have hb := stopped_sBegin (hg j) hp
    clear hp
    induction r generalizing j with
    | linkDied i r' ih =>
      by_cases hj : roots j
      · exact ⟨j, hj, .refl⟩
      · rcases hdr hb with h | ⟨i', r'', h2, _, h3⟩ | ⟨h2, _⟩
        · rcases h with ⟨h, _⟩ | ⟨h, _⟩ | ⟨e, h, _⟩ <;> cases h
        · cases h2
          obtain ⟨root, h4, h5⟩ := ih i (hrel.src i j _ h3).1
          have hout := (hrel.src i j _ h3).2.out
          obtain ⟨r', hst⟩ : ∃ r', (S.act i).phase = .stopped r' := by
            rcases hq i with h6 | ⟨h6, _⟩ | h6
            · rw [h6] at hout; cases hout.2
            · rw [h6] at hout; cases hout.1
            · exact h6
          exact ⟨root, h4, .step i j h5 (htell h3 (by rw [hst]; simp)) (hsp.told i j _ h3)⟩
        · cases h2
    | _ =>
      by_cases hj : roots j
      · exact ⟨j, hj, .refl⟩
      · obtain ⟨i, r', h⟩ := hown j hj _ hb; cases h
  · rintro ⟨root, hr, hconn⟩
    induction hconn with
    | refl => obtain ⟨r, h2, _⟩ := hroot root hr; exact ⟨r, h2⟩
    | step i j _ hsi hl ih =>
      obtain ⟨r, hp⟩ := ih
      have hn := habn i r hp
      rcases hq j with h2 | ⟨h2, h3⟩ | h2
      · exact absurd h2 (h1 j (List.ne_nil_of_mem ((hsym i j).mpr hl)))
      · exfalso
        have hnout : ¬ (S.act j).phase.out := by rw [h2]; rintro ⟨h, _⟩; cases h
        rcases hheard i j hl r hp hsi with ⟨_, t, ht⟩ | h
        · have hopen : (S.act j).mb.closed = false := by rw [(hg j).shape.closed, h2]; rfl
          have hin := (hg j).shape.mb
          rw [hin.hist, hin.openLost hopen, h3] at ht
          simp at ht
          obtain ⟨l, hl'⟩ := hhist j
          have := abnormal_death_stops (cap j) l t i r (by rw [← hl']; exact hd j) (by rw [← hl']; exact ht) hn
          rw [← hl'] at this
          rcases this with h | h
          · exact hnout h
          · rw [h2] at h; cases h
        · exact hnout h
      · exact h2

/-- Before anybody runs 1 is linked to 0 and 3 to 2, as with `spawn_link`. -/
def treeDemo : List SOp := [.link 1 0, .link 3 2]

/-- All are started. `on_start` of 2 fails, and 3 runs on; 0 is killed, and 1 goes with it. -/
def treeFall : List SOp := spawnDemo 0 ++ spawnDemo 1 ++ spawnDemo 3 ++
  [.loc 2 .run, .loc 2 (.startEnd (.err 7)), .loc 2 (.panicEnd (.brk (.panicked 7))), .loc 2 (.stopEnd .ok)] ++ dieDemo ++
  [.loc 1 .recv, .loc 1 (.linkEnd (.brk (.linkDied 0 .killed))), .loc 1 (.stopEnd .ok), .loc 1 .finish]

private theorem lt4 (x : Nat) (h : x < 4) : x = 0 ∨ x = 1 ∨ x = 2 ∨ x = 3 := by omega

/-- The hypotheses hold of these four, 0 and 2 being the `roots`: 1 stops, 3 does not. -/
example : (∀ x, ¬ ((sysAfter (fun _ => none) treeDemo).act x).phase.out) ∧
    (∀ x, ((sysAfter (fun _ => none) treeDemo).act x).links ≠ [] →
      ((sysAfter (fun _ => none) (treeDemo ++ treeFall)).act x).phase ≠ .prepared) ∧
    treeFall.all SOp.calm = true ∧ AllDefault (sysAfter (fun _ => none) (treeDemo ++ treeFall)) ∧
    Quiet (sysAfter (fun _ => none) (treeDemo ++ treeFall)) ∧
    (∀ j, ¬ (j = 0 ∨ j = 2) → ∀ r, .sBegin r ∈ ((sysAfter (fun _ => none) (treeDemo ++ treeFall)).act j).log →
      ∃ i r', r = .linkDied i r') ∧
    (∀ j, j = 0 ∨ j = 2 → ∃ r, ((sysAfter (fun _ => none) (treeDemo ++ treeFall)).act j).phase = .stopped r ∧ r ≠ .normal) ∧
    ((sysAfter (fun _ => none) (treeDemo ++ treeFall)).act 1).phase = .stopped (.linkDied 0 .killed) ∧
    ((sysAfter (fun _ => none) (treeDemo ++ treeFall)).act 2).phase = .stopped (.panicked 7) ∧
    ((sysAfter (fun _ => none) (treeDemo ++ treeFall)).act 3).phase = .idle := by
  have h4 : ∀ op ∈ treeDemo ++ treeFall, ∀ y ∈ op.ids, y < 4 := by decide
  have hfar : ∀ x, 4 ≤ x → (sysAfter (fun _ => none) (treeDemo ++ treeFall)).act x = after none [] := fun x hx =>
    untouched _ _ x (fun op ho hm => Nat.not_lt.mpr hx (h4 op ho x hm))
  have hfar' : ∀ x, 4 ≤ x → (sysAfter (fun _ => none) treeDemo).act x = after none [] := fun x hx =>
    untouched _ _ x (fun op ho hm => Nat.not_lt.mpr hx (h4 op (by simp [ho]) x hm))
  have hcases : ∀ {P : Id → Prop}, (∀ x, x < 4 → P x) → (∀ x, 4 ≤ x → P x) → ∀ x, P x := by
    intro P h1 h2 x
    by_cases hx : x < 4
    · exact h1 x hx
    · exact h2 x (Nat.not_lt.mp hx)
  refine ⟨?_, ?_, by decide, allDefault_of_all 4 (by decide) h4, ?_, ?_, ?_, by decide, by decide, by decide⟩
  · apply hcases
    · intro x hx h
      replace h := h.2
      revert h; revert hx; revert x; decide
    · intro x hx ⟨_, h⟩
      rw [hfar' x hx] at h
      cases h
  · apply hcases
    · decide
    · intro x hx h
      rw [hfar' x hx] at h
      exact absurd rfl h
  · apply hcases
    · intro x hx
      rcases lt4 x hx with rfl | rfl | rfl | rfl
      · exact Or.inr (Or.inr ⟨.killed, by decide⟩)
      · exact Or.inr (Or.inr ⟨.linkDied 0 .killed, by decide⟩)
      · exact Or.inr (Or.inr ⟨.panicked 7, by decide⟩)
      · exact Or.inr (Or.inl (by decide))
    · intro x hx
      left
      rw [hfar x hx]; rfl
  · apply hcases
    · intro x hx h0 r hr
      rcases lt4 x hx with rfl | rfl | rfl | rfl
      · exact absurd (Or.inl rfl) h0
      · rw [show ((sysAfter (fun _ => none) (treeDemo ++ treeFall)).act 1).log =
          [.startBegin, .startEnd .ok, .lBegin 0 .killed, .lEnd 0 .killed (.brk (.linkDied 0 .killed)),
            .sBegin (.linkDied 0 .killed), .sEnd (.linkDied 0 .killed) .ok, .returned (.linkDied 0 .killed)] by decide] at hr
        simp at hr
        exact ⟨_, _, hr⟩
      · exact absurd (Or.inr rfl) h0
      · rw [show ((sysAfter (fun _ => none) (treeDemo ++ treeFall)).act 3).log = [.startBegin, .startEnd .ok] by decide] at hr
        simp at hr
    · intro x hx _ r hr
      rw [hfar x hx] at hr
      cases hr
  · rintro j (rfl | rfl)
    · exact ⟨.killed, by decide, by decide⟩
    · exact ⟨.panicked 7, by decide, by decide⟩

/-- **C24** — if no `on_start` fails, it is the whole component, whenever the links were made: under the hypotheses of
`failure_takes_down_exactly_what_it_reaches_partial` the stopped actors are exactly those connected with one of the `roots`. -/
theorem failure_takes_down_the_component_if_started_partial (cap : Id → Option Nat) (ops ops' : List SOp) (roots : Id → Prop)
    (h0 : ∀ x, ¬ ((sysAfter cap ops).act x).phase.out)
    (h1 : ∀ x, ((sysAfter cap ops).act x).links ≠ [] → ((sysAfter cap (ops ++ ops')).act x).phase ≠ .prepared)
    (hc : ops'.all SOp.calm = true) (hd : AllDefault (sysAfter cap (ops ++ ops')))
    (hq : Quiet (sysAfter cap (ops ++ ops')))
    (hown : ∀ j, ¬ roots j → ∀ r, .sBegin r ∈ ((sysAfter cap (ops ++ ops')).act j).log → ∃ i r', r = .linkDied i r')
    (hroot : ∀ j, roots j → ∃ r, ((sysAfter cap (ops ++ ops')).act j).phase = .stopped r ∧ r ≠ .normal)
    (hok : ∀ x o, .startEnd o ∈ ((sysAfter cap (ops ++ ops')).act x).log → o = .ok) (j : Id) :
    (∃ r, ((sysAfter cap (ops ++ ops')).act j).phase = .stopped r) ↔
      ∃ root, roots root ∧ Conn (fun i => ((sysAfter cap ops).act i).links) root j := by
  have hm := failure_takes_down_exactly_what_it_reaches_partial cap ops ops' roots h0 h1 hc hd hq hown hroot
  constructor
  · intro h
    obtain ⟨root, h2, h3⟩ := (hm j).1.mp h
    exact ⟨root, h2, h3.conn⟩
  · rintro ⟨root, h2, h3⟩
    refine (hm j).1.mpr ⟨root, h2, ?_⟩
    induction h3 with
    | refl => exact .refl
    | step i j _ hl ih =>
      obtain ⟨r, hr⟩ := (hm i).1.mpr ⟨root, h2, ih⟩
      have hs := sys_start cap (ops ++ ops') i
      refine .step i j ih ?_ hl
      match hx : ((sysAfter cap (ops ++ ops')).act i).startupErr with
      | none => exact absurd hx (hs.stopped r hr).2
      | some x =>
        obtain ⟨o, ho⟩ := (hs.res x hx).2.2
        rw [← hok i o ho]; exact ho

/-- 1 is linked to 0 before both run; 0 is killed. -/
def pairFall : List SOp := [.link 1 0] ++ (spawnDemo 0 ++ spawnDemo 1 ++ dieDemo ++
    [.loc 1 .recv, .loc 1 (.linkEnd (.brk (.linkDied 0 .killed))), .loc 1 (.stopEnd .ok), .loc 1 .finish])

example : (∀ x o, .startEnd o ∈ ((sysAfter (fun _ => none) pairFall).act x).log → o = .ok) ∧
    ((sysAfter (fun _ => none) pairFall).act 1).phase = .stopped (.linkDied 0 .killed) := by
  refine ⟨fun x o h => ?_, by decide⟩
  by_cases hx : x < 2
  · have h2 : ∀ x < 2, ∀ ev ∈ ((sysAfter (fun _ => none) pairFall).act x).log,
        (match ev with | .startEnd o => decide (o = .ok) | _ => true) = true := by decide
    simpa using h2 x hx _ h
  · have h2 : ∀ op ∈ pairFall, ∀ y ∈ op.ids, y < 2 := by decide
    rw [untouched _ _ x (fun op ho hm => hx (h2 op ho x hm))] at h
    cases h

/-- **C24** (liveness, part) — actors linked at any time, running, starting or before they are started (`spawn_link`). Take a system at a
moment at which nobody has left its loop, with an arbitrary link graph, and let it run on for ever, fairly, without further
`link`/`unlink` and with the default hooks, everybody linked being started sooner or later; messages may be sent and handled all the
time. Let the actors in `roots`, and only those, stop for causes of their own, each abnormally. Then those reached from one of the
`roots` through links of actors whose `on_start` succeeded stop sooner or later, abnormally, and nobody else ever does.

Missing from the full claim: an actor whose `on_start` fails does not pass the failure on, and bounded mailboxes may be so full that
a notification never gets through (`Through`, which holds of unbounded ones by `through_unbounded`; see
`stopping_actors_deadlock`). -/
theorem failure_takes_down_what_it_reaches_live_partial (cap : Id → Option Nat) (ops : Nat → SOp) (hf : SysFair cap ops)
    (ht : Through cap ops) (n0 : Nat) (roots : Id → Prop)
    (h0 : ∀ x, ¬ ((sysUpto cap ops n0).act x).phase.out)
    (h1 : ∀ x, ((sysUpto cap ops n0).act x).links ≠ [] → ∃ n, ((sysUpto cap ops n).act x).phase ≠ .prepared)
    (hc : ∀ n, n0 ≤ n → (ops n).calm = true) (hd : ∀ n, AllDefault (sysUpto cap ops n))
    (hcr : ∀ n x, ((sysUpto cap ops n).act x).phase ≠ .crashed)
    (hown : ∀ n j, ¬ roots j → ∀ r, .sBegin r ∈ ((sysUpto cap ops n).act j).log → ∃ i r', r = .linkDied i r')
    (hroot : ∀ j, roots j → (∃ n r, .sBegin r ∈ ((sysUpto cap ops n).act j).log) ∧
      ∀ n, .sBegin .normal ∉ ((sysUpto cap ops n).act j).log)
    (j : Id) :
    ((∃ n r, ((sysUpto cap ops n).act j).phase = .stopped r) ↔
      ∃ root, roots root ∧ Reach (fun i => ((sysUpto cap ops n0).act i).links)
        (fun i => ∃ n, .startEnd .ok ∈ ((sysUpto cap ops n).act i).log) root j) ∧
    ∀ n, ((sysUpto cap ops n).act j).phase ≠ .stopped .normal := by
  have hcalm : ∀ n, n0 ≤ n → ((List.range (n - n0)).map (fun i => ops (n0 + i))).all SOp.calm = true := by
    intro n hn
    simp only [List.all_eq_true, List.mem_map, forall_exists_index, and_imp]
    rintro _ i _ rfl
    exact hc _ (by omega)
  have hsp : ∀ n, n0 ≤ n → Within (fun i => ((sysUpto cap ops n0).act i).links) (sysUpto cap ops n) := by
    intro n hn
    rw [sysUpto_split cap ops hn]
    exact within cap _ _ (hcalm n hn) h0
  have howes : ∀ n, n0 ≤ n → ∀ i j, j ∈ ((sysUpto cap ops n0).act i).links → Owes (sysUpto cap ops n) i j := by
    intro n hn
    rw [sysUpto_split cap ops hn]
    exact owes_calm cap _ _ h0 (hcalm n hn)
  have hsym : ∀ a b, a ∈ ((sysUpto cap ops n0).act b).links ↔ b ∈ ((sysUpto cap ops n0).act a).links :=
    fun a b => links_symmetric cap _ a b (h0 a) (h0 b)
  have hbegin : ∀ n x r, ((sysUpto cap ops n).act x).phase = .stopped r →
      .sBegin r ∈ ((sysUpto cap ops n).act x).log := fun n x r h => stopped_sBegin (sysUpto_good cap ops n x) h
  have habn : ∀ n x r, .sBegin r ∈ ((sysUpto cap ops n).act x).log → r ≠ .normal := by
    rintro n x r h rfl
    by_cases hx : roots x
    · exact (hroot x hx).2 n h
    · obtain ⟨i, r', h2⟩ := hown n x hx _ h
      cases h2
  have hlate : ∀ n x r, .sBegin r ∈ ((sysUpto cap ops n).act x).log → n0 ≤ n := by
    intro n x r h
    apply Classical.byContradiction
    intro hlt
    have h2 := sys_log_mono (k := n0) (by omega) h
    obtain ⟨l, hl⟩ := actor_history cap ((List.range n0).map ops) x
    change (sysUpto cap ops n0).act x = _ at hl
    rw [hl] at h2
    exact h0 x (by rw [hl]; exact out_of_sBegin _ _ h2)
  refine ⟨⟨?_, ?_⟩, fun n hp => habn n j _ (hbegin n j _ hp) rfl⟩
  · rintro ⟨n, r, hp⟩
    have hb := hbegin n j r hp
    have hn := hlate n j r hb
    clear hp
    have hdr := fun {j r} => @default_reason cap ((List.range n).map ops) (hd n) j r
    have hrel := rel_after cap ((List.range n).map ops)
    have htell := fun {i j r} => @teller_started cap ((List.range n).map ops) i j r
    change ∀ {j r}, .sBegin r ∈ ((sysUpto cap ops n).act j).log → _ at hdr
    change Rel (sysUpto cap ops n) at hrel
    induction r generalizing j with
    | linkDied i r' ih =>
      by_cases hj : roots j
      · exact ⟨j, hj, .refl⟩
      · rcases hdr hb with h | ⟨i', r'', h2, _, h3⟩ | ⟨h2, _⟩
        · rcases h with ⟨h, _⟩ | ⟨h, _⟩ | ⟨e, h, _⟩ <;> cases h
        · cases h2
          obtain ⟨root, h4, h5⟩ := ih i (hrel.src i j _ h3).1
          exact ⟨root, h4, .step i j h5 ⟨n, htell h3 (hcr n i)⟩ ((hsp n hn).told i j _ h3)⟩
        · cases h2
    | _ =>
      by_cases hj : roots j
      · exact ⟨j, hj, .refl⟩
      · obtain ⟨i, r', h⟩ := hown n j hj _ hb; cases h
  · rintro ⟨root, hr, hconn⟩
    have hout : ∀ n x, ((sysUpto cap ops n).act x).phase.out →
        ∃ k r, ((sysUpto cap ops k).act x).phase = .stopped r := by
      intro n x h
      obtain ⟨k, r, _, h2⟩ := out_stops hf (ht.by x) hcr h
      exact ⟨k, r, h2⟩
    induction hconn with
    | refl =>
      obtain ⟨n, r, h⟩ := (hroot root hr).1
      obtain ⟨l, hl⟩ := actor_history cap ((List.range n).map ops) root
      change (sysUpto cap ops n).act root = _ at hl
      rw [hl] at h
      exact hout n root (by rw [hl]; exact out_of_sBegin _ _ h)
    | step i j _ hsi hl ih =>
      obtain ⟨n, r, hp⟩ := ih
      obtain ⟨ns, hsi⟩ := hsi
      have hb := hbegin n i r hp
      have hn := hlate n i r hb
      obtain ⟨m0, hm0⟩ := h1 j (List.ne_nil_of_mem ((hsym i j).mpr hl))
      have hfj := proj_fair (x := j) (n0 := m0) hf (ht.by j) hm0
      have hok : .startEnd .ok ∈ ((sysUpto cap ops n).act i).log := by
        have hs := sys_start cap ((List.range n).map ops) i
        change Start ((sysUpto cap ops n).act i) at hs
        match hx : ((sysUpto cap ops n).act i).startupErr with
        | none => exact absurd hx (hs.stopped r hp).2
        | some x =>
          obtain ⟨o, ho⟩ := (hs.res x hx).2.2
          have h2 := sys_log_mono (Nat.le_max_left n ns) ho
          have h3 := sys_log_mono (Nat.le_max_right n ns) hsi
          have hs' := sys_start cap ((List.range (max n ns)).map ops) i
          change Start ((sysUpto cap ops (max n ns)).act i) at hs'
          match hy : ((sysUpto cap ops (max n ns)).act i).startupErr with
          | none => exact absurd h3 ((hs'.noRes hy).2.2.1 _)
          | some y =>
            have e1 := (hs'.res y hy).2.1 _ h2
            have e2 := (hs'.res y hy).2.1 _ h3
            cases o with
            | ok => exact ho
            | _ => simp [resOf] at e1 e2; rw [← e2] at e1; cases e1
      rcases heard_of_owes cap ((List.range n).map ops) (howes n hn i j hl) r hp hok with ⟨_, t, htm⟩ | h
      · change (t, Sig.linkDied i r) ∈ ((sysUpto cap ops n).act j).mb.pushed at htm
        rcases over_or_stays hfj n with ⟨k, _, hk⟩ | ⟨k, hnk, hs⟩
        · rw [proj_upto] at hk
          exact hout k j (out_of_over hk)
        · exfalso
          obtain ⟨m, hm, h2, _, h4⟩ := catches_up hfj hs
          have h5 : (t, Sig.linkDied i r) ∈ (upto (cap j) (proj cap ops j) k).mb.pushed :=
            (pushed_mono _ _ hnk).subset (by rw [proj_upto]; exact htm)
          have hdj : DefaultHooks (upto (cap j) (proj cap ops j) m).log := by rw [proj_upto]; exact hd m j
          rcases abnormal_death_stops (cap j) _ t i r hdj (h4 _ h5) (habn n i r hb) with h | h
          · have h6 : (upto (cap j) (proj cap ops j) m).phase.inLoop = false := h.1
            rw [hs m hm] at h6; cases h6
          · change (upto (cap j) (proj cap ops j) m).phase = _ at h
            rw [h2] at h; cases h
      · exact hout n j h

private theorem pairFall_ids : ∀ op ∈ pairFall, ∀ x ∈ op.ids, x < 2 := by decide

private theorem pairFall_other {n : Nat} (hn : n ≤ pairFall.length) {x : Id} (hx : ¬ x < 2) :
    (sysUpto (fun _ => none) (sysQuiet pairFall) n).act x = after none [] := by
  rw [sysQuiet_take _ _ hn]
  exact untouched _ _ x (fun op ho hm => hx (pairFall_ids op (List.mem_of_mem_take ho) x hm))

private theorem pairFall_granted (x : Id) : ((sysAfter (fun _ => none) pairFall).act x).mb.granted = [] := by
  by_cases hx : x < 2
  · revert x; decide
  · rw [untouched _ _ x (fun op ho hm => hx (pairFall_ids op ho x hm))]; rfl

private theorem pairFall_log {n : Nat} {x : Id} {e : Ev}
    (h : e ∈ ((sysUpto (fun _ => none) (sysQuiet pairFall) n).act x).log) :
    x < 2 ∧ e ∈ ((sysAfter (fun _ => none) pairFall).act x).log := by
  have h2 := sys_log_mono (k := max n pairFall.length) (by omega) h
  rw [sysQuiet_rest _ _ (pairFall_granted 0) (by omega)] at h2
  refine ⟨?_, h2⟩
  apply Classical.byContradiction
  intro hx
  rw [untouched _ _ x (fun op ho hm => hx (pairFall_ids op ho x hm))] at h2
  cases h2

private theorem lt2 (x : Nat) (h : x < 2) : x = 0 ∨ x = 1 := by omega

/-- The two of `pairFall`: at time 1 they are linked and neither runs; both are started, and 0 is killed. -/
example : SysFair (fun _ => none) (sysQuiet pairFall) ∧ Through (fun _ => none) (sysQuiet pairFall) ∧
    (∀ x, ¬ ((sysUpto (fun _ => none) (sysQuiet pairFall) 1).act x).phase.out) ∧
    (∀ x, ((sysUpto (fun _ => none) (sysQuiet pairFall) 1).act x).links ≠ [] →
      ∃ n, ((sysUpto (fun _ => none) (sysQuiet pairFall) n).act x).phase ≠ .prepared) ∧
    (∀ n, 1 ≤ n → (sysQuiet pairFall n).calm = true) ∧
    (∀ n, AllDefault (sysUpto (fun _ => none) (sysQuiet pairFall) n)) ∧
    (∀ n x, ((sysUpto (fun _ => none) (sysQuiet pairFall) n).act x).phase ≠ .crashed) ∧
    (∀ n j, ¬ j = 0 → ∀ r, .sBegin r ∈ ((sysUpto (fun _ => none) (sysQuiet pairFall) n).act j).log →
      ∃ i r', r = .linkDied i r') ∧
    (∀ j, j = 0 → (∃ n r, .sBegin r ∈ ((sysUpto (fun _ => none) (sysQuiet pairFall) n).act j).log) ∧
      ∀ n, .sBegin .normal ∉ ((sysUpto (fun _ => none) (sysQuiet pairFall) n).act j).log) ∧
    1 ∈ ((sysUpto (fun _ => none) (sysQuiet pairFall) 1).act 0).links ∧
    ((sysUpto (fun _ => none) (sysQuiet pairFall) 1).act 0).phase = .prepared := by
  have hlen : 1 ≤ pairFall.length := by decide
  have hfin : sysUpto (fun _ => none) (sysQuiet pairFall) pairFall.length = sysAfter (fun _ => none) pairFall :=
    sysQuiet_rest _ _ (pairFall_granted 0) (Nat.le_refl _)
  have hdef : AllDefault (sysAfter (fun _ => none) pairFall) := allDefault_of_all 2 (by decide) pairFall_ids
  refine ⟨?_, through_unbounded (fun _ => rfl) _, ?_, ?_, ?_, ?_, ?_, ?_, ?_, ?_, ?_⟩
  · apply sysFair_of_ended
    · intro x
      by_cases hx : x < 2
      · left; revert x; decide
      · right; rw [untouched _ _ x (fun op ho hm => hx (pairFall_ids op ho x hm))]; rfl
    · exact pairFall_granted
  · intro x h
    by_cases hx : x < 2
    · rw [sysQuiet_take _ _ hlen] at h
      replace h := h.2
      revert h; revert hx; revert x; decide
    · rw [pairFall_other hlen hx] at h
      cases h.2
  · intro x h
    by_cases hx : x < 2
    · refine ⟨pairFall.length, ?_⟩
      rw [hfin]
      clear h
      revert hx; revert x; decide
    · rw [pairFall_other hlen hx] at h
      exact absurd rfl h
  · intro n hn
    by_cases h : n < pairFall.length
    · revert hn; revert h; revert n; decide
    · simp [sysQuiet, List.getElem?_eq_none (by omega : pairFall.length ≤ n), SOp.calm]
  · intro n x
    refine ⟨fun id r o h => ?_, fun e o h => ?_⟩
    · exact (hdef x).1 id r o (pairFall_log h).2
    · exact (hdef x).2 e o (pairFall_log h).2
  · intro n x
    by_cases hn : n ≤ pairFall.length
    · by_cases hx : x < 2
      · rw [sysQuiet_take _ _ hn]
        revert hx; revert x; revert hn; revert n; decide
      · rw [pairFall_other hn hx]; decide
    · rw [sysQuiet_rest _ _ (pairFall_granted 0) (by omega)]
      by_cases hx : x < 2
      · revert x; decide
      · rw [untouched _ _ x (fun op ho hm => hx (pairFall_ids op ho x hm))]; decide
  · intro n j hj r hr
    obtain ⟨h2, hr⟩ := pairFall_log hr
    rcases lt2 j h2 with rfl | rfl
    · exact (hj rfl).elim
    · rw [show ((sysAfter (fun _ => none) pairFall).act 1).log =
        [.startBegin, .startEnd .ok, .lBegin 0 .killed, .lEnd 0 .killed (.brk (.linkDied 0 .killed)),
          .sBegin (.linkDied 0 .killed), .sEnd (.linkDied 0 .killed) .ok, .returned (.linkDied 0 .killed)] by decide] at hr
      simp at hr
      exact ⟨_, _, hr⟩
  · rintro j rfl
    refine ⟨⟨pairFall.length, .killed, by rw [hfin]; decide⟩, fun n hn => ?_⟩
    have := (pairFall_log hn).2
    revert this; decide
  · rw [sysQuiet_take _ _ hlen]; decide
  · rw [sysQuiet_take _ _ hlen]; decide

end Verif.System
