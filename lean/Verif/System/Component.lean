import Verif.System.Propagate

/-! C24: a failure takes down exactly the connected component. -/

set_option linter.unusedSimpArgs false

namespace Verif.System

open Verif.Mailbox Verif.Lifecycle

/-- Not a call of `link` or `unlink`. -/
def SOp.calm : SOp → Bool
  | .link _ _ => false
  | .unlink _ _ => false
  | _ => true

theorem view_calm (S : Sys) (op : SOp) (hc : op.calm = true) (x : Id) :
    (S.step op).act x = S.act x ∨ (∃ o, isLocal o = true ∧ (S.step op).act x = (S.act x).step o) ∨
    (∃ i r p res, (S.act i).phase = .notifying r p res ∧ x ∈ p ∧
      (S.step op).act x = (S.act x).step (.sendLinkDied i r)) ∨
    (∃ j t, (x, j, t) ∈ S.flight ∧ pendingIn (S.act j) t = false ∧
      (S.step op).act x = (S.act x).step (.notifyEnd j)) := by
  cases op with
  | link a b => simp [SOp.calm] at hc
  | unlink a b => simp [SOp.calm] at hc
  | loc i op =>
    simp only [Sys.step]
    split
    · next h =>
      simp only [set_act]
      split
      · next hx => subst hx; exact Or.inr (Or.inl ⟨op, allowed_local h, rfl⟩)
      · exact Or.inl rfl
    · exact Or.inl rfl
  | notifyStart i j =>
    simp only [Sys.step]
    split
    · next r p res hp =>
      split
      · next h =>
        simp only [set_act]
        split
        · next hx => subst hx; exact Or.inr (Or.inr (Or.inl ⟨i, r, p, res, hp, h.1, rfl⟩))
        · exact Or.inl rfl
      · exact Or.inl rfl
    · exact Or.inl rfl
  | notifyEnd i j =>
    simp only [Sys.step]
    split
    · next p hf =>
      split
      · exact Or.inl rfl
      · next hp =>
        simp only [set_act]
        split
        · next hx =>
          subst hx
          have h1 := List.mem_of_find?_eq_some hf
          have h2 := List.find?_some hf
          obtain ⟨p1, p2, p3⟩ := p
          simp at h2
          obtain ⟨rfl, rfl⟩ := h2
          exact Or.inr (Or.inr (Or.inr ⟨p2, p3, h1, by simpa using hp, rfl⟩))
        · exact Or.inl rfl
    · exact Or.inl rfl

/-- Where an actor in its loop can go. -/
theorem inLoop_tr {s s' : St} (h : s.phase.inLoop = true) (ht : Tr s s') :
    s'.phase.inLoop = true ∨ (∃ r p, s'.phase = .stopping r p true) ∨ s'.phase = .crashed := by
  have hno : ∀ p, s.phase = p → p.inLoop = false → False := by rintro p rfl h'; simp_all
  have hdr : ∀ (a : St) (rest : List Msg) (ts : Bool), (a.drain rest ts).phase.inLoop = true ∨
      (∃ r p, (a.drain rest ts).phase = .stopping r p true) ∨ (a.drain rest ts).phase = .crashed := by
    intro a rest ts
    cases rest with
    | cons m ms => simp [St.drain]
    | nil => cases ts <;> simp [St.drain]
  cases ht with
  | run h => exact (hno _ h rfl).elim
  | startOk h => exact (hno _ h rfl).elim
  | startFail _ _ h => exact (hno _ h rfl).elim
  | startPanicStop _ _ _ h => exact (hno _ h rfl).elim
  | startPanicDie _ _ h => exact (hno _ h rfl).elim
  | stopNotify _ _ _ _ h => exact (hno _ h rfl).elim
  | stopFinish _ _ _ _ h => exact (hno _ h rfl).elim
  | stopDie _ _ _ _ h => exact (hno _ h rfl).elim
  | notify _ _ _ _ h => exact (hno _ h rfl).elim
  | finish _ _ h => exact (hno _ h rfl).elim
  | recvNone => exact hdr _ _ _
  | recvStartup => exact hdr _ _ _
  | recvStop => exact hdr _ _ _
  | handlerReply => exact hdr _ _ _
  | handlerOk => exact hdr _ _ _
  | refl => exact Or.inl h
  | _ => simp [St.step, St.crash, St.abortSeen, h]

/-- What becomes of a link from `i` to `j`. -/
def Duty (S : Sys) (i j : Id) : Prop :=
  ((S.act i).phase.inLoop = true ∧ (j ∈ (S.act i).links ∨ (S.act j).phase.out)) ∨
  (∃ r p, (S.act i).phase = .stopping r p true ∧ (j ∈ p ∨ (S.act j).phase.out)) ∨
  (∃ r p res, (S.act i).phase = .notifying r p res ∧
    (j ∈ p ∨ (S.act j).phase.out ∨ Reached i r (S.act j))) ∨
  (∃ r, (S.act i).phase = .stopped r ∧ ((S.act j).phase.out ∨ Reached i r (S.act j))) ∨
  (S.act i).phase = .crashed

theorem duty_step {S : Sys} (hg : ∀ x, Good (S.act x)) (hrel : Rel S) (hfl : Fl S) (op : SOp)
    (hc : op.calm = true) {i j : Id} (h : Duty S i j) : Duty (S.step op) i j := by
  have hv := fun x => view S op x
  have hout : (S.act j).phase.out → ((S.step op).act j).phase.out :=
    fun hx => (out_tr hx (view_tr (hv j))).1
  have hre : ∀ r, Reached i r (S.act j) → Reached i r ((S.step op).act j) :=
    fun r hx => reached_view (hv j) hx
  -- nothing happens to actor `i` as far as its links are concerned
  have quiet : ∀ s, (S.step op).act i = s → s.phase = (S.act i).phase → s.links = (S.act i).links →
      Duty (S.step op) i j := by
    rintro s rfl e1 e2
    unfold Duty
    rw [e1, e2]
    rcases h with ⟨h1, h2⟩ | ⟨r, p, h1, h2⟩ | ⟨r, p, res, h1, h2⟩ | ⟨r, h1, h2⟩ | h1
    · exact Or.inl ⟨h1, h2.imp_right hout⟩
    · exact Or.inr (Or.inl ⟨r, p, h1, h2.imp_right hout⟩)
    · exact Or.inr (Or.inr (Or.inl ⟨r, p, res, h1, h2.imp_right (Or.imp hout (hre r))⟩))
    · exact Or.inr (Or.inr (Or.inr (Or.inl ⟨r, h1, h2.imp hout (hre r)⟩)))
    · exact Or.inr (Or.inr (Or.inr (Or.inr h1)))
  rcases view_calm S op hc i with e | ⟨o, ho, e⟩ | ⟨k, r, p, res, hk, hx, e⟩ | ⟨k, t, hf, hp, e⟩
  · exact quiet _ e rfl rfl
  · have hne : ∀ j, o ≠ .notifyEnd j := by rintro j rfl; simp [isLocal] at ho
    obtain ⟨s1, s2, s3, s4⟩ := stopping_step (s := S.act i) hne
    unfold Duty
    rcases h with ⟨h1, h2⟩ | ⟨r, p, h1, h2⟩ | ⟨r, p, res, h1, h2⟩ | ⟨r, h1, h2⟩ | h1
    · have hdead : ∀ r, (S.act i).phase = .linkDying j r → (S.act j).phase.out := by
        intro r hp
        exact (hrel.src j i r (linkDying_received (hg i) hp)).2.out
      rcases inLoop_tr h1 (step_tr (S.act i) o) with h3 | ⟨r, p, h3⟩ | h3
      · left
        rw [e]
        refine ⟨h3, ?_⟩
        rcases h2 with h2 | h2
        · rcases links_loc (S.act i) o ho with h4 | ⟨_, _, r, p, h4⟩ | ⟨i0, r, h4, h5⟩
          · left; rw [h4]; exact h2
          · rw [h4] at h3; cases h3
          · by_cases hj : j = i0
            · subst hj; exact Or.inr (hout (hdead r h4))
            · left; rw [h5]; simp [h2, hj]
        · exact Or.inr (hout h2)
      · right; left
        rw [e]
        refine ⟨r, p, h3, ?_⟩
        rcases h2 with h2 | h2
        · obtain ⟨_, _, h4⟩ := links_taken_when_loop_ends (step_tr (S.act i) o) h1 h3
          rcases h4 with h4 | ⟨i0, r0, h4, h5⟩
          · left; rw [h4]; exact h2
          · by_cases hj : j = i0
            · subst hj; exact Or.inr (hout (hdead r0 h4))
            · left; rw [h5]; simp [h2, hj]
        · exact Or.inr (hout h2)
      · exact Or.inr (Or.inr (Or.inr (Or.inr (by rw [e]; exact h3))))
    · rw [e]
      rcases s1 r p h1 with h3 | ⟨res, h3⟩ | h3
      · exact Or.inr (Or.inl ⟨r, p, h3, h2.imp_right hout⟩)
      · refine Or.inr (Or.inr (Or.inl ⟨r, p, res, h3, ?_⟩))
        rcases h2 with h2 | h2
        · exact Or.inl h2
        · exact Or.inr (Or.inl (hout h2))
      · exact Or.inr (Or.inr (Or.inr (Or.inr h3)))
    · rw [e]
      rcases s2 r p res h1 with h3 | ⟨h3, h4⟩ | h3
      · exact Or.inr (Or.inr (Or.inl ⟨r, p, res, h3, h2.imp_right (Or.imp hout (hre r))⟩))
      · subst h3
        simp at h2
        exact Or.inr (Or.inr (Or.inr (Or.inl ⟨r, h4, h2.imp hout (hre r)⟩)))
      · exact Or.inr (Or.inr (Or.inr (Or.inr h3)))
    · exact Or.inr (Or.inr (Or.inr (Or.inl ⟨r, by rw [e]; exact s3 r h1, h2.imp hout (hre r)⟩)))
    · exact Or.inr (Or.inr (Or.inr (Or.inr (by rw [e]; exact s4 h1))))
  · exact quiet _ e rfl rfl
  · rcases hfl.st _ _ _ hf with h1 | ⟨r, p, res, h1, h2, h3⟩
    · exact Or.inr (Or.inr (Or.inr (Or.inr (by rw [e]; exact (notified_step _ _).2.2.2 h1))))
    · refine Or.inr (Or.inr (Or.inl ⟨r, p.erase k, res, by rw [e]; exact (notified_step _ _).2.1 _ _ _ h1, ?_⟩))
      rcases h with ⟨h4, _⟩ | ⟨r', p', h4, _⟩ | ⟨r', p', res', h4, h5⟩ | ⟨r', h4, _⟩ | h4
      · rw [h1] at h4; cases h4
      · rw [h1] at h4; cases h4
      · rw [h1] at h4; cases h4
        by_cases hj : j = k
        · subst hj
          right; right
          apply hre
          rcases h3 with hw | hw | hw | hw
          · exfalso
            have : pendingIn (S.act j) t = true := by
              simp only [pendingIn, List.any_eq_true]
              exact ⟨_, List.mem_append_left _ hw, by simp⟩
            rw [hp] at this; cases this
          · exfalso
            have : pendingIn (S.act j) t = true := by
              simp only [pendingIn, List.any_eq_true]
              exact ⟨_, List.mem_append_right _ hw, by simp⟩
            rw [hp] at this; cases this
          · exact Or.inl ⟨_, hw⟩
          · exact Or.inr hw
        · rcases h5 with h5 | h5 | h5
          · exact Or.inl ((List.mem_erase_of_ne hj).mpr h5)
          · exact Or.inr (Or.inl (hout h5))
          · exact Or.inr (Or.inr (hre _ h5))
      · rw [h1] at h4; cases h4
      · rw [h1] at h4; cases h4

/-- Without `link` and `unlink`, whoever is linked, about to be notified, or notified was linked from
the start. -/
structure Spread (L0 : Id → List Id) (S : Sys) : Prop where
  links : ∀ i j, j ∈ (S.act i).links → j ∈ L0 i
  pend : ∀ i j, j ∈ pend (S.act i).phase → j ∈ L0 i
  told : ∀ i j r, (i, r) ∈ deaths (S.act j) → j ∈ L0 i
  duty : ∀ i j, j ∈ L0 i → Duty S i j

theorem spread_step (cap : Id → Option Nat) (ops : List SOp) (op : SOp) (hc : op.calm = true)
    {L0 : Id → List Id} (h : Spread L0 (sysAfter cap ops)) : Spread L0 ((sysAfter cap ops).step op) := by
  have hv := fun x => view_calm (sysAfter cap ops) op hc x
  have hv' := fun x => view (sysAfter cap ops) op x
  constructor
  · intro i j hj
    apply h.links i j
    rcases hv i with e | ⟨o, ho, e⟩ | ⟨k, r, p, res, hk, hx, e⟩ | ⟨k, t, hf, hp, e⟩
    · rw [e] at hj; exact hj
    · rw [e] at hj
      rcases links_loc _ o ho with h4 | ⟨h4, _⟩ | ⟨i0, r, _, h5⟩
      · rw [h4] at hj; exact hj
      · rw [h4] at hj; simp at hj
      · rw [h5] at hj; exact (List.mem_filter.mp hj).1
    · rw [e] at hj; exact hj
    · rw [e, notify_links] at hj; exact hj
  · intro i j hj
    rcases pend_tr (view_tr (hv' i)) with hp | hp
    · exact h.pend i j (hp.subset hj)
    · exact h.links i j (hp.subset hj)
  · intro i j r hd
    rcases view_deaths (hv' j) with e | ⟨i', r', p, res, h1, h2, e⟩
    · rw [e] at hd; exact h.told i j r hd
    · rw [e] at hd
      simp at hd
      rcases hd with hd | ⟨rfl, rfl⟩
      · exact h.told i j r hd
      · exact h.pend i j (mem_pend h1 h2)
  · intro i j hj
    exact duty_step (sys_good cap ops) (rel_after cap ops) (fl_after cap ops) op hc (h.duty i j hj)

theorem spread (cap : Id → Option Nat) (ops ops' : List SOp) (hc : ops'.all SOp.calm = true)
    (h0 : ∀ x, ¬ ((sysAfter cap ops).act x).phase.out)
    (h1 : ∀ x, ((sysAfter cap ops).act x).links ≠ [] → ((sysAfter cap ops).act x).phase.inLoop = true) :
    Spread (fun i => ((sysAfter cap ops).act i).links) (sysAfter cap (ops ++ ops')) := by
  have hs : Spread (fun i => ((sysAfter cap ops).act i).links) (sysAfter cap ops) := by
    refine ⟨fun _ _ h => h, ?_, ?_, ?_⟩
    · intro i j hj
      exfalso
      apply h0 i
      generalize ((sysAfter cap ops).act i).phase = p at hj
      cases p <;> simp [pend] at hj <;> exact ⟨rfl, rfl⟩
    · intro i j r hd
      exact (h0 i ((rel_after cap ops).src i j r hd).2.out).elim
    · intro i j hj
      exact Or.inl ⟨h1 i (List.ne_nil_of_mem hj), Or.inl hj⟩
  clear h0 h1
  generalize (fun i => ((sysAfter cap ops).act i).links) = L0 at hs ⊢
  induction ops' generalizing ops with
  | nil => simpa using hs
  | cons op l ih =>
    simp only [List.all_cons, Bool.and_eq_true] at hc
    have := ih (ops ++ [op]) hc.2 (by rw [sysAfter_snoc]; exact spread_step cap ops op hc.1 hs)
    simpa using this

/-- Connected through links: a specification over an arbitrary graph. -/
inductive Conn (L : Id → List Id) (a : Id) : Id → Prop where
  | refl : Conn L a a
  | step (i j : Id) (h : Conn L a i) (hl : j ∈ L i) : Conn L a j

/-- Nothing is left to do: every actor has not been started, or waits for signals and has none, or has
stopped. -/
def Quiet (S : Sys) : Prop := ∀ j, (S.act j).phase = .prepared ∨
  ((S.act j).phase = .idle ∧ (S.act j).mb.queue = []) ∨ ∃ r, (S.act j).phase = .stopped r

theorem stopped_sBegin {s : St} (hg : Good s) {r : Reason} (hp : s.phase = .stopped r) :
    .sBegin r ∈ s.log := by
  obtain ⟨l, h, hm⟩ := hg.log
  rw [hp] at hm
  simp only [matchLife] at hm
  subst hm
  exact (closing_seen h).1 r (by simp)

/-- **C24**: a failure takes down exactly what is connected to it. Take a system in which nobody has
stopped and the linked actors are running, with an arbitrary link graph. Let it run in any way without
further `link`/`unlink`, with the default hooks, and with only the actors in `roots` stopping for causes
of their own, each abnormally. When all is quiet again, the stopped actors are exactly those connected to
one of the `roots` through the links there were at the beginning; and all of them stopped abnormally.

Missing from the full claim: actors linked before they are running (`h1`); if the `on_start` of such an
actor fails nobody is told, see `Lifecycle.failed_start_notifies_nobody`. -/
theorem failure_takes_down_exactly_the_component_partial (cap : Id → Option Nat) (ops ops' : List SOp)
    (roots : Id → Prop)
    (h0 : ∀ x, ¬ ((sysAfter cap ops).act x).phase.out)
    (h1 : ∀ x, ((sysAfter cap ops).act x).links ≠ [] → ((sysAfter cap ops).act x).phase.inLoop = true)
    (hc : ops'.all SOp.calm = true) (hd : AllDefault (sysAfter cap (ops ++ ops')))
    (hq : Quiet (sysAfter cap (ops ++ ops')))
    (hown : ∀ j, ¬ roots j → ∀ r, .sBegin r ∈ ((sysAfter cap (ops ++ ops')).act j).log →
      ∃ i r', r = .linkDied i r')
    (hroot : ∀ j, roots j → ∃ r, ((sysAfter cap (ops ++ ops')).act j).phase = .stopped r ∧ r ≠ .normal)
    (j : Id) :
    ((∃ r, ((sysAfter cap (ops ++ ops')).act j).phase = .stopped r) ↔
      ∃ root, roots root ∧ Conn (fun i => ((sysAfter cap ops).act i).links) root j) ∧
    ((sysAfter cap (ops ++ ops')).act j).phase ≠ .stopped .normal := by
  have hsp := spread cap ops ops' hc h0 h1
  have hsym : ∀ a b, a ∈ ((sysAfter cap ops).act b).links ↔ b ∈ ((sysAfter cap ops).act a).links :=
    fun a b => links_symmetric cap ops a b (h0 a) (h0 b)
  have hrel := rel_after cap (ops ++ ops')
  have hg := sys_good cap (ops ++ ops')
  have hhist := actor_history cap (ops ++ ops')
  have hdr := fun {j r} => @default_reason cap (ops ++ ops') hd j r
  generalize sysAfter cap (ops ++ ops') = S at *
  generalize sysAfter cap ops = S0 at *
  -- abnormal, always
  have habn : ∀ x r, (S.act x).phase = .stopped r → r ≠ .normal := by
    intro x r hp
    by_cases hx : roots x
    · obtain ⟨r', h2, h3⟩ := hroot x hx
      rw [hp] at h2; cases h2; exact h3
    · obtain ⟨i, r', rfl⟩ := hown x hx r (stopped_sBegin (hg x) hp)
      simp
  refine ⟨⟨?_, ?_⟩, fun hp => habn j _ hp rfl⟩
  · -- only the component
    rintro ⟨r, hp⟩
    have hb := stopped_sBegin (hg j) hp
    clear hp
    induction r generalizing j with
    | linkDied i r' ih =>
      by_cases hj : roots j
      · exact ⟨j, hj, .refl⟩
      · rcases hdr hb with h | ⟨i', r'', h2, _, h3⟩ | ⟨h2, _⟩
        · rcases h with ⟨h, _⟩ | ⟨h, _⟩ | ⟨e, h, _⟩ <;> cases h
        · cases h2
          obtain ⟨root, h4, h5⟩ := ih i (hrel.src i j _ h3).1
          exact ⟨root, h4, .step i j h5 (hsp.told i j _ h3)⟩
        · cases h2
    | _ =>
      by_cases hj : roots j
      · exact ⟨j, hj, .refl⟩
      · obtain ⟨i, r', h⟩ := hown j hj _ hb; cases h
  · -- the whole component
    rintro ⟨root, hr, hconn⟩
    induction hconn with
    | refl => obtain ⟨r, h2, _⟩ := hroot root hr; exact ⟨r, h2⟩
    | step i j _ hl ih =>
      obtain ⟨r, hp⟩ := ih
      have hn := habn i r hp
      -- j is not unstarted
      have hjnp : (S.act j).phase ≠ .prepared := by
        intro hpj
        have := hsp.duty j i ((hsym i j).mpr hl)
        rcases this with ⟨h2, _⟩ | ⟨r, p, h2, _⟩ | ⟨r, p, res, h2, _⟩ | ⟨r, h2, _⟩ | h2 <;>
          (rw [hpj] at h2; cases h2)
      rcases hq j with h2 | ⟨h2, h3⟩ | h2
      · exact (hjnp h2).elim
      · exfalso
        have hnout : ¬ (S.act j).phase.out := by rw [h2]; rintro ⟨h, _⟩; cases h
        have hre : Reached i r (S.act j) := by
          rcases hsp.duty i j hl with ⟨h4, _⟩ | ⟨r, p, h4, _⟩ | ⟨r, p, res, h4, _⟩ | ⟨r', h4, h5⟩ | h4
          · rw [hp] at h4; cases h4
          · rw [hp] at h4; cases h4
          · rw [hp] at h4; cases h4
          · rw [hp] at h4; cases h4; exact h5.resolve_left hnout
          · rw [hp] at h4; cases h4
        have hopen : (S.act j).mb.closed = false := by rw [(hg j).shape.closed, h2]; rfl
        rcases hre with ⟨t, ht⟩ | hcl
        · have hin := (hg j).shape.mb
          rw [hin.hist, hin.openLost hopen, h3] at ht
          simp at ht
          obtain ⟨l, hl'⟩ := hhist j
          have := abnormal_death_stops (cap j) l t i r (by rw [← hl']; exact hd j) (by rw [← hl']; exact ht) hn
          rw [← hl'] at this
          rcases this with h | h
          · exact hnout h
          · rw [h2] at h; cases h
        · rw [hopen] at hcl; cases hcl
      · exact h2

private theorem lt3 (x : Nat) (h : x < 3) : x = 0 ∨ x = 1 ∨ x = 2 := by omega
private theorem ge3 (x : Nat) (h : ¬ x < 3) : 3 ≤ x := by omega

/-- The hypotheses hold of the chain 0 - 1 - 2 when 0 is killed; actors 3, 4, ... are not touched. -/
example : (∀ x, ¬ ((sysAfter (fun _ => none) chainDemo).act x).phase.out) ∧
    (∀ x, ((sysAfter (fun _ => none) chainDemo).act x).links ≠ [] →
      ((sysAfter (fun _ => none) chainDemo).act x).phase.inLoop = true) ∧
    (dieDemo ++ fallDemo).all SOp.calm = true ∧
    AllDefault (sysAfter (fun _ => none) (chainDemo ++ (dieDemo ++ fallDemo))) ∧
    Quiet (sysAfter (fun _ => none) (chainDemo ++ (dieDemo ++ fallDemo))) ∧
    (∀ j, ¬ j = 0 → ∀ r, .sBegin r ∈
      ((sysAfter (fun _ => none) (chainDemo ++ (dieDemo ++ fallDemo))).act j).log → ∃ i r', r = .linkDied i r') ∧
    (∀ j, j = 0 → ∃ r, ((sysAfter (fun _ => none) (chainDemo ++ (dieDemo ++ fallDemo))).act j).phase =
      .stopped r ∧ r ≠ .normal) ∧
    ((sysAfter (fun _ => none) (chainDemo ++ (dieDemo ++ fallDemo))).act 2).phase =
      .stopped (.linkDied 1 (.linkDied 0 .killed)) := by
  have hsmall : ∀ x, 3 ≤ x → (∀ op ∈ chainDemo, x ∉ op.ids) ∧
      ∀ op ∈ chainDemo ++ (dieDemo ++ fallDemo), x ∉ op.ids := by
    intro x hx
    have h2 : ∀ op ∈ chainDemo ++ (dieDemo ++ fallDemo), ∀ y ∈ op.ids, y < 3 := by decide
    have h1 : ∀ op ∈ chainDemo, ∀ y ∈ op.ids, y < 3 := by decide
    exact ⟨fun op ho hm => Nat.not_lt.mpr hx (h1 op ho x hm), fun op ho hm => Nat.not_lt.mpr hx (h2 op ho x hm)⟩
  have hcases : ∀ {P : Id → Prop}, (∀ x, x < 3 → P x) → (∀ x, 3 ≤ x → P x) → ∀ x, P x := by
    intro P h1 h2 x
    by_cases hx : x < 3
    · exact h1 x hx
    · exact h2 x (ge3 x hx)
  refine ⟨?_, ?_, by decide, fallDemo_default, ?_, ?_, ?_, by decide⟩
  · apply hcases
    · intro x hx h
      replace h := h.1
      revert h; revert hx; revert x; decide
    · intro x hx ⟨_, h⟩
      rw [untouched _ _ x (hsmall x hx).1] at h
      cases h
  · apply hcases
    · decide
    · intro x hx h
      rw [untouched _ _ x (hsmall x hx).1] at h
      exact absurd rfl h
  · apply hcases
    · intro x hx
      rcases lt3 x hx with rfl | rfl | rfl
      · exact Or.inr (Or.inr ⟨.killed, by decide⟩)
      · exact Or.inr (Or.inr ⟨.linkDied 0 .killed, by decide⟩)
      · exact Or.inr (Or.inr ⟨.linkDied 1 (.linkDied 0 .killed), by decide⟩)
    · intro x hx
      left
      rw [untouched _ _ x (hsmall x hx).2]; rfl
  · apply hcases
    · intro x hx h0 r hr
      rcases (lt3 x hx).resolve_left h0 with rfl | rfl
      · rw [show ((sysAfter (fun _ => none) (chainDemo ++ (dieDemo ++ fallDemo))).act 1).log =
          [.startBegin, .startEnd .ok, .lBegin 0 .killed, .lEnd 0 .killed (.brk (.linkDied 0 .killed)),
            .sBegin (.linkDied 0 .killed), .sEnd (.linkDied 0 .killed) .ok, .notified 2 (.linkDied 0 .killed),
            .returned (.linkDied 0 .killed)] by decide] at hr
        simp at hr
        exact ⟨_, _, hr⟩
      · rw [show ((sysAfter (fun _ => none) (chainDemo ++ (dieDemo ++ fallDemo))).act 2).log =
          [.startBegin, .startEnd .ok, .lBegin 1 (.linkDied 0 .killed),
            .lEnd 1 (.linkDied 0 .killed) (.brk (.linkDied 1 (.linkDied 0 .killed))),
            .sBegin (.linkDied 1 (.linkDied 0 .killed)), .sEnd (.linkDied 1 (.linkDied 0 .killed)) .ok,
            .returned (.linkDied 1 (.linkDied 0 .killed))] by decide] at hr
        simp at hr
        exact ⟨_, _, hr⟩
    · intro x hx _ r hr
      rw [untouched _ _ x (hsmall x hx).2] at hr
      cases hr
  · rintro j rfl
    exact ⟨.killed, by decide, by decide⟩

/-- **C24**: a normal stop takes down nobody. With the default hooks, if all the actors that stop for
causes of their own stop with `Normal`, nobody else stops. -/
theorem normal_stop_takes_down_nobody (cap : Id → Option Nat) (ops : List SOp) (roots : Id → Prop)
    (hd : AllDefault (sysAfter cap ops))
    (hown : ∀ j, ¬ roots j → ∀ r, .sBegin r ∈ ((sysAfter cap ops).act j).log → ∃ i r', r = .linkDied i r')
    (hroot : ∀ j, roots j → ∀ r, .sBegin r ∈ ((sysAfter cap ops).act j).log → r = .normal)
    (j : Id) (hj : ¬ roots j) (r : Reason) : .sBegin r ∉ ((sysAfter cap ops).act j).log := by
  intro hb
  induction r generalizing j with
  | linkDied i r' ih =>
    rcases default_reason hd hb with h | ⟨i', r'', h2, h2', h3⟩ | ⟨h2, _⟩
    · rcases h with ⟨h, _⟩ | ⟨h, _⟩ | ⟨e, h, _⟩ <;> cases h
    · cases h2
      have hb' := ((rel_after cap ops).src i j _ h3).1
      by_cases hi : roots i
      · exact h2' (hroot i hi _ hb')
      · exact ih i hi hb'
    · cases h2
  | _ => obtain ⟨i, r', h⟩ := hown j hj _ hb; cases h

/-- Actor 1 stops normally; its neighbours are told, handle the signal, and live on. -/
def normalDemo : List SOp := chainDemo ++ [.loc 1 .sendStop, .loc 1 .recv, .loc 1 (.stopEnd .ok),
  .notifyStart 1 0, .notifyStart 1 2, .loc 0 .recv, .loc 0 (.linkEnd .cont), .loc 2 .recv,
  .loc 2 (.linkEnd .cont), .notifyEnd 1 2, .notifyEnd 1 0, .loc 1 .finish]

example : AllDefault (sysAfter (fun _ => none) normalDemo) ∧
    (∀ j, ¬ j = 1 → ∀ r, .sBegin r ∈ ((sysAfter (fun _ => none) normalDemo).act j).log →
      ∃ i r', r = .linkDied i r') ∧
    (∀ j, j = 1 → ∀ r, .sBegin r ∈ ((sysAfter (fun _ => none) normalDemo).act j).log → r = .normal) ∧
    ((sysAfter (fun _ => none) normalDemo).act 1).phase = .stopped .normal ∧
    .lBegin 1 .normal ∈ ((sysAfter (fun _ => none) normalDemo).act 0).log := by
  have hids : ∀ op ∈ normalDemo, ∀ x ∈ op.ids, x < 3 := by decide
  refine ⟨allDefault_of_all 3 (by decide) hids, ?_, ?_, by decide, by decide⟩
  · intro j hj r hr
    by_cases h3 : j < 3
    · rcases lt3 j h3 with rfl | rfl | rfl
      · rw [show ((sysAfter (fun _ => none) normalDemo).act 0).log = [.startBegin, .startEnd .ok,
          .lBegin 1 .normal, .lEnd 1 .normal .cont] by decide] at hr
        simp at hr
      · exact (hj rfl).elim
      · rw [show ((sysAfter (fun _ => none) normalDemo).act 2).log = [.startBegin, .startEnd .ok,
          .lBegin 1 .normal, .lEnd 1 .normal .cont] by decide] at hr
        simp at hr
    · rw [untouched _ _ j (fun op ho hm => h3 (hids op ho j hm))] at hr
      cases hr
  · rintro j rfl r hr
    rw [show ((sysAfter (fun _ => none) normalDemo).act 1).log = [.startBegin, .startEnd .ok, .stopTaken,
      .sBegin .normal, .sEnd .normal .ok, .notified 2 .normal, .notified 0 .normal, .returned .normal] by decide] at hr
    simpa using hr

end Verif.System
