import Verif.System.Lemmas

/-! Invariants of systems of linked actors, continued. -/

set_option linter.unusedSimpArgs false

namespace Verif.System

open Verif.Mailbox Verif.Lifecycle

/-- The actor has left its loop with reason `r` and has (at least begun to) tell its links. -/
def Told (r : Reason) (s : St) : Prop :=
  (∃ p res, s.phase = .notifying r p res) ∨ s.phase = .stopped r ∨ s.phase = .crashed

theorem Told.out {r : Reason} {s : St} (h : Told r s) : s.phase.out := by
  rcases h with ⟨p, res, h⟩ | h | h <;> rw [h] <;> exact ⟨rfl, rfl⟩

theorem told_tr {r : Reason} {s s' : St} (h : Told r s) (ht : Tr s s') : Told r s' := by
  have hno : ∀ p, s.phase = p → (∀ p' res, p ≠ .notifying r p' res) → p ≠ .stopped r →
      p ≠ .crashed → False := by
    rintro p rfl h1 h2 h3
    rcases h with ⟨p', res, h⟩ | h | h
    · exact h1 _ _ h
    · exact h2 h
    · exact h3 h
  have hnl : s.phase.inLoop = true → False := by
    intro hl
    have := h.out.1
    simp [hl] at this
  have hkeep : ∀ b : St, b.phase = s.phase → Told r b := by
    intro b hb
    unfold Told
    rw [hb]; exact h
  cases ht with
  | run hp => exact (hno _ hp (by simp) (by simp) (by simp)).elim
  | startOk hp => exact (hno _ hp (by simp) (by simp) (by simp)).elim
  | startFail _ _ hp => exact (hno _ hp (by simp) (by simp) (by simp)).elim
  | abort hp => exact (hnl hp).elim
  | polling hp => exact (hnl hp).elim
  | recvNone hp => exact (hno _ hp (by simp) (by simp) (by simp)).elim
  | recvStartup hp => exact (hno _ hp (by simp) (by simp) (by simp)).elim
  | recvBuffer hp => exact (hno _ hp (by simp) (by simp) (by simp)).elim
  | recvMsg hp => exact (hno _ hp (by simp) (by simp) (by simp)).elim
  | recvLink hp => exact (hno _ hp (by simp) (by simp) (by simp)).elim
  | recvStop hp => exact (hno _ hp (by simp) (by simp) (by simp)).elim
  | takeReply _ _ _ hp => exact (hno _ hp (by simp) (by simp) (by simp)).elim
  | handlerReply _ _ _ _ hp => exact (hno _ hp (by simp) (by simp) (by simp)).elim
  | handlerOk _ _ _ _ _ hp => exact (hno _ hp (by simp) (by simp) (by simp)).elim
  | handlerErr _ _ _ _ _ hp => exact (hno _ hp (by simp) (by simp) (by simp)).elim
  | handlerPanic _ _ _ _ _ hp => exact (hno _ hp (by simp) (by simp) (by simp)).elim
  | linkCont _ _ hp => exact (hno _ hp (by simp) (by simp) (by simp)).elim
  | linkStop _ _ _ hp => exact (hno _ hp (by simp) (by simp) (by simp)).elim
  | linkPanic _ _ _ _ hp => exact (hno _ hp (by simp) (by simp) (by simp)).elim
  | panicCont _ hp => exact (hno _ hp (by simp) (by simp) (by simp)).elim
  | panicStop _ _ _ hp => exact (hno _ hp (by simp) (by simp) (by simp)).elim
  | panicDie _ _ hp => exact (hno _ hp (by simp) (by simp) (by simp)).elim
  | startPanicStop _ _ _ hp => exact (hno _ hp (by simp) (by simp) (by simp)).elim
  | startPanicDie _ _ hp => exact (hno _ hp (by simp) (by simp) (by simp)).elim
  | stopNotify _ _ _ _ hp => exact (hno _ hp (by simp) (by simp) (by simp)).elim
  | stopFinish _ _ _ _ hp => exact (hno _ hp (by simp) (by simp) (by simp)).elim
  | stopDie _ _ _ _ hp => exact (hno _ hp (by simp) (by simp) (by simp)).elim
  | notify r1 p res id hp hi =>
    rcases h with ⟨p', res', h⟩ | h | h
    · rw [hp] at h; cases h; exact Or.inl ⟨_, _, rfl⟩
    · rw [hp] at h; cases h
    · rw [hp] at h; cases h
  | finish r1 res hp =>
    rcases h with ⟨p', res', h⟩ | h | h
    · rw [hp] at h; cases h; exact Or.inr (Or.inl (by simp))
    · rw [hp] at h; cases h
    · rw [hp] at h; cases h
  | teardown => exact Or.inr (Or.inr (by simp [St.crash]))
  | _ => exact hkeep _ (by simp [St.step])

/-- The actors still to be notified. -/
def pend : Phase → List Id
  | .stopping _ p _ => p
  | .notifying _ p _ => p
  | _ => []

theorem pend_tr {s s' : St} (ht : Tr s s') :
    (pend s'.phase).Sublist (pend s.phase) ∨ (pend s'.phase).Sublist s.links := by
  have hdr : ∀ (a : St) (rest : List Msg) (ts : Bool), a.links = s.links →
      (pend (a.drain rest ts).phase).Sublist s.links := by
    intro a rest ts hl
    cases rest with
    | cons m ms => simp [St.drain, pend]
    | nil => cases ts <;> simp [St.drain, pend, hl]
  cases ht with
  | recvNone => exact Or.inr (hdr _ _ _ (by simp))
  | recvStartup => exact Or.inr (hdr _ _ _ (by simp))
  | recvStop => exact Or.inr (hdr _ _ _ (by simp))
  | handlerReply => exact Or.inr (hdr _ _ _ (by simp))
  | handlerOk => exact Or.inr (hdr _ _ _ (by simp))
  | abort => right; simp [St.abortSeen, pend]
  | linkStop => right; simp [pend]
  | panicStop => right; simp [pend]
  | startPanicStop => right; simp [St.stopFailed, pend]
  | stopNotify r p o res hp => left; simp [hp, pend]
  | notify r p res id hp => left; simp [hp, pend, List.erase_sublist]
  | stopFinish => left; simp [pend]
  | finish => left; simp [pend]
  | stopDie => left; simp [pend]
  | startPanicDie => left; simp [pend]
  | panicDie => left; simp [pend]
  | teardown => left; simp [St.crash, pend]
  | startOk => left; rw [(startOk_fields s).2.1]; simp [pend]
  | startFail => left; simp [St.startFail, pend]
  | _ => left; first | exact List.Sublist.refl _ | simp [St.step, pend]

/-- Link sets contain no actor twice and not the actor itself; nor do the lists of actors to be
notified. -/
structure LinksOk (x : Id) (s : St) : Prop where
  irr : x ∉ s.links
  nd : s.links.Nodup
  pirr : x ∉ pend s.phase
  pnd : (pend s.phase).Nodup

theorem linksOk_step (cap : Id → Option Nat) (ops : List SOp) (op : SOp) (x : Id)
    (h : LinksOk x ((sysAfter cap ops).act x)) :
    LinksOk x (((sysAfter cap ops).step op).act x) := by
  generalize sysAfter cap ops = S at *
  have hv := view S op x
  generalize (S.step op).act x = s' at hv
  generalize hs : S.act x = s at *
  have hp : ∀ op, x ∉ pend (s.step op).phase ∧ (pend (s.step op).phase).Nodup := by
    intro op
    rcases pend_tr (step_tr s op) with hp | hp
    · exact ⟨fun hx => h.pirr (hp.subset hx), hp.nodup h.pnd⟩
    · exact ⟨fun hx => h.irr (hp.subset hx), hp.nodup h.nd⟩
  have hk : ∀ op, (s.step op).links.Sublist s.links → LinksOk x (s.step op) := by
    intro op hl
    exact ⟨fun hx => h.irr (hl.subset hx), hl.nodup h.nd, (hp op).1, (hp op).2⟩
  cases hv with
  | same => rw [hs]; exact h
  | loc o ho =>
    rw [hs]
    apply hk
    rcases links_loc s o ho with h1 | ⟨h1, _⟩ | ⟨i, r, _, h1⟩
    · rw [h1]; exact List.Sublist.refl _
    · rw [h1]; exact List.nil_sublist _
    · rw [h1]; exact List.filter_sublist
  | link y hy =>
    rw [hs]
    refine ⟨?_, ?_, (hp _).1, (hp _).2⟩
    · simp only [St.step]; split
      · exact h.irr
      · simp [h.irr, Ne.symm hy]
    · simp only [St.step]; split
      · exact h.nd
      · rw [List.nodup_append]
        refine ⟨h.nd, by simp, ?_⟩
        intro a ha b hb
        simp at hb
        subst hb
        rintro rfl
        contradiction
  | unlink y hy =>
    rw [hs]
    apply hk
    simp only [St.step]; exact List.filter_sublist
  | died i r p res _ _ => rw [hs]; exact hk _ (List.Sublist.refl _)
  | told j t _ _ =>
    rw [hs]
    apply hk
    simp only [St.step]
    repeat' split
    all_goals exact List.Sublist.refl _

theorem linksOk (cap : Id → Option Nat) (ops : List SOp) (x : Id) :
    LinksOk x ((sysAfter cap ops).act x) := by
  refine sys_induct (P := fun ops S => S = sysAfter cap ops → LinksOk x (S.act x)) ?_ ?_ ops rfl
  · intro _
    constructor <;> simp [Sys.fresh, after, St.exec, St.fresh, pend]
  · intro ops op ih _
    exact linksOk_step cap ops op x (ih rfl)

theorem linkDying_received {s : St} (hg : Good s) {i : Id} {r : Reason} (hp : s.phase = .linkDying i r) :
    (i, r) ∈ deaths s := by
  obtain ⟨l, h, hm⟩ := hg.log
  rw [hp] at hm
  simp only [matchLife] at hm
  subst hm
  obtain ⟨pre, mid, he, _⟩ := run_current h (.lBegin i r) rfl
  obtain ⟨t, ht⟩ := hg.facts.lb i r (by rw [he]; simp)
  have hsent : (t, Sig.linkDied i r) ∈ s.mb.sent := by
    apply hg.shape.mb.mem_sent
    simp only [hg.shape.mb.hist, List.mem_append]
    simp [ht]
  exact List.mem_filterMap.mpr ⟨_, hsent, rfl⟩

/-- Relations between the actors. -/
structure Rel (S : Sys) : Prop where
  sym : ∀ i j, i ∈ (S.act j).links → j ∈ (S.act i).links ∨ (S.act i).phase.out ∨ (S.act j).phase.out
  src : ∀ i j r, (i, r) ∈ deaths (S.act j) → .sBegin r ∈ (S.act i).log ∧ Told r (S.act i)

theorem view_tr {S : Sys} {x : Id} {s : St} (h : View S x s) : Tr (S.act x) s := by
  rcases h.ops with h | ⟨op, h⟩
  · rw [h]; exact .refl
  · rw [h]; exact step_tr _ _

theorem view_deaths {S : Sys} {x : Id} {s : St} (h : View S x s) :
    deaths s = deaths (S.act x) ∨ ∃ i r p res, (S.act i).phase = .notifying r p res ∧ x ∈ p ∧
      deaths s = deaths (S.act x) ++ [(i, r)] := by
  cases h with
  | same => exact Or.inl rfl
  | loc op ho => left; apply deaths_loc; rintro i r rfl; simp [isLocal] at ho
  | link y hy => left; apply deaths_loc; rintro i r h; cases h
  | unlink y hy => left; apply deaths_loc; rintro i r h; cases h
  | died i r p res h1 h2 => exact Or.inr ⟨i, r, p, res, h1, h2, deaths_died _ _ _⟩
  | told j t _ _ => left; apply deaths_loc; rintro i r h; cases h

theorem view_log {S : Sys} {x : Id} {s : St} (h : View S x s) : ∃ y, s.log = (S.act x).log ++ y :=
  tr_log (view_tr h)

/-- The stop reason while notifying is the one `on_stop` was called with. -/
theorem notifying_sBegin {s : St} (hg : Good s) {r : Reason} {p : List Id} {res : Option Err}
    (hp : s.phase = .notifying r p res) : .sBegin r ∈ s.log := by
  obtain ⟨l, h, hm⟩ := hg.log
  rw [hp] at hm
  simp only [matchLife] at hm
  subst hm
  exact (closing_seen h).1 r (by simp)

theorem notify_links (s : St) (j : Id) : (s.step (.notifyEnd j)).links = s.links := by
  simp only [St.step]; repeat' split
  all_goals rfl

theorem rel_step {S : Sys} (hg : ∀ x, Good (S.act x)) (h : Rel S) (op : SOp) : Rel (S.step op) := by
  have hv := fun x => view S op x
  have hout : ∀ x, (S.act x).phase.out → ((S.step op).act x).phase.out :=
    fun x hx => (out_tr hx (view_tr (hv x))).1
  constructor
  · -- symmetry
    cases op with
    | loc x o =>
      simp only [Sys.step] at hout ⊢
      split at hout
      · next ha =>
        simp only [if_pos ha]
        have hlc := links_loc (S.act x) o (allowed_local ha)
        have hsub : ∀ i j, i ∈ ((S.set x ((S.act x).step o)).act j).links → i ∈ (S.act j).links := by
          intro i j hi
          simp only [set_act] at hi
          split at hi
          · next hj =>
            subst hj
            rcases hlc with h1 | ⟨h1, _⟩ | ⟨i0, r, _, h1⟩
            · rwa [h1] at hi
            · rw [h1] at hi; simp at hi
            · rw [h1] at hi; exact (List.mem_filter.mp hi).1
          · exact hi
        intro i j hi
        rcases h.sym i j (hsub i j hi) with h1 | h1 | h1
        · by_cases hix : i = x
          · subst hix
            rcases hlc with h2 | ⟨_, _, r, p, h2⟩ | ⟨i0, r, hp, h2⟩
            · left; simp [h2, h1]
            · right; left; simp [h2]; exact ⟨rfl, rfl⟩
            · by_cases hj : j = i0
              · subst hj
                right; right
                exact hout j (h.src j i r (linkDying_received (hg i) hp)).2.out
              · left; simp [h2, h1, hj]
          · left; simp [hix, h1]
        · exact Or.inr (Or.inl (hout i h1))
        · exact Or.inr (Or.inr (hout j h1))
      · next ha => simp only [if_neg ha]; exact h.sym
    | link a b =>
      intro i j hi
      simp only [Sys.step] at hi hout ⊢
      split at hi
      · next hab => simp only [if_pos hab]; exact h.sym i j hi
      · next hab =>
        simp only [if_neg hab] at hout ⊢
        have hl : ∀ (s : St) (y z : Id), z ∈ (s.step (.link y)).links ↔ z ∈ s.links ∨ z = y := by
          intro s y z
          simp only [St.step]
          split
          · next hm => constructor
                       · exact Or.inl
                       · rintro (h | rfl)
                         · exact h
                         · exact hm
          · simp
        have hi' : i ∈ (S.act j).links ∨ (j = a ∧ i = b) ∨ (j = b ∧ i = a) := by
          simp only [set_act] at hi
          split at hi
          · next hj => subst hj; rw [hl] at hi; grind
          · split at hi
            · next hj => subst hj; rw [hl] at hi; grind
            · exact Or.inl hi
        have hmono : ∀ x y, y ∈ (S.act x).links →
            y ∈ (((S.set a ((S.act a).step (.link b))).set b ((S.act b).step (.link a))).act x).links := by
          intro x y hy
          simp only [set_act]
          split
          · next hx => subst hx; rw [hl]; exact Or.inl hy
          · split
            · next hx => subst hx; rw [hl]; exact Or.inl hy
            · exact hy
        rcases hi' with hi' | ⟨rfl, rfl⟩ | ⟨rfl, rfl⟩
        · rcases h.sym i j hi' with h1 | h1 | h1
          · exact Or.inl (hmono _ _ h1)
          · exact Or.inr (Or.inl (hout i h1))
          · exact Or.inr (Or.inr (hout j h1))
        · left; simp only [set_act, if_true]; rw [hl]; exact Or.inr rfl
        · left; simp only [set_act, if_neg hab, if_true]; rw [hl]; exact Or.inr rfl
    | unlink a b =>
      intro i j hi
      simp only [Sys.step] at hi hout ⊢
      split at hi
      · next hab => simp only [if_pos hab]; exact h.sym i j hi
      · next hab =>
        simp only [if_neg hab] at hout ⊢
        have hl : ∀ (s : St) (y z : Id), z ∈ (s.step (.unlink y)).links ↔ z ∈ s.links ∧ z ≠ y := by
          intro s y z
          simp [St.step]
        have hc : ∀ x y, y ∈ (((S.set a ((S.act a).step (.unlink b))).set b
              ((S.act b).step (.unlink a))).act x).links ↔
            y ∈ (S.act x).links ∧ ¬ ((x = a ∧ y = b) ∨ (x = b ∧ y = a)) := by
          intro x y
          simp only [set_act]
          split
          · next hx => subst hx; rw [hl]; grind
          · split
            · next hx => subst hx; rw [hl]; grind
            · grind
        rw [hc] at hi
        rcases h.sym i j hi.1 with h1 | h1 | h1
        · left; rw [hc]; grind
        · exact Or.inr (Or.inl (hout i h1))
        · exact Or.inr (Or.inr (hout j h1))
    | notifyStart a b =>
      have hl : ∀ x, ((S.step (.notifyStart a b)).act x).links = (S.act x).links := by
        intro x
        simp only [Sys.step]
        repeat' split
        · simp only [set_act]; split
          · next hx => subst hx; rfl
          · rfl
        all_goals rfl
      intro i j hi
      rw [hl] at hi ⊢
      rcases h.sym i j hi with h1 | h1 | h1
      · exact Or.inl h1
      · exact Or.inr (Or.inl (hout i h1))
      · exact Or.inr (Or.inr (hout j h1))
    | notifyEnd a b =>
      have hl : ∀ x, ((S.step (.notifyEnd a b)).act x).links = (S.act x).links := by
        intro x
        simp only [Sys.step]
        repeat' split
        · rfl
        · simp only [set_act]; split
          · next hx => subst hx; exact notify_links _ _
          · rfl
        · rfl
      intro i j hi
      rw [hl] at hi ⊢
      rcases h.sym i j hi with h1 | h1 | h1
      · exact Or.inl h1
      · exact Or.inr (Or.inl (hout i h1))
      · exact Or.inr (Or.inr (hout j h1))
  · -- sources
    intro i j r hd
    have hkeep : .sBegin r ∈ (S.act i).log ∧ Told r (S.act i) →
        .sBegin r ∈ ((S.step op).act i).log ∧ Told r ((S.step op).act i) := by
      rintro ⟨h1, h2⟩
      obtain ⟨y, hy⟩ := view_log (hv i)
      exact ⟨by rw [hy]; simp [h1], told_tr h2 (view_tr (hv i))⟩
    rcases view_deaths (hv j) with h1 | ⟨i', r', p, res, h1, h2, h3⟩
    · rw [h1] at hd; exact hkeep (h.src i j r hd)
    · rw [h3] at hd
      simp at hd
      rcases hd with hd | ⟨rfl, rfl⟩
      · exact hkeep (h.src i j r hd)
      · exact hkeep ⟨notifying_sBegin (hg i) h1, Or.inl ⟨_, _, h1⟩⟩

theorem rel_after (cap : Id → Option Nat) (ops : List SOp) : Rel (sysAfter cap ops) := by
  refine sys_induct (P := fun ops S => S = sysAfter cap ops → Rel S) ?_ ?_ ops rfl
  · intro _
    constructor
    · intro i j hi; simp [Sys.fresh, after, St.exec, St.fresh] at hi
    · intro i j r hi; simp [Sys.fresh, after, St.exec, St.fresh, deaths, Mb.fresh] at hi
  · intro ops op ih _
    exact rel_step (fun x => sys_good cap ops x) (ih rfl) op

end Verif.System
