import Verif.System.Inv

/-! Link-died notifications on their way. -/

set_option linter.unusedSimpArgs false

namespace Verif.System

open Verif.Mailbox Verif.Lifecycle

/-- A signal that was sent is on its way, or was put in the queue, or the receiver is gone. -/
def Kept (m : Mb Sig) (p : Nat × Sig) : Prop :=
  p ∈ m.waiting ∨ p ∈ m.granted ∨ p ∈ m.pushed ∨ m.closed = true

theorem kept_release {m : Mb Sig} {p : Nat × Sig} (h : Kept m p) : Kept m.release p := by
  unfold Mb.release
  split
  · exact h
  · next w ws hw =>
    unfold Kept at *
    simp only [hw, List.mem_cons, List.mem_append, List.not_mem_nil, or_false] at *
    grind

theorem kept_step {m : Mb Sig} (hi : Inv m) {p : Nat × Sig} (h : Kept m p) (op : Mailbox.Op Sig)
    (ho : op ≠ .cancel p.1) : Kept (m.step op) p := by
  cases op with
  | send a =>
    simp only [Mb.step, Mb.send]
    split
    · exact h
    · split
      · simp [Kept, Mb.push, Mb.bump] at *; grind
      · simp [Kept, Mb.bump] at *; grind
  | trySend a =>
    simp only [Mb.step, Mb.trySend]
    split
    · exact h
    · split
      · simp [Kept, Mb.push, Mb.bump] at *; grind
      · exact h
  | poll t =>
    simp only [Mb.step, Mb.poll]
    split
    · exact h
    · next q hq =>
      have h1 := List.find?_some hq
      have h2 := List.mem_of_find?_eq_some hq
      simp at h1
      unfold Kept at *
      simp only [Mb.push, List.mem_append, List.mem_filter, List.mem_singleton] at *
      by_cases hpt : p.1 = t
      · rcases h with h | h | h | h
        · exact Or.inl h
        · have hpq : p = q := key_inj (granted_nodup hi) h h2 (hpt.trans h1.symm)
          subst hpq
          exact Or.inr (Or.inr (Or.inl (Or.inr (by rw [← h1]))))
        · exact Or.inr (Or.inr (Or.inl (Or.inl h)))
        · exact Or.inr (Or.inr (Or.inr h))
      · rcases h with h | h | h | h
        · exact Or.inl h
        · exact Or.inr (Or.inl ⟨h, by simpa using hpt⟩)
        · exact Or.inr (Or.inr (Or.inl (Or.inl h)))
        · exact Or.inr (Or.inr (Or.inr h))
  | cancel t =>
    have ht : p.1 ≠ t := fun e => ho (by rw [e])
    simp only [Mb.step, Mb.cancel]
    split
    · unfold Kept at *
      simp only [List.mem_filter] at *
      rcases h with h | h
      · exact Or.inl ⟨h, by simpa using ht⟩
      · exact Or.inr h
    · split
      · apply kept_release
        unfold Kept at *
        simp only [List.mem_filter] at *
        rcases h with h | h | h
        · exact Or.inl h
        · exact Or.inr (Or.inl ⟨h, by simpa using ht⟩)
        · exact Or.inr (Or.inr h)
      · exact h
  | recv =>
    simp only [Mb.step, Mb.recv]
    split
    · exact h
    · exact kept_release h
  | close => exact Or.inr (Or.inr (Or.inr rfl))


/-- Every step other than a given-up send acts on the mailbox by one mailbox operation other than
`cancel`, if at all. -/
theorem step_mb_one (s : St) (op : Lifecycle.Op) (hop : ∀ t, op ≠ .cancel t) :
    (s.step op).mb = s.mb ∨ ∃ mop : Mailbox.Op Sig, (s.step op).mb = s.mb.step mop ∧ ∀ t, mop ≠ .cancel t := by
  have hs : ∀ m : Mb Sig, m = s.mb → m = s.mb ∨ ∃ mop : Mailbox.Op Sig, m = s.mb.step mop ∧ ∀ t, mop ≠ .cancel t :=
    fun m h => Or.inl h
  have hr : ∀ m : Mb Sig, m = s.mb.recv →
      m = s.mb ∨ ∃ mop : Mailbox.Op Sig, m = s.mb.step mop ∧ ∀ t, mop ≠ .cancel t :=
    fun m h => Or.inr ⟨.recv, h, by simp⟩
  have hc : ∀ m : Mb Sig, m = s.mb.close →
      m = s.mb ∨ ∃ mop : Mailbox.Op Sig, m = s.mb.step mop ∧ ∀ t, mop ≠ .cancel t :=
    fun m h => Or.inr ⟨.close, h, by simp⟩
  have ht : ∀ m : Mb Sig, m = s.mb.trySend .startup →
      m = s.mb ∨ ∃ mop : Mailbox.Op Sig, m = s.mb.step mop ∧ ∀ t, mop ≠ .cancel t :=
    fun m h => Or.inr ⟨.trySend .startup, h, by simp⟩
  cases op with
  | cancel t => exact (hop t rfl).elim
  | send b => exact Or.inr ⟨.send (.msg b), rfl, by simp⟩
  | trySend b => exact Or.inr ⟨.trySend (.msg b), rfl, by simp⟩
  | poll t => exact Or.inr ⟨.poll t, rfl, by simp⟩
  | sendStop => exact Or.inr ⟨.send .stop, rfl, by simp⟩
  | sendLinkDied id r => exact Or.inr ⟨.send (.linkDied id r), rfl, by simp⟩
  | recv =>
    simp only [St.step, St.recvStep, St.onSignal]
    repeat' split
    all_goals first | exact hs _ rfl | (refine hs _ ?_; simp; done) | (refine hr _ ?_; simp; done)
  | handlerEnd o =>
    simp only [St.step, St.handlerEnd]
    repeat' split
    all_goals first | exact hs _ rfl | (refine hs _ ?_; simp; done)
  | linkEnd o =>
    simp only [St.step, St.linkEnd]
    repeat' split
    all_goals first | exact hs _ rfl | (refine hs _ ?_; simp; done)
  | panicEnd o =>
    simp only [St.step, St.panicEnd, St.startPanicEnd, St.stopFailed]
    repeat' split
    all_goals first | exact hs _ rfl | (refine hs _ ?_; simp; done) | (refine hc _ ?_; simp; done)
  | startEnd o =>
    simp only [St.step, St.startEnd]
    repeat' split
    · exact ht _ (startOk_fields s).1
    all_goals first | exact hs _ rfl | (refine ht _ ?_; simp [St.startFail]; done)
  | stopEnd o =>
    simp only [St.step, St.stopEnd, St.stopDone]
    repeat' split
    all_goals first | exact hs _ rfl | (refine hs _ ?_; simp; done) | (refine hc _ ?_; simp; done)
  | _ =>
    simp only [St.step]
    repeat' split
    all_goals first | exact hs _ rfl | (refine hs _ ?_; simp; done) | (refine hc _ ?_; simp; done) | exact Or.inl trivial

theorem kept_tr {s : St} (hg : Good s) {p : Nat × Sig} (h : Kept s.mb p) (op : Lifecycle.Op)
    (ho : op ≠ .cancel p.1) : Kept (s.step op).mb p := by
  by_cases hc : ∃ t, op = .cancel t
  · obtain ⟨t, rfl⟩ := hc
    exact kept_step hg.shape.mb h (.cancel t) (by intro e; cases e; exact ho rfl)
  · rcases step_mb_one s op (fun t e => hc ⟨t, e⟩) with e | ⟨mop, e, hm⟩
    · rw [e]; exact h
    · rw [e]; exact kept_step hg.shape.mb h mop (hm _)

/-- Where a stopping actor can go, other than by completing a notification. -/
theorem stopping_step {s : St} {op : Lifecycle.Op} (ho : ∀ j, op ≠ .notifyEnd j) :
    (∀ r p, s.phase = .stopping r p true → (s.step op).phase = .stopping r p true ∨
      (∃ res, (s.step op).phase = .notifying r p res) ∨ (s.step op).phase = .crashed) ∧
    (∀ r p res, s.phase = .notifying r p res → (s.step op).phase = .notifying r p res ∨
      (p = [] ∧ (s.step op).phase = .stopped r) ∨ (s.step op).phase = .crashed) ∧
    (∀ r, s.phase = .stopped r → (s.step op).phase = .stopped r) ∧
    (s.phase = .crashed → (s.step op).phase = .crashed) := by
  cases op with
  | notifyEnd j => exact (ho j rfl).elim
  | stopEnd o =>
    refine ⟨?_, ?_, ?_, ?_⟩ <;> intros <;> cases o <;> simp_all [St.step, St.stopEnd, St.stopDone]
  | teardown =>
    refine ⟨?_, ?_, ?_, ?_⟩ <;> intros <;> simp_all [St.step, St.crash]
  | finish =>
    refine ⟨?_, ?_, ?_, ?_⟩
    · intros; simp_all [St.step]
    · intro r p res h
      cases p <;> simp_all [St.step]
    · intros; simp_all [St.step]
    · intros; simp_all [St.step]
  | cloneRef =>
    refine ⟨?_, ?_, ?_, ?_⟩ <;> intros <;> simp only [St.step] <;> split <;> simp_all
  | delegSend t r =>
    refine ⟨?_, ?_, ?_, ?_⟩ <;> intros <;> simp only [St.step] <;> split <;> simp_all
  | delegDrop t =>
    refine ⟨?_, ?_, ?_, ?_⟩ <;> intros <;> simp only [St.step] <;> split <;> simp_all
  | giveUp t =>
    refine ⟨?_, ?_, ?_, ?_⟩ <;> intros <;> simp only [St.step] <;> split <;> simp_all
  | _ => refine ⟨?_, ?_, ?_, ?_⟩ <;> intros <;> simp_all [St.step]

theorem notified_step (s : St) (j : Id) :
    (∀ r p, s.phase = .stopping r p true → (s.step (.notifyEnd j)).phase = .stopping r p true) ∧
    (∀ r p res, s.phase = .notifying r p res →
      (s.step (.notifyEnd j)).phase = .notifying r (p.erase j) res) ∧
    (∀ r, s.phase = .stopped r → (s.step (.notifyEnd j)).phase = .stopped r) ∧
    (s.phase = .crashed → (s.step (.notifyEnd j)).phase = .crashed) := by
  refine ⟨?_, ?_, ?_, ?_⟩ <;> intros <;> simp only [St.step, *]
  split
  · rfl
  · next h => rw [List.erase_of_not_mem h]; assumption

/-- Who is being notified by whom. -/
def keys (S : Sys) : List (Id × Id) := S.flight.map (fun p => (p.1, p.2.1))

/-- The notifications on their way. -/
structure Fl (S : Sys) : Prop where
  nd : (keys S).Nodup
  st : ∀ i j t, (i, j, t) ∈ S.flight → (S.act i).phase = .crashed ∨
    ∃ r p res, (S.act i).phase = .notifying r p res ∧ j ∈ p ∧ Kept (S.act j).mb (t, .linkDied i r)

theorem keys_not_mem {S : Sys} {i j : Id} :
    S.flight.all (fun p => !(p.1 == i && p.2.1 == j)) = true ↔ (i, j) ∉ keys S := by
  simp only [keys, List.all_eq_true, List.mem_map, not_exists, not_and]
  constructor
  · intro h p hp e
    have := h p hp
    simp at this e
    grind
  · intro h p hp
    have := h p hp
    simp at this ⊢
    grind

theorem phase_env (s : St) (op : Lifecycle.Op) (h : (∃ y, op = .link y) ∨ (∃ y, op = .unlink y) ∨
    ∃ i r, op = .sendLinkDied i r) : (s.step op).phase = s.phase := by
  rcases h with ⟨y, rfl⟩ | ⟨y, rfl⟩ | ⟨i, r, rfl⟩ <;> rfl

theorem fl_step {S : Sys} (hg : ∀ x, Good (S.act x)) (h : Fl S) (op : SOp) : Fl (S.step op) := by
  -- one actor makes a step that keeps its notification duties and does not give up sends in flight
  have one : ∀ x o, (∀ j, o ≠ .notifyEnd j) →
      (∀ i j t, (i, j, t) ∈ S.flight → j = x → o = .cancel t → (S.act i).phase = .crashed) →
      ∀ i j t, (i, j, t) ∈ S.flight → ((S.set x ((S.act x).step o)).act i).phase = .crashed ∨
        ∃ r p res, ((S.set x ((S.act x).step o)).act i).phase = .notifying r p res ∧ j ∈ p ∧
          Kept ((S.set x ((S.act x).step o)).act j).mb (t, .linkDied i r) := by
    intro x o ho hca i j t hf
    obtain ⟨_, hn, _, hcr⟩ := stopping_step (s := S.act x) ho
    simp only [set_act]
    rcases h.st i j t hf with h1 | ⟨r, p, res, h1, h2, h3⟩
    · left; split
      · next e => subst e; exact hcr h1
      · exact h1
    · have hk : Kept (if j = x then (S.act x).step o else S.act j).mb (t, .linkDied i r) := by
        split
        · next e =>
          subst e
          apply kept_tr (hg _) h3
          intro e
          have := hca i j t hf rfl e
          rw [h1] at this
          cases this
        · exact h3
      split
      · next e =>
        subst e
        rcases hn r p res h1 with h4 | ⟨h4, _⟩ | h4
        · exact Or.inr ⟨r, p, res, h4, h2, hk⟩
        · subst h4; simp at h2
        · exact Or.inl h4
      · exact Or.inr ⟨r, p, res, h1, h2, hk⟩
  cases op with
  | loc x o =>
    simp only [Sys.step]
    split
    · next ha =>
      refine ⟨h.nd, ?_⟩
      apply one
      · rintro j rfl; simp [Sys.allowed, isLocal] at ha
      · rintro i j t hf rfl rfl
        simp only [Sys.allowed, List.all_eq_true] at ha
        have := ha _ hf
        simpa using this
    · exact h
  | link a b =>
    simp only [Sys.step]
    split
    · exact h
    · refine ⟨h.nd, ?_⟩
      intro i j t hf
      have hp : ∀ x, (((S.set a ((S.act a).step (.link b))).set b ((S.act b).step (.link a))).act x).phase =
          (S.act x).phase ∧ (((S.set a ((S.act a).step (.link b))).set b
            ((S.act b).step (.link a))).act x).mb = (S.act x).mb := by
        intro x
        simp only [set_act]
        split
        · next e => subst e; exact ⟨rfl, rfl⟩
        · split
          · next e => subst e; exact ⟨rfl, rfl⟩
          · exact ⟨rfl, rfl⟩
      rw [(hp i).1, (hp j).2]
      exact h.st i j t hf
  | unlink a b =>
    simp only [Sys.step]
    split
    · exact h
    · refine ⟨h.nd, ?_⟩
      intro i j t hf
      have hp : ∀ x, (((S.set a ((S.act a).step (.unlink b))).set b ((S.act b).step (.unlink a))).act x).phase =
          (S.act x).phase ∧ (((S.set a ((S.act a).step (.unlink b))).set b
            ((S.act b).step (.unlink a))).act x).mb = (S.act x).mb := by
        intro x
        simp only [set_act]
        split
        · next e => subst e; exact ⟨rfl, rfl⟩
        · split
          · next e => subst e; exact ⟨rfl, rfl⟩
          · exact ⟨rfl, rfl⟩
      rw [(hp i).1, (hp j).2]
      exact h.st i j t hf
  | notifyStart a b =>
    simp only [Sys.step]
    split
    · next r p res hp =>
      split
      · next hc =>
        have hnk := keys_not_mem.mp hc.2
        constructor
        · simp only [keys, set_flight, List.map_append, List.map_cons, List.map_nil]
          rw [List.nodup_append]
          refine ⟨h.nd, by simp, ?_⟩
          rintro q hq q' hq' rfl
          simp at hq'
          subst hq'
          exact hnk hq
        · intro i j t hf
          simp only [set_flight, List.mem_append, List.mem_singleton] at hf
          rcases hf with hf | hf
          · exact one b (.sendLinkDied a r) (by simp) (by simp) i j t hf
          · cases hf
            right
            refine ⟨r, p, res, ?_, hc.1, ?_⟩
            · simp only [set_act]; split
              · next e => subst e; exact hp
              · exact hp
            · simp only [set_act, if_true]
              simp only [St.step, Mb.send]
              split
              · next hcl => exact Or.inr (Or.inr (Or.inr hcl))
              · split
                · exact Or.inr (Or.inr (Or.inl (by simp [Mb.push, Mb.bump])))
                · exact Or.inl (by simp)
      · exact h
    · exact h
  | notifyEnd a b =>
    simp only [Sys.step]
    split
    · next q hq =>
      split
      · exact h
      · next hpn =>
        have hq1 := List.mem_of_find?_eq_some hq
        have hq2 := List.find?_some hq
        obtain ⟨q1, q2, t0⟩ := q
        simp at hq2
        obtain ⟨rfl, rfl⟩ := hq2
        have hnd := h.nd
        constructor
        · exact (List.Sublist.map _ List.erase_sublist).nodup hnd
        · intro i j t hf
          simp only at hf
          have hf' := List.mem_of_mem_erase hf
          have hne : ¬ (i = q1 ∧ j = q2) := by
            rintro ⟨rfl, rfl⟩
            have hnd2 : S.flight.Nodup := (List.pairwise_map.mp hnd).imp (by
              intro a b hab e; subst e; exact hab rfl)
            have e : (i, j, t) = (i, j, t0) := map_inj hnd hf' hq1 rfl
            rw [e] at hf
            exact (List.Nodup.not_mem_erase hnd2) hf
          have hmb : ∀ x, (((S.set q1 ((S.act q1).step (.notifyEnd q2)))).act x).mb = (S.act x).mb := by
            intro x
            simp only [set_act]
            split
            · next e =>
              subst e
              simp only [St.step]
              repeat' split
              all_goals rfl
            · rfl
          show (((S.set q1 ((S.act q1).step (.notifyEnd q2)))).act i).phase = _ ∨ ∃ r p res,
            (((S.set q1 ((S.act q1).step (.notifyEnd q2)))).act i).phase = _ ∧ j ∈ p ∧
            Kept (((S.set q1 ((S.act q1).step (.notifyEnd q2)))).act j).mb _
          simp only [hmb]
          simp only [set_act]
          rcases h.st i j t hf' with h1 | ⟨r, p, res, h1, h2, h3⟩
          · left; split
            · next e => subst e; exact (notified_step _ _).2.2.2 h1
            · exact h1
          · right
            split
            · next e =>
              subst e
              refine ⟨r, _, res, (notified_step _ _).2.1 _ _ _ h1, ?_, h3⟩
              exact (List.mem_erase_of_ne (fun e => hne ⟨rfl, e⟩)).mpr h2
            · exact ⟨r, p, res, h1, h2, h3⟩
    · exact h

theorem fl_after (cap : Id → Option Nat) (ops : List SOp) : Fl (sysAfter cap ops) := by
  refine sys_induct (P := fun ops S => S = sysAfter cap ops → Fl S) ?_ ?_ ops rfl
  · intro _
    constructor
    · simp [keys, Sys.fresh]
    · intro i j t h; simp [Sys.fresh] at h
  · intro ops op ih _
    exact fl_step (fun x => sys_good cap ops x) (ih rfl) op

end Verif.System
