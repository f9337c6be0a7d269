import Verif.System.Props

/-!
Property theorems about the propagation of failures: C25 (root cause), C24 (default link policy).
-/

set_option linter.unusedSimpArgs false

namespace Verif.System

open Verif.Mailbox Verif.Lifecycle

theorem deaths_received {s : St} (hg : Good s) {t : Nat} {i : Id} {r : Reason}
    (h : (t, Sig.linkDied i r) ∈ s.mb.received) : (i, r) ∈ deaths s := by
  have hsent : (t, Sig.linkDied i r) ∈ s.mb.sent := by
    apply hg.shape.mb.mem_sent
    simp only [hg.shape.mb.hist, List.mem_append]
    simp [h]
  exact List.mem_filterMap.mpr ⟨_, hsent, rfl⟩

theorem mem_pend {p : Phase} {j : Id} {r : Reason} {l : List Id} {res : Option Err}
    (h : p = .notifying r l res) (hj : j ∈ l) : j ∈ pend p := by
  subst h; exact hj

/-- An actor only gets a link-died signal from an actor which was linked to it. -/
theorem was_linked (cap : Id → Option Nat) (ops : List SOp) (i j : Id) :
    (j ∈ pend ((sysAfter cap ops).act i).phase →
      ∃ pre post, ops = pre ++ post ∧ j ∈ ((sysAfter cap pre).act i).links) ∧
    (∀ r, (i, r) ∈ deaths ((sysAfter cap ops).act j) →
      ∃ pre post, ops = pre ++ post ∧ j ∈ ((sysAfter cap pre).act i).links) := by
  refine sys_induct (P := fun ops S => S = sysAfter cap ops →
    (j ∈ pend (S.act i).phase →
      ∃ pre post, ops = pre ++ post ∧ j ∈ ((sysAfter cap pre).act i).links) ∧
    (∀ r, (i, r) ∈ deaths (S.act j) →
      ∃ pre post, ops = pre ++ post ∧ j ∈ ((sysAfter cap pre).act i).links)) ?_ ?_ ops rfl
  · intro _
    refine ⟨?_, ?_⟩
    · intro h; simp [Sys.fresh, after, St.exec, St.fresh, pend] at h
    · intro r h; simp [Sys.fresh, after, St.exec, St.fresh, Mb.fresh, deaths] at h
  · intro ops op ih _
    obtain ⟨ih1, ih2⟩ := ih rfl
    have hm : (∃ pre post, ops = pre ++ post ∧ j ∈ ((sysAfter cap pre).act i).links) →
        ∃ pre post, ops ++ [op] = pre ++ post ∧ j ∈ ((sysAfter cap pre).act i).links := by
      rintro ⟨pre, post, rfl, h⟩
      exact ⟨pre, post ++ [op], by simp, h⟩
    refine ⟨?_, ?_⟩
    · intro h
      rcases pend_tr (view_tr (view (sysAfter cap ops) op i)) with hp | hp
      · exact hm (ih1 (hp.subset h))
      · exact ⟨ops, [op], rfl, hp.subset h⟩
    · intro r h
      rcases view_deaths (view (sysAfter cap ops) op j) with e | ⟨i', r', p, res, h1, h2, e⟩
      · rw [e] at h; exact hm (ih2 r h)
      · rw [e] at h
        simp at h
        rcases h with h | ⟨rfl, rfl⟩
        · exact hm (ih2 r h)
        · exact hm (ih1 (mem_pend h1 h2))

/-! ### C25: the root cause -/

/-- Why an actor stopped, when not because of another actor. -/
def OwnCause (s : St) (r : Reason) : Prop :=
  (r = .killed ∧ .killCalled ∈ s.log) ∨
  (r = .normal ∧ ∃ t, (t, Sig.stop) ∈ s.mb.received) ∨
  ∃ e, r = .panicked e ∧
    ((∃ m tk o, .hEnd m tk o ∈ s.log ∧ (o = .panic e ∨
        (o = .ret (.err e) ∧ (m.2.ask = false ∨ tk = true)))) ∨
      .startEnd (.err e) ∈ s.log ∨ .startEnd (.panic e) ∈ s.log)

/-- The chain of failures that explains why `on_stop` of an actor was called with a reason. `linked`
says which actors were linked. -/
inductive Chain (S : Sys) (linked : Id → Id → Prop) : Id → Reason → Id → Prop where
  | root (i : Id) (r : Reason) (h : .sBegin r ∈ (S.act i).log) (hc : OwnCause (S.act i) r) :
      Chain S linked i r i
  | link (i j k : Id) (r : Reason) (hi : Chain S linked i r k) (hn : r ≠ .normal) (hl : linked i j)
      (hs : (i, r) ∈ deaths (S.act j)) (h : .sBegin (.linkDied i r) ∈ (S.act j).log) :
      Chain S linked j (.linkDied i r) k

/-- Every completed `on_link_died` and `on_panic` behaved like the default ones. -/
def AllDefault (S : Sys) : Prop := ∀ i, DefaultHooks (S.act i).log

theorem AllDefault.before {cap : Id → Option Nat} {ops : List SOp} {op : SOp}
    (h : AllDefault ((sysAfter cap ops).step op)) : AllDefault (sysAfter cap ops) := by
  intro i
  obtain ⟨y, hy⟩ := view_log (view (sysAfter cap ops) op i)
  have := h i
  rw [hy] at this
  refine ⟨fun id r o hm => this.1 id r o (by simp [hm]), fun e o hm => this.2 e o (by simp [hm])⟩

theorem default_reason {cap : Id → Option Nat} {ops : List SOp} (hd : AllDefault (sysAfter cap ops))
    {j : Id} {r : Reason} (h : .sBegin r ∈ ((sysAfter cap ops).act j).log) :
    OwnCause ((sysAfter cap ops).act j) r ∨
    (∃ i r', r = .linkDied i r' ∧ r' ≠ .normal ∧ (i, r') ∈ deaths ((sysAfter cap ops).act j)) ∨
    (r = .peerDisconnected ∧ ∃ i, (i, .peerDisconnected) ∈ deaths ((sysAfter cap ops).act j)) := by
  obtain ⟨l, hl⟩ := actor_history cap ops j
  have hg := sys_good cap ops j
  have hdj := hd j
  rw [hl] at h hg hdj ⊢
  obtain ⟨h1, h2, h3, h4, h5⟩ := default_stop_reason_true (cap j) l r hdj h
  cases r with
  | normal => exact Or.inl (Or.inr (Or.inl ⟨rfl, h2 rfl⟩))
  | killed => exact Or.inl (Or.inl ⟨rfl, h1 rfl⟩)
  | panicked e => exact Or.inl (Or.inr (Or.inr ⟨e, rfl, h3 e rfl⟩))
  | linkDied i r' =>
    obtain ⟨a, _, t, ht⟩ := h4 i r' rfl
    exact Or.inr (Or.inl ⟨i, r', rfl, a, deaths_received hg ht⟩)
  | peerDisconnected =>
    obtain ⟨i, t, ht⟩ := h5 rfl
    exact Or.inr (Or.inr ⟨rfl, i, deaths_received hg ht⟩)

/-- In a system of local actors nobody stops with `PeerDisconnected`. -/
theorem no_peerDisconnected (cap : Id → Option Nat) (ops : List SOp) (hd : AllDefault (sysAfter cap ops))
    (j : Id) : .sBegin .peerDisconnected ∉ ((sysAfter cap ops).act j).log := by
  refine sys_induct (P := fun ops S => S = sysAfter cap ops → AllDefault S → ∀ j,
    .sBegin .peerDisconnected ∉ (S.act j).log) ?_ ?_ ops rfl hd j
  · intro _ _ j; simp [Sys.fresh, after, St.exec, St.fresh]
  · intro ops op ih e hd j hm
    have hno := ih rfl hd.before
    rw [← sysAfter_snoc] at hm hd
    rcases default_reason hd hm with h | ⟨i, r', h, _⟩ | ⟨_, i, h⟩
    · rcases h with ⟨h, _⟩ | ⟨h, _⟩ | ⟨e, h, _⟩ <;> cases h
    · cases h
    · rw [sysAfter_snoc] at h
      rcases view_deaths (view (sysAfter cap ops) op j) with e | ⟨i', r', p, res, h1, h2, e⟩
      · rw [e] at h
        exact hno i ((rel_after cap ops).src i j _ h).1
      · rw [e] at h
        simp at h
        rcases h with h | ⟨rfl, rfl⟩
        · exact hno i ((rel_after cap ops).src i j _ h).1
        · exact hno i (notifying_sBegin (sys_good cap ops i) h1)

/-- A check of `DefaultHooks`. -/
def defaultEv : Ev → Bool
  | .lEnd id r o => decide (o = defaultOnLinkDied id r)
  | .pEnd e o => decide (o = defaultOnPanic e)
  | _ => true

theorem defaultHooks_of_all {log : List Ev} (h : log.all defaultEv = true) : DefaultHooks log := by
  rw [List.all_eq_true] at h
  exact ⟨fun id r o hm => by simpa [defaultEv] using h _ hm, fun e o hm => by simpa [defaultEv] using h _ hm⟩

/-- A system all of whose operations name only a few actors, and those behave by default. -/
theorem allDefault_of_all {cap : Id → Option Nat} {ops : List SOp} (n : Nat)
    (h : ∀ x, x < n → (((sysAfter cap ops).act x).log).all defaultEv = true)
    (hn : ∀ op ∈ ops, ∀ x ∈ op.ids, x < n) : AllDefault (sysAfter cap ops) := by
  intro x
  apply defaultHooks_of_all
  by_cases hx : x < n
  · exact h x hx
  · rw [untouched cap ops x (fun op ho hm => hx (hn op ho x hm))]; rfl

theorem fallDemo_default : AllDefault (sysAfter (fun _ => none) (chainDemo ++ (dieDemo ++ fallDemo))) :=
  allDefault_of_all 3 (by decide) (by decide)

/-- **C25**: with the default hooks, whenever an actor's `on_stop` is called, its reason is a chain of
`LinkDied` entries, each naming an actor whose `on_stop` was called with the nested reason, which was
linked to the next actor and sent it the signal; the chain ends at an actor that stopped for a cause of
its own (it was killed, was told to stop, or a handler or `on_start` of it failed). In a chain of at
least one link no nested reason is `Normal`. -/
theorem root_cause_preserved (cap : Id → Option Nat) (ops : List SOp)
    (hd : AllDefault (sysAfter cap ops)) (j : Id) (r : Reason)
    (h : .sBegin r ∈ ((sysAfter cap ops).act j).log) :
    ∃ root, Chain (sysAfter cap ops)
      (fun a b => ∃ pre post, ops = pre ++ post ∧ b ∈ ((sysAfter cap pre).act a).links) j r root := by
  induction r generalizing j with
  | linkDied i r' ih =>
    rcases default_reason hd h with hc | ⟨i', r'', e, hn, hs⟩ | ⟨e, _⟩
    · rcases hc with ⟨hc, _⟩ | ⟨hc, _⟩ | ⟨x, hc, _⟩ <;> cases hc
    · cases e
      obtain ⟨k, hk⟩ := ih i ((rel_after cap ops).src i j _ hs).1
      exact ⟨k, .link i j k r' hk hn ((was_linked cap ops i j).2 _ hs) hs h⟩
    · cases e
  | peerDisconnected => exact (no_peerDisconnected cap ops hd j h).elim
  | normal =>
    rcases default_reason hd h with hc | ⟨i', r'', e, hn, hs⟩ | ⟨e, _⟩
    · exact ⟨j, .root j _ h hc⟩
    · cases e
    · cases e
  | killed =>
    rcases default_reason hd h with hc | ⟨i', r'', e, hn, hs⟩ | ⟨e, _⟩
    · exact ⟨j, .root j _ h hc⟩
    · cases e
    · cases e
  | panicked x =>
    rcases default_reason hd h with hc | ⟨i', r'', e, hn, hs⟩ | ⟨e, _⟩
    · exact ⟨j, .root j _ h hc⟩
    · cases e
    · cases e

/-- Actor 2 of the chain learns of the death of 1, which learnt of the death of 0, which was killed. -/
example : AllDefault (sysAfter (fun _ => none) (chainDemo ++ (dieDemo ++ fallDemo))) ∧
    .sBegin (.linkDied 1 (.linkDied 0 .killed)) ∈
      ((sysAfter (fun _ => none) (chainDemo ++ (dieDemo ++ fallDemo))).act 2).log :=
  ⟨fallDemo_default, by decide⟩

/-! ### C24: the default link policy -/

/-- With the default hooks an actor that has taken the signal of an abnormal death is just handling it,
or has left its loop. -/
theorem abnormal_tr {s s' : St} (hd : DefaultHooks s'.log)
    (h : ∀ t i r, (t, Sig.linkDied i r) ∈ s.mb.received → r ≠ .normal →
      s.phase.out ∨ s.phase = .linkDying i r) (ht : Tr s s') :
    ∀ t i r, (t, Sig.linkDied i r) ∈ s'.mb.received → r ≠ .normal →
      s'.phase.out ∨ s'.phase = .linkDying i r := by
  by_cases hout : s.phase.out
  · intro t i r _ _; exact Or.inl (out_tr hout ht).1
  intro t i r hm hn
  have h' : (t, Sig.linkDied i r) ∈ s.mb.received → s.phase = .linkDying i r :=
    fun hm => (h t i r hm hn).resolve_left hout
  have hno : ∀ p, s.phase = p → (∀ i r, p ≠ .linkDying i r) → (t, Sig.linkDied i r) ∉ s.mb.received := by
    rintro p rfl hp hm; exact hp _ _ (h' hm)
  have hkeep : ∀ b : St, b.phase = s.phase → b.mb.received = s.mb.received →
      (t, Sig.linkDied i r) ∈ b.mb.received → b.phase.out ∨ b.phase = .linkDying i r := by
    intro b e1 e2 hm
    rw [e1]; rw [e2] at hm; exact Or.inr (h' hm)
  cases ht with
  | refl => exact Or.inr (h' hm)
  | run hp => exact (hno _ hp (by simp) (by simpa using hm)).elim
  | startOk hp => exact (hno _ hp (by simp) (by simpa [(startOk_fields s).1] using hm)).elim
  | startFail _ _ hp => exact (hno _ hp (by simp) (by simpa [St.startFail] using hm)).elim
  | abort hp => left; simp [St.abortSeen]; exact ⟨rfl, rfl⟩
  | polling hp => exact hkeep _ rfl rfl hm
  | recvNone hp => exact (hno _ hp (by simp) (by simpa using hm)).elim
  | recvStartup hp _ t q hq =>
    simp [recv_received _ hq] at hm; exact (hno _ hp (by simp) hm).elim
  | recvBuffer hp _ t b q hq =>
    simp [recv_received _ hq] at hm; exact (hno _ hp (by simp) hm).elim
  | recvMsg hp _ t b q hq =>
    simp [recv_received _ hq] at hm; exact (hno _ hp (by simp) hm).elim
  | recvLink hp _ t2 id r2 q hq =>
    simp [recv_received _ hq] at hm
    rcases hm with hm | ⟨rfl, rfl, rfl⟩
    · exact (hno _ hp (by simp) hm).elim
    · exact Or.inr rfl
  | recvStop hp _ t q hq =>
    simp [recv_received _ hq] at hm; exact (hno _ hp (by simp) hm).elim
  | takeReply _ _ _ hp => exact (hno _ hp (by simp) (by simpa using hm)).elim
  | handlerReply _ _ _ _ hp => exact (hno _ hp (by simp) (by simpa using hm)).elim
  | handlerOk _ _ _ _ _ hp => exact (hno _ hp (by simp) (by simpa using hm)).elim
  | handlerErr _ _ _ _ _ hp => exact (hno _ hp (by simp) (by simpa using hm)).elim
  | handlerPanic _ _ _ _ _ hp => exact (hno _ hp (by simp) (by simpa using hm)).elim
  | linkCont id r2 hp =>
    have := h' (by simpa using hm)
    rw [hp] at this
    cases this
    have := hd.1 i r .cont (by simp)
    cases r <;> simp [defaultOnLinkDied] at this hn
  | linkStop => left; simp; exact ⟨rfl, rfl⟩
  | linkPanic id r2 o e hp _ ho =>
    have := h' (by simpa using hm)
    rw [hp] at this
    cases this
    have := hd.1 i r o (by simp)
    rcases ho with rfl | rfl | rfl <;> cases r <;> simp [defaultOnLinkDied] at this
  | panicCont _ hp => exact (hno _ hp (by simp) (by simpa using hm)).elim
  | panicStop _ _ _ hp => exact (hno _ hp (by simp) (by simpa using hm)).elim
  | panicDie _ _ hp => exact (hno _ hp (by simp) (by simpa using hm)).elim
  | startPanicStop _ _ _ hp => exact (hno _ hp (by simp) (by simpa [St.stopFailed] using hm)).elim
  | startPanicDie _ _ hp => exact (hno _ hp (by simp) (by simpa using hm)).elim
  | stopNotify _ _ _ _ hp => exact (hno _ hp (by simp) (by simpa using hm)).elim
  | stopFinish _ _ _ _ hp => exact (hno _ hp (by simp) (by simpa using hm)).elim
  | stopDie _ _ _ _ hp => exact (hno _ hp (by simp) (by simpa using hm)).elim
  | notify _ _ _ _ hp => exact (hno _ hp (by simp) (by simpa using hm)).elim
  | finish _ _ hp => exact (hno _ hp (by simp) (by simpa using hm)).elim
  | teardown => left; simp [St.crash]; exact ⟨rfl, rfl⟩
  | _ => exact hkeep _ (by simp [St.step]) (by simp [St.step]) hm

theorem default_prefix {a b : List Ev} (h : DefaultHooks (a ++ b)) : DefaultHooks a :=
  ⟨fun id r o hm => h.1 id r o (by simp [hm]), fun e o hm => h.2 e o (by simp [hm])⟩

/-- **C24**, one actor: with the default hooks, an actor that has taken from its mailbox the signal of
the death of a linked actor, with any reason but `Normal`, leaves its message loop: it is in
`on_link_died` for that signal, or it has left. It does not go back to waiting for signals and handles
no further message. -/
theorem abnormal_death_stops (cap : Option Nat) (ops : List Lifecycle.Op) (t : Nat) (i : Id) (r : Reason)
    (hd : DefaultHooks (after cap ops).log) (hm : (t, Sig.linkDied i r) ∈ (after cap ops).mb.received)
    (hn : r ≠ .normal) : (after cap ops).phase.out ∨ (after cap ops).phase = .linkDying i r := by
  refine after_induct (cap := cap) (P := fun _ s => DefaultHooks s.log → ∀ t i r,
    (t, Sig.linkDied i r) ∈ s.mb.received → r ≠ .normal → s.phase.out ∨ s.phase = .linkDying i r)
    ?_ ?_ ops hd t i r hm hn
  · intro _ t i r hm; simp [after, St.exec, St.fresh, Mb.fresh] at hm
  · intro ops op ih hd
    have ht := step_tr (after cap ops) op
    obtain ⟨y, hy⟩ := tr_log ht
    exact abnormal_tr hd (ih (by rw [hy] at hd; exact default_prefix hd)) ht

/-- Actor 1 of the chain, on its own. -/
example : (1, Sig.linkDied 0 .killed) ∈
      (after none [.run, .startEnd .ok, .pollBegin, .recv, .sendLinkDied 0 .killed, .recv]).mb.received ∧
    DefaultHooks (after none [.run, .startEnd .ok, .pollBegin, .recv, .sendLinkDied 0 .killed, .recv]).log :=
  ⟨by decide, defaultHooks_of_all (by decide)⟩

end Verif.System
