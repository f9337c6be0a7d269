import Verif.Lifecycle.Start

/-! When received messages are dropped without being handled, and what a stop signal ends. -/

set_option linter.unusedSimpArgs false

namespace Verif.Lifecycle

open Verif.Mailbox

/-- Does this handler outcome concern the actor (rather than the asker)? -/
def failing (m : Msg) (taken : Bool) : HOut → Bool
  | .panic _ => true
  | .ret (.err _) => !m.2.ask || taken
  | .ret (.ok _) => false

/-- Some hook chose to stop with `Normal`. -/
def BrkNormal (log : List Ev) : Prop :=
  (∃ id r, .lEnd id r (.brk .normal) ∈ log) ∨ ∃ e, .pEnd e (.brk .normal) ∈ log

/-- A handler failed for an outside message that had been received before start-up was over. -/
def DrainFail (s : St) : Prop :=
  ∃ k m tk o, s.cut = some k ∧ m.2.within = false ∧ m ∈ msgsOf (s.mb.received.take k) ∧
    .hEnd m tk o ∈ s.log ∧ failing m tk o = true

structure Loss (s : St) : Prop where
  drain : ∀ m tk rest ts, s.phase = .handling m tk rest ts → rest ≠ [] ∨ ts = true →
    ∃ k, s.cut = some k ∧ ∀ x ∈ m :: rest, x.2.within = false ∧ x ∈ msgsOf (s.mb.received.take k)
  lost : s.lost ≠ [] → DrainFail s ∨ BrkNormal s.log ∨ (∃ r, r ≠ .normal ∧ .sBegin r ∈ s.log) ∨
    (s.phase = .crashed ∧ ∀ r, .sBegin r ∉ s.log)
  last : s.phase.thenStop = true ∨ .sBegin .normal ∈ s.log →
    (∃ pre t, s.mb.received = pre ++ [(t, .stop)]) ∨ BrkNormal s.log
  sb : s.phase.inLoop = true ∨ s.phase.unborn = true ∨ (∃ e, s.phase = .startPanicking e) →
    ∀ r, .sBegin r ∉ s.log

theorem BrkNormal.mono {log x : List Ev} (h : BrkNormal log) : BrkNormal (log ++ x) := by
  unfold BrkNormal at *; simp only [List.mem_append]; grind

theorem DrainFail.mono {s s' : St} (h : DrainFail s) (ho : Ord s s.phase.rest) (hc : s'.cut = s.cut)
    (x : List Ev) (hl : s'.log = s.log ++ x) (hr : s.mb.received <+: s'.mb.received) : DrainFail s' := by
  obtain ⟨k, m, tk, o, h1, h2, h3, h4, h5⟩ := h
  refine ⟨k, m, tk, o, hc ▸ h1, h2, ?_, by rw [hl]; simp [h4], h5⟩
  obtain ⟨y, hy⟩ := hr
  rw [← hy, List.take_append_of_le_length (ho.some k h1).1]
  exact h3

theorem tr_cut {s s' : St} (ht : Tr s s') : s.cut ≠ none → s'.cut = s.cut := by
  intro hc
  have hfs : ∀ mb, ({ s with mb := mb }).finishStartup.cut = s.cut := by
    intro mb
    unfold St.finishStartup
    cases h : s.cut with
    | none => exact absurd h hc
    | some k => simp [h]
  have hfs0 : s.finishStartup.cut = s.cut := hfs s.mb
  cases ht with
  | startOk hp =>
    unfold St.startOk; simp only
    split
    · rfl
    · unfold St.finishStartup
      cases h : s.cut with
      | none => exact absurd h hc
      | some k => simp [h]
  | recvNone => simp [hfs0]
  | recvStartup => simp [hfs]
  | recvStop => simp [hfs]
  | _ => simp [St.step, St.crash, St.abortSeen, St.stopFailed, St.startFail]

theorem tr_received {s s' : St} (ht : Tr s s') : s.mb.received <+: s'.mb.received := by
  have : ∀ m : Mb Sig, m.received <+: m.recv.received := by
    intro m
    cases h : m.queue with
    | nil => simp [Mb.recv, h]
    | cons p q => rw [recv_received m h]; simp
  cases ht with
  | startOk hp => rw [(startOk_fields2 s).2.2.2.2]; simp
  | _ => simp [St.step, St.crash, St.abortSeen, St.stopFailed, St.startFail, this]

theorem DrainFail.tr {s s' : St} (h : DrainFail s) (ho : Ord s s.phase.rest) (ht : Tr s s') :
    DrainFail s' := by
  obtain ⟨x, hx⟩ := tr_log ht
  have hc : s.cut ≠ none := by obtain ⟨k, _, _, _, h1, _⟩ := h; simp [h1]
  exact h.mono ho (tr_cut ht hc) x hx (tr_received ht)

/-- Steps that drop nothing. -/
theorem lost_keep {s s' : St} (ho : Ord s s.phase.rest) (h : Loss s) (ht : Tr s s')
    (hl : s'.lost = s.lost) (hp : s.phase ≠ .crashed) : s'.lost ≠ [] →
      DrainFail s' ∨ BrkNormal s'.log ∨ (∃ r, r ≠ .normal ∧ .sBegin r ∈ s'.log) ∨
      (s'.phase = .crashed ∧ ∀ r, .sBegin r ∉ s'.log) := by
  intro hne
  obtain ⟨x, hx⟩ := tr_log ht
  rcases h.lost (hl ▸ hne) with h1 | h1 | ⟨r, h1, h2⟩ | h1
  · exact Or.inl (h1.tr ho ht)
  · exact Or.inr (Or.inl (hx ▸ h1.mono))
  · exact Or.inr (Or.inr (Or.inl ⟨r, h1, by rw [hx]; simp [h2]⟩))
  · exact absurd h1.1 hp

theorem cancelEv_sBegin (p : Phase) (r : Reason) : .sBegin r ∉ p.cancelEv := by
  cases p <;> simp [Phase.cancelEv]

/-- Steps with the same phase and no new start of `on_stop`. -/
theorem Loss.env {s s' : St} (ho : Ord s s.phase.rest) (h : Loss s) (ht : Tr s s')
    (hp : s'.phase = s.phase) (hl : s'.lost = s.lost) (hr : s'.mb.received = s.mb.received)
    (hsb : ∀ r, .sBegin r ∈ s'.log → .sBegin r ∈ s.log) : Loss s' := by
  obtain ⟨x, hx⟩ := tr_log ht
  constructor
  · intro m tk rest ts hph hc
    rw [hp] at hph
    obtain ⟨k, h1, h2⟩ := h.drain m tk rest ts hph hc
    refine ⟨k, by rw [tr_cut ht (by simp [h1]), h1], ?_⟩
    rw [hr]; exact h2
  · intro hne
    rcases h.lost (hl ▸ hne) with h1 | h1 | ⟨r, h1, h2⟩ | ⟨h1, h2⟩
    · exact Or.inl (h1.tr ho ht)
    · exact Or.inr (Or.inl (hx ▸ h1.mono))
    · exact Or.inr (Or.inr (Or.inl ⟨r, h1, by rw [hx]; simp [h2]⟩))
    · exact Or.inr (Or.inr (Or.inr ⟨hp ▸ h1, fun r hm => h2 r (hsb r hm)⟩))
  · rw [hp, hr, hx]
    intro hc
    have : s.phase.thenStop = true ∨ .sBegin .normal ∈ s.log := by
      rcases hc with hc | hc
      · exact Or.inl hc
      · exact Or.inr (hsb _ (hx ▸ hc))
    rcases h.last this with h1 | h1
    · exact Or.inl h1
    · exact Or.inr h1.mono
  · rw [hp]
    intro hc r hm
    exact h.sb hc r (hsb r hm)

/-- The loop is left with `r`. -/
theorem Loss.left {s s' : St} (h : Loss s) (hin : s.phase.inLoop = true ∨ ∃ e, s.phase = .startPanicking e)
    (r : Reason) (x : List Ev) (hx : s'.log = s.log ++ x ++ [.sBegin r]) (hxs : ∀ r, .sBegin r ∉ x)
    (hp : ∃ p b, s'.phase = .stopping r p b)
    (hl : r ≠ .normal ∨ BrkNormal x ∨ (s'.lost = s.lost ∧ (s.lost ≠ [] → DrainFail s' ∨ BrkNormal s'.log)
      ∧ ∃ pre t, s'.mb.received = pre ++ [(t, .stop)])) :
    Loss s' := by
  have hno := h.sb (hin.elim Or.inl (fun h => Or.inr (Or.inr h)))
  obtain ⟨p, b, hp⟩ := hp
  constructor
  · simp [hp]
  · intro hne
    rcases hl with hl | hl | ⟨hl, h2, _⟩
    · exact Or.inr (Or.inr (Or.inl ⟨r, hl, by simp [hx]⟩))
    · right; left
      rw [hx]
      unfold BrkNormal at *
      simp only [List.mem_append]; grind
    · rcases h2 (hl ▸ hne) with h2 | h2
      · exact Or.inl h2
      · exact Or.inr (Or.inl h2)
  · intro hm
    simp [hp, hx, hno, hxs] at hm
    rcases hl with hl | hl | ⟨_, _, h3⟩
    · exact absurd hm.symm hl
    · right; rw [hx]
      unfold BrkNormal at *
      simp only [List.mem_append]; grind
    · exact Or.inl h3
  · simp [hp]

/-- The loop continues (or the actor is about to start). -/
theorem Loss.cont {s s' : St} (ho : Ord s s.phase.rest) (h : Loss s) (ht : Tr s s')
    (hin : s.phase.inLoop = true ∨ s.phase.unborn = true)
    (hsb : ∀ r, .sBegin r ∉ s'.log)
    (hl : s'.lost = s.lost ∨ DrainFail s')
    (hd : ∀ m tk rest ts, s'.phase = .handling m tk rest ts → rest ≠ [] ∨ ts = true →
      ∃ k, s'.cut = some k ∧ ∀ x ∈ m :: rest, x.2.within = false ∧ x ∈ msgsOf (s'.mb.received.take k))
    (hlast : s'.phase.thenStop = true → (∃ pre t, s'.mb.received = pre ++ [(t, .stop)]) ∨ BrkNormal s'.log) :
    Loss s' := by
  constructor
  · exact hd
  · intro hne
    rcases hl with hl | hl
    · refine lost_keep ho h ht hl ?_ hne
      intro hc; simp [hc] at hin
    · exact Or.inl hl
  · intro hm
    rcases hm with hm | hm
    · exact hlast hm
    · exact absurd hm (hsb _)
  · intro _; exact hsb

/-- The task dies. -/
theorem Loss.die {s s' : St} (ho : Ord s s.phase.rest) (h : Loss s) (ht : Tr s s')
    (hc : s'.phase = .crashed) (hp : s.phase ≠ .crashed)
    (hl : s'.lost = s.lost ∨ s.phase.inLoop = true ∨ ∃ e, s.phase = .startPanicking e)
    (hsb : ∀ r, .sBegin r ∈ s'.log → .sBegin r ∈ s.log)
    (hr : s'.mb.received = s.mb.received) : Loss s' := by
  obtain ⟨x, hx⟩ := tr_log ht
  constructor
  · simp [hc]
  · intro hne
    rcases hl with hl | hl
    · exact lost_keep ho h ht hl hp hne
    · have := h.sb (hl.elim Or.inl (fun h => Or.inr (Or.inr h)))
      exact Or.inr (Or.inr (Or.inr ⟨hc, fun r hm => this r (hsb r hm)⟩))
  · intro hm
    simp [hc] at hm
    have := h.last (Or.inr (hsb _ hm))
    rw [hr, hx]
    rcases this with h1 | h1
    · exact Or.inl h1
    · exact Or.inr h1.mono
  · simp [hc]

/-- What the start-up buffer holds. -/
theorem buffer_drain {s : St} (hs : Shape s) (ho : Ord s []) (hp : s.phase = .idle) (p : Nat × Sig)
    (mb : Mb Sig) (hmb : mb.received = s.mb.received ++ [p]) (hb : s.buffer ≠ []) :
    ∃ k, ({ s with mb := mb }).finishStartup.cut = some k ∧
      ∀ x ∈ s.buffer, x.2.within = false ∧ x ∈ msgsOf (mb.received.take k) := by
  have hf := (hs.buf hb).1
  have hc := hs.cut_none hf
  refine ⟨mb.received.length, by simp [St.finishStartup, hc], ?_⟩
  have := (ho.none hc).2 (by simp [hp])
  intro x hx
  rw [this] at hx
  simp at hx
  rw [List.take_length, hmb]
  simp [hx]

theorem loss_tr {s s' : St} (hs : Shape s) (ha : Ord s s.phase.rest) (h : Loss s) (ht : Tr s s') :
    Loss s' := by
  have ht' := ht
  have hcont := @Loss.cont s s' ha h ht'
  have henv := @Loss.env s s' ha h ht'
  have hdie := @Loss.die s s' ha h ht'
  have hleft := @Loss.left s s' h
  have hsb := h.sb
  -- draining continues
  have hdr : ∀ (s0 : St) (m : Msg) (tk : Bool) (rest : List Msg) (ts : Bool) (x : List Ev), s' = s0.drain rest ts →
      s.phase = .handling m tk rest ts → s0.cut = s.cut → s0.mb.received = s.mb.received → s0.lost = s.lost →
      s0.buffer = s.buffer → s0.log = s.log ++ x → (∀ r, .sBegin r ∉ x) → Loss s' := by
    intro s0 m tk rest ts x he hp h1 h2 h3 h3' h4 h5
    have hno := hsb (Or.inl (by simp [hp]))
    cases rest with
    | cons y ys =>
      obtain ⟨k, hk, hk2⟩ := h.drain m tk (y :: ys) ts hp (by simp)
      subst he
      refine hcont (Or.inl (by simp [hp])) ?_ (Or.inl (by simp [St.drain, h3])) ?_ ?_
      · intro r; simp [drainEv, h4, h5, hno]
      · intro m' tk' rest' ts' hph _
        simp [St.drain] at hph
        obtain ⟨rfl, rfl, rfl, rfl⟩ := hph
        refine ⟨k, by simp [St.drain, h1, hk], ?_⟩
        intro z hz
        have := hk2 z (by simp at hz ⊢; exact Or.inr hz)
        simpa [St.drain, h2] using this
      · intro hts
        simp [St.drain] at hts
        have := h.last (Or.inl (by simp [hp, hts]))
        simp only [drain_mb, h2, drain_log, h4]
        rcases this with h6 | h6
        · exact Or.inl h6
        · exact Or.inr (h6.mono.mono)
    | nil =>
      cases ts with
      | false =>
        subst he
        refine hcont (Or.inl (by simp [hp])) ?_ (Or.inl (by simp [St.drain, h3])) ?_ ?_
        · intro r; simp [drainEv, h4, h5, hno]
        · simp [St.drain]
        · simp [St.drain]
      | true =>
        have hbuf : s0.buffer = [] := by rw [h3']; exact hs.buf_nil (Or.inl (hs.ts (by simp [hp])))
        have hlast := h.last (Or.inl (by simp [hp]))
        subst he
        have hd : s0.drain [] true = s0.leave .normal := by simp [St.drain, St.onShutdown]
        rcases hlast with hl | hl
        · refine hleft (Or.inl (by simp [hp])) .normal x (by simp [drainEv, h4]) h5 (by simp [hd]) ?_
          right; right
          refine ⟨by simp [hd, hbuf, h3], ?_, by simpa [hd, h2] using hl⟩
          intro hne
          have hne' : (s0.drain [] true).lost ≠ [] := by simpa [hd, hbuf, h3] using hne
          rcases h.lost hne with h6 | h6 | ⟨r, _, h6⟩ | ⟨h6, _⟩
          · exact Or.inl (h6.tr ha ht')
          · exact Or.inr (by simp [h4]; exact h6.mono)
          · exact absurd h6 (hno r)
          · simp [hp] at h6
        · -- a hook chose `Normal` although the actor is still in the loop: impossible to tell, keep it
          constructor
          · simp [hd]
          · intro _; exact Or.inr (Or.inl (by simp [h4]; exact hl.mono))
          · intro _; exact Or.inr (by simp [h4]; exact hl.mono)
          · simp [hd]
  cases ht with
  | refl => exact h
  | send b => exact henv rfl rfl (by simp [St.step]) (fun r h => h)
  | trySend b => exact henv rfl rfl (by simp [St.step]) (fun r h => h)
  | poll t => exact henv rfl rfl (by simp) (fun r h => h)
  | cancel t => exact henv rfl rfl (by simp [St.step]) (fun r h => h)
  | sendStop => exact henv rfl rfl (by simp) (fun r h => h)
  | sendLinkDied id r => exact henv rfl rfl (by simp) (fun r h => h)
  | kill => exact henv rfl rfl rfl (by simp)
  | link id => exact henv rfl rfl rfl (fun r h => h)
  | unlink id => exact henv rfl rfl rfl (fun r h => h)
  | ref n => exact henv rfl rfl rfl (fun r h => h)
  | giveUp t _ => exact henv rfl rfl rfl (fun r h => h)
  | delegSend t r _ => exact henv (by simp) (by simp) (by simp) (by simp)
  | delegDrop t _ => exact henv (by simp) (by simp) (by simp) (by simp)
  | teardown h1 h2 =>
    by_cases hl : s.phase.inLoop = true ∨ ∃ e, s.phase = .startPanicking e
    · exact hdie (by simp) h2 (Or.inr hl) (by simp [St.crash, cancelEv_sBegin]) (by simp)
    · refine hdie (by simp) h2 (Or.inl ?_) (by simp [St.crash, cancelEv_sBegin]) (by simp)
      have hb : s.buffer = [] := hs.buf_nil (Or.inr (by
        cases hc : s.phase.inLoop with
        | false => rfl
        | true => exact absurd (Or.inl hc) hl))
      have hr : s.cancelRunning.lost = s.lost ∧ s.cancelRunning.buffer = s.buffer := by
        unfold St.cancelRunning
        split <;> simp_all
      simp [St.crash, St.die, hr.1, hr.2, hb]
  | run hp =>
    have := hsb (by simp [hp])
    exact hcont (by simp [hp]) (by simpa using this) (Or.inl rfl) (by simp) (by simp)
  | startOk hp =>
    have := hsb (by simp [hp])
    exact hcont (by simp [hp]) (by simpa using this)
      (Or.inl (by unfold St.startOk; simp only; split <;> simp))
      (by simp [(startOk_fields2 s).2.2.2.1]) (by simp [(startOk_fields2 s).2.2.2.1])
  | startFail o e hp ho =>
    have := hsb (by simp [hp])
    exact hcont (by simp [hp]) (by simpa [St.startFail] using this) (Or.inl rfl)
      (by simp [St.startFail]) (by simp [St.startFail])
  | abort hp hab =>
    exact hleft (Or.inl hp) .killed s.phase.cancelEv (by simp [St.abortSeen]) (cancelEv_sBegin _)
      (by simp [St.abortSeen]) (Or.inl (by simp))
  | polling hp hab p => exact henv rfl rfl rfl (fun r h => h)
  | recvNone hp _ _ hn =>
    have := hs.own
    rw [hp] at this
    simp [St.noSenders, this] at hn
  | recvStartup hp hpo t q hq =>
    have hr := recv_received s.mb hq
    have hno := hsb (by simp [hp])
    rw [hp] at ha
    have hbb : s.buffer = [] ∨ ∃ y ys, s.buffer = y :: ys := by cases s.buffer <;> simp
    rcases hbb with hb | ⟨y, ys, hb⟩
    · skip
      refine hcont (by simp [hp]) ?_ (Or.inl (by simp [St.drain, hb])) ?_ ?_
      · intro r; simp [drainEv, hb, hno]
      · simp [St.drain, hb]
      · simp [St.drain, hb]
    · skip
      obtain ⟨k, hk1, hk2⟩ := buffer_drain hs ha hp _ s.mb.recv hr (by simp [hb])
      refine hcont (by simp [hp]) ?_ (Or.inl (by simp [St.drain, hb])) ?_ ?_
      · intro r; simp [drainEv, hb, hno]
      · intro m tk rest ts hph _
        simp [St.drain, hb] at hph
        obtain ⟨rfl, rfl, rfl, rfl⟩ := hph
        refine ⟨k, by simp [hk1], ?_⟩
        rw [hb] at hk2
        simpa using hk2
      · simp [St.drain, hb]
  | recvBuffer hp hpo t b q hq hwi hf =>
    have hno := hsb (by simp [hp])
    exact hcont (by simp [hp]) (by simpa using hno) (Or.inl rfl) (by simp [hp]) (by simp [hp])
  | recvMsg hp hpo t b q hq hwi =>
    have hno := hsb (by simp [hp])
    exact hcont (by simp [hp]) (by simpa using hno) (Or.inl rfl) (by simp) (by simp [hp])
  | recvLink hp hpo t id r q hq =>
    have hno := hsb (by simp [hp])
    exact hcont (by simp [hp]) (by simpa using hno) (Or.inl rfl) (by simp) (by simp)
  | recvStop hp hpo t q hq =>
    have hr := recv_received s.mb hq
    have hno := hsb (by simp [hp])
    have ha' := ha
    rw [hp] at ha
    have hbb : s.buffer = [] ∨ ∃ y ys, s.buffer = y :: ys := by cases s.buffer <;> simp
    rcases hbb with hb | ⟨y, ys, hb⟩
    · skip
      have hd : ({ s with mb := s.mb.recv }.finishStartup.ev .stopTaken).drain s.buffer true =
          ({ s with mb := s.mb.recv }.finishStartup.ev .stopTaken).leave .normal := by
        simp [St.drain, St.onShutdown, hb]
      have hb' : ({ s with mb := s.mb.recv } : St).finishStartup.buffer = [] := by simp
      refine hleft (by simp [hp]) .normal [.stopTaken] (by simp [drainEv, hb]) (by simp) (by simp [hd]) ?_
      right; right
      refine ⟨by simp [hd], ?_, ⟨_, _, by simpa [hd] using hr⟩⟩
      intro hne
      rcases h.lost hne with h6 | h6 | ⟨r, _, h6⟩ | ⟨h6, _⟩
      · exact Or.inl (h6.tr ha' ht')
      · exact Or.inr (by simp; exact h6.mono)
      · exact absurd h6 (hno r)
      · simp [hp] at h6
    · skip
      obtain ⟨k, hk1, hk2⟩ := buffer_drain hs ha hp _ s.mb.recv hr (by simp [hb])
      refine hcont (by simp [hp]) ?_ (Or.inl (by simp [St.drain, hb])) ?_ ?_
      · intro r; simp [drainEv, hb, hno]
      · intro m tk rest ts hph _
        simp [St.drain, hb] at hph
        obtain ⟨rfl, rfl, rfl, rfl⟩ := hph
        refine ⟨k, by simp [hk1], ?_⟩
        rw [hb] at hk2
        simpa using hk2
      · intro _; left; exact ⟨_, _, by simpa using hr⟩
  | takeReply m rest ts hp hpo hm =>
    have hno := hsb (by simp [hp])
    refine hcont (by simp [hp]) (by simpa using hno) (Or.inl rfl) ?_ ?_
    · intro m' tk' rest' ts' hph hc
      simp at hph
      obtain ⟨rfl, rfl, rfl, rfl⟩ := hph
      exact h.drain _ _ _ _ hp hc
    · intro hts; exact h.last (Or.inl (by simpa [hp] using hts))
  | handlerReply m rest ts res hp hpo hm =>
    exact hdr _ m false rest ts [.hEnd m false (.ret res)] rfl hp (by simp) (by simp) (by simp) (by simp) (by simp) (by simp)
  | handlerOk m taken rest ts v hp hpo hm =>
    exact hdr _ m taken rest ts [.hEnd m taken (.ret (.ok v))] rfl hp (by simp) (by simp) (by simp) (by simp) (by simp) (by simp)
  | handlerErr m taken rest ts e hp hpo hm =>
    have hno := hsb (by simp [hp])
    refine hcont (by simp [hp]) (by simpa using hno) ?_ (by simp) (by simp)
    cases rest with
    | nil => left; simp
    | cons y ys =>
      right
      obtain ⟨k, hk1, hk2⟩ := h.drain _ _ _ _ hp (by simp)
      have := hk2 m (by simp)
      refine ⟨k, m, taken, .ret (.err e), by simp [hk1], this.1, by simpa using this.2, by simp, ?_⟩
      rcases hm with hm | hm <;> simp [failing, hm]
  | handlerPanic m taken rest ts e hp hpo =>
    have hno := hsb (by simp [hp])
    refine hcont (by simp [hp]) (by simpa using hno) ?_ (by simp) (by simp)
    cases rest with
    | nil => left; simp
    | cons y ys =>
      right
      obtain ⟨k, hk1, hk2⟩ := h.drain _ _ _ _ hp (by simp)
      have := hk2 m (by simp)
      exact ⟨k, m, taken, .panic e, by simp [hk1], this.1, by simpa using this.2, by simp, rfl⟩
  | linkCont id r hp hpo =>
    have hno := hsb (by simp [hp])
    exact hcont (by simp [hp]) (by simpa using hno) (Or.inl rfl) (by simp) (by simp)
  | linkStop id r r' hp hpo hr =>
    refine hleft (by simp [hp]) r' [.lEnd id r (.brk r')] (by simp) (by simp) (by simp) ?_
    by_cases hc : r' = .normal
    · right; left; subst hc; exact Or.inl ⟨id, r, by simp⟩
    · exact Or.inl hc
  | linkPanic id r o e hp hpo ho =>
    have hno := hsb (by simp [hp])
    exact hcont (by simp [hp]) (by simpa using hno) (Or.inl rfl) (by simp) (by simp)
  | panicCont e hp hpo =>
    have hno := hsb (by simp [hp])
    exact hcont (by simp [hp]) (by simpa using hno) (Or.inl rfl) (by simp) (by simp)
  | panicStop e o r hp hpo ho =>
    refine hleft (by simp [hp]) r [.pEnd e o] (by simp) (by simp) (by simp) ?_
    by_cases hc : r = .normal
    · right; left; subst hc
      rcases ho with rfl | ⟨e', _, h2⟩
      · exact Or.inr ⟨e, by simp⟩
      · cases h2
    · exact Or.inl hc
  | panicDie e e' hp hpo =>
    exact hdie (by simp) (by simp [hp]) (by simp [hp]) (by simp) (by simp)
  | startPanicStop e o r hp ho =>
    refine hleft (by simp [hp]) r [.pEnd e o] (by simp [St.stopFailed]) (by simp) (by simp [St.stopFailed]) ?_
    by_cases hc : r = .normal
    · right; left; subst hc
      rcases ho with ⟨_, h2⟩ | rfl | ⟨e', _, h2⟩
      · cases h2
      · exact Or.inr ⟨e, by simp⟩
      · cases h2
    · exact Or.inl hc
  | startPanicDie e e' hp =>
    exact hdie (by simp) (by simp [hp]) (by simp [hp]) (by simp) (by simp)
  | stopNotify r pend o res hp ho =>
    constructor
    · simp
    · exact lost_keep ha h ht' rfl (by simp [hp])
    · intro hm
      simp at hm
      rcases h.last (Or.inr hm) with h1 | h1
      · exact Or.inl h1
      · exact Or.inr h1.mono
    · simp
  | stopFinish r pend o res hp ho =>
    constructor
    · simp
    · exact lost_keep ha h ht' (by simp) (by simp [hp])
    · intro hm
      simp at hm
      rcases h.last (Or.inr hm) with h1 | h1
      · exact Or.inl (by simpa using h1)
      · exact Or.inr (by simp; exact h1.mono)
    · simp
  | stopDie r pend st e hp =>
    have hb : s.buffer = [] := hs.buf_nil (Or.inr (by simp [hp]))
    exact hdie (by simp) (by simp [hp]) (by simp [hb, hp]) (by simp) (by simp)
  | notify r pend res id hp hi =>
    constructor
    · simp
    · exact lost_keep ha h ht' rfl (by simp [hp])
    · intro hm
      simp at hm
      rcases h.last (Or.inr hm) with h1 | h1
      · exact Or.inl h1
      · exact Or.inr h1.mono
    · simp
  | finish r res hp =>
    constructor
    · simp
    · exact lost_keep ha h ht' (by simp) (by simp [hp])
    · intro hm
      simp at hm
      rcases h.last (Or.inr hm) with h1 | h1
      · exact Or.inl (by simpa using h1)
      · exact Or.inr (by simp; exact h1.mono)
    · simp

theorem loss_after (cap : Option Nat) (ops : List Op) : Loss (after cap ops) := by
  refine exec_good_inv (P := Loss) (fun s s' hg h ht => loss_tr hg.shape hg.ord h ht) (good_after cap []) ?_ ops
  constructor <;> simp [after, St.exec, St.fresh]

end Verif.Lifecycle
