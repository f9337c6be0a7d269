import Verif.Lifecycle.Live

/-! Invariants used to say what a fair execution brings about. -/

set_option linter.unusedSimpArgs false

namespace Verif.Lifecycle

open Verif.Mailbox

theorem pushed_step (s : St) (op : Op) : s.mb.pushed <+: (s.step op).mb.pushed := by
  obtain ⟨mops, hm⟩ := step_mb s op
  rw [hm]
  exact run_pushed _ _

/-- A step that takes no signal, or takes one. -/
theorem received_tr {s s' : St} (ht : Tr s s') : s'.mb.received = s.mb.received ∨
    ∃ p q, s.mb.queue = p :: q ∧ s'.mb.received = s.mb.received ++ [p] ∧
      (p.2 = .startup → s'.finished = true) ∧
      (p.2 = .stop → s'.phase.inLoop = true → s'.phase.thenStop = true) := by
  cases ht with
  | startOk hp => rw [(startOk_fields2 s).2.2.2.2]; simp
  | recvStartup h hp t q hq =>
    refine Or.inr ⟨_, q, hq, by simp [recv_received s.mb hq], by simp [St.finishStartup], by simp⟩
  | recvBuffer h hp t b q hq hw hf =>
    exact Or.inr ⟨_, q, hq, by simp [recv_received s.mb hq], by simp, by simp⟩
  | recvMsg h hp t b q hq hw =>
    exact Or.inr ⟨_, q, hq, by simp [recv_received s.mb hq], by simp, by simp⟩
  | recvLink h hp t id r q hq =>
    exact Or.inr ⟨_, q, hq, by simp [recv_received s.mb hq], by simp, by simp⟩
  | recvStop h hp t q hq =>
    refine Or.inr ⟨_, q, hq, by simp [recv_received s.mb hq], by simp, fun _ => ?_⟩
    cases hb : s.buffer <;> simp [St.drain]
  | _ => simp [St.step, St.crash, St.abortSeen, St.stopFailed, St.startFail]

theorem finished_tr {s s' : St} (ht : Tr s s') (h : s.finished = true) : s'.finished = true := by
  cases ht with
  | startOk hp => unfold St.startOk; simp only; split <;> simp [h, St.finishStartup]
  | _ => simp [St.step, St.crash, St.abortSeen, St.stopFailed, St.startFail, h, St.finishStartup]

theorem enter_from {s s' : St} (ht : Tr s s') (hn : s.phase.inLoop = false)
    (hl : s'.phase.inLoop = true) : s.phase = .starting := by
  cases ht <;> simp_all [St.step, St.crash, St.abortSeen, St.stopFailed, St.startFail]

theorem enter_tr {s : St} (op : Op) (hn : s.phase.inLoop = false) (hl : (s.step op).phase.inLoop = true)
    (hc : s.mb.closed = false) :
    (s.step op).finished = true ∨ ∃ t, (t, Sig.startup) ∈ (s.step op).mb.pushed := by
  have ht := step_tr s op
  generalize s.step op = s' at *
  cases ht with
  | startOk hp =>
    unfold St.startOk
    simp only
    split
    · next h =>
      right
      simp [hc] at h
      exact ⟨s.mb.next, by simp [Mb.trySend, hc, h, Mb.push, Mb.bump]⟩
    · left; simp [St.finishStartup]
  | _ => simp_all [St.step, St.crash, St.abortSeen, St.stopFailed, St.startFail]

/-- A drain that was started by a stop signal leaves the loop or fails. -/
theorem thenStop_tr {s s' : St} (hlo : Loss s) (ht : Tr s s')
    (hts : s.phase.thenStop = true) (hl : s'.phase.inLoop = true) :
    s'.phase.thenStop = true ∨ DrainFail s' := by
  have hd : ∀ m tk rest o, s.phase = .handling m tk rest true → failing m tk o = true →
      s'.cut = s.cut → s'.mb.received = s.mb.received → .hEnd m tk o ∈ s'.log → DrainFail s' := by
    intro m tk rest o hp hf h1 h2 h3
    obtain ⟨k, hk, hk2⟩ := hlo.drain m tk rest true hp (Or.inr rfl)
    have := hk2 m (by simp)
    exact ⟨k, m, tk, o, by rw [h1, hk], this.1, by rw [h2]; exact this.2, h3, hf⟩
  cases ht with
  | handlerErr m tk rest ts e h hp ha =>
    have : ts = true := by simpa [h] using hts
    subst this
    right
    exact hd m tk rest (.ret (.err e)) h (by cases ha <;> simp_all [failing]) (by simp) (by simp) (by simp)
  | handlerPanic m tk rest ts e h hp =>
    have : ts = true := by simpa [h] using hts
    subst this
    right
    exact hd m tk rest (.panic e) h (by simp [failing]) (by simp) (by simp) (by simp)
  | handlerReply m rest ts res h hp ha =>
    have : ts = true := by simpa [h] using hts
    subst this
    cases rest <;> simp_all [St.drain]
  | handlerOk m tk rest ts v h hp ha =>
    have : ts = true := by simpa [h] using hts
    subst this
    cases rest <;> simp_all [St.drain]
  | _ => simp_all [St.step, St.crash, St.abortSeen, St.stopFailed, St.startFail]

/-- What the signals received so far have done to the actor. -/
structure Sigs (s : St) : Prop where
  up : s.phase.inLoop = true → s.finished = true ∨ ∃ t, (t, Sig.startup) ∈ s.mb.pushed
  fin : ∀ t, (t, Sig.startup) ∈ s.mb.received → s.finished = true
  stop : s.phase.inLoop = true → ∀ t, (t, Sig.stop) ∈ s.mb.received →
    s.phase.thenStop = true ∨ DrainFail s

theorem sigs_step {s : St} (hg : Good s) (hlo : Loss s) (h : Sigs s) (op : Op) : Sigs (s.step op) := by
  have ht := step_tr s op
  constructor
  · intro hl
    cases hp : s.phase.inLoop with
    | true =>
      rcases h.up hp with h1 | ⟨t, h1⟩
      · exact Or.inl (finished_tr ht h1)
      · exact Or.inr ⟨t, (pushed_step s op).subset h1⟩
    | false =>
      refine enter_tr op hp hl ?_
      rw [hg.shape.closed, enter_from ht hp hl]
      rfl
  · intro t hm
    rcases received_tr ht with h1 | ⟨p, q, _, h1, h2, _⟩
    · rw [h1] at hm
      exact finished_tr ht (h.fin t hm)
    · rw [h1] at hm
      rcases List.mem_append.mp hm with hm | hm
      · exact finished_tr ht (h.fin t hm)
      · simp at hm
        exact h2 (by rw [← hm])
  · intro hl t hm
    have hold : (t, Sig.stop) ∈ s.mb.received → s.phase.inLoop = true →
        (s.step op).phase.thenStop = true ∨ DrainFail (s.step op) := by
      intro hm hp
      rcases h.stop hp t hm with h1 | h1
      · exact thenStop_tr hlo ht h1 hl
      · exact Or.inr (h1.tr hg.ord ht)
    have hin : (t, Sig.stop) ∈ s.mb.received → s.phase.inLoop = true := by
      intro hm
      cases hp : s.phase.inLoop with
      | true => rfl
      | false =>
        exfalso
        rw [(hg.shape.early (by rw [enter_from ht hp hl]; rfl)).1] at hm
        simp at hm
    rcases received_tr ht with h1 | ⟨p, q, _, h1, _, h2⟩
    · rw [h1] at hm
      exact hold hm (hin hm)
    · rw [h1] at hm
      rcases List.mem_append.mp hm with hm | hm
      · exact hold hm (hin hm)
      · simp at hm
        exact Or.inl (h2 (by rw [← hm]) hl)

theorem sigs_after (cap : Option Nat) (ops : List Op) : Sigs (after cap ops) := by
  have : ∀ (s : St), Good s → Loss s → Sigs s → Sigs (s.exec ops) := by
    induction ops with
    | nil => intro s _ _ h; exact h
    | cons op ops ih =>
      intro s hg hl h
      exact ih (s.step op) (good_tr hg (step_tr s op)) (loss_tr hg.shape hg.ord hl (step_tr s op))
        (sigs_step hg hl h op)
  refine this _ (good_after cap []) (loss_after cap []) ?_
  constructor <;> simp [St.fresh, Mb.fresh]

end Verif.Lifecycle
