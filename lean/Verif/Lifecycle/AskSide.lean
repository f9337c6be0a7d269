import Verif.Lifecycle.Told

/-!
The outcomes of an ask that its asker's side brings about: giving up, and a mailbox time-out. Lemmas for `Verif.Remote.PropsAsks`.
-/

set_option linter.unusedSimpArgs false

namespace Verif.Lifecycle

open Verif.Mailbox

/-- An outcome that only the asker's side brings about: the reply time-out (or a dropped future) and the mailbox time-out
(`src/error.rs` L303-326). -/
def Mine (v : Slot) : Prop := v = .gaveUp ∨ v = .failed .mailboxTimeout

section
variable {s : St} {t : Nat} {v : Slot} (hv : Mine v)
include hv

theorem mine_dropReplies {ts : List Nat} (h : (s.dropReplies ts).slots t = v) : s.slots t = v := by
  rw [dropReplies_slots] at h
  split at h
  · rcases hv with rfl | rfl <;> cases h
  · exact h

theorem mine_reply {x : Nat} {r : Res} (h : (s.reply x r).slots t = v) : s.slots t = v := by
  rw [reply_slots] at h
  split at h
  · rcases hv with rfl | rfl <;> cases h
  · exact h

theorem mine_lose {ms : List Msg} (h : (s.lose ms).slots t = v) : s.slots t = v := mine_dropReplies hv h

theorem mine_leave {r : Reason} (h : (s.leave r).slots t = v) : s.slots t = v := mine_dropReplies hv h

theorem mine_onShutdown {r : Reason} (h : (s.onShutdown r).slots t = v) : s.slots t = v := by
  cases r with
  | panicked e => exact h
  | _ => exact mine_leave hv h

theorem mine_drain {rest : List Msg} {ts : Bool} (h : (s.drain rest ts).slots t = v) : s.slots t = v := by
  cases rest with
  | cons m ms => exact h
  | nil =>
    cases ts
    · exact h
    · have h : (s.onShutdown .normal).slots t = v := h
      exact mine_onShutdown hv h

theorem mine_closeMb (h : s.closeMb.slots t = v) : s.slots t = v := by
  rw [closeMb_slots_eq] at h
  split at h
  · rcases hv with rfl | rfl <;> cases h
  · split at h
    · rcases hv with rfl | rfl <;> cases h
    · exact h

theorem mine_die (h : s.die.slots t = v) : s.slots t = v :=
  mine_lose hv (mine_closeMb hv (s := s.lose s.buffer) h)

theorem mine_cancelRunning (h : s.cancelRunning.slots t = v) : s.slots t = v := by
  rw [cancelRunning_slots] at h
  split at h
  · rcases hv with rfl | rfl <;> cases h
  · exact h

/-- Only the asker gives up, and only a send that has not gone through times out. -/
theorem mine_step {op : Op} (h : (s.step op).slots t = v) : s.slots t = v ∨ (v = .gaveUp ∧ op = .giveUp t) ∨
    (v = .failed .mailboxTimeout ∧ op = .cancel t ∧ t ∈ (s.mb.waiting ++ s.mb.granted).map (·.1)) := by
  cases op with
  | cancel x =>
    simp only [St.step, failSends_slots] at h
    by_cases hx : x ∈ (s.mb.waiting ++ s.mb.granted).map (·.1)
    · simp only [hx, if_true, List.mem_singleton] at h
      grind
    · simp only [hx, if_false, List.not_mem_nil, and_false] at h
      exact Or.inl h
  | giveUp x =>
    simp only [St.step] at h
    split at h
    · simp only [setSlot] at h; grind
    · exact Or.inl h
  | send b =>
    left
    simp only [St.step] at h
    split at h
    · simp only [setSlot] at h
      split at h
      · exfalso; rcases hv with rfl | rfl <;> (split at h <;> cases h)
      · exact h
    · exact h
  | trySend b =>
    left
    simp only [St.step] at h
    split at h
    · simp only [setSlot] at h
      split at h
      · exfalso; rcases hv with rfl | rfl <;> (repeat' split at h) <;> cases h
      · exact h
    · exact h
  | delegSend x r =>
    left; simp only [St.step] at h; split at h
    · exact mine_reply hv h
    · exact h
  | delegDrop x =>
    left; simp only [St.step] at h; split at h
    · exact mine_dropReplies hv h
    · exact h
  | teardown =>
    left; simp only [St.step] at h; split at h
    · exact h
    · exact h
    · exact mine_cancelRunning hv (mine_die hv h)
  | startEnd o =>
    left; simp only [St.step] at h; split at h
    · cases o
      · simpa [St.startEnd, (startOk_fields s).2.2.2.2.1] using h
      · exact h
      · exact h
    · exact h
  | pollBegin =>
    left; simp only [St.step] at h; (repeat' split at h)
    · exact mine_cancelRunning hv (mine_leave hv h)
    · exact h
    · exact h
  | pollEnd =>
    left; simp only [St.step] at h; (repeat' split at h)
    · exact mine_cancelRunning hv (mine_leave hv h)
    · exact h
    · exact h
  | recv =>
    left; simp only [St.step] at h; split at h
    · split at h
      · simp only [St.recvStep] at h
        split at h
        · split at h
          · replace h := mine_drain hv h; exact h
          · exact h
        · simp only [St.onSignal] at h
          split at h
          · replace h := mine_drain hv h; exact h
          · split at h <;> exact h
          · exact h
          · replace h := mine_drain hv h; exact h
      · exact h
    · exact h
  | takeReply =>
    left; simp only [St.step] at h; split at h
    · split at h <;> exact h
    · exact h
  | handlerEnd o =>
    left; simp only [St.step] at h; split at h
    · split at h
      · simp only [St.handlerEnd] at h
        split at h
        · split at h
          · replace h := mine_drain hv h; exact mine_reply hv h
          · split at h
            · replace h := mine_drain hv h; exact h
            · replace h := mine_onShutdown hv h; replace h := mine_lose hv h; exact h
        · replace h := mine_onShutdown hv h; replace h := mine_lose hv h; exact mine_dropReplies hv h
      · exact h
    · exact h
  | linkEnd o =>
    left; simp only [St.step] at h; split at h
    · split at h
      · simp only [St.linkEnd] at h
        split at h
        · exact h
        all_goals (replace h := mine_onShutdown hv h; exact h)
      · exact h
    · exact h
  | panicEnd o =>
    left; simp only [St.step] at h; split at h
    · split at h
      · simp only [St.panicEnd] at h
        split at h
        · exact h
        · replace h := mine_leave hv h; exact h
        · replace h := mine_leave hv h; exact h
        · replace h := mine_die hv h; exact h
      · exact h
    · simp only [St.startPanicEnd] at h
      split at h
      · replace h := mine_lose hv h; exact h
      · replace h := mine_lose hv h; exact h
      · replace h := mine_lose hv h; exact h
      · replace h := mine_die hv h; exact h
    · exact h
  | stopEnd o =>
    left; simp only [St.step] at h; split at h
    · simp only [St.stopEnd] at h
      split at h
      · simp only [St.stopDone] at h
        split at h
        · exact h
        · replace h := mine_closeMb hv h; exact h
      · simp only [St.stopDone] at h
        split at h
        · exact h
        · replace h := mine_closeMb hv h; exact h
      · replace h := mine_die hv h; exact h
    · exact h
  | finish =>
    left; simp only [St.step] at h; split at h
    · exact mine_closeMb hv h
    · exact h
  | cloneRef => left; simp only [St.step] at h; split at h <;> exact h
  | run => left; simp only [St.step] at h; split at h <;> exact h
  | notifyEnd i =>
    left; simp only [St.step] at h; split at h
    · split at h <;> exact h
    · exact h
  | _ => left; exact h
end

/-- Only a send that may wait becomes one that waits for room. -/
theorem pend_mb {m : Mb Sig} {o : Mailbox.Op Sig} {t : Nat}
    (h : t ∈ ((m.step o).waiting ++ (m.step o).granted).map (·.1)) :
    t ∈ (m.waiting ++ m.granted).map (·.1) ∨ (t = m.next ∧ ∃ a, o = .send a) := by
  have hrel : ∀ m : Mb Sig, t ∈ (m.release.waiting ++ m.release.granted).map (·.1) →
      t ∈ (m.waiting ++ m.granted).map (·.1) := by
    intro m h
    simp only [Mb.release] at h
    split at h
    · exact h
    · next w ws hw => simp [hw] at h ⊢; grind
  cases o with
  | send a =>
    simp only [Mb.step, Mb.send, Mb.bump, Mb.push] at h
    split at h
    · exact Or.inl h
    · split at h
      · exact Or.inl h
      · simp at h ⊢; grind
  | trySend a =>
    simp only [Mb.step, Mb.trySend, Mb.bump, Mb.push] at h
    split at h
    · exact Or.inl h
    · split at h
      · exact Or.inl h
      · exact Or.inl h
  | poll x =>
    left
    simp only [Mb.step, Mb.poll, Mb.push] at h
    split at h
    · exact h
    · simp at h ⊢; grind
  | cancel x =>
    left
    simp only [Mb.step, Mb.cancel] at h
    split at h
    · simp at h ⊢; grind
    · split at h
      · have := hrel _ h; simp at this ⊢; grind
      · exact h
  | recv =>
    left
    simp only [Mb.step, Mb.recv] at h
    split at h
    · exact h
    · replace h := hrel _ h; exact h
  | close => simp [Mb.step, Mb.close] at h

theorem pend_step {s : St} {op : Op} {t : Nat} (h : t ∈ ((s.step op).mb.waiting ++ (s.step op).mb.granted).map (·.1)) :
    t ∈ (s.mb.waiting ++ s.mb.granted).map (·.1) ∨ (t = s.mb.next ∧ ∀ b, op ≠ .trySend b) := by
  rcases step_mb_same s op with h1 | ⟨o, h1, h2⟩
  · rw [h1] at h; exact Or.inl h
  · rw [h1] at h
    rcases pend_mb h with h3 | ⟨h3, a, rfl⟩
    · exact Or.inl h3
    · refine Or.inr ⟨h3, fun b hb => ?_⟩
      subst hb
      cases h2

end Verif.Lifecycle
