import Verif.Lifecycle.PropsStop

/-! The messages from outside are handled in exactly the order of acceptance, without gaps, unless messages
of the start-up buffer were lost. -/

set_option linter.unusedSimpArgs false

namespace Verif.Lifecycle

open Verif.Mailbox

/-- The messages from outside (not sent by the actor to itself). -/
def outside (l : List Msg) : List Msg := l.filter (fun m => !m.2.within)

@[simp] theorem outside_append (a b : List Msg) : outside (a ++ b) = outside a ++ outside b := by
  simp [outside]

theorem length_filter_split {β : Type} (p : β → Bool) (l : List β) :
    (l.filter p).length + (l.filter (fun x => !p x)).length = l.length := by
  induction l with
  | nil => rfl
  | cons x l ih => cases h : p x <;> simp [h] <;> omega

theorem outside_startupOrder (k : Nat) (R : List (Nat × Sig)) :
    outside (startupOrder k R) = outside (msgsOf R) := by
  have h : outside ((msgsOf (R.take k)).filter (·.2.within)) = [] := by
    simp [outside, List.filter_filter]
  have h2 : ∀ l : List Msg, outside (l.filter (fun m => !m.2.within)) = outside l := by
    intro l
    simp [outside, List.filter_filter]
  have h3 : msgsOf R = msgsOf (R.take k) ++ msgsOf (R.drop k) := by
    rw [← msgsOf_append, List.take_append_drop]
  rw [h3]
  simp [startupOrder, h, h2]

theorem tr_handled_out {s s' : St} (ht : Tr s s') (h : s'.phase.inLoop = false) : s'.handled = s.handled := by
  have hd : ∀ (u : St) (rest : List Msg) (ts : Bool), (u.drain rest ts).phase.inLoop = false →
      (u.drain rest ts).handled = u.handled := by
    intro u rest ts
    cases rest with
    | cons m ms => simp [St.drain]
    | nil => cases ts <;> simp [St.drain]
  cases ht with
  | recvNone => rw [hd _ _ _ h]; simp
  | recvStartup => rw [hd _ _ _ h]; simp
  | recvStop => rw [hd _ _ _ h]; simp
  | handlerReply => rw [hd _ _ _ h]; simp
  | handlerOk => rw [hd _ _ _ h]; simp
  | recvMsg => simp at h
  | startOk => unfold St.startOk; simp only; split <;> simp
  | _ => simp [St.step, St.crash, St.abortSeen, St.stopFailed, St.startFail] at h ⊢

/-- In the message loop nothing is missing. -/
theorem outside_in_loop (cap : Option Nat) (ops : List Op) (hl : (after cap ops).phase.inLoop = true)
    (hd : ¬ DrainFail (after cap ops)) :
    outside (msgsOf (after cap ops).mb.received) = outside (after cap ops).handled ++
      outside (after cap ops).phase.rest ++ outside (after cap ops).buffer := by
  have hg := good_after cap ops
  have hlo := loss_after cap ops
  have hbr : BrkNormal (after cap ops).log → False := brkNormal_out cap ops hl
  generalize after cap ops = s at *
  have hsb := hlo.sb (Or.inl hl)
  have hlost : s.lost = [] := by
    by_cases h : s.lost = []
    · exact h
    · exfalso
      rcases hlo.lost h with h | h | ⟨r, _, h⟩ | ⟨h, _⟩
      · exact hd h
      · exact hbr h
      · exact hsb r h
      · simp [h] at hl
  cases hc : s.cut with
  | none =>
    obtain ⟨h1, h2⟩ := hg.ord.none hc
    have hf : s.finished = false := by rw [hg.shape.cut, hc]; rfl
    have hr : s.phase.rest = [] := by
      by_cases h : s.phase.rest = []
      · exact h
      · have := hg.shape.rest h; simp [hf] at this
    have e1 : outside ((msgsOf s.mb.received).filter (·.2.within)) = [] := by
      simp [outside, List.filter_filter]
    rw [hr, h1, h2 hl, e1]
    simp [outside, List.filter_filter]
  | some k =>
    obtain ⟨_, h2, _⟩ := hg.ord.some k hc
    have hbuf : s.buffer = [] := by
      by_cases h : s.buffer = []
      · exact h
      · have := (hg.shape.buf h).1
        rw [hg.shape.cut, hc] at this
        simp at this
    have hacct := hg.acct
    unfold Acct at hacct
    rw [hlost, hbuf] at hacct
    simp only [List.append_nil] at hacct
    have hlen : (startupOrder k s.mb.received).length = (msgsOf s.mb.received).length := by
      have h3 : msgsOf s.mb.received = msgsOf (s.mb.received.take k) ++ msgsOf (s.mb.received.drop k) := by
        rw [← msgsOf_append, List.take_append_drop]
      rw [h3]
      simp only [startupOrder, List.length_append]
      have := length_filter_split (fun m : Msg => m.2.within) (msgsOf (s.mb.received.take k))
      omega
    have heq := h2.eq_of_length (by rw [hlen]; exact hacct.length_eq.symm)
    rw [hbuf, ← outside_startupOrder k, ← heq]
    simp [outside]

/-- **C01** The messages from outside are handled in exactly the order in which the mailbox accepted them and
without gaps: what has been handled is a prefix of what was accepted; unless the handler of a message
of the start-up buffer failed, after which the rest of that buffer is lost. -/
theorem outside_handled_prefix (cap : Option Nat) (ops : List Op) (hd : ¬ DrainFail (after cap ops)) :
    outside (after cap ops).handled <+: outside (msgsOf (after cap ops).mb.pushed) := by
  have key : outside (after cap ops).handled <+: outside (msgsOf (after cap ops).mb.received) := by
    revert hd
    refine after_induct cap (P := fun _ s => ¬ DrainFail s → outside s.handled <+: outside (msgsOf s.mb.received))
      ?_ ?_ ops
    · intro _
      have : (after cap []).handled = [] := rfl
      rw [this]
      exact List.nil_prefix
    · intro ops op ih hd
      have hsnoc : (after cap ops).step op = after cap (ops ++ [op]) := (after_snoc cap ops op).symm
      cases hl : ((after cap ops).step op).phase.inLoop with
      | true =>
        rw [hsnoc] at hl hd ⊢
        rw [outside_in_loop cap _ hl hd, List.append_assoc]
        exact List.prefix_append _ _
      | false =>
        have ht := step_tr (after cap ops) op
        have hh := tr_handled_out ht hl
        have hr := tr_received ht
        rw [hh]
        have hd' : ¬ DrainFail (after cap ops) := fun h => hd (h.tr (good_after cap ops).ord ht)
        refine (ih hd').trans ?_
        obtain ⟨x, hx⟩ := hr
        rw [← hx]
        simp
  refine key.trans ?_
  obtain ⟨x, hx⟩ := received_sublist_pushed (good_after cap ops).shape
  rw [← hx]
  simp

example : outside (after none stopDemo).handled = [(0, tell 10), (2, tell 11)] ∧
    outside (msgsOf (after none stopDemo).mb.pushed) = [(0, tell 10), (2, tell 11), (4, tell 12)] := by decide

end Verif.Lifecycle
