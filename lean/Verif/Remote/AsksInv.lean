import Verif.Remote.Asks
import Verif.Lifecycle.AskSide
import Verif.Lifecycle.GiveUp

/-! Invariants of remote asks over time, for `Verif.Remote.PropsAsks`. -/

namespace Verif.Remote.Asks

open Verif.Mailbox Verif.Lifecycle

@[simp] theorem set_self {β : Type} (f : Nat → β) (n : Nat) (b : β) : set f n b n = b := by simp [set]
theorem set_ne {β : Type} (f : Nat → β) {n k : Nat} (b : β) (h : k ≠ n) : set f n b k = f k := by simp [set, h]

theorem run_append (cap : Option Nat) (a b : List WOp) : run cap (a ++ b) = b.foldl W.step (run cap a) := by
  simp [run, List.foldl_append]

theorem run_snoc (cap : Option Nat) (ops : List WOp) (op : WOp) : run cap (ops ++ [op]) = (run cap ops).step op := by
  simp [run]

/-- Where an answer comes from: the task answered without a send, or it is the outcome of its local ask. -/
inductive Src (w : W) (n : Nat) (a : Answer) : Prop where
  | early (no : ∀ t, (n, t) ∉ w.tickets) (ha : a = .notRunning ∨ a = .unknown ∨ a = .deserializeMessage)
  | slot (t : Nat) (ser : Bool) (tk : (n, t) ∈ w.tickets) (h : answerOf ser (w.actor.slots t) = some a)

/-- The sends waiting for room. -/
def pend (s : St) : List Nat := (s.mb.waiting ++ s.mb.granted).map (·.1)

/-- What is true of the send made for a request. -/
structure Tk (r : Req) (s : St) (t : Nat) : Prop where
  sent : (t, Sig.msg (bodyOf r)) ∈ s.mb.sent
  timed : s.slots t = .failed .mailboxTimeout → r.mt = true ∧ r.imm = false
  given : s.slots t = .gaveUp → r.rt = true ∧ t ∈ K s.mb.pushed
  imm : r.imm = true → t ∉ pend s

structure Inv (w : W) : Prop where
  tk : ∀ n t, (n, t) ∈ w.tickets → Tk (w.req n) w.actor t
  nd : (w.tickets.map (·.1)).Nodup
  fresh : ∀ n, w.caller n = .fresh → w.job n = .none
  early : ∀ n, w.job n = .none ∨ w.job n = .onWay ∨ w.job n = .spawned → ∀ t, (n, t) ∉ w.tickets
  asking : ∀ n t, w.job n = .asking t → (n, t) ∈ w.tickets
  answered : ∀ n a, w.job n = .answered a → Src w n a
  told : ∀ n a, w.caller n = .told a → w.job n = .over ∧ ∃ dec a0, a = decode dec a0 ∧ Src w n a0

theorem pend_lt {s : St} (hg : Good s) {t : Nat} (h : t ∈ pend s) : t < s.mb.next := by
  apply mbK_lt hg.shape.mb
  simp [pend, mbK, K] at h ⊢
  grind

theorem answerOf_settled {ser : Bool} {v : Slot} {a : Answer} (h : answerOf ser v = some a) : v ≠ .none ∧ v ≠ .waiting := by
  constructor <;> (rintro rfl; simp [answerOf] at h)

/-- An ask that waits and is not waiting for room was accepted by the mailbox. -/
theorem waiting_pushed {s : St} (hg : Good s) {t : Nat} (hw : s.slots t = .waiting) (hp : t ∉ pend s) : t ∈ K s.mb.pushed := by
  have hl := hg.slots.w t hw
  have hr : t ∈ K (s.handled ++ s.lost ++ s.buffer ++ s.phase.rest) → t ∈ K s.mb.pushed := by
    intro h
    obtain ⟨b, hb⟩ := mem_K.mp h
    have h1 : (t, b) ∈ msgsOf s.mb.received := hg.acct.mem_iff.mpr (by simp at hb ⊢; grind)
    exact mem_K.mpr ⟨_, (received_sublist_pushed hg.shape).subset (mem_msgsOf.mp h1)⟩
  have hd : t ∈ s.phase.cur ++ s.delegated → t ∈ K s.mb.pushed := fun h => hr (by
    have := hg.slots.d2 t h
    simp [this])
  rcases hl with h | h | h | h | h
  · simp only [mbK, List.mem_append] at h
    rcases h with (h | h) | h
    · obtain ⟨a, ha⟩ := mem_K.mp h
      refine mem_K.mpr ⟨a, ?_⟩
      rw [hg.shape.mb.hist]
      simp [ha]
    · exact absurd (by simp [pend, K] at h ⊢; grind) hp
    · exact absurd (by simp [pend, K] at h ⊢; grind) hp
  · exact hr (by simp [h])
  · exact hr (by simp [h])
  · exact hd (by simp [h])
  · exact hd (by simp [h])

theorem pushed_step (s : St) (op : Op) : s.mb.pushed <+: (s.step op).mb.pushed := by
  have := exec_pushed s [op]
  simpa [St.exec] using this

theorem K_subset {α : Type} {a b : List (Nat × α)} (h : a <+: b) {t : Nat} (ht : t ∈ K a) : t ∈ K b := by
  obtain ⟨x, hx⟩ := mem_K.mp ht
  exact mem_K.mpr ⟨x, h.subset hx⟩

/-- Something happens to the actor. -/
theorem Tk.step {r : Req} {s : St} {t : Nat} (hg : Good s) (h : Tk r s t) {op : Op}
    (h1 : op = .cancel t → r.mt = true) (h2 : op = .giveUp t → r.rt = true ∧ t ∉ pend s) : Tk r (s.step op) t := by
  have hlt : t < s.mb.next := hg.shape.mb.sent_lt _ h.sent
  have hp : t ∉ pend s → t ∉ pend (s.step op) := by
    intro hn hm
    rcases pend_step hm with h3 | ⟨h3, _⟩
    · exact hn h3
    · omega
  refine ⟨(sent_prefix s op).subset h.sent, fun hs => ?_, fun hs => ?_, fun hi => hp (h.imm hi)⟩
  · rcases mine_step (v := .failed .mailboxTimeout) (Or.inr rfl) hs with h3 | ⟨h3, _⟩ | ⟨_, h3, h4⟩
    · exact h.timed h3
    · cases h3
    · refine ⟨h1 h3, ?_⟩
      cases hi : r.imm with
      | false => rfl
      | true => exact absurd h4 (h.imm hi)
  · rcases mine_step (v := .gaveUp) (Or.inl rfl) hs with h3 | ⟨_, h3⟩ | ⟨h3, _⟩
    · exact ⟨(h.given h3).1, K_subset (pushed_step s op) (h.given h3).2⟩
    · refine ⟨(h2 h3).1, K_subset (pushed_step s op) ?_⟩
      by_cases hw : s.slots t = .waiting
      · exact waiting_pushed hg hw (h2 h3).2
      · rw [h3] at hs
        simp only [St.step, hw, if_false] at hs
        exact (h.given hs).2
    · cases h3

theorem actor_snoc (w : W) (op : Op) : ({ w with hist := w.hist ++ [op] } : W).actor = w.actor.step op := after_snoc _ _ _

theorem slots_kept (w : W) (op : Op) {ser : Bool} {t : Nat} {a : Answer} (h : answerOf ser (w.actor.slots t) = some a) :
    answerOf ser ((w.actor.step op).slots t) = some a := by
  have h1 := answerOf_settled h
  have h2 := outcome_never_changes w.cap w.hist [op] t h1.1 h1.2
  rw [after_snoc] at h2
  rw [W.actor] at h ⊢
  rw [h2]; exact h

theorem allowed_cancel {w : W} {n t : Nat} (h : w.allowed (.cancel t) = true) (ht : (n, t) ∈ w.tickets) : (w.req n).mt = true := by
  have := List.all_eq_true.mp h (n, t) ht
  simpa using this

theorem allowed_giveUp {w : W} {n t : Nat} (h : w.allowed (.giveUp t) = true) (ht : (n, t) ∈ w.tickets) :
    (w.req n).rt = true ∧ t ∉ pend w.actor := by
  have := List.all_eq_true.mp h (n, t) ht
  simp at this
  simp [pend]
  grind

theorem Src.snoc {w : W} {n : Nat} {a : Answer} (op : Op) (h : Src w n a) : Src { w with hist := w.hist ++ [op] } n a := by
  cases h with
  | early no ha => exact .early no ha
  | slot t ser tk h => exact .slot t ser tk (by rw [actor_snoc]; exact slots_kept w op h)

theorem Inv.snoc {w : W} (h : Inv w) {op : Op} (ha : w.allowed op = true) : Inv { w with hist := w.hist ++ [op] } where
  tk n t ht := by
    rw [actor_snoc]
    refine (h.tk n t ht).step (good_after _ _) ?_ ?_
    · rintro rfl; exact allowed_cancel ha ht
    · rintro rfl; exact allowed_giveUp ha ht
  nd := h.nd
  fresh := h.fresh
  early := h.early
  asking := h.asking
  answered n a ha := (h.answered n a ha).snoc op
  told n a ht := by
    obtain ⟨h1, d, a0, h2, h3⟩ := h.told n a ht
    exact ⟨h1, d, a0, h2, h3.snoc op⟩

theorem allowed_serve (w : W) (b : Bool) (x : Body) : w.allowed (if b then .trySend x else .send x) = true := by
  cases b <;> rfl

theorem next_fresh {w : W} (h : Inv w) {n t : Nat} (ht : (n, t) ∈ w.tickets) : t ≠ w.actor.mb.next := by
  have := (good_after w.cap w.hist).shape.mb.sent_lt _ (h.tk n t ht).sent
  intro h1
  rw [h1] at this
  exact Nat.lt_irrefl _ this

/-- The send of the serving task. -/
theorem tk_new (r : Req) (s : St) (hg : Good s) :
    Tk r (s.step (if r.imm then .trySend (bodyOf r) else .send (bodyOf r))) s.mb.next := by
  have hnp : s.mb.next ∉ pend s := fun hm => Nat.lt_irrefl _ (pend_lt hg hm)
  have hnone : s.slots s.mb.next = .none := slots_fresh hg.shape hg.slots (Nat.le_refl _)
  refine ⟨?_, fun hs => ?_, fun hs => ?_, fun hi => ?_⟩
  · cases r.imm <;> simp [St.step, Mb.send, Mb.trySend, Mb.bump, Mb.push] <;> (repeat' split) <;> simp
  · rcases mine_step (v := .failed .mailboxTimeout) (Or.inr rfl) hs with h3 | ⟨h3, _⟩ | ⟨_, h3, _⟩
    · rw [hnone] at h3; cases h3
    · cases h3
    · cases hi : r.imm <;> simp [hi] at h3
  · rcases mine_step (v := .gaveUp) (Or.inl rfl) hs with h3 | ⟨_, h3⟩ | ⟨h3, _⟩
    · rw [hnone] at h3; cases h3
    · cases hi : r.imm <;> simp [hi] at h3
    · cases h3
  · simp only [hi, if_true]
    intro hm
    rcases pend_step hm with h3 | ⟨_, h3⟩
    · exact hnp h3
    · exact h3 _ rfl

theorem Src.congr {w w' : W} {n : Nat} {a : Answer} (h1 : w'.tickets = w.tickets) (h2 : w'.actor = w.actor) (h : Src w n a) :
    Src w' n a := by
  cases h with
  | early no ha => exact .early (by rw [h1]; exact no) ha
  | slot t ser tk h => exact .slot t ser (by rw [h1]; exact tk) (by rw [h2]; exact h)

theorem inv_fresh (cap : Option Nat) : Inv { cap := cap } := by
  constructor <;> simp

/-- Only jobs and callers change. -/
theorem Inv.move {w w' : W} (h : Inv w) (ht : w'.tickets = w.tickets) (ha : w'.actor = w.actor)
    (hr : ∀ n, w.job n ≠ .none → w'.req n = w.req n)
    (hf : ∀ n, w'.caller n = .fresh → w'.job n = .none)
    (he : ∀ n, w'.job n = .none ∨ w'.job n = .onWay ∨ w'.job n = .spawned →
      w.job n = .none ∨ w.job n = .onWay ∨ w.job n = .spawned)
    (hk : ∀ n t, w'.job n = .asking t → w.job n = .asking t)
    (hn : ∀ n a, w'.job n = .answered a → Src w n a)
    (htl : ∀ n a, w'.caller n = .told a → w'.job n = .over ∧ ∃ dec a0, a = decode dec a0 ∧ Src w n a0) : Inv w' where
  tk n t h1 := by
    rw [ht] at h1
    rw [ha, hr n (fun h2 => h.early n (Or.inl h2) t h1)]
    exact h.tk n t h1
  nd := by rw [ht]; exact h.nd
  fresh := hf
  early n h1 t := by rw [ht]; exact h.early n (he n h1) t
  asking n t h1 := by rw [ht]; exact h.asking n t (hk n t h1)
  answered n a h1 := (hn n a h1).congr ht ha
  told n a h1 := by
    obtain ⟨h2, d, a0, h3, h4⟩ := htl n a h1
    exact ⟨h2, d, a0, h3, h4.congr ht ha⟩

theorem inv_step {w : W} (h : Inv w) (op : WOp) : Inv (w.step op) := by
  have hF := h.fresh
  have hT := h.told
  have hA := h.answered
  cases op with
  | ask n r =>
    simp only [W.step]
    split
    · next hc =>
      have hj := hF n hc
      refine h.move rfl rfl ?_ ?_ ?_ ?_ ?_ ?_ <;> grind [set]
    · exact h
  | arrive n =>
    simp only [W.step]
    split
    · next hc => refine h.move rfl rfl ?_ ?_ ?_ ?_ ?_ ?_ <;> grind [set]
    · exact h
  | lose n =>
    simp only [W.step]
    split
    · next hc => refine h.move rfl rfl ?_ ?_ ?_ ?_ ?_ ?_ <;> grind [set]
    · next hc => refine h.move rfl rfl ?_ ?_ ?_ ?_ ?_ ?_ <;> grind [set]
    · exact h
  | serve n f =>
    simp only [W.step]
    split
    · next hc =>
      have hno := h.early n (by simp [hc])
      cases f with
      | found =>
        have h1 : Inv { w with hist := w.hist ++ [.cloneRef] } := h.snoc rfl
        have hnx : ({ w with hist := w.hist ++ [.cloneRef] } : W).actor.mb.next = w.actor.mb.next := by
          rw [actor_snoc]; simp only [St.step]; split <;> rfl
        have h2 := h1.snoc (op := if (w.req n).imm then .trySend (bodyOf (w.req n)) else .send (bodyOf (w.req n)))
          (allowed_serve _ _ _)
        have hnew := tk_new (w.req n) _ (good_after w.cap (w.hist ++ [.cloneRef]))
        have hh : ({ w with hist := w.hist ++ [.cloneRef] ++
            [if (w.req n).imm then .trySend (bodyOf (w.req n)) else .send (bodyOf (w.req n))] } : W).actor =
            (after w.cap (w.hist ++ [.cloneRef])).step
              (if (w.req n).imm then .trySend (bodyOf (w.req n)) else .send (bodyOf (w.req n))) := after_snoc _ _ _
        simp only [List.append_assoc, List.cons_append, List.nil_append] at h2 hh
        have hnx' : (after w.cap (w.hist ++ [.cloneRef])).mb.next = w.actor.mb.next := hnx
        rw [hnx', ← hh] at hnew
        refine ⟨?_, ?_, ?_, ?_, ?_, ?_, ?_⟩
        · intro k t hk
          simp only [List.mem_append, List.mem_singleton, Prod.mk.injEq] at hk
          rcases hk with hk | ⟨rfl, rfl⟩
          · exact h2.tk k t hk
          · exact hnew
        · simp only [List.map_append, List.map_cons, List.map_nil]
          rw [List.nodup_append]
          refine ⟨h.nd, by simp, ?_⟩
          intro a ha b hb
          simp at hb ha
          subst hb
          rintro rfl
          obtain ⟨t, ht⟩ := ha
          exact hno t ht
        · intro k hk; have := hF k hk; grind [set]
        · intro k hk t ht
          by_cases hkn : k = n
          · subst hkn; simp at hk
          · simp only [set_ne _ _ hkn] at hk
            simp [hkn] at ht
            exact h.early k hk t ht
        · intro k t hk
          by_cases hkn : k = n
          · subst hkn; simp at hk; simp [hk]
          · simp only [set_ne _ _ hkn] at hk
            simp [h.asking k t hk]
        · intro k a hk
          by_cases hkn : k = n
          · subst hkn; simp at hk
          · simp only [set_ne _ _ hkn] at hk
            cases h2.answered k a hk with
            | early no ha =>
              refine .early (fun t ht => ?_) ha
              simp [hkn] at ht
              exact no t ht
            | slot t ser tk hs => exact .slot t ser (by simp only [List.mem_append]; exact Or.inl tk) hs
        · intro k a hk
          by_cases hkn : k = n
          · subst hkn
            have := (hT k a hk).1
            rw [hc] at this; cases this
          · obtain ⟨h3, d, a0, h4, h5⟩ := h2.told k a hk
            refine ⟨by simp only [set_ne _ _ hkn]; exact h3, d, a0, h4, ?_⟩
            cases h5 with
            | early no ha =>
              refine .early (fun t ht => ?_) ha
              simp [hkn] at ht
              exact no t ht
            | slot t ser tk hs => exact .slot t ser (by simp only [List.mem_append]; exact Or.inl tk) hs
      | notRegistered =>
        have hs : Src w n .notRunning := .early hno (by simp)
        refine h.move rfl rfl ?_ ?_ ?_ ?_ ?_ ?_ <;> grind [set]
      | unknown =>
        have hs : Src w n .unknown := .early hno (by simp)
        refine h.move rfl rfl ?_ ?_ ?_ ?_ ?_ ?_ <;> grind [set]
      | undecodable =>
        have hs : Src w n .deserializeMessage := .early hno (by simp)
        refine h.move rfl rfl ?_ ?_ ?_ ?_ ?_ ?_ <;> grind [set]
    · exact h
  | look n ser =>
    simp only [W.step]
    split
    · next t hc =>
      split
      · next a hs =>
        have h1 : Inv { w with hist := w.hist ++ [.dropRef] } := h.snoc rfl
        have hsrc : Src { w with hist := w.hist ++ [.dropRef] } n a := (Src.slot t ser (h.asking n t hc) hs).snoc _
        have hF' := h1.fresh
        have hT' := h1.told
        have hA' := h1.answered
        refine h1.move rfl rfl ?_ ?_ ?_ ?_ ?_ ?_ <;> grind [set]
      · exact h
    · exact h
  | respond n dec =>
    simp only [W.step]
    split
    · next a hc =>
      have hs := hA n a hc
      split
      · refine h.move rfl rfl ?_ ?_ ?_ ?_ ?_ ?_
        · grind [set]
        · grind [set]
        · grind [set]
        · grind [set]
        · grind [set]
        · intro k b hk
          by_cases hkn : k = n
          · subst hkn; simp only [set_self, Caller.told.injEq] at hk ⊢; exact ⟨trivial, dec, a, hk.symm, hs⟩
          · simp only [set_ne _ _ hkn] at hk ⊢; exact hT k b hk
      · refine h.move rfl rfl ?_ ?_ ?_ ?_ ?_ ?_ <;> grind [set]
    · exact h
  | netFail n =>
    simp only [W.step]
    split
    · refine h.move rfl rfl ?_ ?_ ?_ ?_ ?_ ?_ <;> grind [set]
    · exact h
  | drop n =>
    simp only [W.step]
    split
    · refine h.move rfl rfl ?_ ?_ ?_ ?_ ?_ ?_ <;> grind [set]
    · exact h
  | actor op =>
    simp only [W.step]
    split
    · next ha => exact h.snoc ha
    · exact h

theorem inv_foldl {w : W} (h : Inv w) (ops : List WOp) : Inv (ops.foldl W.step w) := by
  induction ops generalizing w with
  | nil => exact h
  | cons op ops ih => exact ih (inv_step h op)

theorem inv_run (cap : Option Nat) (ops : List WOp) : Inv (run cap ops) := inv_foldl (inv_fresh cap) ops

end Verif.Remote.Asks
