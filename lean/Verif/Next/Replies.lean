import Verif.Next.Inv

/-! Invariants of `Verif.Next`: order, and what becomes of reply senders. -/

set_option linter.unusedSimpArgs false
set_option linter.unusedVariables false

namespace Verif.Next

/-- Was the message sent by someone other than the actor itself? `src/mailbox.rs` L447. -/
def Item.outside (it : Item) : Bool := it.body == .msg false

/-- Was the message sent by the actor itself? `src/mailbox.rs` L447. -/
def Item.inside (it : Item) : Bool := it.body == .msg true

/-- The message whose handler runs. `src/actor/kind.rs` L116. -/
def Phase.cur : Phase → Option Item
  | .handling it _ _ => some it
  | _ => none

/-- The part of the invariant that does not look at the phase. -/
structure Core (s : St) (cur : Option Item) (rest : List Item) : Prop where
  fin : s.finished = true → s.buffer = []
  restFin : rest ≠ [] → s.finished = true
  bufOut : ∀ it ∈ s.buffer, it.body = .msg false
  restOut : ∀ it ∈ rest, it.body = .msg false
  ord : (s.started.filter Item.outside ++ rest ++ s.buffer).Sublist (s.returned.filter Item.outside)
  ordIn : (s.started.filter Item.inside).Sublist (s.returned.filter Item.inside)
  goneR : ∀ it ∈ s.gone, it.id ∈ s.asks → s.slot it.id ≠ none
  startedR : ∀ it ∈ s.started, s.slot it.id ≠ none ∨ cur = some it ∨ it.id ∈ s.delegated
  takenR : ∀ it, cur = some it → s.taken = true → s.slot it.id ≠ none ∨ it.id ∈ s.delegated
  msgs : ∀ it ∈ s.queue ++ s.held, it.id ∈ s.asks → it.body.isMsg = true
  asksLt : ∀ x ∈ s.asks, x < s.fresh
  itemsLt : ∀ it ∈ s.queue ++ s.held ++ s.buffer ++ rest ++ s.started ++ s.gone, it.id < s.fresh

/-- The part of the invariant that says what is left in a phase. -/
def Shape (s : St) : Prop :=
  match s.phase with
  | .starting => s.buffer = []
  | .stopping _ => s.buffer = []
  | .stopped _ => s.buffer = [] ∧ s.queue = [] ∧ s.closed = true
  | .crashed => s.buffer = [] ∧ s.queue = [] ∧ s.held = [] ∧ s.closed = true
  | _ => True

/-- The invariant. -/
structure Ok (s : St) : Prop where
  core : Core s s.phase.cur s.phase.rest
  shape : Shape s

variable {s : St} {cur : Option Item} {rest l : List Item}

/-- The fields `Core` looks at. -/
theorem Core.same {s' : St} (h : Core s cur rest) (h1 : s'.finished = s.finished := by rfl)
    (h2 : s'.buffer = s.buffer := by rfl) (h3 : s'.started = s.started := by rfl)
    (h4 : s'.returned = s.returned := by rfl) (h5 : s'.gone = s.gone := by rfl) (h6 : s'.asks = s.asks := by rfl)
    (h7 : s'.slot = s.slot := by rfl) (h8 : s'.queue = s.queue := by rfl) (h9 : s'.held = s.held := by rfl)
    (h10 : s'.fresh = s.fresh := by rfl) (h11 : s'.taken = s.taken := by rfl)
    (h12 : s'.delegated = s.delegated := by rfl) : Core s' cur rest := by
  constructor
  · rw [h1, h2]; exact h.fin
  · rw [h1]; exact h.restFin
  · rw [h2]; exact h.bufOut
  · exact h.restOut
  · rw [h2, h3, h4]; exact h.ord
  · rw [h3, h4]; exact h.ordIn
  · rw [h5, h6, h7]; exact h.goneR
  · rw [h3, h7, h12]; exact h.startedR
  · rw [h7, h11, h12]; exact h.takenR
  · rw [h6, h8, h9]; exact h.msgs
  · rw [h6, h10]; exact h.asksLt
  · rw [h2, h3, h5, h8, h9, h10]; exact h.itemsLt

theorem resolve_slot (s : St) (x y : Nat) (o : Out) (h : s.slot y ≠ none) : (s.resolve x o).slot y ≠ none := by
  simp only [St.resolve]; split <;> simp_all

theorem drop_slot (s : St) (l : List Item) (y : Nat) (h : s.slot y ≠ none) : (s.drop l).slot y ≠ none := by
  simp only [St.drop]; split <;> simp_all

theorem resolve_slot_self (s : St) (x : Nat) (o : Out) : (s.resolve x o).slot x ≠ none := by
  simp only [St.resolve]; split <;> simp_all

theorem drop_slot_mem (s : St) (l : List Item) {it : Item} (h : it ∈ l) : (s.drop l).slot it.id ≠ none := by
  simp only [St.drop]
  have : it.id ∈ l.map (·.id) := List.mem_map_of_mem h
  split <;> simp_all

theorem Core.settle {it : Item} (h : Core s cur rest) (hc : cur = some it ∨ cur = none) (o : Out) :
    Core (s.settle it o) none rest := by
  unfold St.settle
  split
  · rename_i ht
    refine ⟨h.fin, h.restFin, h.bufOut, h.restOut, h.ord, h.ordIn, h.goneR, fun a ha => ?_, by simp, h.msgs, h.asksLt, h.itemsLt⟩
    rcases h.startedR a ha with h1 | h1 | h1
    · exact Or.inl h1
    · exact (h.takenR a h1 ht).imp id Or.inr
    · exact Or.inr (Or.inr h1)
  · refine ⟨h.fin, h.restFin, h.bufOut, h.restOut, h.ord, h.ordIn, fun a ha hb => resolve_slot _ _ _ _ (h.goneR a ha hb),
      fun a ha => ?_, by simp, h.msgs, h.asksLt, h.itemsLt⟩
    rcases h.startedR a ha with h1 | h1 | h1
    · exact Or.inl (resolve_slot _ _ _ _ h1)
    · left
      rcases hc with hc | hc <;> rw [hc] at h1 <;> simp at h1
      subst h1; exact resolve_slot_self _ _ _
    · exact Or.inr (Or.inr h1)

theorem Core.drop (h : Core s cur rest) (l : List Item) (hl : ∀ it ∈ l, it.id < s.fresh) : Core (s.drop l) cur rest := by
  refine ⟨h.fin, h.restFin, h.bufOut, h.restOut, h.ord, h.ordIn, fun a ha hb => ?_, fun a ha => ?_,
    fun a ha hb => (h.takenR a ha hb).imp (drop_slot _ _ _) id, h.msgs, h.asksLt, ?_⟩
  · simp only [drop_gone, List.mem_append] at ha
    rcases ha with ha | ha
    · exact drop_slot _ _ _ (h.goneR a ha hb)
    · exact drop_slot_mem _ _ ha
  · rcases h.startedR a ha with h1 | h1
    · exact Or.inl (drop_slot _ _ _ h1)
    · exact Or.inr h1
  · intro a ha
    simp only [drop_queue, drop_held, drop_buffer, drop_started, drop_gone, ← List.append_assoc] at ha
    rcases List.mem_append.mp ha with ha | ha
    · exact h.itemsLt a ha
    · exact hl a ha

/-- Some of the signals are forgotten. -/
theorem Core.less {s' : St} {rest' : List Item} (h : Core s cur rest) (h1 : s'.finished = s.finished)
    (h2 : s'.buffer.Sublist s.buffer) (h2' : rest'.Sublist rest) (h3 : s'.started = s.started)
    (h4 : s'.returned = s.returned) (h5 : s'.gone = s.gone) (h6 : s'.asks = s.asks)
    (h7 : s'.slot = s.slot) (h8 : ∀ it ∈ s'.queue ++ s'.held, it ∈ s.queue ++ s.held)
    (h10 : s'.fresh = s.fresh) (h11 : s'.taken = s.taken := by rfl) (h12 : s'.delegated = s.delegated := by rfl) :
    Core s' cur rest' := by
  constructor
  · rw [h1]; intro e; have := h.fin e; rw [this] at h2; exact List.sublist_nil.mp h2
  · rw [h1]; intro e; refine h.restFin fun e' => e ?_; rw [e'] at h2'; exact List.sublist_nil.mp h2'
  · exact fun it hi => h.bufOut it (h2.subset hi)
  · exact fun it hi => h.restOut it (h2'.subset hi)
  · rw [h3, h4]; exact (((List.Sublist.refl _).append h2').append h2).trans h.ord
  · rw [h3, h4]; exact h.ordIn
  · rw [h5, h6, h7]; exact h.goneR
  · rw [h3, h7, h12]; exact h.startedR
  · rw [h7, h11, h12]; exact h.takenR
  · rw [h6]; exact fun it hi => h.msgs it (h8 it hi)
  · rw [h6, h10]; exact h.asksLt
  · intro it hi
    rw [h10]
    rw [h3, h5] at hi
    simp only [List.mem_append] at hi
    refine h.itemsLt it ?_
    have h8' := h8 it
    simp only [List.mem_append] at h8' ⊢
    rcases hi with ((((hi | hi) | hi) | hi) | hi) | hi
    · rcases h8' (Or.inl hi) with e | e <;> simp [e]
    · rcases h8' (Or.inr hi) with e | e <;> simp [e]
    · have := h2.subset hi; simp [this]
    · have := h2'.subset hi; simp [this]
    · simp [hi]
    · simp [hi]

theorem Core.itemsSub (h : Core s cur rest) (l : List Item)
    (hl : ∀ it ∈ l, it ∈ s.queue ++ s.held ++ s.buffer ++ rest ++ s.started ++ s.gone) :
    ∀ it ∈ l, it.id < s.fresh := fun it hi => h.itemsLt it (hl it hi)

theorem stop_ok (h : Core s none []) (r : Reason) : Ok (s.stop r) := by
  have h1 := h.drop s.buffer (h.itemsSub _ (by intro it hi; simp [hi]))
  refine ⟨?_, rfl⟩
  exact h1.less rfl (List.nil_sublist _) (List.nil_sublist _) rfl rfl rfl rfl rfl (fun _ h => h) rfl

theorem go_ok (h : Core s none l) (fin : Bool) : Ok (s.go l fin) := by
  cases l with
  | nil =>
    cases fin with
    | false => exact ⟨h.same, trivial⟩
    | true => exact stop_ok h _
  | cons it rest =>
    refine ⟨?_, trivial⟩
    have hf : s.finished = true := h.restFin (by simp)
    have hout : it.body = .msg false := h.restOut it (by simp)
    constructor
    · exact h.fin
    · exact fun _ => hf
    · exact h.bufOut
    · exact fun a ha => h.restOut a (List.mem_cons_of_mem _ ha)
    · have := h.ord
      simpa [St.go, Phase.rest, List.filter_append, Item.outside, hout] using this
    · have := h.ordIn
      simpa [St.go, List.filter_append, Item.inside, hout] using this
    · exact h.goneR
    · intro a ha
      simp only [St.go, tell_started, List.mem_append, List.mem_singleton] at ha
      rcases ha with ha | ha
      · rcases h.startedR a ha with h1 | h1 | h1
        · exact Or.inl h1
        · simp at h1
        · exact Or.inr (Or.inr h1)
      · right; left; simp [St.go, Phase.cur, ha]
    · intro a _ ht; simp [St.go] at ht
    · exact h.msgs
    · exact h.asksLt
    · intro a ha
      refine h.itemsLt a ?_
      simp only [St.go, tell_queue, tell_held, tell_buffer, tell_started, tell_gone, rest_handling, List.mem_append,
        List.mem_cons, List.not_mem_nil, or_false] at ha ⊢
      rcases ha with ((((e | e) | e) | e) | e | e) | e <;> simp [e]

theorem drain_ok (h : Core s none []) (fin : Bool) : Ok (s.drain fin) := by
  refine go_ok (s := { s with finished := true, buffer := [] }) ?_ fin
  constructor
  · exact fun _ => rfl
  · exact fun _ => rfl
  · intro it hi; simp at hi
  · exact h.bufOut
  · have := h.ord; simpa using this
  · exact h.ordIn
  · exact h.goneR
  · exact h.startedR
  · exact h.takenR
  · exact h.msgs
  · exact h.asksLt
  · intro a ha
    refine h.itemsLt a ?_
    simp only [List.mem_append, List.not_mem_nil, or_false, false_or] at ha ⊢
    rcases ha with (((e | e) | e) | e) | e <;> simp [e]

theorem enter_ok (h : Core s none []) (hb : s.buffer = []) (full : Bool) : Ok (s.enter full) := by
  unfold St.enter
  split
  · exact ⟨⟨fun _ => hb, fun e => absurd rfl e, h.bufOut, h.restOut, h.ord, h.ordIn, h.goneR, h.startedR, by simp [Phase.cur],
      h.msgs, h.asksLt, h.itemsLt⟩, trivial⟩
  · split
    · exact drain_ok h _
    · exact ⟨h.same, trivial⟩

theorem fall_ok (h : Ok s) (ev : Ev) : Ok (s.fall ev) := by
  have key : ∀ (t : St), Core t none [] → Ok { (((t.drop t.queue).drop t.held).drop t.buffer).tell [ev] with
      queue := [], held := [], buffer := [], closed := true, phase := .crashed } := by
    intro t ht
    have h1 := ht.drop t.queue (ht.itemsSub _ (by intro it hi; simp [hi]))
    have h2 := h1.drop t.held (h1.itemsSub _ (by intro it hi; simp [hi]))
    have h3 := h2.drop t.buffer (h2.itemsSub _ (by intro it hi; simp [hi]))
    exact ⟨h3.less rfl (List.nil_sublist _) (List.nil_sublist _) rfl rfl rfl rfl rfl (by simp) rfl, rfl, rfl, rfl, rfl⟩
  have hc := h.core
  unfold St.fall
  cases e : s.phase with
  | handling it rest fin =>
    rw [e] at hc
    have h1 := hc.settle (it := it) (Or.inl rfl) .dropped
    have h2 := h1.drop rest (h1.itemsSub _ (by intro a ha; simp [ha]))
    refine key _ ?_
    exact h2.less rfl (List.Sublist.refl _) (List.nil_sublist _) rfl rfl rfl rfl rfl (fun _ h => h) rfl
  | _ => rw [e] at hc; exact key s hc

theorem crash_ok (h : Ok s) : Ok s.crash := fall_ok h _

theorem dispatch_ok {it : Item} (h : Core s none []) (hp : s.phase = .next) (hi : it.id < s.fresh)
    (hm : it.id ∈ s.asks → it.body.isMsg = true) : Ok (s.dispatch it) := by
  have hg : it.body.isMsg = false → Core { s with gone := s.gone ++ [it] } none [] := by
    intro hb
    refine ⟨h.fin, h.restFin, h.bufOut, h.restOut, h.ord, h.ordIn, ?_, h.startedR, h.takenR, h.msgs, h.asksLt, ?_⟩
    · intro a ha hb'
      simp only [List.mem_append, List.mem_singleton] at ha
      rcases ha with ha | rfl
      · exact h.goneR a ha hb'
      · rw [hm hb'] at hb; simp at hb
    · intro a ha
      simp only [← List.append_assoc] at ha
      rcases List.mem_append.mp ha with ha | ha
      · exact h.itemsLt a ha
      · rw [List.mem_singleton.mp ha]; exact hi
  unfold St.dispatch
  split
  · rename_i hb
    have := hg (by rw [hb]; rfl)
    split
    · refine crash_ok ⟨?_, ?_⟩
      · simp only [hp]; exact this.same
      · simp only [Shape, hp]
    · exact drain_ok (this.same) _
  · rename_i within hb
    simp only []
    split
    · rename_i hw
      simp only [Bool.and_eq_true, Bool.not_eq_true'] at hw
      obtain ⟨rfl, hf⟩ := hw
      refine ⟨?_, trivial⟩
      constructor
      · intro e; rw [show _ = s.finished from rfl, hf] at e; simp at e
      · intro e; simp at e
      · intro a ha
        simp only [List.mem_append, List.mem_singleton] at ha
        rcases ha with ha | rfl
        · exact h.bufOut a ha
        · exact hb
      · intro a ha; simp at ha
      · have := h.ord
        simp only [List.append_nil, tell_started, tell_returned, List.filter_append, rest_next] at this ⊢
        rw [← List.append_assoc]
        refine this.append ?_
        simp [Item.outside, hb]
      · have := h.ordIn
        simpa [Item.inside, hb, List.filter_append] using this
      · exact h.goneR
      · exact h.startedR
      · intro a ha; simp [Phase.cur] at ha
      · exact h.msgs
      · exact h.asksLt
      · intro a ha
        have := h.itemsLt a
        simp only [tell_queue, tell_held, tell_started, tell_gone, tell_buffer, rest_next, List.mem_append,
          List.mem_singleton, List.not_mem_nil, or_false] at ha this
        rcases ha with (((e | e) | e | e) | e) | e
        · exact this (by simp [e])
        · exact this (by simp [e])
        · exact this (by simp [e])
        · subst e; exact hi
        · exact this (by simp [e])
        · exact this (by simp [e])
    · rename_i hw
      have hbuf : within = false → s.buffer = [] := by
        intro e
        apply h.fin
        subst e; simpa using hw
      refine ⟨?_, trivial⟩
      constructor
      · exact h.fin
      · intro e; simp at e
      · exact h.bufOut
      · intro a ha; simp at ha
      · have := h.ord
        cases within with
        | true => simpa [Item.outside, hb, List.filter_append] using this
        | false =>
          have e := hbuf rfl
          simp only [List.append_nil, e, tell_started, tell_returned, tell_buffer, List.filter_append, rest_handling] at this ⊢
          refine this.append ?_
          simp [Item.outside, hb]
      · have := h.ordIn
        cases within with
        | false => simpa [Item.inside, hb, List.filter_append] using this
        | true =>
          simp only [tell_started, tell_returned, List.filter_append]
          refine this.append ?_
          simp [Item.inside, hb]
      · exact h.goneR
      · intro a ha
        simp only [tell_started, List.mem_append, List.mem_singleton] at ha
        rcases ha with ha | rfl
        · rcases h.startedR a ha with h1 | h1 | h1
          · exact Or.inl h1
          · simp at h1
          · exact Or.inr (Or.inr h1)
        · right; left; rfl
      · intro a _ ht; simp at ht
      · exact h.msgs
      · exact h.asksLt
      · intro a ha
        have := h.itemsLt a
        simp only [tell_queue, tell_held, tell_started, tell_gone, tell_buffer, rest_handling, List.mem_append,
          List.mem_singleton, List.not_mem_nil, or_false] at ha this
        rcases ha with (((e | e) | e) | e | e) | e
        · exact this (by simp [e])
        · exact this (by simp [e])
        · exact this (by simp [e])
        · exact this (by simp [e])
        · subst e; exact hi
        · exact this (by simp [e])
  · rename_i hb
    exact ⟨(hg (by rw [hb]; rfl)).same, trivial⟩
  · rename_i hb
    exact drain_ok (hg (by rw [hb]; rfl)) _

theorem push_core (h : Core s cur rest) (b : Body) (ask : Bool) : Core (s.push b ask) cur rest := by
  unfold St.push
  split
  · exact h
  · refine ⟨h.fin, h.restFin, h.bufOut, h.restOut, h.ord, h.ordIn, ?_, h.startedR, h.takenR, ?_, ?_, ?_⟩
    · intro a ha hb
      refine h.goneR a ha ?_
      have := h.itemsLt a (by simp only [List.mem_append]; exact Or.inr ha)
      simp only [] at hb; split at hb
      · simp only [List.mem_append, List.mem_singleton] at hb
        rcases hb with hb | hb
        · exact hb
        · omega
      · exact hb
    · intro a ha hb
      simp only [List.mem_append, List.mem_singleton] at ha
      have old : a ∈ s.queue ++ s.held → a.body.isMsg = true := by
        intro e
        have hlt := h.itemsLt a (by simp only [List.mem_append] at e ⊢; rcases e with e | e <;> simp [e])
        refine h.msgs a e ?_
        simp only [] at hb; split at hb
        · simp only [List.mem_append, List.mem_singleton] at hb
          rcases hb with hb | hb
          · exact hb
          · omega
        · exact hb
      rcases ha with (ha | ha) | ha
      · exact old (by simp [ha])
      · subst ha
        simp only [] at hb
        split at hb
        · rename_i e; simp only [Bool.and_eq_true] at e; exact e.1
        · have := h.asksLt _ hb; omega
      · exact old (by simp [ha])
    · intro x hx
      simp only [] at hx ⊢
      split at hx
      · simp only [List.mem_append, List.mem_singleton] at hx
        rcases hx with hx | hx
        · have := h.asksLt x hx; omega
        · omega
      · have := h.asksLt x hx; omega
    · intro a ha
      have := h.itemsLt a
      simp only [List.mem_append, List.mem_singleton] at ha this ⊢
      rcases ha with (((((e | e) | e) | e) | e) | e) | e
      case inl.inl.inl.inl.inl.inr => subst e; simp
      all_goals (have := this (by simp [e]); omega)

theorem make_core (h : Core s cur rest) (b : Body) (ask : Bool) : Core (s.make b ask) cur rest := by
  unfold St.make
  split
  · refine ⟨h.fin, h.restFin, h.bufOut, h.restOut, h.ord, h.ordIn, ?_, h.startedR, h.takenR, ?_, ?_, ?_⟩
    · intro a ha hb
      refine h.goneR a ha ?_
      have := h.itemsLt a (by simp only [List.mem_append]; exact Or.inr ha)
      simp only [] at hb; split at hb
      · simp only [List.mem_append, List.mem_singleton] at hb
        rcases hb with hb | hb
        · exact hb
        · omega
      · exact hb
    · intro a ha hb
      simp only [List.mem_append, List.mem_singleton] at ha
      have old : a ∈ s.queue ++ s.held → a.body.isMsg = true := by
        intro e
        have hlt := h.itemsLt a (by simp only [List.mem_append] at e ⊢; rcases e with e | e <;> simp [e])
        refine h.msgs a e ?_
        simp only [] at hb; split at hb
        · simp only [List.mem_append, List.mem_singleton] at hb
          rcases hb with hb | hb
          · exact hb
          · omega
        · exact hb
      rcases ha with ha | ha | ha
      · exact old (by simp [ha])
      · exact old (by simp [ha])
      · subst ha
        simp only [] at hb
        split at hb
        · rename_i e; simp only [Bool.and_eq_true] at e; exact e.1
        · have := h.asksLt _ hb; omega
    · intro x hx
      simp only [] at hx ⊢
      split at hx
      · simp only [List.mem_append, List.mem_singleton] at hx
        rcases hx with hx | hx
        · have := h.asksLt x hx; omega
        · omega
      · have := h.asksLt x hx; omega
    · intro a ha
      have := h.itemsLt a
      simp only [List.mem_append, List.mem_singleton] at ha this ⊢
      rcases ha with ((((e | e | e) | e) | e) | e) | e
      case inl.inl.inl.inl.inr.inr => subst e; simp
      all_goals (have := this (by simp [e]); omega)
  · exact h

theorem mem_eraseIdx {l : List Item} {i : Nat} {a : Item} (h : a ∈ l.eraseIdx i) : a ∈ l :=
  (List.eraseIdx_sublist l i).subset h

theorem step_ok (h : Ok s) (op : Op) : Ok (s.step op) := by
  have hc := h.core
  have hs := h.shape
  cases op with
  | send b ask =>
    refine ⟨?_, ?_⟩
    · rw [show (s.step (.send b ask)).phase = s.phase from push_phase s b ask]; exact push_core hc b ask
    · simp only [Shape, St.step, push_phase] at hs ⊢
      unfold St.push
      by_cases hcl : s.closed = true
      · simpa [hcl] using hs
      · cases hp : s.phase <;> simp_all
  | make b ask =>
    have hp : (s.make b ask).phase = s.phase := by unfold St.make; split <;> rfl
    refine ⟨?_, ?_⟩
    · rw [show (s.step (.make b ask)).phase = s.phase from hp]; exact make_core hc b ask
    · simp only [Shape, St.step, hp] at hs ⊢
      unfold St.make
      split <;> simp_all [Phase.owned]
  | startEnd r full =>
    simp only [St.step, St.startEnd]
    generalize startHow r full = k
    split
    · rename_i hp
      rw [hp] at hc
      have h1 : Core (s.tell [.e .start k]) none [] := hc.same
      have hsb : s.buffer = [] := by simpa [Shape, hp] using hs
      cases full with
      | true =>
        cases r with
        | ok =>
          exact enter_ok h1 hsb _
        | err => exact ⟨h1.same, trivial⟩
        | panic => exact ⟨h1.same, trivial⟩
      | false =>
        have h2 := push_core h1 .startup false
        cases r with
        | ok => exact enter_ok h2 (by unfold St.push; split <;> exact hsb) _
        | err => exact ⟨h2.same, trivial⟩
        | panic => exact ⟨h2.same, trivial⟩
    · exact h
  | take n =>
    simp only [St.step, St.take]
    split
    · rename_i hp
      refine ⟨?_, by simp [Shape, hp]⟩
      rw [hp] at hc
      simp only [hp]
      refine hc.less rfl (List.Sublist.refl _) (List.Sublist.refl _) rfl rfl rfl rfl rfl ?_ rfl
      intro a ha
      simp only [List.mem_append] at ha ⊢
      rcases ha with e | e | e
      · exact Or.inl ((List.drop_sublist n s.queue).subset e)
      · exact Or.inr e
      · exact Or.inl ((List.take_sublist n s.queue).subset e)
    · exact h
  | close =>
    simp only [St.step, St.close]
    split
    · rename_i hp
      refine ⟨?_, by simp [Shape, hp]⟩
      rw [hp] at hc
      simp only [hp]; exact hc.same
    · exact h
  | spend i o =>
    simp only [St.step, St.spend]
    split
    · rename_i it hi
      have hmem : it ∈ s.held := List.mem_of_getElem? hi
      have hlt : it.id < s.fresh := hc.itemsLt it (by simp [hmem])
      refine ⟨?_, ?_⟩
      · show Core _ s.phase.cur s.phase.rest
        refine ⟨hc.fin, hc.restFin, hc.bufOut, hc.restOut, hc.ord, hc.ordIn, ?_, ?_,
          fun a ha hb => (hc.takenR a ha hb).imp (resolve_slot _ _ _ _) id, ?_, hc.asksLt, ?_⟩
        · intro a ha hb
          simp only [List.mem_append, List.mem_singleton] at ha
          rcases ha with ha | rfl
          · exact resolve_slot _ _ _ _ (hc.goneR a ha hb)
          · exact resolve_slot_self _ _ _
        · intro a ha
          rcases hc.startedR a ha with h1 | h1
          · exact Or.inl (resolve_slot _ _ _ _ h1)
          · exact Or.inr h1
        · intro a ha hb
          refine hc.msgs a ?_ hb
          simp only [List.mem_append, resolve_queue] at ha ⊢
          exact ha.imp id mem_eraseIdx
        · intro a ha
          have := hc.itemsLt a
          simp only [List.mem_append, resolve_queue, resolve_buffer, resolve_started, resolve_gone, resolve_fresh,
            List.mem_singleton] at ha this ⊢
          rcases ha with ((((e | e) | e) | e) | e) | e | e
          · exact this (by simp [e])
          · exact this (by simp [mem_eraseIdx e])
          · exact this (by simp [e])
          · exact this (by simp [e])
          · exact this (by simp [e])
          · exact this (by simp [e])
          · subst e; exact hlt
      · simp only [Shape] at hs ⊢
        simp only [resolve_phase, resolve_buffer, resolve_queue, resolve_closed]
        split <;> simp_all
    · exact h
  | ret i =>
    simp only [St.step, St.ret]
    split
    · rename_i it hp hi
      have hmem : it ∈ s.held := List.mem_of_getElem? hi
      rw [hp] at hc
      refine dispatch_ok (s := { s.tell [.got (some it.body)] with held := s.held.eraseIdx i }) ?_ hp
        (hc.itemsLt it (by simp [hmem])) (hc.msgs it (by simp [hmem]))
      refine hc.less rfl (List.Sublist.refl _) (List.Sublist.refl _) rfl rfl rfl rfl rfl ?_ rfl
      intro a ha
      simp only [List.mem_append, tell_queue] at ha ⊢
      exact ha.imp id mem_eraseIdx
    · exact h
  | retNone =>
    simp only [St.step, St.retNone]
    split
    · rename_i hp
      rw [hp] at hc
      exact drain_ok (s := s.tell [.got none]) hc.same _
    · exact h
  | nextPanic =>
    simp only [St.step, St.nextPanic]
    split
    · exact crash_ok h
    · exact h
  | handleEnd r =>
    simp only [St.step, St.handleEnd]
    split
    · rename_i it rest fin hp
      generalize handleHow r (it.ask && !s.taken) = k
      rw [hp] at hc
      have h1 : Core (s.tell [.e .handle k]) (some it) rest := hc.same
      split
      · exact go_ok (h1.settle (Or.inl rfl) _) _
      · exact go_ok (h1.settle (Or.inl rfl) _) _
      · have h2 := h1.settle (it := it) (Or.inl rfl) .dropped
        have h3 := h2.drop rest (h2.itemsSub _ (by intro a ha; simp [ha]))
        refine ⟨?_, trivial⟩
        exact h3.less rfl (List.Sublist.refl _) (List.nil_sublist _) rfl rfl rfl rfl rfl (fun _ h => h) rfl
    · exact h
  | linkEnd f =>
    simp only [St.step, St.linkEnd]
    generalize f.linkHow = k
    split
    · rename_i hp
      rw [hp] at hc
      have h1 : Core (s.tell [.e .link k]) none [] := hc.same
      split
      · exact ⟨h1.same, trivial⟩
      · exact ⟨h1.same, trivial⟩
      · exact stop_ok h1 _
      · exact ⟨h1.same, trivial⟩
    · exact h
  | panicEnd f =>
    simp only [St.step, St.panicEnd]
    generalize f.panicHow = k
    split
    · rename_i st hp
      split
      · exact crash_ok h
      all_goals
        rw [hp] at hc
        have h1 : Core (s.tell [.e .panic k]) none [] := hc.same
      · split
        · exact stop_ok h1 _
        · exact ⟨h1.same, trivial⟩
      · exact stop_ok h1 _
      · exact stop_ok h1 _
    · exact h
  | stopEnd r =>
    simp only [St.step, St.stopEnd]
    split
    · rename_i q hp
      split
      · exact crash_ok h
      · rw [hp] at hc
        have h1 := hc.drop s.queue (hc.itemsSub _ (by intro it hi; simp [hi]))
        refine ⟨h1.less rfl (List.Sublist.refl _) (List.Sublist.refl _) rfl rfl rfl rfl rfl ?_ rfl, ?_, rfl, rfl⟩
        · intro a ha; simp only [List.nil_append] at ha; exact List.mem_append.mpr (Or.inr ha)
        · simpa [Shape, hp] using hs
    · exact h
  | kill => exact ⟨hc.same, hs⟩
  | abort =>
    simp only [St.step, St.abort]
    split
    · split
      · rename_i it rest fin hp
        rw [hp] at hc
        have h1 : Core (s.tell [.abort]) (some it) rest := hc.same
        have h2 := h1.settle (it := it) (Or.inl rfl) .dropped
        have h3 := h2.drop rest (h2.itemsSub _ (by intro a ha; simp [ha]))
        exact stop_ok (h3.less rfl (List.Sublist.refl _) (List.nil_sublist _) rfl rfl rfl rfl rfl (fun _ h => h) rfl) _
      · rename_i hn
        have h1 : Core (s.tell [.abort]) none [] := by
          have e1 : s.phase.cur = none := by
            cases e : s.phase <;> simp [Phase.cur]
            rename_i it rest fin; exact (hn it rest fin e).elim
          have e2 : s.phase.rest = [] := by
            cases e : s.phase <;> simp
            rename_i it rest fin; exact (hn it rest fin e).elim
          rw [e1, e2] at hc; exact hc.same
        exact stop_ok h1 _
    · exact h
  | takeReply =>
    simp only [St.step, St.takeReply]
    split
    · rename_i it rest fin hp
      split
      · rename_i ht
        refine ⟨?_, by simp [Shape, hp]⟩
        rw [hp] at hc
        simp only [hp]
        refine ⟨hc.fin, hc.restFin, hc.bufOut, hc.restOut, hc.ord, hc.ordIn, hc.goneR, ?_, ?_, hc.msgs, hc.asksLt, hc.itemsLt⟩
        · intro a ha
          rcases hc.startedR a ha with e | e | e
          · exact Or.inl e
          · exact Or.inr (Or.inl e)
          · exact Or.inr (Or.inr (by simp [e]))
        · intro a ha _
          simp only [Phase.cur, Option.some.injEq] at ha
          subst ha; right; simp
      · exact h
    · exact h
  | later x o =>
    simp only [St.step, St.later]
    split
    · have hk : ∀ y, s.slot y ≠ none ∨ y ∈ s.delegated →
          (s.resolve x o).slot y ≠ none ∨ y ∈ s.delegated.filter (· != x) := by
        intro y hy
        by_cases e : y = x
        · subst e; exact Or.inl (resolve_slot_self _ _ _)
        · exact hy.imp (resolve_slot _ _ _ _) (fun hm => List.mem_filter.mpr ⟨hm, by simpa using e⟩)
      refine ⟨?_, hs⟩
      refine ⟨hc.fin, hc.restFin, hc.bufOut, hc.restOut, hc.ord, hc.ordIn,
        fun a ha hb => resolve_slot _ _ _ _ (hc.goneR a ha hb), ?_, ?_, hc.msgs, hc.asksLt, hc.itemsLt⟩
      · intro a ha
        rcases hc.startedR a ha with e | e | e
        · exact (hk _ (Or.inl e)).imp id Or.inr
        · exact Or.inr (Or.inl e)
        · exact (hk _ (Or.inr e)).imp id Or.inr
      · intro a ha hb
        exact hk _ (hc.takenR a ha hb)
    · exact h
  | giveUp x => simp only [St.step, St.giveUp]; split <;> first | exact h | exact ⟨hc.same, hs⟩
  | teardown =>
    simp only [St.step, St.teardown]
    split
    · exact h
    · exact h
    · exact fall_ok h _

theorem ok_after (ops : List Op) : Ok (after ops) := by
  unfold after
  have h0 : Ok {} := by
    refine ⟨?_, rfl⟩
    constructor <;> simp [Phase.cur]
  have : ∀ (ops : List Op) (s : St), Ok s → Ok (ops.foldl St.step s) := by
    intro ops
    induction ops with
    | nil => intro s h; exact h
    | cons o os ih => intro s h; exact ih _ (step_ok h o)
  exact this ops {} h0

end Verif.Next
