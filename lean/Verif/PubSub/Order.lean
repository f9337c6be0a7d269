import Verif.PubSub.Slow

/-!
C103 for `PubSub`, `actors/src/pubsub.rs`: in which order the subscribers handle what is published. `publish` (L98-122) waits
for all its sends, and takes `&mut self`: no publish begins before the one before it is over.
-/

namespace Verif.PubSub

open scoped List

variable {M : Type}

/-! ### Specification -/

/-- The messages handed over to be published, in order. -/
def requested : List (COp M) → List M
  | [] => []
  | .request m :: ops => m :: requested ops
  | _ :: ops => requested ops

/-- What actor `id` takes out of its mailbox in a step. -/
def Co.takes (s : Co M) (id : Nat) : COp M → List M
  | .handle j => if j = id then (s.boxes id).queue.take 1 else []
  | _ => []

/-- What actor `id` has taken out of its mailbox and handled, in order, in the steps `ops` from `s` on. -/
def Co.handledFrom (s : Co M) (id : Nat) : List (COp M) → List M
  | [] => []
  | op :: ops => s.takes id op ++ (s.step op).handledFrom id ops

/-- What actor `id` has taken out of its mailbox and handled, in order, since the beginning. -/
def handled (caps : Nat → Option Nat) (ops : List (COp M)) (id : Nat) : List M :=
  Co.handledFrom { boxes := fun id => { cap := caps id } } id ops

/-! ### Helper lemmas -/

theorem requested_append (a b : List (COp M)) : requested (a ++ b) = requested a ++ requested b := by
  induction a with
  | nil => rfl
  | cons op a ih => cases op <;> simp [requested, ih]

theorem handledFrom_append (a b : List (COp M)) (id : Nat) : ∀ s : Co M,
    s.handledFrom id (a ++ b) = s.handledFrom id a ++ (a.foldl Co.step s).handledFrom id b := by
  induction a with
  | nil => intro s; rfl
  | cons op a ih => intro s; simp [Co.handledFrom, ih]

/-- What `id` has handled and what waits for it, of the messages that satisfy `p`, is a part of the publishes that are
over, and of the one under way if its send has ended. -/
def Kept (p : M → Bool) (id : Nat) (hist : List M) (s : Co M) : Prop :=
  match s.cur with
  | none => (hist ++ (s.boxes id).queue).filter p <+ s.begun.filter p
  | some c => ∃ old, s.begun = old ++ [c.msg] ∧ (hist ++ (s.boxes id).queue).filter p <+ s.begun.filter p ∧
      (id ∈ c.pending → (hist ++ (s.boxes id).queue).filter p <+ old.filter p)

theorem kept_mono {p : M → Bool} {id : Nat} {hist hist' : List M} {s s' : Co M} (hc : s'.cur = s.cur) (hb : s'.begun = s.begun)
    (hl : (hist' ++ (s'.boxes id).queue).filter p <+ (hist ++ (s.boxes id).queue).filter p) (h : Kept p id hist s) :
    Kept p id hist' s' := by
  unfold Kept at *
  rw [hc, hb]
  cases hs : s.cur with
  | none => rw [hs] at h; exact hl.trans h
  | some c =>
    rw [hs] at h
    obtain ⟨old, h1, h2, h3⟩ := h
    exact ⟨old, h1, hl.trans h2, fun hp => hl.trans (h3 hp)⟩

theorem kept_step {p : M → Bool} {id : Nat} {hist : List M} {s : Co M} (h : Kept p id hist s) (op : COp M)
    (ho : ∀ m, op = .other id m → p m = false) : Kept p id (hist ++ s.takes id op) (s.step op) := by
  have same : ∀ s' : Co M, s'.cur = s.cur → s'.begun = s.begun → (s'.boxes id).queue = (s.boxes id).queue →
      Kept p id (hist ++ []) s' := by
    intro s' h1 h2 h3
    exact kept_mono h1 h2 (by rw [h3]; simp) h
  have fresh : ∀ (s' : Co M) m, s.cur = none → s'.begun = s.begun ++ [m] → (s'.boxes id).queue = (s.boxes id).queue →
      (s'.cur = none ∨ ∃ c, s'.cur = some c ∧ c.msg = m) → Kept p id (hist ++ []) s' := by
    intro s' m hn hb hq hc
    unfold Kept at h ⊢
    rw [hn] at h
    rcases hc with hc | ⟨c, hc, hm⟩
    · rw [hc, hb, hq, List.append_nil, List.filter_append s.begun]
      exact h.trans (List.sublist_append_left _ _)
    · rw [hc, hb, hq, List.append_nil]
      refine ⟨s.begun, by rw [hm], ?_, fun _ => h⟩
      rw [List.filter_append s.begun]
      exact h.trans (List.sublist_append_left _ _)
  have over : ∀ s' : Co M, s'.cur = none → s'.begun = s.begun → (s'.boxes id).queue = (s.boxes id).queue →
      Kept p id (hist ++ []) s' := by
    intro s' hc hb hq
    unfold Kept at h ⊢
    rw [hc, hb, hq, List.append_nil]
    cases hs : s.cur with
    | none => rw [hs] at h; exact h
    | some c => rw [hs] at h; obtain ⟨_, _, h2, _⟩ := h; exact h2
  cases op with
  | request m => exact same _ rfl rfl rfl
  | start =>
    simp only [Co.takes, Co.step]
    split
    · rename_i m rest hc hw
      exact fresh _ m hc rfl rfl (.inr ⟨_, rfl, rfl⟩)
    · exact same _ rfl rfl rfl
  | startPanic n =>
    simp only [Co.takes, Co.step]
    split
    · rename_i m rest hc hw
      split
      · exact fresh _ m hc rfl rfl (.inl hc)
      · exact same _ rfl rfl rfl
    · exact same _ rfl rfl rfl
  | send j =>
    simp only [Co.takes, Co.step]
    rcases send_cases s j with e | ⟨c, hc, hj, ⟨_, e⟩ | ⟨_, _, e⟩⟩
    · rw [e]; exact same _ rfl rfl rfl
    · rw [e]
      unfold Kept at h ⊢
      rw [hc] at h
      obtain ⟨old, h1, h2, h3⟩ := h
      exact ⟨old, h1, by simpa using h2, fun hp => by simpa using h3 (List.mem_filter.1 hp).1⟩
    · rw [e]
      unfold Kept at h ⊢
      rw [hc] at h
      obtain ⟨old, h1, h2, h3⟩ := h
      by_cases hid : j = id
      · subst hid
        refine ⟨old, h1, ?_, fun hp => by simp at hp⟩
        simp only [setBox_box, if_true, List.append_nil]
        show (hist ++ ((s.boxes j).queue ++ [c.msg])).filter p <+ s.begun.filter p
        rw [h1, ← List.append_assoc, List.filter_append, List.filter_append old]
        exact (h3 hj).append (List.Sublist.refl _)
      · refine ⟨old, h1, ?_, fun hp => ?_⟩
        · simp only [setBox_box, if_neg (fun x => hid (Eq.symm x)), List.append_nil]
          exact h2
        · simp only [setBox_box, if_neg (fun x => hid (Eq.symm x)), List.append_nil]
          exact h3 (List.mem_filter.1 hp).1
  | finish =>
    simp only [Co.takes, Co.step]
    split
    · exact same _ rfl rfl rfl
    · split
      · exact over _ rfl rfl rfl
      · exact same _ rfl rfl rfl
  | giveUp => exact over _ rfl rfl rfl
  | subscribe j f =>
    simp only [Co.takes, Co.step]
    split
    · exact same _ rfl rfl rfl
    · exact same _ rfl rfl rfl
  | handle j =>
    by_cases hj : j = id
    · subst hj
      refine kept_mono (s := s) rfl rfl ?_ h
      simp only [Co.takes, Co.step, setBox_box, if_true]
      cases (s.boxes j).queue <;> simp
    · refine kept_mono (s := s) rfl rfl ?_ h
      simp [Co.takes, Co.step, setBox_box, hj, Ne.symm hj]
  | other j m =>
    simp only [Co.takes, Co.step]
    split
    · by_cases hj : j = id
      · subst hj
        refine kept_mono (s := s) rfl rfl ?_ h
        simp [setBox_box, ho m rfl]
      · exact same _ rfl rfl (by simp [setBox_box, Ne.symm hj])
    · exact same _ rfl rfl rfl
  | close j =>
    refine kept_mono (s := s) rfl rfl ?_ h
    simp only [Co.takes, Co.step, setBox_box]
    split <;> simp

theorem kept_run {p : M → Bool} {id : Nat} (ops : List (COp M)) : ∀ (s : Co M) (hist : List M), Kept p id hist s →
    (∀ m, .other id m ∈ ops → p m = false) → Kept p id (hist ++ s.handledFrom id ops) (ops.foldl Co.step s) := by
  induction ops with
  | nil => intro s hist h _; simpa [Co.handledFrom] using h
  | cons op ops ih =>
    intro s hist h ho
    have := ih (s.step op) _ (kept_step h op (fun m e => ho m (by simp [e]))) (fun m hm => ho m (by simp [hm]))
    simpa [Co.handledFrom] using this

/-- What has begun and what waits is what was handed over. -/
theorem begun_waiting (caps : Nat → Option Nat) (ops : List (COp M)) :
    (Co.run caps ops).begun ++ (Co.run caps ops).waiting = requested ops := by
  suffices h : ∀ (ops : List (COp M)) (s : Co M), (ops.foldl Co.step s).begun ++ (ops.foldl Co.step s).waiting =
      s.begun ++ s.waiting ++ requested ops by
    have e := h ops { boxes := fun id => { cap := caps id } }
    exact e.trans (by simp)
  intro ops
  induction ops with
  | nil => intro s; simp [requested]
  | cons op ops ih =>
    intro s
    rw [List.foldl_cons, ih (s.step op)]
    cases op with
    | request m => simp [Co.step, requested]
    | start =>
      simp only [Co.step, requested]
      split
      · rename_i hw; simp [hw]
      · rfl
    | startPanic n =>
      simp only [Co.step, requested]
      split
      · rename_i hw
        split
        · simp [hw]
        · rfl
      · rfl
    | send j =>
      simp only [Co.step, requested]
      rcases send_cases s j with e | ⟨c, hc, hj, ⟨_, e⟩ | ⟨_, _, e⟩⟩ <;> rw [e] <;> rfl
    | finish => simp only [Co.step, requested] <;> (repeat' split) <;> rfl
    | giveUp => rfl
    | subscribe j f => simp only [Co.step, requested] <;> split <;> rfl
    | handle j => rfl
    | other j m => simp only [Co.step, requested] <;> split <;> rfl
    | close j => rfl

/-! ### The theorems -/

/-- **C103, `PubSub`**: what a subscriber has handled of the messages that only the pubsub sends it (those that satisfy
`p`; nobody else sends it such messages) is a part, in order, of the messages that were handed over to be published:
nothing comes earlier than what was published before it, and nothing twice. Whatever the filters, the other
subscribers, the capacities of mailboxes, publishes that are given up or panic, and subscribing again do. -/
theorem pubsub_in_order (caps : Nat → Option Nat) (ops : List (COp M)) (id : Nat) (p : M → Bool)
    (ho : ∀ m, .other id m ∈ ops → p m = false) :
    (handled caps ops id).filter p <+ (requested ops).filter p := by
  have h : Kept p id (handled caps ops id) (Co.run caps ops) := by
    have := kept_run (p := p) (id := id) ops { boxes := fun id => { cap := caps id } } [] (by simp [Kept]) ho
    simpa [handled, Co.run] using this
  have hb : (handled caps ops id).filter p <+ (Co.run caps ops).begun.filter p := by
    refine List.Sublist.trans ?_ (show ((handled caps ops id) ++ ((Co.run caps ops).boxes id).queue).filter p <+ _ from ?_)
    · rw [List.filter_append]
      exact List.sublist_append_left _ _
    · unfold Kept at h
      split at h
      · exact h
      · obtain ⟨_, _, h2, _⟩ := h; exact h2
  rw [← begun_waiting caps ops, List.filter_append]
  exact hb.trans (List.sublist_append_left _ _)

/-- Subscriber 1 has room for one message, subscriber 2 for many; 2 takes the first message while 1 still waits for room,
someone else sends 1 a message (100) in between, and 1 wants even numbers only. -/
def orderDemo : List (COp Nat) :=
  [.subscribe 1 (fun _ m => m % 2 == 0), .subscribe 2 passAll, .request 2, .request 3, .request 4, .other 1 100, .start, .send 2,
   .send 1, .handle 1, .send 1, .finish, .start, .send 2, .finish, .start, .send 2, .send 1, .handle 1, .send 1, .finish,
   .handle 2, .handle 1, .handle 2, .handle 2]

example : handled (fun id => if id = 1 then some 1 else none) orderDemo 1 = [100, 2, 4] ∧
    handled (fun id => if id = 1 then some 1 else none) orderDemo 2 = [2, 3, 4] ∧ requested orderDemo = [2, 3, 4] ∧
    (∀ m, .other 1 m ∈ orderDemo → decide (m < 50) = false) := by
  refine ⟨by decide, by decide, by decide, ?_⟩
  intro m h
  simp only [orderDemo, List.mem_cons, List.not_mem_nil, or_false, reduceCtorEq, COp.other.injEq, false_or, true_and] at h
  simp [h]

/-- **C103, one publish at a time**: the mailboxes of all subscribers take the copies in the order of the publishes: none
of an earlier publish is taken once one of a later publish has been. -/
theorem pubsub_one_at_a_time (caps : Nat → Option Nat) (ops : List (COp M)) :
    ((Co.run caps ops).copies.map (·.1)).Pairwise (· ≤ ·) := by
  have step : ∀ (s : Co M) (op : COp M), CoInv s → (s.copies.map (·.1)).Pairwise (· ≤ ·) →
      ((s.step op).copies.map (·.1)).Pairwise (· ≤ ·) := by
    intro s op hi h
    cases op with
    | send j =>
      simp only [Co.step]
      rcases send_cases s j with e | ⟨c, hc, hj, ⟨_, e⟩ | ⟨_, _, e⟩⟩
      · rw [e]; exact h
      · rw [e]; exact h
      · rw [e]
        simp only [List.map_append, List.map_cons, List.map_nil]
        rw [List.pairwise_append]
        refine ⟨h, by simp, ?_⟩
        intro x hx y hy
        obtain ⟨z, hz, rfl⟩ := List.mem_map.1 hx
        rw [List.mem_singleton.1 hy]
        exact hi.num z hz
    | _ =>
      simp only [Co.step]
      (repeat' split) <;> exact h
  have : ∀ (ops : List (COp M)) (s : Co M), CoInv s → (s.copies.map (·.1)).Pairwise (· ≤ ·) →
      ((ops.foldl Co.step s).copies.map (·.1)).Pairwise (· ≤ ·) := by
    intro ops
    induction ops with
    | nil => exact fun s _ h => h
    | cons op ops ih => exact fun s hi h => ih _ (coinv_step hi op) (step s op hi h)
  exact this ops _ (coinv_init caps) .nil

example : ((Co.run (fun id => if id = 1 then some 1 else none) orderDemo).copies.map (fun x => (x.1, x.2.1))) =
    [(1, 2), (1, 1), (2, 2), (3, 2), (3, 1)] := by decide

end Verif.PubSub
