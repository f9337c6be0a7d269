import Verif.GiveUp.Model

/-
C97: a call may be given up. Which calls have then done nothing, which everything, and which are left half done.
-/

namespace Verif.GiveUp

/-! ### The specification -/

/-- What a call does in all if it succeeds. -/
def Kind.whole : Kind → List Act
  | .tell a m => [.push a (some m)]
  | .ask a m => [.push a (some m)]
  | .stop a => [.push a none]
  | .link a b => if a = b then [] else [.link a b]
  | .unlink a b => if a = b then [] else [.unlink a b]
  | .spawnLink p a => [.link a p, .spawn a]
  | .linkRemote a b => if a = b then [] else [.list a, .mark a b, .order (.link a b)]
  | .unlinkRemote a b => if a = b then [] else [.unmark a b, .order (.unlink a b)]
  | .register a n => [.order (.register a n), .list a]
  | .unregister n => [.order (.unregister n)]
  | .remote b m => [.order (.send b m)]
  | .waitOnly => []

/-- The step is one of call `c`. -/
def Op.of (c : Nat) : Op → Bool
  | .call d _ => d == c
  | .go d _ => d == c
  | .drop d => d == c
  | _ => false

/-- Two states are the same but for what is known of call `c`. -/
structure Same (c : Nat) (s s' : State) : Prop where
  world : s.world = s'.world
  answer : s.answer = s'.answer
  status : ∀ d, d ≠ c → s.status d = s'.status d
  did : ∀ d, d ≠ c → s.did d = s'.did d

/-- A call that is given up has done all it was to do, or nothing. -/
def AllOrNothing : Prop :=
  ∀ ops c k pc, (after ops).status c = .dropped k pc → (after ops).did c = [] ∨ (after ops).did c = k.whole

/-- Calls whose whole effect comes with their return. -/
def Kind.clean : Kind → Bool
  | .tell _ _ | .stop _ | .link _ _ | .unlink _ _ | .spawnLink _ _ | .waitOnly => true
  | _ => false

/-- The calls that write in two places with a wait between. -/
def Kind.twofold : Kind → Bool
  | .linkRemote _ _ | .register _ _ => true
  | _ => false

/-! ### What a call has done -/

/-- What a call has done when it is at its `pc`-th wait. -/
def Kind.upTo : Kind → Nat → Option (List Act)
  | .ask _ _, 0 => some []
  | .ask a m, 1 => some [.push a (some m)]
  | .linkRemote _ _, 0 => some []
  | .linkRemote a b, 1 => if a = b then none else some [.list a]
  | .linkRemote a b, 2 => if a = b then none else some [.list a, .mark a b, .order (.link a b)]
  | .unlinkRemote _ _, 0 => some []
  | .unlinkRemote a b, 1 => if a = b then none else some [.unmark a b, .order (.unlink a b)]
  | .register _ _, 0 => some []
  | .register a n, 1 => some [.order (.register a n)]
  | .register a n, 2 => some [.order (.register a n)]
  | .unregister _, 0 => none
  | .unregister n, 1 => some [.order (.unregister n)]
  | .remote _ _, 0 => some []
  | .remote b m, 1 => some [.order (.send b m)]
  | .tell _ _, 0 | .stop _, 0 | .link _ _, 0 | .unlink _ _, 0 | .spawnLink _ _, 0 | .waitOnly, 0 => some []
  | _, _ => none

/-- What a call has done fits where it is. -/
def Fits : Status → List Act → Prop
  | .unborn, l => l = []
  | .waiting k pc, l => k.upTo pc = some l
  | .dropped k pc, l => k.upTo pc = some l
  | .returned k ok, l => l <+: k.whole ∧ (ok = true → l = k.whole)

theorem set_same {α : Type} (f : Nat → α) (i : Nat) (v : α) : set f i v i = v := by simp [set]

theorem set_other {α : Type} (f : Nat → α) {i j : Nat} (v : α) (h : j ≠ i) : set f i v j = f j := by simp [set, h]

theorem go_other (s : State) (c : Nat) (ok : Bool) (k : Kind) (pc : Nat) {d : Nat} (h : d ≠ c) :
    (s.go c ok k pc).status d = s.status d ∧ (s.go c ok k pc).did d = s.did d := by
  unfold State.go State.ordered State.answered State.at State.act
  (repeat' split) <;> simp [set, h]

theorem call_other (s : State) (c : Nat) (k : Kind) {d : Nat} (h : d ≠ c) :
    (s.call c k).status d = s.status d ∧ (s.call c k).did d = s.did d := by
  unfold State.call State.at State.act
  (repeat' split) <;> simp [set, h]

theorem fits_go {s : State} {c : Nat} {k : Kind} {pc : Nat} (ok : Bool) (h : k.upTo pc = some (s.did c))
    (hs : s.status c = .waiting k pc) : Fits ((s.go c ok k pc).status c) ((s.go c ok k pc).did c) := by
  have hd : ∀ l, k.upTo pc = some l → s.did c = l := fun l hl => by rw [h] at hl; exact Option.some.inj hl
  cases k <;> rcases pc with _ | _ | _ | pc <;> (simp only [Kind.upTo] at h) <;> (try (cases h; done)) <;>
    (try (split at h)) <;> (try (cases h; done)) <;> (try (have h' := (Option.some.inj h).symm; clear h hd)) <;>
    simp only [State.go, State.ordered, State.answered, State.act, State.at] <;>
    (repeat' split) <;> simp_all [set, Fits, Kind.upTo, Kind.whole]

theorem fits_step {s : State} (h : ∀ c, Fits (s.status c) (s.did c)) (op : Op) (c : Nat) :
    Fits ((s.step op).status c) ((s.step op).did c) := by
  cases op with
  | call d k =>
    have := h c
    simp only [State.step]
    split
    · rename_i hu
      by_cases hd : c = d
      · subst hd
        cases k <;> simp only [State.call] <;> (repeat' split) <;> simp_all [Fits, Kind.upTo, State.at, State.act, set]
      · rw [(call_other s d k hd).1, (call_other s d k hd).2]
        exact this
    · exact this
  | go d ok =>
    by_cases hd : c = d
    · subst hd
      simp only [State.step]
      split
      · rename_i k pc hk
        exact fits_go ok (by have := h c; rw [hk] at this; exact this) hk
      · exact h c
    · simp only [State.step]
      split
      · rename_i k pc hk
        rw [(go_other s d ok k pc hd).1, (go_other s d ok k pc hd).2]
        exact h c
      · exact h c
  | drop d =>
    have := h c
    simp only [State.step]
    split
    · by_cases hd : c = d
      · subst hd
        simp_all [State.at, set, Fits]
      · simpa [State.at, set, hd] using this
    · exact this
  | serve i dn ok =>
    have := h c
    simp only [State.step]
    (repeat' split) <;> exact this
  | close a => exact h c
  | boot => exact h c

theorem exec_fits (ops : List Op) {s : State} (h : ∀ c, Fits (s.status c) (s.did c)) (c : Nat) :
    Fits ((ops.foldl State.step s).status c) ((ops.foldl State.step s).did c) := by
  induction ops generalizing s with
  | nil => exact h c
  | cons o os ih => exact ih (fits_step h o)

theorem after_fits (ops : List Op) (c : Nat) : Fits ((after ops).status c) ((after ops).did c) :=
  exec_fits ops (s := {}) (fun _ => rfl) c

theorem upTo_prefix {k : Kind} {pc : Nat} {l : List Act} (h : k.upTo pc = some l) : l <+: k.whole := by
  cases k <;> rcases pc with _ | _ | _ | pc <;> (simp only [Kind.upTo] at h) <;> (try (cases h; done)) <;>
    grind [Kind.whole, List.prefix_refl]

/-- **C97** What a call has done is always a first part of what it is to do, in that order; when it has returned with success it is all
of it, and when it is only made, of an `async` function, it is nothing. -/
theorem done_in_order (ops : List Op) (c : Nat) :
    match (after ops).status c with
    | .unborn => (after ops).did c = []
    | .waiting k _ => (after ops).did c <+: k.whole
    | .dropped k _ => (after ops).did c <+: k.whole
    | .returned k ok => (after ops).did c <+: k.whole ∧ (ok = true → (after ops).did c = k.whole) := by
  have h := after_fits ops c
  split <;> rename_i hs <;> rw [hs] at h
  · exact h
  · exact upTo_prefix h
  · exact upTo_prefix h
  · exact h

/-! ### Calls given up before they have done anything -/

/-- The call has not come beyond its first wait. -/
def Status.early : Status → Bool
  | .unborn => true
  | .waiting _ pc => pc == 0
  | .dropped _ pc => pc == 0
  | .returned _ _ => false

/-- A step of call `c` after which it is still at its first wait has done nothing but to make or drop the call. -/
theorem own_step_early {s : State} {c : Nat} {op : Op} (ho : op.of c = true)
    (he : ((s.step op).status c).early = true) :
    (s.step op).world = s.world ∧ (s.step op).answer = s.answer ∧
      ∀ d, d ≠ c → (s.step op).status d = s.status d ∧ (s.step op).did d = s.did d := by
  cases op with
  | call d k =>
    have : d = c := by simpa [Op.of] using ho
    subst this
    simp only [State.step] at he ⊢
    split at he
    · cases k <;> simp only [State.call] at he ⊢ <;> (repeat' split) <;>
        simp_all [State.at, State.act, set, Status.early]
    · exact ⟨rfl, rfl, fun _ _ => ⟨rfl, rfl⟩⟩
  | go d ok =>
    have : d = c := by simpa [Op.of] using ho
    subst this
    simp only [State.step] at he ⊢
    split at he
    · rename_i k pc hu
      cases k <;> rcases pc with _ | _ | pc <;>
        simp only [State.go, State.ordered, State.answered, State.at, State.act] at he ⊢ <;> (repeat' split) <;>
        simp_all [set, Status.early, World.act]
    · exact ⟨rfl, rfl, fun _ _ => ⟨rfl, rfl⟩⟩
  | drop d =>
    have : d = c := by simpa [Op.of] using ho
    subst this
    simp only [State.step] at he ⊢
    split <;> simp_all [State.at, set]
  | serve i dn ok => cases ho
  | close a => cases ho
  | boot => cases ho

/-- A call that has come beyond its first wait does not come back. -/
theorem early_before {s : State} {c : Nat} {op : Op} (he : ((s.step op).status c).early = true) :
    (s.status c).early = true := by
  cases op with
  | call d k =>
    simp only [State.step] at he
    split at he
    · rename_i hu
      by_cases hd : c = d
      · subst hd
        simp [hu, Status.early]
      · rwa [(call_other s d k hd).1] at he
    · exact he
  | go d ok =>
    simp only [State.step] at he
    split at he
    · rename_i k pc hu
      by_cases hd : c = d
      · subst hd
        rw [hu]
        cases k <;> rcases pc with _ | _ | pc <;>
          simp only [State.go, State.ordered, State.answered, State.at, State.act] at he <;> (repeat' split at he) <;>
          simp_all [set, Status.early]
      · rwa [(go_other s d ok k pc hd).1] at he
    · exact he
  | drop d =>
    simp only [State.step] at he
    split at he
    · by_cases hd : c = d
      · subst hd
        simp_all [State.at, set, Status.early]
      · simpa [State.at, set, hd] using he
    · exact he
  | serve i dn ok =>
    simp only [State.step] at he
    (repeat' split at he) <;> exact he
  | close a => exact he
  | boot => exact he

/-- What other calls and the swarm do does not depend on call `c`. -/
theorem same_step {c : Nat} {s s' : State} (h : Same c s s') {op : Op} (ho : op.of c = false) :
    Same c (s.step op) (s'.step op) ∧ (s.step op).status c = s.status c ∧ (s'.step op).status c = s'.status c ∧
      (s.step op).did c = s.did c ∧ (s'.step op).did c = s'.did c := by
  obtain ⟨w, an, st, di⟩ := s
  obtain ⟨w', an', st', di'⟩ := s'
  obtain ⟨rfl, rfl, h3, h4⟩ := h
  simp only at h3 h4
  cases op with
  | call d k =>
    have hd : d ≠ c := by simpa [Op.of] using ho
    simp only [State.step, ← h3 d hd]
    split
    · refine ⟨⟨?_, ?_, fun e he => ?_, fun e he => ?_⟩, (call_other _ d k (Ne.symm hd)).1, (call_other _ d k (Ne.symm hd)).1,
        (call_other _ d k (Ne.symm hd)).2, (call_other _ d k (Ne.symm hd)).2⟩ <;>
      cases k <;> simp only [State.call, State.at, State.act] <;> (repeat' split) <;> grind [set]
    · exact ⟨⟨rfl, rfl, h3, h4⟩, rfl, rfl, rfl, rfl⟩
  | go d ok =>
    have hd : d ≠ c := by simpa [Op.of] using ho
    simp only [State.step, ← h3 d hd]
    split
    · rename_i k pc _
      refine ⟨⟨?_, ?_, fun e he => ?_, fun e he => ?_⟩, (go_other _ d ok k pc (Ne.symm hd)).1,
        (go_other _ d ok k pc (Ne.symm hd)).1, (go_other _ d ok k pc (Ne.symm hd)).2, (go_other _ d ok k pc (Ne.symm hd)).2⟩ <;>
      unfold State.go <;> simp only [State.ordered, State.answered, State.at, State.act] <;> (repeat' split) <;>
        grind [set]
    · exact ⟨⟨rfl, rfl, h3, h4⟩, rfl, rfl, rfl, rfl⟩
  | drop d =>
    have hd : d ≠ c := by simpa [Op.of] using ho
    simp only [State.step, ← h3 d hd]
    split
    · refine ⟨⟨rfl, rfl, fun e he => ?_, h4⟩, ?_, ?_, rfl, rfl⟩ <;> simp only [State.at] <;> grind [set]
    · exact ⟨⟨rfl, rfl, h3, h4⟩, rfl, rfl, rfl, rfl⟩
  | serve i dn ok =>
    simp only [State.step]
    (repeat' split) <;> exact ⟨⟨rfl, rfl, h3, h4⟩, rfl, rfl, rfl, rfl⟩
  | close a => exact ⟨⟨rfl, rfl, h3, h4⟩, rfl, rfl, rfl, rfl⟩
  | boot => exact ⟨⟨rfl, rfl, h3, h4⟩, rfl, rfl, rfl, rfl⟩

theorem early_exec (ops : List Op) {s : State} {c : Nat} (he : ((ops.foldl State.step s).status c).early = true) :
    (s.status c).early = true := by
  induction ops generalizing s with
  | nil => exact he
  | cons o os ih => exact early_before (ih he)

theorem never_was_from (ops : List Op) {c : Nat} {s s' : State} (h : Same c s s')
    (he : ((ops.foldl State.step s).status c).early = true) :
    Same c (ops.foldl State.step s) ((ops.filter (fun o => !o.of c)).foldl State.step s') := by
  induction ops generalizing s s' with
  | nil => exact h
  | cons o os ih =>
    cases ho : o.of c with
    | true =>
      rw [List.filter_cons_of_neg (by simp [ho])]
      have := own_step_early ho (early_exec os he)
      refine ih ⟨this.1.trans h.world, this.2.1.trans h.answer, fun d hd => ?_, fun d hd => ?_⟩ he
      · exact ((this.2.2 d hd).1).trans (h.status d hd)
      · exact ((this.2.2 d hd).2).trans (h.did d hd)
    | false =>
      rw [List.filter_cons_of_pos (by simp [ho])]
      exact ih (same_step h ho).1 he

/-- **C97** A call given up at its first wait was never made, for everybody else: the world, the answers and all other calls are as
they are without it, now and whatever happens afterwards. -/
theorem dropped_never_was (ops : List Op) (c : Nat) (k : Kind) (h : (after ops).status c = .dropped k 0) :
    Same c (after ops) (after (ops.filter (fun o => !o.of c))) ∧ (after ops).did c = [] := by
  refine ⟨never_was_from ops ⟨rfl, rfl, fun _ _ => rfl, fun _ _ => rfl⟩ ?_, ?_⟩
  · show ((after ops).status c).early = true
    rw [h]; rfl
  · have hf := after_fits ops c
    rw [h] at hf
    cases k <;> simp_all [Fits, Kind.upTo]

/-- **C97** Tells, stop requests, links, unlinks, linked spawns and waits that have not returned can be dropped wherever they are:
they have no other wait than the first. The message of a tell that was given up is never handled, the actor of a `spawn_link` that
was given up is neither linked nor spawned. -/
theorem clean_dropped_never_was (ops : List Op) (c : Nat) (k : Kind) (pc : Nat) (hk : k.clean = true)
    (h : (after ops).status c = .dropped k pc) :
    Same c (after ops) (after (ops.filter (fun o => !o.of c))) ∧ (after ops).did c = [] := by
  have hf := after_fits ops c
  rw [h] at hf
  have : pc = 0 := by
    cases k <;> simp [Kind.clean] at hk <;> rcases pc with _ | pc <;> simp [Fits, Kind.upTo] at hf ⊢
  exact dropped_never_was ops c k (this ▸ h)

/-- A tell that waits for room and is dropped, a link that waits for its locks and is dropped, and a tell by another. -/
def quit : List Op :=
  [.call 0 (.tell 1 10), .call 1 (.tell 1 11), .call 2 (.link 1 2), .drop 0, .go 1 true, .drop 2]

example : (after quit).status 0 = .dropped (.tell 1 10) 0 ∧ (after quit).status 2 = .dropped (.link 1 2) 0 ∧
    (after quit).world.box 1 = [some 11] ∧ (after quit).world.links 1 2 = false ∧
    (after (quit.filter (fun o => !o.of 0))).world.box 1 = [some 11] := by decide

/-! ### Calls given up when they have done everything -/

/-- A call at this wait does nothing more but return. -/
def Kind.spent : Kind → Nat → Bool
  | .ask _ _, pc => pc != 0
  | .linkRemote _ _, pc => pc != 0 && pc != 1
  | .unlinkRemote _ _, pc => pc != 0
  | .unregister _, _ => true
  | .remote _ _, pc => pc != 0
  | .waitOnly, _ => true
  | _, _ => false

/-- The call has nothing more to do. -/
def Status.spent : Status → Bool
  | .unborn => false
  | .waiting k pc => k.spent pc
  | .dropped _ _ => true
  | .returned _ _ => true

theorem own_step_spent {s : State} {c : Nat} {op : Op} (ho : op.of c = true) (hs : (s.status c).spent = true) :
    ((s.step op).status c).spent = true ∧ (s.step op).did c = s.did c ∧ (s.step op).world = s.world ∧
      (s.step op).answer = s.answer ∧ ∀ d, d ≠ c → (s.step op).status d = s.status d ∧ (s.step op).did d = s.did d := by
  cases op with
  | call d k =>
    have : d = c := by simpa [Op.of] using ho
    subst this
    simp only [State.step]
    split
    · simp_all [Status.spent]
    · exact ⟨hs, rfl, rfl, rfl, fun _ _ => ⟨rfl, rfl⟩⟩
  | go d ok =>
    have : d = c := by simpa [Op.of] using ho
    subst this
    simp only [State.step]
    split
    · rename_i k pc hu
      rw [hu] at hs
      cases k <;> rcases pc with _ | _ | pc <;> simp [Status.spent, Kind.spent] at hs <;>
        simp only [State.go, State.answered, State.at] <;> (repeat' split) <;>
        simp_all [set, Status.spent, Kind.spent]
    · exact ⟨hs, rfl, rfl, rfl, fun _ _ => ⟨rfl, rfl⟩⟩
  | drop d =>
    have : d = c := by simpa [Op.of] using ho
    subst this
    simp only [State.step]
    split <;> simp_all [State.at, set, Status.spent]
  | serve i dn ok => cases ho
  | close a => cases ho
  | boot => cases ho

theorem spent_from (ops ops' : List Op) {c : Nat} {s s' : State} (h : Same c s s') (hs : (s.status c).spent = true)
    (hs' : (s'.status c).spent = true)
    (ho : ops.filter (fun o => !o.of c) = ops'.filter (fun o => !o.of c)) :
    Same c (ops.foldl State.step s) (ops'.foldl State.step s') ∧ (ops.foldl State.step s).did c = s.did c := by
  have key : ∀ (l : List Op) (t t' : State), Same c t t' → (t.status c).spent = true → (t'.status c).spent = true →
      Same c (l.foldl State.step t) ((l.filter (fun o => !o.of c)).foldl State.step t') ∧
        (l.foldl State.step t).did c = t.did c := by
    intro l
    induction l with
    | nil => intro t t' ht _ _; exact ⟨ht, rfl⟩
    | cons o os ih =>
      intro t t' ht hq hq'
      cases hoc : o.of c with
      | true =>
        rw [List.filter_cons_of_neg (by simp [hoc])]
        have h1 := own_step_spent hoc hq
        have := ih (t.step o) t' ⟨h1.2.2.1.trans ht.world, h1.2.2.2.1.trans ht.answer,
          fun d hd => (h1.2.2.2.2 d hd).1.trans (ht.status d hd), fun d hd => (h1.2.2.2.2 d hd).2.trans (ht.did d hd)⟩ h1.1 hq'
        exact ⟨this.1, this.2.trans h1.2.1⟩
      | false =>
        rw [List.filter_cons_of_pos (by simp [hoc])]
        have h1 := same_step ht hoc
        have := ih (t.step o) (t'.step o) h1.1 (by rw [h1.2.1]; exact hq) (by rw [h1.2.2.1]; exact hq')
        exact ⟨this.1, this.2.trans h1.2.2.2.1⟩
  have h1 := key ops s s' h hs hs'
  have h2 := key ops' s' s' ⟨rfl, rfl, fun _ _ => rfl, fun _ _ => rfl⟩ hs' hs'
  rw [ho] at h1
  exact ⟨⟨h1.1.world.trans h2.1.world.symm, h1.1.answer.trans h2.1.answer.symm,
    fun d hd => (h1.1.status d hd).trans (h2.1.status d hd).symm, fun d hd => (h1.1.did d hd).trans (h2.1.did d hd).symm⟩, h1.2⟩

/-- **C97** An ask that waits for its reply, a request to another node, an `unlink_remote`, an `unregister` or a `link_remote` that waits for the
swarm's answer has done all it does. Whether it is dropped then, when, or never, makes no difference to anybody else: with the
same steps of the others, in the same order, everything else is the same. -/
theorem late_drop_unnoticed (ops ops₁ ops₂ : List Op) (c : Nat) (k : Kind) (pc : Nat)
    (h : (after ops).status c = .waiting k pc) (hk : k.spent pc = true)
    (ho : ops₁.filter (fun o => !o.of c) = ops₂.filter (fun o => !o.of c)) :
    (after ops).did c = k.whole ∧ Same c (after (ops ++ ops₁)) (after (ops ++ ops₂)) := by
  constructor
  · have hf := after_fits ops c
    rw [h] at hf
    cases k <;> rcases pc with _ | _ | _ | pc <;> simp [Kind.spent] at hk <;> simp only [Fits, Kind.upTo] at hf <;>
      simp_all [Kind.whole]
    all_goals split at hf <;> simp_all
  · simp only [after, List.foldl_append]
    refine (spent_from ops₁ ops₂ ⟨rfl, rfl, fun _ _ => rfl, fun _ _ => rfl⟩ ?_ ?_ ho).1 <;>
    · show ((after ops).status c).spent = true
      rw [h]; exact hk

example : (after [.call 0 (.ask 1 10), .go 0 true]).status 0 = .waiting (.ask 1 10) 1 ∧ Kind.spent (.ask 1 10) 1 = true ∧
    [Op.drop 0, .close 1].filter (fun o => !o.of 0) = [Op.close 1, .go 0 false].filter (fun o => !o.of 0) ∧
    (after [.call 0 (.ask 1 10), .go 0 true, .drop 0, .close 1]).world.box 1 = [some 10] := by decide

/-! ### All or nothing, or half -/

/-- **C97** as far as it goes: a call given up has done all or nothing, unless it is a `link_remote` or a `register`. -/
theorem all_or_nothing_partial (ops : List Op) (c : Nat) (k : Kind) (pc : Nat) (h : (after ops).status c = .dropped k pc)
    (hk : k.twofold = false) : (after ops).did c = [] ∨ (after ops).did c = k.whole := by
  have hf := after_fits ops c
  rw [h] at hf
  cases k <;> rcases pc with _ | _ | _ | pc <;> simp [Kind.twofold] at hk <;> simp only [Fits, Kind.upTo] at hf <;>
    simp_all [Kind.whole]
  all_goals split at hf <;> simp_all

example : (after [.boot, .call 0 (.unlinkRemote 1 2), .go 0 true, .drop 0]).status 0 = .dropped (.unlinkRemote 1 2) 1 ∧
    Kind.twofold (.unlinkRemote 1 2) = false := by decide

/-- **C97** Where calls are left half done: a `link_remote` dropped while it waits for its own actor's link set has listed the actor and nothing
more; a `register` dropped while it waits for the swarm, or then for the registry, has sent the name and not listed the
actor. These are all. -/
theorem half_done_iff (ops : List Op) (c : Nat) (k : Kind) (pc : Nat) (h : (after ops).status c = .dropped k pc) :
    ¬ ((after ops).did c = [] ∨ (after ops).did c = k.whole) ↔
      ((∃ a b, k = .linkRemote a b ∧ pc = 1 ∧ (after ops).did c = [.list a]) ∨
       (∃ a n, k = .register a n ∧ (pc = 1 ∨ pc = 2) ∧ (after ops).did c = [.order (.register a n)])) := by
  have hf := after_fits ops c
  rw [h] at hf
  cases hk : k.twofold with
  | false =>
    have := all_or_nothing_partial ops c k pc h hk
    refine ⟨fun hn => absurd this hn, ?_⟩
    rintro (⟨a, b, rfl, _⟩ | ⟨a, n, rfl, _⟩) <;> cases hk
  | true =>
    cases k <;> rcases pc with _ | _ | _ | pc <;> simp [Kind.twofold] at hk <;> simp only [Fits, Kind.upTo] at hf <;>
      simp_all [Kind.whole]
    all_goals first | (split at hf <;> simp_all; done) | (simp [← hf.2]; done) | (rw [← hf]; simp; done) | (rw [← hf]; grind)

/-- **C97** does not hold in full. -/
theorem not_all_or_nothing : ¬ AllOrNothing := by
  intro h
  have := h [.call 0 (.linkRemote 1 2), .go 0 true, .drop 0] 0 (.linkRemote 1 2) 1 (by decide)
  revert this
  decide

/-! ### What half done calls leave in the world -/

/-- The call was made. -/
def Status.kind : Status → Option Kind
  | .unborn => none
  | .waiting k _ => some k
  | .dropped k _ => some k
  | .returned k _ => some k

/-- What is in the world comes from what calls have done, and calls from steps of the history. -/
structure Causes (past : List Op) (s : State) : Prop where
  made : ∀ c k, (s.status c).kind = some k → .call c k ∈ past
  list : ∀ a, s.world.listed a = true ↔ ∃ c, .list a ∈ s.did c
  link : ∀ a b, s.world.links a b = true → ∃ c, .mark a b ∈ s.did c ∨ .link a b ∈ s.did c ∨ .link b a ∈ s.did c
  order : ∀ q c x, s.world.swarm = some q → (c, x) ∈ q → .order x ∈ s.did c
  far : ∀ a b, s.world.far b a = true → ∃ c, .order (.link a b) ∈ s.did c

theorem act_causes {past : List Op} {s : State} (h : Causes past s) (c : Nat) (x : Act) : Causes past (s.act c x) := by
  have hmem : ∀ d y, y ∈ (s.act c x).did d ↔ y ∈ s.did d ∨ (d = c ∧ y = x) := by
    intro d y
    simp only [State.act, set]
    split <;> simp_all
  refine ⟨h.made, fun a => ?_, fun a b hl => ?_, fun q d y hq hm => ?_, fun a b hf => ?_⟩
  · simp only [hmem]
    have := h.list a
    cases x <;> simp only [State.act, World.act] <;> grind [set]
  · simp only [hmem]
    have := h.link a b
    cases x <;> simp only [State.act, World.act] at hl <;> grind [enter]
  · rw [hmem]
    have := fun q hq => h.order q d y hq
    cases hsw : s.world.swarm <;> cases x <;>
      simp only [State.act, World.act, hsw, Option.map_none, Option.map_some] at hq <;> grind
  · simp only [hmem]
    have := h.far a b
    cases x <;> simp only [State.act, World.act] at hf <;> grind

theorem at_causes {past : List Op} {s : State} (h : Causes past s) (c : Nat) (x : Status) (hx : ∀ k, x.kind = some k → .call c k ∈ past) :
    Causes past (s.at c x) := by
  refine ⟨fun d k hk => ?_, h.list, h.link, h.order, h.far⟩
  simp only [State.at, set] at hk
  split at hk
  · rename_i hd
    subst hd
    exact hx k hk
  · exact h.made d k hk

theorem causes_step {past : List Op} {s : State} (h : Causes past s) (op : Op) : Causes (past ++ [op]) (s.step op) := by
  have h' : Causes (past ++ [op]) s :=
    ⟨fun c k hk => List.mem_append_left _ (h.made c k hk), h.list, h.link, h.order, h.far⟩
  cases op with
  | call c k =>
    have hx : ∀ x : Status, x.kind = some k → ∀ k', x.kind = some k' → Op.call c k' ∈ past ++ [Op.call c k] := by
      intro x e k' e'
      rw [e] at e'
      cases e'
      simp
    simp only [State.step]
    split
    · cases k <;> simp only [State.call] <;> (repeat' split) <;>
        first | exact h' | exact at_causes h' c _ (hx _ rfl) | exact at_causes (act_causes h' c _) c _ (hx _ rfl)
    · exact h'
  | go c ok =>
    simp only [State.step]
    split
    · rename_i k pc hk
      have hm : Op.call c k ∈ past ++ [Op.go c ok] := h'.made c k (by rw [hk]; rfl)
      have hx : ∀ x : Status, x.kind = some k → ∀ k', x.kind = some k' → Op.call c k' ∈ past ++ [Op.go c ok] := by
        intro x e k' e'
        rw [e] at e'
        cases e'
        exact hm
      unfold State.go State.ordered State.answered
      (repeat' split) <;>
        first
          | exact h'
          | exact at_causes h' c _ (hx _ rfl)
          | exact at_causes (act_causes h' c _) c _ (hx _ rfl)
          | exact at_causes (act_causes (act_causes h' c _) c _) c _ (hx _ rfl)
    · exact h'
  | drop c =>
    simp only [State.step]
    split
    · rename_i k pc hk
      refine at_causes h' c _ (fun k' e => ?_)
      cases e
      exact h'.made c k (by rw [hk]; rfl)
    · exact h'
  | serve i dn ok =>
    simp only [State.step]
    split
    · exact h'
    · rename_i q hq
      split
      · exact h'
      · rename_i c x hx
        have hxd := h'.order q c x hq (List.mem_of_getElem? hx)
        have hq' : ∀ d y, (d, y) ∈ q.eraseIdx i → .order y ∈ s.did d :=
          fun d y hm => h'.order q d y hq (List.mem_of_mem_eraseIdx hm)
        refine ⟨h'.made, ?_, ?_, ?_, ?_⟩ <;> cases dn <;> cases x <;> simp only [World.carry, if_true, Bool.false_eq_true, if_false] <;>
          first
            | exact h'.list
            | exact h'.link
            | exact h'.far
            | (intro q' d y e hm; cases e; exact hq' d y hm)
            | (intro a b hf; have := h'.far a b; grind [enter])
  | close a => exact ⟨h'.made, h'.list, h'.link, h'.order, h'.far⟩
  | boot =>
    refine ⟨h'.made, h'.list, h'.link, ?_, h'.far⟩
    intro q c x hq hm
    simp only [State.step, Option.some.injEq] at hq
    cases hs : s.world.swarm with
    | none => rw [hs] at hq; subst hq; cases hm
    | some q' => rw [hs] at hq; exact h'.order q' c x hs (by simpa [← hq] using hm)

theorem exec_causes (ops past : List Op) {s : State} (h : Causes past s) : Causes (past ++ ops) (ops.foldl State.step s) := by
  induction ops generalizing s past with
  | nil => simpa using h
  | cons o os ih =>
    have := ih (past ++ [o]) (causes_step h o)
    simpa using this

theorem after_causes (ops : List Op) : Causes ops (after ops) := by
  have := exec_causes ops [] (s := {}) ⟨fun c k h => by simp [Status.kind] at h, fun a => by simp,
    fun a b h => by simp at h, fun q c x h => by simp at h, fun a b h => by simp at h⟩
  simpa [after] using this

/-- The call is to link `a` and `b`. -/
def Kind.joins (a b : Id) (k : Kind) : Prop :=
  k = .link a b ∨ k = .link b a ∨ k = .spawnLink a b ∨ k = .spawnLink b a ∨ k = .linkRemote a b

/-- The call is to list `a`. -/
def Kind.lists (a : Id) (k : Kind) : Prop := (∃ b, k = .linkRemote a b) ∨ ∃ n, k = .register a n

theorem fits_whole {x : Status} {l : List Act} (h : Fits x l) {y : Act} (hy : y ∈ l) : ∃ k, x.kind = some k ∧ y ∈ k.whole := by
  cases x with
  | unborn => rw [Fits] at h; subst h; cases hy
  | waiting k pc => exact ⟨k, rfl, (upTo_prefix h).subset hy⟩
  | dropped k pc => exact ⟨k, rfl, (upTo_prefix h).subset hy⟩
  | returned k ok => exact ⟨k, rfl, h.1.subset hy⟩

theorem did_made {ops : List Op} {c : Nat} {y : Act} (hy : y ∈ (after ops).did c) :
    ∃ k, .call c k ∈ ops ∧ ((after ops).status c).kind = some k ∧ y ∈ k.whole := by
  obtain ⟨k, hk, hw⟩ := fits_whole (after_fits ops c) hy
  exact ⟨k, (after_causes ops).made c k hk, hk, hw⟩

/-- **C97** (refuted for `link_remote`): dropped while it waits for the link set of its own actor, it leaves the actor in the registry, which
keeps a reference to it, though neither side is linked, if nobody else links the two. -/
theorem link_remote_left_half (ops : List Op) (c : Nat) (a b : Id) (h : (after ops).status c = .dropped (.linkRemote a b) 1)
    (hno : ∀ d k, .call d k ∈ ops → d ≠ c → ¬ k.joins a b) :
    (after ops).world.listed a = true ∧ (after ops).world.links a b = false ∧ (after ops).world.far b a = false := by
  have hf := after_fits ops c
  have hc := after_causes ops
  rw [h] at hf
  have hd : (after ops).did c = [.list a] := by
    simp only [Fits, Kind.upTo] at hf
    split at hf <;> simp_all
  have none_else : ∀ d y, y ∈ (after ops).did d → (∀ k, y ∈ Kind.whole k → k.joins a b) → y ≠ .list a → False := by
    intro d y hy hj hne
    by_cases hdc : d = c
    · subst hdc
      rw [hd] at hy
      exact hne (List.mem_singleton.mp hy)
    · obtain ⟨k, h1, _, h2⟩ := did_made hy
      exact hno d k h1 hdc (hj k h2)
  refine ⟨(hc.list a).mpr ⟨c, by simp [hd]⟩, ?_, ?_⟩
  · cases hl : (after ops).world.links a b with
    | false => rfl
    | true =>
      obtain ⟨d, h1 | h1 | h1⟩ := hc.link a b hl
      · exact (none_else d _ h1 (fun k hk => by cases k <;> simp [Kind.whole] at hk <;> grind [Kind.joins]) (by simp)).elim
      · exact (none_else d _ h1 (fun k hk => by cases k <;> simp [Kind.whole] at hk <;> grind [Kind.joins]) (by simp)).elim
      · exact (none_else d _ h1 (fun k hk => by cases k <;> simp [Kind.whole] at hk <;> grind [Kind.joins]) (by simp)).elim
  · cases hl : (after ops).world.far b a with
    | false => rfl
    | true =>
      obtain ⟨d, h1⟩ := hc.far a b hl
      exact (none_else d _ h1 (fun k hk => by cases k <;> simp [Kind.whole] at hk <;> grind [Kind.joins]) (by simp)).elim

example : (after [.boot, .call 0 (.linkRemote 1 2), .go 0 true, .drop 0]).status 0 = .dropped (.linkRemote 1 2) 1 := by decide

/-- **C97** (refuted for `register`): dropped while it waits, it never lists its actor, though the swarm may make the name known; if nobody
else lists the actor, whoever finds the name does not find the actor. -/
theorem register_left_half (ops : List Op) (c : Nat) (a : Id) (n pc : Nat) (h : (after ops).status c = .dropped (.register a n) pc)
    (hno : ∀ d k, .call d k ∈ ops → d ≠ c → ¬ k.lists a) : (after ops).world.listed a = false := by
  have hf := after_fits ops c
  rw [h] at hf
  cases hl : (after ops).world.listed a with
  | false => rfl
  | true =>
    obtain ⟨d, hd⟩ := ((after_causes ops).list a).mp hl
    by_cases hdc : d = c
    · subst hdc
      rcases pc with _ | _ | _ | pc <;> simp only [Fits, Kind.upTo] at hf
      · rw [← Option.some.inj hf] at hd; cases hd
      · rw [← Option.some.inj hf] at hd; simp at hd
      · rw [← Option.some.inj hf] at hd; simp at hd
      · cases hf
    · obtain ⟨k, h1, _, h2⟩ := did_made hd
      exact (hno d k h1 hdc (by cases k <;> simp [Kind.whole] at h2 <;> grind [Kind.lists])).elim

/-- The name is in the network, the actor is not to be found. -/
def lostName : List Op := [.boot, .call 0 (.register 1 7), .go 0 true, .drop 0, .serve 0 true true]

example : (after lostName).status 0 = .dropped (.register 1 7) 1 ∧ (after lostName).world.records 7 = some 1 ∧
    (after lostName).world.listed 1 = false := by decide

/-- Every command that was sent is on its way or has been answered. -/
def Kept (s : State) : Prop :=
  ∀ c x, .order x ∈ s.did c → ∃ q, s.world.swarm = some q ∧ ((c, x) ∈ q ∨ s.answer c ≠ none)

theorem act_kept {s : State} (h : Kept s) (c : Nat) (x : Act) (hx : ∀ y, x ≠ .order y) : Kept (s.act c x) := by
  intro d y hy
  have : .order y ∈ s.did d := by
    simp only [State.act, set] at hy
    split at hy
    · rename_i hd
      subst hd
      rcases List.mem_append.mp hy with h1 | h1
      · exact h1
      · exact absurd (List.mem_singleton.mp h1).symm (hx y)
    · exact hy
  obtain ⟨q, hq, hm⟩ := h d y this
  exact ⟨q, by cases x <;> first | exact hq | exact absurd rfl (hx _), hm⟩

theorem order_kept {s : State} (h : Kept s) (c : Nat) (x : Cmd) (hs : ∃ q, s.world.swarm = some q) :
    Kept (s.act c (.order x)) := by
  obtain ⟨q, hq⟩ := hs
  intro d y hy
  refine ⟨q ++ [(c, x)], by simp [State.act, World.act, hq], ?_⟩
  simp only [State.act, set] at hy
  split at hy
  · rename_i hd
    subst hd
    rcases List.mem_append.mp hy with h1 | h1
    · obtain ⟨q', hq', h2 | h2⟩ := h d y h1
      · rw [hq] at hq'
        cases hq'
        exact Or.inl (List.mem_append_left _ h2)
      · exact Or.inr h2
    · simp at h1
      subst h1
      simp
  · obtain ⟨q', hq', h2 | h2⟩ := h d y hy
    · rw [hq] at hq'
      cases hq'
      exact Or.inl (List.mem_append_left _ h2)
    · exact Or.inr h2

theorem kept_step {s : State} (h : Kept s) (op : Op) : Kept (s.step op) := by
  have hat : ∀ {t : State} (_ : Kept t) (c : Nat) (x : Status), Kept (t.at c x) := fun ht _ _ => ht
  cases op with
  | call c k =>
    simp only [State.step]
    split
    · cases k <;> simp only [State.call] <;> (repeat' split) <;>
        first | exact h | exact order_kept h c _ ⟨_, by assumption⟩
    · exact h
  | go c ok =>
    simp only [State.step]
    split
    · rename_i k pc hs
      cases k <;> rcases pc with _ | _ | pc <;> simp only [State.go, State.ordered, State.answered] <;> (repeat' split) <;>
        first
          | exact h
          | (refine hat (order_kept h c _ ?_) c _; exact ⟨_, by assumption⟩)
          | (refine hat (order_kept (act_kept h c _ ?_) c _ ?_) c _; (intro y e; cases e); exact ⟨_, by assumption⟩)
          | (refine hat (act_kept h c _ ?_) c _; intro y e; cases e; done)
          | (refine hat (act_kept (act_kept h c _ ?_) c _ ?_) c _ <;> (intro y e; cases e; done))
    · exact h
  | drop c =>
    simp only [State.step]
    split <;> exact h
  | serve i dn ok =>
    simp only [State.step]
    split
    · exact h
    · rename_i q hq
      split
      · exact h
      · rename_i c x hx
        intro d y hy
        obtain ⟨q', hq', hm⟩ := h d y hy
        rw [hq] at hq'
        cases hq'
        refine ⟨q.eraseIdx i, by cases dn <;> cases x <;> rfl, ?_⟩
        by_cases hdc : d = c
        · right
          simp [set, hdc]
        · rcases hm with hm | hm
          · left
            obtain ⟨j, hj⟩ := List.mem_iff_getElem?.mp hm
            have hij : j ≠ i := by
              rintro rfl
              rw [hx] at hj
              simp at hj
              exact hdc hj.1.symm
            exact List.mem_eraseIdx_iff_getElem?.mpr ⟨j, hij, hj⟩
          · right
            simpa [set, hdc] using hm
  | close a => exact h
  | boot =>
    intro d y hy
    obtain ⟨q, hq, hm⟩ := h d y hy
    exact ⟨q, by simp [State.step, hq], hm⟩

/-- **C97** Giving a call up does not take its command back: every command that a call has sent is on its way to the swarm, or the
swarm has answered it, whether the call is still there or not. -/
theorem command_stays (ops : List Op) (c : Nat) (x : Cmd) (h : .order x ∈ (after ops).did c) :
    ∃ q, (after ops).world.swarm = some q ∧ ((c, x) ∈ q ∨ (after ops).answer c ≠ none) := by
  have key : ∀ (l : List Op) (s : State), Kept s → Kept (l.foldl State.step s) := by
    intro l
    induction l with
    | nil => intro s hs; exact hs
    | cons o os ih => intro s hs; exact ih _ (kept_step hs o)
  exact key ops {} (fun c x hx => by simp at hx) c x h

example : .order (.register 1 7) ∈ (after (lostName.take 4)).did 0 ∧
    (after (lostName.take 4)).world.swarm = some [(0, .register 1 7)] ∧
    (after (lostName.take 4)).status 0 = .dropped (.register 1 7) 1 := by decide

/-! ### Local links -/

/-- The call writes one side only of the link of `a` and `b`. -/
def Kind.oneSided (a b : Id) (k : Kind) : Prop := k = .linkRemote a b ∨ k = .unlinkRemote a b

theorem links_sym_act {s : State} {a b : Id} (h : s.world.links a b = s.world.links b a) (c : Nat) (x : Act)
    (hx : x ≠ .mark a b ∧ x ≠ .mark b a ∧ x ≠ .unmark a b ∧ x ≠ .unmark b a) :
    (s.act c x).world.links a b = (s.act c x).world.links b a := by
  cases x <;> simp only [State.act, World.act] <;> grind [enter]

theorem links_sym_step {s : State} {a b : Id} (h : s.world.links a b = s.world.links b a) (op : Op)
    (hk : ∀ c k, (s.status c).kind = some k → ¬ k.oneSided a b ∧ ¬ k.oneSided b a) :
    (s.step op).world.links a b = (s.step op).world.links b a := by
  cases op with
  | call c k =>
    simp only [State.step]
    split
    · cases k <;> simp only [State.call] <;> (repeat' split) <;>
        first | exact h | exact links_sym_act h c _ (by simp)
    · exact h
  | go c ok =>
    simp only [State.step]
    split
    · rename_i k pc hs
      have hk := hk c k (by rw [hs]; rfl)
      cases k <;> rcases pc with _ | _ | pc <;> simp only [State.go, State.ordered, State.answered, State.at] <;>
        (repeat' split) <;> (try exact h) <;> simp only [State.act, World.act] <;>
        grind [enter, Kind.oneSided]
    · exact h
  | drop c =>
    simp only [State.step]
    split <;> exact h
  | serve i dn ok =>
    simp only [State.step]
    split
    · exact h
    · split
      · exact h
      · rename_i c x hx
        cases dn <;> cases x <;> exact h
  | close a => exact h
  | boot => exact h

/-- **C97** Links between actors of one node are on both sides or on neither at every moment, whichever calls are given up wherever. -/
theorem local_links_whole (ops : List Op) (a b : Id)
    (hno : ∀ c k, .call c k ∈ ops → ¬ k.oneSided a b ∧ ¬ k.oneSided b a) :
    (after ops).world.links a b = (after ops).world.links b a := by
  have key : ∀ (l past : List Op) (s : State), Causes past s → s.world.links a b = s.world.links b a →
      (∀ c k, .call c k ∈ past ++ l → ¬ k.oneSided a b ∧ ¬ k.oneSided b a) →
      (l.foldl State.step s).world.links a b = (l.foldl State.step s).world.links b a := by
    intro l
    induction l with
    | nil => intro past s _ h _; exact h
    | cons o os ih =>
      intro past s hc h hn
      refine ih (past ++ [o]) _ (causes_step hc o) (links_sym_step h o (fun c k hk => ?_)) (by simpa using hn)
      exact hn c k (List.mem_append_left _ (hc.made c k hk))
  exact key ops [] {} (after_causes []) rfl (by simpa using hno)

example : (after [.call 0 (.link 1 2), .call 1 (.link 2 1), .go 0 true, .drop 1, .call 2 (.unlink 1 2), .drop 2]).world.links 2 1
    = true := by decide

end Verif.GiveUp
