import Verif.Calls.Steps

/-! Infinite executions of `Verif.Calls`: what a handler may wait for, and that in fair executions it waits for nothing
else for ever. -/

set_option linter.unusedSimpArgs false

namespace Verif.Calls

open Verif.Mailbox

/-- The world after `n` steps of an execution. `World.step` along it (`src/actor/kind.rs` L97-156,
`src/request/ask.rs` L107-360). -/
def at_ (caps : Nat → Option Nat) (ops : Nat → Op) : Nat → World
  | 0 => World.fresh caps
  | n + 1 => (at_ caps ops n).step (ops n)

/-- A poll of the actor's task gets its handler further: it can run on, a slot of the mailbox was handed to it, the
mailbox was closed, the reply channel has a value or is closed. -/
def World.ready (w : World) (a : Nat) : Prop :=
  match w.hand a with
  | .busy _ (.go _) => True
  | .busy _ (.sending c t _ _) => (w.mb c.tgt).closed = true ∨ t ∈ (w.mb c.tgt).granted.map (·.1)
  | .busy _ (.awaiting _ ch _) => w.chan ch ≠ .opn
  | _ => False

/-- The actor waits with a time-out: for the mailbox, or for the reply. -/
def World.timed (w : World) (a : Nat) : Prop :=
  match w.hand a with
  | .busy _ (.sending c _ _ _) => c.mt = true
  | .busy _ (.awaiting c _ _) => c.rt = true
  | _ => False

/-- A fair execution: whoever could go on all the time from some moment on, does. A task that can be polled to effect is
polled; an idle actor with signals in its mailbox takes one; a time-out passes; a sender outside of the actors that was
handed a slot uses it or gives it back. (The scheduler of tokio and its timers.) -/
structure Fair (caps : Nat → Option Nat) (ops : Nat → Op) : Prop where
  poll : ∀ n a, (∀ m, n ≤ m → (at_ caps ops m).ready a) → ∃ m, n ≤ m ∧ ops m = .poll a
  recv : ∀ n a, (∀ m, n ≤ m → (at_ caps ops m).hand a = .idle ∧ ((at_ caps ops m).mb a).queue ≠ []) →
    ∃ m p, n ≤ m ∧ ops m = .recv a p
  expire : ∀ n a, (∀ m, n ≤ m → (at_ caps ops m).timed a) → ∃ m, n ≤ m ∧ ops m = .expire a
  outside : ∀ n b t s, s.src = none → (∀ m, n ≤ m → (t, s) ∈ ((at_ caps ops m).mb b).granted) →
    ∃ m, n ≤ m ∧ (ops m = .outPoll b t ∨ ops m = .outCancel b t)

theorem inv_at (caps : Nat → Option Nat) (ops : Nat → Op) (n : Nat) : Inv (at_ caps ops n) := by
  induction n with
  | zero => exact inv_fresh caps
  | succ n ih => exact inv_step ih _

/-! ### Lists of the first moment -/

theorem first {P : Nat → Prop} {n m : Nat} (h : n ≤ m) (hp : P m) :
    ∃ k, n ≤ k ∧ k ≤ m ∧ P k ∧ ∀ j, n ≤ j → j < k → ¬ P j := by
  induction m using Nat.strongRecOn with
  | ind m ih =>
    by_cases he : ∃ j, n ≤ j ∧ j < m ∧ P j
    · obtain ⟨j, h1, h2, h3⟩ := he
      obtain ⟨k, k1, k2, k3, k4⟩ := ih j h2 h1 h3
      exact ⟨k, k1, by omega, k3, k4⟩
    · exact ⟨m, h, Nat.le_refl _, hp, fun j h1 h2 h3 => he ⟨j, h1, h2, h3⟩⟩

/-- Something that holds at `n` holds for ever, or there is a last moment. -/
theorem until_change {P : Nat → Prop} {n : Nat} (h : P n) :
    (∀ m, n ≤ m → P m) ∨ ∃ m, n ≤ m ∧ (∀ j, n ≤ j → j ≤ m → P j) ∧ ¬ P (m + 1) := by
  by_cases hh : ∀ m, n ≤ m → P m
  · exact Or.inl hh
  · right
    simp only [Classical.not_forall] at hh
    obtain ⟨m, hm, hn⟩ := hh
    obtain ⟨k, k1, _, k3, k4⟩ := first (P := fun m => ¬ P m) hm hn
    have hk : k ≠ n := fun e => k3 (e ▸ h)
    refine ⟨k - 1, by omega, ?_, ?_⟩
    · intro j j1 j2; exact Classical.byContradiction fun e => k4 j j1 (by omega) e
    · rw [show k - 1 + 1 = k by omega]; exact k3

/-! ### How what an actor does changes -/

section
variable (w : World) (op : Op) (a : Nat)

theorem hand_other_call (x : Nat) (hx : x ≠ a) (r : Option Nat) (c : Call) (k : Ans → Prog) :
    (w.call a r c k).hand x = w.hand x := by simp [World.call, hx]

theorem hand_other_poll (x : Nat) (hx : x ≠ a) : (w.poll a).hand x = w.hand x := by
  unfold World.poll
  split
  · simp [hx]
  · exact hand_other_call w a x hx _ _ _
  · dsimp only; repeat' split
    all_goals simp [hx]
  · split <;> simp [hx]
  · rfl

theorem hand_other_expire (x : Nat) (hx : x ≠ a) : (w.expire a).hand x = w.hand x := by
  unfold World.expire
  split
  · dsimp only; split <;> simp [hx]
  · split <;> simp [hx]
  · rfl

theorem hand_other_recv (x : Nat) (hx : x ≠ a) (p : Prog) : (w.recv a p).hand x = w.hand x := by
  unfold World.recv
  split <;> simp [hx]

theorem hand_other_fail (x : Nat) (hx : x ≠ a) : (w.fail a).hand x = w.hand x := by
  unfold World.fail
  split <;> simp [hx]

theorem hand_other_kill (x : Nat) (hx : x ≠ a) : (w.kill a).hand x = w.hand x := by
  unfold World.kill
  split <;> simp [hx]

@[simp] theorem outPoll_hand (b t : Nat) : (w.outPoll b t).hand = w.hand := by
  unfold World.outPoll; split <;> rfl
@[simp] theorem outCancel_hand (b t : Nat) : (w.outCancel b t).hand = w.hand := by
  unfold World.outCancel; split <;> rfl

/-- What the actor does changes by its own steps only. -/
theorem hand_step : (w.step op).hand a = w.hand a ∨ (∃ p, op = .recv a p) ∨ op = .poll a ∨ op = .expire a ∨
    op = .fail a ∨ op = .kill a := by
  cases op with
  | recv x p => by_cases h : a = x
                · exact Or.inr (Or.inl ⟨p, by rw [h]⟩)
                · exact Or.inl (hand_other_recv w x a h p)
  | poll x => by_cases h : a = x
              · simp [h]
              · exact Or.inl (hand_other_poll w x a h)
  | expire x => by_cases h : a = x
                · simp [h]
                · exact Or.inl (hand_other_expire w x a h)
  | fail x => by_cases h : a = x
              · simp [h]
              · exact Or.inl (hand_other_fail w x a h)
  | kill x => by_cases h : a = x
              · simp [h]
              · exact Or.inl (hand_other_kill w x a h)
  | out b q m => exact Or.inl rfl
  | stop b => exact Or.inl rfl
  | outPoll b t => left; simp [World.step]
  | outCancel b t => left; simp [World.step]

theorem kill_ended : (w.kill a).hand a = .ended := by
  unfold World.kill
  split <;> simp [*]

variable {w op a}

theorem hand_from_ended (h : w.hand a = .ended) : (w.step op).hand a = .ended := by
  rcases hand_step w op a with h1 | ⟨p, h1⟩ | h1 | h1 | h1 | h1
  · rw [h1, h]
  all_goals subst h1; simp [World.step, World.recv, World.poll, World.expire, World.fail, World.kill, h]

theorem hand_from_idle (h : w.hand a = .idle) : (w.step op).hand a = .idle ∨ (w.step op).hand a = .ended ∨
    ∃ p, op = .recv a p ∧ (w.mb a).queue ≠ [] := by
  rcases hand_step w op a with h1 | ⟨p, h1⟩ | h1 | h1 | h1 | h1
  · left; rw [h1, h]
  · subst h1
    by_cases hq : (w.mb a).queue = []
    · left; simp [World.step, World.recv, hq, h]
    · exact Or.inr (Or.inr ⟨p, rfl, hq⟩)
  · subst h1; left; simp [World.step, World.poll, h]
  · subst h1; left; simp [World.step, World.expire, h]
  · subst h1; left; simp [World.step, World.fail, h]
  · subst h1; right; left; exact kill_ended w a

/-- From `go p`: only a poll, a panic or a kill. -/
theorem hand_from_go {r : Option Nat} {p : Prog} (h : w.hand a = .busy r (.go p)) :
    (w.step op).hand a = .busy r (.go p) ∧ op ≠ .poll a ∨ op = .poll a ∨
    (w.step op).hand a = .idle ∨ (w.step op).hand a = .ended := by
  by_cases hp : op = .poll a
  · exact Or.inr (Or.inl hp)
  rcases hand_step w op a with h1 | ⟨p, h1⟩ | h1 | h1 | h1 | h1
  · left; exact ⟨by rw [h1, h], hp⟩
  · subst h1; left; simp [World.step, World.recv, h]
  · exact (hp h1).elim
  · subst h1; left; simp [World.step, World.expire, h]
  · subst h1; right; right; left; simp [World.step, World.fail, h]
  · subst h1; right; right; right; exact kill_ended w a

theorem hand_poll_ret {r : Option Nat} {v : Nat} (h : w.hand a = .busy r (.go (.ret v))) :
    (w.step (.poll a)).hand a = .idle := by simp [World.step, World.poll, h]

theorem hand_poll_call {r : Option Nat} {c : Call} {k : Ans → Prog} (h : w.hand a = .busy r (.go (.call c k))) :
    (∃ x, (w.step (.poll a)).hand a = .busy r (.go (k x))) ∨
    (∃ ch, (w.step (.poll a)).hand a = .busy r (.awaiting c ch k) ∧ c.ask = true) ∨
    (∃ t ch, (w.step (.poll a)).hand a = .busy r (.sending c t ch k) ∧ c.wait = true) := by
  simp only [World.step, World.poll, h, World.call, setHand_hand, if_true]
  repeat' split
  · exact Or.inl ⟨_, rfl⟩
  · exact Or.inr (Or.inl ⟨_, rfl, by assumption⟩)
  · exact Or.inl ⟨_, rfl⟩
  · exact Or.inr (Or.inr ⟨_, _, rfl, by assumption⟩)
  · exact Or.inl ⟨_, rfl⟩

theorem hand_from_awaiting {r : Option Nat} {c : Call} {ch : Nat} {k : Ans → Prog}
    (h : w.hand a = .busy r (.awaiting c ch k)) :
    (w.step op).hand a = .busy r (.awaiting c ch k) ∨ (w.step op).hand a = .ended ∨
    ∃ x, (w.step op).hand a = .busy r (.go (k x)) := by
  rcases hand_step w op a with h1 | ⟨p, h1⟩ | h1 | h1 | h1 | h1
  · left; rw [h1, h]
  · subst h1; left; simp [World.step, World.recv, h]
  · subst h1
    simp only [World.step, World.poll, h]
    split
    · exact Or.inr (Or.inr ⟨_, by simp; rfl⟩)
    · exact Or.inr (Or.inr ⟨_, by simp; rfl⟩)
    · exact Or.inl h
  · subst h1
    simp only [World.step, World.expire, h]
    split
    · exact Or.inr (Or.inr ⟨_, by simp; rfl⟩)
    · exact Or.inl h
  · subst h1; left; simp [World.step, World.fail, h]
  · subst h1; right; left; exact kill_ended w a

theorem hand_from_sending {r : Option Nat} {c : Call} {t ch : Nat} {k : Ans → Prog}
    (h : w.hand a = .busy r (.sending c t ch k)) :
    (w.step op).hand a = .busy r (.sending c t ch k) ∨ (w.step op).hand a = .ended ∨
    (∃ x, (w.step op).hand a = .busy r (.go (k x))) ∨
    ((w.step op).hand a = .busy r (.awaiting c ch k) ∧ c.ask = true) := by
  rcases hand_step w op a with h1 | ⟨p, h1⟩ | h1 | h1 | h1 | h1
  · left; rw [h1, h]
  · subst h1; left; simp [World.step, World.recv, h]
  · subst h1
    simp only [World.step, World.poll, h]
    split
    · exact Or.inr (Or.inr (Or.inl ⟨_, by simp; rfl⟩))
    · split
      · by_cases ha : c.ask = true
        · exact Or.inr (Or.inr (Or.inr ⟨by simp [ha], ha⟩))
        · exact Or.inr (Or.inr (Or.inl ⟨_, by simp [ha]; rfl⟩))
      · exact Or.inl h
  · subst h1
    simp only [World.step, World.expire, h]
    split
    · exact Or.inr (Or.inr (Or.inl ⟨_, by simp; rfl⟩))
    · exact Or.inl h
  · subst h1; left; simp [World.step, World.fail, h]
  · subst h1; right; left; exact kill_ended w a
end

/-- The handler is at the same place for ever. -/
def StuckFrom (caps : Nat → Option Nat) (ops : Nat → Op) (n a : Nat) (r : Option Nat) (pc : Pc) : Prop :=
  ∀ m, n ≤ m → (at_ caps ops m).hand a = .busy r pc

section
variable {caps : Nat → Option Nat} {ops : Nat → Op}

theorem StuckFrom.later {n m a : Nat} {r : Option Nat} {pc : Pc} (h : StuckFrom caps ops n a r pc) (hm : n ≤ m) :
    StuckFrom caps ops m a r pc := fun j hj => h j (by omega)

/-- A handler that runs comes to its end, or stays at one place for ever. -/
def Ends (caps : Nat → Option Nat) (ops : Nat → Op) (n a : Nat) : Prop :=
  ∃ m, n ≤ m ∧ ((∀ r pc, (at_ caps ops m).hand a ≠ .busy r pc) ∨ ∃ r pc, StuckFrom caps ops m a r pc)

theorem Ends.earlier {n m a : Nat} (h : Ends caps ops m a) (hm : n ≤ m) : Ends caps ops n a := by
  obtain ⟨j, h1, h2⟩ := h
  exact ⟨j, by omega, h2⟩

theorem ends_ended {n a : Nat} (h : (at_ caps ops n).hand a = .ended) : Ends caps ops n a :=
  ⟨n, Nat.le_refl _, Or.inl fun r pc => by rw [h]; simp⟩

theorem ends_idle {n a : Nat} (h : (at_ caps ops n).hand a = .idle) : Ends caps ops n a :=
  ⟨n, Nat.le_refl _, Or.inl fun r pc => by rw [h]; simp⟩

theorem ends_awaiting {n a : Nat} {r : Option Nat} {c : Call} {ch : Nat} {k : Ans → Prog}
    (hk : ∀ x n, (at_ caps ops n).hand a = .busy r (.go (k x)) → Ends caps ops n a)
    (h : (at_ caps ops n).hand a = .busy r (.awaiting c ch k)) : Ends caps ops n a := by
  rcases until_change (P := fun m => (at_ caps ops m).hand a = .busy r (.awaiting c ch k)) h with h1 | ⟨m, m1, m2, m3⟩
  · exact ⟨n, Nat.le_refl _, Or.inr ⟨r, _, h1⟩⟩
  · have hm := m2 m m1 (Nat.le_refl _)
    rcases hand_from_awaiting (op := ops m) hm with e | e | ⟨x, e⟩
    · exact (m3 e).elim
    · exact (ends_ended (n := m + 1) e).earlier (by omega)
    · exact (hk x (m + 1) e).earlier (by omega)

theorem ends_sending {n a : Nat} {r : Option Nat} {c : Call} {t ch : Nat} {k : Ans → Prog}
    (hk : ∀ x n, (at_ caps ops n).hand a = .busy r (.go (k x)) → Ends caps ops n a)
    (h : (at_ caps ops n).hand a = .busy r (.sending c t ch k)) : Ends caps ops n a := by
  rcases until_change (P := fun m => (at_ caps ops m).hand a = .busy r (.sending c t ch k)) h with h1 | ⟨m, m1, m2, m3⟩
  · exact ⟨n, Nat.le_refl _, Or.inr ⟨r, _, h1⟩⟩
  · have hm := m2 m m1 (Nat.le_refl _)
    rcases hand_from_sending (op := ops m) hm with e | e | ⟨x, e⟩ | ⟨e, _⟩
    · exact (m3 e).elim
    · exact (ends_ended (n := m + 1) e).earlier (by omega)
    · exact (hk x (m + 1) e).earlier (by omega)
    · exact (ends_awaiting (n := m + 1) hk e).earlier (by omega)

theorem ends_go (hf : Fair caps ops) (a : Nat) (r : Option Nat) (p : Prog) :
    ∀ n, (at_ caps ops n).hand a = .busy r (.go p) → Ends caps ops n a := by
  induction p with
  | ret v =>
    intro n h
    have hex : ∃ m, n ≤ m ∧ (ops m = .poll a ∨ (at_ caps ops m).hand a ≠ .busy r (.go (.ret v))) := by
      by_cases hc : ∀ m, n ≤ m → (at_ caps ops m).hand a = .busy r (.go (.ret v))
      · obtain ⟨m, m1, m2⟩ := hf.poll n a (fun m hm => by simp [World.ready, hc m hm])
        exact ⟨m, m1, Or.inl m2⟩
      · simp only [Classical.not_forall] at hc
        obtain ⟨m, m1, m2⟩ := hc
        exact ⟨m, m1, Or.inr m2⟩
    obtain ⟨m, m1, m2⟩ := hex
    obtain ⟨i, i1, i2, i3, i4⟩ := first
      (P := fun m => ops m = .poll a ∨ (at_ caps ops m).hand a ≠ .busy r (.go (.ret v))) m1 m2
    by_cases hi : (at_ caps ops i).hand a = .busy r (.go (.ret v))
    · rcases i3 with e | e
      · have : (at_ caps ops (i + 1)).hand a = .idle := by
          show ((at_ caps ops i).step (ops i)).hand a = _
          rw [e]; exact hand_poll_ret hi
        exact (ends_idle this).earlier (by omega)
      · exact (e hi).elim
    · have hne : i ≠ n := fun e => hi (e ▸ h)
      have hprev : (at_ caps ops (i - 1)).hand a = .busy r (.go (.ret v)) :=
        Classical.byContradiction fun e => i4 (i - 1) (by omega) (by omega) (Or.inr e)
      have hnp : ops (i - 1) ≠ .poll a := fun e => i4 (i - 1) (by omega) (by omega) (Or.inl e)
      have he : at_ caps ops i = (at_ caps ops (i - 1)).step (ops (i - 1)) := by
        conv => lhs; rw [show i = i - 1 + 1 by omega]
        rfl
      rcases hand_from_go (op := ops (i - 1)) hprev with ⟨e, _⟩ | e | e | e
      · rw [← he] at e; exact (hi e).elim
      · exact (hnp e).elim
      · rw [← he] at e; exact (ends_idle e).earlier i1
      · rw [← he] at e; exact (ends_ended e).earlier i1
  | call c k ih =>
    intro n h
    have hex : ∃ m, n ≤ m ∧ (ops m = .poll a ∨ (at_ caps ops m).hand a ≠ .busy r (.go (.call c k))) := by
      by_cases hc : ∀ m, n ≤ m → (at_ caps ops m).hand a = .busy r (.go (.call c k))
      · obtain ⟨m, m1, m2⟩ := hf.poll n a (fun m hm => by simp [World.ready, hc m hm])
        exact ⟨m, m1, Or.inl m2⟩
      · simp only [Classical.not_forall] at hc
        obtain ⟨m, m1, m2⟩ := hc
        exact ⟨m, m1, Or.inr m2⟩
    obtain ⟨m, m1, m2⟩ := hex
    obtain ⟨i, i1, i2, i3, i4⟩ := first
      (P := fun m => ops m = .poll a ∨ (at_ caps ops m).hand a ≠ .busy r (.go (.call c k))) m1 m2
    by_cases hi : (at_ caps ops i).hand a = .busy r (.go (.call c k))
    · rcases i3 with e | e
      · have he : at_ caps ops (i + 1) = (at_ caps ops i).step (.poll a) := by rw [← e]; rfl
        rcases hand_poll_call hi with ⟨x, e⟩ | ⟨ch, e, _⟩ | ⟨t, ch, e, _⟩ <;> rw [← he] at e
        · exact (ih x (i + 1) e).earlier (by omega)
        · exact (ends_awaiting ih e).earlier (by omega)
        · exact (ends_sending ih e).earlier (by omega)
      · exact (e hi).elim
    · have hne : i ≠ n := fun e => hi (e ▸ h)
      have hprev : (at_ caps ops (i - 1)).hand a = .busy r (.go (.call c k)) :=
        Classical.byContradiction fun e => i4 (i - 1) (by omega) (by omega) (Or.inr e)
      have hnp : ops (i - 1) ≠ .poll a := fun e => i4 (i - 1) (by omega) (by omega) (Or.inl e)
      have he : at_ caps ops i = (at_ caps ops (i - 1)).step (ops (i - 1)) := by
        conv => lhs; rw [show i = i - 1 + 1 by omega]
        rfl
      rcases hand_from_go (op := ops (i - 1)) hprev with ⟨e, _⟩ | e | e | e
      · rw [← he] at e; exact (hi e).elim
      · exact (hnp e).elim
      · rw [← he] at e; exact (ends_idle e).earlier i1
      · rw [← he] at e; exact (ends_ended e).earlier i1

/-- Every actor is found idle, gone or at one place for ever. -/
theorem ends_always (hf : Fair caps ops) (n a : Nat) : Ends caps ops n a := by
  cases h : (at_ caps ops n).hand a with
  | idle => exact ends_idle h
  | ended => exact ends_ended h
  | busy r pc =>
    cases pc with
    | go p => exact ends_go hf a r p n h
    | awaiting c ch k => exact ends_awaiting (fun x n => ends_go hf a r (k x) n) h
    | sending c t ch k => exact ends_sending (fun x n => ends_go hf a r (k x) n) h

end

end Verif.Calls
