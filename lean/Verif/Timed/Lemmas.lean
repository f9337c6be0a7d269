import Verif.Timed.Model
import Verif.Mailbox.Props

/-! Helper lemmas about requests in time. -/

set_option linter.unusedSimpArgs false

namespace Verif.Timed

open Verif.Mailbox

/-- The tickets of a list. -/
def keys (l : List (Nat × Nat)) : List Nat := l.map (·.1)

@[simp] theorem set_self (w : W) (t : Nat) (r : Rq) : (w.set t r).rq t = r := by simp [W.set]
theorem set_other (w : W) {t x : Nat} (r : Rq) (h : x ≠ t) : (w.set t r).rq x = w.rq x := by simp [W.set, h]
@[simp] theorem set_mb (w : W) (t : Nat) (r : Rq) : (w.set t r).mb = w.mb := rfl
@[simp] theorem set_now (w : W) (t : Nat) (r : Rq) : (w.set t r).now = w.now := rfl

/-- The mailbox changes by mailbox operations only. -/
theorem mb_step (w : W) (op : Op) : ∃ l, (w.step op).mb = w.mb.run l := by
  cases op with
  | start p v =>
    by_cases hw : p.wait = true
    · exact ⟨[.send v], by simp [W.step, W.start, hw, Mb.run, Mb.step]⟩
    · exact ⟨[.trySend v], by simp [W.step, W.start, hw, Mb.run, Mb.step]⟩
  | poll t =>
    simp only [W.step, W.poll]
    split
    · split
      · exact ⟨[], rfl⟩
      · split
        · exact ⟨[.poll t], rfl⟩
        · split
          · exact ⟨[.cancel t], rfl⟩
          · exact ⟨[], rfl⟩
    · split
      · exact ⟨[], rfl⟩
      · exact ⟨[], rfl⟩
      · split <;> exact ⟨[], rfl⟩
    · exact ⟨[], rfl⟩
  | await t => simp only [W.step, W.await]; split <;> exact ⟨[], rfl⟩
  | drop t =>
    simp only [W.step, W.drop]
    split
    · exact ⟨[.cancel t], rfl⟩
    all_goals exact ⟨[], rfl⟩
  | recv => exact ⟨[.recv], rfl⟩
  | reply t v => simp only [W.step, W.reply]; split <;> exact ⟨[], rfl⟩
  | dropReply t => simp only [W.step, W.dropReply]; split <;> exact ⟨[], rfl⟩
  | close => exact ⟨[.close], rfl⟩
  | tick => exact ⟨[], rfl⟩

theorem mb_run (w : W) (ops : List Op) : ∃ l, (w.run ops).mb = w.mb.run l := by
  induction ops generalizing w with
  | nil => exact ⟨[], rfl⟩
  | cons op ops ih =>
    obtain ⟨a, ha⟩ := mb_step w op
    obtain ⟨b, hb⟩ := ih (w.step op)
    exact ⟨a ++ b, by rw [run_append, ← ha, ← hb]; rfl⟩

theorem run_append' (w : W) (a b : List Op) : w.run (a ++ b) = (w.run a).run b := by simp [W.run]

theorem run_snoc (w : W) (a : List Op) (op : Op) : w.run (a ++ [op]) = (w.run a).step op := by simp [W.run]

theorem mb_inv (cap : Option Nat) (ops : List Op) : Inv ((W.fresh cap).run ops).mb := by
  obtain ⟨l, hl⟩ := mb_run (W.fresh cap) ops
  rw [hl]
  exact inv_run (inv_fresh cap) l

theorem mb_cap (cap : Option Nat) (ops : List Op) : ((W.fresh cap).run ops).mb.cap = cap := by
  obtain ⟨l, hl⟩ := mb_run (W.fresh cap) ops
  rw [hl, run_cap]; rfl

/-! Pending sends stay pending unless they are the one polled or cancelled. -/

/-- Is the send operation pending? -/
def Pend (m : Mb Nat) (t : Nat) : Prop := t ∈ keys m.granted ∨ t ∈ keys m.waiting

theorem mem_keys_filter {l : List (Nat × Nat)} {t x : Nat} (h : x ∈ keys l) (hx : x ≠ t) :
    x ∈ keys (l.filter (fun p => p.1 != t)) := by
  obtain ⟨p, hp, rfl⟩ := List.mem_map.mp h
  exact List.mem_map.mpr ⟨p, List.mem_filter.mpr ⟨hp, by simpa using hx⟩, rfl⟩

theorem pend_release {m : Mb Nat} {t : Nat} (h : Pend m t) : Pend m.release t := by
  unfold Mb.release
  split
  · exact h
  · next w ws hw =>
    rcases h with h | h
    · left; simp only [keys, List.map_append, List.mem_append]; exact Or.inl h
    · rw [hw] at h
      simp only [keys, List.map_cons, List.mem_cons] at h
      rcases h with h | h
      · left; simp [keys, h]
      · right; exact h

theorem pend_send {m : Mb Nat} {t : Nat} (h : Pend m t) (v : Nat) : Pend (m.send v) t := by
  unfold Mb.send
  simp only [Mb.bump, Mb.push]
  split
  · exact h
  · split
    · exact h
    · rcases h with h | h
      · exact Or.inl h
      · right; simp only [keys, List.map_append, List.mem_append]; exact Or.inl h

theorem pend_trySend {m : Mb Nat} {t : Nat} (h : Pend m t) (v : Nat) : Pend (m.trySend v) t := by
  unfold Mb.trySend
  simp only [Mb.bump, Mb.push]
  split
  · exact h
  · split <;> exact h

theorem pend_poll {m : Mb Nat} {t x : Nat} (h : Pend m x) (hx : x ≠ t) : Pend (m.poll t) x := by
  unfold Mb.poll
  split
  · exact h
  · rcases h with h | h
    · exact Or.inl (mem_keys_filter h hx)
    · exact Or.inr h

theorem pend_cancel {m : Mb Nat} {t x : Nat} (h : Pend m x) (hx : x ≠ t) : Pend (m.cancel t) x := by
  unfold Mb.cancel
  split
  · rcases h with h | h
    · exact Or.inl h
    · exact Or.inr (mem_keys_filter h hx)
  · split
    · apply pend_release
      rcases h with h | h
      · exact Or.inl (mem_keys_filter h hx)
      · exact Or.inr h
    · exact h

theorem pend_recv {m : Mb Nat} {t : Nat} (h : Pend m t) : Pend m.recv t := by
  unfold Mb.recv
  split
  · exact h
  · exact pend_release (m := { m with queue := _, received := _ }) h

theorem pushed_sub {m : Mb Nat} {t : Nat} (l : List (Mailbox.Op Nat)) (h : t ∈ keys m.pushed) :
    t ∈ keys (m.run l).pushed := by
  induction l generalizing m with
  | nil => exact h
  | cons o l ih =>
    refine ih (m := m.step o) ?_
    obtain ⟨p, hp, rfl⟩ := List.mem_map.mp h
    exact List.mem_map.mpr ⟨p, (step_pushed m o).subset hp, rfl⟩

/-- What is true of each request, by stage. -/
structure RGood (m : Mb Nat) (now t : Nat) (r : Rq) : Prop where
  unborn : r.stage = .none → r.born = 0 ∧ r.chan = .none
  born : r.born ≤ now
  sending : r.stage = .sending → r.plan.wait = true ∧ m.cap ≠ none ∧ (m.closed = false → Pend m t)
  enq : r.stage = .enqueued → t ∈ keys m.pushed ∧ r.born ≤ r.took ∧ r.took ≤ now ∧ ∃ d, r.plan.after = .later d
  awa : r.stage = .awaiting → t ∈ keys m.pushed ∧ r.born ≤ r.took ∧ r.took ≤ r.since ∧ r.since ≤ now ∧
    r.plan.after ≠ .nothing ∧ (∀ d, r.plan.after = .now d → r.since = r.took)
  mtime : r.stage = .over (.failed .timeout) → r.plan.wait = true ∧ m.cap ≠ none ∧
    (∃ d, r.plan.mt = some d ∧ r.born + d ≤ r.ended) ∧ ∃ a, (t, a, Why.timeout) ∈ m.failed
  rtime : r.stage = .over .noReply → t ∈ keys m.pushed ∧ r.born ≤ r.took ∧ r.took ≤ r.since ∧
    (∃ d, r.plan.rt = some d ∧ r.since + d ≤ r.ended) ∧ (∀ d, r.plan.after = .now d → r.since = r.took)
  okk : ∀ v, r.stage = .over (.ok v) → t ∈ keys m.pushed ∧ r.plan.after ≠ .nothing
  fin : ∀ x, r.stage = .over x → r.ended ≤ now
  ful : r.stage = .over (.failed .full) → r.plan.wait = false ∧ m.cap ≠ none ∧ r.ended = r.born
  ch : r.chan ≠ .none → r.plan.after ≠ .nothing

theorem rgood_mono {m m' : Mb Nat} {now now' t : Nat} {r : Rq} (h : RGood m now t r) (hn : now ≤ now')
    (hcap : m'.cap = m.cap) (hp : t ∈ keys m.pushed → t ∈ keys m'.pushed) (hf : m.failed <+: m'.failed)
    (hpend : r.stage = .sending → m'.closed = false → m.closed = false ∧ (Pend m t → Pend m' t)) : RGood m' now' t r where
  unborn := h.unborn
  born := Nat.le_trans h.born hn
  sending := fun hs => by
    obtain ⟨a, b, c⟩ := h.sending hs
    refine ⟨a, by rw [hcap]; exact b, fun hc => ?_⟩
    obtain ⟨x, y⟩ := hpend hs hc
    exact y (c x)
  enq := fun hs => by obtain ⟨a, b, c, d⟩ := h.enq hs; exact ⟨hp a, b, Nat.le_trans c hn, d⟩
  awa := fun hs => by obtain ⟨a, b, c, d, e⟩ := h.awa hs; exact ⟨hp a, b, c, Nat.le_trans d hn, e⟩
  mtime := fun hs => by
    obtain ⟨a, b, c, x, d⟩ := h.mtime hs
    exact ⟨a, by rw [hcap]; exact b, c, x, hf.subset d⟩
  rtime := fun hs => by obtain ⟨a, b⟩ := h.rtime hs; exact ⟨hp a, b⟩
  okk := fun v hs => by obtain ⟨a, b⟩ := h.okk v hs; exact ⟨hp a, b⟩
  fin := fun x hs => Nat.le_trans (h.fin x hs) hn
  ful := fun hs => by obtain ⟨a, b, c⟩ := h.ful hs; exact ⟨a, by rw [hcap]; exact b, c⟩
  ch := h.ch

/-- The request after the mailbox took its message. -/
theorem rgood_accepted {m : Mb Nat} {now t : Nat} {r : Rq} (hb : r.born ≤ now) (hp : t ∈ keys m.pushed)
    (hc : r.chan ≠ .none → r.plan.after ≠ .nothing) : RGood m now t (r.accepted now) := by
  unfold Rq.accepted
  split
  · next h => constructor <;> simp [Rq.finish, hb, h] at hc ⊢ <;> simp [hc]
  · next d h => constructor <;> simp [hb, hp, h]
  · next d h => constructor <;> simp [hb, hp, h]

/-- The world is as it should be. -/
structure Good (w : W) : Prop where
  inv : Inv w.mb
  fut : ∀ t, w.mb.next ≤ t → w.rq t = {}
  each : ∀ t, RGood w.mb w.now t (w.rq t)

theorem rgood_default (m : Mb Nat) (now t : Nat) : RGood m now t {} := by
  constructor <;> simp

theorem good_fresh (cap : Option Nat) : Good (W.fresh cap) :=
  ⟨inv_fresh cap, fun _ _ => rfl, fun _ => rgood_default _ _ _⟩

theorem next_le_step (m : Mb Nat) (o : Mailbox.Op Nat) : m.next ≤ (m.step o).next := by
  cases o <;> simp only [Mb.step, Mb.send, Mb.trySend, Mb.poll, Mb.cancel, Mb.recv, Mb.close, Mb.push, Mb.bump]
  all_goals (repeat' split) <;> simp

theorem send_failed_closed {m : Mb Nat} {v : Nat} (h : m.closed = true) : (m.send v).closed = true := by simp [h]

theorem finish_failed_good {m : Mb Nat} {now t : Nat} {r : Rq} (hb : r.born ≤ now)
    (hc : r.chan ≠ .none → r.plan.after ≠ .nothing) : RGood m now t (r.finish (.failed .closed) now) := by
  constructor <;> simp [Rq.finish, hb] <;> exact hc

theorem finish_gone_good {m : Mb Nat} {now t : Nat} {r : Rq} (hb : r.born ≤ now)
    (hc : r.chan ≠ .none → r.plan.after ≠ .nothing) {x : Res} (hx : x = .dropped ∨ x = .stopped) :
    RGood m now t (r.finish x now) := by
  rcases hx with rfl | rfl <;> constructor <;> simp [Rq.finish, hb] <;> exact hc

/-- Requests other than the one a step is about. -/
theorem other_good {w : W} (h : Good w) (o : Mailbox.Op Nat) {x : Nat}
    (hc : (w.mb.step o).closed = false → w.mb.closed = false ∧ (Pend w.mb x → Pend (w.mb.step o) x)) :
    RGood (w.mb.step o) w.now x (w.rq x) :=
  rgood_mono (h.each x) (Nat.le_refl _) (step_cap _ _) (fun hp => pushed_sub [o] hp) (step_failed _ _) (fun _ => hc)

theorem good_start {w : W} (h : Good w) (p : Plan) (v : Nat) : Good (w.start p v) := by
  have key : ∀ (o : Mailbox.Op Nat) (r : Rq), o = .send v ∨ o = .trySend v →
      RGood (w.mb.step o) w.now w.mb.next r → Good (({ w with mb := w.mb.step o } : W).set w.mb.next r) := by
    intro o r ho hr
    have hnext : (w.mb.step o).next = w.mb.next + 1 := by
      rcases ho with rfl | rfl <;> simp only [Mb.step, Mb.send, Mb.trySend, Mb.bump, Mb.push] <;>
        (repeat' split) <;> rfl
    refine ⟨inv_step h.inv o, ?_, ?_⟩
    · intro t ht
      simp only [set_mb, hnext] at ht
      rw [set_other _ _ (by omega)]
      exact h.fut t (by omega)
    · intro t
      simp only [set_mb, set_now]
      by_cases e : t = w.mb.next
      · subst e; rw [set_self]; exact hr
      · rw [set_other _ _ e]
        refine other_good h o (fun hc => ?_)
        rcases ho with rfl | rfl
        · exact ⟨by simpa [Mb.step] using hc, fun hp => pend_send hp v⟩
        · exact ⟨by simpa [Mb.step] using hc, fun hp => pend_trySend hp v⟩
  have hch : ∀ r : Rq, r = { plan := p, born := w.now, chan := if p.after = .nothing then .none else .unanswered } →
      (r.chan ≠ .none → r.plan.after ≠ .nothing) := by
    intro r hr
    subst hr
    by_cases hp : p.after = .nothing <;> simp [hp]
  have hcapw : w.mb.hasRoom = false → w.mb.cap ≠ none := by
    intro hr hcn
    simp [Mb.hasRoom, hcn] at hr
  unfold W.start
  simp only []
  split
  · next hw =>
    refine key (.send v) _ (Or.inl rfl) ?_
    split
    · exact finish_failed_good (Nat.le_refl _) (hch _ rfl)
    · next hc =>
      split
      · next hr =>
        refine rgood_accepted (Nat.le_refl _) ?_ (hch _ rfl)
        simp [Mb.step, Mb.send, hc, hr, Mb.push, Mb.bump, keys]
      · next hr =>
        constructor <;> simp [hw]
        · refine ⟨by rw [step_cap]; exact hcapw (by simpa using hr), fun _ => Or.inr ?_⟩
          simp [Mb.step, Mb.send, hc, hr, Mb.bump, keys]
  · next hw =>
    refine key (.trySend v) _ (Or.inr rfl) ?_
    split
    · exact finish_failed_good (Nat.le_refl _) (hch _ rfl)
    · next hc =>
      split
      · next hr =>
        refine rgood_accepted (Nat.le_refl _) ?_ (hch _ rfl)
        simp [Mb.step, Mb.trySend, hc, hr, Mb.push, Mb.bump, keys]
      · next hr =>
        have := hch _ rfl
        constructor <;> simp [Rq.finish, hw]
        · have := hcapw (by simpa using hr)
          rw [step_cap]; exact this

/-- A step about one request, with a mailbox operation. -/
theorem good_at {w : W} (h : Good w) (o : Mailbox.Op Nat) {t : Nat} {r : Rq} (ho : o = .poll t ∨ o = .cancel t)
    (ht : (w.rq t).stage ≠ .none) (hr : RGood (w.mb.step o) w.now t r) :
    Good (({ w with mb := w.mb.step o } : W).set t r) := by
  have hlt : t < w.mb.next := by
    apply Classical.byContradiction
    intro hn
    exact ht (by rw [h.fut t (by omega)])
  refine ⟨inv_step h.inv o, ?_, ?_⟩
  · intro x hx
    simp only [set_mb] at hx
    have := next_le_step w.mb o
    rw [set_other _ _ (by omega)]
    exact h.fut x (by omega)
  · intro x
    simp only [set_mb, set_now]
    by_cases e : x = t
    · subst e; rw [set_self]; exact hr
    · rw [set_other _ _ e]
      refine other_good h o (fun hc => ?_)
      rcases ho with rfl | rfl
      · exact ⟨by simpa [Mb.step] using hc, fun hp => pend_poll hp e⟩
      · exact ⟨by simpa [Mb.step] using hc, fun hp => pend_cancel hp e⟩

/-- A step about one request which leaves the mailbox alone. -/
theorem good_set {w : W} (h : Good w) {t : Nat} {r : Rq} (ht : (w.rq t).stage ≠ .none ∨ (w.rq t).chan ≠ .none)
    (hr : RGood w.mb w.now t r) : Good (w.set t r) := by
  have hlt : t < w.mb.next := by
    apply Classical.byContradiction
    intro hn
    have := h.fut t (by omega)
    rcases ht with ht | ht <;> exact ht (by rw [this])
  refine ⟨h.inv, ?_, ?_⟩
  · intro x hx
    simp only [set_mb] at hx
    rw [set_other _ _ (by omega)]
    exact h.fut x hx
  · intro x
    simp only [set_mb, set_now]
    by_cases e : x = t
    · subst e; rw [set_self]; exact hr
    · rw [set_other _ _ e]; exact h.each x

theorem granted_pushes {m : Mb Nat} {t : Nat} (h : (m.granted.find? (fun p => p.1 == t)).isSome = true) :
    t ∈ keys (m.poll t).pushed := by
  unfold Mb.poll
  split
  · next e => simp [e] at h
  · simp [Mb.push, keys]

theorem pend_cancels {m : Mb Nat} {t : Nat} (h : Pend m t) : ∃ a, (t, a, Why.timeout) ∈ (m.cancel t).failed := by
  unfold Mb.cancel
  split
  · next p _ => exact ⟨p.2, by simp⟩
  · next e =>
    split
    · next p _ => exact ⟨p.2, by simp⟩
    · next e' =>
      exfalso
      rcases h with h | h
      · obtain ⟨p, hp, rfl⟩ := List.mem_map.mp h
        exact absurd (List.find?_eq_none.mp e' p hp) (by simp)
      · obtain ⟨p, hp, rfl⟩ := List.mem_map.mp h
        exact absurd (List.find?_eq_none.mp e p hp) (by simp)

theorem due_some {d : Option Nat} {a b : Nat} (h : due d a b = true) : ∃ x, d = some x ∧ a + x ≤ b := by
  unfold due at h
  split at h
  · cases h
  · next x => exact ⟨x, rfl, by simpa using h⟩

theorem good_poll {w : W} (h : Good w) (t : Nat) : Good (w.poll t) := by
  have ht := h.each t
  unfold W.poll
  simp only []
  split
  · next hs =>
    have hne : (w.rq t).stage ≠ .none := by rw [hs]; simp
    obtain ⟨h1, h2, h3⟩ := ht.sending hs
    split
    · exact good_set h (Or.inl hne) (finish_failed_good ht.born ht.ch)
    · next hc =>
      split
      · next hg => exact good_at h (.poll t) (Or.inl rfl) hne (rgood_accepted ht.born (granted_pushes hg) ht.ch)
      · split
        · next hd =>
          obtain ⟨d, hd1, hd2⟩ := due_some hd
          obtain ⟨a, ha⟩ := pend_cancels (h3 (by simpa using hc))
          refine good_at h (.cancel t) (Or.inr rfl) hne ?_
          have hch := ht.ch
          have hb := ht.born
          constructor <;> simp [Rq.finish, hb]
          · exact ⟨h1, by rw [step_cap]; exact h2, ⟨d, hd1, hd2⟩, a, ha⟩
          · exact hch
        · exact h
  · next hs =>
    have hne : (w.rq t).stage ≠ .none := by rw [hs]; simp
    obtain ⟨h1, h2, h3, h4, h5, h6⟩ := ht.awa hs
    have hch := ht.ch
    have hb := ht.born
    split
    · refine good_set h (Or.inl hne) ?_
      constructor <;> simp [Rq.finish, hb]
      · exact ⟨h1, h5⟩
      · exact hch
    · exact good_set h (Or.inl hne) (finish_gone_good hb hch (Or.inr rfl))
    · split
      · next hd =>
        obtain ⟨d, hd1, hd2⟩ := due_some hd
        refine good_set h (Or.inl hne) ?_
        constructor <;> simp [Rq.finish, hb]
        · exact ⟨h1, h2, h3, ⟨d, hd1, hd2⟩, h6⟩
        · exact hch
      · exact h
  · exact h

theorem good_await {w : W} (h : Good w) (t : Nat) : Good (w.await t) := by
  have ht := h.each t
  unfold W.await
  split
  · next hs =>
    obtain ⟨h1, h2, h3, d, h4⟩ := ht.enq hs
    have hch := ht.ch
    have hb := ht.born
    refine good_set h (Or.inl (by rw [hs]; simp)) ?_
    constructor <;> simp [hb, h1, h2, h3, h4] <;> exact hch
  · exact h

theorem good_drop {w : W} (h : Good w) (t : Nat) : Good (w.drop t) := by
  have ht := h.each t
  unfold W.drop
  simp only []
  split
  · next hs =>
    exact good_at h (.cancel t) (Or.inr rfl) (by rw [hs]; simp) (finish_gone_good ht.born ht.ch (Or.inl rfl))
  · next hs => exact good_set h (Or.inl (by rw [hs]; simp)) (finish_gone_good ht.born ht.ch (Or.inl rfl))
  · next hs => exact good_set h (Or.inl (by rw [hs]; simp)) (finish_gone_good ht.born ht.ch (Or.inl rfl))
  · exact h

/-- Only the reply channel changes. -/
theorem rgood_chan {m : Mb Nat} {now t : Nat} {r : Rq} (h : RGood m now t r) (hc : r.chan = .unanswered) (c : Chan) :
    RGood m now t { r with chan := c } := by
  have hn : r.stage ≠ .none := fun hs => by have := (h.unborn hs).2; rw [hc] at this; cases this
  have ha := h.ch (by rw [hc]; simp)
  exact ⟨fun hs => absurd hs hn, h.born, h.sending, h.enq, h.awa, h.mtime, h.rtime, h.okk, h.fin, h.ful, fun _ => ha⟩

theorem good_close {w : W} (h : Good w) : Good w.close := by
  refine ⟨inv_close h.inv, ?_, ?_⟩
  · intro t ht
    have := h.fut t ht
    simp [W.close, this]
  · intro t
    have base : RGood w.mb.close w.now t (w.rq t) :=
      other_good h .close (fun hc => by simp [Mb.step] at hc)
    simp only [W.close]
    split
    · next hc => exact rgood_chan base hc.2 _
    · exact base

theorem good_step {w : W} (h : Good w) (op : Op) : Good (w.step op) := by
  cases op with
  | start p v => exact good_start h p v
  | poll t => exact good_poll h t
  | await t => exact good_await h t
  | drop t => exact good_drop h t
  | recv =>
    refine ⟨inv_recv h.inv, fun t ht => h.fut t ?_, fun t => other_good h .recv (fun hc => ?_)⟩
    · exact Nat.le_trans (next_le_step w.mb .recv) ht
    · exact ⟨by simpa [Mb.step] using hc, fun hp => pend_recv hp⟩
  | reply t v =>
    simp only [W.step, W.reply]
    split
    · next hc => exact good_set h (Or.inr (by rw [hc.2]; simp)) (rgood_chan (h.each t) hc.2 _)
    · exact h
  | dropReply t =>
    simp only [W.step, W.dropReply]
    split
    · next hc => exact good_set h (Or.inr (by rw [hc.2]; simp)) (rgood_chan (h.each t) hc.2 _)
    · exact h
  | close => exact good_close h
  | tick =>
    exact ⟨h.inv, h.fut, fun t => rgood_mono (h.each t) (Nat.le_succ _) rfl id (List.prefix_refl _)
      (fun _ hc => ⟨hc, id⟩)⟩

theorem good_run {w : W} (h : Good w) (ops : List Op) : Good (w.run ops) := by
  induction ops generalizing w with
  | nil => exact h
  | cons op ops ih => exact ih (good_step h op)

theorem good (cap : Option Nat) (ops : List Op) : Good ((W.fresh cap).run ops) := good_run (good_fresh cap) ops

end Verif.Timed
