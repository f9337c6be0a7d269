import Verif.Calls.Trace

/-! C102: requests arrive in causal order. -/

set_option linter.unusedSimpArgs false

namespace Verif.Calls

open Verif.Mailbox

/-- Whose step it is: an actor's, or one of somebody outside of all actors. (Who kills an actor is not known; that its
task ends is a step of the actor.) -/
def Op.who : Op → Option Nat
  | .recv a _ => some a
  | .poll a => some a
  | .expire a => some a
  | .fail a => some a
  | .kill a => some a
  | .out _ _ _ => none
  | .stop _ => none
  | .outPoll _ _ => none
  | .outCancel _ _ => none

section
variable (caps : Nat → Option Nat) (ops : Nat → Op)

/-- In step `n` somebody begins to send the signal `p` to `b`. -/
def Begins (n b : Nat) (p : Nat × Sig) : Prop :=
  ((at_ caps ops (n + 1)).mb b).sent = ((at_ caps ops n).mb b).sent ++ [p]

/-- In step `n` actor `b` takes the signal `p` from its mailbox. -/
def Takes (n b : Nat) (p : Nat × Sig) : Prop :=
  ((at_ caps ops (n + 1)).mb b).received = ((at_ caps ops n).mb b).received ++ [p]

/-- In step `n` the reply channel `ch` gets the value `v`. -/
def Replies (n ch v : Nat) : Prop := (at_ caps ops n).chan ch = .opn ∧ (at_ caps ops (n + 1)).chan ch = .value v

/-- In step `n` the handler of `a`, which waits for the reply on `ch`, goes on with the value `v`, and not as it would
with any other answer. -/
def Hears (n a ch v : Nat) : Prop :=
  ∃ r c k, (ops n).who = some a ∧ (at_ caps ops n).hand a = .busy r (.awaiting c ch k) ∧
    (at_ caps ops (n + 1)).hand a = .busy r (.go (k (.value v))) ∧ ∀ x, x ≠ .value v → k x ≠ k (.value v)

/-- In step `n` the handler of `a`, which tells `b` the signal `p`, goes on knowing that it was sent: it goes on as it
would with no other answer. It began to send in this step, or it was waiting for room. -/
def Tells (n a b : Nat) (p : Nat × Sig) : Prop :=
  ∃ r c k, (ops n).who = some a ∧ c.tgt = b ∧ c.ask = false ∧ (at_ caps ops (n + 1)).hand a = .busy r (.go (k .sent)) ∧
    (∀ x, x ≠ .sent → k x ≠ k .sent) ∧
    (((at_ caps ops n).hand a = .busy r (.go (.call c k)) ∧ Begins caps ops n b p) ∨
      ∃ ch, (at_ caps ops n).hand a = .busy r (.sending c p.1 ch k) ∧ p ∈ ((at_ caps ops n).mb b).sent)

/-- In step `n` a request with signal `p` to `b` comes back with success: a tell of a handler, an ask of a handler, with the
reply, or a send from outside, which is over when the mailbox has taken it. -/
inductive Comes (n b : Nat) (p : Nat × Sig) : Prop where
  | tell (a : Nat) (h : Tells caps ops n a b p)
  | ask (a ch v : Nat) (h : Hears caps ops n a ch v) (hp : p ∈ ((at_ caps ops n).mb b).sent) (hr : p.2.reply = some ch)
  | out (hs : p.2.src = none) (h : p ∈ ((at_ caps ops (n + 1)).mb b).pushed)

/-- Step `n` comes before step `m` for those who take part: both are steps of the same actor, in this order, or of
those outside, who may talk to each other as they like; the one begins to send a signal and the other takes it; the one gives the
reply for which the other goes on; or it is so through others in between. The clock of the execution is only looked at for steps of
the same actor. -/
inductive Before : Nat → Nat → Prop where
  | own {n m : Nat} (h : (ops n).who = (ops m).who) (hlt : n < m) : Before n m
  | signal {n m b : Nat} {p : Nat × Sig} (h : Begins caps ops n b p) (h' : Takes caps ops m b p) : Before n m
  | reply {n m a ch v : Nat} (h : Replies caps ops n ch v) (h' : Hears caps ops m a ch v) : Before n m
  | trans {n m l : Nat} (h : Before n m) (h' : Before m l) : Before n l

end

/-! ### What a step of a mailbox receives -/

section
variable {α : Type}

theorem release_received (m : Mb α) : m.release.received = m.received := by unfold Mb.release; split <;> rfl
theorem poll_received (m : Mb α) (t : Nat) : (m.poll t).received = m.received := by
  unfold Mb.poll Mb.push; split <;> rfl
theorem cancel_received (m : Mb α) (t : Nat) : (m.cancel t).received = m.received := by
  unfold Mb.cancel; (repeat' split) <;> simp [release_received]
theorem close_received (m : Mb α) : m.close.received = m.received := rfl

end

/-- Signals are taken only by the actor itself, when it runs no handler, the oldest first. -/
theorem received_only (w : World) (op : Op) (b : Nat) :
    ((w.step op).mb b).received = (w.mb b).received ∨
      ∃ x p q, op = .recv b x ∧ w.hand b = .idle ∧ (w.mb b).queue = p :: q ∧
        ((w.step op).mb b).received = (w.mb b).received ++ [p] := by
  cases op with
  | recv a x =>
    by_cases hb : b = a
    · subst hb
      simp only [World.step, World.recv]
      split
      · rename_i t s m r q hi hq
        refine Or.inr ⟨x, _, _, rfl, hi, hq, ?_⟩
        simp [recv_received _ hq]
      · rename_i t q hi hq
        refine Or.inr ⟨x, _, _, rfl, hi, hq, ?_⟩
        simp [recv_received _ hq, close_received]
      · exact Or.inl rfl
    · left
      simp only [World.step, World.recv]
      split <;> simp [hb]
  | _ =>
    left
    simp only [World.step, World.poll, World.call, World.expire, World.fail, World.kill, World.out, World.stop,
      World.outPoll, World.outCancel]
    (repeat' split) <;> (try simp only [setHand_mb, setMb_mb, answer_mb, finish_mb]) <;> (repeat' split) <;>
      simp_all [put_received, poll_received, cancel_received, close_received]

section
variable {caps : Nat → Option Nat} {ops : Nat → Op}

theorem takes_queue {n b : Nat} {p : Nat × Sig} (h : Takes caps ops n b p) :
    (at_ caps ops n).hand b = .idle ∧ p ∈ ((at_ caps ops n).mb b).queue := by
  have h' : (((at_ caps ops n).step (ops n)).mb b).received = ((at_ caps ops n).mb b).received ++ [p] := h
  rcases received_only (at_ caps ops n) (ops n) b with h1 | ⟨_, q, _, _, h1, h2, h3⟩
  · rw [h1] at h'
    have := congrArg List.length h'
    simp at this
  · rw [h3] at h'
    have : q = p := by simpa using h'
    subst this
    exact ⟨h1, by simp [h2]⟩

theorem begins_ticket {n b : Nat} {p : Nat × Sig} (h : Begins caps ops n b p) : p.1 = ((at_ caps ops n).mb b).next := by
  have h1 := ((inv_at caps ops n).mb b).tick
  have h2 := ((inv_at caps ops (n + 1)).mb b).tick
  rw [show ((at_ caps ops (n + 1)).mb b).sent = _ from h, List.map_append, h1] at h2
  have hl := congrArg List.length h2
  simp only [List.length_append, List.length_map, List.length_cons, List.length_nil, List.length_range] at hl
  rw [← hl] at h2
  simp [List.range_succ] at h2
  exact h2

/-- A signal that is begun now was not sent before. -/
theorem begins_new {n m b : Nat} {p : Nat × Sig} (h : Begins caps ops n b p) (hm : m ≤ n) :
    p ∉ ((at_ caps ops m).mb b).sent := by
  intro hp
  obtain ⟨mops, e⟩ := at_run (caps := caps) (ops := ops) b hm
  have h1 := ((inv_at caps ops m).mb b).sent_lt p hp
  have h2 := next_run ((at_ caps ops m).mb b) mops
  rw [← e] at h2
  rw [begins_ticket h] at h1
  omega

theorem prog_acyclic (q : Prog) : ∀ (c : Call) (k : Ans → Prog) (x : Ans), k x = q → q ≠ .call c k := by
  induction q with
  | ret v => intro c k x _ h; cases h
  | call c' k' ih =>
    intro c k x hx h
    cases h
    exact ih x c' k' x rfl hx

theorem hears_value {n a ch v : Nat} (h : Hears caps ops n a ch v) : (at_ caps ops n).chan ch = .value v := by
  obtain ⟨r, c, k, ho, h1, h2, h3⟩ := h
  have h2 : ((at_ caps ops n).step (ops n)).hand a = .busy r (.go (k (.value v))) := h2
  cases hop : ops n <;> rw [hop] at ho h2 <;> simp only [Op.who, Option.some.injEq, reduceCtorEq] at ho <;> subst ho
  · simp [World.step, World.recv, h1] at h2
  · simp only [World.step, World.poll, h1] at h2
    split at h2
    · rename_i v' hv
      simp at h2
      rw [hv]
      by_cases e : v' = v
      · rw [e]
      · exact (h3 (.value v') (by simpa using e) h2).elim
    · simp at h2
      exact (h3 .stopped (by simp) h2).elim
    · rw [h1] at h2
      simp at h2
  · simp only [World.step, World.expire, h1] at h2
    split at h2
    · simp at h2
      exact (h3 .timeout (by simp) h2).elim
    · rw [h1] at h2
      simp at h2
  · simp [World.step, World.fail, h1] at h2
  · simp [World.step, World.kill, h1] at h2

theorem before_lt {n m : Nat} (h : Before caps ops n m) : n < m := by
  induction h with
  | own _ h => exact h
  | @signal n m b p h h' =>
    refine Nat.lt_of_not_le fun hle => begins_new h hle ?_
    exact pushed_sent ((inv_at caps ops m).mb b) (queue_pushed ((inv_at caps ops m).mb b) (takes_queue h').2)
  | @reply n m a ch v h h' =>
    refine Nat.lt_of_not_le fun hle => ?_
    have hv := hears_value h'
    have hch : ch < (at_ caps ops m).calls := by
      refine Nat.lt_of_not_le fun hge => ?_
      rw [(inv_at caps ops m).unmade ch hge] at hv
      cases hv
    exact at_chan hle hch (by rw [hv]; simp) h.1
  | trans _ _ h h' => exact Nat.lt_trans h h'

/-- A request that has come back with success is in the mailbox, or was. -/
theorem comes_pushed {n b : Nat} {p : Nat × Sig} (h : Comes caps ops n b p) : p ∈ ((at_ caps ops (n + 1)).mb b).pushed := by
  have hi := inv_at caps ops n
  cases h with
  | tell a h =>
    obtain ⟨r, c, k, ho, hb, hask, h2, hk, ⟨h1, hbeg⟩ | ⟨ch, h1, hp⟩⟩ := h
    · subst hb
      have ht := begins_ticket hbeg
      have hbeg : (((at_ caps ops n).step (ops n)).mb c.tgt).sent = ((at_ caps ops n).mb c.tgt).sent ++ [p] := hbeg
      have h2 : ((at_ caps ops n).step (ops n)).hand a = .busy r (.go (k .sent)) := h2
      show p ∈ (((at_ caps ops n).step (ops n)).mb c.tgt).pushed
      cases hop : ops n <;> rw [hop] at ho h2 hbeg <;> simp only [Op.who, Option.some.injEq, reduceCtorEq] at ho <;> subst ho
      · simp only [World.step, World.recv, h1] at h2
        simp at h2
        exact (prog_acyclic _ c k .sent rfl h2.symm).elim
      · simp only [World.step, World.poll, h1, World.call, hask] at h2 hbeg ⊢
        cases hc : ((at_ caps ops n).mb c.tgt).closed with
        | true =>
          simp [hc] at h2
          exact (hk .notRunning (by simp) h2).elim
        | false =>
          cases hr : ((at_ caps ops n).mb c.tgt).hasRoom with
          | true =>
            simp only [setHand_mb, if_true, put_sent] at hbeg ⊢
            rw [(put_taken c.wait _ _ hc hr).2.1]
            have := List.append_cancel_left hbeg
            exact List.mem_append_right _ (this ▸ List.mem_cons_self ..)
          | false =>
            simp [hc, hr] at h2
            split at h2
            · cases h2
            · simp at h2
              exact (hk .full (by simp) h2).elim
      · simp only [World.step, World.expire, h1] at h2
        simp at h2
        exact (prog_acyclic _ c k .sent rfl h2.symm).elim
      · simp [World.step, World.fail, h1] at h2
      · simp [World.step, World.kill, h1] at h2
    · subst hb
      have h2 : ((at_ caps ops n).step (ops n)).hand a = .busy r (.go (k .sent)) := h2
      show p ∈ (((at_ caps ops n).step (ops n)).mb c.tgt).pushed
      cases hop : ops n <;> rw [hop] at ho h2 <;> simp only [Op.who, Option.some.injEq, reduceCtorEq] at ho <;> subst ho
      · simp [World.step, World.recv, h1] at h2
      · simp only [World.step, World.poll, h1] at h2 ⊢
        split at h2
        · simp at h2
          exact (hk .notRunning (by simp) h2).elim
        · rename_i hc
          split at h2
          · rename_i hg
            obtain ⟨q, hq, hqt, _, hpu, _⟩ := poll_granted hg
            have : q = p := key_unique (hi.mb c.tgt) (pend_sent (hi.mb c.tgt) (by simp [pend, hq])) hp hqt
            subst this
            simp [hc, hg, hpu]
          · rw [h1] at h2
            simp at h2
      · simp only [World.step, World.expire, h1] at h2
        split at h2
        · simp at h2
          exact (hk .timeout (by simp) h2).elim
        · rw [h1] at h2
          simp at h2
      · simp [World.step, World.fail, h1] at h2
      · simp [World.step, World.kill, h1] at h2
  | ask a ch v h hp hr =>
    obtain ⟨r, c, k, ho, h1, _, _⟩ := h
    obtain ⟨q, hq, hqr⟩ := hi.await a r c ch k h1
    obtain ⟨e1, e2⟩ := hi.uniq _ _ _ _ ch (pushed_sent (hi.mb _) hq) hp hqr hr
    subst e1; subst e2
    exact (at_pushed _ (Nat.le_succ n)).subset hq
  | out _ h => exact h

/-- Whatever was received was taken in some step. -/
theorem taken_at {b : Nat} {p : Nat × Sig} (i : Nat) (h : p ∈ ((at_ caps ops i).mb b).received) :
    ∃ j, j < i ∧ Takes caps ops j b p := by
  induction i with
  | zero => simp [at_, World.fresh, Mb.fresh] at h
  | succ i ih =>
    by_cases h0 : p ∈ ((at_ caps ops i).mb b).received
    · obtain ⟨j, hj, hjt⟩ := ih h0
      exact ⟨j, Nat.lt_succ_of_lt hj, hjt⟩
    · have h : p ∈ (((at_ caps ops i).step (ops i)).mb b).received := h
      rcases received_only (at_ caps ops i) (ops i) b with h1 | ⟨_, q', rest, _, _, h2, h3⟩
      · rw [h1] at h; exact (h0 h).elim
      · rw [h3] at h
        rcases List.mem_append.mp h with h | h
        · exact (h0 h).elim
        · have : p = q' := by simpa using h
          subst this
          exact ⟨i, Nat.lt_succ_self i, h3⟩

/-- **C102** If a request to `b` has come back with success, and another request to `b` is made afterwards (by the same handler, in
answer to a message, after a reply, or through any chain of these over any number of actors), then `b` takes the first
before the second, and its handler is over when the second is taken. -/
theorem causal_order {n m k b : Nat} {p q : Nat × Sig} (hc : Comes caps ops n b p) (hb : Before caps ops n m)
    (hq : Begins caps ops m b q) (ht : Takes caps ops k b q) :
    (∃ j, j < k ∧ Takes caps ops j b p) ∧ (at_ caps ops k).hand b = .idle ∧
      p ∈ ((at_ caps ops k).mb b).received := by
  have hnm := before_lt hb
  obtain ⟨hidle, hqq⟩ := takes_queue ht
  have hik := (inv_at caps ops k).mb b
  -- the second signal is begun before it is taken
  have hmk : m < k := before_lt (.signal hq ht)
  have hp : p ∈ ((at_ caps ops m).mb b).pushed := (at_pushed b hnm).subset (comes_pushed hc)
  have hqn : q ∉ ((at_ caps ops m).mb b).pushed := fun h =>
    begins_new hq (Nat.le_refl m) (pushed_sent ((inv_at caps ops m).mb b) h)
  -- when the second is taken everything ahead of it has been received
  have hrec : p ∈ ((at_ caps ops k).mb b).received := by
    have hpre := at_pushed (caps := caps) (ops := ops) b (Nat.le_of_lt hmk)
    have hcl : ((at_ caps ops k).mb b).closed = false := by
      cases h : ((at_ caps ops k).mb b).closed with
      | false => rfl
      | true => rw [(hik.closedEmpty h).1] at hqq; cases hqq
    have hh := hik.hist
    rw [hik.openLost hcl, List.append_nil] at hh
    have ht' : (((at_ caps ops k).step (ops k)).mb b).received = ((at_ caps ops k).mb b).received ++ [q] := ht
    rcases received_only (at_ caps ops k) (ops k) b with h1 | ⟨_, q', rest, _, _, h2, h3⟩
    · rw [h1] at ht'
      have := congrArg List.length ht'
      simp at this
    · rw [h3] at ht'
      have : q' = q := by simpa using ht'
      subst this
      rw [h2] at hh
      rw [hh] at hpre
      rcases List.prefix_or_prefix_of_prefix hpre (List.prefix_append ((at_ caps ops k).mb b).received (q' :: rest)) with h | h
      · exact h.subset hp
      · obtain ⟨l, hl⟩ := h
        cases l with
        | nil => rw [List.append_nil] at hl; rw [hl]; exact hp
        | cons x l =>
          obtain ⟨l', hl'⟩ := hpre
          rw [← hl, List.append_assoc] at hl'
          have := List.append_cancel_left hl'
          simp at this
          exact (hqn (by rw [← hl]; simp [this.1])).elim
  refine ⟨?_, hidle, hrec⟩
  -- the step in which it was received
  exact taken_at k hrec

end

/-! ### What is seen in an answer -/

theorem value_step (w : World) (op : Op) {ch v : Nat} (h : (w.step op).chan ch = .value v) :
    w.chan ch = .value v ∨ ∃ a pc, w.hand a = .busy (some ch) pc := by
  cases op with
  | recv a x =>
    simp only [World.step, World.recv] at h
    split at h
    · exact Or.inl h
    · simp only [finish_chan, World.dropReplies] at h
      split at h
      · cases h
      · exact Or.inl h
    · exact Or.inl h
  | poll a =>
    simp only [World.step, World.poll] at h
    split at h
    · rename_i r v' hh
      simp only [setHand_chan] at h
      cases r with
      | none => exact Or.inl h
      | some c =>
        simp only [World.answer] at h
        split at h
        · rename_i e; rw [e.1]; exact Or.inr ⟨a, _, hh⟩
        · exact Or.inl h
    · simp only [World.call, setHand_chan] at h
      split at h
      · cases h
      · exact Or.inl h
    · split at h
      · exact Or.inl h
      · split at h <;> exact Or.inl h
    · split at h <;> exact Or.inl h
    · exact Or.inl h
  | expire a =>
    simp only [World.step, World.expire] at h
    (repeat' split at h) <;> exact Or.inl h
  | fail a =>
    simp only [World.step, World.fail] at h
    split at h
    · rename_i r _ hh
      cases r with
      | none => exact Or.inl h
      | some c =>
        simp only [setHand_chan, World.answer] at h
        split at h
        · cases h
        · exact Or.inl h
    · exact Or.inl h
  | kill a =>
    have hf : ∀ w' : World, (w'.finish a).chan ch = .value v → w'.chan ch = .value v := by
      intro w' h
      simp only [finish_chan, World.dropReplies] at h
      split at h
      · cases h
      · exact h
    have ha : ∀ (w' : World) r, (w'.answer r .dropped).chan ch = .value v → w'.chan ch = .value v := by
      intro w' r h
      cases r with
      | none => exact h
      | some c =>
        simp only [World.answer] at h
        split at h
        · cases h
        · exact h
    simp only [World.step, World.kill] at h
    split at h
    · exact Or.inl h
    · exact Or.inl (hf _ h)
    · exact Or.inl (ha (w.setMb _ _) _ (hf _ h))
    · exact Or.inl (ha _ _ (hf _ h))
  | out x q m =>
    simp only [World.step, World.out] at h
    split at h
    · cases h
    · exact Or.inl h
  | stop x => exact Or.inl h
  | outPoll x t =>
    simp only [World.step, World.outPoll] at h
    split at h <;> exact Or.inl h
  | outCancel x t =>
    simp only [World.step, World.outCancel] at h
    split at h <;> exact Or.inl h

section
variable {caps : Nat → Option Nat} {ops : Nat → Op}

/-- There is a reply only to a message that was taken. -/
theorem value_received {n ch v : Nat} (h : (at_ caps ops n).chan ch = .value v) :
    ∃ b, ∃ p ∈ ((at_ caps ops n).mb b).received, p.2.reply = some ch := by
  induction n with
  | zero => cases h
  | succ n ih =>
    have key : ∃ b, ∃ p ∈ ((at_ caps ops n).mb b).received, p.2.reply = some ch := by
      rcases value_step (at_ caps ops n) (ops n) h with h | ⟨a, pc, h⟩
      · exact ih h
      · exact ⟨a, (inv_at caps ops n).hold a ch pc h⟩
    obtain ⟨b, p, hp, hr⟩ := key
    exact ⟨b, p, (at_received b (Nat.le_succ n)).subset hp, hr⟩

/-- **C102** Whoever gets an answer to an ask gets it from a handler that came after everything that had gone before: if a
request `p` to `b` has come back with success and the ask `q` to `b` is made afterwards, then `p` was taken, and its
handler was over, before the handler of `q` began, and `q` was taken before its answer is heard. -/
theorem answers_see_what_went_before {n m l a b ch v : Nat} {p q : Nat × Sig} (hc : Comes caps ops n b p)
    (hb : Before caps ops n m) (hq : Begins caps ops m b q) (hr : q.2.reply = some ch) (hh : Hears caps ops l a ch v) :
    ∃ j k, j < k ∧ k < l ∧ Takes caps ops j b p ∧ Takes caps ops k b q ∧ (at_ caps ops k).hand b = .idle := by
  obtain ⟨b', q', hq', hr'⟩ := value_received (hears_value hh)
  -- it is `q` that was answered
  have hqs : q ∈ ((at_ caps ops (m + 1)).mb b).sent := by
    rw [show ((at_ caps ops (m + 1)).mb b).sent = _ from hq]; simp
  have hsent : ∀ {i i' x : Nat} {s : Nat × Sig}, i ≤ i' → s ∈ ((at_ caps ops i).mb x).sent →
      s ∈ ((at_ caps ops i').mb x).sent := by
    intro i i' x s hle
    obtain ⟨mops, e⟩ := at_run (caps := caps) (ops := ops) x hle
    rw [e]
    have : ∀ (o : List (Mailbox.Op Sig)) (y : Mb Sig), s ∈ y.sent → s ∈ (y.run o).sent := by
      intro o
      induction o with
      | nil => intro y h; exact h
      | cons z zs ih => intro y h; exact ih _ ((step_sent y z).subset h)
    exact this mops _
  have hq's : q' ∈ ((at_ caps ops l).mb b').sent :=
    pushed_sent ((inv_at caps ops l).mb b') (received_pushed ((inv_at caps ops l).mb b') hq')
  obtain ⟨e1, e2⟩ := (inv_at caps ops (max (m + 1) l)).uniq _ _ _ _ ch (hsent (Nat.le_max_left ..) hqs)
    (hsent (Nat.le_max_right ..) hq's) hr hr'
  subst e1; subst e2
  obtain ⟨k, hk, hkt⟩ := taken_at l hq'
  obtain ⟨⟨j, hj, hjt⟩, hi, _⟩ := causal_order hc hb hq hkt
  exact ⟨j, k, hj, hk, hjt, hkt, hi⟩

end

/-! ### Two executions -/

/-- Tells 2, and if that went well tells 1. -/
def tellBoth : Prog :=
  .call { tgt := 2, ask := false, msg := 10 } fun
    | .sent => .call { tgt := 1, ask := false, msg := 11 } fun _ => .ret 0
    | _ => .ret 9

/-- Tells 2. -/
def tellTwo : Prog := .call { tgt := 2, ask := false, msg := 12 } fun _ => .ret 0

/-- Actor 0 tells 2 and then 1; when 1 hears of it, it tells 2. All mailboxes have one place. -/
def toldChain : Nat → Op
  | 0 => .out 0 false 1
  | 1 => .recv 0 tellBoth
  | 2 => .poll 0
  | 3 => .poll 0
  | 4 => .recv 1 tellTwo
  | 5 => .poll 1
  | 6 => .recv 2 (.ret 0)
  | 7 => .poll 1
  | 8 => .poll 2
  | 9 => .recv 2 (.ret 0)
  | _ => .poll 0

example :
    Comes (fun _ => some 1) toldChain 2 2 (0, .msg (some 0) 10 none) ∧ Before (fun _ => some 1) toldChain 2 5 ∧
    Begins (fun _ => some 1) toldChain 5 2 (1, .msg (some 1) 12 none) ∧
    Takes (fun _ => some 1) toldChain 9 2 (1, .msg (some 1) 12 none) := by
  refine ⟨.tell 0 ⟨_, _, _, rfl, rfl, rfl, rfl, ?_, Or.inl ⟨rfl, rfl⟩⟩, ?_, rfl, rfl⟩
  · intro x hx
    cases x <;> simp at hx ⊢
  · exact .trans (.own (m := 3) rfl (by decide))
      (.trans (.signal (m := 4) (b := 1) (p := (0, .msg (some 0) 11 none)) rfl rfl) (.own rfl (by decide)))

/-- Asks 1, and tells 2 if there was the answer 7. -/
def askThenTell : Prog :=
  .call { tgt := 1, msg := 20 } fun
    | .value 7 => .call { tgt := 2, ask := false, msg := 21 } fun _ => .ret 0
    | _ => .ret 9

/-- Tells 2, and answers 7 if that went well. -/
def tellThenSeven : Prog :=
  .call { tgt := 2, ask := false, msg := 22 } fun
    | .sent => .ret 7
    | _ => .ret 9

/-- Actor 0 asks 1, which tells 2 before it answers; then 0 tells 2. -/
def asked : Nat → Op
  | 0 => .out 0 false 1
  | 1 => .recv 0 askThenTell
  | 2 => .poll 0
  | 3 => .recv 1 tellThenSeven
  | 4 => .poll 1
  | 5 => .poll 1
  | 6 => .poll 0
  | 7 => .poll 0
  | 8 => .recv 2 (.ret 0)
  | 9 => .poll 2
  | 10 => .recv 2 (.ret 0)
  | _ => .poll 0

example :
    Comes (fun _ => none) asked 4 2 (0, .msg (some 1) 22 none) ∧ Before (fun _ => none) asked 4 7 ∧
    Begins (fun _ => none) asked 7 2 (1, .msg (some 0) 21 none) ∧
    Takes (fun _ => none) asked 10 2 (1, .msg (some 0) 21 none) := by
  refine ⟨.tell 1 ⟨_, _, _, rfl, rfl, rfl, rfl, ?_, Or.inl ⟨rfl, rfl⟩⟩, ?_, rfl, rfl⟩
  · intro x hx
    cases x <;> simp at hx ⊢
  · refine .trans (.own (m := 5) rfl (by decide))
      (.trans (.reply (m := 6) (a := 0) (ch := 1) (v := 7) ⟨rfl, rfl⟩ ⟨_, _, _, rfl, rfl, rfl, ?_⟩) (.own rfl (by decide)))
    intro x hx
    cases x <;> simp at hx ⊢

/-- Tells 2, asks 2, and goes on if the answer is 7. -/
def tellThenAsk : Prog :=
  .call { tgt := 2, ask := false, msg := 30 } fun
    | .sent => .call { tgt := 2, msg := 31 } fun
      | .value 7 => .call { tgt := 1, ask := false, msg := 32 } fun _ => .ret 0
      | _ => .ret 9
    | _ => .ret 9

/-- Actor 0 tells 2, asks it and hears its answer. -/
def ownWrites : Nat → Op
  | 0 => .out 0 false 1
  | 1 => .recv 0 tellThenAsk
  | 2 => .poll 0
  | 3 => .poll 0
  | 4 => .recv 2 (.ret 0)
  | 5 => .poll 2
  | 6 => .recv 2 (.ret 7)
  | 7 => .poll 2
  | _ => .poll 0

example :
    Comes (fun _ => none) ownWrites 2 2 (0, .msg (some 0) 30 none) ∧ Before (fun _ => none) ownWrites 2 3 ∧
    Begins (fun _ => none) ownWrites 3 2 (1, .msg (some 0) 31 (some 2)) ∧ Hears (fun _ => none) ownWrites 8 0 2 7 := by
  refine ⟨.tell 0 ⟨_, _, _, rfl, rfl, rfl, rfl, ?_, Or.inl ⟨rfl, rfl⟩⟩, .own rfl (by decide), rfl, ⟨_, _, _, rfl, rfl, rfl, ?_⟩⟩
  · intro x hx
    cases x <;> simp at hx ⊢
  · intro x hx
    cases x <;> simp at hx ⊢

end Verif.Calls
