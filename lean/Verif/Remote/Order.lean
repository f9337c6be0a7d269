import Verif.Mailbox.Props

/-!
# Remote tells over time: their effect and their order: C85

`Verif.Remote.Tell` says what one remote tell returns. Here many remote tells to one actor are under way at once, and each
of their steps is an operation of its own: the request on its way, the task that serves it at the actor's node, its place
in the actor's mailbox, the response on its way back and the failures of the network.
-/

namespace Verif.Remote.Order

open Verif.Mailbox

/-! ## The model -/

/-- What the caller of a remote tell has, `src/request/tell.rs` L380-405: it has not called yet, it waits for the
swarm's answer (L397), or it got `Ok`, an error the callee answered with (`SwarmResponse::Tell`, L398-401), or a failure of
the network (`SwarmResponse::OutboundFailure`, L402-404). -/
inductive Caller where
  | fresh
  | waiting
  | ok
  | refused
  | netFailed
  deriving DecidableEq, Repr

/-- Where the request is: not made, on its way (`src/remote/swarm.rs` L675-685), arrived and given to a task of its own
that has not run yet (L892-901), in `MailboxSender::send` with a ticket (`src/remote/_internal.rs` L167-198), answered
(L909 there, `SendTellResponse`), or over: the response reached the caller's node, or the request got lost. -/
inductive Job where
  | none
  | onWay
  | spawned
  | sending (ticket : Nat)
  | answered (ok : Bool)
  | over
  deriving DecidableEq, Repr

/-- An actor's mailbox with the remote tells to it. The mailbox (`src/mailbox.rs` L42-50) holds `some n` for the message of
the remote tell `n` and `none` for a signal of anybody else. `src/remote/swarm.rs` L651-688 and L892-910,
`src/remote/_internal.rs` L167-223. `arrivals` is history only. -/
structure W where
  mb : Mb (Option Nat)
  caller : Nat → Caller := fun _ => .fresh
  job : Nat → Job := fun _ => .none
  /-- made by `try_send`. -/
  imm : Nat → Bool := fun _ => false
  /-- has a `mailbox_timeout`. -/
  timed : Nat → Bool := fun _ => false
  /-- ghost: the requests in the order in which they arrived at the actor's node. -/
  arrivals : List Nat := []

/-- A fresh actor to which nothing was sent. `src/mailbox.rs` L27-40. -/
def W.fresh (cap : Option Nat) : W := { mb := Mb.fresh cap }

/-- What can happen. `src/remote/swarm.rs` L651-688, L860-1000, `src/remote/_internal.rs` L167-223, `src/mailbox.rs`
L45-175 and L247-436. -/
inductive Op where
  /-- a caller makes the remote tell `n`. -/
  | tell (n : Nat) (imm timed : Bool)
  /-- the request arrives at the actor's node. -/
  | arrive (n : Nat)
  /-- the request gets lost. -/
  | lose (n : Nat)
  /-- the task serving the request runs; `found`: the actor and its message type are registered and the message can be
  deserialised. -/
  | serve (n : Nat) (found : Bool)
  /-- the task sees how its send ended. -/
  | finish (n : Nat)
  /-- the response arrives at the caller's node. -/
  | respond (n : Nat)
  /-- the caller's node reports a failure of the network. -/
  | netFail (n : Nat)
  /-- somebody else sends. -/
  | otherSend
  | otherTrySend
  /-- steps of the mailbox. -/
  | poll (t : Nat)
  | cancel (t : Nat)
  | recv
  | close

/-- Is this ticket that of a remote tell without a time limit? Such a send is not given up: it has no `mailbox_timeout`
(`src/remote/_internal.rs` L190-194 with `None`) and its task is not dropped. -/
def W.untimed (w : W) (t : Nat) : Bool :=
  (w.mb.waiting ++ w.mb.granted).any fun p =>
    p.1 == t && match p.2 with
      | .none => false
      | some n => !w.timed n

/-- Set one entry of a function. Helper for the tables of `src/remote/swarm.rs` L644-648 (`requests`). -/
def set {β : Type} (f : Nat → β) (n : Nat) (b : β) : Nat → β := fun k => if k = n then b else f k

/-- One step.
* `tell`: `remote_tell`, `src/request/tell.rs` L380-397, with L675-685 of `src/remote/swarm.rs` (without peers the task of
  L663-674 is spawned at once: an `arrive` that follows).
* `arrive`: `src/remote/swarm.rs` L892-901.
* `serve`: `remote::tell` up to its `await`, `src/remote.rs` L175-197, `src/remote/_internal.rs` L167-194 and L200-218.
* `finish`: `src/remote/_internal.rs` L195-198, L219-223 and `src/remote/swarm.rs` L911.
* `respond`: `src/remote/swarm.rs` L962-975: who no longer waits is not told.
* `netFail`: `src/remote/swarm.rs` L976-993. It can come at any time while the caller waits (`Timeout`, `ConnectionClosed`);
  libp2p does not take back the request.
Simplification: a caller who drops the call's future is not modelled, it changes nothing on the actor's node. -/
def W.step (w : W) : Op → W
  | .tell n imm timed =>
    if w.caller n = .fresh then
      { w with
        caller := set w.caller n .waiting
        job := set w.job n .onWay
        imm := set w.imm n imm
        timed := set w.timed n timed }
    else w
  | .arrive n =>
    if w.job n = .onWay then { w with job := set w.job n .spawned, arrivals := w.arrivals ++ [n] } else w
  | .lose n => if w.job n = .onWay then { w with job := set w.job n .over } else w
  | .serve n found =>
    if w.job n = .spawned then
      if found then
        { w with
          job := set w.job n (.sending w.mb.next)
          mb := if w.imm n then w.mb.trySend (some n) else w.mb.send (some n) }
      else { w with job := set w.job n (.answered false) }
    else w
  | .finish n =>
    match w.job n with
    | .sending t =>
      if w.mb.pushed.any (fun p => p.1 == t) then { w with job := set w.job n (.answered true) }
      else if w.mb.failed.any (fun p => p.1 == t) then { w with job := set w.job n (.answered false) }
      else w
    | _ => w
  | .respond n =>
    match w.job n with
    | .answered b =>
      { w with
        job := set w.job n .over
        caller := if w.caller n = .waiting then set w.caller n (if b then .ok else .refused) else w.caller }
    | _ => w
  | .netFail n => if w.caller n = .waiting then { w with caller := set w.caller n .netFailed } else w
  | .otherSend => { w with mb := w.mb.send .none }
  | .otherTrySend => { w with mb := w.mb.trySend .none }
  | .poll t => { w with mb := w.mb.poll t }
  | .cancel t => if w.untimed t then w else { w with mb := w.mb.cancel t }
  | .recv => { w with mb := w.mb.recv }
  | .close => { w with mb := w.mb.close }

/-- A history. `W.step` along a list (`src/remote/swarm.rs` L600-1000). -/
def W.run (w : W) (ops : List Op) : W := ops.foldl W.step w

theorem run_append (w : W) (a b : List Op) : w.run (a ++ b) = (w.run a).run b := by simp [W.run, List.foldl_append]

/-! ## The specification -/

/-- What the actor was given, oldest first: the messages it took out of its mailbox. -/
def W.handled (w : W) : List (Option Nat) := w.mb.received.map (·.2)

/-- What got into the mailbox, oldest first. -/
def W.accepted (w : W) : List (Option Nat) := w.mb.pushed.map (·.2)

/-- `x` comes before `y` in `l`. -/
def Before (x y : Option Nat) (l : List (Option Nat)) : Prop := ∃ u v, l = u ++ v ∧ x ∈ u ∧ y ∉ u ∧ y ∈ v

/-! ## The invariant -/

/-- Has the send of this tell failed, if it was made at all? -/
def Failed (w : W) (n : Nat) : Prop := ∀ t, (t, some n) ∈ w.mb.sent → ∃ y, (t, some n, y) ∈ w.mb.failed

structure Inv (w : W) : Prop where
  mb : Mailbox.Inv w.mb
  fresh : ∀ n, w.caller n = .fresh ↔ w.job n = .none
  unsent : ∀ n, w.job n = .none ∨ w.job n = .onWay ∨ w.job n = .spawned → ∀ t, (t, some n) ∉ w.mb.sent
  once : ∀ n t t', (t, some n) ∈ w.mb.sent → (t', some n) ∈ w.mb.sent → t = t'
  sending : ∀ n t, w.job n = .sending t → (t, some n) ∈ w.mb.sent
  ansOk : ∀ n, w.job n = .answered true → ∃ t, (t, some n) ∈ w.mb.pushed
  ansErr : ∀ n, w.job n = .answered false → Failed w n
  ok : ∀ n, w.caller n = .ok → ∃ t, (t, some n) ∈ w.mb.pushed
  refused : ∀ n, w.caller n = .refused → w.job n = .over ∧ Failed w n

theorem inv_fresh (cap : Option Nat) : Inv (W.fresh cap) := by
  refine ⟨Mailbox.inv_fresh cap, ?_, ?_, ?_, ?_, ?_, ?_, ?_, ?_⟩ <;> simp [W.fresh, Mb.fresh, Failed]

theorem set_self {β : Type} (f : Nat → β) (n : Nat) (b : β) : set f n b n = b := by simp [set]

theorem set_ne {β : Type} (f : Nat → β) {n k : Nat} (b : β) (h : k ≠ n) : set f n b k = f k := by simp [set, h]

/-- A step of the mailbox that sends no remote tell keeps the invariant. -/
theorem inv_mb {w : W} (h : Inv w) (op : Mailbox.Op (Option Nat))
    (hs : ∀ t n, (t, some n) ∈ (w.mb.step op).sent → (t, some n) ∈ w.mb.sent) : Inv { w with mb := w.mb.step op } := by
  have hp := step_pushed w.mb op
  have hf := step_failed w.mb op
  have hse := step_sent w.mb op
  have hF : ∀ n, Failed w n → Failed { w with mb := w.mb.step op } n := by
    intro n hn t ht
    obtain ⟨y, hy⟩ := hn t (hs t n ht)
    exact ⟨y, hf.subset hy⟩
  refine ⟨inv_step h.mb op, h.fresh, ?_, ?_, ?_, ?_, ?_, ?_, ?_⟩
  · intro n hn t ht
    exact h.unsent n hn t (hs t n ht)
  · intro n t t' ht ht'
    exact h.once n t t' (hs t n ht) (hs t' n ht')
  · intro n t hn
    exact hse.subset (h.sending n t hn)
  · intro n hn
    obtain ⟨t, ht⟩ := h.ansOk n hn
    exact ⟨t, hp.subset ht⟩
  · intro n hn
    exact hF n (h.ansErr n hn)
  · intro n hn
    obtain ⟨t, ht⟩ := h.ok n hn
    exact ⟨t, hp.subset ht⟩
  · intro n hn
    exact ⟨(h.refused n hn).1, hF n (h.refused n hn).2⟩

theorem sent_poll (m : Mb (Option Nat)) (t : Nat) : (m.poll t).sent = m.sent := by
  simp only [Mb.poll, Mb.push]; split <;> rfl

theorem sent_cancel (m : Mb (Option Nat)) (t : Nat) : (m.cancel t).sent = m.sent := by
  simp only [Mb.cancel]; (repeat' split) <;> simp

theorem sent_recv (m : Mb (Option Nat)) : m.recv.sent = m.sent := by
  simp only [Mb.recv]; split <;> simp

theorem sent_send (m : Mb (Option Nat)) (a : Option Nat) : (m.send a).sent = m.sent ++ [(m.next, a)] := by
  simp only [Mb.send, Mb.bump, Mb.push]; (repeat' split) <;> rfl

theorem sent_trySend (m : Mb (Option Nat)) (a : Option Nat) : (m.trySend a).sent = m.sent ++ [(m.next, a)] := by
  simp only [Mb.trySend, Mb.bump, Mb.push]; (repeat' split) <;> rfl

/-- A step that changes only what is known of the tells keeps the invariant if the changed entries are right. -/
theorem inv_job {w w' : W} (h : Inv w) (n : Nat) (hmb : w'.mb = w.mb)
    (hj : ∀ k, k ≠ n → w'.job k = w.job k) (hc : ∀ k, k ≠ n → w'.caller k = w.caller k)
    (hfresh : w'.caller n = .fresh ↔ w'.job n = .none)
    (hunsent : w'.job n = .none ∨ w'.job n = .onWay ∨ w'.job n = .spawned → ∀ t, (t, some n) ∉ w.mb.sent)
    (hsending : ∀ t, w'.job n = .sending t → (t, some n) ∈ w.mb.sent)
    (hansOk : w'.job n = .answered true → ∃ t, (t, some n) ∈ w.mb.pushed)
    (hansErr : w'.job n = .answered false → Failed w n)
    (hok : w'.caller n = .ok → ∃ t, (t, some n) ∈ w.mb.pushed)
    (hrefused : w'.caller n = .refused → w'.job n = .over ∧ Failed w n) : Inv w' := by
  have hF : ∀ k, Failed w k → Failed w' k := by
    intro k hk t ht
    rw [hmb] at ht ⊢
    exact hk t ht
  refine ⟨hmb ▸ h.mb, ?_, ?_, ?_, ?_, ?_, ?_, ?_, ?_⟩
  · intro k
    by_cases e : k = n
    · subst e; exact hfresh
    · rw [hj k e, hc k e]; exact h.fresh k
  · intro k
    rw [hmb]
    by_cases e : k = n
    · subst e; exact hunsent
    · rw [hj k e]; exact h.unsent k
  · rw [hmb]; exact h.once
  · intro k
    rw [hmb]
    by_cases e : k = n
    · subst e; exact hsending
    · rw [hj k e]; exact h.sending k
  · intro k
    rw [hmb]
    by_cases e : k = n
    · subst e; exact hansOk
    · rw [hj k e]; exact h.ansOk k
  · intro k
    by_cases e : k = n
    · subst e; exact fun hk => hF k (hansErr hk)
    · rw [hj k e]; exact fun hk => hF k (h.ansErr k hk)
  · intro k
    rw [hmb]
    by_cases e : k = n
    · subst e; exact hok
    · rw [hc k e]; exact h.ok k
  · intro k
    by_cases e : k = n
    · subst e; exact fun hk => ⟨(hrefused hk).1, hF k (hrefused hk).2⟩
    · rw [hj k e, hc k e]; exact fun hk => ⟨(h.refused k hk).1, hF k (h.refused k hk).2⟩

/-- The send of a remote tell. -/
theorem inv_serve {w : W} (h : Inv w) (n : Nat) (hn : w.job n = .spawned) (op : Mailbox.Op (Option Nat))
    (hs : (w.mb.step op).sent = w.mb.sent ++ [(w.mb.next, some n)]) :
    Inv { w with job := set w.job n (.sending w.mb.next), mb := w.mb.step op } := by
  have hp := step_pushed w.mb op
  have hf := step_failed w.mb op
  have hmem : ∀ t k, (t, some k) ∈ (w.mb.step op).sent → (t, some k) ∈ w.mb.sent ∨ (t = w.mb.next ∧ k = n) := by
    intro t k ht
    rw [hs, List.mem_append] at ht
    rcases ht with ht | ht
    · exact Or.inl ht
    · simp only [List.mem_singleton, Prod.mk.injEq, Option.some.injEq] at ht
      exact Or.inr ht
  have hun := h.unsent n (Or.inr (Or.inr hn))
  have hF : ∀ k, k ≠ n → Failed w k →
      Failed { w with job := set w.job n (.sending w.mb.next), mb := w.mb.step op } k := by
    intro k e hk t ht
    rcases hmem t k ht with ht | ⟨-, ht⟩
    · obtain ⟨y, hy⟩ := hk t ht
      exact ⟨y, hf.subset hy⟩
    · exact absurd ht e
  refine ⟨inv_step h.mb op, ?_, ?_, ?_, ?_, ?_, ?_, ?_, ?_⟩
  · intro k
    by_cases e : k = n
    · subst e
      have := h.fresh k
      rw [hn] at this
      simp only [set_self, reduceCtorEq, iff_false] at this ⊢
      exact this
    · simp only [set_ne _ _ e]; exact h.fresh k
  · intro k hk t ht
    by_cases e : k = n
    · subst e; simp [set_self] at hk
    · simp only [set_ne _ _ e] at hk
      rcases hmem t k ht with ht | ⟨-, ht⟩
      · exact h.unsent k hk t ht
      · exact e ht
  · intro k t t' ht ht'
    rcases hmem t k ht with a | ⟨a, rfl⟩ <;> rcases hmem t' k ht' with b | ⟨b, b'⟩
    · exact h.once k t t' a b
    · subst b'; exact absurd a (hun t)
    · exact absurd b (hun t')
    · rw [a, b]
  · intro k t hk
    by_cases e : k = n
    · subst e
      simp only [set_self, Job.sending.injEq] at hk
      subst hk
      show (w.mb.next, some k) ∈ (w.mb.step op).sent
      rw [hs]; simp
    · simp only [set_ne _ _ e] at hk
      exact (step_sent w.mb op).subset (h.sending k t hk)
  · intro k hk
    by_cases e : k = n
    · subst e; simp [set_self] at hk
    · simp only [set_ne _ _ e] at hk
      obtain ⟨t, ht⟩ := h.ansOk k hk
      exact ⟨t, hp.subset ht⟩
  · intro k hk
    by_cases e : k = n
    · subst e; simp [set_self] at hk
    · simp only [set_ne _ _ e] at hk
      exact hF k e (h.ansErr k hk)
  · intro k hk
    obtain ⟨t, ht⟩ := h.ok k hk
    exact ⟨t, hp.subset ht⟩
  · intro k hk
    by_cases e : k = n
    · subst e
      have := (h.refused k hk).1
      rw [hn] at this; simp at this
    · simp only [set_ne _ _ e]
      exact ⟨(h.refused k hk).1, hF k e (h.refused k hk).2⟩

theorem inv_step {w : W} (h : Inv w) (op : Op) : Inv (w.step op) := by
  cases op with
  | tell n imm timed =>
    simp only [W.step]
    split
    · next hc =>
      have hj := (h.fresh n).mp hc
      exact inv_job h n rfl (fun k e => set_ne _ _ e) (fun k e => set_ne _ _ e) (by simp [set_self])
        (fun _ => h.unsent n (Or.inl hj)) (by simp [set_self]) (by simp [set_self]) (by simp [set_self])
        (by simp [set_self]) (by simp [set_self])
    · exact h
  | arrive n =>
    simp only [W.step]
    split
    · next hj =>
      have hfr : w.caller n ≠ .fresh := fun hc => by simp [(h.fresh n).mp hc] at hj
      exact inv_job h n rfl (fun k e => set_ne _ _ e) (fun k _ => rfl) (by simp [set_self, hfr])
        (fun _ => h.unsent n (Or.inr (Or.inl hj))) (by simp [set_self]) (by simp [set_self]) (by simp [set_self])
        (h.ok n) (fun hr => by have := (h.refused n hr).1; simp [hj] at this)
    · exact h
  | lose n =>
    simp only [W.step]
    split
    · next hj =>
      have hfr : w.caller n ≠ .fresh := fun hc => by simp [(h.fresh n).mp hc] at hj
      exact inv_job h n rfl (fun k e => set_ne _ _ e) (fun k _ => rfl) (by simp [set_self, hfr])
        (by simp [set_self]) (by simp [set_self]) (by simp [set_self]) (by simp [set_self])
        (h.ok n) (fun hr => by have := (h.refused n hr).1; simp [hj] at this)
    · exact h
  | serve n found =>
    simp only [W.step]
    split
    · next hj =>
      have hfr : w.caller n ≠ .fresh := fun hc => by simp [(h.fresh n).mp hc] at hj
      cases found with
      | true =>
        simp only [if_true]
        cases hi : w.imm n with
        | true => exact inv_serve h n hj (.trySend (some n)) (sent_trySend _ _)
        | false => exact inv_serve h n hj (.send (some n)) (sent_send _ _)
      | false =>
        exact inv_job h n rfl (fun k e => set_ne _ _ e) (fun k _ => rfl) (by simp [set_self, hfr])
          (by simp [set_self]) (by simp [set_self]) (by simp [set_self])
          (fun _ t ht => absurd ht (h.unsent n (Or.inr (Or.inr hj)) t))
          (h.ok n) (fun hr => by have := (h.refused n hr).1; simp [hj] at this)
    · exact h
  | finish n =>
    simp only [W.step]
    split
    · next t hj =>
      have hfr : w.caller n ≠ .fresh := fun hc => by simp [(h.fresh n).mp hc] at hj
      have hs := h.sending n t hj
      split
      · next hp =>
        refine inv_job h n rfl (fun k e => set_ne _ _ e) (fun k _ => rfl) (by simp [set_self, hfr])
          (by simp [set_self]) (by simp [set_self]) (fun _ => ?_) (by simp [set_self])
          (h.ok n) (fun hr => by have := (h.refused n hr).1; simp [hj] at this)
        simp only [List.any_eq_true, beq_iff_eq] at hp
        obtain ⟨p, hp, rfl⟩ := hp
        have hps : p ∈ w.mb.sent := h.mb.mem_sent (by simp [hp])
        have : p = (p.1, some n) := key_inj h.mb.sent_nodup hps hs rfl
        exact ⟨p.1, by rw [← this]; exact hp⟩
      · split
        · next hp =>
          refine inv_job h n rfl (fun k e => set_ne _ _ e) (fun k _ => rfl) (by simp [set_self, hfr])
            (by simp [set_self]) (by simp [set_self]) (by simp [set_self]) (fun _ => ?_)
            (h.ok n) (fun hr => by have := (h.refused n hr).1; simp [hj] at this)
          simp only [List.any_eq_true, beq_iff_eq] at hp
          obtain ⟨p, hp, rfl⟩ := hp
          intro t' ht'
          have e := h.once n _ _ ht' hs
          subst e
          have := key_inj h.mb.sent_nodup (p := unwhy p)
            (h.mb.mem_sent (List.mem_append_right _ (List.mem_map_of_mem hp))) hs rfl
          refine ⟨p.2.2, ?_⟩
          have e2 : p.2.1 = some n := (Prod.mk.inj this).2
          rw [← e2]; exact hp
        · exact h
    · exact h
  | respond n =>
    simp only [W.step]
    split
    · next b hj =>
      have hfr : w.caller n ≠ .fresh := fun hc => by simp [(h.fresh n).mp hc] at hj
      split
      · next hw =>
        refine inv_job h n rfl (fun k e => set_ne _ _ e) (fun k e => set_ne _ _ e) ?_
          (by simp [set_self]) (by simp [set_self]) (by simp [set_self]) (by simp [set_self]) ?_ ?_
        · cases b <;> simp [set_self]
        · cases b
          · simp [set_self]
          · exact fun _ => h.ansOk n hj
        · cases b
          · exact fun _ => ⟨set_self _ _ _, h.ansErr n hj⟩
          · simp [set_self]
      · exact inv_job h n rfl (fun k e => set_ne _ _ e) (fun k _ => rfl) (by simp [set_self, hfr])
          (by simp [set_self]) (by simp [set_self]) (by simp [set_self]) (by simp [set_self])
          (h.ok n) (fun hr => by have := (h.refused n hr).1; simp [hj] at this)
    · exact h
  | netFail n =>
    simp only [W.step]
    split
    · next hw =>
      have hfr : w.job n ≠ .none := fun hc => by simp [(h.fresh n).mpr hc] at hw
      exact inv_job h n rfl (fun k _ => rfl) (fun k e => set_ne _ _ e) (by simp [set_self, hfr])
        (h.unsent n) (h.sending n) (h.ansOk n) (h.ansErr n) (by simp [set_self]) (by simp [set_self])
    · exact h
  | otherSend => exact inv_mb h (.send .none) (fun t n ht => by
    simp only [Mb.step, sent_send] at ht; simpa using ht)
  | otherTrySend =>
    exact inv_mb h (.trySend .none) (fun t n ht => by
    simp only [Mb.step, sent_trySend] at ht; simpa using ht)
  | poll t => exact inv_mb h (.poll t) (fun t' n ht => by
    simp only [Mb.step, sent_poll] at ht; exact ht)
  | cancel t =>
    simp only [W.step]
    split
    · exact h
    · exact inv_mb h (.cancel t) (fun t' n ht => by
    simp only [Mb.step, sent_cancel] at ht; exact ht)
  | recv => exact inv_mb h .recv (fun t' n ht => by
    simp only [Mb.step, sent_recv] at ht; exact ht)
  | close => exact inv_mb h .close (fun t' n ht => ht)

theorem inv_run {w : W} (h : Inv w) (ops : List Op) : Inv (w.run ops) := by
  induction ops generalizing w with
  | nil => exact h
  | cons op ops ih => exact ih (inv_step h op)

/-- What got into the mailbox stays in its history. -/
theorem step_accepted (w : W) (op : Op) : w.mb.pushed <+: (w.step op).mb.pushed := by
  cases op <;> simp only [W.step]
  case serve n found =>
    repeat' split
    all_goals first | exact step_pushed w.mb (.trySend _) | exact step_pushed w.mb (.send _) | exact List.prefix_rfl
  case otherSend => exact step_pushed w.mb (.send _)
  case otherTrySend => exact step_pushed w.mb (.trySend _)
  case poll t => exact step_pushed w.mb (.poll _)
  case cancel t =>
    split
    · exact List.prefix_rfl
    · exact step_pushed w.mb (.cancel _)
  case recv => exact step_pushed w.mb .recv
  case close => exact step_pushed w.mb .close
  all_goals (repeat' split) <;> exact List.prefix_rfl

theorem run_accepted (w : W) (ops : List Op) : w.mb.pushed <+: (w.run ops).mb.pushed := by
  induction ops generalizing w with
  | nil => exact List.prefix_rfl
  | cons op ops ih => exact (step_accepted w op).trans (ih _)

/-- A caller who was refused stays refused. -/
theorem step_refused (w : W) (op : Op) (n : Nat) (h : w.caller n = .refused) : (w.step op).caller n = .refused := by
  have key : ∀ k c, w.caller k ≠ .refused → set w.caller k c n = .refused := fun k c hk => by
    rw [set_ne _ _ (fun e : n = k => hk (e ▸ h))]; exact h
  cases op with
  | tell k imm timed =>
    simp only [W.step]
    split
    · next hc => exact key k _ (by simp [hc])
    · exact h
  | respond k =>
    simp only [W.step]
    split
    · split
      · next hc => exact key k _ (by simp [hc])
      · exact h
    · exact h
  | netFail k =>
    simp only [W.step]
    split
    · next hc => exact key k _ (by simp [hc])
    · exact h
  | arrive k => simp only [W.step]; split <;> exact h
  | lose k => simp only [W.step]; split <;> exact h
  | serve k found => simp only [W.step]; (repeat' split) <;> exact h
  | finish k => simp only [W.step]; (repeat' split) <;> exact h
  | cancel t => simp only [W.step]; split <;> exact h
  | otherSend => exact h
  | otherTrySend => exact h
  | poll t => exact h
  | recv => exact h
  | close => exact h

theorem run_refused (w : W) (ops : List Op) (n : Nat) (h : w.caller n = .refused) : (w.run ops).caller n = .refused := by
  induction ops generalizing w with
  | nil => exact h
  | cons op ops ih => exact ih _ (step_refused w op n h)

/-- A request that is over without a send does not send any more. -/
theorem step_over {w : W} {n : Nat} (hi : Inv w) (hj : w.job n = .over) (hs : ∀ t, (t, some n) ∉ w.mb.sent) (op : Op) :
    (w.step op).job n = .over ∧ ∀ t, (t, some n) ∉ (w.step op).mb.sent := by
  have hfr : w.caller n ≠ .fresh := fun hc => by simp [(hi.fresh n).mp hc] at hj
  have key : ∀ k, w.job k ≠ .over → n ≠ k := fun k hk e => hk (e ▸ hj)
  cases op with
  | tell k imm timed =>
    simp only [W.step]
    split
    · next hc => exact ⟨by simp only [set_ne _ _ (fun e : n = k => hfr (e ▸ hc))]; exact hj, hs⟩
    · exact ⟨hj, hs⟩
  | arrive k =>
    simp only [W.step]
    split
    · next hk => exact ⟨by simp only [set_ne _ _ (key k (by simp [hk]))]; exact hj, hs⟩
    · exact ⟨hj, hs⟩
  | lose k =>
    simp only [W.step]
    split
    · next hk => exact ⟨by simp only [set_ne _ _ (key k (by simp [hk]))]; exact hj, hs⟩
    · exact ⟨hj, hs⟩
  | serve k found =>
    simp only [W.step]
    split
    · next hk =>
      have hne := key k (by simp [hk])
      split
      · refine ⟨by simp only [set_ne _ _ hne]; exact hj, ?_⟩
        intro t ht
        have hcases : (t, some n) ∈ w.mb.sent ++ [(w.mb.next, some k)] := by
          split at ht
          · rw [sent_trySend] at ht; exact ht
          · rw [sent_send] at ht; exact ht
        rcases List.mem_append.mp hcases with hm | hm
        · exact hs t hm
        · simp only [List.mem_singleton, Prod.mk.injEq, Option.some.injEq] at hm
          exact hne hm.2
      · exact ⟨by simp only [set_ne _ _ hne]; exact hj, hs⟩
    · exact ⟨hj, hs⟩
  | finish k =>
    simp only [W.step]
    split
    · next t hk =>
      have hne := key k (by simp [hk])
      repeat' split
      · exact ⟨by simp only [set_ne _ _ hne]; exact hj, hs⟩
      · exact ⟨by simp only [set_ne _ _ hne]; exact hj, hs⟩
      · exact ⟨hj, hs⟩
    · exact ⟨hj, hs⟩
  | respond k =>
    simp only [W.step]
    split
    · next b hk => exact ⟨by simp only [set_ne _ _ (key k (by simp [hk]))]; exact hj, hs⟩
    · exact ⟨hj, hs⟩
  | netFail k => simp only [W.step]; split <;> exact ⟨hj, hs⟩
  | otherSend => exact ⟨hj, fun t ht => by simp only [W.step, sent_send] at ht; exact hs t (by simpa using ht)⟩
  | otherTrySend => exact ⟨hj, fun t ht => by simp only [W.step, sent_trySend] at ht; exact hs t (by simpa using ht)⟩
  | poll t => exact ⟨hj, fun t' ht => by simp only [W.step, sent_poll] at ht; exact hs t' ht⟩
  | cancel t =>
    simp only [W.step]
    split
    · exact ⟨hj, hs⟩
    · exact ⟨hj, fun t' ht => by simp only [sent_cancel] at ht; exact hs t' ht⟩
  | recv => exact ⟨hj, fun t' ht => by simp only [W.step, sent_recv] at ht; exact hs t' ht⟩
  | close => exact ⟨hj, hs⟩

theorem run_over {n : Nat} (more : List Op) : ∀ w : W, Inv w → w.job n = .over → (∀ t, (t, some n) ∉ w.mb.sent) →
    ∀ t, (t, some n) ∉ (w.run more).mb.sent := by
  induction more with
  | nil => exact fun w _ _ hs => hs
  | cons op more ih =>
    intro w hi hj hs
    obtain ⟨h1, h2⟩ := step_over hi hj hs op
    exact ih _ (inv_step hi op) h1 h2

/-- Why the send of a remote tell failed. -/
def Reasons (w : W) : Prop := ∀ n t y, (t, some n, y) ∈ w.mb.failed →
  (y = .closed → w.mb.closed = true) ∧ (y = .full → w.imm n = true) ∧ (y = .timeout → w.timed n = true)

theorem step_closed (m : Mb (Option Nat)) (op : Mailbox.Op (Option Nat)) (h : m.closed = true) :
    (m.step op).closed = true := by
  cases op <;> simp only [Mb.step, send_closed, trySend_closed, poll_closed, cancel_closed, recv_closed, close_closed, h]

/-- A step of the mailbox keeps `Reasons`, if only tells made by `try_send` are tried and only those with a time limit are
given up. -/
theorem reasons_mb {w : W} (h : Reasons w) (op : Mailbox.Op (Option Nat)) (hi : ∀ n, op = .trySend (some n) → w.imm n = true)
    (ht : ∀ t n, op = .cancel t → (t, some n) ∈ w.mb.waiting ++ w.mb.granted → w.timed n = true)
    (hc : ∀ n t, (t, some n, Why.closed) ∈ (w.mb.step op).failed → (t, some n, Why.closed) ∉ w.mb.failed →
      (w.mb.step op).closed = true) :
    Reasons { w with mb := w.mb.step op } := by
  intro n t y hm
  refine ⟨?_, ?_, ?_⟩
  · rintro rfl
    by_cases hold : (t, some n, Why.closed) ∈ w.mb.failed
    · exact step_closed _ _ ((h n t _ hold).1 rfl)
    · exact hc n t hm hold
  · rintro rfl
    by_cases hold : (t, some n, Why.full) ∈ w.mb.failed
    · exact (h n t _ hold).2.1 rfl
    · exact hi n (new_full hold hm).1
  · rintro rfl
    by_cases hold : (t, some n, Why.timeout) ∈ w.mb.failed
    · exact (h n t _ hold).2.2 rfl
    · exact ht t n (new_timeout hold hm).1 (new_timeout hold hm).2

theorem new_closed {m : Mb (Option Nat)} {op : Mailbox.Op (Option Nat)} {t : Nat} {a : Option Nat}
    (h : (t, a, Why.closed) ∈ (m.step op).failed) (hold : (t, a, Why.closed) ∉ m.failed) : (m.step op).closed = true := by
  cases op with
  | send b =>
    simp only [Mb.step, Mb.send, Mb.bump, Mb.push] at h ⊢
    split at h
    · next hc => simp [hc]
    · split at h <;> exact absurd h hold
  | trySend b =>
    simp only [Mb.step, Mb.trySend, Mb.bump, Mb.push] at h ⊢
    split at h
    · next hc => simp [hc]
    · split at h
      · exact absurd h hold
      · simp [hold] at h
  | close => rfl
  | _ =>
    exfalso
    simp only [Mb.step, Mb.poll, Mb.cancel, Mb.recv, Mb.release, Mb.push] at h
    repeat' split at h
    all_goals simp [hold] at h

theorem reasons_step {w : W} (hi : Inv w) (h : Reasons w) (op : Op) : Reasons (w.step op) := by
  cases op with
  | tell n imm timed =>
    simp only [W.step]
    split
    · next hc =>
      intro k t y hm
      have hk : k ≠ n := by
        rintro rfl
        exact hi.unsent k (Or.inl ((hi.fresh k).mp hc)) t
          (hi.mb.mem_sent (List.mem_append_right _ (List.mem_map.mpr ⟨_, hm, rfl⟩)))
      simp only [set_ne _ _ hk]
      exact h k t y hm
    · exact h
  | serve n found =>
    simp only [W.step]
    split
    · split
      · split
        · next himm =>
          refine reasons_mb h (.trySend (some n)) ?_ (by simp) (fun _ _ => new_closed)
          intro k hk
          simp only [Mailbox.Op.trySend.injEq, Option.some.injEq] at hk
          exact hk ▸ himm
        · exact reasons_mb h (.send (some n)) (by simp) (by simp) (fun _ _ => new_closed)
      · exact h
    · exact h
  | cancel t =>
    simp only [W.step]
    split
    · exact h
    · next hu =>
      refine reasons_mb h (.cancel t) (by simp) ?_ (fun _ _ => new_closed)
      intro t' n ht hm
      simp only [Mailbox.Op.cancel.injEq] at ht
      subst ht
      cases htn : w.timed n with
      | true => rfl
      | false =>
        exact absurd (List.any_eq_true.mpr ⟨_, hm, by simp [htn]⟩) hu
  | arrive n => simp only [W.step]; split <;> exact h
  | lose n => simp only [W.step]; split <;> exact h
  | finish n => simp only [W.step]; (repeat' split) <;> exact h
  | respond n => simp only [W.step]; (repeat' split) <;> exact h
  | netFail n => simp only [W.step]; split <;> exact h
  | otherSend => exact reasons_mb h (.send .none) (by simp) (by simp) (fun _ _ => new_closed)
  | otherTrySend => exact reasons_mb h (.trySend .none) (by simp) (by simp) (fun _ _ => new_closed)
  | poll t => exact reasons_mb h (.poll t) (by simp) (by simp) (fun _ _ => new_closed)
  | recv => exact reasons_mb h .recv (by simp) (by simp) (fun _ _ => new_closed)
  | close => exact reasons_mb h .close (by simp) (by simp) (fun _ _ => new_closed)

theorem reasons_run {w : W} (hi : Inv w) (h : Reasons w) (ops : List Op) : Reasons (w.run ops) := by
  induction ops generalizing w with
  | nil => exact h
  | cons op ops ih => exact ih (inv_step hi op) (reasons_step hi h op)

/-! ## Theorems -/

theorem count_le_one {l : List (Nat × Option Nat)} (hn : (l.map (·.1)).Nodup) (x : Option Nat)
    (h : ∀ t t', (t, x) ∈ l → (t', x) ∈ l → t = t') : (l.map (·.2)).count x ≤ 1 := by
  induction l with
  | nil => simp
  | cons p l ih =>
    simp only [List.map_cons, List.nodup_cons] at hn
    have ih' := ih hn.2 (fun t t' a b => h t t' (List.mem_cons_of_mem _ a) (List.mem_cons_of_mem _ b))
    rw [List.map_cons, List.count_cons]
    split
    · next e =>
      have e : p.2 = x := by simpa using e
      have : (l.map (·.2)).count x = 0 := by
        rw [List.count_eq_zero]
        intro hm
        obtain ⟨q, hq, hx⟩ := List.mem_map.mp hm
        have := h p.1 q.1 (by rw [← e]; exact List.mem_cons_self ..) (by rw [← hx]; exact List.mem_cons_of_mem _ hq)
        exact hn.1 (this ▸ List.mem_map_of_mem hq)
      omega
    · simpa using ih'

theorem mem_accepted {w : W} {n : Nat} : some n ∈ w.accepted ↔ ∃ t, (t, some n) ∈ w.mb.pushed := by
  simp [W.accepted]

theorem accepted_at_most_once {w : W} (h : Inv w) (n : Nat) : w.accepted.count (some n) ≤ 1 := by
  have hsub : ∀ p ∈ w.mb.pushed, p ∈ w.mb.sent := fun p hp => h.mb.mem_sent (by simp [hp])
  apply count_le_one
  · have := h.mb.part_nodup
    simp only [List.map_append, List.nodup_append] at this
    exact this.1.1.1
  · intro t t' ht ht'
    exact h.once n t t' (hsub _ ht) (hsub _ ht')

theorem handled_prefix {w : W} (h : Inv w) : w.handled <+: w.accepted := by
  obtain ⟨r, hr⟩ : w.mb.received <+: w.mb.pushed := by
    rw [h.mb.hist, List.append_assoc]; exact List.prefix_append _ _
  exact ⟨r.map (·.2), by simp [W.handled, W.accepted, ← hr]⟩

/-- **C85** (at most once). The message of a remote tell gets into the actor's mailbox at most once and is handled at
most once, whatever the network does. -/
theorem at_most_once (cap : Option Nat) (ops : List Op) (n : Nat) :
    (((W.fresh cap).run ops).accepted).count (some n) ≤ 1 ∧ (((W.fresh cap).run ops).handled).count (some n) ≤ 1 := by
  have h := inv_run (inv_fresh cap) ops
  refine ⟨accepted_at_most_once h n, ?_⟩
  exact Nat.le_trans ((handled_prefix h).sublist.count_le _) (accepted_at_most_once h n)

/-- **C85** (`Ok` means that it is there). When a remote tell has returned `Ok`, its message has got into the mailbox, once,
and from then on it is handled, waits to be handled, or was dropped with the actor's mailbox. -/
theorem ok_is_accepted (cap : Option Nat) (ops more : List Op) (n : Nat)
    (hok : ((W.fresh cap).run ops).caller n = .ok) :
    (((W.fresh cap).run ops).accepted).count (some n) = 1 ∧
      (((W.fresh cap).run (ops ++ more)).mb.closed = false →
        some n ∈ ((W.fresh cap).run (ops ++ more)).handled ∨
          some n ∈ ((W.fresh cap).run (ops ++ more)).mb.queue.map (·.2)) := by
  have h := inv_run (inv_fresh cap) ops
  have h' := inv_run (inv_fresh cap) (ops ++ more)
  obtain ⟨t, ht⟩ := h.ok n hok
  refine ⟨?_, ?_⟩
  · have h1 := accepted_at_most_once h n
    have h2 : 0 < (((W.fresh cap).run ops).accepted).count (some n) :=
      List.count_pos_iff.mpr (mem_accepted.mpr ⟨t, ht⟩)
    omega
  · intro hc
    have hp : (t, some n) ∈ ((W.fresh cap).run (ops ++ more)).mb.pushed := by
      rw [run_append]; exact (run_accepted _ more).subset ht
    rw [h'.mb.hist, h'.mb.openLost hc, List.append_nil, List.mem_append] at hp
    rcases hp with hp | hp
    · exact Or.inl (List.mem_map.mpr ⟨_, hp, rfl⟩)
    · exact Or.inr (List.mem_map.mpr ⟨_, hp, rfl⟩)

/-- A remote tell that went through, and a second one that waits for room, is given up, and is answered so. -/
def twoTells : List Op :=
  [.tell 1 false false, .arrive 1, .serve 1 true, .finish 1, .respond 1,
   .tell 2 false true, .arrive 2, .serve 2 true, .cancel 1, .finish 2, .respond 2]

example : ((W.fresh (some 1)).run twoTells).caller 1 = .ok ∧ ((W.fresh (some 1)).run twoTells).caller 2 = .refused ∧
    ((W.fresh (some 1)).run twoTells).accepted = [some 1] := by decide

/-- **C85** (the actor's node said no). When a remote tell has returned an error with which the actor's node answered, its
message has not got into the mailbox and never will. Missing for the full claim: failures of the network, for which it is
false, see `network_failure_says_nothing`. -/
theorem refused_never_accepted_partial (cap : Option Nat) (ops more : List Op) (n : Nat)
    (hr : ((W.fresh cap).run ops).caller n = .refused) :
    some n ∉ ((W.fresh cap).run (ops ++ more)).accepted := by
  have h' := inv_run (inv_fresh cap) (ops ++ more)
  have hr' : ((W.fresh cap).run (ops ++ more)).caller n = .refused := by
    rw [run_append]; exact run_refused _ _ _ hr
  intro hm
  obtain ⟨t, ht⟩ := mem_accepted.mp hm
  obtain ⟨y, hy⟩ := (h'.refused n hr').2 t (h'.mb.mem_sent (by simp [ht]))
  have hnd := h'.mb.part_nodup
  rw [List.map_append, List.nodup_append] at hnd
  refine hnd.2.2 t ?_ t ?_ rfl
  · exact List.mem_map.mpr ⟨(t, some n), by simp [ht], rfl⟩
  · exact List.mem_map.mpr ⟨unwhy (t, some n, y), List.mem_map_of_mem hy, rfl⟩

example : ((W.fresh (some 1)).run (twoTells ++ [.recv, .poll 1])).accepted = [some 1] ∧
    ((W.fresh (some 1)).run twoTells).caller 2 = .refused := by decide

/-- **C85** (why the actor's node says no). A remote tell whose caller got an error of the actor's node was never sent to the
actor (the actor or its message is not known there), or the actor has stopped, or the tell was made by `try_send`, or with
a `mailbox_timeout`. -/
theorem refused_for_a_reason (cap : Option Nat) (ops : List Op) (n : Nat)
    (hr : ((W.fresh cap).run ops).caller n = .refused) :
    (∀ t, (t, some n) ∉ ((W.fresh cap).run ops).mb.sent) ∨ ((W.fresh cap).run ops).mb.closed = true ∨
    ((W.fresh cap).run ops).imm n = true ∨ ((W.fresh cap).run ops).timed n = true := by
  have h := inv_run (inv_fresh cap) ops
  have hR : Reasons ((W.fresh cap).run ops) :=
    reasons_run (inv_fresh cap) (fun n t y hm => by simp [W.fresh, Mb.fresh] at hm) ops
  by_cases hs : ∃ t, (t, some n) ∈ ((W.fresh cap).run ops).mb.sent
  · obtain ⟨t, ht⟩ := hs
    obtain ⟨y, hy⟩ := (h.refused n hr).2 t ht
    have := hR n t y hy
    cases y with
    | closed => exact Or.inr (Or.inl (this.1 rfl))
    | full => exact Or.inr (Or.inr (Or.inl (this.2.1 rfl)))
    | timeout => exact Or.inr (Or.inr (Or.inr (this.2.2 rfl)))
  · exact Or.inl (fun t ht => hs ⟨t, ht⟩)

/-- Without a time limit the second tell is not given up and gets in when there is room. -/
def patient : List Op :=
  [.tell 1 false false, .arrive 1, .serve 1 true, .finish 1, .respond 1,
   .tell 2 false false, .arrive 2, .serve 2 true, .cancel 1, .finish 2, .respond 2, .recv, .poll 1, .finish 2, .respond 2]

example : ((W.fresh (some 1)).run twoTells).caller 2 = .refused ∧ ((W.fresh (some 1)).run twoTells).timed 2 = true ∧
    ((W.fresh (some 1)).run patient).caller 2 = .ok := by decide

/-- **C85** (the order, as far as it is kept). If a remote tell has returned `Ok` before another one is begun, by whomever,
then the first is ahead of the second in the mailbox, and the actor does not handle the second before the first.
Missing for the full claim: tells which overlap and tells after a failure of the network, see `spawned_tasks_reorder` and
`retried_tell_overtakes`. -/
theorem ok_then_next_in_order_partial (cap : Option Nat) (ops more : List Op) (a b : Nat)
    (ha : ((W.fresh cap).run ops).caller a = .ok) (hb : ((W.fresh cap).run ops).caller b = .fresh) :
    (some b ∈ ((W.fresh cap).run (ops ++ more)).accepted →
      Before (some a) (some b) ((W.fresh cap).run (ops ++ more)).accepted) ∧
    (some b ∈ ((W.fresh cap).run (ops ++ more)).handled →
      Before (some a) (some b) ((W.fresh cap).run (ops ++ more)).handled) := by
  have h := inv_run (inv_fresh cap) ops
  have h' := inv_run (inv_fresh cap) (ops ++ more)
  have hA : some a ∈ ((W.fresh cap).run ops).accepted := mem_accepted.mpr (h.ok a ha)
  have hB : some b ∉ ((W.fresh cap).run ops).accepted := by
    intro hm
    obtain ⟨t, ht⟩ := mem_accepted.mp hm
    exact h.unsent b (Or.inl ((h.fresh b).mp hb)) t (h.mb.mem_sent (by simp [ht]))
  obtain ⟨r, hr⟩ : ((W.fresh cap).run ops).accepted <+: ((W.fresh cap).run (ops ++ more)).accepted := by
    obtain ⟨r, hr⟩ := run_accepted ((W.fresh cap).run ops) more
    rw [← run_append] at hr
    exact ⟨r.map (·.2), by simp [W.accepted, ← hr]⟩
  refine ⟨fun hm => ⟨_, r, hr.symm, hA, hB, ?_⟩, fun hm => ?_⟩
  · rw [← hr, List.mem_append] at hm
    exact hm.resolve_left hB
  · obtain ⟨s, hs⟩ := handled_prefix h'
    rw [← hr] at hs
    rcases List.append_eq_append_iff.mp hs with ⟨x, hx, -⟩ | ⟨x, hx, -⟩
    · exact absurd (by rw [hx]; exact List.mem_append_left _ hm) hB
    · refine ⟨_, x, hx, hA, hB, ?_⟩
      rw [hx, List.mem_append] at hm
      exact hm.resolve_left hB

/-- One tell after the other. -/
def oneByOne : List Op := [.tell 1 false false, .arrive 1, .serve 1 true, .finish 1, .respond 1]

example : ((W.fresh (some 4)).run oneByOne).caller 1 = .ok ∧ ((W.fresh (some 4)).run oneByOne).caller 2 = .fresh ∧
    ((W.fresh (some 4)).run (oneByOne ++ [.tell 2 true false, .arrive 2, .serve 2 true, .recv, .recv])).handled =
      [some 1, some 2] := by decide

/-- **C85** (a failure of the network says nothing). For every capacity, a remote tell can fail with an error of the network
before its request has even been served; what happens then is open: the message can be handled afterwards, or never get
into the mailbox. -/
theorem network_failure_says_nothing (cap : Option Nat) (hcap : cap ≠ some 0) (n : Nat) : ∃ ops,
    ((W.fresh cap).run ops).caller n = .netFailed ∧ ((W.fresh cap).run ops).accepted = [] ∧
    (∃ more, ((W.fresh cap).run (ops ++ more)).handled = [some n]) ∧
    ∀ more, ((W.fresh cap).run (ops ++ .lose n :: more)).mb.sent.all (fun p => p.2 != some n) = true := by
  refine ⟨[.tell n false false, .netFail n], ?_, ?_, ⟨[.arrive n, .serve n true, .recv], ?_⟩, ?_⟩
  · simp [W.run, W.step, W.fresh, set]
  · simp [W.run, W.step, W.fresh, set, W.accepted, Mb.fresh]
  · cases cap with
    | none => simp [W.run, W.step, W.fresh, set, W.handled, Mb.fresh, Mb.send, Mb.bump, Mb.push, Mb.hasRoom, Mb.recv, Mb.release]
    | some c =>
      have : 0 < c := Nat.pos_of_ne_zero (fun e => hcap (by rw [e]))
      simp [W.run, W.step, W.fresh, set, W.handled, Mb.fresh, Mb.send, Mb.bump, Mb.push, Mb.hasRoom, Mb.recv, Mb.release, this]
  · intro more
    rw [List.all_eq_true]
    intro p hp
    have := run_over (n := n) more ((W.fresh cap).run [.tell n false false, .netFail n, .lose n]) (inv_run (inv_fresh cap) _)
      (by simp [W.run, W.step, W.fresh, set]) (by simp [W.run, W.step, W.fresh, set, Mb.fresh]) p.1
    simp only [bne_iff_ne, ne_eq]
    intro e
    exact this (by rw [← e]; exact hp)

example : (some 3 : Option Nat) ≠ some 0 := by decide

/-- **C85** (the order is lost at the actor's node). Each request is served by a task of its own: of two remote tells whose
requests arrive one after the other, the second can be handled first, even if both return `Ok`, in every mailbox with
room for two. -/
theorem spawned_tasks_reorder (cap : Option Nat) (hcap : ∀ c, cap = some c → 2 ≤ c) (a b : Nat) (hab : a ≠ b) : ∃ ops,
    ((W.fresh cap).run ops).arrivals = [a, b] ∧
    ((W.fresh cap).run ops).caller a = .ok ∧ ((W.fresh cap).run ops).caller b = .ok ∧
    ((W.fresh cap).run ops).handled = [some b, some a] := by
  refine ⟨[.tell a false false, .tell b false false, .arrive a, .arrive b, .serve b true, .serve a true,
    .finish a, .finish b, .respond a, .respond b, .recv, .recv], ?_⟩
  have hba : b ≠ a := fun e => hab e.symm
  cases cap with
  | none =>
    simp [W.run, W.step, W.fresh, set, W.handled, Mb.fresh, Mb.send, Mb.bump, Mb.push, Mb.hasRoom, Mb.recv, Mb.release,
      hab, hba]
  | some c =>
    have h2 := hcap c rfl
    have h0 : 0 < c := by omega
    have h1 : 1 < c := by omega
    simp [W.run, W.step, W.fresh, set, W.handled, Mb.fresh, Mb.send, Mb.bump, Mb.push, Mb.hasRoom, Mb.recv, Mb.release,
      hab, hba, h0, h1]

example : ∀ c, (some 2 : Option Nat) = some c → 2 ≤ c := by
  intro c h; injection h with h; omega

/-- **C85** (a tell made after a failed one can overtake it). A remote tell fails with an error of the network, then
another one is made and returns `Ok`, and only then the message of the first one gets into the mailbox: it is handled
after the second one. -/
theorem retried_tell_overtakes (cap : Option Nat) (hcap : ∀ c, cap = some c → 2 ≤ c) (a b : Nat) (hab : a ≠ b) :
    ∃ ops more,
    ((W.fresh cap).run ops).caller a = .netFailed ∧ ((W.fresh cap).run ops).caller b = .fresh ∧
    ((W.fresh cap).run (ops ++ more)).caller b = .ok ∧
    ((W.fresh cap).run (ops ++ more)).handled = [some b, some a] := by
  refine ⟨[.tell a false false, .arrive a, .netFail a],
    [.tell b false false, .arrive b, .serve b true, .finish b, .respond b, .serve a true, .recv, .recv], ?_⟩
  have hba : b ≠ a := fun e => hab e.symm
  cases cap with
  | none =>
    simp [W.run, W.step, W.fresh, set, W.handled, Mb.fresh, Mb.send, Mb.bump, Mb.push, Mb.hasRoom, Mb.recv, Mb.release,
      hab, hba]
  | some c =>
    have h2 := hcap c rfl
    have h0 : 0 < c := by omega
    have h1 : 1 < c := by omega
    simp [W.run, W.step, W.fresh, set, W.handled, Mb.fresh, Mb.send, Mb.bump, Mb.push, Mb.hasRoom, Mb.recv, Mb.release,
      hab, hba, h0, h1]

example : ∀ c, (some 64 : Option Nat) = some c → 2 ≤ c := by
  intro c h; injection h with h; omega

end Verif.Remote.Order
