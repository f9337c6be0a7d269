import Verif.Remote.AsksInv
import Verif.Lifecycle.PropsReply

/-!
# Remote asks over time: their effect and their answer: C95
-/

namespace Verif.Remote.Asks

open Verif.Mailbox Verif.Lifecycle

/-! ### Specification -/

/-- The messages handled for request `n`: those with a ticket of a send made for it. -/
def W.handledFor (w : W) (n : Nat) : List Msg := w.actor.handled.filter fun m => (n, m.1) ∈ w.tickets

/-- Message `m` was handled for request `n`, and its asker was answered `r` by that very run, or through the reply sender
that run had taken. -/
def W.RepliedBy (w : W) (n : Nat) (m : Msg) (r : Res) : Prop :=
  w.handledFor n = [m] ∧ m.2 = bodyOf (w.req n) ∧
    (.hEnd m false (.ret r) ∈ w.actor.log ∨ .delegSend m.1 r ∈ w.hist)

/-- Messages of value `v` handled by the actor. -/
def W.effects (w : W) (v : Nat) : List Msg := w.actor.handled.filter fun m => m.2.val == v

/-- A remote ask for `v`. -/
def asksFor (v : Nat) : WOp → Bool
  | .ask _ r => r.val == v
  | _ => false

/-- Somebody else, not a remote asker, sends `v`. -/
def sendsFor (v : Nat) : WOp → Bool
  | .actor (.send b) => b.val == v
  | .actor (.trySend b) => b.val == v
  | _ => false

/-- What happens only at the caller's node: a response arrives, the network fails, the caller drops its future. -/
def atCaller : WOp → Bool
  | .respond .. => true
  | .netFail .. => true
  | .drop .. => true
  | _ => false

/-! ### Lemmas -/

theorem handled_body {w : W} (h : Inv w) {n t : Nat} {b : Body} (ht : (n, t) ∈ w.tickets) (hb : (t, b) ∈ w.actor.handled) :
    b = bodyOf (w.req n) := by
  have hg := good_after w.cap w.hist
  have h1 := handled_sent hg.shape hg.acct (m := (t, b)) (by simp; exact Or.inl hb)
  have h2 := key_inj hg.shape.mb.sent_nodup h1 (h.tk n t ht).sent rfl
  simpa using h2

theorem ticket_unique {w : W} (h : Inv w) {n t t' : Nat} (h1 : (n, t) ∈ w.tickets) (h2 : (n, t') ∈ w.tickets) : t = t' := by
  have := key_inj h.nd h1 h2 rfl
  simpa using this

theorem nodup_le_one {α : Type} {l : List α} (hn : l.Nodup) (h : ∀ a ∈ l, ∀ b ∈ l, a = b) : l.length ≤ 1 := by
  match l, hn, h with
  | [], _, _ => simp
  | [_], _, _ => simp
  | a :: b :: l, hn, h =>
    have := h a (by simp) b (by simp)
    simp [this] at hn

theorem handledFor_one {w : W} (h : Inv w) {n t : Nat} {b : Body} (ht : (n, t) ∈ w.tickets)
    (hb : (t, b) ∈ w.actor.handled) : w.handledFor n = [(t, b)] := by
  have hg := good_after w.cap w.hist
  have hnd : (w.actor.handled.map (·.1)).Nodup := (handled_once_and_accepted w.cap w.hist).1
  have hnd' : w.actor.handled.Nodup := (List.pairwise_map.mp hnd).imp fun h1 h2 => h1 (by rw [h2])
  have hall : ∀ m ∈ w.handledFor n, m = (t, b) := by
    intro m hm
    simp only [W.handledFor, List.mem_filter, decide_eq_true_eq] at hm
    exact key_inj hnd hm.1 hb (ticket_unique h hm.2 ht)
  have hmem : (t, b) ∈ w.handledFor n := by
    simp only [W.handledFor, List.mem_filter, decide_eq_true_eq]
    exact ⟨hb, ht⟩
  have hle : (w.handledFor n).length ≤ 1 := nodup_le_one (hnd'.filter _ : (w.handledFor n).Nodup) (fun a ha c hc => (hall a ha).trans (hall c hc).symm)
  generalize w.handledFor n = l at hmem hle
  match l with
  | [] => cases hmem
  | [x] => rw [List.mem_singleton.mp hmem]
  | x :: y :: l => simp at hle

/-- What a caller has been told, or has got, stays. -/
theorem caller_step (w : W) (op : WOp) (n : Nat) (h1 : w.caller n ≠ .fresh) (h2 : w.caller n ≠ .waiting) :
    (w.step op).caller n = w.caller n := by
  cases op <;> simp only [W.step] <;> (repeat' split) <;> first | rfl | (simp only [set]; grind)

theorem caller_foldl (w : W) (ops : List WOp) (n : Nat) (h1 : w.caller n ≠ .fresh) (h2 : w.caller n ≠ .waiting) :
    (ops.foldl W.step w).caller n = w.caller n := by
  induction ops generalizing w with
  | nil => rfl
  | cons op ops ih =>
    have := caller_step w op n h1 h2
    rw [List.foldl_cons, ih _ (this ▸ h1) (this ▸ h2), this]

theorem told_stays {cap : Option Nat} {ops : List WOp} {n : Nat} {a : Answer} (h : (run cap ops).caller n = .told a)
    (ops' : List WOp) : (run cap (ops ++ ops')).caller n = .told a := by
  rw [run_append, caller_foldl _ _ _ (by simp [h]) (by simp [h]), h]

theorem step_grows (w : W) (op : WOp) :
    (∃ x, (w.step op).hist = w.hist ++ x) ∧ (w.step op).cap = w.cap ∧ w.tickets <+: (w.step op).tickets := by
  cases op <;> simp only [W.step] <;> (repeat' split) <;>
    exact ⟨⟨_, by first | rfl | exact (List.append_nil _).symm⟩, rfl, by simp⟩

/-- What has happened to the actor stays, and so do the sends. -/
theorem run_grows (cap : Option Nat) (ops ops' : List WOp) :
    ∃ x, (run cap (ops ++ ops')).hist = (run cap ops).hist ++ x ∧ (run cap (ops ++ ops')).cap = (run cap ops).cap ∧
      (run cap ops).tickets <+: (run cap (ops ++ ops')).tickets := by
  rw [run_append]
  generalize run cap ops = w
  induction ops' generalizing w with
  | nil => exact ⟨[], by simp⟩
  | cons op ops ih =>
    obtain ⟨x, h1, h2, h3⟩ := ih (w.step op)
    obtain ⟨⟨y, h4⟩, h5, h6⟩ := step_grows w op
    exact ⟨y ++ x, by simp only [List.foldl_cons]; rw [h1, h4, List.append_assoc], h2.trans h5, h6.trans h3⟩

/-- The answer given by the node, from what the caller makes of it. -/
theorem told_src {w : W} (h : Inv w) {n : Nat} {a : Answer} (ht : w.caller n = .told a) :
    ∃ dec a0, a = decode dec a0 ∧ Src w n a0 := (h.told n a ht).2

theorem decode_same {dec : Bool} {a0 a : Answer} (h : a = decode dec a0) (h1 : a ≠ .deserializeMessage)
    (h2 : a ≠ .deserializeHandlerError) : a0 = a := by
  cases a0 <;> cases dec <;> simp_all [decode]

theorem src_told {w : W} (h : Inv w) {n : Nat} {a : Answer} (ht : w.caller n = .told a) (h1 : a ≠ .deserializeMessage)
    (h2 : a ≠ .deserializeHandlerError) : Src w n a := by
  obtain ⟨d, a0, h3, h4⟩ := told_src h ht
  rw [← decode_same h3 h1 h2]; exact h4

theorem replied {w : W} (h : Inv w) {n t : Nat} {r : Res} (ht : (n, t) ∈ w.tickets) (hs : w.actor.slots t = .got r) :
    ∃ m, w.RepliedBy n m r := by
  obtain ⟨b, _, _, h3, h4⟩ := reply_is_to_that_message w.cap w.hist t r hs
  exact ⟨(t, b), handledFor_one h ht h3, handled_body h ht h3, h4⟩

/-! ### C95: once at most -/

/-- **C95** However many remote asks are under way, each of them is handled at most once, and what is handled for it is the
message that was asked. -/
theorem handled_at_most_once (cap : Option Nat) (ops : List WOp) (n : Nat) :
    ((run cap ops).handledFor n).length ≤ 1 ∧ ∀ m ∈ (run cap ops).handledFor n, m.2 = bodyOf ((run cap ops).req n) := by
  have h := inv_run cap ops
  refine ⟨?_, ?_⟩
  · match hl : (run cap ops).handledFor n with
    | [] => simp
    | m :: l =>
      have hm : m ∈ (run cap ops).handledFor n := by rw [hl]; simp
      simp only [W.handledFor, List.mem_filter, decide_eq_true_eq] at hm
      have := handledFor_one h hm.2 hm.1
      rw [← hl, this]; simp
  · intro m hm
    simp only [W.handledFor, List.mem_filter, decide_eq_true_eq] at hm
    exact handled_body h hm.2 hm.1

/-- The actor is up and waits for messages; ticket 0 was the start-up signal. -/
def up : List WOp := [.actor .run, .actor (.startEnd .ok), .actor .pollBegin, .actor .recv]

/-- Two remote asks are under way at once; the one that was asked later is served first, and both are answered. -/
def twoDemo : List WOp := up ++
  [.ask 7 { val := 5 }, .ask 8 { val := 6 }, .arrive 7, .arrive 8, .serve 8 .found, .serve 7 .found, .actor .recv,
   .actor (.handlerEnd (.ret (.ok 60))), .actor .recv, .actor (.handlerEnd (.ret (.err 50))), .look 7 true, .look 8 true,
   .respond 8 true, .respond 7 true]

example : (run none twoDemo).handledFor 7 = [(2, bodyOf { val := 5 })] ∧
    (run none twoDemo).handledFor 8 = [(1, bodyOf { val := 6 })] ∧
    (run none twoDemo).caller 7 = .told (.handlerError 50) ∧ (run none twoDemo).caller 8 = .told (.ok 60) := by decide

/-- Requests are what was asked. -/
theorem req_asked (cap : Option Nat) (ops : List WOp) (n : Nat) (h : (run cap ops).caller n ≠ .fresh) :
    .ask n ((run cap ops).req n) ∈ ops := by
  suffices h : ∀ (w : W) (ops' : List WOp), (w.caller n ≠ .fresh → .ask n (w.req n) ∈ ops') →
      ∀ ops, (ops.foldl W.step w).caller n ≠ .fresh → .ask n ((ops.foldl W.step w).req n) ∈ ops' ++ ops by
    have := h { cap := cap } [] (by simp) ops
    simpa [run] using this ‹_›
  intro w ops' hw ops
  induction ops generalizing w ops' with
  | nil => simpa using hw
  | cons op ops ih =>
    have := ih (w.step op) (ops' ++ [op]) ?_
    · simpa using this
    · cases op <;> simp only [W.step] <;> (repeat' split) <;> simp only [List.mem_append, List.mem_singleton] <;> grind [set]

theorem ticket_asked {w : W} (h : Inv w) {n t : Nat} (ht : (n, t) ∈ w.tickets) : w.caller n ≠ .fresh := fun hc =>
  h.early n (Or.inl (h.fresh n hc)) t ht

/-- Messages of value `v` come from remote asks for `v`, if nobody else sends it. -/
def Only (v : Nat) (w : W) : Prop :=
  ∀ t b, (t, Sig.msg b) ∈ w.actor.mb.sent → b.val = v → ∃ n, (n, t) ∈ w.tickets ∧ (w.req n).val = v

theorem only_snoc {v : Nat} {w : W} (h : Only v w) (op : Op) (h1 : ∀ b, op = .send b ∨ op = .trySend b → b.val ≠ v) :
    Only v { w with hist := w.hist ++ [op] } := by
  intro t b hs hv
  rw [actor_snoc] at hs
  rcases sent_step _ _ _ _ hs with h2 | h2
  · exact h t b h2 hv
  · exact absurd hv (h1 b h2)

theorem only_step {v : Nat} {w : W} (hi : Inv w) (h : Only v w) (op : WOp) (ho : sendsFor v op = false) : Only v (w.step op) := by
  cases op with
  | ask n r =>
    simp only [W.step]
    split
    · next hc =>
      intro t b hs hv
      obtain ⟨k, h1, h2⟩ := h t b hs hv
      refine ⟨k, h1, ?_⟩
      have : k ≠ n := fun hk => ticket_asked hi h1 (hk ▸ hc)
      simp only [set_ne _ _ this]; exact h2
    · exact h
  | serve n f =>
    simp only [W.step]
    split
    · cases f with
      | found =>
        have h1 := only_snoc h .cloneRef (by simp)
        have hnx : ({ w with hist := w.hist ++ [.cloneRef] } : W).actor.mb.next = w.actor.mb.next := by
          rw [actor_snoc]; simp only [St.step]; split <;> rfl
        intro t b hs hv
        have hh : (after w.cap (w.hist ++ [.cloneRef, if (w.req n).imm then .trySend (bodyOf (w.req n))
            else .send (bodyOf (w.req n))])).mb.sent = (after w.cap (w.hist ++ [.cloneRef])).mb.sent ++
              [(w.actor.mb.next, Sig.msg (bodyOf (w.req n)))] := by
          rw [show w.hist ++ [.cloneRef, if (w.req n).imm then .trySend (bodyOf (w.req n)) else .send (bodyOf (w.req n))] =
            (w.hist ++ [.cloneRef]) ++ [if (w.req n).imm then .trySend (bodyOf (w.req n)) else .send (bodyOf (w.req n))] by
              simp, after_snoc]
          have hnx' : (after w.cap (w.hist ++ [.cloneRef])).mb.next = w.actor.mb.next := hnx
          rw [← hnx']
          cases (w.req n).imm <;> simp [St.step]
        have hs' : (t, Sig.msg b) ∈ (after w.cap (w.hist ++ [.cloneRef])).mb.sent ++
            [(w.actor.mb.next, Sig.msg (bodyOf (w.req n)))] := hh ▸ hs
        simp only [List.mem_append, List.mem_singleton, Prod.mk.injEq, Sig.msg.injEq] at hs'
        rcases hs' with hs' | ⟨rfl, rfl⟩
        · obtain ⟨k, h2, h3⟩ := h1 t b hs' hv
          exact ⟨k, by simp only [List.mem_append]; exact Or.inl h2, h3⟩
        · exact ⟨n, by simp, hv⟩
      | _ => exact h
    · exact h
  | look n ser =>
    simp only [W.step]
    split
    · split
      · exact only_snoc h .dropRef (by simp)
      · exact h
    · exact h
  | actor op =>
    simp only [W.step]
    split
    · refine only_snoc h op ?_
      rintro b (rfl | rfl) hb <;> simp [sendsFor, hb] at ho
    · exact h
  | arrive n => simp only [W.step]; split <;> exact h
  | lose n => simp only [W.step]; split <;> exact h
  | respond n d => simp only [W.step]; split <;> exact h
  | netFail n => simp only [W.step]; split <;> exact h
  | drop n => simp only [W.step]; split <;> exact h

/-- **C95** Nothing of the network makes the actor handle more than was asked: if nobody else sends the value `v`, then `v` is
handled at most as often as there were remote asks for it. -/
theorem effects_at_most_asked (cap : Option Nat) (ops : List WOp) (v : Nat) (ho : ∀ op ∈ ops, sendsFor v op = false) :
    ((run cap ops).effects v).length ≤ (ops.filter (asksFor v)).length := by
  have h := inv_run cap ops
  have honly : Only v (run cap ops) := by
    suffices hs : ∀ (w : W), Inv w → Only v w → Only v (ops.foldl W.step w) from
      hs _ (inv_fresh cap) (by intro t b hs; simp [W.actor, after, St.exec, St.fresh, Mb.fresh] at hs)
    clear h
    induction ops with
    | nil => exact fun w _ h => h
    | cons op ops ih =>
      intro w hi hw
      exact ih (fun o ho' => ho o (by simp [ho'])) _ (inv_step hi op) (only_step hi hw op (ho op (by simp)))
  have hreq := req_asked cap ops
  generalize run cap ops = w at *
  have hg := good_after w.cap w.hist
  have hnd : (w.actor.handled.map (·.1)).Nodup := (handled_once_and_accepted w.cap w.hist).1
  let T := w.tickets.filter fun p => (w.req p.1).val == v
  have h1 : ((w.effects v).map (·.1)).Nodup := List.Nodup.sublist (List.Sublist.map _ List.filter_sublist) hnd
  have h2 : (w.effects v).map (·.1) ⊆ T.map (·.2) := by
    intro t ht
    obtain ⟨m, hm, rfl⟩ := List.mem_map.mp ht
    simp only [W.effects, List.mem_filter, beq_iff_eq] at hm
    have hsent := handled_sent hg.shape hg.acct (m := m) (by simp; exact Or.inl hm.1)
    obtain ⟨n, h3, h4⟩ := honly m.1 m.2 hsent hm.2
    exact List.mem_map.mpr ⟨(n, m.1), by simp [T, h3, h4], rfl⟩
  have h3 := h1.length_le_of_subset h2
  have hT : (T.map (·.1)).Nodup := List.Nodup.sublist (List.Sublist.map _ List.filter_sublist) h.nd
  have h4 : (T.map fun p => WOp.ask p.1 (w.req p.1)).Nodup := by
    refine List.pairwise_map.mpr ((List.pairwise_map.mp hT).imp ?_)
    intro a b hab hc
    simp at hc
    exact hab hc.1
  have h5 : (T.map fun p => WOp.ask p.1 (w.req p.1)) ⊆ ops.filter (asksFor v) := by
    intro o ho'
    obtain ⟨p, hp, rfl⟩ := List.mem_map.mp ho'
    simp only [T, List.mem_filter, beq_iff_eq] at hp
    simp only [List.mem_filter, asksFor, beq_iff_eq]
    exact ⟨hreq p.1 (ticket_asked h (t := p.2) hp.1), hp.2⟩
  have h6 := h4.length_le_of_subset h5
  simp only [List.length_map] at h3 h6
  omega

/-- The same message asked for twice, because the network failed the first time: handled twice. -/
def againDemo : List WOp := up ++
  [.ask 1 { val := 5 }, .arrive 1, .serve 1 .found, .netFail 1, .ask 2 { val := 5 }, .arrive 2, .serve 2 .found,
   .actor .recv, .actor (.handlerEnd (.ret (.ok 60))), .actor .recv]

example : (∀ op ∈ againDemo, sendsFor 5 op = false) ∧ ((run none againDemo).effects 5).length = 2 ∧
    (againDemo.filter (asksFor 5)).length = 2 := by decide

/-! ### C95: what the caller is told -/

theorem answerOf_cases {ser : Bool} {v : Slot} {a : Answer} (h : answerOf ser v = some a) :
    match a with
    | .ok x => v = .got (.ok x)
    | .handlerError e => v = .got (.err e)
    | .serializeReply => ∃ x, v = .got (.ok x)
    | .serializeHandlerError => ∃ e, v = .got (.err e)
    | .notRunning => v = .failed .notRunning
    | .full => v = .failed .full
    | .stopped => v = .failed .actorStopped
    | .replyTimeout => v = .failed .mailboxTimeout ∨ v = .gaveUp
    | _ => False := by
  rcases v with _ | _ | (_ | _) | (_ | _ | _ | _) | _ <;> cases ser <;> simp [answerOf] at h <;> subst h <;> simp

/-- **C95** A caller who is told `Ok` was answered by the one run of the handler for the message of its own ask: that run
returned the value, or it was sent through the reply sender that run had taken. -/
theorem told_ok (cap : Option Nat) (ops : List WOp) (n v : Nat) (h : (run cap ops).caller n = .told (.ok v)) :
    ∃ m, (run cap ops).RepliedBy n m (.ok v) := by
  have hi := inv_run cap ops
  cases src_told hi h (by simp) (by simp) with
  | early _ ha => simp at ha
  | slot t ser tk hs => exact replied hi tk (answerOf_cases hs)

example : (run none twoDemo).caller 8 = .told (.ok 60) := by decide

/-- **C95** A caller who is told of an error of the handler: the one run of the handler for the message of its own ask
answered with that error. -/
theorem told_handler_error (cap : Option Nat) (ops : List WOp) (n : Nat) (e : Err)
    (h : (run cap ops).caller n = .told (.handlerError e)) : ∃ m, (run cap ops).RepliedBy n m (.err e) := by
  have hi := inv_run cap ops
  cases src_told hi h (by simp) (by simp) with
  | early _ ha => simp at ha
  | slot t ser tk hs => exact replied hi tk (answerOf_cases hs)

example : (run none twoDemo).caller 7 = .told (.handlerError 50) := by decide

/-- **C95** When the reply, or the error, could not be serialised, or the error could not be deserialised, the message was
handled, once, and that run answered. -/
theorem told_lost_reply (cap : Option Nat) (ops : List WOp) (n : Nat) :
    ((run cap ops).caller n = .told .serializeReply → ∃ m v, (run cap ops).RepliedBy n m (.ok v)) ∧
    ((run cap ops).caller n = .told .serializeHandlerError → ∃ m e, (run cap ops).RepliedBy n m (.err e)) ∧
    ((run cap ops).caller n = .told .deserializeHandlerError → ∃ m e, (run cap ops).RepliedBy n m (.err e)) := by
  have hi := inv_run cap ops
  refine ⟨fun h => ?_, fun h => ?_, fun h => ?_⟩
  · cases src_told hi h (by simp) (by simp) with
    | early _ ha => simp at ha
    | slot t ser tk hs =>
      obtain ⟨v, hv⟩ := answerOf_cases hs
      obtain ⟨m, hm⟩ := replied hi tk hv
      exact ⟨m, v, hm⟩
  · cases src_told hi h (by simp) (by simp) with
    | early _ ha => simp at ha
    | slot t ser tk hs =>
      obtain ⟨v, hv⟩ := answerOf_cases hs
      obtain ⟨m, hm⟩ := replied hi tk hv
      exact ⟨m, v, hm⟩
  · obtain ⟨d, a0, h1, h2⟩ := told_src hi h
    cases a0 <;> cases d <;> simp [decode] at h1
    next e =>
      cases h2 with
      | early _ ha => simp at ha
      | slot t ser tk hs =>
        obtain ⟨m, hm⟩ := replied hi tk (answerOf_cases hs)
        exact ⟨m, e, hm⟩
    all_goals
      cases h2 with
      | early _ ha => simp at ha
      | slot t ser tk hs => exact absurd (answerOf_cases hs) (by simp)

/-- An ask is served and handled; `out` is what the handler returns. -/
def servedDemo (out : Res) : List WOp := up ++
  [.ask 7 { val := 5 }, .arrive 7, .serve 7 .found, .actor .recv, .actor (.handlerEnd (.ret out))]

example : (run none (servedDemo (.ok 1) ++ [.look 7 false, .respond 7 true])).caller 7 = .told .serializeReply ∧
    (run none (servedDemo (.err 1) ++ [.look 7 false, .respond 7 true])).caller 7 = .told .serializeHandlerError ∧
    (run none (servedDemo (.err 1) ++ [.look 7 true, .respond 7 false])).caller 7 = .told .deserializeHandlerError := by
  decide

theorem handledFor_nil {w : W} {n : Nat} (h : ∀ t b, (n, t) ∈ w.tickets → (t, b) ∉ w.actor.handled) :
    w.handledFor n = [] := by
  simp only [W.handledFor, List.filter_eq_nil_iff, decide_eq_true_eq]
  intro m hm ht
  exact h m.1 m.2 ht hm

/-- **C95** A caller who is told that the actor is not running, that its mailbox is full, or that the message or the type of
actor is unknown: the message was not handled, and will not be, whatever happens later. -/
theorem told_refused (cap : Option Nat) (ops ops' : List WOp) (n : Nat) (a : Answer)
    (h : (run cap ops).caller n = .told a) (ha : a = .notRunning ∨ a = .full ∨ a = .unknown) :
    (run cap (ops ++ ops')).handledFor n = [] := by
  have hi := inv_run cap (ops ++ ops')
  have h' := told_stays h ops'
  generalize run cap (ops ++ ops') = w at *
  cases src_told hi h' (by rcases ha with rfl | rfl | rfl <;> simp) (by rcases ha with rfl | rfl | rfl <;> simp) with
  | early no _ => exact handledFor_nil fun t b ht => absurd ht (no t)
  | slot t ser tk hs =>
    refine handledFor_nil fun t' b ht => ?_
    rw [ticket_unique hi ht tk]
    have hc := answerOf_cases hs
    have hn : ∀ ops', ∀ b, (t, b) ∉ (after w.cap (w.hist ++ ops')).handled := by
      intro ops'
      rcases ha with rfl | rfl | rfl
      · exact (told_not_running w.cap w.hist ops' t hc).2
      · exact (told_full w.cap w.hist ops' t hc).2
      · exact absurd hc (by simp)
    have := hn [] b
    simpa [W.actor] using this

example : (run none (up ++ [.ask 7 {}, .arrive 7, .serve 7 .notRegistered, .respond 7 true])).caller 7 = .told .notRunning ∧
    (run none (up ++ [.ask 7 {}, .arrive 7, .serve 7 .unknown, .respond 7 true])).caller 7 = .told .unknown ∧
    (run (some 1) ([.ask 6 {}, .arrive 6, .serve 6 .found, .ask 7 { imm := true }, .arrive 7, .serve 7 .found,
      .look 7 true, .respond 7 true])).caller 7 = .told .full := by decide

/-- **C95**, part: a caller who is told that the actor stopped: the handler run for its message panicked, or was cut off when
the actor was stopped, or the message was never handled because the actor is stopped or another message's handler failed,
or the owner of the reply sender dropped it; and no run for it returned a reply. What is missing is what C83 says of
`ActorStopped`: the actor may be running. -/
theorem told_stopped_remote_partial (cap : Option Nat) (ops : List WOp) (n : Nat)
    (h : (run cap ops).caller n = .told .stopped) :
    ∃ t, (n, t) ∈ (run cap ops).tickets ∧
      Matter (run cap ops).hist (run cap ops).actor t (bodyOf ((run cap ops).req n)) ∧
      ∀ r, .hEnd (t, bodyOf ((run cap ops).req n)) false (.ret r) ∉ (run cap ops).actor.log := by
  have hi := inv_run cap ops
  generalize run cap ops = w at *
  cases src_told hi h (by simp) (by simp) with
  | early _ ha => simp at ha
  | slot t ser tk hs =>
    obtain ⟨b, h1, _, h2, h3⟩ := told_stopped_partial w.cap w.hist t (answerOf_cases hs)
    have hb : b = bodyOf (w.req n) := by
      have := key_inj (good_after w.cap w.hist).shape.mb.sent_nodup h1 (hi.tk n t tk).sent rfl
      simpa using this
    subst hb
    exact ⟨t, tk, h2, h3⟩

/-- The handler of a remote ask panics. -/
def panicDemo : List WOp := up ++
  [.ask 7 { val := 5 }, .arrive 7, .serve 7 .found, .actor .recv, .actor (.handlerEnd (.panic 3)), .look 7 true,
   .respond 7 true]

example : (run none panicDemo).caller 7 = .told .stopped := by decide

/-- **C95**, part: only a caller who set a time limit is told `ReplyTimeout`. Either it was that for the mailbox: then the
message was not handled and never will be. Or it was that for the reply: then the actor's mailbox had accepted the message.
What is missing is that the caller could tell which: see `timeout_ambiguous`. -/
theorem told_timeout_partial (cap : Option Nat) (ops ops' : List WOp) (n : Nat)
    (h : (run cap ops).caller n = .told .replyTimeout) :
    (((run cap ops).req n).mt = true ∧ ((run cap ops).req n).imm = false ∧ (run cap (ops ++ ops')).handledFor n = []) ∨
    (((run cap ops).req n).rt = true ∧ ∃ t, (n, t) ∈ (run cap ops).tickets ∧
      (t, Sig.msg (bodyOf ((run cap ops).req n))) ∈ (run cap ops).actor.mb.pushed) := by
  have hi := inv_run cap ops
  cases src_told hi h (by simp) (by simp) with
  | early _ ha => simp at ha
  | slot t ser tk hs =>
    have htk := hi.tk n t tk
    rcases answerOf_cases hs with hc | hc
    · left
      refine ⟨(htk.timed hc).1, (htk.timed hc).2, ?_⟩
      have hi' := inv_run cap (ops ++ ops')
      obtain ⟨x, hx, hcap, htk'⟩ := run_grows cap ops ops'
      refine handledFor_nil fun t' b ht => ?_
      rw [ticket_unique hi' ht (htk'.subset tk)]
      have := mailbox_timeout_not_delivered (run cap ops).cap (run cap ops).hist x t hc b
      rw [← hx] at this
      rw [W.actor, hcap]
      exact this
    · right
      refine ⟨(htk.given hc).1, t, tk, ?_⟩
      obtain ⟨x, hx⟩ := mem_K.mp (htk.given hc).2
      have hg := good_after (run cap ops).cap (run cap ops).hist
      have hxs : (t, x) ∈ (run cap ops).actor.mb.sent := hg.shape.mb.mem_sent (by
        simp only [List.mem_append]; exact Or.inl (Or.inl (Or.inl hx)))
      have := key_inj hg.shape.mb.sent_nodup hxs htk.sent rfl
      simp at this
      rw [← this]; exact hx

/-- A request with both time limits. -/
def both : Req := { val := 5, mt := true, rt := true }

/-- The mailbox of capacity 1 is full and the ask waits for room until its time is up. -/
def mailboxTimeDemo : List WOp :=
  [.actor (.send { val := 1, ask := false, within := false }), .ask 7 both, .arrive 7, .serve 7 .found, .actor (.cancel 1),
   .look 7 true, .respond 7 true]

/-- The ask is accepted and being handled when its time is up. -/
def replyTimeDemo : List WOp :=
  up ++ [.ask 7 both, .arrive 7, .serve 7 .found, .actor .recv, .actor (.giveUp 1), .look 7 true, .respond 7 true]

example : (run (some 1) mailboxTimeDemo).caller 7 = .told .replyTimeout ∧
    (run (some 1) replyTimeDemo).caller 7 = .told .replyTimeout := by decide

/-- **C95**, negation: `ReplyTimeout` does not tell the caller whether the message is handled. The same request with the same
answer was never handled, nor ever will be, in one history, and was handled in another. -/
theorem timeout_ambiguous : ∃ ops ops1 : List WOp, ∃ n, (run (some 1) ops).req n = (run (some 1) ops1).req n ∧
    (run (some 1) ops).caller n = .told .replyTimeout ∧ (run (some 1) ops1).caller n = .told .replyTimeout ∧
    (∀ ops', (run (some 1) (ops ++ ops')).handledFor n = []) ∧ (run (some 1) ops1).handledFor n ≠ [] := by
  refine ⟨mailboxTimeDemo, replyTimeDemo, 7, by decide, by decide, by decide, fun ops' => ?_, by decide⟩
  have hm : (run (some 1) mailboxTimeDemo).tickets = [(7, 1)] := by decide
  have hc : (run (some 1) mailboxTimeDemo).actor.slots 1 = .failed .mailboxTimeout := by decide
  obtain ⟨x, hx, hcap, htk⟩ := run_grows (some 1) mailboxTimeDemo ops'
  have hi' := inv_run (some 1) (mailboxTimeDemo ++ ops')
  refine handledFor_nil fun t' b ht => ?_
  rw [ticket_unique hi' ht (t' := 1) (htk.subset (by rw [hm]; simp))]
  have := mailbox_timeout_not_delivered (run (some 1) mailboxTimeDemo).cap (run (some 1) mailboxTimeDemo).hist x 1 hc b
  rw [← hx] at this
  rw [W.actor, hcap]
  exact this

theorem no_send_later {w : W} {n : Nat} (hj : w.job n = .over) (hf : w.caller n ≠ .fresh) (hno : ∀ t, (n, t) ∉ w.tickets)
    (ops : List WOp) (t : Nat) : (n, t) ∉ (ops.foldl W.step w).tickets := by
  induction ops generalizing w with
  | nil => exact hno t
  | cons op ops ih =>
    refine ih (w := w.step op) ?_ ?_ ?_
    · cases op <;> simp only [W.step] <;> (repeat' split) <;> grind [set]
    · cases op <;> simp only [W.step] <;> (repeat' split) <;> grind [set]
    · cases op with
      | serve k f =>
        simp only [W.step]
        split
        · next hk =>
          cases f with
          | found =>
            intro t ht
            simp only [List.mem_append, List.mem_singleton, Prod.mk.injEq] at ht
            rcases ht with ht | ⟨rfl, _⟩
            · exact hno t ht
            · rw [hj] at hk; cases hk
          | _ => exact hno
        · exact hno
      | _ => simp only [W.step]; (repeat' split) <;> exact hno

theorem next_step (s : St) (op : Op) : s.mb.next ≤ (s.step op).mb.next := by
  rcases step_mb_same s op with h | ⟨o, h, _⟩
  · rw [h]; exact Nat.le_refl _
  · rw [h]
    cases o <;> simp only [Mb.step, Mb.send, Mb.trySend, Mb.poll, Mb.cancel, Mb.recv, Mb.close, Mb.release, Mb.push, Mb.bump] <;>
      (repeat' split) <;> simp

theorem next_le (s : St) (x : List Op) : s.mb.next ≤ (s.exec x).mb.next := by
  induction x generalizing s with
  | nil => exact Nat.le_refl _
  | cons op x ih => exact Nat.le_trans (next_step s op) (ih (s.step op))

/-- A send made later has a later ticket. -/
theorem ticket_late {w : W} (hi : Inv w) {n : Nat} (hno : ∀ t, (n, t) ∉ w.tickets) (ops : List WOp) (t : Nat)
    (ht : (n, t) ∈ (ops.foldl W.step w).tickets) : ¬ t < w.actor.mb.next := by
  suffices h : ∀ (ops : List WOp) (w : W) (b : Nat), Inv w → b ≤ w.actor.mb.next → (∀ t, (n, t) ∈ w.tickets → b ≤ t) →
      ∀ t, (n, t) ∈ (ops.foldl W.step w).tickets → b ≤ t from
    Nat.not_lt.mpr (h ops w w.actor.mb.next hi (Nat.le_refl _) (fun t ht => absurd ht (hno t)) t ht)
  intro ops
  induction ops with
  | nil => exact fun w b _ _ h => h
  | cons op ops ih =>
    intro w b hi hb h
    refine ih (w.step op) b (inv_step hi op) ?_ ?_
    · obtain ⟨⟨x, hx⟩, hc, _⟩ := step_grows w op
      have : (w.step op).actor = w.actor.exec x := by rw [W.actor, hx, hc, after_append]; rfl
      rw [this]
      exact Nat.le_trans hb (next_le w.actor x)
    · intro t ht
      cases op with
      | serve k f =>
        simp only [W.step] at ht
        split at ht
        · cases f with
          | found =>
            simp only [List.mem_append, List.mem_singleton, Prod.mk.injEq] at ht
            rcases ht with ht | ⟨rfl, rfl⟩
            · exact h t ht
            · exact hb
          | _ => exact h t ht
        · exact h t ht
      | _ => simp only [W.step] at ht; (repeat' split at ht) <;> exact h t ht

/-- **C95**, part: a caller who is told `DeserializeMessage`: either the actor's node could not read the message, and it was
not handled and never will be; or the message was handled, and the caller's node could not read the reply. What is missing
is that the caller could tell which: see `deserialize_ambiguous`. -/
theorem told_deserialize_partial (cap : Option Nat) (ops ops' : List WOp) (n : Nat)
    (h : (run cap ops).caller n = .told .deserializeMessage) :
    (run cap (ops ++ ops')).handledFor n = [] ∨ ∃ m v, (run cap ops).RepliedBy n m (.ok v) := by
  have hi := inv_run cap ops
  obtain ⟨d, a0, h1, h2⟩ := told_src hi h
  cases h2 with
  | slot t ser tk hs =>
    right
    cases a0 <;> cases d <;> simp [decode] at h1
    next v =>
      obtain ⟨m, hm⟩ := replied hi tk (answerOf_cases hs)
      exact ⟨m, v, hm⟩
    all_goals exact absurd (answerOf_cases hs) (by simp)
  | early no ha =>
    left
    have hi' := inv_run cap (ops ++ ops')
    obtain ⟨d', a1, h3, h4⟩ := told_src hi' (told_stays h ops')
    refine handledFor_nil fun t b ht => ?_
    exfalso
    have hj := (hi.told n _ h).1
    rw [run_append] at ht
    exact no_send_later hj (by rw [h]; simp) no ops' t ht

/-- **C95**, negation: `DeserializeMessage` does not tell the caller whether the message is handled. -/
theorem deserialize_ambiguous : ∃ ops ops1 : List WOp, ∃ n, (run none ops).req n = (run none ops1).req n ∧
    (run none ops).caller n = .told .deserializeMessage ∧ (run none ops1).caller n = .told .deserializeMessage ∧
    (run none ops).handledFor n = [] ∧ (run none ops1).handledFor n ≠ [] :=
  ⟨up ++ [.ask 7 { val := 5 }, .arrive 7, .serve 7 .undecodable, .respond 7 true],
    servedDemo (.ok 1) ++ [.look 7 true, .respond 7 false], 7, by decide⟩

/-- **C95**, negation: a failure of the network does not tell the caller whether the message is handled: the request got lost
and the message is never handled, or it was handled before, or it is handled after the caller was told. -/
theorem network_failure_ambiguous : ∃ ops ops1 ops2 ops3 : List WOp, ∃ n,
    (run none ops).caller n = .netFailed ∧ (run none ops1).caller n = .netFailed ∧ (run none ops2).caller n = .netFailed ∧
    (run none ops).job n = .over ∧ (run none ops).handledFor n = [] ∧ (run none ops1).handledFor n ≠ [] ∧
    (run none ops2).handledFor n = [] ∧ (run none (ops2 ++ ops3)).handledFor n ≠ [] :=
  ⟨up ++ [.ask 7 {}, .lose 7, .netFail 7], servedDemo (.ok 1) ++ [.netFail 7],
    up ++ [.ask 7 {}, .arrive 7, .netFail 7], [.serve 7 .found, .actor .recv], 7, by decide⟩

/-! ### C95: the caller's end -/

/-- **C95** There is one answer: what a caller was told, and that it got a failure of the network or went away, never
changes. -/
theorem one_answer (cap : Option Nat) (ops ops' : List WOp) (n : Nat) (h1 : (run cap ops).caller n ≠ .fresh)
    (h2 : (run cap ops).caller n ≠ .waiting) : (run cap (ops ++ ops')).caller n = (run cap ops).caller n := by
  rw [run_append]; exact caller_foldl _ _ _ h1 h2

example : (run none (servedDemo (.ok 1) ++ [.netFail 7])).caller 7 = .netFailed ∧
    (run none (servedDemo (.ok 1) ++ [.netFail 7] ++ [.look 7 true, .respond 7 true])).caller 7 = .netFailed := by decide

/-- Same actor, seen from the actor's node. -/
structure Same (w w' : W) : Prop where
  cap : w.cap = w'.cap
  hist : w.hist = w'.hist
  req : w.req = w'.req
  tickets : w.tickets = w'.tickets
  fresh : ∀ n, w.caller n = .fresh ↔ w'.caller n = .fresh
  job : ∀ n, w.job n = w'.job n ∨ ((∃ a, w'.job n = .answered a) ∧ w.job n = .over)

theorem Same.actor {w w' : W} (h : Same w w') : w.actor = w'.actor := by rw [W.actor, W.actor, h.cap, h.hist]

theorem same_caller {w w' : W} (h : Same w w') (op : WOp) (ho : atCaller op = true) : Same (w.step op) w' := by
  have hj := h.job
  have hf := h.fresh
  cases op <;> simp [atCaller] at ho <;> simp only [W.step] <;> (repeat' split) <;>
    first
    | exact h
    | (refine ⟨h.cap, h.hist, h.req, h.tickets, ?_, ?_⟩ <;> intro k <;> have := hj k <;> have := hf k <;> grind [set])

theorem same_step {w w' : W} (h : Same w w') (op : WOp) (ho : atCaller op = false) : Same (w.step op) (w'.step op) := by
  have hj := h.job
  have hf := h.fresh
  have hact := h.actor
  have hreq := h.req
  have htk := h.tickets
  have hall : ∀ op, w.allowed op = w'.allowed op := by
    intro op; cases op <;> simp only [W.allowed, hact, hreq, htk]
  cases op with
  | ask n r =>
    simp only [W.step]
    have h1 := hf n
    by_cases hc : w.caller n = .fresh
    · rw [if_pos hc, if_pos (h1.mp hc)]
      refine ⟨h.cap, h.hist, by simp [hreq], htk, ?_, ?_⟩ <;> intro k <;> have := hj k <;> have := hf k <;> grind [set]
    · rw [if_neg hc, if_neg (fun h2 => hc (h1.mpr h2))]; exact h
  | arrive n =>
    simp only [W.step]
    have h1 := hj n
    by_cases hc : w.job n = .onWay
    · have hc' : w'.job n = .onWay := by grind
      rw [if_pos hc, if_pos hc']
      refine ⟨h.cap, h.hist, hreq, htk, hf, ?_⟩ <;> intro k <;> have := hj k <;> grind [set]
    · have hc' : w'.job n ≠ .onWay := by grind
      rw [if_neg hc, if_neg hc']; exact h
  | lose n =>
    simp only [W.step]
    have h1 := hj n
    (repeat' split) <;>
      first
      | exact h
      | (refine ⟨h.cap, h.hist, hreq, htk, hf, ?_⟩ <;> intro k <;> have := hj k <;> grind [set])
      | (exfalso; grind)
  | serve n f =>
    simp only [W.step]
    have h1 := hj n
    by_cases hc : w.job n = .spawned
    · have hc' : w'.job n = .spawned := by grind
      rw [if_pos hc, if_pos hc']
      cases f <;>
        (refine ⟨h.cap, by simp [h.hist, hreq], hreq, by simp [htk, hact], hf, ?_⟩ <;> intro k <;> have := hj k <;> grind [set])
    · have hc' : w'.job n ≠ .spawned := by grind
      rw [if_neg hc, if_neg hc']; exact h
  | look n ser =>
    simp only [W.step]
    rw [hact]
    rcases hj n with h1 | ⟨⟨a, h1⟩, h2⟩
    · rw [h1]
      split
      · split
        · refine ⟨h.cap, by simp [h.hist], hreq, htk, hf, ?_⟩
          intro k
          have := hj k
          grind [set]
        · exact h
      · exact h
    · rw [h1, h2]; exact h
  | actor op =>
    simp only [W.step, hall op]
    split
    · exact ⟨h.cap, by simp [h.hist], hreq, htk, hf, hj⟩
    · exact h
  | respond n d => simp [atCaller] at ho
  | netFail n => simp [atCaller] at ho
  | drop n => simp [atCaller] at ho

/-- **C95** Nothing that happens at the caller's end reaches the actor: a response that arrives, a failure of the network and
a dropped future leave no trace. The actor is the same as if none of them had happened. -/
theorem caller_unnoticed (cap : Option Nat) (ops : List WOp) :
    (run cap ops).actor = (run cap (ops.filter fun op => !atCaller op)).actor ∧
    ∀ n, (run cap ops).handledFor n = (run cap (ops.filter fun op => !atCaller op)).handledFor n := by
  suffices h : ∀ (w w' : W), Same w w' →
      Same (ops.foldl W.step w) ((ops.filter fun op => !atCaller op).foldl W.step w') by
    have hs := h { cap := cap } { cap := cap } ⟨rfl, rfl, rfl, rfl, fun _ => Iff.rfl, fun _ => Or.inl rfl⟩
    refine ⟨hs.actor, fun n => ?_⟩
    have h1 := hs.actor
    have h2 := hs.tickets
    simp only [W.handledFor, run]
    simp only [h1, h2]
    congr
  induction ops with
  | nil => exact fun _ _ h => h
  | cons op ops ih =>
    intro w w' h
    cases ho : atCaller op with
    | true => simp only [List.foldl_cons, List.filter_cons, ho]; exact ih _ _ (same_caller h op ho)
    | false => simp only [List.foldl_cons, List.filter_cons, ho]; exact ih _ _ (same_step h op ho)

example : ((againDemo.filter fun op => !atCaller op).length + 1 = againDemo.length) ∧
    (run none (againDemo.filter fun op => !atCaller op)).handledFor 1 = [(1, bodyOf { val := 5 })] ∧
    (run none againDemo).caller 1 = .netFailed := by decide

/-- **C95**, negation of "an error of the handler is heard by the asker, or by the actor": the caller of a remote ask has got
a failure of the network, or has gone away, and the handler returns an error. `on_panic` is not called, and the caller
never hears of it. -/
theorem error_unheard_remote (cap : Option Nat) (ops : List WOp) (n : Nat) (m : Msg) (ts : Bool) (rest : List Msg) (e : Err)
    (hc : (run cap ops).caller n = .netFailed ∨ (run cap ops).caller n = .gone) (ht : (n, m.1) ∈ (run cap ops).tickets)
    (hp : (run cap ops).actor.phase = .handling m false rest ts) (hpoll : (run cap ops).actor.polling = true) :
    ∃ x, (run cap (ops ++ [.actor (.handlerEnd (.ret (.err e)))])).actor.log =
        (run cap ops).actor.log ++ .hEnd m false (.ret (.err e)) :: x ∧ (∀ e', .pBegin e' ∉ x) ∧
      ∀ ops', (run cap (ops ++ ops')).caller n = (run cap ops).caller n := by
  have hi := inv_run cap ops
  have hcal : ∀ ops', (run cap (ops ++ ops')).caller n = (run cap ops).caller n := fun ops' =>
    one_answer cap ops ops' n (by rcases hc with hc | hc <;> simp [hc]) (by rcases hc with hc | hc <;> simp [hc])
  have hst : (run cap (ops ++ [.actor (.handlerEnd (.ret (.err e)))])).actor =
      (run cap ops).actor.step (.handlerEnd (.ret (.err e))) := by
    rw [run_snoc]
    have : (run cap ops).step (.actor (.handlerEnd (.ret (.err e)))) =
        { run cap ops with hist := (run cap ops).hist ++ [.handlerEnd (.ret (.err e))] } := rfl
    rw [this, actor_snoc]
  have hask : m.2.ask = true := by
    have hm : m ∈ (run cap ops).actor.handled := (good_after (run cap ops).cap (run cap ops).hist).cur m _ _ _ hp
    have := handled_body hi ht (b := m.2) hm
    rw [this]; rfl
  rw [hst]
  generalize (run cap ops).actor = s at *
  simp only [St.step, hp, hpoll, if_true, St.handlerEnd, hask, Bool.not_false, Bool.and_self]
  have hlog : ∀ s : St, ∀ t r, (s.reply t r).log = s.log := by intro s t r; simp
  cases rest with
  | cons y ys => exact ⟨[.hBegin y], by simp [St.drain, St.beginHandle, St.ev, hlog], by simp, hcal⟩
  | nil =>
    cases ts
    · exact ⟨[], by simp [St.drain, St.ev, hlog], by simp, hcal⟩
    · exact ⟨[.sBegin .normal], by simp [St.drain, St.onShutdown, St.leave, St.ev, hlog], by simp, hcal⟩

/-- The network fails while the handler runs. -/
example : (run none (up ++ [.ask 7 {}, .arrive 7, .serve 7 .found, .actor .recv, .netFail 7])).caller 7 = .netFailed ∧
    (run none (up ++ [.ask 7 {}, .arrive 7, .serve 7 .found, .actor .recv, .netFail 7])).tickets = [(7, 1)] ∧
    (run none (up ++ [.ask 7 {}, .arrive 7, .serve 7 .found, .actor .recv, .netFail 7])).actor.phase =
      .handling (1, bodyOf {}) false [] false ∧
    (run none (up ++ [.ask 7 {}, .arrive 7, .serve 7 .found, .actor .recv, .netFail 7])).actor.polling = true := by decide

/-! ### C95: order, and that answers come -/

/-- **C95** A remote ask made after another was answered by its handler is handled after it: an answer puts what the caller
asks next, or anybody it tells, behind it. -/
theorem asked_after_answered (cap : Option Nat) (ops ops' : List WOp) (n k : Nat) (a : Answer)
    (h : (run cap ops).caller n = .told a) (ha : (∃ v, a = .ok v) ∨ ∃ e, a = .handlerError e)
    (hk : (run cap ops).caller k = .fresh) (m : Msg) (hm : m ∈ (run cap (ops ++ ops')).handledFor k) :
    ∃ pre mid post m', (run cap (ops ++ ops')).actor.handled = pre ++ m' :: mid ++ m :: post ∧
      (run cap (ops ++ ops')).handledFor n = [m'] := by
  have hi := inv_run cap ops
  have hi' := inv_run cap (ops ++ ops')
  obtain ⟨m', r, hr⟩ : ∃ m' r, (run cap ops).RepliedBy n m' r := by
    rcases ha with ⟨v, rfl⟩ | ⟨e, rfl⟩
    · obtain ⟨m', h1⟩ := told_ok cap ops n v h; exact ⟨m', _, h1⟩
    · obtain ⟨m', h1⟩ := told_handler_error cap ops n e h; exact ⟨m', _, h1⟩
  obtain ⟨x, hx, hcap, htk⟩ := run_grows cap ops ops'
  have hpre : (run cap ops).actor.handled <+: (run cap (ops ++ ops')).actor.handled := by
    have := exec_handled (run cap ops).actor (good_after _ _) x
    have he : (run cap (ops ++ ops')).actor = (run cap ops).actor.exec x := by
      rw [W.actor, hx, hcap, after_append]; rfl
    rw [he]; exact this
  have hm1 : m' ∈ (run cap ops).handledFor n := by rw [hr.1]; simp
  simp only [W.handledFor, List.mem_filter, decide_eq_true_eq] at hm1 hm
  have hnot : m ∉ (run cap ops).actor.handled := by
    intro hc
    have hg := good_after (run cap ops).cap (run cap ops).hist
    have hs := hg.shape.mb.sent_lt _ (handled_sent hg.shape hg.acct (m := m) (by simp; exact Or.inl hc))
    exact ticket_late hi (hi.early k (Or.inl (hi.fresh k hk))) ops' m.1 (by rw [← run_append]; exact hm.2) hs
  obtain ⟨z, hz⟩ := hpre
  obtain ⟨p, q, hpq⟩ := List.append_of_mem hm1.1
  have hmz : m ∈ z := by
    have := hm.1
    rw [← hz, List.mem_append] at this
    exact this.resolve_left hnot
  obtain ⟨p', q', hpq'⟩ := List.append_of_mem hmz
  refine ⟨p, q ++ p', q', m', ?_, handledFor_one hi' (htk.subset hm1.2) ?_⟩
  · rw [← hz, hpq, hpq']; simp
  · rw [← hz]; simp [hm1.1]

/-- The one asks again when it has its answer. -/
def nextDemo : List WOp := servedDemo (.ok 1) ++ [.look 7 true, .respond 7 true]

example : (run none nextDemo).caller 7 = .told (.ok 1) ∧ (run none nextDemo).caller 8 = .fresh ∧
    (run none (nextDemo ++ [.ask 8 {}, .arrive 8, .serve 8 .found, .actor .recv])).handledFor 8 = [(2, bodyOf {})] := by
  decide

theorem born_run (cap : Option Nat) (ops : List WOp) (n : Nat) (h : (run cap ops).job n = .none) :
    (run cap ops).caller n = .fresh := by
  have : ∀ (ops : List WOp) (w : W), (w.job n = .none → w.caller n = .fresh) →
      (ops.foldl W.step w).job n = .none → (ops.foldl W.step w).caller n = .fresh := by
    intro ops
    induction ops with
    | nil => exact fun w h => h
    | cons op ops ih =>
      intro w hw
      refine ih (w.step op) ?_
      cases op <;> simp only [W.step] <;> (repeat' split) <;> grind [set]
  exact this ops { cap := cap } (fun _ => rfl) h

theorem told_of_settled {w : W} {n t : Nat} (hw : w.caller n = .waiting) (hj : w.job n = .asking t)
    (h1 : w.actor.slots t ≠ .none) (h2 : w.actor.slots t ≠ .waiting) :
    ∃ a, ((w.step (.look n true)).step (.respond n true)).caller n = .told a := by
  obtain ⟨a, ha⟩ : ∃ a, answerOf true (w.actor.slots t) = some a := by
    cases h : w.actor.slots t with
    | none => exact absurd h h1
    | waiting => exact absurd h h2
    | got r => cases r <;> simp [answerOf]
    | failed f => cases f <;> simp [answerOf]
    | gaveUp => simp [answerOf]
  have e : (w.step (.look n true)) = { w with job := set w.job n (.answered a), hist := w.hist ++ [.dropRef] } := by
    simp [W.step, hj, ha]
  rw [e]
  refine ⟨decode true a, ?_⟩
  simp only [W.step, set_self, hw, if_true]

/-- **C95** When the actor has ended, however it did, every remote ask that has not got lost can be answered, by steps of its
own only: no caller is left without an answer for want of the actor. The exception are asks whose reply sender a handler has
taken and not used. -/
theorem ended_answers (cap : Option Nat) (ops : List WOp) (n : Nat)
    (hend : (∃ r, (run cap ops).actor.phase = .stopped r) ∨ (run cap ops).actor.phase = .crashed)
    (hw : (run cap ops).caller n = .waiting) (hj : (run cap ops).job n ≠ .over)
    (hd : ∀ t, (n, t) ∈ (run cap ops).tickets → t ∉ (run cap ops).actor.delegated) :
    ∃ a, (run cap (ops ++ [.arrive n, .serve n .found, .look n true, .respond n true])).caller n = .told a := by
  have hi := inv_run cap ops
  have hb := born_run cap ops n
  rw [run_append]
  generalize run cap ops = w at *
  simp only [List.foldl_cons, List.foldl_nil]
  have key : ∀ (w : W) t, Inv w → w.caller n = .waiting → w.job n = .asking t → (∃ r, w.actor.phase = .stopped r) ∨ w.actor.phase = .crashed →
      t ∉ w.actor.delegated → ∃ a, ((w.step (.look n true)).step (.respond n true)).caller n = .told a := by
    intro w t hi hw hj hend hd
    have h1 := every_ask_resolved w.cap w.hist t _ hend (hi.tk n t (hi.asking n t hj)).sent rfl
    refine told_of_settled hw hj ?_ ?_
    · intro h; simp only [W.actor] at h hd; rw [h] at h1; simp at h1
    · intro h; simp only [W.actor] at h hd; rw [h] at h1; simp [hd] at h1
  have sp : ∀ (w : W), Inv w → w.caller n = .waiting → w.job n = .spawned → (∃ r, w.actor.phase = .stopped r) ∨ w.actor.phase = .crashed →
      ∃ a, (((w.step (.serve n .found)).step (.look n true)).step (.respond n true)).caller n = .told a := by
    intro w hi hw hj hend
    have hi' := inv_step hi (.serve n .found)
    have hg := good_after w.cap w.hist
    have e : (w.step (.serve n .found)).actor = (w.actor.step .cloneRef).step
        (if (w.req n).imm then .trySend (bodyOf (w.req n)) else .send (bodyOf (w.req n))) := by
      simp only [W.step, hj, if_true, W.actor, after_append]
      rfl
    refine key _ w.actor.mb.next hi' ?_ ?_ ?_ ?_
    · simp [W.step, hj, hw]
    · simp [W.step, hj]
    · have hc : (w.actor.step .cloneRef).phase = w.actor.phase := by simp only [St.step]; split <;> rfl
      rw [e]
      cases (w.req n).imm
      · have : ((w.actor.step .cloneRef).step (.send (bodyOf (w.req n)))).phase = w.actor.phase := hc
        simpa only [Bool.false_eq_true, if_false, this] using hend
      · have : ((w.actor.step .cloneRef).step (.trySend (bodyOf (w.req n)))).phase = w.actor.phase := hc
        simpa only [if_true, this] using hend
    · rw [e]
      have : w.actor.mb.next ∉ w.actor.delegated := by
        intro hm
        have h1 := hg.slots.d2 w.actor.mb.next (by simp; exact Or.inr hm)
        obtain ⟨b, hb⟩ := mem_K.mp h1
        exact Nat.lt_irrefl _ (hg.shape.mb.sent_lt _ (handled_sent hg.shape hg.acct (m := (_, b)) (by simp; exact Or.inl hb)))
      have hc : (w.actor.step .cloneRef).delegated = w.actor.delegated := by simp only [St.step]; split <;> rfl
      rw [← hc] at this
      cases (w.req n).imm <;> exact this
  cases hjob : w.job n with
  | none => rw [hb hjob] at hw; cases hw
  | over => exact absurd hjob hj
  | onWay =>
    have hi' := inv_step hi (.arrive n)
    refine sp (w.step (.arrive n)) hi' ?_ ?_ ?_
    · simp [W.step, hjob, hw]
    · simp [W.step, hjob]
    · have : (w.step (.arrive n)).actor = w.actor := by simp [W.step, hjob, W.actor]
      rw [this]; exact hend
  | spawned =>
    have e : w.step (.arrive n) = w := by simp [W.step, hjob]
    rw [e]; exact sp w hi hw hjob hend
  | asking t =>
    have e : w.step (.arrive n) = w := by simp [W.step, hjob]
    have e2 : w.step (.serve n .found) = w := by simp [W.step, hjob]
    rw [e, e2]; exact key w t hi hw hjob hend (hd t (hi.asking n t hjob))
  | answered a =>
    have e : w.step (.arrive n) = w := by simp [W.step, hjob]
    have e2 : w.step (.serve n .found) = w := by simp [W.step, hjob]
    have e3 : w.step (.look n true) = w := by simp [W.step, hjob]
    rw [e, e2, e3]
    refine ⟨decode true a, ?_⟩
    simp only [W.step, hjob, hw, if_true, set_self]

/-- The actor is killed while one request is being handled and another is on its way. -/
def killedDemo : List WOp :=
  up ++ [.ask 7 {}, .arrive 7, .serve 7 .found, .actor .recv, .ask 8 {}, .actor .kill, .actor .pollEnd,
    .actor (.stopEnd .ok), .actor .finish]

example : ((run none killedDemo).actor.phase = .stopped .killed ∨ (run none killedDemo).actor.phase = .crashed) ∧
    (run none killedDemo).caller 7 = .waiting ∧ (run none killedDemo).job 7 = .asking 1 ∧
    (run none killedDemo).job 8 = .onWay ∧ (run none killedDemo).actor.delegated = [] := by decide

/-- **C95** A caller whose request, or whose response, got lost hears nothing: it waits until the network reports a failure or
it goes away, whatever else happens. -/
theorem lost_waits (cap : Option Nat) (ops ops' : List WOp) (n : Nat) (hw : (run cap ops).caller n = .waiting)
    (hj : (run cap ops).job n = .over) (h1 : .netFail n ∉ ops') (h2 : .drop n ∉ ops') :
    (run cap (ops ++ ops')).caller n = .waiting := by
  rw [run_append]
  generalize run cap ops = w at *
  have : ∀ (ops' : List WOp) (w : W), w.caller n = .waiting → w.job n = .over → .netFail n ∉ ops' → .drop n ∉ ops' →
      (ops'.foldl W.step w).caller n = .waiting := by
    intro ops'
    induction ops' with
    | nil => exact fun w h _ _ _ => h
    | cons op ops' ih =>
      intro w hw hj h1 h2
      simp only [List.mem_cons, not_or] at h1 h2
      refine ih (w.step op) ?_ ?_ h1.2 h2.2
      · cases op <;> simp only [W.step] <;> (repeat' split) <;> grind [set]
      · cases op <;> simp only [W.step] <;> (repeat' split) <;> grind [set]
  exact this ops' w hw hj h1 h2

example : (run none (up ++ [.ask 7 {}, .lose 7])).caller 7 = .waiting ∧
    (run none (up ++ [.ask 7 {}, .lose 7])).job 7 = .over := by decide

end Verif.Remote.Asks
