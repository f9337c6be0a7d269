/-
Property theorems for C95: a caller who waits is told what its own handler returned, and otherwise which of the two nodes could not
write or read it; only a failure of the network is reported as one, and who dropped the future is told nothing.
-/
import Verif.Remote.PropsAsks

namespace Verif.Remote.Asks
open Verif.Lifecycle Verif.Mailbox

/-- What the caller hears of what its handler returned, if the actor's node can write it (`ser`) and its own can read it (`dec`). -/
def hears (ser dec : Bool) : Res → Answer
  | .ok v => match ser, dec with
    | true, true => .ok v
    | true, false => .deserializeMessage
    | false, _ => .serializeReply
  | .err e => match ser, dec with
    | true, true => .handlerError e
    | true, false => .deserializeHandlerError
    | false, _ => .serializeHandlerError

/-- It happens to the caller of request `n`, or to the request or the response on its way. -/
def touches (n : Nat) : WOp → Bool
  | .lose k => k == n
  | .respond k _ => k == n
  | .netFail k => k == n
  | .drop k => k == n
  | _ => false

theorem untouched_step (w : W) (op : WOp) (n : Nat) (a : Answer) (hj : w.job n = .answered a) (hc : w.caller n = .waiting)
    (ho : touches n op = false) : (w.step op).job n = .answered a ∧ (w.step op).caller n = .waiting := by
  cases op <;> simp only [touches, beq_eq_false_iff_ne] at ho <;> simp only [W.step] <;> (repeat' split) <;> grind [set]

theorem untouched (w : W) (ops : List WOp) (n : Nat) (a : Answer) (hj : w.job n = .answered a) (hc : w.caller n = .waiting)
    (ho : ∀ op ∈ ops, touches n op = false) :
    (ops.foldl W.step w).job n = .answered a ∧ (ops.foldl W.step w).caller n = .waiting := by
  induction ops generalizing w with
  | nil => exact ⟨hj, hc⟩
  | cons op ops ih =>
    obtain ⟨h1, h2⟩ := untouched_step w op n a hj hc (ho op (by simp))
    exact ih _ h1 h2 fun o h => ho o (by simp [h])

theorem untouched_unsent (w : W) (ops : List WOp) (n : Nat) (a : Answer) (hj : w.job n = .answered a) (hc : w.caller n = .waiting)
    (ho : ∀ op ∈ ops, touches n op = false) (hno : ∀ t, (n, t) ∉ w.tickets) (t : Nat) : (n, t) ∉ (ops.foldl W.step w).tickets := by
  induction ops generalizing w with
  | nil => exact hno t
  | cons op ops ih =>
    obtain ⟨h1, h2⟩ := untouched_step w op n a hj hc (ho op (by simp))
    refine ih _ h1 h2 (fun o h => ho o (by simp [h])) ?_
    cases op <;> simp only [W.step] <;> (repeat' split) <;> grind [set]

/-- **C95** The handler has returned `r` to the local ask made for request `n`, whose caller waits. Whatever happens to the actor and to
other requests meanwhile: once the task has looked and the response has arrived the caller is told `r`; or, if it could not be
serialised there, or not be deserialised here, just that. -/
theorem answered_as_returned (cap : Option Nat) (ops mid : List WOp) (n t : Nat) (r : Res) (ser dec : Bool)
    (hj : (run cap ops).job n = .asking t) (hs : (run cap ops).actor.slots t = .got r)
    (hc : (run cap ops).caller n = .waiting) (hm : ∀ op ∈ mid, touches n op = false) :
    (run cap (ops ++ [.look n ser] ++ mid ++ [.respond n dec])).caller n = .told (hears ser dec r) := by
  have h1 : run cap (ops ++ [.look n ser] ++ mid ++ [.respond n dec]) =
      ((mid.foldl W.step ((run cap ops).step (.look n ser)))).step (.respond n dec) := by simp [run]
  rw [h1]
  generalize run cap ops = w at *
  obtain ⟨a, ha, hd⟩ : ∃ a, (w.step (.look n ser)).job n = .answered a ∧ decode dec a = hears ser dec r := by
    cases r <;> cases ser <;> cases dec <;> simp [W.step, hj, hs, answerOf, set, decode, hears]
  have hw : (w.step (.look n ser)).caller n = .waiting := by
    simp only [W.step]; (repeat' split) <;> simpa using hc
  obtain ⟨h2, h3⟩ := untouched _ mid n a ha hw hm
  generalize mid.foldl W.step (w.step (.look n ser)) = w' at *
  simp [W.step, h2, h3, set, hd]

example : (run none (servedDemo (.ok 1))).job 7 = .asking 1 ∧ (run none (servedDemo (.ok 1))).actor.slots 1 = .got (.ok 1) ∧
    (run none (servedDemo (.ok 1))).caller 7 = .waiting ∧
    (∀ op ∈ [WOp.ask 8 { val := 6 }, .arrive 8, .netFail 8], touches 7 op = false) := by decide

/-- What the caller hears of a local ask that failed. -/
def hearsFail : Fail → Answer
  | .notRunning => .notRunning
  | .full => .full
  | .mailboxTimeout => .replyTimeout
  | .actorStopped => .stopped

/-- **C95** The local ask made for request `n` has failed, or waited for its reply until its time was up: the caller who waits is told so,
whatever can be serialised. -/
theorem failed_as_reported (cap : Option Nat) (ops mid : List WOp) (n t : Nat) (ser dec : Bool)
    (hj : (run cap ops).job n = .asking t) (hc : (run cap ops).caller n = .waiting)
    (hm : ∀ op ∈ mid, touches n op = false) :
    (∀ e, (run cap ops).actor.slots t = .failed e →
      (run cap (ops ++ [.look n ser] ++ mid ++ [.respond n dec])).caller n = .told (hearsFail e)) ∧
    ((run cap ops).actor.slots t = .gaveUp →
      (run cap (ops ++ [.look n ser] ++ mid ++ [.respond n dec])).caller n = .told .replyTimeout) := by
  have h1 : run cap (ops ++ [.look n ser] ++ mid ++ [.respond n dec]) =
      ((mid.foldl W.step ((run cap ops).step (.look n ser)))).step (.respond n dec) := by simp [run]
  rw [h1]
  generalize run cap ops = w at *
  have hw : (w.step (.look n ser)).caller n = .waiting := by
    simp only [W.step]; (repeat' split) <;> simpa using hc
  have key : ∀ a, (w.step (.look n ser)).job n = .answered a →
      ((mid.foldl W.step (w.step (.look n ser))).step (.respond n dec)).caller n = .told (decode dec a) := by
    intro a ha
    obtain ⟨h2, h3⟩ := untouched _ mid n a ha hw hm
    generalize mid.foldl W.step (w.step (.look n ser)) = w' at *
    simp [W.step, h2, h3, set]
  refine ⟨fun e hs => ?_, fun hs => ?_⟩
  · rw [key (hearsFail e) (by cases e <;> simp [W.step, hj, hs, answerOf, set, hearsFail])]
    cases e <;> rfl
  · rw [key .replyTimeout (by simp [W.step, hj, hs, answerOf, set])]
    rfl

example : (run (some 1) (mailboxTimeDemo.take 5)).job 7 = .asking 1 ∧ (run (some 1) (mailboxTimeDemo.take 5)).caller 7 = .waiting ∧
    (run (some 1) (mailboxTimeDemo.take 5)).actor.slots 1 = .failed .mailboxTimeout := by decide

/-- What the caller hears if no local ask was made. -/
def hearsEarly : Found → Option Answer
  | .found => none
  | .notRegistered => some .notRunning
  | .unknown => some .unknown
  | .undecodable => some .deserializeMessage

/-- **C95** The task that serves the request finds no such actor, no such message for it, or cannot read the message: the caller who waits is
told which, the actor has not noticed anything, and no message was sent to it for this request. -/
theorem not_found_as_reported (cap : Option Nat) (ops mid : List WOp) (n : Nat) (f : Found) (a : Answer) (dec : Bool)
    (hj : (run cap ops).job n = .spawned) (hc : (run cap ops).caller n = .waiting) (hf : hearsEarly f = some a)
    (hm : ∀ op ∈ mid, touches n op = false) :
    (run cap (ops ++ [.serve n f] ++ mid ++ [.respond n dec])).caller n = .told a ∧
    (run cap (ops ++ [.serve n f])).actor = (run cap ops).actor ∧
    (run cap (ops ++ [.serve n f] ++ mid ++ [.respond n dec])).handledFor n = [] := by
  have h1 : run cap (ops ++ [.serve n f] ++ mid ++ [.respond n dec]) =
      ((mid.foldl W.step ((run cap ops).step (.serve n f)))).step (.respond n dec) := by simp [run]
  have h0 : run cap (ops ++ [.serve n f]) = (run cap ops).step (.serve n f) := by simp [run]
  have hno : ∀ t, (n, t) ∉ (run cap ops).tickets := (inv_run cap ops).early n (by simp [hj])
  rw [h0, h1]
  generalize run cap ops = w at *
  have hw : (w.step (.serve n f)).caller n = .waiting := by
    simp only [W.step]; (repeat' split) <;> simpa using hc
  have hans : (w.step (.serve n f)).job n = .answered a ∧ (w.step (.serve n f)).tickets = w.tickets ∧
      (w.step (.serve n f)).actor = w.actor := by
    cases f <;> simp only [hearsEarly, reduceCtorEq, Option.some.injEq] at hf <;> subst hf <;> simp [W.step, hj, set, W.actor]
  obtain ⟨h2, h3⟩ := untouched _ mid n a hans.1 hw hm
  refine ⟨?_, hans.2.2, ?_⟩
  · generalize mid.foldl W.step (w.step (.serve n f)) = w' at *
    cases f <;> simp only [hearsEarly, reduceCtorEq, Option.some.injEq] at hf <;> subst hf <;> simp [W.step, h2, h3, set, decode]
  · have hnt := untouched_unsent _ mid n a hans.1 hw hm (by rw [hans.2.1]; exact hno)
    refine handledFor_nil fun t b ht => absurd ?_ (hnt t)
    generalize mid.foldl W.step (w.step (.serve n f)) = w' at *
    simpa [W.step, h2] using ht

example : (run none (up ++ [.ask 7 { val := 5 }, .arrive 7])).job 7 = .spawned ∧
    (run none (up ++ [.ask 7 { val := 5 }, .arrive 7])).caller 7 = .waiting := by decide

/-- **C95** A caller who got a failure of the network got it from its node, and one who is gone has dropped the future: nobody is told a
failure of the network that was not reported, and nobody who waits is forgotten. -/
theorem ends_as_reported (cap : Option Nat) (ops : List WOp) (n : Nat) :
    ((run cap ops).caller n = .netFailed → .netFail n ∈ ops) ∧ ((run cap ops).caller n = .gone → .drop n ∈ ops) := by
  suffices h : ∀ (w : W) (ops' : List WOp), ((w.caller n = .netFailed → .netFail n ∈ ops') ∧ (w.caller n = .gone → .drop n ∈ ops')) →
      ∀ ops, (((ops.foldl W.step w).caller n = .netFailed → .netFail n ∈ ops' ++ ops) ∧
        ((ops.foldl W.step w).caller n = .gone → .drop n ∈ ops' ++ ops)) by
    simpa [run] using h { cap := cap } [] (by simp) ops
  intro w ops' hw ops
  induction ops generalizing w ops' with
  | nil => simpa using hw
  | cons op ops ih =>
    have h1 := ih (w.step op) (ops' ++ [op]) (by
      cases op <;> simp only [W.step] <;> (repeat' split) <;> grind [set])
    simpa using h1

/-- **C95** While the caller waits, a failure of the network is what it gets, and with a dropped future it is gone, never to be told
anything (`one_answer`). -/
theorem ends_when_reported (cap : Option Nat) (ops : List WOp) (n : Nat) (h : (run cap ops).caller n = .waiting) :
    (run cap (ops ++ [.netFail n])).caller n = .netFailed ∧ (run cap (ops ++ [.drop n])).caller n = .gone := by
  constructor <;> simp [run_append, W.step, h, set]

example : (run none (servedDemo (.ok 1) ++ [.netFail 7])).caller 7 = .netFailed ∧
    (run none (servedDemo (.ok 1) ++ [.drop 7, .look 7 true, .respond 7 true])).caller 7 = .gone ∧
    (run none (servedDemo (.ok 1))).caller 7 = .waiting := by decide

end Verif.Remote.Asks
