import Verif.Pool.Answer
import Verif.Pool.Props
import Verif.Request.Props

namespace Verif.Pool

open Verif.Request
open Verif.Mailbox (Why)

/-! ### C96: what the asker gets -/

/-- The same answer as that of the actor: its reply, its error, or that it has stopped. If the actor was not running the
message comes back as that of the asker, `wrap`ped again. -/
def AsIfAsked {n m : Ty} {e : Type} {t : Type} (wrap : m.Sem → n.Sem) (a : Except (SendError m.Sem e) t)
    (b : Except (SendError n.Sem e) t) : Prop :=
  match a, b with
  | .ok x, .ok y => x = y
  | .error x, .error y => x.mapMsg wrap = y
  | _, _ => False

/-- **C96** (partial: replies). A reply of the actor behind a worker reaches the asker of the pool as it is.

Missing: errors, see `pool_error_panics`. -/
theorem pool_reply_arrives_partial (n m : Ty) (r : RTy) (wrap : m.Sem → n.Sem) (x : r.ok.Sem) :
    ∃ b, poolAnswer n m r (.ok x) = .val b ∧ AsIfAsked (m := m) wrap (.ok x) b := by
  refine ⟨.ok x, ?_, rfl⟩
  simp only [poolAnswer, workerPacket, packet, decode, downcastOk]
  simp [Dyn.downcast, unwrap, Out.map, RTy.ok]
  rfl

example : poolAnswer (.user 0) (.user 1) (.plain (.user 2) (.user 3)) (.ok (7 : Nat)) = .val (.ok (7 : Nat)) := rfl

/-- No type is the `SendError` whose error it is itself. -/
theorem ty_ne_sendError (m e : Ty) : Ty.sendError m e ≠ e := by
  intro h
  have := congrArg Ty.size h
  simp only [Ty.size] at this
  omega

/-- **C96**, the code does the opposite: whatever the error (the handler's own error, that the actor is not running, that
it has stopped), whatever the types, the asker of the pool panics. The worker wraps the error in a `SendError`, which the
asker casts to the error type of the actor. -/
theorem pool_error_panics (n m : Ty) (r : RTy) (x : SendError m.Sem r.err.Sem) : poolAnswer n m r (.error x) = .panic := by
  have h : (Dyn.mk (.sendError m r.err) x).downcast r.err = none := Dyn.downcast_other _ _ (ty_ne_sendError _ _)
  simp only [poolAnswer, workerPacket, packet, decode, downcastErr]
  have : downcast n r.err (.handlerError ⟨.sendError m r.err, x⟩) = .panic := by
    simp [downcast, tryDowncast, h]
  change Out.map _ (downcast n r.err (.handlerError ⟨.sendError m r.err, x⟩)) = _
  rw [this]
  rfl

/-- The handler returns an error; the same asked directly arrives. -/
example : poolAnswer (.user 0) (.user 1) (.plain (.user 2) (.user 3)) (.error (.handlerError (7 : Nat))) = .panic ∧
    answer (.user 1) [] (.user 2) (.user 3) (.error (7 : Nat)) = .val (.error (.handlerError (7 : Nat))) := ⟨rfl, rfl⟩

/-- **C96**: the asker of a pool panics exactly if the actor's answer is an error. -/
theorem pool_panics_iff (n m : Ty) (r : RTy) (a : Except (SendError m.Sem r.err.Sem) r.ok.Sem) :
    poolAnswer n m r a = .panic ↔ ∃ x, a = .error x := by
  cases a with
  | error x => simp [pool_error_panics]
  | ok x =>
    have : poolAnswer n m r (.ok x) = .val (.ok x) := by
      simp only [poolAnswer, workerPacket, packet, decode, downcastOk]
      simp [Dyn.downcast, unwrap, Out.map, RTy.ok]
      rfl
    simp [this]

example : ¬ ∃ x, poolAnswer (.user 0) (.user 1) (.plain (.user 2) (.user 3)) (.ok (7 : Nat)) = x ∧ x = .panic :=
  fun ⟨_, h, h'⟩ => nomatch h.trans h'

/-- **C96**: what an asker of the pool gets is never anything but the actor's reply or a panic. -/
theorem pool_answer_cases (n m : Ty) (r : RTy) (a : Except (SendError m.Sem r.err.Sem) r.ok.Sem) :
    poolAnswer n m r a = .panic ∨ ∃ x, a = .ok x ∧ poolAnswer n m r a = .val (.ok x) := by
  cases a with
  | error x => exact .inl (pool_error_panics n m r x)
  | ok x =>
    right
    refine ⟨x, rfl, ?_⟩
    simp only [poolAnswer, workerPacket, packet, decode, downcastOk]
    simp [Dyn.downcast, unwrap, Out.map, RTy.ok]
    rfl

example : ∃ x, (.ok (7 : Nat) : Except (SendError Nat Nat) Nat) = .ok x ∧
    poolAnswer (.user 0) (.user 1) (.plain (.user 2) (.user 3)) (.ok x) = .val (.ok x) := ⟨7, rfl, rfl⟩

/-- **C96** fails in runs: the actor behind worker `i` has stopped, and the worker works on a message that was asked. However the
worker goes on, it answers this ask with an error or not at all, and with any error, of any types, the asker panics. -/
theorem dead_inner_actor_panics_asker {zero : List Bool} {ops : List Op} {s : St} (_ : after zero ops = some s) {i : Nat}
    {w : Worker} {j : Job} (hw : s.workers[i]? = some w) (hi : w.inner = false) (hc : w.cur = some j) (ha : j.ask = true)
    (ok : Bool) :
    ((s.step (.done i ok)).answers = s.answers ∨ (s.step (.done i ok)).answers = s.answers ++ [(j.no, false)]) ∧
    ∀ (n m : Ty) (r : RTy) (x : SendError m.Sem r.err.Sem), poolAnswer n m r (.error x) = .panic := by
  refine ⟨?_, pool_error_panics⟩
  cases ok <;> simp [St.step, hw, hi, hc, ha, St.upd]

example : ∃ s, after [false, false] [.innerDie 0, .dispatch 7 true, .attempt true, .take 0] = some s ∧
    (∃ w, s.workers[0]? = some w ∧ w.inner = false ∧ w.cur = some ⟨0, 7, true⟩) ∧
    (s.step (.done 0 false)).answers = [(0, false)] := by
  refine ⟨_, rfl, ⟨_, rfl, ?_, ?_⟩, ?_⟩ <;> decide

/-- **C96** (broadcasts). The result of a copy the worker's mailbox refused is the error of that kind, with the message that was
broadcast; building it never panics. -/
theorem copy_error_true (m c e : Ty) (x : m.Sem) (k : c.Sem) (w : Why) :
    ∃ err : SendError m.Sem e.Sem, copyResult m c e x k (some w) = .val (.error err) ∧ err.kind = whyKind w ∧
      err.msgs = [x] := by
  obtain ⟨err, h, hk, hm⟩ := (failed_request_hands_back_message (.tuple m c) e (x, k) 0 w).1
  refine ⟨copyError err, by simp only [copyResult, h, Out.map], ?_⟩
  cases err <;> simp_all [copyError, SendError.mapMsg, SendError.mapErr, SendError.flatten, SendError.kind, SendError.msgs]
  case actorNotRunning y => exact congrArg Prod.fst (List.head_eq_of_cons_eq hm)
  case mailboxFull y => exact congrArg Prod.fst (List.head_eq_of_cons_eq hm)
  case timeout y =>
    cases y with
    | none => cases hm
    | some y => exact ⟨y, rfl, congrArg Prod.fst (List.head_eq_of_cons_eq hm)⟩

example : copyResult (.user 1) .unit (.user 3) (5 : Nat) () (some .closed) = .val (.error (.actorNotRunning (5 : Nat))) := rfl

/-- **C96** (broadcasts). A copy the mailbox accepted is a success, whatever the handler makes of it later. -/
theorem copy_accepted (m c e : Ty) (x : m.Sem) (k : c.Sem) (why : Option Why) :
    copyResult m c e x k why = .val (.ok ()) ↔ why = none := by
  cases why with
  | none => simp [copyResult, tell, sendTry, Out.map]
  | some w =>
    obtain ⟨err, h, _⟩ := copy_error_true m c e x k w
    simp [h]

example : copyResult (.user 1) .unit (.user 3) (5 : Nat) () none = .val (.ok ()) := rfl

/-- Is there a worker `i` whose mailbox takes messages? Bookkeeping for the proof of `worker_stops_exactly`. -/
private def opens (s : St) (i : Nat) : Option Bool := (s.workers[i]?).map (·.isOpen)

private theorem opens_upd (s : St) (k : Nat) (f : Worker → Worker) (hf : ∀ w, (f w).isOpen = w.isOpen) (i : Nat) :
    opens (s.upd k f) i = opens s i := by
  simp only [opens, St.upd, List.getElem?_modify]
  split <;> cases s.workers[i]? <;> simp [hf]

private theorem opens_deliver (s : St) (k : Nat) (j : Job) (i : Nat) : opens (s.deliver k j) i = opens s i := by
  unfold St.deliver
  split
  · exact opens_upd s k (·.push j) (fun _ => rfl) i
  · rfl

private theorem opens_refused (s : St) (j : Job) (l k i : Nat) : opens (s.refused j l k) i = opens s i := by
  have h := opens_upd s k (fun w => { w with weak := w.weak - 1 }) (fun _ => rfl) i
  unfold St.refused
  dsimp only
  split <;> exact h

private theorem opens_attempt (s : St) (room : Bool) (i : Nat) : opens (s.step (.attempt room)) i = opens s i := by
  have h := opens_upd s (nextWorker s.workers) (fun w => { w with weak := w.weak + 1 }) (fun _ => rfl) i
  simp only [St.step]
  split
  · rfl
  · split
    · exact h
    · split
      · exact (opens_refused _ _ _ _ _).trans h
      · split
        · exact (opens_deliver _ _ _ _).trans h
        · exact h
  · rfl

private theorem opens_pollSend (s : St) (room : Bool) (i : Nat) : opens (s.step (.pollSend room)) i = opens s i := by
  simp only [St.step]
  split
  · split
    · rfl
    · split
      · exact opens_refused _ _ _ _ _
      · split
        · exact opens_deliver _ _ _ _
        · rfl
  · rfl

private theorem opens_pollCopy (s : St) (k : Nat) (room : Bool) (i : Nat) : opens (s.step (.pollCopy k room)) i = opens s i := by
  simp only [St.step]
  split
  · split
    · split
      · exact opens_upd s k (fun w => { w with weak := w.weak - 1 }) (fun _ => rfl) i
      · split
        · exact opens_deliver _ _ _ _
        · rfl
    · rfl
  · rfl

/-- **C96**: a worker stops in one step only if it is stopped from outside or if the actor behind it answers a message that was
told with an error; a reply never stops it, and neither does an error of a message that was asked. -/
theorem worker_stops_exactly {zero : List Bool} {ops : List Op} {s : St} (_ : after zero ops = some s) (op : Op) {i : Nat}
    {w w' : Worker} (hw : s.workers[i]? = some w) (ho : w.isOpen = true) (hw' : (s.step op).workers[i]? = some w') :
    w'.isOpen = false ↔ op = .die i ∨ (op = .done i false ∧ ∃ j, w.cur = some j ∧ j.ask = false) := by
  have same : opens (s.step op) i = opens s i → (w'.isOpen = false ↔ False) := by
    intro h
    simp only [opens, hw, hw', Option.map_some, Option.some.injEq, ho] at h
    simp [h]
  cases op
  case attempt room => simpa using same (opens_attempt s room i)
  case pollSend room => simpa using same (opens_pollSend s room i)
  case pollCopy k room => simpa using same (opens_pollCopy s k room i)
  all_goals
    clear same
    grind [St.step, St.upd, Worker.close]

example : ∃ s, after [false, false] [.dispatch 7 false, .attempt true, .dispatch 8 false, .attempt true, .take 0, .take 1] =
    some s ∧ (s.step (.done 0 true)).workers.map (·.isOpen) = [true, true] ∧
    (s.step (.done 0 false)).workers.map (·.isOpen) = [false, true] := by
  refine ⟨_, rfl, ?_, ?_⟩ <;> decide

end Verif.Pool
