import Verif.Lifecycle.Model

/-!
Specification of the life of an actor as seen from outside: the event histories an actor may
produce, given by a small deterministic automaton. It does not mention mailboxes, buffers,
polls or any other part of the model; it only uses the types of events.
-/

namespace Verif.Lifecycle

/-- Where an actor is in its life, as far as handlers and hooks are concerned. -/
inductive Life where
  | notStarted
  /-- `on_start` is running -/
  | inStart
  /-- no handler or hook is running; `st`: a stop signal was taken from the mailbox -/
  | ready (st : Bool)
  | inHandler (m : Msg) (st : Bool)
  | inLink (id : Id) (r : Reason)
  /-- a failure was reported, `on_panic` must be called; `started`: `on_start` had succeeded -/
  | failing (e : Err) (started : Bool)
  | inPanic (e : Err) (started : Bool)
  /-- the reason is decided, `on_stop` must be called -/
  | stopDue (r : Reason)
  | inStop (r : Reason)
  /-- `on_stop` is over -/
  | done (r : Reason)
  | returned (r : Reason)
  | dead
  deriving DecidableEq, Repr

/-- What must follow a handler's end: the error of a tell, or of an ask whose reply was
delegated, and every panic goes to `on_panic`; everything else does not concern the actor. -/
def afterHandler (m : Msg) (taken : Bool) (o : HOut) (st : Bool) : Life :=
  match o with
  | .panic e => .failing e true
  | .ret (.err e) => if m.2.ask && !taken then .ready st else .failing e true
  | .ret (.ok _) => .ready st

/-- What must follow `on_link_died`. -/
def afterLink (o : FOut) : Life :=
  match o with
  | .cont => .ready false
  | .brk (.panicked e) => .failing e true
  | .brk r => .stopDue r
  | .err e => .failing e true
  | .panic e => .failing e true

/-- What must follow `on_panic`. -/
def afterPanic (e : Err) (started : Bool) (o : FOut) : Life :=
  match o with
  | .cont => if started then .ready false else .stopDue (.panicked e)
  | .brk r => .stopDue r
  | .err e' => .stopDue (.panicked e')
  | .panic _ => .dead

/-- One event. `none`: the event may not happen now. -/
def Life.step : Life → Ev → Option Life
  | l, .killCalled => some l
  | l, .replySent _ _ => some l
  | .notStarted, .startBegin => some .inStart
  | .inStart, .startEnd .ok => some (.ready false)
  | .inStart, .startEnd (.err e) => some (.failing e false)
  | .inStart, .startEnd (.panic e) => some (.failing e false)
  | .inStart, .startCancel => some .dead
  | .ready st, .hBegin m => some (.inHandler m st)
  | .ready false, .lBegin id r => some (.inLink id r)
  | .ready false, .stopTaken => some (.ready true)
  | .ready false, .noRefs => some (.ready true)
  | .ready true, .sBegin .normal => some (.inStop .normal)
  | .ready false, .sBegin .killed => some (.inStop .killed)
  | .inHandler m st, .hEnd m' taken o => if m = m' then some (afterHandler m taken o st) else none
  | .inHandler m _, .hCancel m' => if m = m' then some (.stopDue .killed) else none
  | .inLink id r, .lEnd id' r' o => if id = id' ∧ r = r' then some (afterLink o) else none
  | .inLink _ _, .lCancel => some (.stopDue .killed)
  | .failing e st, .pBegin e' => if e = e' then some (.inPanic e st) else none
  | .inPanic e st, .pEnd e' o => if e = e' then some (afterPanic e st o) else none
  | .inPanic _ st, .pCancel => some (if st then .stopDue .killed else .dead)
  | .stopDue r, .sBegin r' => if r = r' then some (.inStop r) else none
  | .inStop r, .sEnd r' o =>
    if r = r' then (match o with
      | .panic _ => some .dead
      | _ => some (.done r)) else none
  | .inStop _, .sCancel => some .dead
  | .done r, .notified _ r' => if r = r' then some (.done r) else none
  | .done r, .returned r' => if r = r' then some (.returned r) else none
  | _, _ => none

/-- A history of events. -/
def Life.run : Life → List Ev → Option Life
  | l, [] => some l
  | l, e :: es => (l.step e).bind (fun l' => l'.run es)

/-- Starts of handlers and hooks. -/
def Ev.isBegin : Ev → Bool
  | .startBegin => true
  | .hBegin _ => true
  | .lBegin _ _ => true
  | .pBegin _ => true
  | .sBegin _ => true
  | _ => false

/-- Completions (or cancellations) of handlers and hooks. -/
def Ev.isEnd : Ev → Bool
  | .startEnd _ => true
  | .startCancel => true
  | .hEnd _ _ _ => true
  | .hCancel _ => true
  | .lEnd _ _ _ => true
  | .lCancel => true
  | .pEnd _ _ => true
  | .pCancel => true
  | .sEnd _ _ => true
  | .sCancel => true
  | _ => false

/-- Does `e` complete (or cancel) what `b` started? -/
def closes (b e : Ev) : Bool :=
  match b, e with
  | .startBegin, .startEnd _ => true
  | .startBegin, .startCancel => true
  | .hBegin m, .hEnd m' _ _ => m = m'
  | .hBegin m, .hCancel m' => m = m'
  | .lBegin id r, .lEnd id' r' _ => id = id' && decide (r = r')
  | .lBegin _ _, .lCancel => true
  | .pBegin e, .pEnd e' _ => e = e'
  | .pBegin _, .pCancel => true
  | .sBegin r, .sEnd r' _ => r = r'
  | .sBegin _, .sCancel => true
  | _, _ => false

/-- The start event of what is running now. -/
def Life.current : Life → Option Ev
  | .inStart => some .startBegin
  | .inHandler m _ => some (.hBegin m)
  | .inLink id r => some (.lBegin id r)
  | .inPanic e _ => some (.pBegin e)
  | .inStop r => some (.sBegin r)
  | _ => none

end Verif.Lifecycle
