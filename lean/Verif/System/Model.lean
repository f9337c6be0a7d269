import Verif.Lifecycle.Model

/-
Model of many actors linked with each other: `ActorRef::link` / `unlink`
(`src/actor/actor_ref.rs` L514-565, L637-684) and the death notifications sent at the end of
`run_actor_lifecycle` (`src/actor/spawn.rs` L517-565) through `signal_link_died`
(`src/mailbox.rs` L498-569).

Each actor is a `Lifecycle.St`. A step of the system is a step of one actor, a link/unlink of two, or
the start / the completion of one notification.

Simplifications: `link` and `unlink` are atomic (they hold both locks while they write; the lock
acquisition itself is modelled in `Verif/Locks`; that nothing is lost by it is proved in `Verif/Atomic`); link sets hold local links only (remote ones are in
`Verif/Remote`); every actor exists from the beginning as a `PreparedActor`.
-/

namespace Verif.System

open Verif.Mailbox Verif.Lifecycle

/-- The actors, and the link-died sends in progress: dying actor, notified actor, and the ticket of the
send in the latter's mailbox (`link_notification_futures`, `src/actor/spawn.rs` L517-560). -/
structure Sys where
  act : Id → St
  flight : List (Id × Id × Nat) := []

/-- All actors prepared, each with its own mailbox capacity; `src/actor/spawn.rs` L306-326. -/
def Sys.fresh (cap : Id → Option Nat) : Sys := { act := fun i => after (cap i) [] }

/-- Replace one actor. Bookkeeping, models no code of its own (the actors are those of
`src/actor/spawn.rs` L415-591). -/
def Sys.set (S : Sys) (i : Id) (s : St) : Sys :=
  { S with act := fun x => if x = i then s else S.act x }

/-- Operations of one actor which do not concern its links (those are operations of the system).
Link operations are `src/actor/actor_ref.rs` L514-684, the notifications `src/actor/spawn.rs`
L517-565. -/
def isLocal : Op → Bool
  | .link _ => false
  | .unlink _ => false
  | .sendLinkDied _ _ => false
  | .notifyEnd _ => false
  | _ => true

/-- May this operation of actor `j` happen? A link-died send is not under a time-out; it is given
up only if the task of the dying actor, which drives it, has been torn down. `src/actor/spawn.rs`
L517-565. -/
def Sys.allowed (S : Sys) (j : Id) : Op → Bool
  | .cancel t => S.flight.all (fun p => !(p.2.1 == j && p.2.2 == t) || decide ((S.act p.1).phase = .crashed))
  | op => isLocal op

/-- System operations. Operations of one actor; `link`, `unlink` (`src/actor/actor_ref.rs`
L514-684); the steps of the notifications (`src/actor/spawn.rs` L517-565). -/
inductive SOp where
  | loc (i : Id) (op : Op)
  /-- `a.link(&b)` or `a.blocking_link(&b)`. -/
  | link (a b : Id)
  /-- `a.unlink(&b)` or `a.blocking_unlink(&b)`. -/
  | unlink (a b : Id)
  /-- the first poll of one of the notification futures of the dying actor `i`. -/
  | notifyStart (i j : Id)
  /-- that future completes: the signal is in the mailbox of `j`, or `j` is gone. -/
  | notifyEnd (i j : Id)
  deriving DecidableEq, Repr

/-- Is the send with this ticket still waiting in the mailbox? The `await` of the send at
`src/mailbox.rs` L505-506. -/
def pendingIn (s : St) (t : Nat) : Bool :=
  (s.mb.waiting ++ s.mb.granted).any (fun p => p.1 == t)

/-- One step. `src/actor/actor_ref.rs` L514-684, `src/actor/spawn.rs` L415-591. -/
def Sys.step (S : Sys) : SOp → Sys
  | .loc i op => if S.allowed i op then S.set i ((S.act i).step op) else S
  | .link a b =>
    if a = b then S
    else (S.set a ((S.act a).step (.link b))).set b ((S.act b).step (.link a))
  | .unlink a b =>
    if a = b then S
    else (S.set a ((S.act a).step (.unlink b))).set b ((S.act b).step (.unlink a))
  | .notifyStart i j =>
    match (S.act i).phase with
    | .notifying r pend _ =>
      if j ∈ pend ∧ S.flight.all (fun p => !(p.1 == i && p.2.1 == j)) = true then
        { S.set j ((S.act j).step (.sendLinkDied i r)) with
          flight := S.flight ++ [(i, j, (S.act j).mb.next)] }
      else S
    | _ => S
  | .notifyEnd i j =>
    match S.flight.find? (fun p => p.1 == i && p.2.1 == j) with
    | some p =>
      if pendingIn (S.act j) p.2.2 then S
      else { S.set i ((S.act i).step (.notifyEnd j)) with flight := S.flight.erase p }
    | none => S

/-- A history. `Sys.step` along a list (`src/actor/spawn.rs` L415-591). -/
def Sys.exec (S : Sys) (ops : List SOp) : Sys := ops.foldl Sys.step S

/-- The system after a history. All actors are fresh at first (`src/actor/spawn.rs` L306-326). -/
def sysAfter (cap : Id → Option Nat) (ops : List SOp) : Sys := (Sys.fresh cap).exec ops

end Verif.System
