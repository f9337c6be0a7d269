/-
Model of the handles to actors: `ActorRef`, `WeakActorRef`, `Recipient`, `WeakRecipient`
(`src/actor/actor_ref.rs` L43-180, L807-972, L1232-1356, L1398-1511), `MailboxSender`, `WeakMailboxSender`
(`src/mailbox.rs` L118-233), and the entries of link maps.

Not modelled: what is sent through them (see `Verif/Mailbox`, `Verif/Request`). tokio's channel counts its senders: a
clone adds one, a drop removes one, `upgrade` fails at zero; this is how `strong` and `weak` below are kept.
-/

namespace Verif.Handles

/-- `ActorRef`, `src/actor/actor_ref.rs` L44-54, as the names of the shared objects its fields point to: the channel
(`mailbox_sender`), the abort flag, the link map, the semaphore, the two `OnceLock`s. -/
structure Ref where
  id : Nat
  ch : Nat
  abort : Nat
  links : Nat
  sem : Nat
  startErr : Nat
  stopErr : Nat
  deriving DecidableEq, Repr

/-- `WeakActorRef`, `src/actor/actor_ref.rs` L1233-1241. -/
structure Weak where
  id : Nat
  mailbox : Nat
  abort : Nat
  links : Nat
  notify : Nat
  startErr : Nat
  stopErr : Nat
  deriving DecidableEq, Repr

/-- Everything that holds a sender of some channel, weak or not. `src/actor/actor_ref.rs` L43-54, L858-871, L1232-1245,
L1308-1311; `src/mailbox.rs` L118-233. -/
inductive Handle where
  /-- an `ActorRef`, wherever it is: with the user, in the task of the actor, in a registry, in a message signal -/
  | ref (c : Ref)
  /-- a `WeakActorRef` -/
  | weak (w : Weak)
  /-- a `Recipient`, which boxes an `ActorRef`, `src/actor/actor_ref.rs` L858-871 -/
  | rcp (c : Ref)
  /-- a `WeakRecipient`, which boxes a `WeakActorRef`, L1308-1311 -/
  | weakRcp (w : Weak)
  /-- a `MailboxSender` of its own -/
  | sender (ch : Nat)
  /-- a `WeakMailboxSender` of its own -/
  | weakSender (ch : Nat)
  /-- the entry for `id` in the link map `lk`: a boxed `WeakMailboxSender`, L820-822, L1357-1374 -/
  | entry (lk id ch : Nat)
  deriving DecidableEq, Repr

/-- The channel a handle is a sender of. Bookkeeping over the fields, `src/actor/actor_ref.rs` L46, L1235. -/
def Handle.ch : Handle → Nat
  | .ref c => c.ch
  | .weak w => w.mailbox
  | .rcp c => c.ch
  | .weakRcp w => w.mailbox
  | .sender ch => ch
  | .weakSender ch => ch
  | .entry _ _ ch => ch

/-- Does it hold a `MailboxSender`, `src/actor/actor_ref.rs` L46, rather than a weak one, L1235? -/
def Handle.strong : Handle → Bool
  | .ref _ => true
  | .rcp _ => true
  | .sender _ => true
  | _ => false

/-- Is it an entry of a link map? These are not in the hands of users (`pub(crate)`, `src/actor/actor_ref.rs`
L1357-1374). -/
def Handle.isEntry : Handle → Bool
  | .entry .. => true
  | _ => false

/-- The program: all handles there are, and the counters of the channels (`src/mailbox.rs` L131-149). -/
structure St where
  /-- names of shared objects not yet in use -/
  next : Nat := 0
  held : List Handle := []
  /-- tokio's count of senders of each channel (`src/mailbox.rs` L131-136) -/
  strong : Nat → Nat := fun _ => 0
  /-- tokio's count of weak senders (`src/mailbox.rs` L144-149) -/
  weak : Nat → Nat := fun _ => 0
  /-- ghost: the references made by `PreparedActor::new` -/
  made : List Ref := []

/-- What a call gives: `upgrade` (`src/actor/actor_ref.rs` L1255-1266, L1321-1323) may give `None`. -/
inductive Out where
  /-- it returns the handle -/
  | got (h : Handle)
  /-- it returns `None` -/
  | nothing
  | panicked
  /-- it returns, without a handle -/
  | done
  deriving DecidableEq, Repr

/-- Change a counter at one channel. Bookkeeping for the counters of `src/mailbox.rs` L131-149. -/
def bump (f : Nat → Nat) (ch : Nat) (g : Nat → Nat) : Nat → Nat := fun x => if x = ch then g (f x) else f x

/-- A handle comes to be: its sender is made by `clone`, `downgrade` or `upgrade` of a sender, `src/mailbox.rs`
L118-123, L152-159, L192-197, L226-233. -/
def St.add (s : St) (h : Handle) : St :=
  if h.strong then { s with held := s.held ++ [h], strong := bump s.strong h.ch (· + 1) }
  else { s with held := s.held ++ [h], weak := bump s.weak h.ch (· + 1) }

/-- A handle is dropped, and its sender with it. No code of kameo's: drop of `src/mailbox.rs` L22-27, L176-181. -/
def St.remove (s : St) (h : Handle) : St :=
  if h ∈ s.held then
    if h.strong then { s with held := s.held.erase h, strong := bump s.strong h.ch (· - 1) }
    else { s with held := s.held.erase h, weak := bump s.weak h.ch (· - 1) }
  else s

/-- `PreparedActor::new` with a new mailbox: `src/actor/spawn.rs` L306-326, `ActorRef::new`,
`src/actor/actor_ref.rs` L60-80. -/
def St.prepare (s : St) : St × Out :=
  let c : Ref := { id := s.next, ch := s.next + 1, abort := s.next + 2, links := s.next + 3, sem := s.next + 4,
                   startErr := s.next + 5, stopErr := s.next + 6 }
  ({ s.add (.ref c) with next := s.next + 7, made := s.made ++ [c] }, .got (.ref c))

/-- `ActorRef::downgrade`, `src/actor/actor_ref.rs` L170-180. -/
def Ref.downgrade (c : Ref) : Weak :=
  { id := c.id, mailbox := c.ch, abort := c.abort, links := c.links, notify := c.sem, startErr := c.startErr,
    stopErr := c.stopErr }

/-- The `ActorRef` that `WeakActorRef::upgrade` makes, `src/actor/actor_ref.rs` L1255-1265. -/
def Weak.upgraded (w : Weak) : Ref :=
  { id := w.id, ch := w.mailbox, abort := w.abort, links := w.links, sem := w.notify, startErr := w.startErr,
    stopErr := w.stopErr }

/-- `Clone for ActorRef`, `src/actor/actor_ref.rs` L825-837. -/
def Ref.clone (c : Ref) : Ref :=
  { id := c.id, ch := c.ch, abort := c.abort, links := c.links, sem := c.sem, startErr := c.startErr,
    stopErr := c.stopErr }

/-- `Clone for WeakActorRef`, `src/actor/actor_ref.rs` L1278-1290. -/
def Weak.clone (w : Weak) : Weak :=
  { id := w.id, mailbox := w.mailbox, abort := w.abort, links := w.links, notify := w.notify, startErr := w.startErr,
    stopErr := w.stopErr }

/-- `clone` of a handle: `ActorRef` `src/actor/actor_ref.rs` L825-837, `WeakActorRef` L1278-1290, `Recipient` L960-966,
`WeakRecipient` L1336-1342, the senders `src/mailbox.rs` L152-159, L226-233. -/
def Handle.clone : Handle → Handle
  | .ref c => .ref c.clone
  | .weak w => .weak w.clone
  | .rcp c => .rcp c.clone
  | .weakRcp w => .weakRcp w.clone
  | h => h

/-- `downgrade` of a handle. `ActorRef`: `src/actor/actor_ref.rs` L170-180. `Recipient`: L890-892, which calls
`MessageHandler::downgrade` of the `ActorRef`, L1413-1416, and that is `todo!()`. `MailboxSender`: `src/mailbox.rs`
L118-123. The others have no such method. -/
def St.downgrade (s : St) : Handle → St × Out
  | .ref c => (s.add (.weak c.downgrade), .got (.weak c.downgrade))
  | .rcp _ => (s, .panicked)
  | .sender ch => (s.add (.weakSender ch), .got (.weakSender ch))
  | _ => (s, .done)

/-- tokio's `WeakSender::upgrade`, `src/mailbox.rs` L192-197, and what is made of it: `WeakActorRef::upgrade`,
`src/actor/actor_ref.rs` L1255-1265, `WeakRecipient::upgrade`, L1321-1323 and L1497-1500. -/
def St.upgrade (s : St) (h : Handle) : St × Out :=
  if s.strong h.ch = 0 then (s, .nothing)
  else
    match h with
    | .weak w => (s.add (.ref w.upgraded), .got (.ref w.upgraded))
    | .weakRcp w => (s.add (.rcp w.upgraded), .got (.rcp w.upgraded))
    | .weakSender ch => (s.add (.sender ch), .got (.sender ch))
    | _ => (s, .done)

/-- The entry of `id` in link map `lk` is dropped, if there is one. `HashMap::remove`, `src/actor/actor_ref.rs` L644-645;
also part of `insert`. -/
def St.dropEntry (s : St) (lk id : Nat) : St :=
  match s.held.find? (fun h => match h with | .entry l i _ => l == lk && i == id | _ => false) with
  | some h => s.remove h
  | none => s

/-- `ActorRef::link`, `src/actor/actor_ref.rs` L514-526. -/
def St.link (s : St) (a b : Ref) : St :=
  if a.id = b.id then s
  else
    let s := (s.dropEntry a.links b.id).add (.entry a.links b.id b.ch)
    (s.dropEntry b.links a.id).add (.entry b.links a.id a.ch)

/-- `ActorRef::unlink`, `src/actor/actor_ref.rs` L637-646. -/
def St.unlink (s : St) (a b : Ref) : St :=
  if a.id = b.id then s else (s.dropEntry a.links b.id).dropEntry b.links a.id

/-- `links.drain()` when the actor has left its loop, `src/actor/spawn.rs` L520-522. -/
def St.drain (s : St) (lk : Nat) : St :=
  (s.held.filter (fun h => match h with | .entry l _ _ => l == lk | _ => false)).foldl St.remove s

/-- What a program can do with handles. `src/actor/actor_ref.rs` L43-180, L807-972, L1232-1356; `src/mailbox.rs` L118-233. -/
inductive Op where
  | prepare
  | clone (h : Handle)
  | drop (h : Handle)
  | downgrade (h : Handle)
  | upgrade (h : Handle)
  /-- `ActorRef::recipient`, consumes the reference -/
  | recipient (c : Ref)
  /-- `actor_ref.mailbox_sender().clone()` -/
  | mailbox (c : Ref)
  | link (a b : Ref)
  | unlink (a b : Ref)
  | drain (lk : Nat)
  deriving DecidableEq, Repr

/-- One call. A program can only use handles it has. `recipient`: `src/actor/actor_ref.rs` L156-162, L863-871; `mailbox`:
L815-817. -/
def St.call (s : St) : Op → St × Out
  | .prepare => s.prepare
  | .clone h => if h ∈ s.held ∧ h.isEntry = false then (s.add h.clone, .got h.clone) else (s, .done)
  | .drop h => if h.isEntry = false then (s.remove h, .done) else (s, .done)
  | .downgrade h => if h ∈ s.held then s.downgrade h else (s, .done)
  | .upgrade h => if h ∈ s.held then s.upgrade h else (s, .done)
  | .recipient c =>
    if .ref c ∈ s.held then ({ s with held := s.held.erase (.ref c) ++ [.rcp c] }, .got (.rcp c)) else (s, .done)
  | .mailbox c => if .ref c ∈ s.held then (s.add (.sender c.ch), .got (.sender c.ch)) else (s, .done)
  | .link a b => if .ref a ∈ s.held ∧ .ref b ∈ s.held then (s.link a b, .done) else (s, .done)
  | .unlink a b => if .ref a ∈ s.held ∧ .ref b ∈ s.held then (s.unlink a b, .done) else (s, .done)
  | .drain lk => (s.drain lk, .done)

/-- Many calls, in turn (of the functions of `src/actor/actor_ref.rs` L43-180, L807-972, L1232-1356). -/
def after (ops : List Op) : St := ops.foldl (fun s op => (s.call op).1) {}

/-- `strong_count`, `src/actor/actor_ref.rs` L183-186, `src/mailbox.rs` L131-136: tokio's counter. -/
def St.strongCount (s : St) (h : Handle) : Nat := s.strong h.ch

/-- `weak_count`, `src/actor/actor_ref.rs` L189-192, `src/mailbox.rs` L144-149. -/
def St.weakCount (s : St) (h : Handle) : Nat := s.weak h.ch

end Verif.Handles
