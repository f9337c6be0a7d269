import Verif.Lifecycle.Start
import Verif.Next.Inv

/-! What it means that two models show the same life of an actor: `Verif.Lifecycle` (the default `next`, `src/actor.rs`
L259-265) and `Verif.Next` (any `next`). -/

namespace Verif.Plain

open Verif.Mailbox

/-- A signal of the one model in the other, which does not look into messages. `src/mailbox.rs` L438-454. -/
def bodyOf : Lifecycle.Sig → Next.Body
  | .startup => .startup
  | .msg b => .msg b.within
  | .linkDied _ _ => .linkDied
  | .stop => .stop

/-- Does the signal carry a reply sender? `src/mailbox.rs` L443-448. -/
def askOf : Lifecycle.Sig → Bool
  | .msg b => b.ask
  | _ => false

/-- `ActorStopReason` without its contents, `src/error.rs` L628-645. `Verif.Next` has one reason for both that come from
another actor. -/
def reasonOf : Lifecycle.Reason → Next.Reason
  | .normal => .normal
  | .killed => .killed
  | .panicked _ => .panicked
  | .linkDied _ _ => .linkDied
  | .peerDisconnected => .linkDied

/-- What an asker gets; `none`: an outcome that `Verif.Next` does not have. `src/request/ask.rs` L135-150. -/
def outOf : Lifecycle.Slot → Option (Option Next.Out)
  | .waiting => some none
  | .got (.ok _) => some (some .value)
  | .got (.err _) => some (some .err)
  | .failed .actorStopped => some (some .dropped)
  | _ => none

/-- How a handler ended: an error is fine if its reply sender was there to take it. `src/message.rs` L286-308. -/
def handleHow (ask taken : Bool) : Lifecycle.HOut → Next.How
  | .ret (.ok _) => .ok
  | .ret (.err _) => if ask && !taken then .ok else .fail
  | .panic _ => .fail

/-- How `on_link_died` ended. `src/actor/kind.rs` L134-150, L161-165. -/
def linkHow : Lifecycle.FOut → Next.How
  | .cont => .ok
  | .brk (.panicked _) => .fail
  | .brk _ => .leave
  | _ => .fail

/-- The calls of the user's functions, as `Verif.Lifecycle` records them. The end of `on_stop` is taken to be the end of
the task, as the notifications go on beside it (`src/actor/spawn.rs` L562-590). -/
def see : Lifecycle.Ev → Option Next.Ev
  | .startBegin => some (.b .start)
  | .startEnd .ok => some (.e .start .ok)
  | .startEnd _ => some (.e .start .fail)
  | .hBegin _ => some (.b .handle)
  | .hEnd m taken o => some (.e .handle (handleHow m.2.ask taken o))
  | .lBegin _ _ => some (.b .link)
  | .lEnd _ _ o => some (.e .link (linkHow o))
  | .pBegin _ => some (.b .panic)
  | .pEnd _ .cont => some (.e .panic .ok)
  | .pEnd _ (.panic _) => some .crash
  | .pEnd _ _ => some (.e .panic .leave)
  | .sBegin _ => some (.b .stop)
  | .sEnd _ (.panic _) => some .crash
  | .returned _ => some (.e .stop .ok)
  | _ => none

/-- The calls of the user's functions other than `next`, as `Verif.Next` records them. `src/actor/spawn.rs` L414-591. -/
def shown : Next.Ev → Option Next.Ev
  | .b .next => none
  | .got _ => none
  | .abort => none
  | .torn => none
  | .e .start .full => some (.e .start .ok)
  | e => some e

/-- The calls in the history of `Verif.Lifecycle`. `src/actor/spawn.rs` L414-591. -/
def sees (l : List Lifecycle.Ev) : List Next.Ev := l.filterMap see

/-- The calls in the history of `Verif.Next`. `src/actor/spawn.rs` L414-591. -/
def shows (l : List Next.Ev) : List Next.Ev := l.filterMap shown

/-- What happens to an actor beside its `next`. `src/actor/spawn.rs` L414-658. -/
def outside : Next.Op → Bool
  | .send b _ => b != .startup
  | .startEnd _ _ | .handleEnd _ | .linkEnd _ | .panicEnd _ | .stopEnd _ | .kill | .abort | .takeReply | .later _ _
  | .giveUp _ | .teardown => true
  | _ => false

/-- The default `next`: it takes one signal from the mailbox and returns it. `src/actor.rs` L259-265. -/
inductive Default : List Next.Op → Prop where
  | nil : Default []
  | out {op : Next.Op} {l : List Next.Op} : outside op = true → Default l → Default (op :: l)
  | recv {l : List Next.Op} : Default l → Default (.take 1 :: .ret 0 :: l)

theorem Default.append {a b : List Next.Op} (ha : Default a) (hb : Default b) : Default (a ++ b) := by
  induction ha with
  | nil => exact hb
  | out h _ ih => exact .out h ih
  | recv _ ih => exact .recv ih

theorem Default.one {op : Next.Op} (h : outside op = true) : Default [op] := .out h .nil

/-- The signal of `Verif.Next` and the one of `Verif.Lifecycle` at its place in the mailbox's history `p`. Ghost; signals
are at `src/mailbox.rs` L438-454. -/
def tag (p : List (Nat × Lifecycle.Sig)) (it : Next.Item) : Next.Body × Bool × Option (Nat × Lifecycle.Sig) :=
  (it.body, it.ask, p[it.id]?)

/-- A signal of `Verif.Lifecycle`, to compare with `tag`. Ghost; signals are at `src/mailbox.rs` L438-454. -/
def mark (q : Nat × Lifecycle.Sig) : Next.Body × Bool × Option (Nat × Lifecycle.Sig) :=
  (bodyOf q.2, askOf q.2, some q)

/-- The two lists hold the same signals, in the same order. Ghost; signals are at `src/mailbox.rs` L438-454. -/
def Same (p : List (Nat × Lifecycle.Sig)) (l : List Next.Item) (q : List (Nat × Lifecycle.Sig)) : Prop :=
  l.map (tag p) = q.map mark

/-- Messages as signals. `src/mailbox.rs` L443-448. -/
def sigs (l : List Lifecycle.Msg) : List (Nat × Lifecycle.Sig) := l.map (fun m => (m.1, .msg m.2))

/-- The asks that were accepted have the same outcome, and those who gave up waiting are the same.
`src/request/ask.rs` L107-157. -/
def Answers (p : List (Nat × Lifecycle.Sig)) (σ : Nat → Lifecycle.Slot) (ν : Nat → Option Next.Out) (g : List Nat) : Prop :=
  ∀ i t b, p[i]? = some (t, .msg b) → b.ask = true →
    (i ∈ g ∧ σ t = .gaveUp) ∨ (i ∉ g ∧ outOf (σ t) = some (ν i))

/-- The two lists hold the reply senders of the same messages. `src/message.rs` L141-153. -/
def Later (p : List (Nat × Lifecycle.Sig)) (l : List Nat) (d : List Nat) : Prop :=
  l.map (fun i => p[i]?.map (·.1)) = d.map some

/-- The two actors live the same life: the user's functions were called in the same order and ended alike (`Verif.Next` has
no state before `on_start` is called); the same messages were handled, the same are waiting in the mailbox and in the
start-up buffer; the one is stopped, with the same reason, or fallen, or alive, if and only if the other is; the reply
senders that handlers took are the same, and everyone who asked got the same. `src/actor/spawn.rs` L414-658. -/
structure Life (s : Lifecycle.St) (n : Next.St) : Prop where
  calls : .startBegin ∈ s.log → shows n.log = sees s.log
  before : .startBegin ∉ s.log → shows n.log = .b .start :: sees s.log
  handled : Same s.mb.pushed n.started (sigs s.handled)
  queue : Same s.mb.pushed n.queue s.mb.queue
  buffer : Same s.mb.pushed n.buffer (sigs s.buffer)
  stopped : ∀ q, n.phase = .stopped q ↔ ∃ r, s.phase = .stopped r ∧ reasonOf r = q
  fallen : n.phase = .crashed ↔ s.phase = .crashed
  alive : n.closed = s.mb.closed
  later : Later s.mb.pushed n.delegated s.delegated
  answers : Answers s.mb.pushed s.slots n.slot n.gaveUp

/-- Is there room in the mailbox? `src/mailbox.rs` L27-40. -/
def room (cap : Option Nat) (n : Next.St) : Bool :=
  match cap with
  | none => true
  | some c => decide (n.queue.length < c)

/-- The step is one of an actor with this mailbox: a signal that it accepts has room, and the start-up signal is left out if
and only if there is none for it. `src/mailbox.rs` L27-40, `src/actor/spawn.rs` L431-461. -/
def fits (cap : Option Nat) (n : Next.St) : Next.Op → Bool
  | .send _ _ => n.closed || room cap n
  | .startEnd _ full => n.phase != .starting || full == !room cap n
  | _ => true

/-- A history of an actor with this mailbox. `src/mailbox.rs` L27-40, `src/actor/spawn.rs` L414-658. -/
def Fits (cap : Option Nat) : Next.St → List Next.Op → Prop
  | _, [] => True
  | n, op :: l => fits cap n op = true ∧ Fits cap (n.step op) l

end Verif.Plain
