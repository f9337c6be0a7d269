import Verif.Swarm.Model
import Verif.Remote.Props

/-!
# What a node does with a request

The tasks that the swarm spawns for a request, `src/remote/swarm.rs` L622-635, L660-672, L699-709, L729-734, L754-764 and
L868-960, run the functions of `src/remote.rs` L150-237 (Verif.Remote.Model) with the fields of the request. Put together
with the commands of Verif.Swarm.Model this ties what an actor asks of its swarm to what happens on the node of the other
actor.
-/

namespace Verif.Swarm

open Verif.ActorId
open Verif.Request (Out SendError)
open Verif.Remote (Bytes Req Resp Node LocalReq Ready Blames askOf tellOf askResult tellResult addOne byte ask_runs_handler
  ask_runs_nothing tell_runs_handler tell_runs_nothing)
open Verif.Wire (RErr Reason)

variable {P : Type} [DecidableEq P]

/-- What the node gives a task that is not its own doing: the results of the local requests and whether a mailbox takes a
signal. `src/remote/_internal.rs` L83-301. -/
structure Env where
  ask : LocalReq → Out (Except (SendError Nat Nat) Nat)
  tell : LocalReq → Out (Except (SendError Nat Empty) Unit)
  sent : Bool

/-- What a task has done: the node after it, the local requests made, the signals sent (to which actor, about which actor,
why), and the answer; `none` is a task that panicked. `src/remote/swarm.rs` L868-960. -/
structure Served (P : Type) where
  node : Node (ActorID P)
  requests : List LocalReq := []
  signals : List (Nat × ActorID P × Reason P) := []
  answer : Option Resp

/-- The value of something that may panic. Bookkeeping for the tasks of `src/remote/swarm.rs` L868-960. -/
def ended {α β : Type} (f : α → β) : Out α → Option β
  | .val a => some (f a)
  | .panic => none

/-- The body of the task for a request. `src/remote/swarm.rs` L868-891 (ask), L892-913 (tell), L914-931 (link), L932-942
(unlink), L943-960 (link died); the tasks for commands handled without peers make the same calls (L622-635, L660-672,
L699-709, L729-734, L754-764). -/
def WireReq.serve (r : WireReq P) (n : Node (ActorID P)) (env : Env) : Served P :=
  match r with
  | .ask r => { node := n, requests := (n.ask r env.ask).1, answer := ended .ask (n.ask r env.ask).2 }
  | .tell r => { node := n, requests := (n.tell r env.tell).1, answer := ended .tell (n.tell r env.tell).2 }
  | .link id rid sib srid =>
    { node := (n.link id rid sib srid).1, answer := ended .link (n.link id rid sib srid).2 }
  | .unlink id rid sib => { node := (n.unlink id rid sib).1, answer := ended .unlink (n.unlink id rid sib).2 }
  | .signalLinkDied dead notified rid reason =>
    { node := n
      signals := (n.signalLinkDied dead notified rid reason env.sent).1
      answer := ended .signalLinkDied (n.signalLinkDied dead notified rid reason env.sent).2 }

/-! ## Specification -/

/-- Handling a command has put the request `r` on its way: to the network, addressed to peer `p`, if there are peers, or
to a task on this node. -/
def Issued (s s' : State P) (tx : Nat) (p : P) (r : WireReq P) : Prop :=
  (s.peers ≠ 0 → s'.sent = s.sent ++ [(s.nextReq, p, r)] ∧ s'.tasks = s.tasks) ∧
  (s.peers = 0 → s'.sent = s.sent ∧ s'.tasks.find s.nextTask = some ⟨.reply tx, r⟩)

/-- The peer whose actor it is: the one the id names, or the node itself. -/
def Home (own : P) (id : ActorID P) (p : P) : Prop := id.peer = .peerId p ∨ (id.peer = .isLocal ∧ p = own)

/-- An actor of the type with remote id `rid` runs on the node under the id. -/
def Runs (n : Node (ActorID P)) (id : ActorID P) (rid : String) (ref : Nat) : Prop :=
  ∃ ty, n.actorFns rid = .val (some ty) ∧ n.registry.find id = some ⟨ref, ty⟩

omit [DecidableEq P] in
theorem home_peerOf (own : P) (id : ActorID P) : Home own id (peerOf own id) := by
  unfold Home peerOf
  cases h : id.peer <;> simp

omit [DecidableEq P] in
theorem issued_request (s : State P) (tx : Nat) (p : P) (r : WireReq P) : Issued s (s.request tx p r) tx p r := by
  constructor
  · intro h
    simp [State.request, h]
  · intro h
    simp [State.request, h, State.spawn, Map.find_put]

/-! A node of peer 2 where actor 7, of the type with remote id "a", runs as reference 5 and is linked to actor 9 of peer 1;
and a swarm of peer 1 with one peer. -/

/-- A node with an actor. Used in the examples of this file. -/
private def exNode : Node (ActorID Nat) :=
  { actors := [("a", 0)]
    registry := [(⟨7, .peerId 2⟩, ⟨5, 0⟩)]
    links := fun k => if k = 5 then [(⟨9, .peerId 1⟩, "b")] else [] }

/-- An environment. Used in the examples of this file. -/
private def exEnv : Env := ⟨fun _ => .panic, fun _ => .panic, true⟩

/-- **C52** — asking the swarm to link an actor to a sibling puts a request on its way to the sibling's peer, and the node
that serves it, if the sibling runs there, adds the actor, with its remote id, to the links of the sibling. No other link
on that node changes, nobody is sent a message or a signal, and the answer says that it is done. -/
theorem link_command_links_sibling (c : PeerCodec P) (s : State P) (accepted : Bool) (tx : Nat)
    (id sib : ActorID P) (rid srid : String) :
    ∃ r p, Home s.own sib p ∧ Issued s (s.call c accepted tx (.link id rid sib srid)) tx p r ∧
      ∀ (n : Node (ActorID P)) (env : Env) (ref : Nat), Runs n sib srid ref →
        let d := r.serve n env
        (∀ k x, (d.node.links k).find x = if k = ref ∧ x = id then some rid else (n.links k).find x) ∧
          d.requests = [] ∧ d.signals = [] ∧ d.answer = some (.link (.ok ())) := by
  refine ⟨_, _, home_peerOf _ _, issued_request s tx _ _, ?_⟩
  rintro n env ref ⟨ty, h1, h2⟩
  simp only [WireReq.serve, Node.link, h1, Node.actorRef, h2, if_true, ended, and_true, Node.setLinks]
  intro k x
  by_cases hk : k = ref
  · subst hk
    by_cases hx : x = id <;> simp [Map.find_put, hx]
  · simp [hk]

/-- A swarm with a peer: the request is on its way to peer 2, where actor 7 runs; served there, it adds the link. -/
example (c : PeerCodec Nat) :
    (({ own := 1, peers := 1 } : State Nat).call c true 0 (.link ⟨8, .peerId 1⟩ "b" ⟨7, .peerId 2⟩ "a")).sent =
      [(0, 2, .link ⟨7, .peerId 2⟩ "a" ⟨8, .peerId 1⟩ "b")] ∧
    Runs exNode ⟨7, .peerId 2⟩ "a" 5 ∧
    ((WireReq.link ⟨7, .peerId 2⟩ "a" ⟨8, .peerId 1⟩ "b" : WireReq Nat).serve exNode exEnv).node.links 5 =
      [(⟨9, .peerId 1⟩, "b"), (⟨8, .peerId 1⟩, "b")] := ⟨rfl, ⟨0, rfl, rfl⟩, by decide⟩

/-- **C52** — asking the swarm to unlink an actor from a sibling puts a request on its way to the sibling's peer, and the
node that serves it, if the sibling runs there, removes the actor from the links of the sibling, and no other link. -/
theorem unlink_command_unlinks_sibling (c : PeerCodec P) (s : State P) (accepted : Bool) (tx : Nat)
    (id sib : ActorID P) (srid : String) :
    ∃ r p, Home s.own sib p ∧ Issued s (s.call c accepted tx (.unlink id sib srid)) tx p r ∧
      ∀ (n : Node (ActorID P)) (env : Env) (ref : Nat), Runs n sib srid ref → (n.links ref).Ok →
        let d := r.serve n env
        (∀ k x, (d.node.links k).find x = if k = ref ∧ x = id then none else (n.links k).find x) ∧
          d.requests = [] ∧ d.signals = [] ∧ d.answer = some (.unlink (.ok ())) := by
  refine ⟨_, _, home_peerOf _ _, issued_request s tx _ _, ?_⟩
  rintro n env ref ⟨ty, h1, h2⟩ hm
  simp only [WireReq.serve, Node.unlink, h1, Node.actorRef, h2, if_true, ended, and_true, Node.setLinks]
  intro k x
  by_cases hk : k = ref
  · subst hk
    by_cases hx : x = id <;> simp [Map.find_del hm, hx]
  · simp [hk]

example : Runs exNode ⟨7, .peerId 2⟩ "a" 5 ∧ (exNode.links 5).Ok ∧
    ((WireReq.unlink ⟨7, .peerId 2⟩ "a" ⟨9, .peerId 1⟩ : WireReq Nat).serve exNode exEnv).node.links 5 = [] :=
  ⟨⟨0, rfl, rfl⟩, by unfold Map.Ok; decide, by decide⟩

/-- **C57** — asking the swarm to tell an actor that another has died puts a request on its way to the peer of the actor to
be told, and the node that serves it, if that actor runs there, sends it, and nobody else, one signal, which names the
dead actor and the reason. No link changes. -/
theorem death_command_signals_notified (c : PeerCodec P) (s : State P) (accepted : Bool) (tx : Nat)
    (dead notified : ActorID P) (rid : String) (reason : Reason P) :
    ∃ r p, Home s.own notified p ∧ Issued s (s.call c accepted tx (.signalLinkDied dead notified rid reason)) tx p r ∧
      ∀ (n : Node (ActorID P)) (env : Env) (ref : Nat), Runs n notified rid ref →
        let d := r.serve n env
        d.signals = [(ref, dead, reason)] ∧ d.node = n ∧ d.requests = [] ∧
          d.answer = some (.signalLinkDied (if env.sent then .ok () else .error .actorNotRunning)) := by
  refine ⟨_, _, home_peerOf _ _, issued_request s tx _ _, ?_⟩
  rintro n env ref ⟨ty, h1, h2⟩
  simp [WireReq.serve, Node.signalLinkDied, h1, Node.actorRef, h2, ended]

/-- Actor 7 is told of the death of actor 9 of peer 1. -/
example : ((WireReq.signalLinkDied ⟨9, .peerId 1⟩ ⟨7, .peerId 2⟩ "a" .killed : WireReq Nat).serve exNode exEnv).signals =
    [(5, ⟨9, .peerId 1⟩, .killed)] := by decide

/-- **C48** — a remote ask given to the swarm is put on its way to the peer, and the node that serves it makes exactly one
local ask, that of the request, and answers with its result, as an ask; if the request names no actor, message or payload
that is good there, it makes none and the answer says which. Links are left alone and no signal is sent. -/
theorem ask_command_runs_handler (c : PeerCodec P) (s : State P) (accepted : Bool) (tx : Nat) (p : P) (r : Req (ActorID P)) :
    ∃ w, Issued s (s.call c accepted tx (.ask p r)) tx p w ∧
      ∀ (n : Node (ActorID P)) (env : Env), n.Unique → n.registry.Ok →
        let d := w.serve n env
        d.node = n ∧ d.signals = [] ∧
        (∀ f ref v, Ready n r f ref v → d.requests = [askOf r f ref v] ∧
          ∀ res, env.ask (askOf r f ref v) = .val res → d.answer = some (.ask (askResult f res))) ∧
        ((¬ ∃ f ref v, Ready n r f ref v) → d.requests = [] ∧ ∃ e, Blames n r e ∧ d.answer = some (.ask (.error e))) := by
  refine ⟨_, issued_request s tx _ _, fun n env hu hm => ⟨rfl, rfl, ?_, ?_⟩⟩
  · intro f ref v h
    have e := ask_runs_handler n hu hm r env.ask f ref v h
    refine ⟨congrArg Prod.fst e, fun res hr => ?_⟩
    simp only [WireReq.serve, e, hr, Out.map, ended]
  · intro h
    obtain ⟨err, e, hb⟩ := ask_runs_nothing n hu hm r env.ask h
    exact ⟨congrArg Prod.fst e, err, hb, by simp only [WireReq.serve, e, ended]⟩

/-- Peer 2 knows message "m" of actors of type "a"; a handler there adds one. -/
private def exMsgNode : Node (ActorID Nat) :=
  { exNode with messages := [(("a", "m"), ⟨0, 4, byte, byte, byte⟩)] }

/-- A request. Used in the examples of this file. -/
private def exReq (seq : Fin (2 ^ 64)) : Req (ActorID Nat) := ⟨⟨seq, .peerId 2⟩, "a", "m", [7], none, none, false⟩

example : Ready exMsgNode (exReq 7) ⟨0, 4, byte, byte, byte⟩ 5 7 ∧ exMsgNode.Unique ∧ exMsgNode.registry.Ok ∧
    ((WireReq.ask (exReq 7)).serve exMsgNode ⟨addOne, fun _ => .panic, true⟩).answer = some (.ask (.ok [8])) ∧
    ((WireReq.ask (exReq 6)).serve exMsgNode ⟨addOne, fun _ => .panic, true⟩).answer = some (.ask (.error .actorNotRunning)) :=
  ⟨⟨.head _, .head _, rfl⟩, by unfold Node.Unique; decide, by unfold Map.Ok; decide, rfl, rfl⟩

/-- **C48** — the same for a remote tell. -/
theorem tell_command_runs_handler (c : PeerCodec P) (s : State P) (accepted : Bool) (tx : Nat) (p : P) (r : Req (ActorID P)) :
    ∃ w, Issued s (s.call c accepted tx (.tell p r)) tx p w ∧
      ∀ (n : Node (ActorID P)) (env : Env), n.Unique → n.registry.Ok →
        let d := w.serve n env
        d.node = n ∧ d.signals = [] ∧
        (∀ f ref v, Ready n r f ref v → d.requests = [tellOf r f ref v] ∧
          ∀ res, env.tell (tellOf r f ref v) = .val res → d.answer = some (.tell (tellResult res))) ∧
        ((¬ ∃ f ref v, Ready n r f ref v) → d.requests = [] ∧ ∃ e, Blames n r e ∧ d.answer = some (.tell (.error e))) := by
  refine ⟨_, issued_request s tx _ _, fun n env hu hm => ⟨rfl, rfl, ?_, ?_⟩⟩
  · intro f ref v h
    have e := tell_runs_handler n hu hm r env.tell f ref v h
    refine ⟨congrArg Prod.fst e, fun res hr => ?_⟩
    simp only [WireReq.serve, e, hr, Out.map, ended]
  · intro h
    obtain ⟨err, e, hb⟩ := tell_runs_nothing n hu hm r env.tell h
    exact ⟨congrArg Prod.fst e, err, hb, by simp only [WireReq.serve, e, ended]⟩

example : ((WireReq.tell (exReq 7)).serve exMsgNode ⟨addOne, fun _ => .val (.ok ()), true⟩).answer = some (.tell (.ok ())) ∧
    ((WireReq.tell (exReq 7)).serve exMsgNode ⟨addOne, fun _ => .val (.ok ()), true⟩).requests.map (·.isAsk) = [false] ∧
    ((WireReq.tell (exReq 6)).serve exMsgNode ⟨addOne, fun _ => .val (.ok ()), true⟩).answer =
      some (.tell (.error .actorNotRunning)) := ⟨rfl, rfl, rfl⟩

end Verif.Swarm
