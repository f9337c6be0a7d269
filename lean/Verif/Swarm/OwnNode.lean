import Verif.Swarm.Props
import Verif.Swarm.Serve

/-!
# A remote reference to an actor of the caller's own node

`docs/distributed-actors/registering-looking-up-actors.mdx` L23 and L38: the reference that a lookup gives "can be used to
send messages to the remote actor, just like with local actors", and it "may in fact be a reference to an actor running on
the current node".

The swarm task does not look at the peer of a request before it decides who handles it: `src/remote/swarm.rs` L622, L660,
L699, L729 and L753 only ask whether the node has peers. With peers, a request to the node itself is handed to the network,
addressed to the node's own peer id.
-/

namespace Verif.Swarm

open Verif.ActorId
open Verif.Request (Out)
open Verif.Remote (Bytes Req Resp Node LocalReq)
open Verif.Wire (RErr Reason)

variable {P : Type} [DecidableEq P]

/-! ## Specification -/

/-- The actor a command is about, if the command is a request to the node of an actor. -/
def Cmd.target : Cmd P → Option (ActorID P)
  | .ask _ r => some r.actorId
  | .tell _ r => some r.actorId
  | .link _ _ sib _ => some sib
  | .unlink _ sib _ => some sib
  | .signalLinkDied _ notified _ _ => some notified
  | _ => none

/-- A command as the library makes it: an ask or a tell is addressed to the peer of the actor it is for
(`src/request/ask.rs` L800-806, `src/request/tell.rs` L381-387). -/
def Cmd.Made (own : P) : Cmd P → Prop
  | .ask p r => p = peerOf own r.actorId
  | .tell p r => p = peerOf own r.actorId
  | _ => True

/-- The network carries nothing from a node to itself: a request that was handed to it addressed to the node's own peer id
never gets a response. (What it gets from libp2p is a failure: a node does not dial itself.) -/
def NoLoop (c : PeerCodec P) (own : P) (ops : List (Op P)) : Prop :=
  ∀ pre i resp post, ops = pre ++ .event (.response i resp) :: post → ∀ r, (i, own, r) ∉ (run c own pre).sent

/-! ## Theorems -/

omit [DecidableEq P] in
theorem made_wire {own : P} {cmd : Cmd P} {id : ActorID P} (hm : cmd.Made own) (ht : cmd.target = some id)
    (hid : Home own id own) : ∃ r, cmd.wire own = some (own, r) := by
  have hp : peerOf own id = own := by
    unfold peerOf
    rcases hid with h | h
    · rw [h]
    · rw [h.1]
  cases cmd <;> simp only [Cmd.target, Option.some.injEq, reduceCtorEq] at ht <;> subst ht <;>
    simp only [Cmd.wire, Cmd.Made] at * <;> simp_all

/-- **C86** — on a node without peers, a request to an actor of the node itself is handled by a task of this node, and the
caller gets the result of that task; it panics if the task does. Nothing is handed to the network. That is the part that
holds: with a peer it is not so, see `own_actor_out_of_reach`. -/
theorem own_actor_served_without_peers_partial (c : PeerCodec P) (own : P) (pre post : List (Op P)) (acc : Bool) (t : Nat)
    (cmd : Cmd P) (rest : List (Item P)) (id : ActorID P) (ha : (run c own pre).alive = true)
    (hq : (run c own pre).queue = .call t cmd :: rest) (hm : cmd.Made own) (ht : cmd.target = some id)
    (hid : Home own id own) (hp : (run c own pre).peers = 0) :
    ∃ r, cmd.wire own = some (own, r) ∧
      (run c own (pre ++ [.recv acc])).sent = (run c own pre).sent ∧
      (run c own (pre ++ [.recv acc])).tasks.find (run c own pre).nextTask = some ⟨.reply t, r⟩ ∧
      ∀ o, post.findSome? (taskEnd (run c own pre).nextTask) = some o →
        (∀ x, o = .val x → answersOf (run c own (pre ++ .recv acc :: post)) t = [.resp (r.answer x)]) ∧
        (o = .panic → t ∈ (run c own (pre ++ .recv acc :: post)).dropped) := by
  obtain ⟨r, hw⟩ := made_wire hm ht hid
  refine ⟨r, hw, ?_, ?_, ?_⟩
  · rw [run_split]
    have hstep := recv_request c acc ha hq (by rw [own_run]; exact hw)
    unfold State.request at hstep
    rw [if_pos hp] at hstep
    simp only [List.foldl_nil]
    rw [hstep]
    rfl
  · rw [run_split]
    have hstep := recv_request c acc ha hq (by rw [own_run]; exact hw)
    unfold State.request at hstep
    rw [if_pos hp] at hstep
    simp only [List.foldl_nil]
    rw [hstep]
    simp [State.spawn, Map.find_put]
  · intro o ho
    have := local_request_gets_its_answer c own pre post acc t cmd rest own r ha hq hw hp
    simp only [ho] at this
    constructor
    · rintro x rfl
      exact this.1
    · rintro rfl
      exact this.2

/-- **C86** — on a node with a peer, any peer, a request to an actor of the node itself is handed to the network, addressed
to the node, and no task of the node is spawned for it. So if the network carries nothing from a node to itself
(`NoLoop`), then, whatever happens, the caller gets no answer but a failure of the network, although the actor runs on
this very node. -/
theorem own_actor_out_of_reach (c : PeerCodec P) (own : P) (pre post : List (Op P)) (acc : Bool) (t : Nat)
    (cmd : Cmd P) (rest : List (Item P)) (id : ActorID P)
    (hq : (run c own pre).queue = .call t cmd :: rest) (hm : cmd.Made own) (ht : cmd.target = some id)
    (hid : Home own id own) (hp : (run c own pre).peers ≠ 0)
    (ha : (run c own (pre ++ .recv acc :: post)).alive = true) (hn : NoLoop c own (pre ++ .recv acc :: post)) :
    ∃ r, cmd.wire own = some (own, r) ∧
      (run c own (pre ++ [.recv acc])).sent = (run c own pre).sent ++ [((run c own pre).nextReq, own, r)] ∧
      (run c own (pre ++ [.recv acc])).tasks = (run c own pre).tasks ∧
      ∀ a ∈ answersOf (run c own (pre ++ .recv acc :: post)) t, ∃ e, a = .resp (.outboundFailure e) := by
  obtain ⟨r, hw⟩ := made_wire hm ht hid
  have halive : (run c own pre).alive = true := by
    rw [run_split] at ha
    exact alive_step (alive_foldl ha)
  have hstep := recv_request c acc halive hq (by rw [own_run]; exact hw)
  unfold State.request at hstep
  rw [if_neg hp] at hstep
  have hsent : (run c own (pre ++ [.recv acc])).sent = (run c own pre).sent ++ [((run c own pre).nextReq, own, r)] := by
    rw [run_split]
    simp only [List.foldl_nil]
    rw [hstep]
  refine ⟨r, hw, hsent, ?_, ?_⟩
  · rw [run_split]
    simp only [List.foldl_nil]
    rw [hstep]
  · intro a hmem
    have hans := (request_gets_its_answer c own pre post acc t cmd rest own r hq hw hp ha).2.1
    rw [hans, Option.mem_toList] at hmem
    obtain ⟨l₁, op, l₂, hl, hop, -⟩ := List.findSome?_eq_some_iff.mp hmem
    cases op with
    | event e =>
      cases e with
      | response j x =>
        simp only [reqAnswer] at hop
        split at hop
        · rename_i hj
          subst hj
          exfalso
          refine hn (pre ++ .recv acc :: l₁) (run c own pre).nextReq x l₂ ?_ r ?_
          · rw [hl]; simp
          · rw [run_split]
            apply mem_sent_foldl
            rw [hstep]
            simp
        · cases hop
      | outboundFailure j x =>
        simp only [reqAnswer] at hop
        split at hop
        · cases hop
          exact ⟨x, rfl⟩
        · cases hop
      | _ => cases hop
    | _ => cases hop

/-- Node 1 asks actor 7 of its own through a remote reference; alone, it gets the answer of the task. -/
private def ownReq : Req (ActorID Byte) := ⟨⟨7, .peerId 1⟩, "A", "m", [], none, none, false⟩

/-- Alone, the caller gets the reply [9]. -/
private def alone : List (Op Byte) :=
  [.send (.ask 1 ownReq), .recv true, .taskDone 0 (.val ⟨.ok [9], .ok ()⟩)]

/-- The same after another node has connected: the network fails to dial. -/
private def together : List (Op Byte) :=
  [.setPeers 1, .send (.ask 1 ownReq), .recv true, .event (.outboundFailure 0 .dialFailure)]

example : (run Wire.byteCodec 1 (alone.take 1)).queue = [.call 0 (.ask 1 ownReq)] ∧
    (Cmd.ask 1 ownReq).Made 1 ∧ (Cmd.ask 1 ownReq).target = some ⟨7, .peerId 1⟩ ∧
    Home (1 : Byte) ⟨7, .peerId 1⟩ 1 ∧ (run Wire.byteCodec 1 (alone.take 1)).peers = 0 ∧
    answersOf (run Wire.byteCodec 1 alone) 0 = [.resp (.ask (.ok [9]))] :=
  ⟨rfl, rfl, rfl, .inl rfl, rfl, rfl⟩

private theorem together_noLoop : NoLoop Wire.byteCodec 1 together := by
  intro pre i resp post h
  have hm : Op.event (.response i resp) ∈ together := by rw [h]; simp
  simp [together] at hm

example : (run Wire.byteCodec 1 (together.take 2)).queue = [.call 0 (.ask 1 ownReq)] ∧
    (run Wire.byteCodec 1 (together.take 2)).peers ≠ 0 ∧ together = together.take 2 ++ .recv true :: together.drop 3 ∧
    (run Wire.byteCodec 1 together).alive = true ∧ NoLoop Wire.byteCodec 1 together ∧
    answersOf (run Wire.byteCodec 1 together) 0 = [.resp (.outboundFailure .dialFailure)] :=
  ⟨rfl, by decide, rfl, rfl, together_noLoop, rfl⟩

/-- **C86** (refuted): it is not so that a request to an actor of the node itself is handled by the node. The same ask,
to the same actor of the same node, is served when the node is alone and is handed to the network, with no task to serve
it, when another node is connected. -/
theorem own_actor_not_always_served :
    ¬ ∀ (c : PeerCodec Byte) (own : Byte) (pre : List (Op Byte)) (acc : Bool) (t : Nat) (cmd : Cmd Byte)
      (rest : List (Item Byte)) (id : ActorID Byte),
      (run c own pre).alive = true → (run c own pre).queue = .call t cmd :: rest → cmd.Made own → cmd.target = some id →
      Home own id own →
      ∃ r, (run c own (pre ++ [.recv acc])).tasks.find (run c own pre).nextTask = some ⟨.reply t, r⟩ := by
  intro h
  obtain ⟨r, hr⟩ := h Wire.byteCodec 1 (together.take 2) true 0 (.ask 1 ownReq) [] ⟨7, .peerId 1⟩ rfl rfl rfl rfl (.inl rfl)
  have : (run Wire.byteCodec 1 (together.take 2 ++ [.recv true])).tasks = [] := rfl
  rw [this] at hr
  cases hr

/-- **C86** (exactly): the swarm task that takes a request to an actor of its own node keeps it on the node — spawns a task
for it, and hands nothing to the network — if and only if no peer is connected at that moment. -/
theorem own_actor_kept_iff (c : PeerCodec P) (own : P) (pre : List (Op P)) (acc : Bool) (t : Nat)
    (cmd : Cmd P) (rest : List (Item P)) (id : ActorID P) (ha : (run c own pre).alive = true)
    (hq : (run c own pre).queue = .call t cmd :: rest) (hm : cmd.Made own) (ht : cmd.target = some id)
    (hid : Home own id own) :
    ((run c own (pre ++ [.recv acc])).sent = (run c own pre).sent ∧
      (run c own (pre ++ [.recv acc])).nextTask = (run c own pre).nextTask + 1) ↔ (run c own pre).peers = 0 := by
  obtain ⟨r, hw⟩ := made_wire hm ht hid
  have hstep := recv_request c acc ha hq (by rw [own_run]; exact hw)
  rw [run_split]
  simp only [List.foldl_nil]
  rw [hstep]
  unfold State.request
  split
  · rename_i hp; exact ⟨fun _ => hp, fun _ => ⟨rfl, rfl⟩⟩
  · rename_i hp; exact ⟨fun h => absurd h.1 (by simp), fun h => absurd h hp⟩

/-- The same ask, before and after a peer has connected. -/
example : (run Wire.byteCodec 1 (alone.take 1 ++ [.recv true])).sent = [] ∧
    (run Wire.byteCodec 1 (together.take 2 ++ [.recv true])).sent.length = 1 := ⟨rfl, rfl⟩

end Verif.Swarm
