import Verif.Swarm.Kinds

/-
Several nodes that all run this code, and a network between them (C59). Node `p` sends its `i`-th request into the
network; the network may deliver it, any number of times, at any moment or never, to the node it is addressed to, on a
response channel of its own; it may carry a response back, likewise.
-/

namespace Verif.Swarm

open Verif.ActorId
open Verif.Request (Out)
open Verif.Remote (Bytes Req Resp)
open Verif.Wire (RErr Reason)

variable {P : Type} [DecidableEq P]

/-- The steps of a node that do not come from another node's request or response. Requests and
responses of others are the events of `src/remote/swarm.rs` L860-990. -/
def Op.isLocal : Op P → Bool
  | .event (.request ..) => false
  | .event (.response ..) => false
  | _ => true

/-- The histories of all nodes that a network of such nodes can have. `chan a i`: the response channel of the `i`-th
request of node `a` (libp2p makes one for each inbound request). -/
inductive Reach (c : PeerCodec P) (chan : P × Nat → Nat) : (P → List (Op P)) → Prop
  | start : Reach c chan (fun _ => [])
  | here (h : P → List (Op P)) (p : P) (op : Op P) : Reach c chan h → op.isLocal = true →
      Reach c chan (fun q => if q = p then h p ++ [op] else h q)
  | deliver (h : P → List (Op P)) (a : P) (i : Nat) (p : P) (w : WireReq P) : Reach c chan h →
      (i, p, w) ∈ (run c a (h a)).sent →
      Reach c chan (fun q => if q = p then h p ++ [.event (.request (chan (a, i)) w)] else h q)
  | reply (h : P → List (Op P)) (a : P) (i : Nat) (p : P) (r : Resp) : Reach c chan h →
      (chan (a, i), r) ∈ (run c p (h p)).responded →
      Reach c chan (fun q => if q = a then h a ++ [.event (.response i r)] else h q)

theorem honest_snoc {c : PeerCodec P} {own : P} {ops : List (Op P)} (h : Honest c own ops) (op : Op P)
    (ho : ∀ i r, op = .event (.response i r) → ∀ p w, (i, p, w) ∈ (run c own ops).sent → Matches w r) :
    Honest c own (ops ++ [op]) := by
  intro pre i r hp p w hm
  rcases List.prefix_concat_iff.mp hp with he | he
  · have := List.append_inj' he rfl
    obtain ⟨rfl, h2⟩ := this
    simp only [List.cons.injEq, and_true] at h2
    exact ho i r h2.symm p w hm
  · exact h pre i r he p w hm

theorem sent_mono (c : PeerCodec P) (own : P) (ops : List (Op P)) (op : Op P) {x : Nat × P × WireReq P}
    (h : x ∈ (run c own ops).sent) : x ∈ (run c own (ops ++ [op])).sent := by
  rw [run_snoc]
  exact mem_sent_step c op h

theorem sent_unique (c : PeerCodec P) (own : P) (ops : List (Op P)) {i : Nat} {x y : P × WireReq P}
    (hx : (i, x) ∈ (run c own ops).sent) (hy : (i, y) ∈ (run c own ops).sent) : x = y := by
  have hn : ((run c own ops).sent.map (·.1)).Nodup := by rw [sent_ids]; exact List.nodup_range
  revert hn hx hy
  generalize (run c own ops).sent = l
  intro hx hy hn
  induction l with
  | nil => cases hx
  | cons z l ih =>
    simp only [List.map_cons, List.nodup_cons, List.mem_map, not_exists, not_and] at hn
    rcases List.mem_cons.mp hx with hx | hx
    · rcases List.mem_cons.mp hy with hy | hy
      · rw [← hx] at hy
        exact (Prod.mk.inj hy).2.symm
      · exact absurd (by rw [← hx]) (hn.1 _ hy)
    · rcases List.mem_cons.mp hy with hy | hy
      · exact absurd (by rw [← hy]) (hn.1 _ hx)
      · exact ih hx hy hn.2

/-- Every request that has arrived was sent by the node its channel belongs to. -/
def Genuine (c : PeerCodec P) (chan : P × Nat → Nat) (h : P → List (Op P)) : Prop :=
  ∀ p ch w, (ch, w) ∈ arrived (h p) → ∃ a i, ch = chan (a, i) ∧ (i, p, w) ∈ (run c a (h a)).sent

theorem genuine_snoc {c : PeerCodec P} {chan : P × Nat → Nat} {h : P → List (Op P)} (hg : Genuine c chan h) (p : P)
    (op : Op P)
    (ho : ∀ ch w, (ch, w) ∈ arrived [op] → ∃ a i, ch = chan (a, i) ∧ (i, p, w) ∈ (run c a (h a)).sent) :
    Genuine c chan (fun q => if q = p then h p ++ [op] else h q) := by
  have key : ∀ x ch w, (∃ a i, ch = chan (a, i) ∧ (i, x, w) ∈ (run c a (h a)).sent) →
      ∃ a i, ch = chan (a, i) ∧ (i, x, w) ∈ (run c a (if a = p then h p ++ [op] else h a)).sent := by
    intro x ch w ⟨a, i, h1, h2⟩
    refine ⟨a, i, h1, ?_⟩
    split
    · rename_i he; subst he; exact sent_mono c _ _ op h2
    · exact h2
  intro x ch w hm
  simp only at hm ⊢
  refine key x ch w ?_
  split at hm
  · rename_i he
    subst he
    rw [arrived_snoc] at hm
    rcases List.mem_append.mp hm with hm | hm
    · exact hg x ch w hm
    · exact ho ch w hm
  · exact hg x ch w hm

theorem network_honest' (c : PeerCodec P) (chan : P × Nat → Nat) (hinj : ∀ x y, chan x = chan y → x = y)
    (h : P → List (Op P)) (hr : Reach c chan h) : (∀ p, Honest c p (h p)) ∧ Genuine c chan h := by
  induction hr with
  | start =>
    refine ⟨fun p pre i r hp => ?_, fun p ch w hm => by cases hm⟩
    exact absurd (List.prefix_nil.mp hp) (by simp)
  | here h p op _ hl ih =>
    refine ⟨fun q => ?_, genuine_snoc ih.2 p op ?_⟩
    · simp only
      split
      · rename_i he; subst he
        refine honest_snoc (ih.1 q) op (fun i r he => ?_)
        subst he; cases hl
      · exact ih.1 q
    · intro ch w hm
      cases op with
      | event e => cases e <;> (first | (cases hl; done) | cases hm)
      | _ => cases hm
  | deliver h a i p w _ hs ih =>
    refine ⟨fun q => ?_, genuine_snoc ih.2 p _ ?_⟩
    · simp only
      split
      · rename_i he; subst he
        exact honest_snoc (ih.1 q) _ (fun i r he => by cases he)
      · exact ih.1 q
    · intro ch w' hm
      simp only [arrived, List.mem_singleton, Prod.mk.injEq] at hm
      obtain ⟨rfl, rfl⟩ := hm
      exact ⟨a, i, rfl, hs⟩
  | reply h a i p r _ hs ih =>
    refine ⟨fun q => ?_, genuine_snoc ih.2 a _ (fun ch w hm => by cases hm)⟩
    simp only
    split
    · rename_i he; subst he
      refine honest_snoc (ih.1 q) _ (fun i' r' he p' w' hm => ?_)
      cases he
      obtain ⟨w, hw, hmatch⟩ := responses_in_kind c p (h p) _ r hs
      obtain ⟨a', i'', hch, hsent⟩ := ih.2 p _ w hw
      have he := hinj _ _ hch
      simp only [Prod.mk.injEq] at he
      obtain ⟨rfl, rfl⟩ := he
      have := sent_unique c q (h q) hm hsent
      simp only [Prod.mk.injEq] at this
      rw [this.2]
      exact hmatch
    · exact ih.1 q

/-- Two nodes: an actor of node 1 asks actor 7 of node 2, which handles the request and answers. -/
def netDemo : Byte → List (Op Byte) := fun p =>
  if p = 1 then
    [.setPeers 1, .send (.ask 2 ⟨⟨7, .peerId 2⟩, "A", "m", [], none, none, false⟩), .recv true,
      .event (.response 0 (.ask (.ok [9])))]
  else if p = 2 then
    [.event (.request (1 + 256 * 0) (.ask ⟨⟨7, .peerId 2⟩, "A", "m", [], none, none, false⟩)),
      .taskDone 0 (.val ⟨.ok [9], .ok ()⟩), .recv true]
  else []

/-- It is a history of such a network. -/
example : ∃ h, Reach Wire.byteCodec (fun x : Byte × Nat => x.1.val + 256 * x.2) h ∧ (∀ p, h p = netDemo p) ∧
    (run Wire.byteCodec 1 (h 1)).answers = [(0, .resp (.ask (.ok [9])))] := by
  refine ⟨_, .reply _ 1 0 2 (.ask (.ok [9])) (.here _ 2 (.recv true) (.here _ 2 (.taskDone 0 (.val ⟨.ok [9], .ok ()⟩))
    (.deliver _ 1 0 2 (.ask ⟨⟨7, .peerId 2⟩, "A", "m", [], none, none, false⟩) (.here _ 1 (.recv true) (.here _ 1
      (.send (.ask 2 ⟨⟨7, .peerId 2⟩, "A", "m", [], none, none, false⟩)) (.here _ 1 (.setPeers 1) .start rfl) rfl) rfl)
      (List.mem_singleton.mpr rfl)) rfl) rfl) (List.mem_singleton.mpr rfl), ?_, rfl⟩
  intro p
  by_cases h1 : p = 1
  · subst h1; rfl
  · by_cases h2 : p = 2
    · subst h2; rfl
    · simp [netDemo, h1, h2]

/-- **C59** (between nodes running this code): in a network of nodes that all run this code, with any delays, losses and
repetitions, every node is answered in kind. So no caller on any of them ever sees an answer it does not expect. -/
theorem network_honest (c : PeerCodec P) (chan : P × Nat → Nat) (hinj : ∀ x y, chan x = chan y → x = y)
    (h : P → List (Op P)) (hr : Reach c chan h) (p : P) : Honest c p (h p) ∧
      ∀ t a, (t, a) ∈ (run c p (h p)).answers → ∃ cmd, (issued (h p))[t]? = some cmd ∧ Fits cmd a :=
  ⟨(network_honest' c chan hinj h hr).1 p, answers_fit c p (h p) ((network_honest' c chan hinj h hr).1 p)⟩

/-- **C59** (the answer was produced for the request): in such a network, the response a node is given for its `i`-th
request was sent by the node the request was addressed to, on the channel of that request. -/
theorem network_genuine (c : PeerCodec P) (chan : P × Nat → Nat) (hinj : ∀ x y, chan x = chan y → x = y)
    (h : P → List (Op P)) (hr : Reach c chan h) (a p p' : P) (i : Nat) (r : Resp) (w : WireReq P)
    (hresp : (chan (a, i), r) ∈ (run c p (h p)).responded) (hsent : (i, p', w) ∈ (run c a (h a)).sent) :
    p = p' ∧ Matches w r := by
  obtain ⟨w', hw, hm⟩ := responses_in_kind c p (h p) _ r hresp
  obtain ⟨a', i', hch, hs⟩ := (network_honest' c chan hinj h hr).2 p _ w' hw
  have he := hinj _ _ hch
  simp only [Prod.mk.injEq] at he
  obtain ⟨rfl, rfl⟩ := he
  have := sent_unique c a (h a) hsent hs
  simp only [Prod.mk.injEq] at this
  obtain ⟨rfl, rfl⟩ := this
  exact ⟨rfl, hm⟩

/-- In `netDemo`: the request and the response it got. -/
example : (0, 2, .ask ⟨⟨7, .peerId 2⟩, "A", "m", [], none, none, false⟩) ∈ (run Wire.byteCodec 1 (netDemo 1)).sent ∧
    (1 + 256 * 0, .ask (.ok [9])) ∈ (run Wire.byteCodec 2 (netDemo 2)).responded :=
  ⟨List.mem_singleton.mpr rfl, List.mem_singleton.mpr rfl⟩

/-- **C59** (negation without the assumption): a peer that answers an ask with a response of another kind makes the caller
panic; nothing in the swarm checks the kind. -/
theorem wrong_kind_panics : ∃ ops, (run Wire.byteCodec 1 ops).alive = true ∧
    (issued ops)[0]? = some (.ask 2 ⟨⟨7, .peerId 2⟩, "A", "m", [], none, none, false⟩) ∧
    (0, .resp (.tell (.ok ()))) ∈ (run Wire.byteCodec 1 ops).answers ∧
    ∀ f, Remote.askResponse f (.tell (.ok ())) = .panic :=
  ⟨[.setPeers 1, .send (.ask 2 ⟨⟨7, .peerId 2⟩, "A", "m", [], none, none, false⟩), .recv true,
      .event (.response 0 (.tell (.ok ())))], rfl, rfl, List.mem_singleton.mpr rfl, fun _ => rfl⟩

/-- **C59** (negation without the assumption, in every case): whatever a node has done before, if it waits for the response
to an ask and its peer sends a response of another kind, this is what the caller is given, and the caller panics on it. -/
theorem wrong_kind_always_panics (c : PeerCodec P) (own : P) (ops : List (Op P)) (i t : Nat) (p : P)
    (r : Req (ActorID P)) (resp : Resp) (f : Remote.Fns) (ha : (run c own ops).alive = true)
    (hi : (run c own ops).reqs.find i = some t) (hc : (issued ops)[t]? = some (.ask p r))
    (hk : ∀ x, resp ≠ .ask x) (ho : ∀ e, resp ≠ .outboundFailure e) :
    let ops' := ops ++ [.event (.response i resp)]
    (issued ops')[t]? = some (.ask p r) ∧ (t, .resp resp) ∈ (run c own ops').answers ∧
      Remote.askResponse f resp = .panic := by
  refine ⟨?_, ?_, ?_⟩
  · have : issued (ops ++ [.event (.response i resp)]) = issued ops := by
      rw [issued_snoc]; simp [issued]
    rw [this]; exact hc
  · rw [run_snoc]
    simp [State.step, ha, State.event, hi, State.answer]
  · cases resp with
    | ask x => exact absurd rfl (hk x)
    | outboundFailure e => exact absurd rfl (ho e)
    | _ => rfl

example : let ops : List (Op Byte) :=
      [.setPeers 1, .send (.ask 2 ⟨⟨7, .peerId 2⟩, "A", "m", [], none, none, false⟩), .recv true]
    (run Wire.byteCodec 1 ops).alive = true ∧ (run Wire.byteCodec 1 ops).reqs.find 0 = some 0 ∧
    (issued ops)[0]? = some (.ask 2 ⟨⟨7, .peerId 2⟩, "A", "m", [], none, none, false⟩) := ⟨rfl, rfl, rfl⟩

/-! ### At most one response for each request -/

/-- The response channel held by something in the command channel. `src/remote/swarm.rs`
L1119-1131, L1146-1151, L1164-1169, L1184-1189. -/
def Item.ch : Item P → Option Nat
  | .call _ _ => none
  | .note n => n.resp.map (·.1)

/-- The response channel a task holds. `src/remote/swarm.rs` L878-962. -/
def Sink.ch : Sink → Option Nat
  | .reply _ => none
  | .channel ch => some ch

/-- Where the response channels are: with a task, in the command channel, or used up. -/
def State.channels (s : State P) : List Nat :=
  s.tasks.filterMap (fun p => p.2.sink.ch) ++ s.queue.filterMap Item.ch ++ s.responded.map (·.1)

theorem ch_reply (t : Nat) : (Sink.reply t).ch = none := rfl

theorem ch_channel (ch : Nat) : (Sink.channel ch).ch = some ch := rfl

omit [DecidableEq P] in
theorem ch_call (t : Nat) (c : Cmd P) : (Item.call t c).ch = none := rfl

omit [DecidableEq P] in
theorem ch_note (n : Note) : (Item.note n : Item P).ch = n.resp.map (·.1) := rfl

theorem channels_call (s : State P) (c : PeerCodec P) (acc : Bool) (t : Nat) (cmd : Cmd P)
    (hfresh : s.tasks.find s.nextTask = none) (ch : Nat) :
    (s.call c acc t cmd).channels.count ch ≤ s.channels.count ch := by
  have hreq : ∀ p r, (s.request t p r).channels.count ch ≤ s.channels.count ch := by
    intro p r
    unfold State.request
    split
    · simp only [State.channels, State.spawn, Map.put_of_none hfresh, List.filterMap_append, List.filterMap_cons, ch_reply, ch_channel,
        List.filterMap_nil, List.append_nil]
      exact Nat.le_refl _
    · exact Nat.le_refl _
  have hdie : (s.die t).channels.count ch ≤ s.channels.count ch := by
    simp only [State.channels, State.die, List.count_append, List.filterMap_nil, List.count_nil]
    omega
  have hrem : ∀ (s : State P) k, (s.removeRecord k).channels = s.channels := by
    intro s k
    obtain ⟨m, hm⟩ := removeRecord_eq s k
    rw [hm]
    rfl
  cases cmd with
  | lookupLocal k =>
    simp only [State.call]
    split
    · exact Nat.le_refl _
    · split
      · exact hdie
      · exact Nat.le_refl _
  | register k v =>
    simp only [State.call]
    split
    · exact hdie
    · split <;> exact Nat.le_refl _
  | unregister k =>
    simp only [State.call]
    split
    · exact Nat.le_of_eq (congrArg _ (hrem s k))
    · split
      · exact hdie
      · exact Nat.le_of_eq (congrArg _ (hrem { s with store := s.store.put k ⟨[], some s.own⟩ } k))
  | ask p r => exact hreq _ _
  | tell p r => exact hreq _ _
  | link a b x d => exact hreq _ _
  | unlink a b x => exact hreq _ _
  | signalLinkDied a b x d => exact hreq _ _
  | _ => exact Nat.le_refl _

theorem channels_step {s : State P} (hi : Inv s) (c : PeerCodec P) (op : Op P) (ch : Nat) :
    (s.step c op).channels.count ch ≤ s.channels.count ch + ((arrived [op]).map (·.1)).count ch := by
  cases op with
  | send cmd =>
    simp only [State.step]
    split
    · simp [State.channels, List.filterMap_cons, ch_call]
    · exact Nat.le_add_right _ _
  | addPeerAddress =>
    simp only [State.step]
    split
    · simp [State.channels, List.filterMap_cons, ch_note, Note.resp]
    · exact Nat.le_add_right _ _
  | disconnectPeerId =>
    simp only [State.step]
    split
    · simp [State.channels, List.filterMap_cons, ch_note, Note.resp]
    · exact Nat.le_add_right _ _
  | recv acc =>
    simp only [State.step, arrived, List.map_nil, List.count_nil, Nat.add_zero]
    split
    · split
      · exact Nat.le_refl _
      · rename_i tx cmd rest hq
        refine Nat.le_trans (channels_call { s with queue := rest } c acc tx cmd (fresh_find hi.tasksLt) ch) ?_
        simp [State.channels, hq, List.filterMap_cons, ch_call]
      · rename_i n rest hq
        cases n <;> simp only [State.notice, State.respond, State.channels, hq, ch_note, Note.resp, List.filterMap_cons,
          Option.map_some, Option.map_none, List.map_append, List.count_append, List.map_cons, List.map_nil,
          List.count_cons, List.count_nil] <;> omega
    · exact Nat.le_refl _
  | setPeers n => exact Nat.le_add_right _ _
  | storeRemote k r =>
    simp only [State.step]
    split <;> exact Nat.le_add_right _ _
  | taskDone n o =>
    simp only [State.step, State.taskDone, arrived, List.map_nil, List.count_nil, Nat.add_zero]
    split
    · exact Nat.le_refl _
    · rename_i task hf
      have hp := ((Map.perm_del hf).filterMap (fun p => p.2.sink.ch)).count_eq ch
      obtain ⟨sink, req⟩ := task
      cases sink with
      | reply tx =>
        simp only [List.filterMap_cons, ch_reply, ch_channel] at hp
        cases o <;> simp only [State.channels, State.answer, List.count_append] <;> omega
      | channel k =>
        simp only [List.filterMap_cons, ch_reply, ch_channel, List.count_cons] at hp
        cases o with
        | val o =>
          simp only
          split
          · simp only [State.channels, List.count_append, List.filterMap_append, List.filterMap_cons, ch_call, ch_note,
              resp_command, Option.map_some, List.filterMap_nil, List.count_cons, List.count_nil]
            omega
          · simp only [State.channels, List.count_append]; omega
        | panic => simp only [State.channels, List.count_append]; omega
  | event e =>
    simp only [State.step]
    split
    · cases e with
      | request k r =>
        simp only [State.event, State.spawn, State.channels, Map.put_of_none (fresh_find hi.tasksLt),
          List.filterMap_append, List.filterMap_cons, ch_reply, ch_channel, List.filterMap_nil, List.count_append, arrived,
          List.map_cons, List.map_nil]
        omega
      | getFound q v => simp only [State.event]; split <;> exact Nat.le_add_right _ _
      | getErr q v => simp only [State.event]; split <;> exact Nat.le_add_right _ _
      | putResult q v => simp only [State.event]; split <;> exact Nat.le_add_right _ _
      | response q v => simp only [State.event]; split <;> exact Nat.le_add_right _ _
      | outboundFailure q v => simp only [State.event]; split <;> exact Nat.le_add_right _ _
      | _ => exact Nat.le_add_right _ _
    · exact Nat.le_add_right _ _

/-- **C50** (the other side: at most one response): on each response channel this node sends at most as many responses as
requests arrived on it; libp2p has one channel for each request. -/
theorem at_most_one_response (c : PeerCodec P) (own : P) (ops : List (Op P)) (ch : Nat) :
    ((run c own ops).responded.map (·.1)).count ch ≤ ((arrived ops).map (·.1)).count ch := by
  have : ∀ (post pre : List (Op P)), (run c own pre).channels.count ch ≤ ((arrived pre).map (·.1)).count ch →
      (run c own (pre ++ post)).channels.count ch ≤ ((arrived (pre ++ post)).map (·.1)).count ch := by
    intro post
    induction post with
    | nil => intro pre h; rw [List.append_nil]; exact h
    | cons op post ih =>
      intro pre h
      have e : pre ++ op :: post = (pre ++ [op]) ++ post := by simp
      rw [e]
      refine ih _ ?_
      have := channels_step (inv_run c own pre) c op ch
      rw [run_snoc, arrived_snoc, List.map_append, List.count_append]
      omega
  have h := this ops [] (Nat.le_refl _)
  simp only [List.nil_append, State.channels, List.count_append] at h
  omega

example : (run Wire.byteCodec 2 (netDemo 2)).responded = [(1, .ask (.ok [9]))] ∧
    ((arrived (netDemo 2)).map (·.1)).count 1 = 1 := ⟨rfl, rfl⟩

end Verif.Swarm
