import Verif.Swarm.Steps

/-
Property theorems about the swarm task (C50): each request gets its own answer, at most once.

`reqAnswer i`, `getAnswer q` and `putAnswer q` (Verif.Swarm.Steps) say which steps are the answer to which request or
query: the response or the failure with that request id, the query result with that query id.
-/

namespace Verif.Swarm

open Verif.ActorId
open Verif.Request (Out)
open Verif.Remote (Bytes Req Resp)
open Verif.Wire (RErr Reason)

variable {P : Type} [DecidableEq P]

theorem run_split (c : PeerCodec P) (own : P) (pre post : List (Op P)) (op : Op P) :
    run c own (pre ++ op :: post) = post.foldl (State.step c) ((run c own pre).step c op) := by
  rw [run_append]; rfl

theorem own_step (s : State P) (c : PeerCodec P) (op : Op P) : (s.step c op).own = s.own := by
  have hr : ∀ (s : State P) tx p r, (s.request tx p r).own = s.own := by
    intro s tx p r
    unfold State.request State.spawn
    split <;> rfl
  have hrem : ∀ (s : State P) k, (s.removeRecord k).own = s.own := by
    intro s k
    obtain ⟨m, hm⟩ := removeRecord_eq s k
    rw [hm]
  cases op with
  | recv acc =>
    simp only [State.step]
    split
    · split
      · rfl
      · rename_i tx cmd rest hq
        cases cmd <;> simp only [State.call, hr] <;> (try split) <;> (try split) <;> (try rfl) <;>
          simp only [State.answer, State.putQuery, hrem]
      · rename_i n rest hq
        cases n <;> rfl
    · rfl
  | event e =>
    simp only [State.step]
    split
    · cases e <;> simp only [State.event] <;> (try split) <;> rfl
    · rfl
  | taskDone t o =>
    simp only [State.step, State.taskDone]
    split
    · rfl
    · split <;> (try split) <;> rfl
  | setPeers n => rfl
  | storeRemote k r => simp only [State.step]; split <;> rfl
  | send cmd => simp only [State.step]; split <;> rfl
  | addPeerAddress => simp only [State.step]; split <;> rfl
  | disconnectPeerId => simp only [State.step]; split <;> rfl

theorem own_run (c : PeerCodec P) (own : P) (ops : List (Op P)) : (run c own ops).own = own := by
  have : ∀ (ops : List (Op P)) (s : State P), (ops.foldl (State.step c) s).own = s.own := by
    intro ops
    induction ops with
    | nil => intro s; rfl
    | cons op ops ih => intro s; rw [List.foldl_cons, ih, own_step]
  exact this ops _

/-- What taking a command that is a request from the channel does. -/
theorem recv_request {s : State P} (c : PeerCodec P) (acc : Bool) {t : Nat} {cmd : Cmd P} {rest : List (Item P)}
    (ha : s.alive = true) (hq : s.queue = .call t cmd :: rest) {p : P} {r : WireReq P}
    (hw : cmd.wire s.own = some (p, r)) : s.step c (.recv acc) = { s with queue := rest }.request t p r := by
  simp only [State.step, ha, if_true, hq]
  cases cmd <;> simp only [Cmd.wire, Option.some.injEq, Prod.mk.injEq, reduceCtorEq] at hw <;>
    (obtain ⟨h1, h2⟩ := hw; subst h1; subst h2; rfl)

theorem mem_sent_step {s : State P} (c : PeerCodec P) (op : Op P) {x : Nat × P × WireReq P} (h : x ∈ s.sent) :
    x ∈ (s.step c op).sent := by
  have hr : ∀ (s : State P) tx p r, x ∈ s.sent → x ∈ (s.request tx p r).sent := by
    intro s tx p r h
    unfold State.request State.spawn
    split
    · exact h
    · exact List.mem_append_left _ h
  have hrem : ∀ (s : State P) k, (s.removeRecord k).sent = s.sent := by
    intro s k
    obtain ⟨m, hm⟩ := removeRecord_eq s k
    rw [hm]
  cases op with
  | recv acc =>
    simp only [State.step]
    split
    · split
      · exact h
      · rename_i tx cmd rest hq
        cases cmd <;> simp only [State.call] <;> (try exact hr _ _ _ _ h) <;> (try split) <;> (try split) <;>
          (try exact h) <;> simp only [State.answer, State.putQuery, hrem] <;> exact h
      · rename_i n rest hq
        cases n <;> exact h
    · exact h
  | event e =>
    simp only [State.step]
    split
    · cases e <;> simp only [State.event] <;> (try split) <;> exact h
    · exact h
  | taskDone t o =>
    simp only [State.step, State.taskDone]
    split
    · exact h
    · split <;> (try split) <;> exact h
  | setPeers n => exact h
  | storeRemote k r => simp only [State.step]; split <;> exact h
  | send cmd => simp only [State.step]; split <;> exact h
  | addPeerAddress => simp only [State.step]; split <;> exact h
  | disconnectPeerId => simp only [State.step]; split <;> exact h

theorem mem_sent_foldl {s : State P} (c : PeerCodec P) (ops : List (Op P)) {x : Nat × P × WireReq P} (h : x ∈ s.sent) :
    x ∈ (ops.foldl (State.step c) s).sent := by
  induction ops generalizing s with
  | nil => exact h
  | cons op ops ih => exact ih (mem_sent_step c op h)

/-- Node 1, with a peer: caller 0 looks up "a", caller 1 asks actor 7 of node 2, caller 2 asks actor 8 of node 3. The
answer for caller 2 comes first, that of caller 1 is a failure, and a late response for it is ignored. -/
def demo : List (Op Byte) :=
  [.setPeers 2, .send (.lookup "a"), .send (.ask 2 ⟨⟨7, .peerId 2⟩, "A", "m", [], none, none, false⟩),
    .send (.ask 3 ⟨⟨8, .peerId 3⟩, "A", "m", [], none, none, false⟩), .recv true, .recv true, .recv true,
    .event (.response 1 (.ask (.ok [9]))), .event (.outboundFailure 0 .networkTimeout),
    .event (.response 0 (.ask (.ok [8]))), .event (.getErr 0 .notFound)]

/-- **C50** (its own answer, requests): a caller's request is taken from the command channel on a node with peers. It is
sent to the network under an id of its own, and whatever then happens — other requests, other answers in any order — the
answers the caller gets are: the first response or failure for that id, and nothing else. While there is none, the caller
waits. (As long as the swarm task lives: for its death see `nobody_forgotten`.) -/
theorem request_gets_its_answer (c : PeerCodec P) (own : P) (pre post : List (Op P)) (acc : Bool) (t : Nat) (cmd : Cmd P)
    (rest : List (Item P)) (p : P) (r : WireReq P) (hq : (run c own pre).queue = .call t cmd :: rest)
    (hw : cmd.wire own = some (p, r)) (hp : (run c own pre).peers ≠ 0)
    (ha : (run c own (pre ++ .recv acc :: post)).alive = true) :
    let i := (run c own pre).nextReq
    let s := run c own (pre ++ .recv acc :: post)
    (i, p, r) ∈ s.sent ∧ answersOf s t = (post.findSome? (reqAnswer i)).toList ∧
      (post.findSome? (reqAnswer i) = none → s.reqs.find i = some t) := by
  rw [run_split] at ha
  dsimp only
  rw [run_split]
  have hinv := inv_run c own pre
  have ha1 := alive_foldl ha
  have ha0 := alive_step ha1
  have hstep := recv_request c acc ha0 hq (by rw [own_run]; exact hw)
  unfold State.request at hstep
  rw [if_neg hp] at hstep
  have hinv1 := inv_step hinv c (.recv acc)
  have hfind : ((run c own pre).step c (.recv acc)).reqs.find (run c own pre).nextReq = some t := by
    rw [hstep]; simp [Map.find_put]
  have hsent : ((run c own pre).nextReq, p, r) ∈ ((run c own pre).step c (.recv acc)).sent := by
    rw [hstep]; simp
  refine ⟨mem_sent_foldl c post hsent, ?_⟩
  refine pending_exact c t (fun s => s.reqs.find (run c own pre).nextReq) (reqAnswer (run c own pre).nextReq)
    ?_ ?_ ?_ post _ hinv1 hfind ha
  · intro s op hs hl ho hal
    have hlt := hs.reqsLt _ (List.mem_map.mpr ⟨_, Map.mem_of_find hl, rfl⟩)
    rw [reqs_step hs c op _ hlt ho hal]
    exact hl
  · intro s op a hl ho hal
    cases op with
    | event e =>
      cases e with
      | response j x =>
        simp only [reqAnswer] at ho
        split at ho
        · rename_i hj
          subst hj
          cases ho
          simp only [State.step, hal, if_true, State.event, hl, State.answer]
        · cases ho
      | outboundFailure j x =>
        simp only [reqAnswer] at ho
        split at ho
        · rename_i hj
          subst hj
          cases ho
          simp only [State.step, hal, if_true, State.event, hl, State.answer]
        · cases ho
      | _ => cases ho
    | _ => cases ho
  · intro s hs hl
    have := count_of_find hl
    exact (hs.waiting (by omega)).1

/-- The request of caller 1 in `demo`: the failure is its answer, and the response after it is not. -/
example : (run Wire.byteCodec 1 (demo.take 5)).queue =
      [.call 1 (.ask 2 ⟨⟨7, .peerId 2⟩, "A", "m", [], none, none, false⟩),
        .call 2 (.ask 3 ⟨⟨8, .peerId 3⟩, "A", "m", [], none, none, false⟩)] ∧
    (run Wire.byteCodec 1 (demo.take 5)).peers ≠ 0 ∧ demo = demo.take 5 ++ .recv true :: demo.drop 6 ∧
    (run Wire.byteCodec 1 demo).alive = true ∧
    answersOf (run Wire.byteCodec 1 demo) 1 = [.resp (.outboundFailure .networkTimeout)] :=
  ⟨rfl, by decide, rfl, rfl, rfl⟩

/-- **C50** (its own answer, lookups in the DHT): likewise for a lookup, with the id of its query. -/
theorem lookup_gets_its_answer (c : PeerCodec P) (own : P) (pre post : List (Op P)) (acc : Bool) (t : Nat) (k : Key)
    (rest : List (Item P)) (hq : (run c own pre).queue = .call t (.lookup k) :: rest)
    (ha : (run c own (pre ++ .recv acc :: post)).alive = true) :
    let q := (run c own pre).nextQuery
    let s := run c own (pre ++ .recv acc :: post)
    answersOf s t = (post.findSome? (getAnswer q)).toList ∧
      (post.findSome? (getAnswer q) = none → s.gets.find q = some t) := by
  rw [run_split] at ha
  dsimp only
  rw [run_split]
  have hinv := inv_run c own pre
  have ha1 := alive_foldl ha
  have ha0 := alive_step ha1
  have hinv1 := inv_step hinv c (.recv acc)
  have hfind : ((run c own pre).step c (.recv acc)).gets.find (run c own pre).nextQuery = some t := by
    simp only [State.step, ha0, if_true, hq, State.call, State.getQuery]
    simp [Map.find_put]
  refine pending_exact c t (fun s => s.gets.find (run c own pre).nextQuery) (getAnswer (run c own pre).nextQuery)
    ?_ ?_ ?_ post _ hinv1 hfind ha
  · intro s op hs hl ho hal
    have hlt := hs.getsLt _ (List.mem_map.mpr ⟨_, Map.mem_of_find hl, rfl⟩)
    rw [gets_step hs c op _ hlt ho hal]
    exact hl
  · intro s op a hl ho hal
    cases op with
    | event e =>
      cases e with
      | getFound j x =>
        simp only [getAnswer] at ho
        split at ho
        · rename_i hj
          subst hj
          cases ho
          simp only [State.step, hal, if_true, State.event, hl, State.answer]
        · cases ho
      | getErr j x =>
        simp only [getAnswer] at ho
        split at ho
        · rename_i hj
          subst hj
          cases ho
          simp only [State.step, hal, if_true, State.event, hl, State.answer]
        · cases ho
      | _ => cases ho
    | _ => cases ho
  · intro s hs hl
    have := count_of_find hl
    exact (hs.waiting (by omega)).1

/-- The lookup of caller 0 in `demo`: its query ends last. -/
example : (run Wire.byteCodec 1 (demo.take 4)).queue.head? = some (.call 0 (.lookup "a")) ∧
    demo = demo.take 4 ++ .recv true :: demo.drop 5 ∧ (run Wire.byteCodec 1 demo).alive = true ∧
    answersOf (run Wire.byteCodec 1 demo) 0 = [.record (.error .notFound)] ∧
    answersOf (run Wire.byteCodec 1 (demo.take 10)) 0 = [] := ⟨rfl, rfl, rfl, rfl, rfl⟩

theorem putQuery_removeRecord (s : State P) (k : Key) (t : Nat) :
    ((s.removeRecord k).putQuery t).puts.find s.nextQuery = some t := by
  obtain ⟨m, hm⟩ := removeRecord_eq s k
  rw [hm]
  simp [State.putQuery, Map.find_put]

/-- **C50** (its own answer, `register` and `unregister`): likewise on a node with peers, with the id of the query. -/
theorem put_gets_its_answer (c : PeerCodec P) (own : P) (pre post : List (Op P)) (acc : Bool) (t : Nat) (cmd : Cmd P)
    (rest : List (Item P)) (hq : (run c own pre).queue = .call t cmd :: rest)
    (hc : (∃ k v, cmd = .register k v) ∨ (∃ k, cmd = .unregister k)) (hp : (run c own pre).peers ≠ 0)
    (ha : (run c own (pre ++ .recv acc :: post)).alive = true) :
    let q := (run c own pre).nextQuery
    let s := run c own (pre ++ .recv acc :: post)
    answersOf s t = (post.findSome? (putAnswer q)).toList ∧
      (post.findSome? (putAnswer q) = none → s.puts.find q = some t) := by
  rw [run_split] at ha
  dsimp only
  rw [run_split]
  have hinv := inv_run c own pre
  have ha1 := alive_foldl ha
  have ha0 := alive_step ha1
  have hinv1 := inv_step hinv c (.recv acc)
  have hfind : ((run c own pre).step c (.recv acc)).puts.find (run c own pre).nextQuery = some t := by
    simp only [State.step, ha0, if_true, hq] at ha1 ⊢
    rcases hc with ⟨k, v, rfl⟩ | ⟨k, rfl⟩
    · simp only [State.call] at ha1 ⊢
      split at ha1
      · cases ha1
      · rename_i hacc
        rw [if_neg hacc, if_neg hp]
        simp [State.putQuery, Map.find_put]
    · simp only [State.call] at ha1 ⊢
      rw [if_neg hp] at ha1 ⊢
      split at ha1
      · cases ha1
      · rename_i hacc
        rw [if_neg hacc]
        exact putQuery_removeRecord _ _ _
  refine pending_exact c t (fun s => s.puts.find (run c own pre).nextQuery) (putAnswer (run c own pre).nextQuery)
    ?_ ?_ ?_ post _ hinv1 hfind ha
  · intro s op hs hl ho hal
    have hlt := hs.putsLt _ (List.mem_map.mpr ⟨_, Map.mem_of_find hl, rfl⟩)
    rw [puts_step hs c op _ hlt ho hal]
    exact hl
  · intro s op a hl ho hal
    cases op with
    | event e =>
      cases e with
      | putResult j x =>
        simp only [putAnswer] at ho
        split at ho
        · rename_i hj
          subst hj
          cases ho
          simp only [State.step, hal, if_true, State.event, hl, State.answer]
        · cases ho
      | _ => cases ho
    | _ => cases ho
  · intro s hs hl
    have := count_of_find hl
    exact (hs.waiting (by omega)).1

/-- On a node with peers, a registration and an unregistration; the query of the second ends first. -/
example : let pre : List (Op Byte) := [.setPeers 2, .send (.register "a" [1]), .send (.unregister "b")]
    let ops := pre ++ .recv true :: [.recv true, .event (.putResult 1 (.error (.quorumFailed 1))), .event (.putResult 0 (.ok ()))]
    (run Wire.byteCodec 1 pre).queue.head? = some (.call 0 (.register "a" [1])) ∧
    (run Wire.byteCodec 1 pre).peers ≠ 0 ∧ (run Wire.byteCodec 1 ops).alive = true ∧
    answersOf (run Wire.byteCodec 1 ops) 0 = [.put (.ok ())] := ⟨rfl, by decide, rfl, rfl⟩

/-- **C50** (at most once; nobody forgotten): at any time each caller is in exactly one of these positions: its command is
in the channel; it waits for a query, a request or a task; it has exactly one answer; its reply sender was dropped, so
that it panics. In particular nobody gets two answers, and whoever has an answer has no entry left. -/
theorem nobody_forgotten (c : PeerCodec P) (own : P) (ops : List (Op P)) (t : Nat) (ht : t < (run c own ops).nextTx) :
    let s := run c own ops
    (s.queue.filterMap Item.tx).count t + (s.gets.map (·.2)).count t + (s.puts.map (·.2)).count t +
      (s.reqs.map (·.2)).count t + (s.tasks.filterMap (fun p => p.2.sink.tx)).count t + (answersOf s t).length +
      s.dropped.count t = 1 :=
  (inv_run c own ops).exactly_one ht

/-- After nine steps of `demo`, caller 0 waits for its query, and callers 1 and 2 have an answer each. -/
example : (run Wire.byteCodec 1 (demo.take 9)).nextTx = 3 ∧
    ((run Wire.byteCodec 1 (demo.take 9)).gets.map (·.2)).count 0 = 1 ∧
    (answersOf (run Wire.byteCodec 1 (demo.take 9)) 1).length = 1 ∧
    (answersOf (run Wire.byteCodec 1 (demo.take 9)) 2).length = 1 := ⟨rfl, rfl, rfl, rfl⟩

/-- The ids of the requests sent are 0, 1, 2, … -/
theorem sent_ids_step {s : State P} (c : PeerCodec P) (op : Op P) (h : s.sent.map (·.1) = List.range s.nextReq) :
    (s.step c op).sent.map (·.1) = List.range (s.step c op).nextReq := by
  have hr : ∀ (s : State P) tx p r, s.sent.map (·.1) = List.range s.nextReq →
      (s.request tx p r).sent.map (·.1) = List.range (s.request tx p r).nextReq := by
    intro s tx p r h
    unfold State.request State.spawn
    split
    · exact h
    · simp [h, List.range_succ]
  have hrem : ∀ (s : State P) k, (s.removeRecord k).sent = s.sent ∧ (s.removeRecord k).nextReq = s.nextReq := by
    intro s k
    obtain ⟨m, hm⟩ := removeRecord_eq s k
    rw [hm]
    exact ⟨rfl, rfl⟩
  cases op with
  | recv acc =>
    simp only [State.step]
    split
    · split
      · exact h
      · rename_i tx cmd rest hq
        cases cmd <;> simp only [State.call] <;> (try exact hr _ _ _ _ h) <;> (try split) <;> (try split) <;>
          (try exact h) <;> simp only [State.answer, State.putQuery, hrem] <;> exact h
      · rename_i n rest hq
        cases n <;> exact h
    · exact h
  | event e =>
    simp only [State.step]
    split
    · cases e <;> simp only [State.event] <;> (try split) <;> exact h
    · exact h
  | taskDone t o =>
    simp only [State.step, State.taskDone]
    split
    · exact h
    · split <;> (try split) <;> exact h
  | setPeers n => exact h
  | storeRemote k r => simp only [State.step]; split <;> exact h
  | send cmd => simp only [State.step]; split <;> exact h
  | addPeerAddress => simp only [State.step]; split <;> exact h
  | disconnectPeerId => simp only [State.step]; split <;> exact h

theorem sent_ids (c : PeerCodec P) (own : P) (ops : List (Op P)) :
    (run c own ops).sent.map (·.1) = List.range (run c own ops).nextReq := by
  have : ∀ (ops : List (Op P)) (s : State P), s.sent.map (·.1) = List.range s.nextReq →
      (ops.foldl (State.step c) s).sent.map (·.1) = List.range (ops.foldl (State.step c) s).nextReq := by
    intro ops
    induction ops with
    | nil => intro s h; exact h
    | cons op ops ih => intro s h; exact ih _ (sent_ids_step c op h)
  exact this ops _ rfl

theorem nextReq_mono (s : State P) (c : PeerCodec P) (op : Op P) (hs : s.sent.map (·.1) = List.range s.nextReq) :
    s.nextReq ≤ (s.step c op).nextReq := by
  have h := sent_ids_step c op hs
  rcases Nat.eq_zero_or_pos s.nextReq with h0 | h0
  · omega
  · have hm : s.nextReq - 1 ∈ s.sent.map (·.1) := by rw [hs]; exact List.mem_range.mpr (by omega)
    obtain ⟨x, hx, hx1⟩ := List.mem_map.mp hm
    have : s.nextReq - 1 ∈ (s.step c op).sent.map (·.1) := List.mem_map.mpr ⟨x, mem_sent_step c op hx, hx1⟩
    rw [h] at this
    have := List.mem_range.mp this
    omega

/-- An entry that is gone does not come back. -/
theorem gone_step {s : State P} (hs : Inv s) (c : PeerCodec P) (op : Op P) {i : Nat} (hi : i < s.nextReq)
    (h : s.reqs.find i = none ∨ reqAnswer i op ≠ none) : (s.step c op).reqs.find i = none := by
  cases ha : (s.step c op).alive with
  | false =>
    have := (inv_step hs c op).dead ha
    rw [this.2.2.2]
    rfl
  | true =>
    have hal := alive_step ha
    cases ho : reqAnswer i op with
    | none =>
      rw [ho] at h
      rw [reqs_step hs c op i hi ho ha]
      exact h.resolve_right (fun h => h rfl)
    | some a =>
      cases op with
      | event e =>
        cases e with
        | response j x =>
          simp only [reqAnswer] at ho
          split at ho
          · rename_i hj
            subst hj
            simp only [State.step, hal, if_true, State.event]
            split
            · simp only [State.answer]; rw [Map.find_del hs.reqs, if_pos rfl]
            · assumption
          · cases ho
        | outboundFailure j x =>
          simp only [reqAnswer] at ho
          split at ho
          · rename_i hj
            subst hj
            simp only [State.step, hal, if_true, State.event]
            split
            · simp only [State.answer]; rw [Map.find_del hs.reqs, if_pos rfl]
            · assumption
          · cases ho
        | _ => cases ho
      | _ => cases ho

theorem gone_foldl (c : PeerCodec P) (ops : List (Op P)) {i : Nat} : ∀ s : State P, Inv s →
    s.sent.map (·.1) = List.range s.nextReq → i < s.nextReq →
    (s.reqs.find i = none ∨ ∃ op ∈ ops, reqAnswer i op ≠ none) → (ops.foldl (State.step c) s).reqs.find i = none := by
  induction ops with
  | nil => intro s _ _ _ h; simpa using h
  | cons op ops ih =>
    intro s hs hsent hi h
    have hi' := nextReq_mono s c op hsent
    refine ih _ (inv_step hs c op) (sent_ids_step c op hsent) (by omega) ?_
    rcases h with h | ⟨o, ho, hne⟩
    · exact Or.inl (gone_step hs c op hi (Or.inl h))
    · rcases List.mem_cons.mp ho with rfl | ho
      · exact Or.inl (gone_step hs c o hi (Or.inr hne))
      · exact Or.inr ⟨o, ho, hne⟩

/-- **C50** (unknown requests): a response or a failure for an id under which no request has been sent, or whose request
has had a response or a failure before, changes nothing at all. -/
theorem unknown_ids_change_nothing (c : PeerCodec P) (own : P) (pre post : List (Op P)) (i : Nat)
    (h : (∀ p q, (i, p, q) ∉ (run c own (pre ++ post)).sent) ∨
      (∃ p q, (i, p, q) ∈ (run c own pre).sent) ∧ ∃ op ∈ post, reqAnswer i op ≠ none) (op : Op P)
    (hop : reqAnswer i op ≠ none) :
    (run c own (pre ++ post)).step c op = run c own (pre ++ post) := by
  have hlt : ∀ ops p q, (i, p, q) ∈ (run c own ops).sent → i < (run c own ops).nextReq := by
    intro ops p q hm
    have : i ∈ (run c own ops).sent.map (·.1) := List.mem_map.mpr ⟨_, hm, rfl⟩
    rw [sent_ids] at this
    exact List.mem_range.mp this
  have key : (run c own (pre ++ post)).reqs.find i = none := by
    rcases h with h | ⟨⟨p, q, hm⟩, hop⟩
    · cases hf : (run c own (pre ++ post)).reqs.find i with
      | none => rfl
      | some t =>
        have := (inv_run c own (pre ++ post)).reqsLt i (List.mem_map.mpr ⟨_, Map.mem_of_find hf, rfl⟩)
        have hm : i ∈ (run c own (pre ++ post)).sent.map (·.1) := by rw [sent_ids]; exact List.mem_range.mpr this
        obtain ⟨⟨j, p, q⟩, hx, hj⟩ := List.mem_map.mp hm
        dsimp only at hj
        subst hj
        exact absurd hx (h p q)
    · rw [run_append]
      exact gone_foldl c post _ (inv_run c own pre) (sent_ids c own pre) (hlt pre p q hm) (Or.inr hop)
  cases op with
  | event e =>
    cases e with
    | response j x =>
      simp only [reqAnswer] at hop
      split at hop
      · rename_i hj
        subst hj
        simp only [State.step, State.event, key]
        split <;> rfl
      · exact absurd rfl hop
    | outboundFailure j x =>
      simp only [reqAnswer] at hop
      split at hop
      · rename_i hj
        subst hj
        simp only [State.step, State.event, key]
        split <;> rfl
      · exact absurd rfl hop
    | _ => exact absurd rfl hop
  | _ => exact absurd rfl hop

/-- In `demo`, request 0 has been sent after eight steps, the ninth is a failure for it, and the tenth a response. -/
example : (∃ p q, (0, p, q) ∈ (run Wire.byteCodec 1 (demo.take 8)).sent) ∧
    (∃ op ∈ [Op.event (.outboundFailure 0 .networkTimeout)], reqAnswer 0 op ≠ (none : Option (Ans Byte))) ∧
    reqAnswer 0 (.event (.response 0 (.ask (.ok [8])))) ≠ (none : Option (Ans Byte)) :=
  ⟨⟨2, .ask ⟨⟨7, .peerId 2⟩, "A", "m", [], none, none, false⟩, List.mem_cons_self ..⟩,
    ⟨_, List.mem_singleton.mpr rfl, by simp [reqAnswer]⟩, by simp [reqAnswer]⟩

/-! ### Requests handled on this node -/

/-- The end of task `k`, if the step is that. -/
def taskEnd (k : Nat) : Op P → Option (Out TaskOut)
  | .taskDone j o => if j = k then some o else none
  | _ => none

theorem tasks_step {s : State P} (hs : Inv s) (c : PeerCodec P) (op : Op P) (k : Nat) (hk : k < s.nextTask)
    (ho : taskEnd k op = none) :
    (s.step c op).tasks.find k = s.tasks.find k ∧ s.nextTask ≤ (s.step c op).nextTask := by
  have hr : ∀ (s : State P) tx p r, k < s.nextTask → (s.request tx p r).tasks.find k = s.tasks.find k ∧
      s.nextTask ≤ (s.request tx p r).nextTask := by
    intro s tx p r hk
    unfold State.request State.spawn
    split
    · exact ⟨by rw [Map.find_put, if_neg (by omega)], Nat.le_succ _⟩
    · exact ⟨rfl, Nat.le_refl _⟩
  have hrem : ∀ (s : State P) k, (s.removeRecord k).tasks = s.tasks ∧ (s.removeRecord k).nextTask = s.nextTask := by
    intro s k
    obtain ⟨m, hm⟩ := removeRecord_eq s k
    rw [hm]
    exact ⟨rfl, rfl⟩
  cases op with
  | recv acc =>
    simp only [State.step]
    split
    · split
      · exact ⟨rfl, Nat.le_refl _⟩
      · rename_i tx cmd rest hq
        cases cmd <;> simp only [State.call] <;> (try exact hr _ _ _ _ hk) <;> (try split) <;> (try split) <;>
          (try exact ⟨rfl, Nat.le_refl _⟩) <;> simp only [State.answer, State.putQuery, hrem] <;>
          exact ⟨trivial, Nat.le_refl _⟩
      · rename_i n rest hq
        cases n <;> exact ⟨rfl, Nat.le_refl _⟩
    · exact ⟨rfl, Nat.le_refl _⟩
  | event e =>
    simp only [State.step]
    split
    · cases e <;> simp only [State.event, State.spawn] <;> (try split) <;>
        first
        | exact ⟨rfl, Nat.le_refl _⟩
        | exact ⟨trivial, Nat.le_refl _⟩
        | exact ⟨by rw [Map.find_put, if_neg (by omega)], Nat.le_succ _⟩
    · exact ⟨rfl, Nat.le_refl _⟩
  | taskDone t o =>
    simp only [taskEnd] at ho
    have ht : t ≠ k := by intro h; simp [h] at ho
    have hd : (s.tasks.del t).find k = s.tasks.find k := by rw [Map.find_del hs.tasks, if_neg (Ne.symm ht)]
    simp only [State.step, State.taskDone]
    split
    · exact ⟨rfl, Nat.le_refl _⟩
    · split <;> (try split) <;> exact ⟨hd, Nat.le_refl _⟩
  | setPeers n => exact ⟨rfl, Nat.le_refl _⟩
  | storeRemote k r => simp only [State.step]; split <;> exact ⟨rfl, Nat.le_refl _⟩
  | send cmd => simp only [State.step]; split <;> exact ⟨rfl, Nat.le_refl _⟩
  | addPeerAddress => simp only [State.step]; split <;> exact ⟨rfl, Nat.le_refl _⟩
  | disconnectPeerId => simp only [State.step]; split <;> exact ⟨rfl, Nat.le_refl _⟩

theorem dropped_stays {s : State P} (hs : Inv s) (c : PeerCodec P) (ops : List (Op P)) {t : Nat} (ht : t ∈ s.dropped) :
    answersOf (ops.foldl (State.step c) s) t = [] ∧ t ∈ (ops.foldl (State.step c) s).dropped := by
  have hmem : ∀ (ops : List (Op P)) (s : State P), t ∈ s.dropped → t ∈ (ops.foldl (State.step c) s).dropped := by
    intro ops
    induction ops with
    | nil => intro s h; exact h
    | cons op ops ih =>
      intro s h
      refine ih _ ?_
      have hr : ∀ (s : State P) tx p r, (s.request tx p r).dropped = s.dropped := by
        intro s tx p r
        unfold State.request State.spawn
        split <;> rfl
      have hrem : ∀ (s : State P) k, (s.removeRecord k).dropped = s.dropped := by
        intro s k
        obtain ⟨m, hm⟩ := removeRecord_eq s k
        rw [hm]
      cases op with
      | recv acc =>
        simp only [State.step]
        split
        · split
          · exact h
          · rename_i tx cmd rest hq
            cases cmd <;> simp only [State.call, hr] <;> (try exact h) <;> (try split) <;> (try split) <;>
              (try exact h) <;> simp only [State.answer, State.putQuery, State.die, hrem] <;>
              first | exact h | exact List.mem_append_left _ h
          · rename_i n rest hq
            cases n <;> exact h
        · exact h
      | event e =>
        simp only [State.step]
        split
        · cases e <;> simp only [State.event] <;> (try split) <;> exact h
        · exact h
      | taskDone t o =>
        simp only [State.step, State.taskDone]
        split
        · exact h
        · split <;> (try split) <;> first | exact h | exact List.mem_append_left _ h
      | setPeers n => exact h
      | storeRemote k r => simp only [State.step]; split <;> exact h
      | send cmd => simp only [State.step]; split <;> first | exact h | exact List.mem_append_left _ h
      | addPeerAddress => simp only [State.step]; split <;> exact h
      | disconnectPeerId => simp only [State.step]; split <;> exact h
  have hd := hmem ops s ht
  refine ⟨?_, hd⟩
  have hi := inv_foldl hs c ops
  have := hi.places t
  have hc := List.count_pos_iff.mpr hd
  simp only [State.all, List.count_append] at this
  refine List.length_eq_zero_iff.mp ?_
  rw [answersOf_length]
  split at this <;> omega

/-- **C50** (its own answer, without peers): on a node without peers a request is handled by a task of its own on this
node. Whatever else happens — the death of the swarm task included — the caller gets the result of that task, of the kind
asked for; it panics if the task does; until the task ends it waits. -/
theorem local_request_gets_its_answer (c : PeerCodec P) (own : P) (pre post : List (Op P)) (acc : Bool) (t : Nat)
    (cmd : Cmd P) (rest : List (Item P)) (p : P) (r : WireReq P) (ha : (run c own pre).alive = true)
    (hq : (run c own pre).queue = .call t cmd :: rest) (hw : cmd.wire own = some (p, r))
    (hp : (run c own pre).peers = 0) :
    let s := run c own (pre ++ .recv acc :: post)
    match post.findSome? (taskEnd (run c own pre).nextTask) with
    | none => answersOf s t = [] ∧ t ∉ s.dropped
    | some (.val o) => answersOf s t = [.resp (r.answer o)] ∧ t ∉ s.dropped
    | some .panic => answersOf s t = [] ∧ t ∈ s.dropped := by
  dsimp only
  rw [run_split]
  have hinv1 := inv_step (inv_run c own pre) c (.recv acc)
  have hstep := recv_request c acc ha hq (by rw [own_run]; exact hw)
  unfold State.request at hstep
  rw [if_pos hp] at hstep
  have hfind : ((run c own pre).step c (.recv acc)).tasks.find (run c own pre).nextTask = some ⟨.reply t, r⟩ := by
    rw [hstep]; simp [State.spawn, Map.find_put]
  have hlt : (run c own pre).nextTask < ((run c own pre).step c (.recv acc)).nextTask := by
    rw [hstep]; simp [State.spawn]
  generalize (run c own pre).nextTask = k at *
  generalize (run c own pre).step c (.recv acc) = s at *
  clear hstep ha hq hw hp
  have hwait : ∀ s : State P, Inv s → s.tasks.find k = some ⟨.reply t, r⟩ → answersOf s t = [] ∧ t ∉ s.dropped := by
    intro s hs hf
    refine hs.waiting ?_
    have : 0 < (s.tasks.filterMap (fun p => p.2.sink.tx)).count t :=
      List.count_pos_iff.mpr (List.mem_filterMap.mpr ⟨_, Map.mem_of_find hf, rfl⟩)
    omega
  induction post generalizing s with
  | nil => exact hwait s hinv1 hfind
  | cons op post ih =>
    rw [List.foldl_cons, List.findSome?_cons]
    cases ho : taskEnd k op with
    | none =>
      have := tasks_step hinv1 c op k hlt ho
      exact ih _ (inv_step hinv1 c op) (by rw [this.1]; exact hfind) (by omega)
    | some o =>
      cases op with
      | taskDone j o' =>
        simp only [taskEnd] at ho
        split at ho
        · rename_i hj
          subst hj
          cases ho
          have hn := hwait s hinv1 hfind
          cases o with
          | val o =>
            have h1 : answersOf (s.step c (.taskDone j (.val o))) t = [.resp (r.answer o)] := by
              simp only [State.step, State.taskDone, hfind, State.answer]
              have := hn.1
              unfold answersOf at this ⊢
              rw [List.filterMap_append, this]
              simp
            have h2 := answered_stays (inv_step hinv1 c _) c post h1
            refine ⟨h2, ?_⟩
            have hi := inv_foldl (inv_step hinv1 c (.taskDone j (.val o))) c post
            have := hi.places t
            have hl := answersOf_length (post.foldl (State.step c) (s.step c (.taskDone j (.val o)))) t
            rw [h2] at hl
            simp only [State.all, List.count_append, List.length_cons, List.length_nil] at this hl
            exact List.count_eq_zero.mp (by split at this <;> omega)
          | panic =>
            refine dropped_stays (inv_step hinv1 c _) c post ?_
            simp only [State.step, State.taskDone, hfind]
            simp
        · cases ho
      | _ => cases ho

/-- Caller 0 asks actor 7, the swarm task dies of another command, and still the caller gets its answer. -/
example : let pre : List (Op Byte) :=
      [.send (.ask 2 ⟨⟨7, .peerId 2⟩, "A", "m", [], none, none, false⟩), .send (.register "a" [])]
    (run Wire.byteCodec 1 pre).alive = true ∧ (run Wire.byteCodec 1 pre).peers = 0 ∧
    (run Wire.byteCodec 1 (pre ++ .recv true :: [.recv false])).alive = false ∧
    answersOf (run Wire.byteCodec 1 (pre ++ .recv true :: [.recv false, .taskDone 0 (.val ⟨.ok [9], .ok ()⟩)])) 0 =
      [.resp (.ask (.ok [9]))] := ⟨rfl, rfl, rfl, rfl⟩

/-! ### Who panics -/

/-- The steps in which a task that handles a command on this node panics. -/
def Op.isTaskPanic : Op P → Bool
  | .taskDone _ .panic => true
  | _ => false

theorem dropped_step (s : State P) (c : PeerCodec P) (op : Op P) (ha : (s.step c op).alive = true)
    (ho : op.isTaskPanic = false) : (s.step c op).dropped = s.dropped := by
  have hr : ∀ (s : State P) tx p r, (s.request tx p r).dropped = s.dropped := by
    intro s tx p r
    unfold State.request State.spawn
    split <;> rfl
  have hrem : ∀ (s : State P) k, (s.removeRecord k).dropped = s.dropped := by
    intro s k
    obtain ⟨m, hm⟩ := removeRecord_eq s k
    rw [hm]
  have hal := alive_step ha
  cases op with
  | recv acc =>
    simp only [State.step, hal, if_true] at ha ⊢
    split at ha
    · rfl
    · rename_i tx cmd rest hq
      cases cmd with
      | lookupLocal k =>
        simp only [State.call] at ha ⊢
        split at ha
        · rfl
        · split at ha
          · cases ha
          · rfl
      | register k v =>
        simp only [State.call] at ha ⊢
        split at ha
        · cases ha
        · rename_i hacc
          rw [if_neg hacc]
          split <;> rfl
      | unregister k =>
        simp only [State.call] at ha ⊢
        split at ha
        · rename_i hp
          rw [if_pos hp]
          simp only [State.answer, hrem]
        · rename_i hp
          rw [if_neg hp]
          split at ha
          · cases ha
          · rename_i hacc
            rw [if_neg hacc]
            simp only [State.putQuery, hrem]
      | listenOn res => rfl
      | dial res => rfl
      | lookup k => rfl
      | ask p r => simp only [State.call, hr]
      | tell p r => simp only [State.call, hr]
      | link id rid sib srid => simp only [State.call, hr]
      | unlink id sib srid => simp only [State.call, hr]
      | signalLinkDied d n rid reason => simp only [State.call, hr]
    · rename_i n rest hq
      cases n <;> rfl
  | event e =>
    simp only [State.step]
    split
    · cases e <;> simp only [State.event] <;> (try split) <;> rfl
    · rename_i hn; exact absurd hal hn
  | taskDone t o =>
    cases o with
    | panic => cases ho
    | val o =>
      simp only [State.step, State.taskDone]
      split
      · rfl
      · split
        · rfl
        · rename_i h; cases h
        · split <;> rfl
        · rename_i h; cases h
  | setPeers n => rfl
  | storeRemote k r => simp only [State.step]; split <;> rfl
  | send cmd => simp only [State.step, hal, if_true]
  | addPeerAddress => simp only [State.step]; split <;> rfl
  | disconnectPeerId => simp only [State.step]; split <;> rfl

/-- **C50** (nobody is left without an answer while the node works): as long as the swarm task lives and no task that
handles a command on this node panics, no reply sender is dropped: each caller has its one answer or waits for it. -/
theorem no_caller_panics (c : PeerCodec P) (own : P) (ops : List (Op P)) (ha : (run c own ops).alive = true)
    (ho : ∀ op ∈ ops, op.isTaskPanic = false) : (run c own ops).dropped = [] := by
  have : ∀ (ops : List (Op P)) (s : State P), (ops.foldl (State.step c) s).alive = true →
      (∀ op ∈ ops, op.isTaskPanic = false) → (ops.foldl (State.step c) s).dropped = s.dropped := by
    intro ops
    induction ops with
    | nil => intro s _ _; rfl
    | cons op ops ih =>
      intro s ha ho
      rw [List.foldl_cons] at ha ⊢
      rw [ih _ ha (fun o h => ho o (List.mem_cons_of_mem _ h)),
        dropped_step s c op (alive_foldl ha) (ho op List.mem_cons_self)]
  exact this ops _ ha ho

example : (run Wire.byteCodec 1 demo).alive = true ∧ (∀ op ∈ demo, op.isTaskPanic = false) ∧ demo.length = 11 :=
  ⟨rfl, by simp [demo, Op.isTaskPanic], rfl⟩

end Verif.Swarm
