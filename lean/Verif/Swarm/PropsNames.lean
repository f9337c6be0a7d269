import Verif.Swarm.PropsPanic

/-
Property theorems about names registered in the swarm, as the node of the actor sees them (C58).
-/

namespace Verif.Swarm

open Verif.ActorId
open Verif.Request (Out)
open Verif.Remote (Bytes Req Resp)

variable {P : Type} [DecidableEq P]

/-- The step may change what the local store holds under `k`: the swarm task takes a registration or unregistration of
`k` from the channel, or the store takes a record of another node, or drops one. -/
def touches (s : State P) (k : Key) : Op P → Prop
  | .recv _ => ∃ t rest, (∃ v, s.queue = .call t (.register k v) :: rest) ∨ s.queue = .call t (.unregister k) :: rest
  | .storeRemote j _ => j = k
  | _ => False

theorem store_ok_step {s : State P} (c : PeerCodec P) (op : Op P) (h : s.store.Ok) : (s.step c op).store.Ok := by
  have hr : ∀ (s : State P) tx p r, (s.request tx p r).store = s.store := by
    intro s tx p r
    unfold State.request State.spawn
    split <;> rfl
  have hrem : ∀ (s : State P) k, s.store.Ok → (s.removeRecord k).store.Ok := by
    intro s k h
    unfold State.removeRecord
    split
    · split
      · exact Map.ok_del h k
      · exact h
    · exact h
  cases op with
  | recv acc =>
    simp only [State.step]
    split
    · split
      · exact h
      · rename_i tx cmd rest hq
        cases cmd with
        | register k v =>
          simp only [State.call]
          split
          · exact h
          · split <;> exact Map.ok_put h _ _
        | unregister k =>
          simp only [State.call]
          split
          · exact hrem _ _ h
          · split
            · exact h
            · exact hrem _ _ (Map.ok_put h _ _)
        | lookupLocal k =>
          simp only [State.call]
          split
          · exact h
          · split <;> exact h
        | listenOn res => exact h
        | dial res => exact h
        | lookup k => exact h
        | ask p r => simp only [State.call, hr]; exact h
        | tell p r => simp only [State.call, hr]; exact h
        | link id rid sib srid => simp only [State.call, hr]; exact h
        | unlink id sib srid => simp only [State.call, hr]; exact h
        | signalLinkDied d n rid reason => simp only [State.call, hr]; exact h
      · rename_i n rest hq
        cases n <;> exact h
    · exact h
  | event e =>
    simp only [State.step]
    split
    · cases e <;> simp only [State.event] <;> (try split) <;> exact h
    · exact h
  | taskDone t o =>
    simp only [State.step, State.taskDone]
    split
    · exact h
    · split <;> (try split) <;> exact h
  | setPeers n => exact h
  | storeRemote k r =>
    simp only [State.step]
    split
    · exact Map.ok_put h _ _
    · exact Map.ok_del h _
  | send cmd => simp only [State.step]; split <;> exact h
  | addPeerAddress => simp only [State.step]; split <;> exact h
  | disconnectPeerId => simp only [State.step]; split <;> exact h

theorem store_ok_run (c : PeerCodec P) (own : P) (ops : List (Op P)) : (run c own ops).store.Ok := by
  have : ∀ (ops : List (Op P)) (s : State P), s.store.Ok → (ops.foldl (State.step c) s).store.Ok := by
    intro ops
    induction ops with
    | nil => intro s h; exact h
    | cons op ops ih => intro s h; exact ih _ (store_ok_step c op h)
  exact this ops _ Map.ok_nil

/-- `removeRecord` leaves other names alone. -/
theorem removeRecord_other {s : State P} (h : s.store.Ok) {k j : Key} (hk : j ≠ k) :
    (s.removeRecord k).store.find j = s.store.find j := by
  unfold State.removeRecord
  split
  · split
    · rw [Map.find_del h, if_neg hk]
    · rfl
  · rfl

theorem store_step {s : State P} (c : PeerCodec P) (op : Op P) (h : s.store.Ok) (k : Key) (ht : ¬ touches s k op) :
    (s.step c op).store.find k = s.store.find k := by
  have hr : ∀ (s : State P) tx p r, (s.request tx p r).store = s.store := by
    intro s tx p r
    unfold State.request State.spawn
    split <;> rfl
  cases op with
  | recv acc =>
    simp only [touches] at ht
    simp only [State.step]
    split
    · split
      · rfl
      · rename_i tx cmd rest hq
        cases cmd with
        | register j v =>
          have hk : k ≠ j := by
            rintro rfl
            exact ht ⟨tx, rest, Or.inl ⟨v, hq⟩⟩
          simp only [State.call]
          split
          · rfl
          · split
            · simp only [State.answer]; rw [Map.find_put, if_neg hk]
            · simp only [State.putQuery]; rw [Map.find_put, if_neg hk]
        | unregister j =>
          have hk : k ≠ j := by
            rintro rfl
            exact ht ⟨tx, rest, Or.inr hq⟩
          simp only [State.call]
          split
          · simp only [State.answer]; exact removeRecord_other (s := { s with queue := rest }) h hk
          · split
            · rfl
            · simp only [State.putQuery]
              rw [removeRecord_other (Map.ok_put h _ _) hk, Map.find_put, if_neg hk]
        | lookupLocal k =>
          simp only [State.call]
          split
          · rfl
          · split <;> rfl
        | listenOn res => rfl
        | dial res => rfl
        | lookup k => rfl
        | ask p r => simp only [State.call, hr]
        | tell p r => simp only [State.call, hr]
        | link id rid sib srid => simp only [State.call, hr]
        | unlink id sib srid => simp only [State.call, hr]
        | signalLinkDied d n rid reason => simp only [State.call, hr]
      · rename_i n rest hq
        cases n <;> rfl
    · rfl
  | event e =>
    simp only [State.step]
    split
    · cases e <;> simp only [State.event] <;> (try split) <;> rfl
    · rfl
  | taskDone t o =>
    simp only [State.step, State.taskDone]
    split
    · rfl
    · split <;> (try split) <;> rfl
  | setPeers n => rfl
  | storeRemote j r =>
    simp only [touches] at ht
    simp only [State.step]
    split
    · rw [Map.find_put, if_neg (Ne.symm ht)]
    · rw [Map.find_del h, if_neg (Ne.symm ht)]
  | send cmd => simp only [State.step]; split <;> rfl
  | addPeerAddress => simp only [State.step]; split <;> rfl
  | disconnectPeerId => simp only [State.step]; split <;> rfl

/-- No step of `ops` after `pre` touches `k`. -/
def Quiet (c : PeerCodec P) (own : P) (pre : List (Op P)) (k : Key) (ops : List (Op P)) : Prop :=
  ∀ a op b, ops = a ++ op :: b → ¬ touches (run c own (pre ++ a)) k op

theorem quiet_find (c : PeerCodec P) (own : P) (k : Key) (ops : List (Op P)) : ∀ pre, Quiet c own pre k ops →
    (run c own (pre ++ ops)).store.find k = (run c own pre).store.find k := by
  induction ops with
  | nil => intro pre _; simp
  | cons op ops ih =>
    intro pre hq
    have h1 := hq [] op ops rfl
    rw [List.append_nil] at h1
    have h2 : Quiet c own (pre ++ [op]) k ops := by
      intro a o b he
      have := hq (op :: a) o b (by rw [he]; rfl)
      simpa using this
    have := ih (pre ++ [op]) h2
    rw [List.append_assoc] at this
    rw [show pre ++ op :: ops = pre ++ ([op] ++ ops) by simp, this, run_snoc,
      store_step c op (store_ok_run c own pre) k h1]

/-- What a local lookup answers when the store has a record of an actor, and when it has nothing. -/
theorem lookupLocal_answer (c : PeerCodec P) (own : P) (pre : List (Op P)) (acc : Bool) (t : Nat) (k : Key)
    (rest : List (Item P)) (ha : (run c own pre).alive = true)
    (hq : (run c own pre).queue = .call t (.lookupLocal k) :: rest) :
    ((run c own pre).store.find k = none →
      (run c own (pre ++ [.recv acc])).answers = (run c own pre).answers ++ [(t, .registration none)]) ∧
    (∀ r reg, (run c own pre).store.find k = some r → Registration.fromBytes c r.value = .val reg →
      (run c own (pre ++ [.recv acc])).answers = (run c own pre).answers ++ [(t, .registration (some reg))]) := by
  constructor
  · intro hf
    rw [run_snoc]
    simp only [State.step, ha, if_true, hq, State.call, hf, State.answer]
  · intro r reg hf hr
    rw [run_snoc]
    simp only [State.step, ha, if_true, hq, State.call, hf, hr, State.answer]

/-- **C58** (a registered name is found): once the swarm task has taken the registration of an actor under `k`, a local
lookup of `k` is answered with that actor's id and type, whatever happens in between, as long as it does not concern the
record under `k`. -/
theorem registered_name_is_found (c : PeerCodec P) (hc : Short c) (own : P) (pre mid : List (Op P)) (acc' : Bool)
    (t u : Nat) (k : Key) (r : Registration P) (rest rest' : List (Item P)) (ha : (run c own pre).alive = true)
    (hq : (run c own pre).queue = .call t (.register k (r.intoBytes c (some own))) :: rest)
    (hquiet : Quiet c own (pre ++ [.recv true]) k mid)
    (ha' : (run c own (pre ++ [.recv true] ++ mid)).alive = true)
    (hq' : (run c own (pre ++ [.recv true] ++ mid)).queue = .call u (.lookupLocal k) :: rest') :
    ∃ id, (run c own (pre ++ [.recv true] ++ mid ++ [.recv acc'])).answers =
        (run c own (pre ++ [.recv true] ++ mid)).answers ++ [(u, .registration (some ⟨id, r.remoteId⟩))] ∧
      id.seq = r.id.seq ∧ ∀ w, id.peer.get w = r.id.peer.get (some own) := by
  obtain ⟨id, h1, h2, h3⟩ := record_roundtrip c hc own r
  have hf : ∃ pub, (run c own (pre ++ [.recv true])).store.find k = some ⟨r.intoBytes c (some own), pub⟩ := by
    rw [run_snoc]
    simp only [State.step, ha, if_true, hq, State.call]
    rw [if_neg (by simp)]
    split
    · exact ⟨none, by simp [State.answer, Map.find_put]⟩
    · exact ⟨some (run c own pre).own, by simp [State.putQuery, Map.find_put]⟩
  obtain ⟨pub, hf⟩ := hf
  rw [← quiet_find c own k mid _ hquiet] at hf
  exact ⟨id, (lookupLocal_answer c own _ acc' u k rest' ha' hq').2 _ _ hf h1, h2, h3⟩

/-- The record of actor 7 of node 1, whose type has the empty remote id. -/
example : Registration.intoBytes Wire.byteCodec (some 1) ⟨⟨7, .peerId 1⟩, ""⟩ = [1, 7, 0, 0, 0, 0, 0, 0, 0, 1] ∧
    (run Wire.byteCodec 1 [.send (.register "a" [1, 7, 0, 0, 0, 0, 0, 0, 0, 1]), .send (.lookup "b"),
      .send (.lookupLocal "a"), .recv true, .recv true, .recv true]).answers =
    [(0, .put (.ok ())), (2, .registration (some ⟨⟨7, .peerId 1⟩, ""⟩))] := ⟨rfl, rfl⟩

/-- What lies between is quiet. -/
example : Quiet Wire.byteCodec 1 [.send (.register "a" [1, 7, 0, 0, 0, 0, 0, 0, 0, 1]), .recv true] "a"
    [.send (.lookup "b"), .send (.lookupLocal "a"), .recv true] := by
  intro a op b h
  match a, h with
  | [], h => cases h; exact id
  | [_], h => cases h; exact id
  | [_, _], h =>
    cases h
    rintro ⟨t, rest, ⟨v, h⟩ | h⟩ <;>
      exact absurd (congrArg List.head? h) (by simp [run, State.step, State.call, State.answer])
  | _ :: _ :: _ :: a, h => cases a <;> cases h

/-- **C58** (unregistering, on a node with peers): once the swarm task has taken the unregistration of `k` on a node that
has peers, a local lookup of `k` finds nothing. -/
theorem unregistered_name_is_gone_partial (c : PeerCodec P) (own : P) (pre mid : List (Op P)) (acc' : Bool)
    (t u : Nat) (k : Key) (rest rest' : List (Item P)) (ha : (run c own pre).alive = true)
    (hq : (run c own pre).queue = .call t (.unregister k) :: rest) (hp : (run c own pre).peers ≠ 0)
    (hquiet : Quiet c own (pre ++ [.recv true]) k mid)
    (ha' : (run c own (pre ++ [.recv true] ++ mid)).alive = true)
    (hq' : (run c own (pre ++ [.recv true] ++ mid)).queue = .call u (.lookupLocal k) :: rest') :
    (run c own (pre ++ [.recv true] ++ mid ++ [.recv acc'])).answers =
      (run c own (pre ++ [.recv true] ++ mid)).answers ++ [(u, .registration none)] := by
  have hst := store_ok_run c own pre
  have hf : (run c own (pre ++ [.recv true])).store.find k = none := by
    rw [run_snoc]
    simp only [State.step, ha, if_true, hq, State.call, if_neg hp]
    rw [if_neg (by simp)]
    simp only [State.putQuery, State.removeRecord, Map.find_put, if_true]
    rw [Map.find_del (Map.ok_put hst _ _), if_pos rfl]
  rw [← quiet_find c own k mid _ hquiet] at hf
  exact (lookupLocal_answer c own _ acc' u k rest' ha' hq').1 hf

/-- With a peer, register, unregister, look up. -/
example : (run Wire.byteCodec 1 [.setPeers 1, .send (.register "a" [1, 7, 0, 0, 0, 0, 0, 0, 0, 1]),
      .send (.unregister "a"), .send (.lookupLocal "a"), .recv true]).queue =
      [.call 1 (.unregister "a"), .call 2 (.lookupLocal "a")] ∧
    (run Wire.byteCodec 1 [.setPeers 1, .send (.register "a" [1, 7, 0, 0, 0, 0, 0, 0, 0, 1]),
      .send (.unregister "a"), .send (.lookupLocal "a"), .recv true]).peers ≠ 0 ∧
    (run Wire.byteCodec 1 [.setPeers 1, .send (.register "a" [1, 7, 0, 0, 0, 0, 0, 0, 0, 1]),
      .send (.unregister "a"), .send (.lookupLocal "a"), .recv true, .recv true, .recv true]).answers =
    [(2, .registration none)] ∧ (∀ pre, Quiet Wire.byteCodec 1 pre "a" []) :=
  ⟨rfl, by decide, rfl, fun _ a _ _ h => by cases a <;> cases h⟩

theorem recv_unregister {s : State P} (c : PeerCodec P) (acc : Bool) {t : Nat} {k : Key} {rest : List (Item P)}
    (ha : s.alive = true) (hq : s.queue = .call t (.unregister k) :: rest) (hp : s.peers = 0) {v : Bytes}
    (hf : s.store.find k = some ⟨v, none⟩) :
    (s.step c (.recv acc)).answers = s.answers ++ [(t, .put (.ok ()))] ∧ (s.step c (.recv acc)).store = s.store := by
  simp only [State.step, ha, if_true, hq, State.call, if_pos hp, State.removeRecord, hf]
  rw [if_neg (by simp)]
  exact ⟨rfl, rfl⟩

theorem recv_register {s : State P} (c : PeerCodec P) {t : Nat} {k : Key} {v : Bytes} {rest : List (Item P)}
    (ha : s.alive = true) (hq : s.queue = .call t (.register k v) :: rest) (hp : s.peers = 0) :
    (s.step c (.recv true)).answers = s.answers ++ [(t, .put (.ok ()))] ∧
      (s.step c (.recv true)).store = s.store.put k ⟨v, none⟩ := by
  simp only [State.step, ha, if_true, hq, State.call]
  rw [if_neg (by simp), if_pos hp]
  exact ⟨rfl, rfl⟩

/-- **C58** (negation, unregistering on a node without peers): a name registered while the node had no peers cannot be
unregistered while it has none. The caller of `unregister` is told it has worked, and the name still finds the actor. -/
theorem unregister_without_peers_does_nothing (c : PeerCodec P) (hc : Short c) (own : P) (pre mid mid' : List (Op P))
    (acc acc' : Bool) (t t' u : Nat) (k : Key) (r : Registration P) (rest rest' rest'' : List (Item P))
    (ha : (run c own pre).alive = true) (hp : (run c own pre).peers = 0)
    (hq : (run c own pre).queue = .call t (.register k (r.intoBytes c (some own))) :: rest)
    (hquiet : Quiet c own (pre ++ [.recv true]) k mid)
    (ha' : (run c own (pre ++ [.recv true] ++ mid)).alive = true) (hp' : (run c own (pre ++ [.recv true] ++ mid)).peers = 0)
    (hq' : (run c own (pre ++ [.recv true] ++ mid)).queue = .call t' (.unregister k) :: rest')
    (hquiet' : Quiet c own (pre ++ [.recv true] ++ mid ++ [.recv acc]) k mid')
    (ha'' : (run c own (pre ++ [.recv true] ++ mid ++ [.recv acc] ++ mid')).alive = true)
    (hq'' : (run c own (pre ++ [.recv true] ++ mid ++ [.recv acc] ++ mid')).queue = .call u (.lookupLocal k) :: rest'') :
    (t', .put (.ok ())) ∈ (run c own (pre ++ [.recv true] ++ mid ++ [.recv acc])).answers ∧
    ∃ id, (run c own (pre ++ [.recv true] ++ mid ++ [.recv acc] ++ mid' ++ [.recv acc'])).answers =
        (run c own (pre ++ [.recv true] ++ mid ++ [.recv acc] ++ mid')).answers ++
          [(u, .registration (some ⟨id, r.remoteId⟩))] ∧
      id.seq = r.id.seq ∧ ∀ w, id.peer.get w = r.id.peer.get (some own) := by
  obtain ⟨id, h1, h2, h3⟩ := record_roundtrip c hc own r
  have hf : (run c own (pre ++ [.recv true])).store.find k = some ⟨r.intoBytes c (some own), none⟩ := by
    rw [run_snoc]
    simp only [State.step, ha, if_true, hq, State.call]
    rw [if_neg (by simp), if_pos hp]
    simp [State.answer, Map.find_put]
  rw [← quiet_find c own k mid _ hquiet] at hf
  have hstep := recv_unregister c acc ha' hq' hp' hf
  rw [← run_snoc] at hstep
  have hf2 := hf
  rw [← hstep.2, ← quiet_find c own k mid' _ hquiet'] at hf2
  refine ⟨by rw [hstep.1]; simp, id, ?_, h2, h3⟩
  exact (lookupLocal_answer c own _ acc' u k rest'' ha'' hq'').2 _ _ hf2 h1

/-- It happens: register, unregister, look up. -/
example : (run Wire.byteCodec 1 [.send (.register "a" [1, 7, 0, 0, 0, 0, 0, 0, 0, 1]), .send (.unregister "a"),
    .send (.lookupLocal "a"), .recv true, .recv true, .recv true]).answers =
    [(0, .put (.ok ())), (1, .put (.ok ())), (2, .registration (some ⟨⟨7, .peerId 1⟩, ""⟩))] := by
  rfl

/-- **C58** (negation, a name belongs to one actor): registering another actor under a name that is taken succeeds and
takes the name away: the first actor is no longer found under it. -/
theorem register_takes_over (c : PeerCodec P) (hc : Short c) (own : P) (pre mid : List (Op P)) (t t' : Nat)
    (k : Key) (r r' : Registration P) (rest rest' : List (Item P)) (ha : (run c own pre).alive = true)
    (hq : (run c own pre).queue = .call t (.register k (r.intoBytes c (some own))) :: rest)
    (ha' : (run c own (pre ++ [.recv true] ++ mid)).alive = true)
    (hp' : (run c own (pre ++ [.recv true] ++ mid)).peers = 0)
    (hquiet : Quiet c own (pre ++ [.recv true]) k mid)
    (hq' : (run c own (pre ++ [.recv true] ++ mid)).queue = .call t' (.register k (r'.intoBytes c (some own))) :: rest')
    (hne : ActorId.eq (some own) r.id r'.id = false) :
    (t', .put (.ok ())) ∈ (run c own (pre ++ [.recv true] ++ mid ++ [.recv true])).answers ∧
    (∃ pub, (run c own (pre ++ [.recv true] ++ mid)).store.find k = some ⟨r.intoBytes c (some own), pub⟩) ∧
    (∃ pub, (run c own (pre ++ [.recv true] ++ mid ++ [.recv true])).store.find k =
      some ⟨r'.intoBytes c (some own), pub⟩) ∧
    r.intoBytes c (some own) ≠ r'.intoBytes c (some own) := by
  have hf : ∃ pub, (run c own (pre ++ [.recv true])).store.find k = some ⟨r.intoBytes c (some own), pub⟩ := by
    rw [run_snoc]
    simp only [State.step, ha, if_true, hq, State.call]
    rw [if_neg (by simp)]
    split
    · exact ⟨none, by simp [State.answer, Map.find_put]⟩
    · exact ⟨some (run c own pre).own, by simp [State.putQuery, Map.find_put]⟩
  rw [← quiet_find c own k mid _ hquiet] at hf
  have hstep := recv_register c ha' hq' hp'
  rw [← run_snoc] at hstep
  refine ⟨by rw [hstep.1]; simp, hf, ⟨none, by rw [hstep.2]; simp [Map.find_put]⟩, fun he => ?_⟩
  have := (record_injective c hc own r r' he).1
  rw [hne] at this
  cases this

example : (run Wire.byteCodec 1 [.send (.register "a" [1, 7, 0, 0, 0, 0, 0, 0, 0, 1]),
    .send (.register "a" [1, 8, 0, 0, 0, 0, 0, 0, 0, 1]), .send (.lookupLocal "a"), .recv true, .recv true,
    .recv true]).answers =
    [(0, .put (.ok ())), (1, .put (.ok ())), (2, .registration (some ⟨⟨8, .peerId 1⟩, ""⟩))] := by
  rfl

end Verif.Swarm
