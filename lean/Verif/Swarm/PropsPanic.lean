import Verif.Swarm.Props
import Verif.Swarm.PropsRecord

/-
Property theorems about what records in the local store do to a node (last clause of C49), and about names (C58).
-/

namespace Verif.Swarm

open Verif.ActorId
open Verif.Request (Out)
open Verif.Remote (Bytes Req Resp)

variable {P : Type} [DecidableEq P]

theorem dead_stays {s : State P} (c : PeerCodec P) (ops : List (Op P)) (h : s.alive = false) :
    (ops.foldl (State.step c) s).alive = false := by
  cases ha : (ops.foldl (State.step c) s).alive with
  | false => rfl
  | true => rw [alive_foldl ha] at h; cases h

/-- When the swarm task is dead, every command sent is a panic of its sender. -/
theorem dead_send {s : State P} (c : PeerCodec P) (h : s.alive = false) (cmd : Cmd P) :
    s.nextTx ∈ (s.step c (.send cmd)).dropped := by
  simp [State.step, h]

/-- **C49** (negation of the last clause): a local lookup of a name under which the local store holds a record that does
not decode — the empty record of a removed registration, or whatever another node has stored here — brings the swarm task
down. From then on it is dead for good; the caller, and everybody whose request, lookup or registration was under way, or
still in the command channel, panics; and so does everybody who sends a command later. -/
theorem bad_record_kills_swarm (c : PeerCodec P) (own : P) (pre post : List (Op P)) (acc : Bool) (t : Nat) (k : Key)
    (rest : List (Item P)) (rec : Stored P) (ha : (run c own pre).alive = true)
    (hq : (run c own pre).queue = .call t (.lookupLocal k) :: rest) (hf : (run c own pre).store.find k = some rec)
    (hb : Registration.fromBytes c rec.value = .panic) :
    let s0 := run c own pre
    let s := run c own (pre ++ .recv acc :: post)
    s.alive = false ∧ (∀ t' : Nat, (t' = t ∨ t' ∈ rest.filterMap Item.tx ∨ t' ∈ s0.gets.map (·.2) ∨
      t' ∈ s0.puts.map (·.2) ∨ t' ∈ s0.reqs.map (·.2)) → t' ∈ s.dropped ∧ answersOf s t' = []) ∧
      (∀ t', s0.nextTx ≤ t' → t' < s.nextTx → t' ∈ s.dropped) := by
  dsimp only
  rw [run_split]
  have hinv := inv_run c own pre
  have hinv1 := inv_step hinv c (.recv acc)
  have hstep : (run c own pre).step c (.recv acc) = { run c own pre with queue := rest }.die t := by
    simp only [State.step, ha, if_true, hq, State.call, hf, hb]
  refine ⟨dead_stays c post (by rw [hstep]; rfl), fun t' ht' => ?_, ?_⟩
  · have : t' ∈ ((run c own pre).step c (.recv acc)).dropped := by
      rw [hstep]
      simp only [State.die, List.mem_append, List.mem_cons]
      rcases ht' with h | h | h | h | h <;> simp [h]
    exact ⟨(dropped_stays hinv1 c post this).2, (dropped_stays hinv1 c post this).1⟩
  · have hn : ((run c own pre).step c (.recv acc)).nextTx = (run c own pre).nextTx := by rw [hstep]; rfl
    have hd : ((run c own pre).step c (.recv acc)).alive = false := by rw [hstep]; rfl
    rw [← hn]
    generalize (run c own pre).step c (.recv acc) = s1 at *
    clear hstep hn
    induction post generalizing s1 with
    | nil => intro t' h1 h2; exact absurd h2 (by simpa using h1)
    | cons op post ih =>
      intro t' h1 h2
      rw [List.foldl_cons] at h2 ⊢
      have hd' : (s1.step c op).alive = false := dead_stays c [op] hd
      by_cases hsend : ∃ cmd, op = .send cmd
      · obtain ⟨cmd, rfl⟩ := hsend
        by_cases he : t' = s1.nextTx
        · subst he
          exact (dropped_stays (inv_step hinv1 c _) c post (dead_send c hd cmd)).2
        · refine ih _ (inv_step hinv1 c _) hd' t' ?_ h2
          simp only [State.step, hd]
          simp
          omega
      · have hsame : (s1.step c op).nextTx = s1.nextTx := by
          cases op with
          | send cmd => exact absurd ⟨cmd, rfl⟩ hsend
          | recv acc => simp [State.step, hd]
          | event e => simp [State.step, hd]
          | taskDone t o =>
            simp only [State.step, State.taskDone]
            split
            · rfl
            · split <;> (try split) <;> rfl
          | setPeers n => rfl
          | storeRemote k r => simp only [State.step]; split <;> rfl
          | addPeerAddress => simp [State.step, hd]
          | disconnectPeerId => simp [State.step, hd]
        exact ih _ (inv_step hinv1 c _) hd' t' (by rw [hsame]; exact h1) h2

/-- It happens: node 2 unregisters "a" and so stores the empty record at node 1, where somebody looks "a" up locally while
caller 0 waits for the answer to a lookup; caller 2 comes later. -/
example : (run Wire.byteCodec 1 [.setPeers 1, .send (.lookup "b"), .recv true, .storeRemote "a" (some ⟨[], some 2⟩),
    .send (.lookupLocal "a"), .recv true, .send (.lookupLocal "b")]).dropped = [1, 0, 2] := by
  rfl

/-- **C49** (negation of the last clause): so does a registration that the local store refuses — because the value is too
large, or the store is full — and an unregistration that it refuses on a node with peers. -/
theorem refused_record_kills_swarm (c : PeerCodec P) (own : P) (pre post : List (Op P)) (t : Nat) (cmd : Cmd P)
    (rest : List (Item P)) (ha : (run c own pre).alive = true) (hq : (run c own pre).queue = .call t cmd :: rest)
    (hc : (∃ k v, cmd = .register k v) ∨ ((∃ k, cmd = .unregister k) ∧ (run c own pre).peers ≠ 0)) :
    let s := run c own (pre ++ .recv false :: post)
    s.alive = false ∧ t ∈ s.dropped ∧ answersOf s t = [] := by
  dsimp only
  rw [run_split]
  have hinv1 := inv_step (inv_run c own pre) c (.recv false)
  have hstep : (run c own pre).step c (.recv false) = { run c own pre with queue := rest }.die t := by
    simp only [State.step, ha, if_true, hq]
    rcases hc with ⟨k, v, rfl⟩ | ⟨⟨k, rfl⟩, hp⟩
    · rfl
    · simp only [State.call, if_neg hp]; rfl
  have : t ∈ ((run c own pre).step c (.recv false)).dropped := by
    rw [hstep]; simp [State.die]
  exact ⟨dead_stays c post (by rw [hstep]; rfl), (dropped_stays hinv1 c post this).2,
    (dropped_stays hinv1 c post this).1⟩

example : (run Wire.byteCodec 1 [.send (.register "a" [1]), .recv false]).alive = false := rfl

/-- Every record in the local store decodes. -/
def StoreOk (c : PeerCodec P) (s : State P) : Prop :=
  ∀ k r, s.store.find k = some r → ∃ reg, Registration.fromBytes c r.value = .val reg

/-- The steps that put only records of actors into the local store, and are not refused by it: registrations carry the
record of an actor, other nodes store only such records here, the store has room. -/
def Op.clean (c : PeerCodec P) : Op P → Prop
  | .send (.register _ v) => ∃ reg, Registration.fromBytes c v = .val reg
  | .storeRemote _ (some r) => ∃ reg, Registration.fromBytes c r.value = .val reg
  | .recv acc => acc = true
  | _ => True

/-- The registrations in the command channel carry records of actors. -/
def QueueOk (c : PeerCodec P) (s : State P) : Prop :=
  ∀ t k v, Item.call t (.register k v) ∈ s.queue → ∃ reg, Registration.fromBytes c v = .val reg

theorem clean_step {s : State P} (c : PeerCodec P) (hst : s.store.Ok) (hs : StoreOk c s) (hq : QueueOk c s)
    (ha : s.alive = true) (op : Op P) (ho : op.clean c) :
    (s.step c op).store.Ok ∧ StoreOk c (s.step c op) ∧ QueueOk c (s.step c op) ∧ (s.step c op).alive = true := by
  have hstore : ∀ k v pub, (∃ reg, Registration.fromBytes c v = .val reg) →
      ∀ j r, (s.store.put k ⟨v, pub⟩ : Map Key (Stored P)).find j = some r →
        ∃ reg, Registration.fromBytes c r.value = .val reg := by
    intro k v pub hv j r hj
    rw [Map.find_put] at hj
    split at hj
    · cases hj; exact hv
    · exact hs j r hj
  have hdel : ∀ k j r, (s.store.del k).find j = some r → ∃ reg, Registration.fromBytes c r.value = .val reg := by
    intro k j r hj
    rw [Map.find_del hst] at hj
    split at hj
    · cases hj
    · exact hs j r hj
  cases op with
  | send cmd =>
    simp only [State.step]
    rw [if_pos ha]
    refine ⟨hst, hs, fun t k v hm => ?_, ha⟩
    rcases List.mem_append.mp hm with h | h
    · exact hq t k v h
    · simp only [List.mem_singleton, Item.call.injEq] at h
      obtain ⟨_, rfl⟩ := h
      exact ho
  | addPeerAddress =>
    simp only [State.step]
    rw [if_pos ha]
    refine ⟨hst, hs, fun t k v hm => ?_, ha⟩
    rcases List.mem_append.mp hm with h | h
    · exact hq t k v h
    · simp at h
  | disconnectPeerId =>
    simp only [State.step]
    rw [if_pos ha]
    refine ⟨hst, hs, fun t k v hm => ?_, ha⟩
    rcases List.mem_append.mp hm with h | h
    · exact hq t k v h
    · simp at h
  | recv acc =>
    simp only [Op.clean] at ho
    subst ho
    simp only [State.step]
    rw [if_pos ha]
    split
    · exact ⟨hst, hs, hq, ha⟩
    · rename_i tx cmd rest hqe
      have hrest : QueueOk c { s with queue := rest } := fun t k v hm => hq t k v (by rw [hqe]; exact List.mem_cons_of_mem _ hm)
      have hreq : ∀ p r, ({ s with queue := rest }.request tx p r).store.Ok ∧
          StoreOk c ({ s with queue := rest }.request tx p r) ∧ QueueOk c ({ s with queue := rest }.request tx p r) ∧
          ({ s with queue := rest }.request tx p r).alive = true := by
        intro p r
        unfold State.request State.spawn
        split <;> exact ⟨hst, hs, hrest, ha⟩
      cases cmd with
      | listenOn res => exact ⟨hst, hs, hrest, ha⟩
      | dial res => exact ⟨hst, hs, hrest, ha⟩
      | lookup k => exact ⟨hst, hs, hrest, ha⟩
      | lookupLocal k =>
        simp only [State.call]
        split
        · exact ⟨hst, hs, hrest, ha⟩
        · rename_i r hr
          obtain ⟨reg, hreg⟩ := hs k r hr
          rw [hreg]
          exact ⟨hst, hs, hrest, ha⟩
      | register k v =>
        have hv := hq tx k v (by rw [hqe]; exact List.mem_cons_self)
        simp only [State.call]
        rw [if_neg (by simp)]
        split
        · exact ⟨Map.ok_put hst _ _, fun j r hj => hstore k v _ hv j r hj, hrest, ha⟩
        · exact ⟨Map.ok_put hst _ _, fun j r hj => hstore k v _ hv j r hj, hrest, ha⟩
      | unregister k =>
        simp only [State.call]
        split
        · unfold State.removeRecord
          split
          · split
            · exact ⟨Map.ok_del hst k, fun j r hj => hdel k j r hj, hrest, ha⟩
            · exact ⟨hst, hs, hrest, ha⟩
          · exact ⟨hst, hs, hrest, ha⟩
        · rw [if_neg (by simp)]
          unfold State.removeRecord
          simp only [Map.find_put, if_true]
          refine ⟨Map.ok_del (Map.ok_put hst _ _) k, fun j r hj => ?_, hrest, ha⟩
          simp only [State.putQuery] at hj
          rw [Map.find_del (Map.ok_put hst _ _), Map.find_put] at hj
          split at hj
          · cases hj
          · exact hs j r hj
      | ask p r => exact hreq _ _
      | tell p r => exact hreq _ _
      | link id rid sib srid => exact hreq _ _
      | unlink id sib srid => exact hreq _ _
      | signalLinkDied d n rid reason => exact hreq _ _
    · rename_i n rest hqe
      have hrest : QueueOk c { s with queue := rest } := fun t k v hm => hq t k v (by rw [hqe]; exact List.mem_cons_of_mem _ hm)
      cases n <;> exact ⟨hst, hs, hrest, ha⟩
  | event e =>
    simp only [State.step]
    rw [if_pos ha]
    cases e <;> simp only [State.event] <;> (try split) <;> exact ⟨hst, hs, hq, ha⟩
  | taskDone t o =>
    simp only [State.step, State.taskDone]
    split
    · exact ⟨hst, hs, hq, ha⟩
    · split
      · exact ⟨hst, hs, hq, ha⟩
      · exact ⟨hst, hs, hq, ha⟩
      · rw [if_pos ha]
        refine ⟨hst, hs, fun t k v hm => ?_, ha⟩
        rcases List.mem_append.mp hm with h | h
        · exact hq t k v h
        · simp at h
      · exact ⟨hst, hs, hq, ha⟩
  | setPeers n => exact ⟨hst, hs, hq, ha⟩
  | storeRemote k r =>
    simp only [State.step]
    cases r with
    | none => exact ⟨Map.ok_del hst k, fun j r hj => hdel k j r hj, hq, ha⟩
    | some r => exact ⟨Map.ok_put hst _ _, fun j r' hj => hstore k r.value r.publisher ho j r' hj, hq, ha⟩

/-- **C49** (last clause, as far as it is true): if other nodes store only records of actors here — never the empty record
of a removed registration — and the local store always has room, the swarm task never dies, whatever is registered,
unregistered, looked up and asked. (Missing: the hypothesis fails as soon as a peer unregisters a name;
`bad_record_kills_swarm`.) -/
theorem swarm_survives_partial (c : PeerCodec P) (own : P) (ops : List (Op P)) (h : ∀ op ∈ ops, op.clean c) :
    (run c own ops).alive = true := by
  have : ∀ (ops : List (Op P)) (s : State P), (∀ op ∈ ops, op.clean c) → s.store.Ok → StoreOk c s → QueueOk c s →
      s.alive = true → (ops.foldl (State.step c) s).alive = true := by
    intro ops
    induction ops with
    | nil => intro s _ _ _ _ ha; exact ha
    | cons op ops ih =>
      intro s ho h1 h2 h3 h4
      obtain ⟨k1, k2, k3, k4⟩ := clean_step c h1 h2 h3 h4 op (ho op List.mem_cons_self)
      exact ih _ (fun o hm => ho o (List.mem_cons_of_mem _ hm)) k1 k2 k3 k4
  refine this ops _ h Map.ok_nil ?_ ?_ rfl
  · intro k r hf; cases hf
  · intro t k v hm; cases hm

/-- A run of clean steps: a registration here, a record of an actor of another node, and lookups of both. -/
example : ∀ op ∈ ([.send (.register "a" [1, 7, 0, 0, 0, 0, 0, 0, 0, 1]), .recv true,
    .storeRemote "b" (some ⟨[1, 8, 0, 0, 0, 0, 0, 0, 0, 2], some 2⟩), .send (.lookupLocal "b"), .recv true,
    .send (.unregister "a"), .recv true] : List (Op Byte)), op.clean Wire.byteCodec := by
  simp only [List.mem_cons, List.not_mem_nil, or_false]
  rintro op (rfl | rfl | rfl | rfl | rfl | rfl | rfl) <;> first | exact rfl | exact trivial | exact ⟨_, rfl⟩

/-- What `register` puts into the channel is the record of an actor, so it is clean. -/
theorem register_clean (c : PeerCodec P) (hc : Short c) (own : P) (k : Key) (r : Registration P) :
    (Op.send (.register k (r.intoBytes c (some own)))).clean c := by
  obtain ⟨id, h, _⟩ := record_roundtrip c hc own r
  exact ⟨_, h⟩

end Verif.Swarm
