import Verif.Swarm.PropsPanic

/-
C49, exactly: what brings the swarm task down.
-/

set_option linter.unusedSimpArgs false
set_option linter.unusedSectionVars false

namespace Verif.Swarm

open Verif.ActorId
open Verif.Remote (Bytes)

variable {P : Type} [DecidableEq P]

/-- The bytes are those of a record: the length of the peer id, a sequence number, the peer id, a name. (Specification.) -/
def IsRecord (c : PeerCodec P) (bs : Bytes) : Prop :=
  ∃ n seq peer name, bs = n :: (seq ++ peer ++ name) ∧ seq.length = 8 ∧ peer.length = Fin.val n ∧
    (peer ≠ [] → (c.fromBytes peer).isSome = true) ∧ (fromUtf8 name).isSome = true

/-- The swarm task takes the next command, and it is: to look up locally a name under which the store holds something that
is no record; or to register a name, or to unregister one on a node with peers, which the store refuses. (Specification.) -/
def Deadly (c : PeerCodec P) (s : State P) : Op P → Prop
  | .recv acc => ∃ t cmd rest, s.queue = .call t cmd :: rest ∧
      ((∃ k rec, cmd = .lookupLocal k ∧ s.store.find k = some rec ∧ ¬ IsRecord c rec.value) ∨
       (acc = false ∧ ((∃ k v, cmd = .register k v) ∨ ((∃ k, cmd = .unregister k) ∧ s.peers ≠ 0))))
  | _ => False

theorem panic_iff (c : PeerCodec P) (bs : Bytes) : Registration.fromBytes c bs = .panic ↔ ¬ IsRecord c bs := by
  rw [IsRecord, ← fromBytes_ok_iff]
  cases Registration.fromBytes c bs <;> simp

theorem request_alive (s : State P) (tx : Nat) (p : P) (r : WireReq P) : (s.request tx p r).alive = s.alive := by
  unfold State.request; split <;> rfl

theorem deadly_step (c : PeerCodec P) (s : State P) (op : Op P) (ha : s.alive = true) :
    (s.step c op).alive = false ↔ Deadly c s op := by
  cases op with
  | send cmd => simp [State.step, ha, Deadly]
  | addPeerAddress => simp [State.step, ha, Deadly]
  | disconnectPeerId => simp [State.step, ha, Deadly]
  | setPeers n => simp [State.step, ha, Deadly]
  | storeRemote k r => cases r <;> simp [State.step, ha, Deadly]
  | event e =>
    simp only [State.step, ha, if_true, Deadly, iff_false, Bool.not_eq_false]
    unfold State.event
    split <;> (try split) <;> first | exact ha | simp [State.answer, State.spawn, ha]
  | taskDone t o =>
    simp only [State.step, Deadly, iff_false, Bool.not_eq_false]
    unfold State.taskDone
    split
    · exact ha
    · dsimp only
      split <;> (try split) <;> first | exact ha | simp [State.answer, ha]
  | recv acc =>
    simp only [State.step, ha, if_true, Deadly]
    cases hq : s.queue with
    | nil => simp [ha]
    | cons i rest =>
      cases i with
      | note n =>
        simp only [List.cons.injEq, reduceCtorEq, false_and, exists_false, iff_false, Bool.not_eq_false]
        cases n <;> simp [State.notice, State.respond, ha]
      | call tx cmd =>
        have e : (∃ t cmd' rest', Item.call tx cmd :: rest = Item.call t cmd' :: rest' ∧
            ((∃ k rec, cmd' = .lookupLocal k ∧ s.store.find k = some rec ∧ ¬ IsRecord c rec.value) ∨
             (acc = false ∧ ((∃ k v, cmd' = .register k v) ∨ ((∃ k, cmd' = .unregister k) ∧ s.peers ≠ 0))))) ↔
            ((∃ k rec, cmd = .lookupLocal k ∧ s.store.find k = some rec ∧ ¬ IsRecord c rec.value) ∨
             (acc = false ∧ ((∃ k v, cmd = .register k v) ∨ ((∃ k, cmd = .unregister k) ∧ s.peers ≠ 0)))) := by
          constructor
          · rintro ⟨t, cmd', rest', h, h'⟩
            cases h
            exact h'
          · intro h; exact ⟨_, _, _, rfl, h⟩
        rw [e]
        cases cmd with
        | lookupLocal k =>
          simp only [State.call]
          cases hf : s.store.find k with
          | none => simp [State.answer, ha, hf]
          | some rec =>
            have hp := panic_iff c rec.value
            cases hb : Registration.fromBytes c rec.value with
            | panic =>
              have h := hp.mp hb
              simp only [hb, State.die, true_iff]
              exact .inl ⟨k, rec, rfl, hf, h⟩
            | val reg =>
              have h : IsRecord c rec.value := by
                refine Classical.byContradiction fun hn => ?_
                have := hp.mpr hn
                rw [hb] at this
                cases this
              simp [State.answer, ha, hf, h, hb]
        | register k v =>
          cases acc with
          | false => simp [State.call, State.die]
          | true => by_cases h0 : s.peers = 0 <;> simp [State.call, h0, State.answer, State.putQuery, ha]
        | unregister k =>
          by_cases h0 : s.peers = 0
          · simp [State.call, h0, State.answer, removeRecord_alive, ha]
          · cases acc with
            | false => simp [State.call, State.die, h0]
            | true => simp [State.call, h0, State.putQuery, removeRecord_alive, ha]
        | lookup k => simp [State.call, State.getQuery, ha]
        | listenOn r => simp [State.call, State.answer, ha]
        | dial r => simp [State.call, State.answer, ha]
        | ask p r => simp [State.call, request_alive, ha]
        | tell p r => simp [State.call, request_alive, ha]
        | link => simp [State.call, request_alive, ha]
        | unlink => simp [State.call, request_alive, ha]
        | signalLinkDied => simp [State.call, request_alive, ha]

/-- **C49** (last clause, exactly): the swarm task of a node is dead if and only if at some moment it took a command to look
up locally a name under which the store of the node held something that is no record — such as the empty record of a removed
registration — or to register a name, or to unregister one with peers connected, when the store refused the record. No other
command, no event, no answer, no task, no peer and no stored record brings it down. -/
theorem swarm_dead_iff (c : PeerCodec P) (own : P) (ops : List (Op P)) :
    (run c own ops).alive = false ↔ ∃ pre op post, ops = pre ++ op :: post ∧ (run c own pre).alive = true ∧
      Deadly c (run c own pre) op := by
  have key : ∀ (ops : List (Op P)) (s : State P), s.alive = true →
      ((ops.foldl (State.step c) s).alive = false ↔
        ∃ pre op post, ops = pre ++ op :: post ∧ (pre.foldl (State.step c) s).alive = true ∧
          Deadly c (pre.foldl (State.step c) s) op) := by
    intro ops
    induction ops with
    | nil => intro s ha; simp [ha]
    | cons op ops ih =>
      intro s ha
      cases h1 : (s.step c op).alive with
      | true =>
        rw [List.foldl_cons, ih _ h1]
        constructor
        · rintro ⟨pre, o, post, rfl, h2, h3⟩
          exact ⟨op :: pre, o, post, rfl, h2, h3⟩
        · rintro ⟨pre, o, post, he, h2, h3⟩
          cases pre with
          | nil =>
            cases he
            have := (deadly_step c s op ha).mpr h3
            rw [h1] at this
            cases this
          | cons x pre =>
            cases he
            exact ⟨pre, o, post, rfl, h2, h3⟩
      | false =>
        constructor
        · intro _
          exact ⟨[], op, ops, rfl, ha, (deadly_step c s op ha).mp h1⟩
        · intro _
          cases h2 : ((op :: ops).foldl (State.step c) s).alive with
          | false => rfl
          | true =>
            rw [List.foldl_cons] at h2
            rw [alive_foldl h2] at h1
            cases h1
  exact key ops _ rfl

/-- A name is looked up after another node has unregistered it; and after it has registered it again. -/
example :
    (run Wire.byteCodec 1 [.storeRemote "a" (some ⟨[], some 2⟩), .send (.lookupLocal "a"), .recv true]).alive = false ∧
    (run Wire.byteCodec 1 [.storeRemote "a" (some ⟨[], some 2⟩),
      .storeRemote "a" (some ⟨[1, 8, 0, 0, 0, 0, 0, 0, 0, 2], some 2⟩), .send (.lookupLocal "a"), .recv true]).alive = true :=
  ⟨rfl, rfl⟩

end Verif.Swarm
