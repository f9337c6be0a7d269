import Verif.Swarm.Model

/-
Invariants of the swarm task: every reply sender is in one place.
-/

namespace Verif.Map

variable {K V : Type} [DecidableEq K]

theorem put_of_none {m : Map K V} {k : K} (h : m.find k = none) (v : V) : m.put k v = m ++ [(k, v)] := by
  induction m with
  | nil => rfl
  | cons p rest ih =>
    obtain ⟨k', v'⟩ := p
    simp only [find] at h
    split at h
    · cases h
    · rename_i hk
      simp only [put, if_neg hk, List.cons_append, ih h]

theorem perm_del {m : Map K V} {k : K} {v : V} (h : m.find k = some v) : m.Perm ((k, v) :: m.del k) := by
  induction m with
  | nil => cases h
  | cons p rest ih =>
    obtain ⟨k', v'⟩ := p
    simp only [find] at h
    simp only [del]
    split at h
    · rename_i hk
      subst hk
      cases h
      rw [if_pos rfl]
    · rename_i hk
      rw [if_neg hk]
      exact ((ih h).cons _).trans (List.Perm.swap ..)

end Verif.Map

namespace Verif.Swarm

open Verif.ActorId
open Verif.Request (Out)
open Verif.Remote (Bytes Req Resp)

variable {P : Type} [DecidableEq P]

/-- The reply sender a task holds. -/
def Sink.tx : Sink → Option Nat
  | .reply t => some t
  | .channel _ => none

/-- All reply senders there are: waiting, or done with. -/
def State.all (s : State P) : List Nat :=
  s.queue.filterMap Item.tx ++ s.gets.map (·.2) ++ s.puts.map (·.2) ++ s.reqs.map (·.2) ++
    s.tasks.filterMap (fun p => p.2.sink.tx) ++ s.answers.map (·.1) ++ s.dropped

structure Inv (s : State P) : Prop where
  gets : s.gets.Ok
  puts : s.puts.Ok
  reqs : s.reqs.Ok
  tasks : s.tasks.Ok
  getsLt : ∀ q ∈ s.gets.keys, q < s.nextQuery
  putsLt : ∀ q ∈ s.puts.keys, q < s.nextQuery
  reqsLt : ∀ q ∈ s.reqs.keys, q < s.nextReq
  tasksLt : ∀ q ∈ s.tasks.keys, q < s.nextTask
  places : ∀ t, s.all.count t = if t < s.nextTx then 1 else 0
  dead : s.alive = false → s.queue = [] ∧ s.gets = [] ∧ s.puts = [] ∧ s.reqs = []

omit [DecidableEq P] in
theorem inv_init (own : P) : Inv ({ own := own } : State P) := by
  constructor <;> simp [Map.ok_nil, Map.keys, State.all]

theorem run_nil (c : PeerCodec P) (own : P) : run c own [] = { own := own } := rfl

theorem run_snoc (c : PeerCodec P) (own : P) (ops : List (Op P)) (op : Op P) :
    run c own (ops ++ [op]) = (run c own ops).step c op := by
  simp [run]

theorem run_append (c : PeerCodec P) (own : P) (ops ops' : List (Op P)) :
    run c own (ops ++ ops') = ops'.foldl (State.step c) (run c own ops) := by
  simp [run]

/-- Facts about `put` of a fresh key and `del` of a present one. -/
theorem fresh_find {V : Type} {m : Map Nat V} {n : Nat} (h : ∀ q ∈ m.keys, q < n) : m.find n = none := by
  rw [Map.find_none_iff]
  intro hm
  exact Nat.lt_irrefl _ (h n hm)

theorem put_keys_lt {V : Type} {m : Map Nat V} {n : Nat} (h : ∀ q ∈ m.keys, q < n) (v : V) :
    ∀ q ∈ (m.put n v).keys, q < n + 1 := by
  intro q hq
  rcases (Map.mem_keys_put m n q v).mp hq with h1 | h1
  · omega
  · have := h q h1; omega

theorem del_keys_lt {V : Type} {m : Map Nat V} {n : Nat} (h : ∀ q ∈ m.keys, q < n) (k : Nat) :
    ∀ q ∈ (m.del k).keys, q < n := fun q hq => h q (Map.mem_keys_del_of m k q hq)

/-- The state with a command taken from the queue but not dealt with: its reply sender `tx` is in nobody's hands. -/
structure Mid (s : State P) (tx : Nat) : Prop where
  gets : s.gets.Ok
  puts : s.puts.Ok
  reqs : s.reqs.Ok
  tasks : s.tasks.Ok
  getsLt : ∀ q ∈ s.gets.keys, q < s.nextQuery
  putsLt : ∀ q ∈ s.puts.keys, q < s.nextQuery
  reqsLt : ∀ q ∈ s.reqs.keys, q < s.nextReq
  tasksLt : ∀ q ∈ s.tasks.keys, q < s.nextTask
  places : ∀ t, s.all.count t + (if tx = t then 1 else 0) = if t < s.nextTx then 1 else 0
  dead : s.alive = false → s.queue = [] ∧ s.gets = [] ∧ s.puts = [] ∧ s.reqs = []

omit [DecidableEq P] in
theorem Mid.answer {s : State P} {tx : Nat} (h : Mid s tx) (a : Ans P) : Inv (s.answer tx a) := by
  refine ⟨h.gets, h.puts, h.reqs, h.tasks, h.getsLt, h.putsLt, h.reqsLt, h.tasksLt, fun t => ?_, h.dead⟩
  have := h.places t
  change _ = if t < s.nextTx then 1 else 0
  simp only [State.all, State.answer, List.count_append, List.map_append, List.map_cons, List.map_nil,
    List.count_cons, List.count_nil, beq_iff_eq] at this ⊢
  omega

omit [DecidableEq P] in
theorem Mid.drop {s : State P} {tx : Nat} (h : Mid s tx) : Inv { s with dropped := s.dropped ++ [tx] } := by
  refine ⟨h.gets, h.puts, h.reqs, h.tasks, h.getsLt, h.putsLt, h.reqsLt, h.tasksLt, fun t => ?_, h.dead⟩
  have := h.places t
  simp only [State.all, List.count_append, List.count_cons, List.count_nil, beq_iff_eq] at this ⊢
  omega

omit [DecidableEq P] in
theorem Mid.die {s : State P} {tx : Nat} (h : Mid s tx) : Inv (s.die tx) := by
  refine ⟨Map.ok_nil, Map.ok_nil, Map.ok_nil, h.tasks, ?_, ?_, ?_, h.tasksLt, fun t => ?_, fun _ => ⟨rfl, rfl, rfl, rfl⟩⟩
  · simp [State.die, Map.keys]
  · simp [State.die, Map.keys]
  · simp [State.die, Map.keys]
  · have := h.places t
    change _ = if t < s.nextTx then 1 else 0
    simp only [State.all, State.die, List.count_append, List.count_cons, List.count_nil, beq_iff_eq, List.map_nil,
      List.filterMap_nil] at this ⊢
    omega

omit [DecidableEq P] in
theorem Mid.spawn {s : State P} {tx : Nat} (h : Mid s tx) (r : WireReq P) : Inv (s.spawn ⟨.reply tx, r⟩) := by
  refine ⟨h.gets, h.puts, h.reqs, Map.ok_put h.tasks _ _, h.getsLt, h.putsLt, h.reqsLt, put_keys_lt h.tasksLt _,
    fun t => ?_, h.dead⟩
  have := h.places t
  simp only [State.all, State.spawn, Map.put_of_none (fresh_find h.tasksLt), List.count_append, List.filterMap_append,
    List.filterMap_cons, Sink.tx, List.filterMap_nil, List.count_cons, List.count_nil, beq_iff_eq] at this ⊢
  omega

omit [DecidableEq P] in
theorem Mid.getQuery {s : State P} {tx : Nat} (h : Mid s tx) (ha : s.alive = true) : Inv (s.getQuery tx) := by
  refine ⟨Map.ok_put h.gets _ _, h.puts, h.reqs, h.tasks, put_keys_lt h.getsLt _,
    fun q hq => Nat.lt_succ_of_lt (h.putsLt q hq), h.reqsLt, h.tasksLt, fun t => ?_,
    fun hd => by simp [State.getQuery, ha] at hd⟩
  have := h.places t
  simp only [State.all, State.getQuery, Map.put_of_none (fresh_find h.getsLt), List.count_append, List.map_append,
    List.map_cons, List.map_nil, List.count_cons, List.count_nil, beq_iff_eq] at this ⊢
  omega

omit [DecidableEq P] in
theorem Mid.putQuery {s : State P} {tx : Nat} (h : Mid s tx) (ha : s.alive = true) : Inv (s.putQuery tx) := by
  refine ⟨h.gets, Map.ok_put h.puts _ _, h.reqs, h.tasks, fun q hq => Nat.lt_succ_of_lt (h.getsLt q hq),
    put_keys_lt h.putsLt _, h.reqsLt, h.tasksLt, fun t => ?_, fun hd => by simp [State.putQuery, ha] at hd⟩
  have := h.places t
  simp only [State.all, State.putQuery, Map.put_of_none (fresh_find h.putsLt), List.count_append, List.map_append,
    List.map_cons, List.map_nil, List.count_cons, List.count_nil, beq_iff_eq] at this ⊢
  omega

omit [DecidableEq P] in
theorem Mid.request {s : State P} {tx : Nat} (h : Mid s tx) (ha : s.alive = true) (p : P) (r : WireReq P) :
    Inv (s.request tx p r) := by
  unfold State.request
  split
  · exact h.spawn r
  · refine ⟨h.gets, h.puts, Map.ok_put h.reqs _ _, h.tasks, h.getsLt, h.putsLt, put_keys_lt h.reqsLt _, h.tasksLt,
      fun t => ?_, fun hd => by simp [ha] at hd⟩
    have := h.places t
    simp only [State.all, Map.put_of_none (fresh_find h.reqsLt), List.count_append, List.map_append,
      List.map_cons, List.map_nil, List.count_cons, List.count_nil, beq_iff_eq] at this ⊢
    omega

omit [DecidableEq P] in
theorem Mid.store {s : State P} {tx : Nat} (h : Mid s tx) (m : Map Key (Stored P)) : Mid { s with store := m } tx :=
  { h with }

theorem Mid.removeRecord {s : State P} {tx : Nat} (h : Mid s tx) (k : Key) : Mid (s.removeRecord k) tx := by
  unfold State.removeRecord
  split
  · split
    · exact h.store _
    · exact h
  · exact h

theorem removeRecord_alive (s : State P) (k : Key) : (s.removeRecord k).alive = s.alive := by
  unfold State.removeRecord
  split <;> try split
  all_goals rfl

theorem Mid.call {s : State P} {tx : Nat} (h : Mid s tx) (ha : s.alive = true) (c : PeerCodec P) (acc : Bool)
    (cmd : Cmd P) : Inv (s.call c acc tx cmd) := by
  cases cmd with
  | listenOn res => exact h.answer _
  | dial res => exact h.answer _
  | lookup k => exact h.getQuery ha
  | lookupLocal k =>
    simp only [State.call]
    split
    · exact h.answer _
    · split
      · exact h.die
      · exact h.answer _
  | register k v =>
    simp only [State.call]
    split
    · exact h.die
    · split
      · exact (h.store _).answer _
      · exact (h.store _).putQuery ha
  | unregister k =>
    simp only [State.call]
    split
    · exact (h.removeRecord _).answer _
    · split
      · exact h.die
      · exact ((h.store _).removeRecord _).putQuery (by rw [removeRecord_alive]; exact ha)
  | ask p r => exact h.request ha _ _
  | tell p r => exact h.request ha _ _
  | link id rid sib srid => exact h.request ha _ _
  | unlink id sib srid => exact h.request ha _ _
  | signalLinkDied d n rid reason => exact h.request ha _ _

omit [DecidableEq P] in
theorem Inv.takeGet {s : State P} (h : Inv s) {q tx : Nat} (hf : s.gets.find q = some tx) :
    Mid { s with gets := s.gets.del q } tx := by
  refine ⟨Map.ok_del h.gets q, h.puts, h.reqs, h.tasks, del_keys_lt h.getsLt q, h.putsLt, h.reqsLt, h.tasksLt,
    fun t => ?_, fun hd => ?_⟩
  · have := h.places t
    have hp := ((Map.perm_del hf).map (·.2)).count_eq t
    simp only [State.all, List.count_append, List.map_cons, List.count_cons, beq_iff_eq] at this hp ⊢
    omega
  · have := h.dead hd
    simp [this.2.1] at hf
    cases hf

omit [DecidableEq P] in
theorem Inv.takePut {s : State P} (h : Inv s) {q tx : Nat} (hf : s.puts.find q = some tx) :
    Mid { s with puts := s.puts.del q } tx := by
  refine ⟨h.gets, Map.ok_del h.puts q, h.reqs, h.tasks, h.getsLt, del_keys_lt h.putsLt q, h.reqsLt, h.tasksLt,
    fun t => ?_, fun hd => ?_⟩
  · have := h.places t
    have hp := ((Map.perm_del hf).map (·.2)).count_eq t
    simp only [State.all, List.count_append, List.map_cons, List.count_cons, beq_iff_eq] at this hp ⊢
    omega
  · have := h.dead hd
    simp [this.2.2.1] at hf
    cases hf

omit [DecidableEq P] in
theorem Inv.takeReq {s : State P} (h : Inv s) {q tx : Nat} (hf : s.reqs.find q = some tx) :
    Mid { s with reqs := s.reqs.del q } tx := by
  refine ⟨h.gets, h.puts, Map.ok_del h.reqs q, h.tasks, h.getsLt, h.putsLt, del_keys_lt h.reqsLt q, h.tasksLt,
    fun t => ?_, fun hd => ?_⟩
  · have := h.places t
    have hp := ((Map.perm_del hf).map (·.2)).count_eq t
    simp only [State.all, List.count_append, List.map_cons, List.count_cons, beq_iff_eq] at this hp ⊢
    omega
  · have := h.dead hd
    simp [this.2.2.2] at hf
    cases hf

omit [DecidableEq P] in
theorem Inv.takeTask {s : State P} (h : Inv s) {q tx : Nat} {r : WireReq P} (hf : s.tasks.find q = some ⟨.reply tx, r⟩) :
    Mid { s with tasks := s.tasks.del q } tx := by
  refine ⟨h.gets, h.puts, h.reqs, Map.ok_del h.tasks q, h.getsLt, h.putsLt, h.reqsLt, del_keys_lt h.tasksLt q,
    fun t => ?_, h.dead⟩
  have := h.places t
  have hp := ((Map.perm_del hf).filterMap (fun p => p.2.sink.tx)).count_eq t
  simp only [State.all, List.count_append, List.filterMap_cons, Sink.tx, List.count_cons, beq_iff_eq] at this hp ⊢
  omega

omit [DecidableEq P] in
theorem Inv.dropTask {s : State P} (h : Inv s) {q ch : Nat} {r : WireReq P} (hf : s.tasks.find q = some ⟨.channel ch, r⟩) :
    Inv { s with tasks := s.tasks.del q } := by
  refine ⟨h.gets, h.puts, h.reqs, Map.ok_del h.tasks q, h.getsLt, h.putsLt, h.reqsLt, del_keys_lt h.tasksLt q,
    fun t => ?_, h.dead⟩
  have := h.places t
  have hp := ((Map.perm_del hf).filterMap (fun p => p.2.sink.tx)).count_eq t
  simp only [State.all, List.count_append, List.filterMap_cons, Sink.tx] at this hp ⊢
  omega

omit [DecidableEq P] in
theorem Inv.note {s : State P} (h : Inv s) (ha : s.alive = true) (n : Note) :
    Inv { s with queue := s.queue ++ [.note n] } := by
  refine { h with places := fun t => ?_, dead := fun hd => by simp [ha] at hd }
  have := h.places t
  simpa only [State.all, List.filterMap_append, List.filterMap_cons, List.filterMap_nil, Item.tx, List.append_nil]
    using this

omit [DecidableEq P] in
theorem Inv.spawn {s : State P} (h : Inv s) (ch : Nat) (r : WireReq P) : Inv (s.spawn ⟨.channel ch, r⟩) := by
  refine ⟨h.gets, h.puts, h.reqs, Map.ok_put h.tasks _ _, h.getsLt, h.putsLt, h.reqsLt, put_keys_lt h.tasksLt _,
    fun t => ?_, h.dead⟩
  have := h.places t
  simp only [State.all, State.spawn, Map.put_of_none (fresh_find h.tasksLt), List.count_append, List.filterMap_append,
    List.filterMap_cons, Sink.tx, List.filterMap_nil, List.count_nil] at this ⊢
  omega

omit [DecidableEq P] in
theorem Inv.popCall {s : State P} (h : Inv s) {tx : Nat} {cmd : Cmd P} {rest : List (Item P)}
    (hq : s.queue = .call tx cmd :: rest) : Mid { s with queue := rest } tx := by
  refine { h with places := fun t => ?_, dead := fun hd => ?_ }
  · have := h.places t
    simp only [State.all, hq, List.filterMap_cons, Item.tx, List.cons_append, List.count_append, List.count_cons,
      beq_iff_eq] at this ⊢
    omega
  · have := h.dead hd
    rw [hq] at this
    cases this.1

omit [DecidableEq P] in
theorem Inv.popNote {s : State P} (h : Inv s) {n : Note} {rest : List (Item P)}
    (hq : s.queue = .note n :: rest) : Inv { s with queue := rest } := by
  refine { h with places := fun t => ?_, dead := fun hd => ?_ }
  · have := h.places t
    simpa only [State.all, hq, List.filterMap_cons, Item.tx] using this
  · have := h.dead hd
    rw [hq] at this
    cases this.1

omit [DecidableEq P] in
theorem Inv.notice {s : State P} (h : Inv s) (n : Note) : Inv (s.notice n) := by
  cases n <;> first | exact h | exact { h with }

theorem inv_step {s : State P} (h : Inv s) (c : PeerCodec P) (op : Op P) : Inv (s.step c op) := by
  cases op with
  | send cmd =>
    simp only [State.step]
    split
    · rename_i ha
      refine { h with places := fun t => ?_, dead := fun hd => by simp [ha] at hd }
      have := h.places t
      simp only [State.all, List.filterMap_append, List.filterMap_cons, List.filterMap_nil, Item.tx, List.count_append,
        List.count_cons, List.count_nil, beq_iff_eq] at this ⊢
      split at this <;> split <;> split <;> omega
    · refine { h with places := fun t => ?_ }
      have := h.places t
      simp only [State.all, List.count_append, List.count_cons, List.count_nil, beq_iff_eq] at this ⊢
      split at this <;> split <;> split <;> omega
  | addPeerAddress =>
    simp only [State.step]
    split
    · rename_i ha; exact h.note ha _
    · exact h
  | disconnectPeerId =>
    simp only [State.step]
    split
    · rename_i ha; exact h.note ha _
    · exact h
  | recv acc =>
    simp only [State.step]
    split
    · rename_i ha
      split
      · exact h
      · rename_i tx cmd rest hq
        exact (h.popCall hq).call ha c acc cmd
      · rename_i n rest hq
        exact (h.popNote hq).notice n
    · exact h
  | event e =>
    simp only [State.step]
    split
    · cases e with
      | getFound q v =>
        simp only [State.event]
        split
        · rename_i tx hf; exact (h.takeGet hf).answer _
        · exact h
      | getErr q v =>
        simp only [State.event]
        split
        · rename_i tx hf; exact (h.takeGet hf).answer _
        · exact h
      | putResult q v =>
        simp only [State.event]
        split
        · rename_i tx hf; exact (h.takePut hf).answer _
        · exact h
      | response q v =>
        simp only [State.event]
        split
        · rename_i tx hf; exact (h.takeReq hf).answer _
        · exact h
      | outboundFailure q v =>
        simp only [State.event]
        split
        · rename_i tx hf; exact (h.takeReq hf).answer _
        · exact h
      | request ch r => exact h.spawn ch r
      | connectionClosed p => exact h
      | mdns => exact h
      | getProgress q => exact h
      | other => exact h
    · exact h
  | taskDone t o =>
    simp only [State.step, State.taskDone]
    split
    · exact h
    · rename_i task hf
      obtain ⟨sink, req⟩ := task
      cases sink with
      | reply tx =>
        cases o with
        | val o => exact (h.takeTask hf).answer _
        | panic => exact (h.takeTask hf).drop
      | channel ch =>
        cases o with
        | val o =>
          simp only
          split
          · rename_i ha; exact (h.dropTask hf).note ha _
          · exact h.dropTask hf
        | panic => exact h.dropTask hf
  | setPeers n => exact { h with }
  | storeRemote k r =>
    simp only [State.step]
    split <;> exact { h with }

theorem inv_foldl {s : State P} (h : Inv s) (c : PeerCodec P) (ops : List (Op P)) :
    Inv (ops.foldl (State.step c) s) := by
  induction ops generalizing s with
  | nil => exact h
  | cons op ops ih => exact ih (inv_step h c op)

theorem inv_run (c : PeerCodec P) (own : P) (ops : List (Op P)) : Inv (run c own ops) :=
  inv_foldl (inv_init own) c ops

end Verif.Swarm
