import Verif.Swarm.Inv
import Verif.Wire.Props

/-
Lemmas about the steps of the swarm task, for the property theorems in Verif.Swarm.Props.
-/

namespace Verif.Swarm

open Verif.ActorId
open Verif.Request (Out)
open Verif.Remote (Bytes Req Resp)
open Verif.Wire (RErr)

variable {P : Type} [DecidableEq P]

/-- The answers sent into reply sender `t`. -/
def answersOf (s : State P) (t : Nat) : List (Ans P) := s.answers.filterMap (fun p => if p.1 = t then some p.2 else none)

omit [DecidableEq P] in
theorem answersOf_length (s : State P) (t : Nat) : (answersOf s t).length = (s.answers.map (·.1)).count t := by
  unfold answersOf
  induction s.answers with
  | nil => rfl
  | cons p rest ih =>
    simp only [List.filterMap_cons, List.map_cons, List.count_cons, beq_iff_eq]
    split
    · rename_i h
      by_cases hp : p.1 = t
      · simp [hp] at h
      · simp [hp, ih]
    · rename_i a h
      by_cases hp : p.1 = t
      · simp [hp, ih]
      · simp [hp] at h

omit [DecidableEq P] in
/-- Each caller is in exactly one of these positions: the command is in the channel; it is waiting for a query, a request
or a task; it has one answer; its reply sender was dropped. -/
theorem Inv.exactly_one {s : State P} (h : Inv s) {t : Nat} (ht : t < s.nextTx) :
    (s.queue.filterMap Item.tx).count t + (s.gets.map (·.2)).count t + (s.puts.map (·.2)).count t +
      (s.reqs.map (·.2)).count t + (s.tasks.filterMap (fun p => p.2.sink.tx)).count t + (answersOf s t).length +
      s.dropped.count t = 1 := by
  have := h.places t
  rw [if_pos ht] at this
  rw [answersOf_length]
  simpa [State.all, Nat.add_assoc] using this

theorem answers_prefix (s : State P) (c : PeerCodec P) (op : Op P) : s.answers <+: (s.step c op).answers := by
  have hr : ∀ (s : State P) tx p r, (s.request tx p r).answers = s.answers := by
    intro s tx p r
    unfold State.request State.spawn
    split <;> rfl
  have hrem : ∀ (s : State P) k, (s.removeRecord k).answers = s.answers := by
    intro s k
    unfold State.removeRecord
    split <;> (try split) <;> rfl
  cases op with
  | send cmd =>
    simp only [State.step]
    split <;> exact List.prefix_refl _
  | addPeerAddress =>
    simp only [State.step]
    split <;> exact List.prefix_refl _
  | disconnectPeerId =>
    simp only [State.step]
    split <;> exact List.prefix_refl _
  | recv acc =>
    simp only [State.step]
    split
    · split
      · exact List.prefix_refl _
      · rename_i tx cmd rest hq
        cases cmd with
        | lookupLocal k =>
          simp only [State.call]
          split
          · exact List.prefix_append _ _
          · split
            · exact List.prefix_refl _
            · exact List.prefix_append _ _
        | register k v =>
          simp only [State.call]
          split
          · exact List.prefix_refl _
          · split
            · exact List.prefix_append _ _
            · exact List.prefix_refl _
        | unregister k =>
          simp only [State.call]
          split
          · simp only [State.answer, hrem]; exact List.prefix_append _ _
          · split
            · exact List.prefix_refl _
            · simp only [State.putQuery, hrem]; exact List.prefix_refl _
        | listenOn res => exact List.prefix_append _ _
        | dial res => exact List.prefix_append _ _
        | lookup k => exact List.prefix_refl _
        | ask p r => simp only [State.call, hr]; exact List.prefix_refl _
        | tell p r => simp only [State.call, hr]; exact List.prefix_refl _
        | link id rid sib srid => simp only [State.call, hr]; exact List.prefix_refl _
        | unlink id sib srid => simp only [State.call, hr]; exact List.prefix_refl _
        | signalLinkDied d n rid reason => simp only [State.call, hr]; exact List.prefix_refl _
      · rename_i n rest hq
        cases n <;> exact List.prefix_refl _
    · exact List.prefix_refl _
  | event e =>
    simp only [State.step]
    split
    · cases e <;> simp only [State.event] <;> (try split) <;>
        first | exact List.prefix_refl _ | exact List.prefix_append _ _
    · exact List.prefix_refl _
  | taskDone t o =>
    simp only [State.step, State.taskDone]
    split
    · exact List.prefix_refl _
    · rename_i task hf
      split <;> (try split) <;> first | exact List.prefix_refl _ | exact List.prefix_append _ _
  | setPeers n => exact List.prefix_refl _
  | storeRemote k r => simp only [State.step]; split <;> exact List.prefix_refl _

theorem answers_prefix_foldl (s : State P) (c : PeerCodec P) (ops : List (Op P)) :
    s.answers <+: (ops.foldl (State.step c) s).answers := by
  induction ops generalizing s with
  | nil => exact List.prefix_refl _
  | cons op ops ih => exact (answers_prefix s c op).trans (ih _)

theorem alive_step {s : State P} {c : PeerCodec P} {op : Op P} (h : (s.step c op).alive = true) : s.alive = true := by
  cases ha : s.alive with
  | true => rfl
  | false =>
    cases op with
    | taskDone t o =>
      simp only [State.step, State.taskDone] at h
      split at h
      · rw [ha] at h; cases h
      · split at h <;> (try split at h) <;> simp_all [State.answer]
    | storeRemote k r => simp only [State.step] at h; split at h <;> simp_all
    | setPeers n => simp [State.step, ha] at h
    | _ => simp [State.step, ha] at h

theorem alive_foldl {s : State P} {c : PeerCodec P} {ops : List (Op P)}
    (h : (ops.foldl (State.step c) s).alive = true) : s.alive = true := by
  induction ops generalizing s with
  | nil => exact h
  | cons op ops ih => exact alive_step (ih h)

/-- An answer once there stays the only one. -/
theorem answered_stays {s : State P} (hs : Inv s) (c : PeerCodec P) (ops : List (Op P)) {t : Nat} {a : Ans P}
    (h : answersOf s t = [a]) : answersOf (ops.foldl (State.step c) s) t = [a] := by
  obtain ⟨l, hl⟩ := answers_prefix_foldl s c ops
  have hi := inv_foldl hs c ops
  have hlen : (answersOf (ops.foldl (State.step c) s) t).length ≤ 1 := by
    by_cases ht : t < (ops.foldl (State.step c) s).nextTx
    · have := hi.exactly_one ht; omega
    · have := hi.places t
      rw [if_neg ht] at this
      rw [answersOf_length]
      simp only [State.all, List.count_append] at this
      omega
  unfold answersOf at h hlen ⊢
  rw [← hl, List.filterMap_append, h] at hlen ⊢
  simp only [List.length_append, List.length_cons, List.length_nil] at hlen
  rw [List.length_eq_zero_iff.mp (by omega : (List.filterMap _ l).length = 0), List.append_nil]

omit [DecidableEq P] in
/-- A waiting caller has no answer and its reply sender is not dropped. -/
theorem Inv.waiting {s : State P} (h : Inv s) {t : Nat}
    (hw : 0 < (s.queue.filterMap Item.tx).count t + (s.gets.map (·.2)).count t + (s.puts.map (·.2)).count t +
      (s.reqs.map (·.2)).count t + (s.tasks.filterMap (fun p => p.2.sink.tx)).count t) :
    answersOf s t = [] ∧ t ∉ s.dropped := by
  have := h.places t
  simp only [State.all, List.count_append] at this
  have h1 : (answersOf s t).length = 0 := by rw [answersOf_length]; split at this <;> omega
  have h2 : s.dropped.count t = 0 := by split at this <;> omega
  exact ⟨List.length_eq_zero_iff.mp h1, List.count_eq_zero.mp h2⟩

theorem count_of_find {m : Map Nat Nat} {i t : Nat} (h : m.find i = some t) : 0 < (m.map (·.2)).count t :=
  List.count_pos_iff.mpr (List.mem_map.mpr ⟨(i, t), Map.mem_of_find h, rfl⟩)

/-- The general form of "gets its answer": `look` is where caller `t` waits, `ans` which step answers it. -/
theorem pending_exact (c : PeerCodec P) (t : Nat) (look : State P → Option Nat) (ans : Op P → Option (Ans P))
    (hkeep : ∀ s op, Inv s → look s = some t → ans op = none → (s.step c op).alive = true → look (s.step c op) = some t)
    (htake : ∀ s op a, look s = some t → ans op = some a → s.alive = true →
      (s.step c op).answers = s.answers ++ [(t, a)])
    (hin : ∀ s, Inv s → look s = some t → answersOf s t = []) (ops : List (Op P)) :
    ∀ s, Inv s → look s = some t → (ops.foldl (State.step c) s).alive = true →
      answersOf (ops.foldl (State.step c) s) t = (ops.findSome? ans).toList ∧
        (ops.findSome? ans = none → look (ops.foldl (State.step c) s) = some t) := by
  induction ops with
  | nil =>
    intro s hs hl _
    exact ⟨by simpa using hin s hs hl, fun _ => hl⟩
  | cons op ops ih =>
    intro s hs hl ha
    rw [List.foldl_cons] at ha ⊢
    have ha1 := alive_foldl ha
    have ha0 := alive_step ha1
    cases ho : ans op with
    | none =>
      rw [List.findSome?_cons, ho]
      exact ih _ (inv_step hs c op) (hkeep s op hs hl ho ha1) ha
    | some a =>
      rw [List.findSome?_cons, ho]
      refine ⟨?_, fun h => by cases h⟩
      refine answered_stays (inv_step hs c op) c ops ?_
      have hn := hin s hs hl
      unfold answersOf at hn ⊢
      rw [htake s op a hl ho ha0, List.filterMap_append, hn]
      simp

/-! ### What a step does to the entries -/

/-- The answer that a step brings for request `i`. -/
def reqAnswer (i : Nat) : Op P → Option (Ans P)
  | .event (.response j r) => if j = i then some (.resp r) else none
  | .event (.outboundFailure j e) => if j = i then some (.resp (.outboundFailure e)) else none
  | _ => none

/-- The answer that a step brings for the DHT lookup `q`. -/
def getAnswer (q : Nat) : Op P → Option (Ans P)
  | .event (.getFound j v) => if j = q then some (.record (.ok v)) else none
  | .event (.getErr j e) => if j = q then some (.record (.error e)) else none
  | _ => none

/-- The answer that a step brings for the DHT store `q`. -/
def putAnswer (q : Nat) : Op P → Option (Ans P)
  | .event (.putResult j r) => if j = q then some (.put r) else none
  | _ => none

theorem removeRecord_eq (s : State P) (k : Key) : ∃ m, s.removeRecord k = { s with store := m } := by
  unfold State.removeRecord
  split
  · split
    · exact ⟨_, rfl⟩
    · exact ⟨s.store, rfl⟩
  · exact ⟨s.store, rfl⟩

/-- A step that keeps the task alive and brings no answer for request `i` leaves its entry alone. -/
theorem reqs_step {s : State P} (hs : Inv s) (c : PeerCodec P) (op : Op P) (i : Nat) (hi : i < s.nextReq)
    (ho : reqAnswer i op = none) (ha : (s.step c op).alive = true) : (s.step c op).reqs.find i = s.reqs.find i := by
  have hreq : ∀ (s : State P) tx p r, i < s.nextReq → (s.request tx p r).reqs.find i = s.reqs.find i := by
    intro s tx p r hi
    unfold State.request State.spawn
    split
    · rfl
    · rw [Map.find_put, if_neg (by omega)]
  cases op with
  | send cmd => simp only [State.step]; split <;> rfl
  | addPeerAddress => simp only [State.step]; split <;> rfl
  | disconnectPeerId => simp only [State.step]; split <;> rfl
  | recv acc =>
    simp only [State.step] at ha ⊢
    split at ha
    · rename_i hal
      rw [if_pos hal]
      split at ha
      · rfl
      · rename_i tx cmd rest hq
        cases cmd with
        | lookupLocal k =>
          simp only [State.call] at ha ⊢
          split at ha
          · rfl
          · split at ha
            · cases ha
            · rfl
        | register k v =>
          simp only [State.call] at ha ⊢
          split at ha
          · cases ha
          · rename_i hacc
            rw [if_neg hacc]
            split <;> rfl
        | unregister k =>
          simp only [State.call] at ha ⊢
          split at ha
          · rename_i hp
            rw [if_pos hp]
            obtain ⟨m, hm⟩ := removeRecord_eq { s with queue := rest } k
            rw [hm]
            rfl
          · rename_i hp
            rw [if_neg hp]
            split at ha
            · cases ha
            · rename_i hacc
              rw [if_neg hacc]
              obtain ⟨m, hm⟩ := removeRecord_eq { s with queue := rest, store := s.store.put k ⟨[], some s.own⟩ } k
              rw [hm]
              rfl
        | listenOn res => rfl
        | dial res => rfl
        | lookup k => rfl
        | ask p r => exact hreq _ _ _ _ hi
        | tell p r => exact hreq _ _ _ _ hi
        | link id rid sib srid => exact hreq _ _ _ _ hi
        | unlink id sib srid => exact hreq _ _ _ _ hi
        | signalLinkDied d n rid reason => exact hreq _ _ _ _ hi
      · rename_i n rest hq
        cases n <;> rfl
    · rename_i hal; rw [if_neg hal]
  | event e =>
    simp only [State.step]
    split
    · cases e with
      | response j r =>
        simp only [reqAnswer] at ho
        have hj : j ≠ i := by intro h; simp [h] at ho
        simp only [State.event]
        split
        · simp only [State.answer]; rw [Map.find_del hs.reqs, if_neg (Ne.symm hj)]
        · rfl
      | outboundFailure j r =>
        simp only [reqAnswer] at ho
        have hj : j ≠ i := by intro h; simp [h] at ho
        simp only [State.event]
        split
        · simp only [State.answer]; rw [Map.find_del hs.reqs, if_neg (Ne.symm hj)]
        · rfl
      | getFound q v => simp only [State.event]; split <;> rfl
      | getErr q v => simp only [State.event]; split <;> rfl
      | putResult q v => simp only [State.event]; split <;> rfl
      | request ch r => rfl
      | connectionClosed p => rfl
      | mdns => rfl
      | getProgress q => rfl
      | other => rfl
    · rfl
  | taskDone t o =>
    simp only [State.step, State.taskDone]
    split
    · rfl
    · split <;> (try split) <;> rfl
  | setPeers n => rfl
  | storeRemote k r => simp only [State.step]; split <;> rfl

/-- The same for DHT lookups. -/
theorem gets_step {s : State P} (hs : Inv s) (c : PeerCodec P) (op : Op P) (i : Nat) (hi : i < s.nextQuery)
    (ho : getAnswer i op = none) (ha : (s.step c op).alive = true) : (s.step c op).gets.find i = s.gets.find i := by
  have hreq : ∀ (s : State P) tx p r, (s.request tx p r).gets = s.gets := by
    intro s tx p r
    unfold State.request State.spawn
    split <;> rfl
  cases op with
  | send cmd => simp only [State.step]; split <;> rfl
  | addPeerAddress => simp only [State.step]; split <;> rfl
  | disconnectPeerId => simp only [State.step]; split <;> rfl
  | recv acc =>
    simp only [State.step] at ha ⊢
    split at ha
    · rename_i hal
      rw [if_pos hal]
      split at ha
      · rfl
      · rename_i tx cmd rest hq
        cases cmd with
        | lookupLocal k =>
          simp only [State.call] at ha ⊢
          split at ha
          · rfl
          · split at ha
            · cases ha
            · rfl
        | register k v =>
          simp only [State.call] at ha ⊢
          split at ha
          · cases ha
          · rename_i hacc
            rw [if_neg hacc]
            split <;> rfl
        | unregister k =>
          simp only [State.call] at ha ⊢
          split at ha
          · rename_i hp
            rw [if_pos hp]
            obtain ⟨m, hm⟩ := removeRecord_eq { s with queue := rest } k
            rw [hm]
            rfl
          · rename_i hp
            rw [if_neg hp]
            split at ha
            · cases ha
            · rename_i hacc
              rw [if_neg hacc]
              obtain ⟨m, hm⟩ := removeRecord_eq { s with queue := rest, store := s.store.put k ⟨[], some s.own⟩ } k
              rw [hm]
              rfl
        | listenOn res => rfl
        | dial res => rfl
        | lookup k =>
          simp only [State.call, State.getQuery]
          rw [Map.find_put, if_neg (by omega)]
        | ask p r => simp only [State.call, hreq]
        | tell p r => simp only [State.call, hreq]
        | link id rid sib srid => simp only [State.call, hreq]
        | unlink id sib srid => simp only [State.call, hreq]
        | signalLinkDied d n rid reason => simp only [State.call, hreq]
      · rename_i n rest hq
        cases n <;> rfl
    · rename_i hal; rw [if_neg hal]
  | event e =>
    simp only [State.step]
    split
    · cases e with
      | getFound j r =>
        simp only [getAnswer] at ho
        have hj : j ≠ i := by intro h; simp [h] at ho
        simp only [State.event]
        split
        · simp only [State.answer]; rw [Map.find_del hs.gets, if_neg (Ne.symm hj)]
        · rfl
      | getErr j r =>
        simp only [getAnswer] at ho
        have hj : j ≠ i := by intro h; simp [h] at ho
        simp only [State.event]
        split
        · simp only [State.answer]; rw [Map.find_del hs.gets, if_neg (Ne.symm hj)]
        · rfl
      | response q v => simp only [State.event]; split <;> rfl
      | outboundFailure q v => simp only [State.event]; split <;> rfl
      | putResult q v => simp only [State.event]; split <;> rfl
      | request ch r => rfl
      | connectionClosed p => rfl
      | mdns => rfl
      | getProgress q => rfl
      | other => rfl
    · rfl
  | taskDone t o =>
    simp only [State.step, State.taskDone]
    split
    · rfl
    · split <;> (try split) <;> rfl
  | setPeers n => rfl
  | storeRemote k r => simp only [State.step]; split <;> rfl

/-- The same for DHT stores. -/
theorem puts_step {s : State P} (hs : Inv s) (c : PeerCodec P) (op : Op P) (i : Nat) (hi : i < s.nextQuery)
    (ho : putAnswer i op = none) (ha : (s.step c op).alive = true) : (s.step c op).puts.find i = s.puts.find i := by
  have hreq : ∀ (s : State P) tx p r, (s.request tx p r).puts = s.puts := by
    intro s tx p r
    unfold State.request State.spawn
    split <;> rfl
  cases op with
  | send cmd => simp only [State.step]; split <;> rfl
  | addPeerAddress => simp only [State.step]; split <;> rfl
  | disconnectPeerId => simp only [State.step]; split <;> rfl
  | recv acc =>
    simp only [State.step] at ha ⊢
    split at ha
    · rename_i hal
      rw [if_pos hal]
      split at ha
      · rfl
      · rename_i tx cmd rest hq
        cases cmd with
        | lookupLocal k =>
          simp only [State.call] at ha ⊢
          split at ha
          · rfl
          · split at ha
            · cases ha
            · rfl
        | register k v =>
          simp only [State.call] at ha ⊢
          split at ha
          · cases ha
          · rename_i hacc
            rw [if_neg hacc]
            split
            · rfl
            · simp only [State.putQuery]; rw [Map.find_put, if_neg (by omega)]
        | unregister k =>
          simp only [State.call] at ha ⊢
          split at ha
          · rename_i hp
            rw [if_pos hp]
            obtain ⟨m, hm⟩ := removeRecord_eq { s with queue := rest } k
            rw [hm]
            rfl
          · rename_i hp
            rw [if_neg hp]
            split at ha
            · cases ha
            · rename_i hacc
              rw [if_neg hacc]
              obtain ⟨m, hm⟩ := removeRecord_eq { s with queue := rest, store := s.store.put k ⟨[], some s.own⟩ } k
              rw [hm]
              simp only [State.putQuery]; rw [Map.find_put, if_neg (by omega)]
        | listenOn res => rfl
        | dial res => rfl
        | lookup k => rfl
        | ask p r => simp only [State.call, hreq]
        | tell p r => simp only [State.call, hreq]
        | link id rid sib srid => simp only [State.call, hreq]
        | unlink id sib srid => simp only [State.call, hreq]
        | signalLinkDied d n rid reason => simp only [State.call, hreq]
      · rename_i n rest hq
        cases n <;> rfl
    · rename_i hal; rw [if_neg hal]
  | event e =>
    simp only [State.step]
    split
    · cases e with
      | putResult j r =>
        simp only [putAnswer] at ho
        have hj : j ≠ i := by intro h; simp [h] at ho
        simp only [State.event]
        split
        · simp only [State.answer]; rw [Map.find_del hs.puts, if_neg (Ne.symm hj)]
        · rfl
      | response q v => simp only [State.event]; split <;> rfl
      | outboundFailure q v => simp only [State.event]; split <;> rfl
      | getFound q v => simp only [State.event]; split <;> rfl
      | getErr q v => simp only [State.event]; split <;> rfl
      | request ch r => rfl
      | connectionClosed p => rfl
      | mdns => rfl
      | getProgress q => rfl
      | other => rfl
    · rfl
  | taskDone t o =>
    simp only [State.step, State.taskDone]
    split
    · rfl
    · split <;> (try split) <;> rfl
  | setPeers n => rfl
  | storeRemote k r => simp only [State.step]; split <;> rfl

end Verif.Swarm
