import Verif.Swarm.Props

/-!
C100: infinite executions of the swarm task, and what comes of every call and of every request of a peer.
-/

set_option linter.unusedSimpArgs false

namespace Verif.Swarm

open Verif.ActorId
open Verif.Request (Out)
open Verif.Remote (Bytes Req Resp)

variable {P : Type} [DecidableEq P]

/-- The node after the first `n` steps of an execution. `src/remote/swarm.rs` L517-544. -/
def upto (c : PeerCodec P) (own : P) (ops : Nat → Op P) (n : Nat) : State P := run c own ((List.range n).map ops)

theorem upto_succ (c : PeerCodec P) (own : P) (ops : Nat → Op P) (n : Nat) :
    upto c own ops (n + 1) = (upto c own ops n).step c (ops n) := by
  simp [upto, List.range_succ, run_snoc]

/-- The event that ends the DHT lookup `q`: a record found, or an error. `src/remote/swarm.rs` L831-847. -/
def EndsGet (q : Nat) (op : Op P) : Prop := (∃ v, op = .event (.getFound q v)) ∨ ∃ e, op = .event (.getErr q e)

/-- The event that ends the DHT registration `q`. `src/remote/swarm.rs` L848-857. -/
def EndsPut (q : Nat) (op : Op P) : Prop := ∃ res, op = .event (.putResult q res)

/-- The event that ends the outbound request `i`: a response, or a failure, one of which is a time-out.
`src/remote/swarm.rs` L964-993. -/
def EndsReq (i : Nat) (op : Op P) : Prop :=
  (∃ r, op = .event (.response i r)) ∨ ∃ e, op = .event (.outboundFailure i e)

/-- What is owed to the swarm task as long as it lives: it is given turns in which it takes the commands in its channel
(`select!`, `src/remote/swarm.rs` L519-521, takes turns between commands and events); libp2p reports the end of each query
and each request it was handed; and the spawned tasks end, with a result or a panic. -/
structure Fair (c : PeerCodec P) (own : P) (ops : Nat → Op P) : Prop where
  recv : ∀ n, (upto c own ops n).queue ≠ [] → ∃ k, n ≤ k ∧ ((∃ acc, ops k = .recv acc) ∨ (upto c own ops k).alive = false)
  gets : ∀ n q, (upto c own ops n).gets.find q ≠ none → ∃ k, n ≤ k ∧ (EndsGet q (ops k) ∨ (upto c own ops k).alive = false)
  puts : ∀ n q, (upto c own ops n).puts.find q ≠ none → ∃ k, n ≤ k ∧ (EndsPut q (ops k) ∨ (upto c own ops k).alive = false)
  reqs : ∀ n q, (upto c own ops n).reqs.find q ≠ none → ∃ k, n ≤ k ∧ (EndsReq q (ops k) ∨ (upto c own ops k).alive = false)
  tasks : ∀ n q, (upto c own ops n).tasks.find q ≠ none → ∃ k, n ≤ k ∧ ∃ o, ops k = .taskDone q o

/-- Something that holds until it is ended, and is sooner or later ended, ends. -/
theorem leads {A B R : Nat → Prop} {n : Nat} (h : A n) (keep : ∀ k, A k → A (k + 1) ∨ B (k + 1))
    (act : ∀ k, A k → R k → B (k + 1)) (ev : ∃ k, n ≤ k ∧ R k) : ∃ k, n ≤ k ∧ B k := by
  obtain ⟨k, hk, hr⟩ := ev
  have key : ∀ d, (∃ j, n ≤ j ∧ B j) ∨ A (n + d) := by
    intro d
    induction d with
    | zero => exact .inr h
    | succ d ih =>
      rcases ih with ih | ih
      · exact .inl ih
      · rcases keep _ ih with h' | h'
        · exact .inr h'
        · exact .inl ⟨n + d + 1, by omega, h'⟩
  rcases key (k - n) with h' | h'
  · exact h'
  · rw [show n + (k - n) = k by omega] at h'
    exact ⟨k + 1, by omega, act k h' hr⟩

theorem upto_inv (c : PeerCodec P) (own : P) (ops : Nat → Op P) (n : Nat) : Inv (upto c own ops n) := inv_run _ _ _

/-! ### What a step keeps -/

theorem lt_of_find {V : Type} {m : Map Nat V} {q n : Nat} {v : V} (h : ∀ x ∈ m.keys, x < n) (hf : m.find q = some v) :
    q < n := by
  apply h
  refine Classical.byContradiction fun hn => ?_
  rw [(Map.find_none_iff m q).mpr hn] at hf
  cases hf

theorem put_kept {V : Type} {m : Map Nat V} {q n : Nat} {v w : V} (hlt : ∀ x ∈ m.keys, x < n) (hf : m.find q = some v) :
    (m.put n w).find q = some v := by
  have := lt_of_find hlt hf
  rw [Map.find_put, if_neg (by omega), hf]

theorem removeRecord_rest (s : State P) (k : Key) : (s.removeRecord k).gets = s.gets ∧ (s.removeRecord k).puts = s.puts ∧
    (s.removeRecord k).reqs = s.reqs ∧ (s.removeRecord k).tasks = s.tasks ∧ (s.removeRecord k).queue = s.queue ∧
    (s.removeRecord k).nextQuery = s.nextQuery := by
  unfold State.removeRecord
  split <;> (try split) <;> exact ⟨rfl, rfl, rfl, rfl, rfl, rfl⟩

/-- The numbers in use are below those given out next. -/
structure Below (s : State P) : Prop where
  gets : ∀ q ∈ s.gets.keys, q < s.nextQuery
  puts : ∀ q ∈ s.puts.keys, q < s.nextQuery
  reqs : ∀ q ∈ s.reqs.keys, q < s.nextReq
  tasks : ∀ q ∈ s.tasks.keys, q < s.nextTask

omit [DecidableEq P] in
theorem Inv.below {s : State P} (h : Inv s) : Below s := ⟨h.getsLt, h.putsLt, h.reqsLt, h.tasksLt⟩

/-- Everything somebody waits for in `s` is still waited for in `s'`. -/
structure Kept (s s' : State P) : Prop where
  gets : ∀ q v, s.gets.find q = some v → s'.gets.find q = some v
  puts : ∀ q v, s.puts.find q = some v → s'.puts.find q = some v
  reqs : ∀ q v, s.reqs.find q = some v → s'.reqs.find q = some v
  queue : s.queue <+: s'.queue

omit [DecidableEq P] in
theorem request_kept {s : State P} (h : Below s) (tx : Nat) (p : P) (r : WireReq P) : Kept s (s.request tx p r) ∧
    ∀ q v, s.tasks.find q = some v → (s.request tx p r).tasks.find q = some v := by
  unfold State.request
  split
  · exact ⟨⟨fun _ _ hv => hv, fun _ _ hv => hv, fun _ _ hv => hv, List.prefix_refl _⟩,
      fun _ _ hv => put_kept h.tasks hv⟩
  · exact ⟨⟨fun _ _ hv => hv, fun _ _ hv => hv, fun _ _ hv => put_kept h.reqs hv, List.prefix_refl _⟩,
      fun _ _ hv => hv⟩

theorem call_kept {s : State P} (h : Below s) (c : PeerCodec P) (acc : Bool) (tx : Nat) (cmd : Cmd P) :
    ((s.call c acc tx cmd).alive = false ∨ Kept s (s.call c acc tx cmd)) ∧
    ∀ q v, s.tasks.find q = some v → (s.call c acc tx cmd).tasks.find q = some v := by
  have same : ∀ a, Kept s (s.answer tx a) := fun a =>
    ⟨fun _ _ hv => hv, fun _ _ hv => hv, fun _ _ hv => hv, List.prefix_refl _⟩
  cases cmd with
  | listenOn res => exact ⟨.inr (same _), fun _ _ hv => hv⟩
  | dial res => exact ⟨.inr (same _), fun _ _ hv => hv⟩
  | lookup k =>
    exact ⟨.inr ⟨fun _ _ hv => put_kept h.gets hv, fun _ _ hv => hv, fun _ _ hv => hv, List.prefix_refl _⟩, fun _ _ hv => hv⟩
  | lookupLocal k =>
    simp only [State.call]
    split
    · exact ⟨.inr (same _), fun _ _ hv => hv⟩
    · split
      · exact ⟨.inl rfl, fun _ _ hv => hv⟩
      · exact ⟨.inr (same _), fun _ _ hv => hv⟩
  | register k v =>
    simp only [State.call]
    split
    · exact ⟨.inl rfl, fun _ _ hv => hv⟩
    · split
      · exact ⟨.inr ⟨fun _ _ hv => hv, fun _ _ hv => hv, fun _ _ hv => hv, List.prefix_refl _⟩, fun _ _ hv => hv⟩
      · exact ⟨.inr ⟨fun _ _ hv => hv, fun _ _ hv => put_kept h.puts hv, fun _ _ hv => hv, List.prefix_refl _⟩, fun _ _ hv => hv⟩
  | unregister k =>
    simp only [State.call]
    split
    · obtain ⟨h1, h2, h3, h4, h5, h6⟩ := removeRecord_rest s k
      refine ⟨.inr ⟨?_, ?_, ?_, ?_⟩, ?_⟩ <;> simp only [State.answer, h1, h2, h3, h4, h5]
      · exact fun _ _ hv => hv
      · exact fun _ _ hv => hv
      · exact fun _ _ hv => hv
      · exact List.prefix_refl _
      · exact fun _ _ hv => hv
    · split
      · exact ⟨.inl rfl, fun _ _ hv => hv⟩
      · obtain ⟨h1, h2, h3, h4, h5, h6⟩ := removeRecord_rest { s with store := s.store.put k ⟨[], some s.own⟩ } k
        refine ⟨.inr ⟨?_, ?_, ?_, ?_⟩, ?_⟩ <;> simp only [State.putQuery, h1, h2, h3, h4, h5, h6]
        · exact fun _ _ hv => hv
        · exact fun _ _ hv => put_kept h.puts hv
        · exact fun _ _ hv => hv
        · exact List.prefix_refl _
        · exact fun _ _ hv => hv
  | ask p r => exact ⟨.inr (request_kept h _ _ _).1, (request_kept h _ _ _).2⟩
  | tell p r => exact ⟨.inr (request_kept h _ _ _).1, (request_kept h _ _ _).2⟩
  | link id rid sib srid => exact ⟨.inr (request_kept h _ _ _).1, (request_kept h _ _ _).2⟩
  | unlink id sib srid => exact ⟨.inr (request_kept h _ _ _).1, (request_kept h _ _ _).2⟩
  | signalLinkDied d n rid reason => exact ⟨.inr (request_kept h _ _ _).1, (request_kept h _ _ _).2⟩

theorem del_kept {V : Type} {m : Map Nat V} (hm : m.Ok) {q q' : Nat} {v : V} (hne : q ≠ q') (h : m.find q = some v) :
    (m.del q').find q = some v := by
  rw [Map.find_del hm, if_neg hne, h]

/-- A step ends nothing but what it is about, unless the swarm task ends. -/
theorem step_kept {s : State P} (h : Inv s) (c : PeerCodec P) (op : Op P) : (s.step c op).alive = false ∨
    ((∀ q v, s.gets.find q = some v → ¬ EndsGet q op → (s.step c op).gets.find q = some v) ∧
     (∀ q v, s.puts.find q = some v → ¬ EndsPut q op → (s.step c op).puts.find q = some v) ∧
     (∀ q v, s.reqs.find q = some v → ¬ EndsReq q op → (s.step c op).reqs.find q = some v) ∧
     ((∀ acc, op ≠ .recv acc) → s.queue <+: (s.step c op).queue) ∧
     (∀ acc x rest, op = .recv acc → s.queue = x :: rest → rest <+: (s.step c op).queue)) := by
  have refl : (∀ acc, op ≠ .recv acc) → Kept s (s.step c op) → (s.step c op).alive = false ∨
      ((∀ q v, s.gets.find q = some v → ¬ EndsGet q op → (s.step c op).gets.find q = some v) ∧
     (∀ q v, s.puts.find q = some v → ¬ EndsPut q op → (s.step c op).puts.find q = some v) ∧
     (∀ q v, s.reqs.find q = some v → ¬ EndsReq q op → (s.step c op).reqs.find q = some v) ∧
     ((∀ acc, op ≠ .recv acc) → s.queue <+: (s.step c op).queue) ∧
     (∀ acc x rest, op = .recv acc → s.queue = x :: rest → rest <+: (s.step c op).queue)) := fun hn k =>
    .inr ⟨fun q v hv _ => k.gets q v hv, fun q v hv _ => k.puts q v hv, fun q v hv _ => k.reqs q v hv, fun _ => k.queue,
      fun acc _ _ he => (hn acc he).elim⟩
  cases op with
  | send cmd =>
    refine refl (fun _ => nofun) ?_
    simp only [State.step]
    split
    · exact ⟨fun _ _ hv => hv, fun _ _ hv => hv, fun _ _ hv => hv, List.prefix_append _ _⟩
    · exact ⟨fun _ _ hv => hv, fun _ _ hv => hv, fun _ _ hv => hv, List.prefix_refl _⟩
  | addPeerAddress =>
    refine refl (fun _ => nofun) ?_
    simp only [State.step]
    split
    · exact ⟨fun _ _ hv => hv, fun _ _ hv => hv, fun _ _ hv => hv, List.prefix_append _ _⟩
    · exact ⟨fun _ _ hv => hv, fun _ _ hv => hv, fun _ _ hv => hv, List.prefix_refl _⟩
  | disconnectPeerId =>
    refine refl (fun _ => nofun) ?_
    simp only [State.step]
    split
    · exact ⟨fun _ _ hv => hv, fun _ _ hv => hv, fun _ _ hv => hv, List.prefix_append _ _⟩
    · exact ⟨fun _ _ hv => hv, fun _ _ hv => hv, fun _ _ hv => hv, List.prefix_refl _⟩
  | setPeers n => exact refl (fun _ => nofun) ⟨fun _ _ hv => hv, fun _ _ hv => hv, fun _ _ hv => hv, List.prefix_refl _⟩
  | storeRemote k r =>
    refine refl (fun _ => nofun) ?_
    simp only [State.step]
    split <;> exact ⟨fun _ _ hv => hv, fun _ _ hv => hv, fun _ _ hv => hv, List.prefix_refl _⟩
  | taskDone t o =>
    refine refl (fun _ => nofun) ?_
    simp only [State.step, State.taskDone]
    split
    · exact ⟨fun _ _ hv => hv, fun _ _ hv => hv, fun _ _ hv => hv, List.prefix_refl _⟩
    · split
      · exact ⟨fun _ _ hv => hv, fun _ _ hv => hv, fun _ _ hv => hv, List.prefix_refl _⟩
      · exact ⟨fun _ _ hv => hv, fun _ _ hv => hv, fun _ _ hv => hv, List.prefix_refl _⟩
      · split
        · exact ⟨fun _ _ hv => hv, fun _ _ hv => hv, fun _ _ hv => hv, List.prefix_append _ _⟩
        · exact ⟨fun _ _ hv => hv, fun _ _ hv => hv, fun _ _ hv => hv, List.prefix_refl _⟩
      · exact ⟨fun _ _ hv => hv, fun _ _ hv => hv, fun _ _ hv => hv, List.prefix_refl _⟩
  | event e =>
    right
    simp only [State.step]
    split
    · refine ⟨?_, ?_, ?_, ?_, fun _ _ _ => nofun⟩
      · intro q v hv hne
        cases e <;> simp only [State.event] <;> (try split) <;> (try exact hv)
        · exact del_kept h.gets (fun e => hne (.inl ⟨_, by rw [e]⟩)) hv
        · exact del_kept h.gets (fun e => hne (.inr ⟨_, by rw [e]⟩)) hv
      · intro q v hv hne
        cases e <;> simp only [State.event] <;> (try split) <;> (try exact hv)
        exact del_kept h.puts (fun e => hne ⟨_, by rw [e]⟩) hv
      · intro q v hv hne
        cases e <;> simp only [State.event] <;> (try split) <;> (try exact hv)
        · exact del_kept h.reqs (fun e => hne (.inl ⟨_, by rw [e]⟩)) hv
        · exact del_kept h.reqs (fun e => hne (.inr ⟨_, by rw [e]⟩)) hv
      · intro _
        cases e <;> simp only [State.event] <;> (try split) <;> exact List.prefix_refl _
    · exact ⟨fun _ _ hv _ => hv, fun _ _ hv _ => hv, fun _ _ hv _ => hv, fun _ => List.prefix_refl _, fun _ _ _ => nofun⟩
  | recv acc =>
    simp only [State.step]
    by_cases ha : s.alive = true
    · rw [if_pos ha]
      split
      · rename_i hq
        exact .inr ⟨fun _ _ hv _ => hv, fun _ _ hv _ => hv, fun _ _ hv _ => hv, fun hn => (hn acc rfl).elim,
          fun _ _ _ _ he => by rw [hq] at he; cases he⟩
      · rename_i tx cmd rest hq
        have hb : Below { s with queue := rest } := ⟨h.getsLt, h.putsLt, h.reqsLt, h.tasksLt⟩
        rcases (call_kept hb c acc tx cmd).1 with hk | hk
        · exact .inl hk
        · refine .inr ⟨fun q v hv _ => hk.gets q v hv, fun q v hv _ => hk.puts q v hv, fun q v hv _ => hk.reqs q v hv,
            fun hn => (hn acc rfl).elim, fun _ x rest' _ he => ?_⟩
          rw [hq] at he
          cases he
          exact hk.queue
      · rename_i n rest hq
        have hk : Kept { s with queue := rest } (State.notice { s with queue := rest } n) := by
          cases n <;> exact ⟨fun _ _ hv => hv, fun _ _ hv => hv, fun _ _ hv => hv, List.prefix_refl _⟩
        refine .inr ⟨fun q v hv _ => hk.gets q v hv, fun q v hv _ => hk.puts q v hv, fun q v hv _ => hk.reqs q v hv,
            fun hn => (hn acc rfl).elim, fun _ x rest' _ he => ?_⟩
        rw [hq] at he
        cases he
        exact hk.queue
    · left
      rw [if_neg ha]
      simpa using ha

/-- A spawned task is there until it ends. -/
theorem task_kept {s : State P} (h : Inv s) (c : PeerCodec P) (op : Op P) (q : Nat) (v : Task P)
    (hv : s.tasks.find q = some v) (hne : ∀ o, op ≠ .taskDone q o) : (s.step c op).tasks.find q = some v := by
  cases op with
  | send cmd => simp only [State.step]; split <;> exact hv
  | addPeerAddress => simp only [State.step]; split <;> exact hv
  | disconnectPeerId => simp only [State.step]; split <;> exact hv
  | setPeers n => exact hv
  | storeRemote k r => simp only [State.step]; split <;> exact hv
  | taskDone t o =>
    have hd : (s.tasks.del t).find q = some v := del_kept h.tasks (fun e => hne o (by rw [e])) hv
    simp only [State.step, State.taskDone]
    split
    · exact hv
    · split <;> (try split) <;> exact hd
  | event e =>
    simp only [State.step]
    split
    · cases e <;> simp only [State.event] <;> (try split) <;> (try exact hv)
      exact put_kept h.tasksLt hv
    · exact hv
  | recv acc =>
    simp only [State.step]
    split
    · split
      · exact hv
      · rename_i tx cmd rest hq
        have hb : Below { s with queue := rest } := ⟨h.getsLt, h.putsLt, h.reqsLt, h.tasksLt⟩
        exact (call_kept hb c acc tx cmd).2 q v hv
      · rename_i n rest hq
        cases n <;> exact hv
    · exact hv

/-! ### Nobody waits for ever -/

variable {c : PeerCodec P} {own : P} {ops : Nat → Op P}

/-- What is in the command channel is taken out of it, unless the swarm task ends first. -/
theorem item_taken (hf : Fair c own ops) (x : Item P) : ∀ (p n : Nat) (a b : List (Item P)), a.length = p →
    (upto c own ops n).queue = a ++ x :: b → ∃ k, n ≤ k ∧ ((upto c own ops k).alive = false ∨
      ((upto c own ops k).alive = true ∧ (∃ acc, ops k = .recv acc) ∧ ∃ rest, (upto c own ops k).queue = x :: rest)) := by
  intro p
  induction p with
  | zero =>
    intro n a b ha hq
    have : a = [] := List.length_eq_zero_iff.mp ha
    subst this
    obtain ⟨k, hk, hr⟩ := hf.recv n (by rw [hq]; simp)
    have key : ∀ d, (∃ j, n ≤ j ∧ ((upto c own ops j).alive = false ∨
        ((upto c own ops j).alive = true ∧ (∃ acc, ops j = .recv acc) ∧ ∃ rest, (upto c own ops j).queue = x :: rest))) ∨
        ∃ rest, (upto c own ops (n + d)).queue = x :: rest := by
      intro d
      induction d with
      | zero => exact .inr ⟨b, hq⟩
      | succ d ih =>
        rcases ih with ih | ⟨rest, ih⟩
        · exact .inl ih
        · by_cases hal : (upto c own ops (n + d)).alive = true
          · by_cases hrc : ∃ acc, ops (n + d) = .recv acc
            · exact .inl ⟨n + d, by omega, .inr ⟨hal, hrc, rest, ih⟩⟩
            · rcases step_kept (upto_inv c own ops (n + d)) c (ops (n + d)) with h | h
              · rw [← upto_succ] at h
                exact .inl ⟨n + d + 1, by omega, .inl h⟩
              · obtain ⟨l, hl⟩ := h.2.2.2.1 (fun acc he => hrc ⟨acc, he⟩)
                rw [← upto_succ, ih] at hl
                exact .inr ⟨rest ++ l, by rw [← Nat.add_assoc, ← hl]; rfl⟩
          · exact .inl ⟨n + d, by omega, .inl (by simpa using hal)⟩
    rcases key (k - n) with h | ⟨rest, h⟩
    · exact h
    · rw [show n + (k - n) = k by omega] at h
      rcases hr with hr | hr
      · by_cases hal : (upto c own ops k).alive = true
        · exact ⟨k, hk, .inr ⟨hal, hr, rest, h⟩⟩
        · exact ⟨k, hk, .inl (by simpa using hal)⟩
      · exact ⟨k, hk, .inl hr⟩
  | succ p ih =>
    intro n a b ha hq
    obtain ⟨y, a', rfl⟩ : ∃ y a', a = y :: a' := by
      cases a with
      | nil => cases ha
      | cons y a' => exact ⟨y, a', rfl⟩
    have ha' : a'.length = p := by simpa using ha
    obtain ⟨k, hk, hr⟩ := hf.recv n (by rw [hq]; simp)
    -- up to the first `recv` the channel only grows; that one takes `y`
    have key : ∀ d, (∃ j, n ≤ j ∧ ((upto c own ops j).alive = false ∨ ∃ b', (upto c own ops j).queue = a' ++ x :: b')) ∨
        ∃ b', (upto c own ops (n + d)).queue = y :: a' ++ x :: b' := by
      intro d
      induction d with
      | zero => exact .inr ⟨b, hq⟩
      | succ d ihd =>
        rcases ihd with ihd | ⟨b', ihd⟩
        · exact .inl ihd
        · rcases step_kept (upto_inv c own ops (n + d)) c (ops (n + d)) with h | h
          · rw [← upto_succ] at h
            exact .inl ⟨n + d + 1, by omega, .inl h⟩
          · by_cases hrc : ∃ acc, ops (n + d) = .recv acc
            · obtain ⟨acc, hrc⟩ := hrc
              obtain ⟨l, hl⟩ := h.2.2.2.2 acc y (a' ++ x :: b') hrc (by rw [ihd]; rfl)
              rw [← upto_succ] at hl
              exact .inl ⟨n + d + 1, by omega, .inr ⟨b' ++ l, by rw [← hl]; simp⟩⟩
            · obtain ⟨l, hl⟩ := h.2.2.2.1 (fun acc he => hrc ⟨acc, he⟩)
              rw [← upto_succ, ihd] at hl
              exact .inr ⟨b' ++ l, by rw [← Nat.add_assoc, ← hl]; simp⟩
    have hnext : ∃ j, n ≤ j ∧ ((upto c own ops j).alive = false ∨ ∃ b', (upto c own ops j).queue = a' ++ x :: b') := by
      rcases key (k - n) with h | ⟨b', h⟩
      · exact h
      · rw [show n + (k - n) = k by omega] at h
        rcases hr with ⟨acc, hr⟩ | hr
        · rcases step_kept (upto_inv c own ops k) c (ops k) with h' | h'
          · rw [← upto_succ] at h'
            exact ⟨k + 1, by omega, .inl h'⟩
          · obtain ⟨l, hl⟩ := h'.2.2.2.2 acc y (a' ++ x :: b') hr (by rw [h]; rfl)
            rw [← upto_succ] at hl
            exact ⟨k + 1, by omega, .inr ⟨b' ++ l, by rw [← hl]; simp⟩⟩
        · exact ⟨k, hk, .inl hr⟩
    obtain ⟨j, hj, h | ⟨b', h⟩⟩ := hnext
    · exact ⟨j, hj, .inl h⟩
    · obtain ⟨i, hi, h'⟩ := ih j a' b' ha' h
      exact ⟨i, by omega, h'⟩

/-- The caller has its answer, or its reply sender was dropped, which wakes it as well. -/
def Settled (s : State P) (t : Nat) : Prop := answersOf s t ≠ [] ∨ t ∈ s.dropped

omit [DecidableEq P] in
theorem settled_answer (s : State P) (t : Nat) (a : Ans P) : Settled (s.answer t a) t := by
  left
  simp [answersOf, State.answer]

theorem task_settles (hf : Fair c own ops) (n q t : Nat) (r : WireReq P)
    (h : (upto c own ops n).tasks.find q = some ⟨.reply t, r⟩) : ∃ k, n ≤ k ∧ Settled (upto c own ops k) t := by
  have act : ∀ k, (upto c own ops k).tasks.find q = some ⟨.reply t, r⟩ → (∃ o, ops k = .taskDone q o) →
      Settled (upto c own ops (k + 1)) t := by
    rintro k hk ⟨o, ho⟩
    rw [upto_succ, ho]
    simp only [State.step, State.taskDone, hk]
    cases o with
    | val o => exact settled_answer _ _ _
    | panic => exact .inr (by simp)
  refine leads (A := fun k => (upto c own ops k).tasks.find q = some ⟨.reply t, r⟩)
    (R := fun k => ∃ o, ops k = .taskDone q o) h ?_ act (hf.tasks n q (by rw [h]; nofun))
  intro k hk
  by_cases hd : ∃ o, ops k = .taskDone q o
  · exact .inr (act k hk hd)
  · left
    show (upto c own ops (k + 1)).tasks.find q = _
    rw [upto_succ]
    exact task_kept (upto_inv c own ops k) c _ q _ hk (fun o ho => hd ⟨o, ho⟩)

theorem dead_settles (hf : Fair c own ops) (n t : Nat) (ht : t < (upto c own ops n).nextTx)
    (hd : (upto c own ops n).alive = false) : ∃ k, n ≤ k ∧ Settled (upto c own ops k) t := by
  have hi := upto_inv c own ops n
  have h1 := hi.exactly_one ht
  obtain ⟨d1, d2, d3, d4⟩ := hi.dead hd
  rw [d1, d2, d3, d4] at h1
  simp only [List.filterMap_nil, List.map_nil, List.count_nil, Nat.zero_add] at h1
  by_cases ha : answersOf (upto c own ops n) t = []
  · by_cases hdr : t ∈ (upto c own ops n).dropped
    · exact ⟨n, Nat.le_refl _, .inr hdr⟩
    · rw [ha, List.count_eq_zero.mpr hdr] at h1
      have hm : t ∈ (upto c own ops n).tasks.filterMap (fun p => p.2.sink.tx) := by
        refine List.count_pos_iff.mp ?_
        simp only [List.length_nil] at h1
        omega
      obtain ⟨⟨q, ⟨sk, r⟩⟩, hq, hs⟩ := List.mem_filterMap.mp hm
      cases sk with
      | reply t' =>
        simp only [Sink.tx, Option.some.injEq] at hs
        subst hs
        exact task_settles hf n q _ r (Map.find_of_mem hi.tasks hq)
      | channel ch => simp [Sink.tx] at hs
  · exact ⟨n, Nat.le_refl _, .inl ha⟩

theorem nextTx_mono (n k : Nat) (h : n ≤ k) : (upto c own ops n).nextTx ≤ (upto c own ops k).nextTx := by
  have hr : ∀ (s : State P) tx p r, (s.request tx p r).nextTx = s.nextTx := by
    intro s tx p r
    unfold State.request State.spawn
    split <;> rfl
  have hrem : ∀ (s : State P) k, (s.removeRecord k).nextTx = s.nextTx := by
    intro s k
    unfold State.removeRecord
    split <;> (try split) <;> rfl
  have hs : ∀ (s : State P) (op : Op P), s.nextTx ≤ (s.step c op).nextTx := by
    intro s op
    cases op with
    | recv acc =>
      simp only [State.step]
      split
      · split
        · exact Nat.le_refl _
        · rename_i tx cmd rest hq
          cases cmd <;> simp only [State.call, hr] <;> (repeat' split) <;>
            simp [State.answer, State.die, State.getQuery, State.putQuery, hrem]
        · rename_i n rest hq
          cases n <;> exact Nat.le_refl _
      · exact Nat.le_refl _
    | event e =>
      simp only [State.step]
      split
      · cases e <;> simp only [State.event] <;> (try split) <;> exact Nat.le_refl _
      · exact Nat.le_refl _
    | taskDone t o =>
      simp only [State.step, State.taskDone]
      split
      · exact Nat.le_refl _
      · split <;> (try split) <;> exact Nat.le_refl _
    | send cmd => simp only [State.step]; split <;> simp
    | addPeerAddress => simp only [State.step]; split <;> simp
    | disconnectPeerId => simp only [State.step]; split <;> simp
    | setPeers n => exact Nat.le_refl _
    | storeRemote k r => simp only [State.step]; split <;> simp
  induction k with
  | zero => simp [Nat.le_zero.mp h]
  | succ k ih =>
    rcases Nat.lt_or_ge n (k + 1) with h' | h'
    · rw [upto_succ]
      exact Nat.le_trans (ih (by omega)) (hs _ _)
    · have : n = k + 1 := by omega
      rw [this]; exact Nat.le_refl _

/-- Somebody who waits for libp2p is settled. -/
theorem outside_settles (hf : Fair c own ops) (n t : Nat) (ht : t < (upto c own ops n).nextTx)
    (h : (∃ q, (upto c own ops n).gets.find q = some t) ∨ (∃ q, (upto c own ops n).puts.find q = some t) ∨
      ∃ q, (upto c own ops n).reqs.find q = some t) : ∃ k, n ≤ k ∧ Settled (upto c own ops k) t := by
  suffices hs : ∃ k, n ≤ k ∧ (Settled (upto c own ops k) t ∨ (upto c own ops k).alive = false) by
    obtain ⟨k, hk, hs | hs⟩ := hs
    · exact ⟨k, hk, hs⟩
    · obtain ⟨j, hj, h'⟩ := dead_settles hf k t (Nat.lt_of_lt_of_le ht (nextTx_mono n k hk)) hs
      exact ⟨j, by omega, h'⟩
  rcases h with ⟨q, h⟩ | ⟨q, h⟩ | ⟨q, h⟩
  · have act : ∀ k, (upto c own ops k).gets.find q = some t → (EndsGet q (ops k) ∨ (upto c own ops k).alive = false) →
        (Settled (upto c own ops (k + 1)) t ∨ (upto c own ops (k + 1)).alive = false) := by
      intro k hk hr
      have hal : (upto c own ops k).alive = true := by
        refine Classical.byContradiction fun hn => ?_
        rw [((upto_inv c own ops k).dead (by simpa using hn)).2.1] at hk
        cases hk
      rcases hr with (⟨v, hr⟩ | ⟨e, hr⟩) | hr
      · left; rw [upto_succ, hr]; simp only [State.step, hal, if_true, State.event, hk]; exact settled_answer _ _ _
      · left; rw [upto_succ, hr]; simp only [State.step, hal, if_true, State.event, hk]; exact settled_answer _ _ _
      · rw [hal] at hr; cases hr
    refine leads (A := fun k => (upto c own ops k).gets.find q = some t)
      (R := fun k => EndsGet q (ops k) ∨ (upto c own ops k).alive = false) h ?_ act (hf.gets n q (by rw [h]; nofun))
    intro k hk
    by_cases hd : EndsGet q (ops k)
    · exact .inr (act k hk (.inl hd))
    · rcases step_kept (upto_inv c own ops k) c (ops k) with h' | h'
      · exact .inr (.inr (by rw [upto_succ]; exact h'))
      · exact .inl (by rw [upto_succ]; exact h'.1 q t hk hd)
  · have act : ∀ k, (upto c own ops k).puts.find q = some t → (EndsPut q (ops k) ∨ (upto c own ops k).alive = false) →
        (Settled (upto c own ops (k + 1)) t ∨ (upto c own ops (k + 1)).alive = false) := by
      intro k hk hr
      have hal : (upto c own ops k).alive = true := by
        refine Classical.byContradiction fun hn => ?_
        rw [((upto_inv c own ops k).dead (by simpa using hn)).2.2.1] at hk
        cases hk
      rcases hr with ⟨v, hr⟩ | hr
      · left; rw [upto_succ, hr]; simp only [State.step, hal, if_true, State.event, hk]; exact settled_answer _ _ _
      · rw [hal] at hr; cases hr
    refine leads (A := fun k => (upto c own ops k).puts.find q = some t)
      (R := fun k => EndsPut q (ops k) ∨ (upto c own ops k).alive = false) h ?_ act (hf.puts n q (by rw [h]; nofun))
    intro k hk
    by_cases hd : EndsPut q (ops k)
    · exact .inr (act k hk (.inl hd))
    · rcases step_kept (upto_inv c own ops k) c (ops k) with h' | h'
      · exact .inr (.inr (by rw [upto_succ]; exact h'))
      · exact .inl (by rw [upto_succ]; exact h'.2.1 q t hk hd)
  · have act : ∀ k, (upto c own ops k).reqs.find q = some t → (EndsReq q (ops k) ∨ (upto c own ops k).alive = false) →
        (Settled (upto c own ops (k + 1)) t ∨ (upto c own ops (k + 1)).alive = false) := by
      intro k hk hr
      have hal : (upto c own ops k).alive = true := by
        refine Classical.byContradiction fun hn => ?_
        rw [((upto_inv c own ops k).dead (by simpa using hn)).2.2.2] at hk
        cases hk
      rcases hr with (⟨v, hr⟩ | ⟨e, hr⟩) | hr
      · left; rw [upto_succ, hr]; simp only [State.step, hal, if_true, State.event, hk]; exact settled_answer _ _ _
      · left; rw [upto_succ, hr]; simp only [State.step, hal, if_true, State.event, hk]; exact settled_answer _ _ _
      · rw [hal] at hr; cases hr
    refine leads (A := fun k => (upto c own ops k).reqs.find q = some t)
      (R := fun k => EndsReq q (ops k) ∨ (upto c own ops k).alive = false) h ?_ act (hf.reqs n q (by rw [h]; nofun))
    intro k hk
    by_cases hd : EndsReq q (ops k)
    · exact .inr (act k hk (.inl hd))
    · rcases step_kept (upto_inv c own ops k) c (ops k) with h' | h'
      · exact .inr (.inr (by rw [upto_succ]; exact h'))
      · exact .inl (by rw [upto_succ]; exact h'.2.2.1 q t hk hd)

/-- Whoever does not wait in the command channel is settled. -/
theorem taken_settles (hf : Fair c own ops) (n t : Nat) (ht : t < (upto c own ops n).nextTx)
    (hq : t ∉ (upto c own ops n).queue.filterMap Item.tx) : ∃ k, n ≤ k ∧ Settled (upto c own ops k) t := by
  have hi := upto_inv c own ops n
  have h1 := hi.exactly_one ht
  rw [List.count_eq_zero.mpr hq] at h1
  have hin : ∀ {m : Map Nat Nat}, m.Ok → 0 < (m.map (·.2)).count t → ∃ q, m.find q = some t := by
    intro m hm hc
    obtain ⟨⟨q, t'⟩, hp, he⟩ := List.mem_map.mp (List.count_pos_iff.mp hc)
    simp only at he
    subst he
    exact ⟨q, Map.find_of_mem hm hp⟩
  by_cases hg : 0 < ((upto c own ops n).gets.map (·.2)).count t
  · exact outside_settles hf n t ht (.inl (hin hi.gets hg))
  by_cases hp : 0 < ((upto c own ops n).puts.map (·.2)).count t
  · exact outside_settles hf n t ht (.inr (.inl (hin hi.puts hp)))
  by_cases hr : 0 < ((upto c own ops n).reqs.map (·.2)).count t
  · exact outside_settles hf n t ht (.inr (.inr (hin hi.reqs hr)))
  by_cases ha : answersOf (upto c own ops n) t = []
  · by_cases hd : t ∈ (upto c own ops n).dropped
    · exact ⟨n, Nat.le_refl _, .inr hd⟩
    · rw [ha, List.count_eq_zero.mpr hd, List.length_nil] at h1
      have hm : t ∈ (upto c own ops n).tasks.filterMap (fun p => p.2.sink.tx) := List.count_pos_iff.mp (by omega)
      obtain ⟨⟨q, ⟨sk, r⟩⟩, hqt, hs⟩ := List.mem_filterMap.mp hm
      cases sk with
      | reply t' =>
        simp only [Sink.tx, Option.some.injEq] at hs
        subst hs
        exact task_settles hf n q _ r (Map.find_of_mem hi.tasks hqt)
      | channel ch => simp [Sink.tx] at hs
  · exact ⟨n, Nat.le_refl _, .inl ha⟩

theorem call_queue (s : State P) (c : PeerCodec P) (acc : Bool) (tx : Nat) (cmd : Cmd P) :
    (s.call c acc tx cmd).queue = s.queue ∨ (s.call c acc tx cmd).queue = [] := by
  have hr : ∀ (s : State P) tx p r, (s.request tx p r).queue = s.queue := by
    intro s tx p r
    unfold State.request State.spawn
    split <;> rfl
  have hrem : ∀ (s : State P) k, (s.removeRecord k).queue = s.queue := fun s k => (removeRecord_rest s k).2.2.2.2.1
  cases cmd <;> simp only [State.call, hr] <;> (repeat' split) <;>
    simp [State.answer, State.die, State.getQuery, State.putQuery, hrem]

theorem recv_queue (s : State P) (c : PeerCodec P) (acc : Bool) (tx : Nat) (cmd : Cmd P) (rest : List (Item P))
    (hal : s.alive = true) (hq : s.queue = .call tx cmd :: rest) :
    (s.step c (.recv acc)).queue = rest ∨ (s.step c (.recv acc)).queue = [] := by
  have h := call_queue { s with queue := rest } c acc tx cmd
  have he : s.step c (.recv acc) = ({ s with queue := rest } : State P).call c acc tx cmd := by
    simp only [State.step]
    rw [if_pos hal]
    split
    · rename_i h0; rw [hq] at h0; cases h0
    · rename_i t' c' r' h0; rw [hq] at h0; cases h0; rfl
    · rename_i h0; rw [hq] at h0; cases h0
  rw [he]
  exact h

theorem settles (hf : Fair c own ops) (n t : Nat) (ht : t < (upto c own ops n).nextTx) :
    ∃ k, n ≤ k ∧ Settled (upto c own ops k) t := by
  by_cases hq : t ∈ (upto c own ops n).queue.filterMap Item.tx
  · obtain ⟨x, hx, hxt⟩ := List.mem_filterMap.mp hq
    cases x with
    | note m => cases hxt
    | call t' cmd =>
      simp only [Item.tx, Option.some.injEq] at hxt
      subst hxt
      obtain ⟨a, b, hab⟩ := List.append_of_mem hx
      obtain ⟨k, hk, h⟩ := item_taken hf _ a.length n a b rfl hab
      have htk := Nat.lt_of_lt_of_le ht (nextTx_mono n k hk)
      rcases h with h | ⟨hal, ⟨acc, hop⟩, rest, h⟩
      · obtain ⟨j, hj, h'⟩ := dead_settles hf k _ htk h
        exact ⟨j, by omega, h'⟩
      · have hnr : t' ∉ rest.filterMap Item.tx := by
          have h1 := (upto_inv c own ops k).exactly_one htk
          rw [h] at h1
          simp only [List.filterMap_cons, Item.tx, List.count_cons, beq_iff_eq, if_true] at h1
          intro hm
          have := List.count_pos_iff.mpr hm
          omega
        have hnq : t' ∉ (upto c own ops (k + 1)).queue.filterMap Item.tx := by
          rw [upto_succ, hop]
          rcases recv_queue (upto c own ops k) c acc t' cmd rest hal h with hc | hc
          · rw [hc]; exact hnr
          · rw [hc]; simp
        obtain ⟨j, hj, h'⟩ := taken_settles hf (k + 1) t' (Nat.lt_of_lt_of_le ht (nextTx_mono n (k + 1) (by omega))) hnq
        exact ⟨j, by omega, h'⟩
  · exact taken_settles hf n t ht hq

theorem upto_add (c : PeerCodec P) (own : P) (ops : Nat → Op P) (n d : Nat) :
    upto c own ops (n + d) = ((List.range d).map (fun i => ops (n + i))).foldl (State.step c) (upto c own ops n) := by
  induction d with
  | zero => rfl
  | succ d ih => rw [← Nat.add_assoc, upto_succ, ih, List.range_succ]; simp

theorem settled_stays {n k t : Nat} (h : n ≤ k) (hs : Settled (upto c own ops n) t) : Settled (upto c own ops k) t := by
  rw [show k = n + (k - n) by omega, upto_add]
  rcases hs with hs | hs
  · left
    obtain ⟨l, hl⟩ := answers_prefix_foldl (upto c own ops n) c ((List.range (k - n)).map (fun i => ops (n + i)))
    intro hn
    apply hs
    unfold answersOf at hn ⊢
    rw [← hl, List.filterMap_append] at hn
    exact (List.append_eq_nil_iff.mp hn).1
  · exact .inr (dropped_stays (upto_inv c own ops n) c _ hs).2

/-! ### An execution for the examples -/

/-- A finite execution, and then `recv` for ever. -/
def thenIdle (l : List (Op Byte)) (n : Nat) : Op Byte := l.getD n (.recv true)

/-- When nothing is left to do after `l`, then nothing happens any more. -/
theorem idle_after (l : List (Op Byte)) (hq : (upto Wire.byteCodec 1 (thenIdle l) l.length).queue = []) (d : Nat) :
    upto Wire.byteCodec 1 (thenIdle l) (l.length + d) = upto Wire.byteCodec 1 (thenIdle l) l.length := by
  induction d with
  | zero => rfl
  | succ d ih =>
    rw [← Nat.add_assoc, upto_succ, ih]
    have : thenIdle l (l.length + d) = .recv true := by simp [thenIdle, List.getD]
    rw [this]
    simp [State.step, hq]

/-- Node 1 with peers: caller 0 looks up "a", caller 1 asks an actor of node 2, caller 2 registers a name, node 3 asks
actor 9 of node 1. All are answered, in another order. -/
def liveDemo : List (Op Byte) :=
  [.setPeers 2, .send (.lookup "a"), .send (.ask 2 ⟨⟨7, .peerId 2⟩, "A", "m", [], none, none, false⟩),
    .send (.register "b" [1]), .event (.request 5 (.ask ⟨⟨9, .peerId 1⟩, "A", "m", [], none, none, false⟩)),
    .recv true, .taskDone 0 (.val ⟨.ok [4], .ok ()⟩), .recv true, .recv true, .event (.putResult 0 (.ok ())),
    .event (.putResult 1 (.ok ())), .event (.response 0 (.ask (.ok [9]))), .event (.getErr 0 .notFound), .recv true]

/-- Fairness of such an execution is checked step by step: whatever is waited for during `l` ends at a place in `l`. -/
theorem fair_of (l : List (Op Byte)) (hq : (upto Wire.byteCodec 1 (thenIdle l) l.length).queue = [])
    (hg : ∀ n, n ≤ l.length → ∀ q ∈ (upto Wire.byteCodec 1 (thenIdle l) n).gets.keys, ∃ k, n ≤ k ∧ EndsGet q (thenIdle l k))
    (hp : ∀ n, n ≤ l.length → ∀ q ∈ (upto Wire.byteCodec 1 (thenIdle l) n).puts.keys, ∃ k, n ≤ k ∧ EndsPut q (thenIdle l k))
    (hr : ∀ n, n ≤ l.length → ∀ q ∈ (upto Wire.byteCodec 1 (thenIdle l) n).reqs.keys, ∃ k, n ≤ k ∧ EndsReq q (thenIdle l k))
    (ht : ∀ n, n ≤ l.length → ∀ q ∈ (upto Wire.byteCodec 1 (thenIdle l) n).tasks.keys,
      ∃ k, n ≤ k ∧ ∃ o, thenIdle l k = .taskDone q o)
    (he : (upto Wire.byteCodec 1 (thenIdle l) l.length).gets = [] ∧ (upto Wire.byteCodec 1 (thenIdle l) l.length).puts = [] ∧
      (upto Wire.byteCodec 1 (thenIdle l) l.length).reqs = [] ∧ (upto Wire.byteCodec 1 (thenIdle l) l.length).tasks = []) :
    Fair Wire.byteCodec 1 (thenIdle l) := by
  have mem : ∀ {V : Type} {m : Map Nat V} {q : Nat}, m.find q ≠ none → q ∈ m.keys := by
    intro V m q h
    exact Classical.byContradiction fun hn => h ((Map.find_none_iff m q).mpr hn)
  have late : ∀ n, ¬ n ≤ l.length → upto Wire.byteCodec 1 (thenIdle l) n = upto Wire.byteCodec 1 (thenIdle l) l.length := by
    intro n hn
    rw [show n = l.length + (n - l.length) by omega, idle_after l hq]
  constructor
  · intro n _
    exact ⟨l.length + n, by omega, .inl ⟨true, by simp [thenIdle, List.getD]⟩⟩
  · intro n q h
    by_cases hn : n ≤ l.length
    · obtain ⟨k, hk, hh⟩ := hg n hn q (mem h)
      exact ⟨k, hk, .inl hh⟩
    · rw [late n hn, he.1] at h; exact absurd rfl h
  · intro n q h
    by_cases hn : n ≤ l.length
    · obtain ⟨k, hk, hh⟩ := hp n hn q (mem h)
      exact ⟨k, hk, .inl hh⟩
    · rw [late n hn, he.2.1] at h; exact absurd rfl h
  · intro n q h
    by_cases hn : n ≤ l.length
    · obtain ⟨k, hk, hh⟩ := hr n hn q (mem h)
      exact ⟨k, hk, .inl hh⟩
    · rw [late n hn, he.2.2.1] at h; exact absurd rfl h
  · intro n q h
    by_cases hn : n ≤ l.length
    · exact ht n hn q (mem h)
    · rw [late n hn, he.2.2.2] at h; exact absurd rfl h

theorem liveDemo_fair : Fair Wire.byteCodec 1 (thenIdle liveDemo) := by
  have g : ∀ n, n ≤ liveDemo.length → ∀ q ∈ (upto Wire.byteCodec 1 (thenIdle liveDemo) n).gets.keys, q = 0 ∧ n ≤ 12 := by
    decide
  have p : ∀ n, n ≤ liveDemo.length → ∀ q ∈ (upto Wire.byteCodec 1 (thenIdle liveDemo) n).puts.keys, q = 1 ∧ n ≤ 10 := by
    decide
  have r : ∀ n, n ≤ liveDemo.length → ∀ q ∈ (upto Wire.byteCodec 1 (thenIdle liveDemo) n).reqs.keys, q = 0 ∧ n ≤ 11 := by
    decide
  have t : ∀ n, n ≤ liveDemo.length → ∀ q ∈ (upto Wire.byteCodec 1 (thenIdle liveDemo) n).tasks.keys, q = 0 ∧ n ≤ 6 := by
    decide
  refine fair_of _ rfl ?_ ?_ ?_ ?_ ⟨rfl, rfl, rfl, rfl⟩
  · intro n hn q hq
    obtain ⟨rfl, h⟩ := g n hn q hq
    exact ⟨12, h, .inr ⟨_, rfl⟩⟩
  · intro n hn q hq
    obtain ⟨rfl, h⟩ := p n hn q hq
    exact ⟨10, h, _, rfl⟩
  · intro n hn q hq
    obtain ⟨rfl, h⟩ := r n hn q hq
    exact ⟨11, h, .inl ⟨_, rfl⟩⟩
  · intro n hn q hq
    obtain ⟨rfl, h⟩ := t n hn q hq
    exact ⟨6, h, _, rfl⟩

/-! ### The theorems -/

/-- **C100** (every call comes back): whatever happens on the node — also when the swarm task panics — a caller that has
sent a command does not wait for ever. From some time on it has exactly one answer, always the same; or its reply sender
has been dropped, so that it panics, and there is no answer. -/
theorem every_call_comes_back (c : PeerCodec P) (own : P) (ops : Nat → Op P) (hf : Fair c own ops) (n t : Nat)
    (ht : t < (upto c own ops n).nextTx) : ∃ k, n ≤ k ∧
      ((∃ a, ∀ m, k ≤ m → answersOf (upto c own ops m) t = [a] ∧ t ∉ (upto c own ops m).dropped) ∨
        ∀ m, k ≤ m → answersOf (upto c own ops m) t = [] ∧ t ∈ (upto c own ops m).dropped) := by
  obtain ⟨k, hk, hs⟩ := settles hf n t ht
  refine ⟨k, hk, ?_⟩
  have one : ∀ m, k ≤ m → (answersOf (upto c own ops m) t).length + (upto c own ops m).dropped.count t ≤ 1 := by
    intro m hm
    have := (upto_inv c own ops m).exactly_one (Nat.lt_of_lt_of_le ht (nextTx_mono n m (by omega)))
    omega
  rcases hs with hs | hs
  · left
    obtain ⟨a, ha⟩ : ∃ a, answersOf (upto c own ops k) t = [a] := by
      have := one k (Nat.le_refl _)
      match h : answersOf (upto c own ops k) t with
      | [] => exact absurd h hs
      | [a] => exact ⟨a, rfl⟩
      | a :: b :: l => rw [h] at this; simp at this; omega
    refine ⟨a, fun m hm => ?_⟩
    have h1 : answersOf (upto c own ops m) t = [a] := by
      rw [show m = k + (m - k) by omega, upto_add]
      exact answered_stays (upto_inv c own ops k) c _ ha
    refine ⟨h1, fun hd => ?_⟩
    have := one m hm
    have h2 := List.count_pos_iff.mpr hd
    rw [h1] at this
    simp at this
    omega
  · right
    intro m hm
    rw [show m = k + (m - k) by omega, upto_add]
    exact dropped_stays (upto_inv c own ops k) c _ hs

/-- In `liveDemo` three callers send a command; all three have their answer at the end. -/
example : Fair Wire.byteCodec 1 (thenIdle liveDemo) ∧ (upto Wire.byteCodec 1 (thenIdle liveDemo) 4).nextTx = 3 ∧
    answersOf (upto Wire.byteCodec 1 (thenIdle liveDemo) 14) 0 = [.record (.error .notFound)] ∧
    answersOf (upto Wire.byteCodec 1 (thenIdle liveDemo) 14) 1 = [.resp (.ask (.ok [9]))] ∧
    answersOf (upto Wire.byteCodec 1 (thenIdle liveDemo) 14) 2 = [.put (.ok ())] := ⟨liveDemo_fair, rfl, rfl, rfl, rfl⟩

/-- **C100** (every call is answered): as long as the swarm task lives and no task that handles a command on this node
panics, every call has, from some time on, exactly one answer. -/
theorem every_call_answered (c : PeerCodec P) (own : P) (ops : Nat → Op P) (hf : Fair c own ops)
    (ha : ∀ n, (upto c own ops n).alive = true) (hp : ∀ n, (ops n).isTaskPanic = false) (n t : Nat)
    (ht : t < (upto c own ops n).nextTx) : ∃ k a, n ≤ k ∧ ∀ m, k ≤ m → answersOf (upto c own ops m) t = [a] := by
  obtain ⟨k, hk, ⟨a, h⟩ | h⟩ := every_call_comes_back c own ops hf n t ht
  · exact ⟨k, a, hk, fun m hm => (h m hm).1⟩
  · have h1 := (h k (Nat.le_refl _)).2
    have h2 : (upto c own ops k).dropped = [] := no_caller_panics c own _ (ha k) (by
      intro op hop
      obtain ⟨i, -, rfl⟩ := List.mem_map.mp hop
      exact hp i)
    rw [h2] at h1
    cases h1

theorem liveDemo_alive (n : Nat) : (upto Wire.byteCodec 1 (thenIdle liveDemo) n).alive = true := by
  rcases Nat.lt_or_ge n 14 with h | h
  · revert n; decide
  · rw [show n = liveDemo.length + (n - 14) by simp [liveDemo]; omega, idle_after liveDemo rfl]
    rfl

theorem liveDemo_no_panic (n : Nat) : (thenIdle liveDemo n).isTaskPanic = false := by
  rcases Nat.lt_or_ge n 14 with h | h
  · revert n; decide
  · have : thenIdle liveDemo n = .recv true := by
      simp only [thenIdle, List.getD, List.getElem?_eq_none (show liveDemo.length ≤ n from h), Option.getD_none]
    rw [this]; rfl

example : Fair Wire.byteCodec 1 (thenIdle liveDemo) ∧ (∀ n, (upto Wire.byteCodec 1 (thenIdle liveDemo) n).alive = true) ∧
    (∀ n, (thenIdle liveDemo n).isTaskPanic = false) ∧ (upto Wire.byteCodec 1 (thenIdle liveDemo) 4).nextTx = 3 :=
  ⟨liveDemo_fair, liveDemo_alive, liveDemo_no_panic, rfl⟩

/-- **C100** (every request of a peer is answered): a node whose swarm task lives answers each request it takes in from
another node: the task that handles the request ends, and what it has found is sent into the channel of that request — or
it panics, and the channel is dropped, which the other node gets as a failure. -/
theorem every_request_answered (c : PeerCodec P) (own : P) (ops : Nat → Op P) (hf : Fair c own ops)
    (ha : ∀ n, (upto c own ops n).alive = true) (n ch : Nat) (r : WireReq P) (he : ops n = .event (.request ch r)) :
    let q := (upto c own ops n).nextTask
    ∃ k, n < k ∧ (upto c own ops k).tasks.find q = some ⟨.channel ch, r⟩ ∧
      (ops k = .taskDone q .panic ∨ ∃ o, ops k = .taskDone q (.val o) ∧
        ∃ j, k < j ∧ (upto c own ops (j + 1)).responded = (upto c own ops j).responded ++ [(ch, r.answer o)]) := by
  intro q
  have h0 : (upto c own ops (n + 1)).tasks.find q = some ⟨.channel ch, r⟩ := by
    rw [upto_succ, he]
    simp only [State.step, ha n, if_true, State.event, State.spawn, Map.find_put, q]
  obtain ⟨k', hk', k, rfl, hk, o, ho⟩ := leads (n := n + 1)
    (A := fun k => n + 1 ≤ k ∧ (upto c own ops k).tasks.find q = some ⟨.channel ch, r⟩)
    (B := fun k' => ∃ j, j + 1 = k' ∧ (n + 1 ≤ j ∧ (upto c own ops j).tasks.find q = some ⟨.channel ch, r⟩) ∧
      ∃ o, ops j = .taskDone q o)
    (R := fun k => ∃ o, ops k = .taskDone q o) ⟨Nat.le_refl _, h0⟩ (by
      intro k hk
      by_cases hd : ∃ o, ops k = .taskDone q o
      · exact .inr ⟨k, rfl, hk, hd⟩
      · refine .inl ⟨by omega, ?_⟩
        rw [upto_succ]
        exact task_kept (upto_inv c own ops k) c _ q _ hk.2 (fun o ho => hd ⟨o, ho⟩)) (fun k h1 h2 => ⟨k, rfl, h1, h2⟩)
    (hf.tasks (n + 1) q (by rw [h0]; nofun))
  refine ⟨k, by omega, hk.2, ?_⟩
  cases o with
  | panic => exact .inl ho
  | val o =>
    refine .inr ⟨o, ho, ?_⟩
    have hq : (upto c own ops (k + 1)).queue = (upto c own ops k).queue ++ [.note (r.command o ch)] := by
      rw [upto_succ, ho]
      simp only [State.step, State.taskDone, hk.2, ha k, if_true]
    obtain ⟨j, hj, h | ⟨hal, ⟨acc, hop⟩, rest, h⟩⟩ := item_taken hf _ _ (k + 1) _ [] rfl hq
    · rw [ha j] at h; cases h
    · refine ⟨j, by omega, ?_⟩
      rw [upto_succ, hop]
      simp only [State.step, hal, if_true]
      split
      · rename_i h'; rw [h] at h'; cases h'
      · rename_i h'; rw [h] at h'; cases h'
      · rename_i x rest' h'
        rw [h] at h'
        cases h'
        cases r <;> rfl

/-- In `liveDemo` node 3 asks actor 9 of this node through channel 5; the actor's reply is sent into that channel,
after the commands that were in the command channel before it. -/
example : Fair Wire.byteCodec 1 (thenIdle liveDemo) ∧ (∀ n, (upto Wire.byteCodec 1 (thenIdle liveDemo) n).alive = true) ∧
    thenIdle liveDemo 4 = .event (.request 5 (.ask ⟨⟨9, .peerId 1⟩, "A", "m", [], none, none, false⟩)) ∧
    (upto Wire.byteCodec 1 (thenIdle liveDemo) 13).responded = [] ∧
    (upto Wire.byteCodec 1 (thenIdle liveDemo) 14).responded = [(5, .ask (.ok [4]))] :=
  ⟨liveDemo_fair, liveDemo_alive, rfl, rfl, rfl⟩

end Verif.Swarm
