import Verif.Swarm.Props

/-
Property theorems about the kinds of answers (C59): what a caller of the swarm is given fits the command it sent, so
that its `panic!("unexpected response")` is out of reach as long as the other nodes answer requests with responses of
the same kind; and this node does so.
-/

namespace Verif.Map

variable {K V : Type} [DecidableEq K]

theorem mem_put {m : Map K V} {k : K} {v : V} {x : K × V} (h : x ∈ m.put k v) : x = (k, v) ∨ x ∈ m := by
  induction m with
  | nil => simpa [put] using h
  | cons p rest ih =>
    obtain ⟨k', v'⟩ := p
    simp only [put] at h
    split at h
    · rcases List.mem_cons.mp h with h | h
      · exact Or.inl h
      · exact Or.inr (List.mem_cons_of_mem _ h)
    · rcases List.mem_cons.mp h with h | h
      · exact Or.inr (by rw [h]; exact List.mem_cons_self ..)
      · exact (ih h).imp id (List.mem_cons_of_mem _)

theorem mem_del {m : Map K V} {k : K} {x : K × V} (h : x ∈ m.del k) : x ∈ m := by
  induction m with
  | nil => simp [del] at h
  | cons p rest ih =>
    obtain ⟨k', v'⟩ := p
    simp only [del] at h
    split at h
    · exact List.mem_cons_of_mem _ h
    · rcases List.mem_cons.mp h with h | h
      · rw [h]; exact List.mem_cons_self ..
      · exact List.mem_cons_of_mem _ (ih h)

end Verif.Map

namespace Verif.Swarm

open Verif.ActorId
open Verif.Request (Out)
open Verif.Remote (Bytes Req Resp)
open Verif.Wire (RErr Reason)

variable {P : Type} [DecidableEq P]

/-- A response of the kind of a request. Specification; the kinds are those of
`src/remote/swarm.rs` L1231-1327. -/
inductive Matches : WireReq P → Resp → Prop
  | ask (r res) : Matches (.ask r) (.ask res)
  | tell (r res) : Matches (.tell r) (.tell res)
  | link (a b c d res) : Matches (.link a b c d) (.link res)
  | unlink (a b c res) : Matches (.unlink a b c) (.unlink res)
  | signalLinkDied (a b c d res) : Matches (.signalLinkDied a b c d) (.signalLinkDied res)

/-- What the sender of a command can deal with: `SwarmFuture<T>` with the types of `src/remote/swarm.rs` L212-415, and the
arms of the matches at L426-434, L448-455, L474-481, `src/request/ask.rs` L817-831, `src/request/tell.rs` L397-405. -/
inductive Fits : Cmd P → Ans P → Prop
  | listenOn (b r) : Fits (.listenOn b) (.transport r)
  | dial (b r) : Fits (.dial b) (.transport r)
  | lookup (k r) : Fits (.lookup k) (.record r)
  | lookupLocal (k r) : Fits (.lookupLocal k) (.registration r)
  | register (k v r) : Fits (.register k v) (.put r)
  | unregister (k r) : Fits (.unregister k) (.put r)
  | ask (p q res) : Fits (.ask p q) (.resp (.ask res))
  | askFailed (p q e) : Fits (.ask p q) (.resp (.outboundFailure e))
  | tell (p q res) : Fits (.tell p q) (.resp (.tell res))
  | tellFailed (p q e) : Fits (.tell p q) (.resp (.outboundFailure e))
  | link (a b c d res) : Fits (.link a b c d) (.resp (.link res))
  | linkFailed (a b c d e) : Fits (.link a b c d) (.resp (.outboundFailure e))
  | unlink (a b c res) : Fits (.unlink a b c) (.resp (.unlink res))
  | unlinkFailed (a b c e) : Fits (.unlink a b c) (.resp (.outboundFailure e))
  | signal (a b c d res) : Fits (.signalLinkDied a b c d) (.resp (.signalLinkDied res))
  | signalFailed (a b c d e) : Fits (.signalLinkDied a b c d) (.resp (.outboundFailure e))

/-- The commands sent so far, in order: the `t`-th has reply sender `t`. Specification; commands
are sent by `send_with_reply`, `src/remote/swarm.rs` L1009-1018. -/
def issued : List (Op P) → List (Cmd P)
  | [] => []
  | .send c :: ops => c :: issued ops
  | _ :: ops => issued ops

/-- The requests of other nodes that have arrived so far, each with its response channel.
Specification; they arrive at `src/remote/swarm.rs` L860-962. -/
def arrived : List (Op P) → List (Nat × WireReq P)
  | [] => []
  | .event (.request ch r) :: ops => (ch, r) :: arrived ops
  | _ :: ops => arrived ops

omit [DecidableEq P] in
theorem issued_snoc (ops : List (Op P)) (op : Op P) : issued (ops ++ [op]) = issued ops ++ issued [op] := by
  induction ops with
  | nil => rfl
  | cons o ops ih =>
    cases o <;> simp only [List.cons_append, issued] <;> simp [ih]

omit [DecidableEq P] in
theorem arrived_snoc (ops : List (Op P)) (op : Op P) : arrived (ops ++ [op]) = arrived ops ++ arrived [op] := by
  induction ops with
  | nil => rfl
  | cons o ops ih =>
    cases o with
    | event e => cases e <;> simp only [List.cons_append, arrived] <;> simp [ih]
    | _ => simp only [List.cons_append, arrived]; exact ih

/-- The other nodes answer a request with a response of its kind. Specification, on the events of
`src/remote/swarm.rs` L963-990. -/
def Honest (c : PeerCodec P) (own : P) (ops : List (Op P)) : Prop :=
  ∀ pre i r, pre ++ [.event (.response i r)] <+: ops → ∀ p w, (i, p, w) ∈ (run c own pre).sent → Matches w r

/-- The response a command without a reply sender makes the swarm send. `src/remote/swarm.rs`
L686-691, L720-722, L743-745, L774-778. -/
def Note.resp : Note → Option (Nat × Resp)
  | .addPeerAddress => none
  | .disconnectPeerId => none
  | .sendAskResponse res ch => some (ch, .ask res)
  | .sendTellResponse res ch => some (ch, .tell res)
  | .sendLinkResponse res ch => some (ch, .link res)
  | .sendUnlinkResponse res ch => some (ch, .unlink res)
  | .sendSignalLinkDiedResponse res ch => some (ch, .signalLinkDied res)

structure Typed (hon : Prop) (own : P) (cs : List (Cmd P)) (as : List (Nat × WireReq P)) (s : State P) : Prop where
  ownEq : s.own = own
  len : s.nextTx = cs.length
  queue : ∀ t c, .call t c ∈ s.queue → cs[t]? = some c
  gets : ∀ q t, (q, t) ∈ s.gets → ∃ k, cs[t]? = some (.lookup k)
  puts : ∀ q t, (q, t) ∈ s.puts → ∃ c, cs[t]? = some c ∧ ∀ r, Fits c (.put r)
  reqs : ∀ i t, (i, t) ∈ s.reqs → ∃ c x, cs[t]? = some c ∧ c.wire own = some x ∧ (i, x) ∈ s.sent
  replies : ∀ n t w, (n, ⟨.reply t, w⟩) ∈ s.tasks → ∃ c p, cs[t]? = some c ∧ c.wire own = some (p, w)
  answers : hon → ∀ t a, (t, a) ∈ s.answers → ∃ c, cs[t]? = some c ∧ Fits c a
  channels : ∀ n ch w, (n, ⟨.channel ch, w⟩) ∈ s.tasks → (ch, w) ∈ as
  notes : ∀ n ch r, .note n ∈ s.queue → n.resp = some (ch, r) → ∃ w, (ch, w) ∈ as ∧ Matches w r
  responded : ∀ ch r, (ch, r) ∈ s.responded → ∃ w, (ch, w) ∈ as ∧ Matches w r

variable {hon : Prop} {own : P} {cs : List (Cmd P)} {as : List (Nat × WireReq P)} {s : State P}

omit [DecidableEq P] in
theorem fits_of_matches {own : P} {c : Cmd P} {p : P} {w : WireReq P} {r : Resp} (h : c.wire own = some (p, w))
    (hm : Matches w r) : Fits c (.resp r) := by
  cases c <;> simp only [Cmd.wire, Option.some.injEq, Prod.mk.injEq, reduceCtorEq] at h <;> obtain ⟨-, rfl⟩ := h <;>
    cases hm <;> constructor

omit [DecidableEq P] in
theorem fits_failure {own : P} {c : Cmd P} {x : P × WireReq P} (h : c.wire own = some x) (e : RErr Empty) :
    Fits c (.resp (.outboundFailure e)) := by
  cases c <;> simp only [Cmd.wire, reduceCtorEq] at h <;> constructor

omit [DecidableEq P] in
theorem matches_answer (w : WireReq P) (o : TaskOut) : Matches w (w.answer o) := by
  cases w <;> constructor

omit [DecidableEq P] in
theorem resp_command (w : WireReq P) (o : TaskOut) (ch : Nat) : (w.command o ch).resp = some (ch, w.answer o) := by
  cases w <;> rfl

omit [DecidableEq P] in
theorem Typed.mono (h : Typed hon own cs as s) (x : List (Nat × WireReq P)) : Typed hon own cs (as ++ x) s :=
  { h with
    channels := fun n ch w hm => List.mem_append_left _ (h.channels n ch w hm)
    notes := fun n ch r h1 h2 => let ⟨w, h3, h4⟩ := h.notes n ch r h1 h2; ⟨w, List.mem_append_left _ h3, h4⟩
    responded := fun ch r h1 => let ⟨w, h3, h4⟩ := h.responded ch r h1; ⟨w, List.mem_append_left _ h3, h4⟩ }

omit [DecidableEq P] in
theorem Typed.answer (h : Typed hon own cs as s) {t : Nat} {a : Ans P} {c : Cmd P} (hc : cs[t]? = some c) (hf : hon → Fits c a) :
    Typed hon own cs as (s.answer t a) :=
  { h with
    answers := fun hon t' a' hm => by
      simp only [State.answer, List.mem_append, List.mem_singleton, Prod.mk.injEq] at hm
      rcases hm with hm | ⟨rfl, rfl⟩
      · exact h.answers hon t' a' hm
      · exact ⟨c, hc, hf hon⟩ }

omit [DecidableEq P] in
theorem Typed.die (h : Typed hon own cs as s) (t : Nat) : Typed hon own cs as (s.die t) :=
  { h with
    queue := fun _ _ hm => by cases hm
    gets := fun _ _ hm => by cases hm
    puts := fun _ _ hm => by cases hm
    reqs := fun _ _ hm => by cases hm
    notes := fun _ _ _ hm => by cases hm }

omit [DecidableEq P] in
theorem Typed.spawnReply (h : Typed hon own cs as s) {t : Nat} {c : Cmd P} {p : P} {w : WireReq P} (hc : cs[t]? = some c)
    (hw : c.wire own = some (p, w)) : Typed hon own cs as (s.spawn ⟨.reply t, w⟩) :=
  { h with
    replies := fun n t' w' hm => by
      rcases Map.mem_put hm with he | hm
      · simp only [Prod.mk.injEq, Task.mk.injEq, Sink.reply.injEq] at he
        obtain ⟨-, rfl, rfl⟩ := he
        exact ⟨c, p, hc, hw⟩
      · exact h.replies n t' w' hm
    channels := fun n ch w' hm => by
      rcases Map.mem_put hm with he | hm
      · simp at he
      · exact h.channels n ch w' hm }

omit [DecidableEq P] in
theorem Typed.spawnChannel (h : Typed hon own cs as s) {ch : Nat} {w : WireReq P} (hc : (ch, w) ∈ as) :
    Typed hon own cs as (s.spawn ⟨.channel ch, w⟩) :=
  { h with
    replies := fun n t' w' hm => by
      rcases Map.mem_put hm with he | hm
      · simp at he
      · exact h.replies n t' w' hm
    channels := fun n ch' w' hm => by
      rcases Map.mem_put hm with he | hm
      · simp only [Prod.mk.injEq, Task.mk.injEq, Sink.channel.injEq] at he
        obtain ⟨-, rfl, rfl⟩ := he
        exact hc
      · exact h.channels n ch' w' hm }

omit [DecidableEq P] in
theorem Typed.request (h : Typed hon own cs as s) {t : Nat} {c : Cmd P} {p : P} {w : WireReq P} (hc : cs[t]? = some c)
    (hw : c.wire own = some (p, w)) : Typed hon own cs as (s.request t p w) := by
  unfold State.request
  split
  · exact h.spawnReply hc hw
  · exact { h with
      reqs := fun i t' hm => by
        rcases Map.mem_put hm with he | hm
        · simp only [Prod.mk.injEq] at he
          obtain ⟨rfl, rfl⟩ := he
          exact ⟨c, (p, w), hc, hw, List.mem_append_right _ (List.mem_singleton.mpr rfl)⟩
        · obtain ⟨c', x, h1, h2, h3⟩ := h.reqs i t' hm
          exact ⟨c', x, h1, h2, List.mem_append_left _ h3⟩ }

omit [DecidableEq P] in
theorem Typed.getQuery (h : Typed hon own cs as s) {t : Nat} {k : Key} (hc : cs[t]? = some (.lookup k)) :
    Typed hon own cs as (s.getQuery t) :=
  { h with
    gets := fun q t' hm => by
      rcases Map.mem_put hm with he | hm
      · simp only [Prod.mk.injEq] at he
        obtain ⟨-, rfl⟩ := he
        exact ⟨k, hc⟩
      · exact h.gets q t' hm }

omit [DecidableEq P] in
theorem Typed.putQuery (h : Typed hon own cs as s) {t : Nat} {c : Cmd P} (hc : cs[t]? = some c) (hf : ∀ r, Fits c (.put r)) :
    Typed hon own cs as (s.putQuery t) :=
  { h with
    puts := fun q t' hm => by
      rcases Map.mem_put hm with he | hm
      · simp only [Prod.mk.injEq] at he
        obtain ⟨-, rfl⟩ := he
        exact ⟨c, hc, hf⟩
      · exact h.puts q t' hm }

omit [DecidableEq P] in
theorem Typed.store (h : Typed hon own cs as s) (m : Map Key (Stored P)) : Typed hon own cs as { s with store := m } := { h with }

theorem Typed.removeRecord (h : Typed hon own cs as s) (k : Key) : Typed hon own cs as (s.removeRecord k) := by
  obtain ⟨m, hm⟩ := removeRecord_eq s k
  rw [hm]
  exact h.store m

theorem Typed.call (h : Typed hon own cs as s) (c : PeerCodec P) (acc : Bool) {t : Nat} {cmd : Cmd P}
    (hc : cs[t]? = some cmd) : Typed hon own cs as (s.call c acc t cmd) := by
  cases cmd with
  | listenOn r => exact h.answer hc (fun _ => .listenOn _ _)
  | dial r => exact h.answer hc (fun _ => .dial _ _)
  | lookup k => exact h.getQuery hc
  | lookupLocal k =>
    simp only [State.call]
    split
    · exact h.answer hc (fun _ => .lookupLocal _ _)
    · split
      · exact h.die t
      · exact h.answer hc (fun _ => .lookupLocal _ _)
  | register k v =>
    simp only [State.call]
    split
    · exact h.die t
    · split
      · exact (h.store _).answer hc (fun _ => .register _ _ _)
      · exact (h.store _).putQuery hc (fun r => .register _ _ r)
  | unregister k =>
    simp only [State.call]
    split
    · exact (h.removeRecord k).answer hc (fun _ => .unregister _ _)
    · split
      · exact h.die t
      · exact ((h.store _).removeRecord k).putQuery hc (fun r => .unregister _ r)
  | ask p r => exact h.request hc rfl
  | tell p r => exact h.request hc rfl
  | link a b x d => exact h.request hc (by rw [h.ownEq]; rfl)
  | unlink a b x => exact h.request hc (by rw [h.ownEq]; rfl)
  | signalLinkDied a b x d => exact h.request hc (by rw [h.ownEq]; rfl)

omit [DecidableEq P] in
theorem Typed.notice (h : Typed hon own cs as s) {n : Note}
    (hn : ∀ ch r, n.resp = some (ch, r) → ∃ w, (ch, w) ∈ as ∧ Matches w r) : Typed hon own cs as (s.notice n) := by
  have hr : ∀ ch r, n.resp = some (ch, r) → Typed hon own cs as (s.respond ch r) := by
    intro ch r he
    refine { h with responded := fun ch' r' hm => ?_ }
    simp only [State.respond, List.mem_append, List.mem_singleton, Prod.mk.injEq] at hm
    rcases hm with hm | ⟨rfl, rfl⟩
    · exact h.responded ch' r' hm
    · exact hn _ _ he
  cases n with
  | addPeerAddress => exact h
  | disconnectPeerId => exact h
  | _ => exact hr _ _ rfl

omit [DecidableEq P] in
theorem Typed.pushNote (h : Typed hon own cs as s) {n : Note}
    (hn : ∀ ch r, n.resp = some (ch, r) → ∃ w, (ch, w) ∈ as ∧ Matches w r) :
    Typed hon own cs as { s with queue := s.queue ++ [.note n] } :=
  { h with
    queue := fun t c hm => by
      simp only [List.mem_append, List.mem_singleton, reduceCtorEq, or_false] at hm
      exact h.queue t c hm
    notes := fun n' ch r hm he => by
      simp only [List.mem_append, List.mem_singleton, Item.note.injEq] at hm
      rcases hm with hm | rfl
      · exact h.notes n' ch r hm he
      · exact hn ch r he }

omit [DecidableEq P] in
theorem Typed.pop (h : Typed hon own cs as s) {x : Item P} {rest : List (Item P)} (hq : s.queue = x :: rest) :
    Typed hon own cs as { s with queue := rest } :=
  { h with
    queue := fun t c hm => h.queue t c (by rw [hq]; exact List.mem_cons_of_mem _ hm)
    notes := fun n ch r hm => h.notes n ch r (by rw [hq]; exact List.mem_cons_of_mem _ hm) }

omit [DecidableEq P] in
theorem Typed.delTask (h : Typed hon own cs as s) (n : Nat) : Typed hon own cs as { s with tasks := s.tasks.del n } :=
  { h with
    replies := fun n' t w hm => h.replies n' t w (Map.mem_del hm)
    channels := fun n' ch w hm => h.channels n' ch w (Map.mem_del hm) }

theorem typed_step (h : Typed hon own cs as s) (c : PeerCodec P) (op : Op P)
    (hh : hon → ∀ i r, op = .event (.response i r) → ∀ p w, (i, p, w) ∈ s.sent → Matches w r) :
    Typed hon own (cs ++ issued [op]) (as ++ arrived [op]) (s.step c op) := by
  have hcons : ∀ {t : Nat} {c : Cmd P} (x : List (Cmd P)), cs[t]? = some c → (cs ++ x)[t]? = some c := by
    intro t c x hg
    rw [List.getElem?_append_left (List.getElem?_eq_some_iff.mp hg).1]
    exact hg
  cases op with
  | send cmd =>
    have h' : Typed hon own (cs ++ [cmd]) (as ++ []) { s with nextTx := s.nextTx + 1 } := by
      rw [List.append_nil]
      exact { h with
        len := by simp [h.len]
        queue := fun t c hm => hcons _ (h.queue t c hm)
        gets := fun q t hm => let ⟨k, hk⟩ := h.gets q t hm; ⟨k, hcons _ hk⟩
        puts := fun q t hm => let ⟨k, hk, hf⟩ := h.puts q t hm; ⟨k, hcons _ hk, hf⟩
        reqs := fun q t hm => let ⟨k, x, hk, hf⟩ := h.reqs q t hm; ⟨k, x, hcons _ hk, hf⟩
        replies := fun q t w hm => let ⟨k, x, hk, hf⟩ := h.replies q t w hm; ⟨k, x, hcons _ hk, hf⟩
        answers := fun hn t a hm => let ⟨k, hk, hf⟩ := h.answers hn t a hm; ⟨k, hcons _ hk, hf⟩ }
    simp only [State.step]
    split
    · exact { h' with
        queue := fun t c hm => by
          simp only [List.mem_append, List.mem_singleton, Item.call.injEq] at hm
          rcases hm with hm | ⟨rfl, rfl⟩
          · exact h'.queue t c hm
          · rw [h.len]; simp [issued]
        notes := fun n ch r hm he => by
          simp only [List.mem_append, List.mem_singleton, reduceCtorEq, or_false] at hm
          exact h'.notes n ch r hm he }
    · exact { h' with }
  | addPeerAddress =>
    simp only [issued, arrived, List.append_nil, State.step]
    split
    · exact h.pushNote (fun _ _ he => by cases he)
    · exact h
  | disconnectPeerId =>
    simp only [issued, arrived, List.append_nil, State.step]
    split
    · exact h.pushNote (fun _ _ he => by cases he)
    · exact h
  | recv acc =>
    simp only [issued, arrived, List.append_nil, State.step]
    split
    · split
      · exact h
      · rename_i tx cmd rest hq
        exact (h.pop hq).call c acc (h.queue _ _ (by rw [hq]; exact List.mem_cons_self ..))
      · rename_i n rest hq
        exact (h.pop hq).notice (fun ch r => h.notes n ch r (by rw [hq]; exact List.mem_cons_self ..))
    · exact h
  | setPeers n =>
    simp only [issued, arrived, List.append_nil]
    exact { h with }
  | storeRemote k r =>
    simp only [issued, arrived, List.append_nil, State.step]
    split <;> exact { h with }
  | taskDone n o =>
    simp only [issued, arrived, List.append_nil, State.step, State.taskDone]
    split
    · exact h
    · rename_i task hf
      obtain ⟨sink, req⟩ := task
      have hm := Map.mem_of_find hf
      cases sink with
      | reply tx =>
        cases o with
        | val o =>
          obtain ⟨cmd, p, hc, hw⟩ := h.replies _ _ _ hm
          exact (h.delTask n).answer hc (fun _ => fits_of_matches hw (matches_answer req o))
        | panic => exact { h.delTask n with }
      | channel ch =>
        cases o with
        | val o =>
          simp only
          split
          · refine (h.delTask n).pushNote (fun ch' r he => ?_)
            rw [resp_command] at he
            simp only [Option.some.injEq, Prod.mk.injEq] at he
            obtain ⟨rfl, rfl⟩ := he
            exact ⟨req, h.channels _ _ _ hm, matches_answer req o⟩
          · exact h.delTask n
        | panic => exact h.delTask n
  | event e =>
    simp only [State.step]
    by_cases ha : s.alive = true
    · rw [if_pos ha]
      cases e with
      | getFound q v =>
        simp only [issued, arrived, List.append_nil, State.event]
        split
        · rename_i tx hf
          obtain ⟨k, hk⟩ := h.gets _ _ (Map.mem_of_find hf)
          exact Typed.answer (s := { s with gets := s.gets.del q })
            { h with gets := fun q' t hm => h.gets q' t (Map.mem_del hm) } hk (fun _ => .lookup _ _)
        · exact h
      | getErr q v =>
        simp only [issued, arrived, List.append_nil, State.event]
        split
        · rename_i tx hf
          obtain ⟨k, hk⟩ := h.gets _ _ (Map.mem_of_find hf)
          exact Typed.answer (s := { s with gets := s.gets.del q })
            { h with gets := fun q' t hm => h.gets q' t (Map.mem_del hm) } hk (fun _ => .lookup _ _)
        · exact h
      | putResult q v =>
        simp only [issued, arrived, List.append_nil, State.event]
        split
        · rename_i tx hf
          obtain ⟨k, hk, hfit⟩ := h.puts _ _ (Map.mem_of_find hf)
          exact Typed.answer (s := { s with puts := s.puts.del q })
            { h with puts := fun q' t hm => h.puts q' t (Map.mem_del hm) } hk (fun _ => hfit _)
        · exact h
      | response q v =>
        simp only [issued, arrived, List.append_nil, State.event]
        split
        · rename_i tx hf
          obtain ⟨k, ⟨p, w⟩, hk, hw, hsent⟩ := h.reqs _ _ (Map.mem_of_find hf)
          exact Typed.answer (s := { s with reqs := s.reqs.del q })
            { h with reqs := fun q' t hm => h.reqs q' t (Map.mem_del hm) } hk
            (fun hn => fits_of_matches hw (hh hn q v rfl p w hsent))
        · exact h
      | outboundFailure q v =>
        simp only [issued, arrived, List.append_nil, State.event]
        split
        · rename_i tx hf
          obtain ⟨k, x, hk, hw, hsent⟩ := h.reqs _ _ (Map.mem_of_find hf)
          exact Typed.answer (s := { s with reqs := s.reqs.del q })
            { h with reqs := fun q' t hm => h.reqs q' t (Map.mem_del hm) } hk (fun _ => fits_failure hw v)
        · exact h
      | request ch r =>
        simp only [issued, arrived, List.append_nil]
        exact (h.mono [(ch, r)]).spawnChannel (List.mem_append_right _ (List.mem_singleton.mpr rfl))
      | connectionClosed p =>
        simp only [issued, arrived, List.append_nil]
        exact h
      | mdns =>
        simp only [issued, arrived, List.append_nil]
        exact h
      | getProgress q =>
        simp only [issued, arrived, List.append_nil]
        exact h
      | other =>
        simp only [issued, arrived, List.append_nil]
        exact h
    · rw [if_neg ha]
      simp only [issued, List.append_nil]
      exact h.mono _

theorem typed_run (c : PeerCodec P) (own : P) (ops : List (Op P)) :
    Typed (Honest c own ops) own (issued ops) (arrived ops) (run c own ops) := by
  have : ∀ (hon : Prop) (post pre : List (Op P)), (hon → Honest c own (pre ++ post)) → Typed hon own (issued pre) (arrived pre) (run c own pre) →
      Typed hon own (issued (pre ++ post)) (arrived (pre ++ post)) (run c own (pre ++ post)) := by
    intro hon post
    induction post with
    | nil => intro pre _ h; rw [List.append_nil]; exact h
    | cons op post ih =>
      intro pre hh h
      have e : pre ++ op :: post = (pre ++ [op]) ++ post := by simp
      rw [e] at hh ⊢
      refine ih _ hh ?_
      rw [issued_snoc, arrived_snoc, run_snoc]
      refine typed_step h c op (fun hn i r he => ?_)
      subst he
      exact hh hn pre i r (List.prefix_append _ _)
  refine this _ ops [] id ?_
  exact ⟨rfl, rfl, fun _ _ h => (by cases h), fun _ _ h => (by cases h), fun _ _ h => (by cases h),
    fun _ _ h => (by cases h), fun _ _ _ h => (by cases h), fun _ _ _ h => (by cases h), fun _ _ _ h => (by cases h),
    fun _ _ _ h => (by cases h), fun _ _ h => (by cases h)⟩

/-- A way to see that a run is honest: every response in it is of the kind of every request sent in it. -/
theorem honest_of {c : PeerCodec P} {own : P} {ops : List (Op P)}
    (h : ∀ i r, .event (.response i r) ∈ ops → ∀ x ∈ (run c own ops).sent, Matches x.2.2 r) : Honest c own ops := by
  rintro pre i r ⟨post, rfl⟩ p w hw
  refine h i r (by simp) (i, p, w) ?_
  have : run c own (pre ++ [.event (.response i r)] ++ post) =
      ([Op.event (.response i r)] ++ post).foldl (State.step c) (run c own pre) := by
    rw [List.append_assoc]; exact List.foldl_append
  rw [this]
  exact mem_sent_foldl c _ hw

/-- The run `demo` (Verif.Swarm.Props) is honest: the two responses in it are of the kind of the requests. -/
theorem demo_honest : Honest Wire.byteCodec 1 demo := by
  refine honest_of fun i r hr x hx => ?_
  have hs : (run Wire.byteCodec 1 demo).sent = [(0, 2, .ask ⟨⟨7, .peerId 2⟩, "A", "m", [], none, none, false⟩),
    (1, 3, .ask ⟨⟨8, .peerId 3⟩, "A", "m", [], none, none, false⟩)] := rfl
  rw [hs] at hx
  simp [demo] at hr
  simp only [List.mem_cons, List.not_mem_nil, or_false] at hx
  rcases hx with rfl | rfl <;> rcases hr with ⟨-, rfl⟩ | ⟨-, rfl⟩ <;> constructor

/-- An actor of node 1 tells actor 7 of node 2 something, and the answer is that the actor's mailbox has it. -/
def tellDemo : List (Op Byte) :=
  [.setPeers 1, .send (.tell 2 ⟨⟨7, .peerId 2⟩, "A", "m", [], none, none, false⟩), .recv true,
    .event (.response 0 (.tell (.ok ())))]

theorem tellDemo_honest : Honest Wire.byteCodec 1 tellDemo := by
  refine honest_of fun i r hr x hx => ?_
  have hs : (run Wire.byteCodec 1 tellDemo).sent =
    [(0, 2, .tell ⟨⟨7, .peerId 2⟩, "A", "m", [], none, none, false⟩)] := rfl
  rw [hs] at hx
  simp [tellDemo] at hr
  simp only [List.mem_cons, List.not_mem_nil, or_false] at hx
  obtain ⟨-, rfl⟩ := hr
  subst hx
  constructor

/-- **C59** (the answer fits the command): whatever is sent into the reply sender of the `t`-th command is something the
sender of that command deals with. -/
theorem answers_fit (c : PeerCodec P) (own : P) (ops : List (Op P)) (hh : Honest c own ops) (t : Nat) (a : Ans P)
    (ha : (t, a) ∈ (run c own ops).answers) : ∃ cmd, (issued ops)[t]? = some cmd ∧ Fits cmd a :=
  (typed_run c own ops).answers hh t a ha

example : Honest Wire.byteCodec 1 demo ∧ (run Wire.byteCodec 1 demo).answers =
      [(2, .resp (.ask (.ok [9]))), (1, .resp (.outboundFailure .networkTimeout)), (0, .record (.error .notFound))] ∧
    issued demo = [.lookup "a", .ask 2 ⟨⟨7, .peerId 2⟩, "A", "m", [], none, none, false⟩,
      .ask 3 ⟨⟨8, .peerId 3⟩, "A", "m", [], none, none, false⟩] := ⟨demo_honest, rfl, rfl⟩

/-- **C59** (an ask never panics on its answer): the caller of a remote ask makes a result of every answer it is given. -/
theorem ask_never_unexpected (c : PeerCodec P) (own : P) (ops : List (Op P)) (hh : Honest c own ops) (t : Nat) (p : P)
    (r : Req (ActorID P)) (hc : (issued ops)[t]? = some (.ask p r)) (a : Ans P)
    (ha : (t, a) ∈ (run c own ops).answers) (f : Remote.Fns) :
    ∃ resp v, a = .resp resp ∧ Remote.askResponse f resp = .val v := by
  obtain ⟨cmd, h1, h2⟩ := answers_fit c own ops hh t a ha
  rw [hc] at h1
  cases h1
  cases h2 with
  | ask _ _ res =>
    refine ⟨.ask res, ?_⟩
    cases res with
    | ok b =>
      cases hd : f.ok.dec b with
      | ok v => exact ⟨.ok v, rfl, by simp only [Remote.askResponse, hd]⟩
      | error e => exact ⟨.error (.deserializeMessage e), rfl, by simp only [Remote.askResponse, hd]⟩
    | error e => exact ⟨_, rfl, rfl⟩
  | askFailed _ _ e => exact ⟨_, _, rfl, rfl⟩

example : Honest Wire.byteCodec 1 demo ∧
    (issued demo)[1]? = some (.ask 2 ⟨⟨7, .peerId 2⟩, "A", "m", [], none, none, false⟩) ∧
    (run Wire.byteCodec 1 demo).answers[1]? = some (1, .resp (.outboundFailure .networkTimeout)) :=
  ⟨demo_honest, rfl, rfl⟩

/-- **C59** (a tell never panics on its answer). -/
theorem tell_never_unexpected (c : PeerCodec P) (own : P) (ops : List (Op P)) (hh : Honest c own ops) (t : Nat) (p : P)
    (r : Req (ActorID P)) (hc : (issued ops)[t]? = some (.tell p r)) (a : Ans P)
    (ha : (t, a) ∈ (run c own ops).answers) : ∃ resp v, a = .resp resp ∧ Remote.tellResponse resp = .val v := by
  obtain ⟨cmd, h1, h2⟩ := answers_fit c own ops hh t a ha
  rw [hc] at h1
  cases h1
  cases h2 <;> exact ⟨_, _, rfl, rfl⟩

example : Honest Wire.byteCodec 1 tellDemo ∧
    (issued tellDemo)[0]? = some (.tell 2 ⟨⟨7, .peerId 2⟩, "A", "m", [], none, none, false⟩) ∧
    (run Wire.byteCodec 1 tellDemo).answers = [(0, .resp (.tell (.ok ())))] :=
  ⟨tellDemo_honest, rfl, rfl⟩

/-- **C59** (this node answers in kind): every response this node sends on a channel answers, in kind, a request that
arrived on that channel. No assumption on other nodes. -/
theorem responses_in_kind (c : PeerCodec P) (own : P) (ops : List (Op P)) (ch : Nat) (r : Resp)
    (hr : (ch, r) ∈ (run c own ops).responded) : ∃ w, (ch, w) ∈ arrived ops ∧ Matches w r :=
  (typed_run c own ops).responded ch r hr

/-- A tell of another node, and what this node sends back. -/
example : let ops : List (Op Byte) := [.event (.request 5 (.tell ⟨⟨7, .peerId 1⟩, "A", "m", [], none, none, false⟩)),
      .taskDone 0 (.val ⟨.ok [], .ok ()⟩), .recv true]
    (run Wire.byteCodec 1 ops).responded = [(5, .tell (.ok ()))] ∧
    arrived ops = [(5, .tell ⟨⟨7, .peerId 1⟩, "A", "m", [], none, none, false⟩)] := ⟨rfl, rfl⟩

end Verif.Swarm
