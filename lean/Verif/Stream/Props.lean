import Verif.Stream.Model
import Verif.Lifecycle.Prefix
import Verif.Lifecycle.PropsExact
import Verif.Util

/-!
Property theorems about attached streams: C38.

The specification is `script items ended`: what the actor should get of a stream that has yielded `items` and
has or has not ended.
-/

namespace Verif.Stream

open Verif.Lifecycle Verif.Mailbox

/-- Started, then each item, then Finished if the stream has ended. -/
def script (items : List Nat) (ended : Bool) : List SMsg :=
  .started :: items.map .next ++ (if ended then [.finished] else [])

/-- What the actor is to get: Started, item `x` and Finished can be told apart (0, `x + 2`, 1); they are tells, so nobody gets
a reply and an error of the handler is a panic of the actor; and they come from outside the actor. -/
def told : SMsg → Body
  | .started => ⟨0, false, false⟩
  | .next x => ⟨x + 2, false, false⟩
  | .finished => ⟨1, false, false⟩

theorem told_body : told = SMsg.body := by funext m; cases m <;> rfl

/-- Those messages of a list that the stream task sent (by the number of their send operation). -/
def ours (s : St) (l : List Msg) : List Msg := l.filter (fun m => m.1 ∈ s.sends.map (·.1))

/-! ### Bookkeeping -/

/-- The sends of the task as messages. -/
def asMsgs (sends : List (Nat × SMsg)) : List Msg := sends.map (fun p => (p.1, p.2.body))

theorem asMsgs_keys (sends : List (Nat × SMsg)) : (asMsgs sends).map (·.1) = sends.map (·.1) := by
  simp [asMsgs]

theorem nodup_of_keys {l : List Msg} (h : (l.map (·.1)).Nodup) : l.Nodup := by
  induction l with
  | nil => exact List.nodup_nil
  | cons a l ih =>
    simp only [List.map_cons, List.nodup_cons] at h ⊢
    exact ⟨fun hm => h.1 (List.mem_map.mpr ⟨a, hm, rfl⟩), ih h.2⟩

/-- Of the messages in a list of numbered sends, all but at most the last were accepted. If more is
accepted later, the same holds. -/
theorem accept_more {m' : Mb Sig} (hi : Inv m') {pushed : List (Nat × Sig)} (hp : pushed <+: m'.pushed)
    {L : List Msg} (hs : ∀ e ∈ L, (e.1, Sig.msg e.2) ∈ m'.sent) {tail : List Msg}
    (ht : (msgsOf pushed).filter (fun m => m.1 ∈ L.map (·.1)) ++ tail = L) (h1 : tail.length ≤ 1) :
    ∃ tail', (msgsOf m'.pushed).filter (fun m => m.1 ∈ L.map (·.1)) ++ tail' = L ∧
      (tail' = tail ∨ (tail' = [] ∧ ∀ e ∈ tail, (e.1, Sig.msg e.2) ∈ m'.pushed)) := by
  obtain ⟨x, hx⟩ := hp
  have hnd : (m'.pushed.map (·.1)).Nodup := by
    have := hi.part_nodup
    simp only [List.map_append, List.append_assoc] at this
    exact (List.nodup_append.mp this).1
  have hsn := hi.sent_nodup
  have hmem : ∀ p ∈ (msgsOf x).filter (fun m => m.1 ∈ L.map (·.1)), p ∈ tail := by
    intro p hpx
    simp only [List.mem_filter, decide_eq_true_eq] at hpx
    obtain ⟨hpx, hk⟩ := hpx
    obtain ⟨e, he, hek⟩ := List.mem_map.mp hk
    have hpx' := mem_msgsOf.mp hpx
    have h2 : (p.1, Sig.msg p.2) ∈ m'.sent := hi.mem_sent (by
      rw [← hx]; simp [hpx'])
    have h3 := hs e he
    have h4 := key_inj hsn h3 h2 hek
    have h5 : e = p := by
      obtain ⟨e1, e2⟩ := e
      obtain ⟨p1, p2⟩ := p
      simp only [Prod.mk.injEq, Sig.msg.injEq] at h4
      rw [h4.1, h4.2]
    subst h5
    rw [← ht] at he
    rcases List.mem_append.mp he with h | h
    · exfalso
      have h6 : (e.1, Sig.msg e.2) ∈ pushed := mem_msgsOf.mp (List.mem_filter.mp h).1
      rw [← hx, List.map_append, List.nodup_append] at hnd
      exact hnd.2.2 e.1 (List.mem_map.mpr ⟨_, h6, rfl⟩) e.1 (List.mem_map.mpr ⟨_, hpx', rfl⟩) rfl
    · exact h
  have hxnd : ((msgsOf x).filter (fun m => m.1 ∈ L.map (·.1))).Nodup := by
    have h7 : (x.map (·.1)).Nodup := by
      rw [← hx, List.map_append, List.nodup_append] at hnd
      exact hnd.2.1
    have h8 : ((msgsOf x).map (·.1)).Sublist (x.map (·.1)) := by
      clear hmem hx h7
      induction x with
      | nil => simp
      | cons p x ih =>
        obtain ⟨t, sg⟩ := p
        have e : msgsOf ((t, sg) :: x) = msgsOf [(t, sg)] ++ msgsOf x := by rw [← msgsOf_append]; rfl
        rw [e]
        cases sg <;> simp [ih]
    have h9 : (msgsOf x).Nodup := nodup_of_keys (h7.sublist h8)
    exact h9.sublist List.filter_sublist
  have hsplit : (msgsOf m'.pushed).filter (fun m => m.1 ∈ L.map (·.1)) =
      (msgsOf pushed).filter (fun m => m.1 ∈ L.map (·.1)) ++ (msgsOf x).filter (fun m => m.1 ∈ L.map (·.1)) := by
    rw [← hx, msgsOf_append, List.filter_append]
  rw [hsplit]
  generalize hy : (msgsOf x).filter (fun m => m.1 ∈ L.map (·.1)) = y at hmem hxnd
  match tail, h1 with
  | [], _ =>
    have : y = [] := List.eq_nil_iff_forall_not_mem.mpr (fun p hp => by have := hmem p hp; cases this)
    exact ⟨[], by rw [this]; simpa using ht, Or.inl rfl⟩
  | [e], _ =>
    match y, hmem, hxnd with
    | [], _, _ => exact ⟨[e], by simpa using ht, Or.inl rfl⟩
    | [p], hmem, _ =>
      have : p = e := by simpa using hmem p (by simp)
      subst this
      refine ⟨[], by simpa using ht, Or.inr ⟨rfl, fun e he => ?_⟩⟩
      have : e = p := by simpa using he
      subst this
      have : e ∈ msgsOf x := (List.mem_filter.mp (hy ▸ List.mem_singleton.mpr rfl : e ∈ (msgsOf x).filter _)).1
      rw [← hx]
      exact List.mem_append_right _ (mem_msgsOf.mp this)
    | p :: q :: r, hmem, hxnd =>
      exfalso
      have h1 : p = e := by simpa using hmem p (by simp)
      have h2 : q = e := by simpa using hmem q (by simp)
      subst h1
      subst h2
      simp at hxnd

/-- Where the task is, and what is left to be accepted of its sends. -/
inductive Pos (s : St) : List Msg → Prop where
  | clear (h : s.task = .selecting ∨ s.task = .returned true) : Pos s []
  | fresh (h : s.task = .fresh ∨ s.task = .cancelled) (hs : s.sends = []) : Pos s []
  | quiet (h : s.task = .cancelled ∨ s.task = .returned false) : Pos s []
  | sent (t : Nat) (m : SMsg) (h : s.task = .sending t m) (hp : t ∈ s.a.mb.pushed.map (·.1)) : Pos s []
  | pending (t : Nat) (m : SMsg) (h : s.task = .sending t m) : Pos s [(t, m.body)]
  | failed (t : Nat) (m : SMsg) (h : s.task = .cancelled ∨ s.task = .returned false) : Pos s [(t, m.body)]

structure Inv (s : St) : Prop where
  shape : Shape s.a
  sent : ∀ e ∈ asMsgs s.sends, (e.1, Sig.msg e.2) ∈ s.a.mb.sent
  nodup : (s.sends.map (·.1)).Nodup
  tail : ∃ tail, ours s (msgsOf s.a.mb.pushed) ++ tail = asMsgs s.sends ∧ Pos s tail
  script : (s.sends = [] ∧ s.items = [] ∧ s.ended = false ∧ (s.task = .fresh ∨ s.task = .cancelled)) ∨
    (s.task ≠ .fresh ∧ s.sends.map (·.2) = script s.items s.ended)
  notEnded : s.task = .selecting → s.ended = false
  last : ∀ t m, s.task = .sending t m → (s.ended = true ↔ m = .finished) ∧ (t, m) ∈ s.sends

theorem run_sent' (s : Lifecycle.St) (op : Lifecycle.Op) : s.mb.sent <+: (s.step op).mb.sent := by
  obtain ⟨mops, h⟩ := step_mb s op
  rw [h]
  clear h
  generalize s.mb = m
  induction mops generalizing m with
  | nil => exact List.prefix_refl _
  | cons o os ih => exact (step_sent m o).trans (ih (m.step o))

theorem ours_eq (s : St) (l : List Msg) : ours s l = l.filter (fun m => m.1 ∈ (asMsgs s.sends).map (·.1)) := by
  rw [asMsgs_keys]; rfl

theorem Pos.len {s : St} {tail : List Msg} (h : Pos s tail) : tail.length ≤ 1 := by
  cases h <;> simp

/-- A step of the actor (nothing of the task changes). -/
theorem inv_actor {s : St} (h : Inv s) (op : Lifecycle.Op) : Inv { s with a := s.a.step op } := by
  have hsh : Shape (s.a.step op) := shape_tr h.shape (step_tr s.a op)
  have hsent : ∀ e ∈ asMsgs s.sends, (e.1, Sig.msg e.2) ∈ (s.a.step op).mb.sent :=
    fun e he => (run_sent' s.a op).subset (h.sent e he)
  have hpre : s.a.mb.pushed <+: (s.a.step op).mb.pushed := exec_pushed s.a [op]
  obtain ⟨tail, ht, hpos⟩ := h.tail
  rw [ours_eq] at ht
  obtain ⟨tail', ht', hc⟩ := accept_more hsh.mb hpre hsent ht hpos.len
  refine ⟨hsh, hsent, h.nodup, ⟨tail', by rw [ours_eq]; exact ht', ?_⟩, h.script, h.notEnded, h.last⟩
  have hpm : ∀ t, t ∈ s.a.mb.pushed.map (·.1) → t ∈ (s.a.step op).mb.pushed.map (·.1) := by
    intro t htm
    obtain ⟨p, hp, rfl⟩ := List.mem_map.mp htm
    exact List.mem_map_of_mem (hpre.subset hp)
  rcases hc with rfl | ⟨rfl, hall⟩
  · cases hpos with
    | clear h => exact .clear h
    | fresh h hs => exact .fresh h hs
    | quiet h => exact .quiet h
    | sent t m h hp => exact .sent t m h (hpm t hp)
    | pending t m h => exact .pending t m h
    | failed t m h => exact .failed t m h
  · cases hpos with
    | clear h => exact .clear h
    | fresh h hs => exact .fresh h hs
    | quiet h => exact .quiet h
    | sent t m h hp => exact .sent t m h (hpm t hp)
    | pending t m h =>
      have := hall (t, m.body) (by simp)
      exact .sent t m h (List.mem_map.mpr ⟨_, this, rfl⟩)
    | failed t m h => exact .quiet h

/-- A send of the task. -/
theorem inv_send {s : St} (hsh : Shape s.a) (hnd : (s.sends.map (·.1)).Nodup) (hsent : ∀ e ∈ asMsgs s.sends, (e.1, Sig.msg e.2) ∈ s.a.mb.sent)
    (htail : ours s (msgsOf s.a.mb.pushed) = asMsgs s.sends) (m : SMsg)
    (hscript : (s.sends ++ [(s.a.mb.next, m)]).map (·.2) = script s.items s.ended)
    (hend : s.ended = true ↔ m = .finished) : Inv (s.send m) := by
  have hsh' : Shape (s.a.step (.send m.body)) := shape_tr hsh (step_tr s.a _)
  have hpre : s.a.mb.pushed <+: (s.a.step (.send m.body)).mb.pushed := exec_pushed s.a [.send m.body]
  have hnew : (s.a.mb.next, Sig.msg m.body) ∈ (s.a.step (.send m.body)).mb.sent := by
    simp only [Lifecycle.St.step, Mb.send, Mb.bump, Mb.push]
    split
    · simp
    · split <;> simp
  have hlt : ∀ p ∈ s.a.mb.pushed, p.1 < s.a.mb.next := fun p hp =>
    hsh.mb.sent_lt p (hsh.mb.mem_sent (by simp [hp]))
  have hsent' : ∀ e ∈ asMsgs (s.sends ++ [(s.a.mb.next, m)]), (e.1, Sig.msg e.2) ∈ (s.a.step (.send m.body)).mb.sent := by
    intro e he
    simp only [asMsgs, List.map_append, List.map_cons, List.map_nil, List.mem_append, List.mem_singleton] at he
    rcases he with he | he
    · exact (run_sent' s.a _).subset (hsent e he)
    · rw [he]; exact hnew
  have ht : (msgsOf s.a.mb.pushed).filter (fun e => e.1 ∈ (asMsgs (s.sends ++ [(s.a.mb.next, m)])).map (·.1)) ++
      [(s.a.mb.next, m.body)] = asMsgs (s.sends ++ [(s.a.mb.next, m)]) := by
    have : (msgsOf s.a.mb.pushed).filter (fun e => e.1 ∈ (asMsgs (s.sends ++ [(s.a.mb.next, m)])).map (·.1)) =
        (msgsOf s.a.mb.pushed).filter (fun e => e.1 ∈ (asMsgs s.sends).map (·.1)) := by
      apply List.filter_congr
      intro e he
      have hne : e.1 ≠ s.a.mb.next := by
        have := hlt _ (mem_msgsOf.mp he)
        simp only at this
        omega
      rw [asMsgs_keys, asMsgs_keys]
      simp [hne]
    rw [this, ← ours_eq, htail]
    simp [asMsgs]
  obtain ⟨tail', ht', hc⟩ := accept_more hsh'.mb hpre hsent' ht (by simp)
  have hnd' : ((s.sends ++ [(s.a.mb.next, m)]).map (·.1)).Nodup := by
    rw [List.map_append, List.nodup_append]
    refine ⟨hnd, by simp, ?_⟩
    intro a ha b hb hab
    obtain ⟨e, he, rfl⟩ := List.mem_map.mp ha
    have h1 := hsh.mb.sent_lt _ (hsent (e.1, e.2.body) (List.mem_map.mpr ⟨e, he, rfl⟩))
    simp only [List.map_cons, List.map_nil, List.mem_singleton] at hb
    simp only at h1
    omega
  refine ⟨hsh', hsent', hnd', ⟨tail', by rw [ours_eq]; exact ht', ?_⟩, Or.inr ⟨by simp [St.send], hscript⟩, ?_, ?_⟩
  · rcases hc with rfl | ⟨rfl, hall⟩
    · exact .pending s.a.mb.next m rfl
    · exact .sent s.a.mb.next m rfl (List.mem_map.mpr ⟨_, hall _ (List.mem_singleton.mpr rfl), rfl⟩)
  · intro h; simp [St.send] at h
  · intro t m' h
    simp only [St.send, Task.sending.injEq] at h
    obtain ⟨rfl, rfl⟩ := h
    exact ⟨hend, by simp [St.send]⟩

theorem inv_step {s : St} (h : Inv s) (op : Op) : Inv (s.step op) := by
  cases op with
  | env op =>
    have := inv_actor h op
    cases op <;> try exact this
    rename_i t
    simp only [St.step]
    split
    · exact h
    · exact this
  | start =>
    simp only [St.step]
    split
    · rename_i hf
      rcases h.script with ⟨h1, h2, h3, h4⟩ | ⟨h1, _⟩
      · obtain ⟨tail, ht, _⟩ := h.tail
        refine inv_send h.shape h.nodup h.sent ?_ .started (by simp [h1, h2, h3, script]) (by simp [h3])
        simp [h1, asMsgs] at ht ⊢
        exact ht.1
      · exact (h1 hf).elim
    · exact h
  | yield x =>
    simp only [St.step]
    split
    · rename_i hf
      obtain ⟨tail, ht, hpos⟩ := h.tail
      have hn := h.notEnded hf
      have htl : tail = [] := by
        cases hpos <;> first | rfl | simp_all
      rcases h.script with ⟨_, _, _, h4⟩ | ⟨_, h2⟩
      · simp [hf] at h4
      · refine inv_send (s := { s with items := s.items ++ [x] }) h.shape h.nodup h.sent ?_ (.next x) ?_ (by simp [hn])
        · rw [htl, List.append_nil] at ht; exact ht
        · simp only [List.map_append, h2, hn]; simp [script]
    · exact h
  | endOfStream =>
    simp only [St.step]
    split
    · rename_i hf
      obtain ⟨tail, ht, hpos⟩ := h.tail
      have hn := h.notEnded hf
      have htl : tail = [] := by
        cases hpos <;> first | rfl | simp_all
      rcases h.script with ⟨_, _, _, h4⟩ | ⟨_, h2⟩
      · simp [hf] at h4
      · refine inv_send (s := { s with ended := true }) h.shape h.nodup h.sent ?_ .finished ?_ (by simp)
        · rw [htl, List.append_nil] at ht; exact ht
        · simp only [List.map_append, h2, hn]; simp [script]
    · exact h
  | seeShutdown =>
    simp only [St.step]
    split
    · rename_i hf
      split
      · obtain ⟨tail, ht, hpos⟩ := h.tail
        have htl : tail = [] := by
          cases hpos <;> first | rfl | simp_all
        refine ⟨h.shape, h.sent, h.nodup, ⟨[], by rw [htl] at ht; exact ht, .clear (Or.inr rfl)⟩, Or.inr ?_, by simp, by simp⟩
        rcases h.script with ⟨_, _, _, h4⟩ | ⟨_, h2⟩
        · simp [hf] at h4
        · exact ⟨by simp, h2⟩
      · exact h
    · exact h
  | advance =>
    simp only [St.step]
    split
    · rename_i t m hf
      obtain ⟨tail, ht, hpos⟩ := h.tail
      have hsc : s.sends.map (·.2) = script s.items s.ended := by
        rcases h.script with ⟨_, _, _, h4⟩ | ⟨_, h2⟩
        · simp [hf] at h4
        · exact h2
      obtain ⟨hl1, hl2⟩ := h.last t m hf
      split
      · rename_i hp
        have htl : tail = [] := by
          cases hpos with
          | pending t' m' h' =>
            exfalso
            rw [hf] at h'
            cases h'
            -- `t` was accepted, so it is among the accepted sends of the task, and it is the tail as well
            obtain ⟨p, hp1, hp2⟩ := List.mem_map.mp hp
            have hsn := h.shape.mb.sent_nodup
            have h3 := h.sent (t, m.body) (List.mem_map.mpr ⟨_, hl2, rfl⟩)
            have h4 : p ∈ s.a.mb.sent := h.shape.mb.mem_sent (by simp [hp1])
            have h5 := key_inj hsn h4 h3 hp2
            subst h5
            have h6 : (t, m.body) ∈ ours s (msgsOf s.a.mb.pushed) := by
              refine List.mem_filter.mpr ⟨mem_msgsOf.mpr hp1, ?_⟩
              simp only [decide_eq_true_eq]
              exact List.mem_map.mpr ⟨_, hl2, rfl⟩
            have hnd : (asMsgs s.sends).Nodup := by
              have := h.nodup
              rw [← asMsgs_keys] at this
              exact nodup_of_keys this
            rw [← ht] at hnd
            have := (List.nodup_append.mp hnd).2.2 _ h6 (t, m.body) (by simp)
            exact this rfl
          | _ => first | rfl | simp_all
        subst htl
        by_cases hm : m = .finished
        · refine ⟨h.shape, h.sent, h.nodup, ⟨[], ht, .clear (Or.inr (by simp [hm]))⟩, Or.inr ⟨by simp [hm], hsc⟩, ?_, ?_⟩
          · simp [hm]
          · simp [hm]
        · refine ⟨h.shape, h.sent, h.nodup, ⟨[], ht, .clear (Or.inl (by simp [hm]))⟩, Or.inr ⟨by simp [hm], hsc⟩, ?_, ?_⟩
          · intro _
            cases he : s.ended with
            | false => rfl
            | true => exact (hm (hl1.mp he)).elim
          · simp [hm]
      · split
        · rename_i hff
          refine ⟨h.shape, h.sent, h.nodup, ⟨tail, ht, ?_⟩, Or.inr ⟨by simp, hsc⟩, by simp, by simp⟩
          cases hpos with
          | pending t' m' h' =>
            rw [hf] at h'
            cases h'
            exact .failed t m (Or.inr rfl)
          | failed t' m' h' => simp [hf] at h'
          | _ => exact .quiet (Or.inr rfl)
        · exact h
    · exact h
  | abort =>
    simp only [St.step]
    split
    · rename_i t m hf
      have h2 := inv_actor h (.cancel t)
      obtain ⟨tail, ht, hpos⟩ := h2.tail
      have hsc : s.sends.map (·.2) = script s.items s.ended := by
        rcases h.script with ⟨_, _, _, h4⟩ | ⟨_, h2⟩
        · simp [hf] at h4
        · exact h2
      refine ⟨h2.shape, h2.sent, h2.nodup, ?_, Or.inr ⟨by simp, hsc⟩, by simp, by simp⟩
      cases hpos with
      | pending t' m' h' =>
        simp only at h'
        rw [hf] at h'
        cases h'
        exact ⟨_, ht, .failed t m (Or.inl rfl)⟩
      | failed t' m' h' => simp [hf] at h'
      | _ => exact ⟨[], ht, .quiet (Or.inl rfl)⟩
    · exact h
    · rename_i hns hnr
      refine ⟨h.shape, h.sent, h.nodup, ?_, ?_, by simp, by simp⟩
      · obtain ⟨tail, ht, hpos⟩ := h.tail
        cases hpos with
        | pending t m h' => exact (hns t m h').elim
        | failed t m h' => exact ⟨_, ht, .failed t m (Or.inl rfl)⟩
        | _ => exact ⟨[], ht, .quiet (Or.inl rfl)⟩
      · rcases h.script with ⟨h1, h2, h3, h4⟩ | ⟨h1, h2⟩
        · exact Or.inl ⟨h1, h2, h3, Or.inr rfl⟩
        · exact Or.inr ⟨by simp, h2⟩

theorem inv_after (cap : Option Nat) (before : List Lifecycle.Op) (ops : List Op) : Inv (after cap before ops) := by
  have h0 : Inv { a := Lifecycle.after cap before } :=
    ⟨shape_after cap before, by simp [asMsgs], by simp, ⟨[], by simp [ours, asMsgs], .fresh (Or.inl rfl) rfl⟩,
      Or.inl ⟨rfl, rfl, rfl, Or.inl rfl⟩, by simp, by simp⟩
  unfold after
  generalize ({ a := Lifecycle.after cap before } : St) = s at h0
  induction ops generalizing s with
  | nil => exact h0
  | cons op ops ih => exact ih _ (inv_step h0 op)

/-- The actor in this model is an actor of the lifecycle model: what happens is some history of it. -/
theorem foldl_history (cap : Option Nat) (before : List Lifecycle.Op) :
    ∀ (ops : List Op) (s : St) (l : List Lifecycle.Op), s.a = Lifecycle.after cap (before ++ l) →
      ∃ l', (ops.foldl St.step s).a = Lifecycle.after cap (before ++ l ++ l') := by
  have hsend : ∀ (s : St) m, (s.send m).a = s.a.step (.send m.body) := fun _ _ => rfl
  have hstep : ∀ (s : St) (op : Op), (s.step op).a = s.a ∨ ∃ o, (s.step op).a = s.a.step o := by
    intro s op
    cases op with
    | env op =>
      cases op
      case cancel t =>
        simp only [St.step]
        split
        · exact Or.inl rfl
        · exact Or.inr ⟨.cancel t, rfl⟩
      all_goals (simp only [St.step]; exact Or.inr ⟨_, rfl⟩)
    | start => simp only [St.step]; split <;> first | exact Or.inl rfl | exact Or.inr ⟨_, hsend _ _⟩
    | yield x => simp only [St.step]; split <;> first | exact Or.inl rfl | exact Or.inr ⟨_, hsend _ _⟩
    | endOfStream => simp only [St.step]; split <;> first | exact Or.inl rfl | exact Or.inr ⟨_, hsend _ _⟩
    | seeShutdown => simp only [St.step]; split <;> (try split) <;> exact Or.inl rfl
    | advance => simp only [St.step]; split <;> (try split) <;> (try split) <;> exact Or.inl rfl
    | abort =>
      simp only [St.step]
      split
      · rename_i t _ _
        exact Or.inr ⟨.cancel t, rfl⟩
      · exact Or.inl rfl
      · exact Or.inl rfl
  intro ops
  induction ops with
  | nil => intro s l h; exact ⟨[], by simpa using h⟩
  | cons op ops ih =>
    intro s l h
    rcases hstep s op with h1 | ⟨o, h1⟩
    · exact ih _ l (h1.trans h)
    · obtain ⟨l', hl'⟩ := ih (s.step op) (l ++ [o]) (by rw [h1, h, ← List.append_assoc, after_snoc])
      exact ⟨o :: l', by simpa using hl'⟩

/-- The actor in this model is an actor of the lifecycle model: it has had some history. -/
theorem actor_history (cap : Option Nat) (before : List Lifecycle.Op) (ops : List Op) :
    ∃ l, (after cap before ops).a = Lifecycle.after cap (before ++ l) := by
  obtain ⟨l, hl⟩ := foldl_history cap before ops { a := Lifecycle.after cap before } [] (by simp)
  exact ⟨l, by simpa [after] using hl⟩

/-- Mailbox operations that lead from one mailbox to another and give up no send, but for the one `op` gives up. -/
def Steps (op : Lifecycle.Op) (m m' : Mb Sig) : Prop :=
  ∃ mops, m' = m.run mops ∧ ∀ t, .cancel t ∈ mops → op = .cancel t

/-- A step of the actor gives up no send, but for `cancel`. -/
theorem step_mb_cancel (s : Lifecycle.St) (op : Lifecycle.Op) :
    Steps op s.mb (s.step op).mb := by
  have h0 : Steps op s.mb (s.mb) := ⟨[], rfl, by simp⟩
  have hr : Steps op s.mb (s.mb.recv) := ⟨[.recv], rfl, by simp⟩
  have hc : Steps op s.mb (s.mb.close) := ⟨[.close], rfl, by simp⟩
  have ht : Steps op s.mb (s.mb.trySend .startup) := ⟨[.trySend .startup], rfl, by simp⟩
  cases op <;> simp only [Lifecycle.St.step]
  case send b => exact ⟨[.send (.msg b)], rfl, by simp⟩
  case trySend b => exact ⟨[.trySend (.msg b)], rfl, by simp⟩
  case poll t => exact ⟨[.poll t], rfl, by simp⟩
  case cancel t => exact ⟨[.cancel t], rfl, by simp⟩
  case sendStop => exact ⟨[.send .stop], rfl, by simp⟩
  case sendLinkDied id r => exact ⟨[.send (.linkDied id r)], rfl, by simp⟩
  case recv =>
    split
    · split
      · unfold Lifecycle.St.recvStep
        split
        · split <;> simp [h0]
        · unfold Lifecycle.St.onSignal
          (repeat' split) <;> simp [hr]
      · exact h0
    · exact h0
  case handlerEnd o =>
    split
    · split
      · unfold Lifecycle.St.handlerEnd
        (repeat' split) <;> simp [h0]
      · exact h0
    · exact h0
  case linkEnd o =>
    split
    · split
      · unfold Lifecycle.St.linkEnd
        (repeat' split) <;> simp [h0]
      · exact h0
    · exact h0
  case panicEnd o =>
    split
    · split
      · unfold Lifecycle.St.panicEnd
        (repeat' split) <;> simp [h0, hc]
      · exact h0
    · unfold Lifecycle.St.startPanicEnd
      (repeat' split) <;> simp [h0, hc, Lifecycle.St.stopFailed]
    · exact h0
  case startEnd o =>
    split
    · unfold Lifecycle.St.startEnd
      split
      · simp only [Lifecycle.St.startOk]
        split <;> simp [ht]
      · simp [Lifecycle.St.startFail, ht]
      · simp [Lifecycle.St.startFail, ht]
    · exact h0
  case stopEnd o =>
    split
    · unfold Lifecycle.St.stopEnd Lifecycle.St.stopDone
      (repeat' split) <;> simp [h0, hc]
    · exact h0
  all_goals (repeat' split) <;> simp [h0, hc]

/-- A send that has begun fails only if it is given up or the receiver is gone; and the receiver does not come back. -/
theorem failed_step (m : Mb Sig) (op : Mailbox.Op Sig) {t : Nat} (ht : t < m.next) (hc : op ≠ .cancel t) :
    m.next ≤ (m.step op).next ∧ (m.closed = true → (m.step op).closed = true) ∧
      (t ∈ (m.step op).failed.map (·.1) → t ∈ m.failed.map (·.1) ∨ (m.step op).closed = true) := by
  cases op with
  | send a =>
    simp only [Mb.step, Mb.send, Mb.bump, Mb.push]
    (repeat' split) <;> simp_all
  | trySend a =>
    simp only [Mb.step, Mb.trySend, Mb.bump, Mb.push]
    (repeat' split) <;> simp_all <;> grind
  | poll u =>
    simp only [Mb.step, Mb.poll, Mb.push]
    split <;> simp_all
  | cancel u =>
    have : u ≠ t := fun h => hc (by rw [h])
    simp only [Mb.step, Mb.cancel, Mb.release]
    (repeat' split) <;> simp_all <;> grind
  | recv =>
    simp only [Mb.step, Mb.recv, Mb.release]
    (repeat' split) <;> simp_all
  | close => simp [Mb.step, Mb.close]

theorem failed_run {t : Nat} : ∀ (mops : List (Mailbox.Op Sig)) (m : Mb Sig), t < m.next → .cancel t ∉ mops →
    m.next ≤ (m.run mops).next ∧ (m.closed = true → (m.run mops).closed = true) ∧
      (t ∈ (m.run mops).failed.map (·.1) → t ∈ m.failed.map (·.1) ∨ (m.run mops).closed = true) := by
  intro mops
  induction mops with
  | nil => exact fun m _ _ => ⟨Nat.le_refl _, id, Or.inl⟩
  | cons o os ih =>
    intro m ht hc
    obtain ⟨h1, h2, h3⟩ := failed_step m o ht (fun h => hc (by simp [h]))
    obtain ⟨h4, h5, h6⟩ := ih (m.step o) (by omega) (fun h => hc (List.mem_cons_of_mem _ h))
    refine ⟨Nat.le_trans h1 h4, fun h => h5 (h2 h), fun h => ?_⟩
    rcases h6 h with h | h
    · rcases h3 h with h | h
      · exact .inl h
      · exact .inr (h5 h)
    · exact .inr h

/-- The receiver does not come back. -/
theorem closed_run (m : Mb Sig) (mops : List (Mailbox.Op Sig)) (h : m.closed = true) : (m.run mops).closed = true := by
  induction mops generalizing m with
  | nil => exact h
  | cons o os ih =>
    refine ih (m.step o) ?_
    cases o <;> simp [Mb.step, h]

/-- How the task ends while the actor's mailbox is open. -/
structure Ends (s : St) : Prop where
  pending : ∀ t m, s.task = .sending t m → t < s.a.mb.next ∧ (t ∈ s.a.mb.failed.map (·.1) → s.a.mb.closed = true)
  error : s.task = .returned false → s.a.mb.closed = true
  early : s.task = .returned true → s.ended = true ∨ s.a.mb.closed = true

theorem ends_send {s : St} (h : Inv s) (m : SMsg) : Ends (s.send m) := by
  refine ⟨?_, by simp [St.send], by simp [St.send]⟩
  intro t m' e
  simp only [St.send, Task.sending.injEq] at e
  obtain ⟨rfl, rfl⟩ := e
  have hno : s.a.mb.next ∉ s.a.mb.failed.map (·.1) := by
    intro hm
    obtain ⟨f, hf, he⟩ := List.mem_map.mp hm
    have := h.shape.mb.sent_lt _ (h.shape.mb.mem_sent (p := unwhy f) (by simp; exact .inr (.inr (.inr ⟨_, _, _, hf, rfl⟩))))
    simp only [unwhy] at this
    omega
  simp only [St.send, Lifecycle.St.step, Mb.send, Mb.bump, Mb.push]
  (repeat' split) <;> simp_all

theorem ends_env {s : St} (hi : Inv s) (h : Ends s) (op : Lifecycle.Op) (hc : ∀ t ∈ s.sends.map (·.1), op ≠ .cancel t) :
    Ends { s with a := s.a.step op } := by
  obtain ⟨mops, hm, hq⟩ := step_mb_cancel s.a op
  refine ⟨?_, ?_, ?_⟩
  · intro t m e
    have h1 := h.pending t m e
    have ht : t ∈ s.sends.map (·.1) := List.mem_map_of_mem (hi.last t m e).2
    obtain ⟨h2, h3, h4⟩ := failed_run mops s.a.mb h1.1 (fun hh => hc t ht (hq t hh))
    dsimp only
    rw [hm]
    refine ⟨by omega, fun hf => ?_⟩
    rcases h4 hf with h | h
    · exact h3 (h1.2 h)
    · exact h
  · intro e
    dsimp only
    rw [hm]
    exact closed_run _ _ (h.error e)
  · intro e
    dsimp only
    rw [hm]
    exact (h.early e).imp id (closed_run _ _)

theorem ends_step {s : St} (hi : Inv s) (h : Ends s) (op : Op) : Ends (s.step op) := by
  cases op with
  | env op =>
    by_cases hc : ∃ t ∈ s.sends.map (·.1), op = .cancel t
    · obtain ⟨t, ht, rfl⟩ := hc
      simp only [St.step, if_pos ht]
      exact h
    · have := ends_env hi h op (fun t ht he => hc ⟨t, ht, he⟩)
      cases op <;> simp only [St.step] <;> (try split) <;> first | exact this | exact h
  | start => simp only [St.step]; split <;> first | exact ends_send hi _ | exact h
  | yield x =>
    simp only [St.step]
    split
    · exact ⟨(ends_send hi (.next x)).pending, by simp [St.send], by simp [St.send]⟩
    · exact h
  | endOfStream =>
    simp only [St.step]
    split
    · exact ⟨(ends_send hi .finished).pending, by simp [St.send], by simp [St.send]⟩
    · exact h
  | seeShutdown =>
    simp only [St.step]
    split
    · split
      · rename_i hcl
        exact ⟨by simp, by simp, fun _ => .inr hcl⟩
      · exact h
    · exact h
  | advance =>
    simp only [St.step]
    split
    · rename_i t m e
      have h1 := h.pending t m e
      split
      · refine ⟨?_, ?_, ?_⟩ <;> dsimp only <;> split <;> simp
        rename_i hf
        exact .inl ((hi.last t m e).1.mpr hf)
      · split
        · rename_i hf
          exact ⟨by simp, fun _ => h1.2 hf, by simp⟩
        · exact h
    · exact h
  | abort =>
    simp only [St.step]
    split
    · exact ⟨by simp, by simp, by simp⟩
    · exact h
    · exact ⟨by simp, by simp, by simp⟩

theorem ends_after (cap : Option Nat) (before : List Lifecycle.Op) (ops : List Op) : Ends (after cap before ops) := by
  have h0 : Inv { a := Lifecycle.after cap before } := inv_after cap before []
  have h1 : Ends { a := Lifecycle.after cap before } := ⟨by simp, by simp, by simp⟩
  unfold after
  generalize ({ a := Lifecycle.after cap before } : St) = s at h0 h1
  induction ops generalizing s with
  | nil => exact h1
  | cons op ops ih => exact ih _ (inv_step h0 op) (ends_step h0 h1 op)

/-! ### C38 -/

theorem sends_script (s : St) (h : Inv s) : s.sends.map (·.2) <+: script s.items s.ended := by
  rcases h.script with ⟨h1, _⟩ | ⟨_, h2⟩
  · rw [h1]; exact List.nil_prefix
  · rw [h2]; exact List.prefix_refl _

/-- Two items, then the end, with another message in between; the actor handles everything. -/
def streamDemo : List Op :=
  [.start, .advance, .yield 5, .advance, .env (.send (Lifecycle.tell 99)), .env .recv, .yield 6, .advance,
   .endOfStream, .advance, .env (.handlerEnd (.ret (.ok 0))), .env .recv, .env (.handlerEnd (.ret (.ok 0))), .env .recv]

/-- The actor has started before. -/
def startedDemo : List Lifecycle.Op := [.run, .startEnd .ok, .pollBegin, .recv]

/-- **C38** What the mailbox accepts of a stream is, at every moment, a prefix of: Started, then every item
in order, then Finished if the stream has ended. Each is accepted at most once, and nothing else comes
from the stream. -/
theorem accepted_prefix_of_script (cap : Option Nat) (before : List Lifecycle.Op) (ops : List Op) :
    (ours (after cap before ops) (msgsOf (after cap before ops).a.mb.pushed)).map (·.2) <+:
      (script (after cap before ops).items (after cap before ops).ended).map told := by
  have h := inv_after cap before ops
  generalize after cap before ops = s at *
  obtain ⟨tail, ht, _⟩ := h.tail
  obtain ⟨y, hy⟩ := sends_script s h
  rw [told_body]
  refine ⟨tail.map (·.2) ++ y.map SMsg.body, ?_⟩
  rw [← List.append_assoc, ← List.map_append, ht, ← hy]
  simp [asMsgs]

/-- With room for one message, Started is accepted and the first item waits. -/
example : let s := after (some 1) startedDemo (streamDemo.take 4)
    s.items = [5] ∧ ours s (msgsOf s.a.mb.pushed) ≠ [] ∧
    (ours s (msgsOf s.a.mb.pushed)).map (·.2) = [told .started] := by decide

/-- **C38** When the task has returned successfully and the stream has ended, or the task waits for the next
item, everything was accepted: Started, every item in order, and Finished if the stream has ended. -/
theorem all_accepted (cap : Option Nat) (before : List Lifecycle.Op) (ops : List Op)
    (hr : (after cap before ops).task = .returned true ∨ (after cap before ops).task = .selecting) :
    (ours (after cap before ops) (msgsOf (after cap before ops).a.mb.pushed)).map (·.2) =
      (script (after cap before ops).items (after cap before ops).ended).map told := by
  have h := inv_after cap before ops
  generalize after cap before ops = s at *
  obtain ⟨tail, ht, hpos⟩ := h.tail
  have htl : tail = [] := by
    cases hpos <;> first | rfl | (rcases hr with hr | hr <;> simp_all)
  rcases h.script with ⟨_, _, _, h4⟩ | ⟨_, h2⟩
  · rcases hr with hr | hr <;> simp [hr] at h4
  · rw [htl, List.append_nil] at ht
    rw [ht, ← h2, told_body]
    simp [asMsgs]

example : let s := after (some 9) startedDemo streamDemo
    s.task = .returned true ∧ s.items = [5, 6] ∧ s.ended = true ∧
    (ours s (msgsOf s.a.mb.pushed)).map (·.2) = [SMsg.started, .next 5, .next 6, .finished].map told := by
  decide

/-- **C38** Nothing but the end of the actor (or of the task) cuts a stream short: if the task has returned and the actor's
mailbox is open, it has returned `Ok`, the stream has ended, and all was accepted: Started, every item in order, Finished. -/
theorem whole_unless_stopped (cap : Option Nat) (before : List Lifecycle.Op) (ops : List Op) (ok : Bool)
    (hr : (after cap before ops).task = .returned ok) (hc : (after cap before ops).a.mb.closed = false) :
    ok = true ∧ (after cap before ops).ended = true ∧
    (ours (after cap before ops) (msgsOf (after cap before ops).a.mb.pushed)).map (·.2) =
      (script (after cap before ops).items true).map told := by
  have h := ends_after cap before ops
  cases ok with
  | false =>
    have := h.error hr
    rw [hc] at this
    cases this
  | true =>
    have he : (after cap before ops).ended = true := (h.early hr).resolve_right (by simp [hc])
    exact ⟨rfl, he, by rw [← he]; exact all_accepted cap before ops (.inl hr)⟩

example : let s := after (some 9) startedDemo streamDemo
    s.task = .returned true ∧ s.a.mb.closed = false := by decide

theorem ours_outside {s : St} (h : Inv s) (l : List Msg) (hl : ∀ m ∈ l, (m.1, Sig.msg m.2) ∈ s.a.mb.pushed) :
    ours s l = ours s (outside l) := by
  unfold ours outside
  rw [List.filter_filter]
  apply List.filter_congr
  intro m hm
  by_cases hk : m.1 ∈ s.sends.map (·.1)
  · obtain ⟨e, he, hek⟩ := List.mem_map.mp hk
    have h3 := h.sent (e.1, e.2.body) (List.mem_map.mpr ⟨e, he, rfl⟩)
    have h4 : (m.1, Sig.msg m.2) ∈ s.a.mb.sent := h.shape.mb.mem_sent (by simp [hl m hm])
    have h5 := key_inj h.shape.mb.sent_nodup h3 h4 hek
    simp only [Prod.mk.injEq, Sig.msg.injEq] at h5
    have : m.2.within = false := by rw [← h5.2]; rfl
    simp [this]
  · simp [hk]

/-- **C38** The actor handles the messages of a stream in order and without repetition: what it has handled
of them is a subsequence of Started, the items in order, Finished. This holds always. -/
theorem handled_in_script_order (cap : Option Nat) (before : List Lifecycle.Op) (ops : List Op) :
    ((ours (after cap before ops) (after cap before ops).a.handled).map (·.2)).Sublist
      ((script (after cap before ops).items (after cap before ops).ended).map told) := by
  have h := inv_after cap before ops
  have hacc := accepted_prefix_of_script cap before ops
  obtain ⟨l, hl⟩ := actor_history cap before ops
  have hsub : ((after cap before ops).a.handled.filter (fun m => m.2.within == false)).Sublist
      ((msgsOf (after cap before ops).a.mb.pushed).filter (fun m => m.2.within == false)) := by
    rw [hl]; exact handled_in_acceptance_order cap _ false
  have hmem : ∀ m ∈ (after cap before ops).a.handled, (m.1, Sig.msg m.2) ∈ (after cap before ops).a.mb.pushed := by
    rw [hl]
    intro m hm
    have hg := good_after cap (before ++ l)
    have hr : m ∈ msgsOf (Lifecycle.after cap (before ++ l)).mb.received := hg.acct.mem_iff.mpr (by simp [hm])
    exact (received_sublist_pushed hg.shape).subset (mem_msgsOf.mp hr)
  generalize after cap before ops = s at *
  rw [ours_outside h _ hmem]
  refine List.Sublist.trans ?_ hacc.sublist
  rw [ours_outside h (msgsOf s.a.mb.pushed) (fun m hm => mem_msgsOf.mp hm)]
  refine List.Sublist.map _ ?_
  refine List.Sublist.filter _ ?_
  have e : ∀ l : List Msg, outside l = l.filter (fun m => m.2.within == false) := by
    intro l; unfold outside; congr 1; funext m; cases m.2.within <;> rfl
  rw [e, e]
  exact hsub

example : (after (some 9) startedDemo streamDemo).items = [5, 6] ∧
    (after (some 9) startedDemo streamDemo).a.handled.map (·.2.val) = [0, 7, 99] := by decide

/-- **C38** The actor receives a prefix of: exactly one Started first, then each item exactly once in
order, then exactly one Finished if the stream ended; whatever other messages, stop requests, kills,
deaths of linked actors and failures of handlers come in between.

Missing for the full claim: messages of the stream that arrive before start-up is over are lost if a
handler fails while the start-up buffer is emptied (`stream_items_lost`). -/
theorem handled_prefix_of_script_partial (cap : Option Nat) (before : List Lifecycle.Op) (ops : List Op)
    (hd : ¬ DrainFail (after cap before ops).a) :
    (ours (after cap before ops) (after cap before ops).a.handled).map (·.2) <+:
      (script (after cap before ops).items (after cap before ops).ended).map told := by
  have h := inv_after cap before ops
  have hacc := accepted_prefix_of_script cap before ops
  obtain ⟨l, hl⟩ := actor_history cap before ops
  have hpre : outside (after cap before ops).a.handled <+: outside (msgsOf (after cap before ops).a.mb.pushed) := by
    rw [hl] at hd ⊢
    exact outside_handled_prefix cap _ hd
  have hmem : ∀ m ∈ (after cap before ops).a.handled, (m.1, Sig.msg m.2) ∈ (after cap before ops).a.mb.pushed := by
    rw [hl]
    intro m hm
    have hg := good_after cap (before ++ l)
    have hr : m ∈ msgsOf (Lifecycle.after cap (before ++ l)).mb.received := hg.acct.mem_iff.mpr (by simp [hm])
    exact (received_sublist_pushed hg.shape).subset (mem_msgsOf.mp hr)
  generalize after cap before ops = s at *
  rw [ours_outside h _ hmem]
  refine List.IsPrefix.trans ?_ hacc
  rw [ours_outside h (msgsOf s.a.mb.pushed) (fun m hm => mem_msgsOf.mp hm)]
  obtain ⟨y, hy⟩ := hpre
  rw [← hy]
  unfold ours
  simp

example : ¬ DrainFail (after (some 9) startedDemo streamDemo).a ∧
    (ours (after (some 9) startedDemo streamDemo) (after (some 9) startedDemo streamDemo).a.handled).map (·.2) =
      [told .started, told (.next 5)] := by
  refine ⟨?_, by decide⟩
  rintro ⟨k, m, tk, o, h1, _, h3, _⟩
  have hc : (after (some 9) startedDemo streamDemo).a.cut = some 1 := by decide
  rw [hc] at h1
  cases h1
  have : msgsOf ((after (some 9) startedDemo streamDemo).a.mb.received.take 1) = [] := by decide
  rw [this] at h3
  simp at h3

/-- **C38** fails for messages of the start-up buffer: the actor gets Started and the item 7, but not the
item 5 in between: it was in the start-up buffer when the handler of Started failed and `on_panic`
continued. -/
theorem stream_items_lost : ∃ cap before ops,
    (after cap before ops).items = [5, 7] ∧
    (ours (after cap before ops) (after cap before ops).a.handled).map (·.2) =
      [told .started, told (.next 7)] := by
  refine ⟨none, [], [.start, .advance, .yield 5, .advance, .env .run, .env (.startEnd .ok), .env .pollBegin,
    .env .recv, .env .recv, .env .recv, .env (.handlerEnd (.panic 1)), .env (.panicEnd .cont),
    .yield 7, .advance, .env .recv], ?_, ?_⟩ <;> decide

/-- **C38 is false** whenever a handler fails while messages of the stream are still to be handled from the start-up buffer:
the actor never gets any of them, whatever `on_panic` decides and whatever happens later, although the mailbox had accepted
them and the task goes on with the stream. -/
theorem failure_loses_items (cap : Option Nat) (before : List Lifecycle.Op) (ops ops' : List Op) (m : Msg) (tk : Bool)
    (rest : List Msg) (ts : Bool) (o : HOut) (hp : (after cap before ops).a.phase = .handling m tk rest ts)
    (hpo : (after cap before ops).a.polling = true) (ho : failing m tk o = true) :
    (after cap before (ops ++ [.env (.handlerEnd o)])).task = (after cap before ops).task ∧
    ∀ x ∈ ours (after cap before ops) rest,
      (x.1, Sig.msg x.2) ∈ (after cap before ops).a.mb.pushed ∧
      x ∉ (after cap before (ops ++ .env (.handlerEnd o) :: ops')).a.handled := by
  obtain ⟨l, hl⟩ := actor_history cap before ops
  refine ⟨by simp [after, St.step], fun x hx => ?_⟩
  have hxr : x ∈ rest := (List.mem_filter.mp hx).1
  have hs : ((after cap before ops).step (.env (.handlerEnd o))).a = Lifecycle.after cap (before ++ (l ++ [.handlerEnd o])) := by
    rw [← List.append_assoc, after_snoc, ← hl]; rfl
  obtain ⟨l', hl'⟩ := foldl_history cap before ops' _ _ hs
  have heq : (after cap before (ops ++ .env (.handlerEnd o) :: ops')).a =
      Lifecycle.after cap ((before ++ l) ++ .handlerEnd o :: l') := by
    rw [show after cap before (ops ++ .env (.handlerEnd o) :: ops') =
      ops'.foldl St.step ((after cap before ops).step (.env (.handlerEnd o))) by simp [after], hl']
    simp
  rw [hl] at hp hpo
  obtain ⟨h1, -, h3, -⟩ := failure_in_drain_loses_rest cap (before ++ l) l' m tk rest ts o hp hpo ho x hxr
  refine ⟨?_, by rw [heq]; exact h1⟩
  rw [hl]
  exact (received_sublist_pushed (good_after cap (before ++ l)).shape).subset h3

/-- Started is being handled, item 5 is behind it in the buffer. -/
example : let s := after none [] [.start, .advance, .yield 5, .advance, .env .run, .env (.startEnd .ok), .env .pollBegin,
      .env .recv, .env .recv, .env .recv]
    s.a.phase = .handling (0, told .started) false [(1, told (.next 5))] false ∧ s.a.polling = true ∧
    ours s [(1, told (.next 5))] = [(1, told (.next 5))] := by decide

end Verif.Stream
