import Verif.Remote.Order

/-!
Any number of remote tells can be handled in any order, whatever the order in which they arrive: C85, the tasks spawned by
`src/remote/swarm.rs` L892-911.
-/

namespace Verif.Remote.Order

open Verif.Mailbox

/-- The mailbox is open and empty, nobody waits for room, and it can take a message. -/
structure Quiet (w : W) : Prop where
  queue : w.mb.queue = []
  granted : w.mb.granted = []
  waiting : w.mb.waiting = []
  opn : w.mb.closed = false
  cap : w.mb.cap ≠ some 0

/-- The requests of `l` are made and arrive one after the other. -/
def arriveAll (l : List Nat) : List Op := l.flatMap fun n => [.tell n false false, .arrive n]

/-- The tasks serving them run one after the other, and the actor handles each message at once. -/
def serveAll (l : List Nat) : List Op := l.flatMap fun n => [.serve n true, .finish n, .recv, .respond n]

theorem run_arriveAll : ∀ (l : List Nat) (w : W), l.Nodup → (∀ n ∈ l, w.caller n = .fresh) →
    (w.run (arriveAll l)).mb = w.mb ∧ (w.run (arriveAll l)).arrivals = w.arrivals ++ l ∧
    (∀ n, n ∉ l → (w.run (arriveAll l)).caller n = w.caller n ∧ (w.run (arriveAll l)).job n = w.job n ∧
      (w.run (arriveAll l)).imm n = w.imm n) ∧
    ∀ n ∈ l, (w.run (arriveAll l)).caller n = .waiting ∧ (w.run (arriveAll l)).job n = .spawned ∧
      (w.run (arriveAll l)).imm n = false := by
  intro l
  induction l with
  | nil => intro w _ _; simp [arriveAll, W.run]
  | cons a l ih =>
    intro w hnd hf
    obtain ⟨hal, hnd⟩ := List.nodup_cons.mp hnd
    have ha := hf a (by simp)
    have e : w.run (arriveAll (a :: l)) = (w.run [.tell a false false, .arrive a]).run (arriveAll l) := by
      rw [← run_append]; rfl
    have hw : ∀ n, (w.run [.tell a false false, .arrive a]).caller n = (if n = a then .waiting else w.caller n) ∧
        (w.run [.tell a false false, .arrive a]).job n = (if n = a then .spawned else w.job n) ∧
        (w.run [.tell a false false, .arrive a]).imm n = (if n = a then false else w.imm n) := by
      intro n
      by_cases h : n = a <;> simp [W.run, W.step, set, ha, h]
    have hmb : (w.run [.tell a false false, .arrive a]).mb = w.mb ∧
        (w.run [.tell a false false, .arrive a]).arrivals = w.arrivals ++ [a] := by
      simp [W.run, W.step, set, ha]
    rw [e]
    generalize w.run [.tell a false false, .arrive a] = w' at hw hmb
    obtain ⟨h1, h2, h3, h4⟩ := ih w' hnd (fun n hn => by
      have : n ≠ a := fun e => hal (e ▸ hn)
      rw [(hw n).1, if_neg this]
      exact hf n (by simp [hn]))
    refine ⟨h1.trans hmb.1, by rw [h2, hmb.2]; simp, fun n hn => ?_, fun n hn => ?_⟩
    · have hna : n ≠ a := fun e => hn (by simp [e])
      obtain ⟨x, y, z⟩ := h3 n (fun h => hn (by simp [h]))
      refine ⟨x.trans ?_, y.trans ?_, z.trans ?_⟩
      · rw [(hw n).1, if_neg hna]
      · rw [(hw n).2.1, if_neg hna]
      · rw [(hw n).2.2, if_neg hna]
    · by_cases h : n ∈ l
      · exact h4 n h
      · have hna : n = a := by simpa [h] using hn
        obtain ⟨x, y, z⟩ := h3 n h
        refine ⟨x.trans ?_, y.trans ?_, z.trans ?_⟩
        · rw [(hw n).1, if_pos hna]
        · rw [(hw n).2.1, if_pos hna]
        · rw [(hw n).2.2, if_pos hna]

theorem run_serveAll : ∀ (l : List Nat) (w : W), l.Nodup → Quiet w →
    (∀ n ∈ l, w.caller n = .waiting ∧ w.job n = .spawned ∧ w.imm n = false) →
    (w.run (serveAll l)).handled = w.handled ++ l.map some ∧ (w.run (serveAll l)).arrivals = w.arrivals ∧
    (∀ n, n ∉ l → (w.run (serveAll l)).caller n = w.caller n) ∧ ∀ n ∈ l, (w.run (serveAll l)).caller n = .ok := by
  intro l
  induction l with
  | nil => intro w _ _ _; simp [serveAll, W.run]
  | cons a l ih =>
    intro w hnd hq hf
    obtain ⟨hal, hnd⟩ := List.nodup_cons.mp hnd
    obtain ⟨hc, hj, hi⟩ := hf a (by simp)
    have e : w.run (serveAll (a :: l)) = (w.run [.serve a true, .finish a, .recv, .respond a]).run (serveAll l) := by
      rw [← run_append]; rfl
    have hroom : w.mb.hasRoom = true := by
      simp only [Mb.hasRoom]
      split
      · rfl
      · next c h =>
        have : c ≠ 0 := fun e => hq.cap (by rw [h, e])
        simp [hq.queue, hq.granted]; omega
    have key : w.run [.serve a true, .finish a, .recv, .respond a] =
        { w with
          job := set (set (set w.job a (.sending w.mb.next)) a (.answered true)) a .over
          caller := set w.caller a .ok
          mb := { w.mb with
            next := w.mb.next + 1
            sent := w.mb.sent ++ [(w.mb.next, some a)]
            pushed := w.mb.pushed ++ [(w.mb.next, some a)]
            received := w.mb.received ++ [(w.mb.next, some a)] } } := by
      have hqq := hq.queue
      have hww := hq.waiting
      have hoo := hq.opn
      cases hm : w.mb
      rw [hm] at hroom hqq hww hoo
      simp only at hqq hww hoo
      subst hqq hww hoo
      simp [W.run, W.step, hj, hi, hm, hroom, Mb.send, Mb.bump, Mb.push, Mb.recv, Mb.release, set, hc]
    rw [e, key]
    generalize hw' : ({ w with
          job := set (set (set w.job a (.sending w.mb.next)) a (.answered true)) a .over
          caller := set w.caller a .ok
          mb := { w.mb with
            next := w.mb.next + 1
            sent := w.mb.sent ++ [(w.mb.next, some a)]
            pushed := w.mb.pushed ++ [(w.mb.next, some a)]
            received := w.mb.received ++ [(w.mb.next, some a)] } } : W) = w'
    have hq' : Quiet w' := by subst hw'; exact ⟨hq.queue, hq.granted, hq.waiting, hq.opn, hq.cap⟩
    have hcal : ∀ n, w'.caller n = if n = a then .ok else w.caller n := by subst hw'; intro n; rfl
    obtain ⟨h1, h2, h3, h4⟩ := ih w' hnd hq' (fun n hn => by
      have hna : n ≠ a := fun e => hal (e ▸ hn)
      have := hf n (by simp [hn])
      refine ⟨by rw [hcal, if_neg hna]; exact this.1, ?_, ?_⟩
      · subst hw'; simp [set, hna, this.2.1]
      · subst hw'; exact this.2.2)
    have hh : w'.handled = w.handled ++ [some a] := by subst hw'; simp [W.handled]
    have har : w'.arrivals = w.arrivals := by subst hw'; rfl
    refine ⟨by rw [h1, hh]; simp, h2.trans har, fun n hn => ?_, fun n hn => ?_⟩
    · rw [h3 n (fun h => hn (by simp [h])), hcal, if_neg (fun e => hn (by simp [e]))]
    · by_cases h : n ∈ l
      · exact h4 n h
      · have hna : n = a := by simpa [h] using hn
        rw [h3 n h, hcal, if_pos hna]

/-- **C85** (the order is lost at the actor's node, altogether). However many remote tells there are, and in whatever order
their requests arrive, they can be handled in every order: for every permutation there is a history in which all return
`Ok`, none waits for room, and they are handled in that order, in every mailbox that can hold a message at all. -/
theorem spawned_tasks_any_order (cap : Option Nat) (hcap : cap ≠ some 0) (l l' : List Nat) (hnd : l.Nodup)
    (hp : l'.Perm l) : ∃ ops, ((W.fresh cap).run ops).arrivals = l ∧
      (∀ n ∈ l, ((W.fresh cap).run ops).caller n = .ok) ∧ ((W.fresh cap).run ops).handled = l'.map some := by
  obtain ⟨h1, h2, -, h4⟩ := run_arriveAll l (W.fresh cap) hnd (fun _ _ => rfl)
  refine ⟨arriveAll l ++ serveAll l', ?_⟩
  rw [run_append]
  generalize (W.fresh cap).run (arriveAll l) = w at h1 h2 h4
  have hq : Quiet w := by
    constructor <;> rw [h1]
    · rfl
    · rfl
    · rfl
    · rfl
    · exact hcap
  obtain ⟨g1, g2, -, g4⟩ := run_serveAll l' w (hp.nodup_iff.mpr hnd) hq (fun n hn => h4 n (hp.mem_iff.mp hn))
  refine ⟨g2.trans (by rw [h2]; rfl), fun n hn => g4 n (hp.mem_iff.mpr hn), ?_⟩
  rw [g1]
  simp [W.handled, h1, W.fresh, Mb.fresh]

/-- Three tells that arrive as 1, 2, 3 can be handled as 3, 1, 2, even with room for one message only. -/
example : (some 1 : Option Nat) ≠ some 0 ∧ [1, 2, 3].Nodup ∧ [3, 1, 2].Perm [1, 2, 3] ∧
    ((W.fresh (some 1)).run (arriveAll [1, 2, 3] ++ serveAll [3, 1, 2])).handled = [some 3, some 1, some 2] :=
  ⟨by decide, by decide, by decide, rfl⟩

end Verif.Remote.Order
