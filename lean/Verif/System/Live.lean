import Verif.System.Component
import Verif.System.Shutdown
import Verif.Lifecycle.PropsLive
import Verif.Lifecycle.PropsSender

/-!
Infinite executions of a system of linked actors, and what a fair scheduler owes them. Each actor of a fair execution of
the system has a fair execution of its own (`Verif/Lifecycle/Live.lean`), provided that the death notifications it sends
get through.
-/

set_option linter.unusedSimpArgs false

namespace Verif.System

open Verif.Mailbox Verif.Lifecycle

/-- The system after the first `n` operations of an execution; `src/actor/spawn.rs` L415-591. -/
def sysUpto (cap : Id → Option Nat) (ops : Nat → SOp) (n : Nat) : Sys := sysAfter cap ((List.range n).map ops)

theorem sysUpto_succ (cap : Id → Option Nat) (ops : Nat → SOp) (n : Nat) :
    sysUpto cap ops (n + 1) = (sysUpto cap ops n).step (ops n) := by
  simp [sysUpto, sysAfter, List.range_succ, Sys.exec]

/-- A fair execution of the system. `task`: a task that has been spawned and has something to do by itself takes its next
step sooner or later, unless the actor ends. `first`: the notifications of a dying actor are polled a first time
(`FuturesUnordered`, `src/actor/spawn.rs` L517-565). `second`: such a future, when its send is over, is polled again.
`kill`, `sender`: as for single actors, `Lifecycle.Fair`. -/
structure SysFair (cap : Id → Option Nat) (ops : Nat → SOp) : Prop where
  task : ∀ n x, Busy ((sysUpto cap ops n).act x) → ((sysUpto cap ops n).act x).phase ≠ .prepared →
    (∀ r p res, ((sysUpto cap ops n).act x).phase = .notifying r p res → p = []) →
    ∃ m, n ≤ m ∧ ((∃ op, isLocal op = true ∧ ops m = .loc x op ∧ Own ((sysUpto cap ops m).act x) op) ∨
      ((sysUpto cap ops m).act x).phase.ended = true)
  first : ∀ n i j r p res, ((sysUpto cap ops n).act i).phase = .notifying r p res → j ∈ p →
    ∃ m, n ≤ m ∧ ((i, j) ∈ keys (sysUpto cap ops m) ∨ ((sysUpto cap ops m).act i).phase ≠ .notifying r p res)
  second : ∀ n i j t, (i, j, t) ∈ (sysUpto cap ops n).flight →
    pendingIn ((sysUpto cap ops n).act j) t = false →
    ∃ m, n ≤ m ∧ (ops m = .notifyEnd i j ∨ (i, j, t) ∉ (sysUpto cap ops m).flight ∨
      ((sysUpto cap ops m).act i).phase.ended = true)
  kill : ∀ n x, ((sysUpto cap ops n).act x).aborted = true → ((sysUpto cap ops n).act x).phase.inLoop = true →
    ∃ m, n ≤ m ∧ ((((sysUpto cap ops m).act x).polling = false ∧ ops m = .loc x .pollBegin) ∨
      (((sysUpto cap ops m).act x).polling = true ∧ ops m = .loc x .pollEnd) ∨
      ((sysUpto cap ops m).act x).phase.inLoop = false)
  sender : ∀ n x t, t ∈ K ((sysUpto cap ops n).act x).mb.granted →
    ∃ m, n ≤ m ∧ (ops m = .loc x (.poll t) ∨ t ∉ K ((sysUpto cap ops m).act x).mb.granted)

/-- Every death notification gets through sooner or later: its signal is put in the queue, or the receiver is gone.
`src/mailbox.rs` L498-511. When this fails is C27. -/
def Through (cap : Id → Option Nat) (ops : Nat → SOp) : Prop :=
  ∀ n i j t, (i, j, t) ∈ (sysUpto cap ops n).flight →
    ∃ m, n ≤ m ∧ pendingIn ((sysUpto cap ops m).act j) t = false

/-- The notifications of one actor get through. `src/mailbox.rs` L498-511. -/
def ThroughBy (cap : Id → Option Nat) (ops : Nat → SOp) (i : Id) : Prop :=
  ∀ n j t, (i, j, t) ∈ (sysUpto cap ops n).flight →
    ∃ m, n ≤ m ∧ pendingIn ((sysUpto cap ops m).act j) t = false

theorem Through.by {cap : Id → Option Nat} {ops : Nat → SOp} (h : Through cap ops) (i : Id) : ThroughBy cap ops i :=
  fun n j t => h n i j t

/-! ### The execution of one actor -/

/-- What a step of the system is to actor `x`; `.unlink x` if it is nothing to it. -/
def share (S : Sys) (x : Id) : SOp → Op
  | .loc i op => if x = i ∧ S.allowed i op = true then op else .unlink x
  | .link a b => if a = b then .unlink x else if x = b then .link a else if x = a then .link b else .unlink x
  | .unlink a b => if a = b then .unlink x else if x = b then .unlink a else if x = a then .unlink b else .unlink x
  | .notifyStart i j =>
    match (S.act i).phase with
    | .notifying r pend _ =>
      if j ∈ pend ∧ S.flight.all (fun p => !(p.1 == i && p.2.1 == j)) = true then
        (if x = j then .sendLinkDied i r else .unlink x)
      else .unlink x
    | _ => .unlink x
  | .notifyEnd i j =>
    match S.flight.find? (fun p => p.1 == i && p.2.1 == j) with
    | some p => if pendingIn (S.act j) p.2.2 then .unlink x else if x = i then .notifyEnd j else .unlink x
    | none => .unlink x

theorem unlink_self {x : Id} {s : St} (h : x ∉ s.links) : s.step (.unlink x) = s := by
  have : s.links.filter (· != x) = s.links := by
    rw [List.filter_eq_self]
    intro a ha
    simp
    rintro rfl
    exact h ha
  simp [St.step, this]

theorem share_step {S : Sys} {x : Id} (h : x ∉ (S.act x).links) (op : SOp) :
    (S.step op).act x = (S.act x).step (share S x op) := by
  have hu := unlink_self h
  cases op with
  | loc i op =>
    simp only [Sys.step, share]
    by_cases h1 : S.allowed i op = true
    · by_cases h2 : x = i
      · subst h2; simp [h1]
      · simp [h1, h2, hu]
    · simp [h1, hu]
  | link a b =>
    simp only [Sys.step, share]
    by_cases h1 : a = b
    · simp [h1, hu]
    · by_cases h2 : x = b
      · subst h2; simp [h1, Ne.symm h1]
      · by_cases h3 : x = a
        · subst h3; simp [h1]
        · simp [h1, h2, h3, hu]
  | unlink a b =>
    simp only [Sys.step, share]
    by_cases h1 : a = b
    · simp [h1, hu]
    · by_cases h2 : x = b
      · subst h2; simp [h1, Ne.symm h1]
      · by_cases h3 : x = a
        · subst h3; simp [h1]
        · simp [h1, h2, h3, hu]
  | notifyStart i j =>
    simp only [Sys.step, share]
    cases hp : (S.act i).phase <;> simp only [hu]
    split
    · by_cases h2 : x = j
      · subst h2; simp
      · simp [h2, hu]
    · simp [hu]
  | notifyEnd i j =>
    simp only [Sys.step, share]
    cases hf : S.flight.find? (fun p => p.1 == i && p.2.1 == j) with
    | none => simp [hu]
    | some p =>
      simp only
      split
      · simp [hu]
      · by_cases h2 : x = i
        · subst h2; simp
        · simp [h2, hu]

/-- The execution of actor `x` in an execution of the system. -/
def proj (cap : Id → Option Nat) (ops : Nat → SOp) (x : Id) : Nat → Op :=
  fun n => share (sysUpto cap ops n) x (ops n)

theorem proj_upto (cap : Id → Option Nat) (ops : Nat → SOp) (x : Id) (n : Nat) :
    upto (cap x) (proj cap ops x) n = (sysUpto cap ops n).act x := by
  induction n with
  | zero => rfl
  | succ n ih =>
    have h : x ∉ ((sysUpto cap ops n).act x).links := (linksOk cap _ x).irr
    rw [upto_succ, sysUpto_succ, share_step h, ih]
    rfl

theorem proj_loc {cap : Id → Option Nat} {ops : Nat → SOp} {x : Id} {n : Nat} {op : Op} (h : ops n = .loc x op)
    (hl : isLocal op = true) (hc : ∀ t, op ≠ .cancel t) : proj cap ops x n = op := by
  have : (sysUpto cap ops n).allowed x op = true := by
    cases op <;> simp_all [Sys.allowed]
  simp [proj, share, h, this]

/-! ### Facts about notifications -/

theorem sysUpto_good (cap : Id → Option Nat) (ops : Nat → SOp) (n : Nat) (x : Id) :
    Good ((sysUpto cap ops n).act x) := sys_good cap _ x

/-- A notification that got through stays so. -/
theorem through_stays {cap : Id → Option Nat} {ops : Nat → SOp} {n k : Nat} (hk : n ≤ k) {i j : Id} {t : Nat}
    (h : (i, j, t) ∈ (sysUpto cap ops n).flight) (hc : ((sysUpto cap ops n).act i).phase ≠ .crashed)
    (hp : pendingIn ((sysUpto cap ops n).act j) t = false) :
    pendingIn ((sysUpto cap ops k).act j) t = false := by
  obtain ⟨r, p, res, h1, h2, h3⟩ := ((fl_after cap _).st i j t h).resolve_left hc
  have hnp : ∀ s : St, (∃ q ∈ s.mb.waiting ++ s.mb.granted, q.1 = t) ↔ pendingIn s t = true := by
    intro s
    simp only [pendingIn, List.any_eq_true, beq_iff_eq]
  have h4 : (t, Sig.linkDied i r) ∈ ((sysUpto cap ops n).act j).mb.pushed ∨
      ((sysUpto cap ops n).act j).mb.closed = true := by
    rcases h3 with h3 | h3 | h3 | h3
    · have := (hnp _).mp ⟨_, List.mem_append_left _ h3, rfl⟩
      change pendingIn ((sysUpto cap ops n).act j) t = true at this
      rw [hp] at this; cases this
    · have := (hnp _).mp ⟨_, List.mem_append_right _ h3, rfl⟩
      change pendingIn ((sysUpto cap ops n).act j) t = true at this
      rw [hp] at this; cases this
    · exact Or.inl h3
    · exact Or.inr h3
  have hg := sysUpto_good cap ops k j
  have h5 : (t, Sig.linkDied i r) ∈ ((sysUpto cap ops k).act j).mb.pushed ∨
      ((sysUpto cap ops k).act j).mb.closed = true := by
    clear hg h hc hp h1 h2 h3
    induction hk with
    | refl => exact h4
    | @step k _ ih =>
      rw [sysUpto_succ]
      rcases (view (sysUpto cap ops k) (ops k) j).ops with e | ⟨o, e⟩
      · rw [e]; exact ih
      · rw [e]; exact ih.imp (pushed_step _ o) (closed_step _ o)
  by_cases hpk : pendingIn ((sysUpto cap ops k).act j) t = true
  · exfalso
    obtain ⟨q, hq, hqt⟩ := (hnp _).mpr hpk
    rcases h5 with h5 | h5
    · have hnd := hg.shape.mb.part_nodup
      simp only [List.map_append, List.nodup_append, List.mem_map, List.mem_append] at hnd hq
      grind
    · rw [pendingIn_closed hg.shape.mb (Or.inl h5)] at hq
      simp at hq
  · simpa using hpk

/-! ### Fairness of one actor -/

theorem leaves_prepared {s : St} {op : Op} (h : s.phase = .prepared) (h' : (s.step op).phase ≠ .prepared) :
    op = .run ∨ (s.step op).phase.ended = true := by
  cases op <;> simp_all [St.step] <;> (try (revert h'; split <;> simp_all))

theorem not_prepared_step {s : St} (op : Op) (h : s.phase ≠ .prepared) : (s.step op).phase ≠ .prepared := by
  have ht := step_tr s op
  generalize s.step op = s' at *
  have hdr : ∀ (a : St) (rest : List Msg) (ts : Bool), (a.drain rest ts).phase ≠ .prepared := by
    intro a rest ts
    cases rest <;> cases ts <;> simp [St.drain]
  cases ht with
  | recvNone => exact hdr _ _ _
  | recvStartup => exact hdr _ _ _
  | recvStop => exact hdr _ _ _
  | handlerReply => exact hdr _ _ _
  | handlerOk => exact hdr _ _ _
  | startOk => rw [(startOk_fields s).2.1]; simp
  | _ => simp_all [St.step, St.crash, St.abortSeen, St.stopFailed, St.startFail]

/-- An actor that notifies goes on with that only by steps of its own. -/
theorem notifying_other {s : St} {op : Op} {r : Reason} {p : List Id} {res : Option Err}
    (hp : s.phase = .notifying r p res) (hne : p ≠ []) (ho : ¬ Own s op) :
    (s.step op).phase = .notifying r p res ∨ (s.step op).phase.ended = true := by
  by_cases ht : op = .teardown
  · subst ht; right; simp [St.step, hp]
  · rcases (notifying_step hp hne ht).1 with h | ⟨k, rfl, h⟩
    · left; rw [h, hp]
    · left
      have hk : k ∉ p := fun hk => ho (by simp [Own, hp, hk])
      rw [h, List.erase_of_not_mem hk]

theorem flight_step {S : Sys} {op : SOp} {q : Id × Id × Nat} (h : q ∈ S.flight) :
    q ∈ (S.step op).flight ∨ op = .notifyEnd q.1 q.2.1 := by
  cases op with
  | loc i o => left; simp only [Sys.step]; split <;> simpa using h
  | link a b => left; simp only [Sys.step]; split <;> simpa using h
  | unlink a b => left; simp only [Sys.step]; split <;> simpa using h
  | notifyStart i j =>
    left; simp only [Sys.step]; split
    · split
      · simp [h]
      · exact h
    · exact h
  | notifyEnd i j =>
    simp only [Sys.step]
    split
    · next p hf =>
      split
      · exact Or.inl h
      · by_cases hq : q = p
        · right
          have := List.find?_some hf
          subst hq
          simp at this
          simp [this]
        · left
          simp only
          exact (List.mem_erase_of_ne hq).mpr h
    · exact Or.inl h

theorem find_unique {S : Sys} (hn : (keys S).Nodup) {i j : Id} {t : Nat} (h : (i, j, t) ∈ S.flight) :
    S.flight.find? (fun p => p.1 == i && p.2.1 == j) = some (i, j, t) := by
  unfold keys at hn
  generalize S.flight = l at *
  induction l with
  | nil => cases h
  | cons q l ih =>
    rw [List.map_cons, List.nodup_cons] at hn
    rw [List.find?_cons]
    rcases List.mem_cons.mp h with rfl | h
    · simp
    · split
      · next hq =>
        exfalso
        apply hn.1
        simp at hq
        rw [hq.1, hq.2]
        exact List.mem_map.mpr ⟨_, h, rfl⟩
      · exact ih hn.2 h

/-- If its notifications get through, an actor of a fair execution that is ever started has a fair execution. -/
theorem proj_fair {cap : Id → Option Nat} {ops : Nat → SOp} (hf : SysFair cap ops) {x : Id}
    (ht : ThroughBy cap ops x) {n0 : Nat} (hx : ((sysUpto cap ops n0).act x).phase ≠ .prepared) : Fair (cap x) (proj cap ops x) := by
  have hup := proj_upto cap ops x
  have hnp : ∀ {n k}, n ≤ k → ((sysUpto cap ops n).act x).phase ≠ .prepared →
      ((sysUpto cap ops k).act x).phase ≠ .prepared := by
    intro n k hk h
    rw [← hup] at h ⊢
    induction hk with
    | refl => exact h
    | step _ ih => rw [upto_succ]; exact not_prepared_step _ ih
  constructor
  · intro n hb
    simp only [hup] at hb ⊢
    by_cases hpr : ((sysUpto cap ops n).act x).phase = .prepared
    · have hlt : n ≤ n0 := by
        apply Classical.byContradiction
        intro hlt
        exact hnp (by omega) hx hpr
      clear hb
      obtain ⟨d, hd⟩ := Nat.exists_eq_add_of_le hlt
      clear hlt
      induction d generalizing n with
      | zero => subst hd; exact absurd hpr hx
      | succ d ih =>
        by_cases h : ((sysUpto cap ops (n + 1)).act x).phase = .prepared
        · obtain ⟨m, hm, hm2⟩ := ih (n + 1) h (by omega)
          exact ⟨m, by omega, hm2⟩
        · rw [← hup, upto_succ] at h
          rcases leaves_prepared (by rw [hup]; exact hpr) h with h1 | h1
          · exact ⟨n, Nat.le_refl _, Or.inl (by simp [Own, hpr, h1])⟩
          · rw [← upto_succ, hup] at h1
            exact ⟨n + 1, by omega, Or.inr h1⟩
    · by_cases hno : ∀ r p res, ((sysUpto cap ops n).act x).phase = .notifying r p res → p = []
      · obtain ⟨m, hm, h⟩ := hf.task n x hb hpr hno
        refine ⟨m, hm, ?_⟩
        rcases h with ⟨op, hl, h1, h2⟩ | h
        · left
          rw [proj_loc h1 hl (by rintro t rfl; revert h2; unfold Own; cases ((sysUpto cap ops m).act x).phase <;> simp)]
          exact h2
        · exact Or.inr h
      · have hno : ∃ r p res, ((sysUpto cap ops n).act x).phase = .notifying r p res ∧ p ≠ [] := by
          apply Classical.byContradiction
          intro h
          exact hno fun r p res h1 => Classical.byContradiction fun h2 => h ⟨r, p, res, h1, h2⟩
        obtain ⟨r, p, res, hp, hne⟩ := hno
        apply Classical.byContradiction
        intro hnone
        have hnone : ∀ m, n ≤ m → ¬ Own ((sysUpto cap ops m).act x) (proj cap ops x m) ∧
            ¬ ((sysUpto cap ops m).act x).phase.ended = true := by
          intro m hm
          exact ⟨fun h => hnone ⟨m, hm, Or.inl h⟩, fun h => hnone ⟨m, hm, Or.inr h⟩⟩
        have hstay : ∀ m, n ≤ m → ((sysUpto cap ops m).act x).phase = .notifying r p res := by
          intro m hm
          induction hm with
          | refl => exact hp
          | @step m hm ih =>
            have h1 := hnone m hm
            have h2 := hnone (m + 1) (Nat.le_succ_of_le hm)
            rw [← hup] at ih
            rw [← hup, upto_succ] at h2 ⊢
            rw [← hup] at h1
            exact (notifying_other ih hne h1.1).resolve_right h2.2
        obtain ⟨j, hj⟩ := List.exists_mem_of_ne_nil p hne
        obtain ⟨m1, hm1, h1⟩ := hf.first n x j r p res hp hj
        have h1 := h1.resolve_right (fun h => h (hstay m1 hm1))
        obtain ⟨t, _, ht1⟩ := find_flight h1
        have hfly : ∀ k, m1 ≤ k → (x, j, t) ∈ (sysUpto cap ops k).flight := by
          intro k hk
          induction hk with
          | refl => exact ht1
          | @step k hk ih =>
            have hk : m1 ≤ k := hk
            rw [sysUpto_succ]
            rcases flight_step (op := ops k) ih with h | h
            · exact h
            · have hfi := find_unique (fl_after cap ((List.range k).map ops)).nd ih
              change (sysUpto cap ops k).flight.find? _ = _ at hfi
              by_cases hpe : pendingIn ((sysUpto cap ops k).act j) t = true
              · rw [h]
                simp only [Sys.step, hfi, hpe, if_true]
                exact ih
              · exfalso
                apply (hnone k (by omega)).1
                simp only [proj, h, share, hfi, hpe, Own, hstay k (by omega)]
                simp [hj]
        obtain ⟨m2, hm2, h2⟩ := ht m1 j t ht1
        have hnc : ((sysUpto cap ops m2).act x).phase ≠ .crashed := by rw [hstay m2 (by omega)]; simp
        obtain ⟨m3, hm3, h3⟩ := hf.second m2 x j t (hfly m2 hm2) h2
        have h4 := through_stays hm3 (hfly m2 hm2) hnc h2
        rcases h3 with h3 | h3 | h3
        · apply (hnone m3 (by omega)).1
          have hfi := find_unique (fl_after cap ((List.range m3).map ops)).nd (hfly m3 (by omega))
          change (sysUpto cap ops m3).flight.find? _ = _ at hfi
          simp only [proj, h3, share, hfi, h4, Own, hstay m3 (by omega)]
          simp [hj]
        · exact h3 (hfly m3 (by omega))
        · exact (hnone m3 (by omega)).2 h3
  · intro n ha hl
    simp only [hup] at ha hl ⊢
    obtain ⟨m, hm, h⟩ := hf.kill n x ha hl
    refine ⟨m, hm, ?_⟩
    rcases h with ⟨h1, h2⟩ | ⟨h1, h2⟩ | h
    · exact Or.inl ⟨h1, proj_loc h2 rfl (by simp)⟩
    · exact Or.inr (Or.inl ⟨h1, proj_loc h2 rfl (by simp)⟩)
    · exact Or.inr (Or.inr h)
  · intro n t hg
    simp only [hup] at hg ⊢
    obtain ⟨m, hm, h⟩ := hf.sender n x t hg
    refine ⟨m, hm, ?_⟩
    rcases h with h | h
    · exact Or.inl (proj_loc h rfl (by simp))
    · exact Or.inr h

end Verif.System
