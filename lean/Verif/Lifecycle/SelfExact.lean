import Verif.Lifecycle.Barrier
import Verif.Lifecycle.OrderExact

/-!
C05, exactly: when a message the actor sends to itself while it starts is handled before a message from outside.
-/

namespace Verif.Lifecycle

open Verif.Mailbox
open scoped List

theorem pair_or {β : Type} {x y : β} {l : List β} (hx : x ∈ l) (hy : y ∈ l) (hne : x ≠ y) : [x, y] <+ l ∨ [y, x] <+ l := by
  obtain ⟨a, b, rfl⟩ := List.append_of_mem hx
  rcases List.mem_append.mp hy with h | h
  · right
    exact (List.singleton_sublist.mpr h).append (List.singleton_sublist.mpr (by simp) : [x] <+ x :: b)
  · rcases List.mem_cons.mp h with h | h
    · exact absurd h.symm hne
    · left
      refine List.Sublist.trans ?_ (List.sublist_append_right a _)
      exact List.Sublist.cons_cons _ (List.singleton_sublist.mpr h)

theorem pair_anti {β : Type} {x y : β} {l : List β} (hn : l.Nodup) (h1 : [x, y] <+ l) (h2 : [y, x] <+ l) : False := by
  induction l with
  | nil => cases h1
  | cons z l ih =>
    rw [List.nodup_cons] at hn
    cases h1 with
    | cons _ h1 =>
      cases h2 with
      | cons _ h2 => exact ih hn.2 h1 h2
      | cons_cons _ h2 => exact hn.1 (h1.subset (by simp))
    | cons_cons _ h1 =>
      cases h2 with
      | cons _ h2 => exact hn.1 (h2.subset (by simp))
      | cons_cons _ h2 => exact hn.1 (h1.subset (by simp))

theorem pair_ne {β : Type} {x y : β} {l : List β} (hn : l.Nodup) (h : [x, y] <+ l) : x ≠ y := by
  rintro rfl
  have := hn.sublist h
  simp at this

/-- The order of two elements is that of any larger list without repetitions. -/
theorem pair_down {β : Type} {x y : β} {l L : List β} (hs : l <+ L) (hn : L.Nodup) (hx : x ∈ l) (hy : y ∈ l) (h : [x, y] <+ L) :
    [x, y] <+ l := by
  rcases pair_or hx hy (pair_ne hn h) with h1 | h1
  · exact h1
  · exact (pair_anti hn h (h1.trans hs)).elim

theorem pair_append {β : Type} {x y : β} {a b : List β} (hx : x ∈ a) (hy : y ∈ b) : [x, y] <+ a ++ b :=
  (List.singleton_sublist.mpr hx).append (List.singleton_sublist.mpr hy)

/-- **C05**, exactly. Let `w` be a message the actor sent to itself and `o` one from outside, both accepted before `on_start` returned and both handled. Then
`w` is handled first if and only if it was accepted first, or there was still room in the mailbox when `on_start` succeeded and
no stop request was accepted ahead of `w`. -/
theorem self_sent_first_iff (cap : Option Nat) (pre post : List Op) (w o : Msg)
    (hstart : (after cap pre).phase = .starting)
    (hwp : w ∈ msgsOf (after cap pre).mb.pushed) (hop : o ∈ msgsOf (after cap pre).mb.pushed)
    (hw : w.2.within = true) (ho : o.2.within = false)
    (hwh : w ∈ (after cap (pre ++ .startEnd .ok :: post)).handled)
    (hoh : o ∈ (after cap (pre ++ .startEnd .ok :: post)).handled) :
    [w, o] <+ (after cap (pre ++ .startEnd .ok :: post)).handled ↔
      [w, o] <+ msgsOf (after cap pre).mb.pushed ∨
      ((after cap pre).mb.hasRoom = true ∧
        ∀ a b, (after cap pre).mb.pushed = a ++ (w.1, .msg w.2) :: b → ∀ t, (t, Sig.stop) ∉ a) := by
  have hpp : (after cap pre).mb.pushed <+: (after cap (pre ++ .startEnd .ok :: post)).mb.pushed := by
    rw [after_append]; exact exec_pushed _ _
  have hppm : msgsOf (after cap pre).mb.pushed <+ msgsOf (after cap (pre ++ .startEnd .ok :: post)).mb.pushed := by
    obtain ⟨x, hx⟩ := hpp
    rw [← hx, msgsOf_append]; exact List.sublist_append_left _ _
  have hself := fun a b hr hacc hstop => self_sent_first_partial cap pre post w o a b hstart hr hacc hw hstop hoh ho
  have hfull := full_start_no_precedence cap pre post hstart
  have hnd : (msgsOf (after cap (pre ++ .startEnd .ok :: post)).mb.pushed).Nodup := nodup_of_map (pushed_nodup cap _)
  have hndk : ((after cap (pre ++ .startEnd .ok :: post)).mb.pushed.map (·.1)).Nodup := by
    have h := (shape_after cap (pre ++ .startEnd .ok :: post)).mb.part_nodup
    simp only [List.map_append, List.nodup_append] at h
    exact h.1.1.1
  have hg := good_after cap (pre ++ .startEnd .ok :: post)
  have hfe := firstEnd_after cap (pre ++ .startEnd .ok :: post)
  generalize after cap (pre ++ .startEnd .ok :: post) = s at *
  generalize after cap pre = s0 at *
  have hrp : msgsOf s.mb.received <+ msgsOf s.mb.pushed := by
    obtain ⟨x, hx⟩ := received_sublist_pushed hg.shape
    rw [← hx, msgsOf_append]; exact List.sublist_append_left _ _
  have hR : (msgsOf s.mb.received).Nodup := hnd.sublist hrp
  have hwr : w ∈ msgsOf s.mb.received := hg.acct.mem_iff.mpr (by simp [hwh])
  have hor : o ∈ msgsOf s.mb.received := hg.acct.mem_iff.mpr (by simp [hoh])
  cases hc : s.cut with
  | none =>
    rw [(hg.ord.none hc).1] at hoh
    simp [ho] at hoh
  | some k =>
    obtain ⟨hk, hsub, _⟩ := hg.ord.some k hc
    have hS : (startupOrder k s.mb.received).Nodup := (startupOrder_perm k _).nodup_iff.mpr hR
    have hhS : s.handled <+ startupOrder k s.mb.received := (List.sublist_append_left _ _).trans hsub
    have hsplit : msgsOf s.mb.received = msgsOf (s.mb.received.take k) ++ msgsOf (s.mb.received.drop k) := by
      rw [← msgsOf_append, List.take_append_drop]
    have hto : ∀ x : Msg, x ∈ msgsOf s.mb.received →
        x ∈ msgsOf (s.mb.received.take k) ∨ x ∈ msgsOf (s.mb.received.drop k) := by
      intro x hx; rw [hsplit] at hx; exact List.mem_append.mp hx
    have oB : o ∈ msgsOf (s.mb.received.take k) → o ∈ (msgsOf (s.mb.received.take k)).filter (fun m => !m.2.within) :=
      fun h => List.mem_filter.mpr ⟨h, by simp [ho]⟩
    -- `w` was taken before the start-up was finished: it goes first
    have early : w ∈ msgsOf (s.mb.received.take k) → [w, o] <+ startupOrder k s.mb.received := by
      intro h
      have wA : w ∈ (msgsOf (s.mb.received.take k)).filter (·.2.within) := List.mem_filter.mpr ⟨h, hw⟩
      unfold startupOrder
      rw [List.append_assoc]
      refine pair_append wA ?_
      rcases hto o hor with h | h
      · exact List.mem_append_left _ (oB h)
      · exact List.mem_append_right _ h
    constructor
    · intro h
      by_cases hroom : s0.mb.hasRoom = true
      · by_cases hwt : w ∈ msgsOf (s.mb.received.take k)
        · refine .inr ⟨hroom, fun a b hab t ht => ?_⟩
          -- what is ahead of `w` was taken before the signal that finished the start-up
          have h1 : a ++ [(w.1, Sig.msg w.2)] <+: s.mb.pushed := by
            refine List.IsPrefix.trans ⟨b, ?_⟩ hpp
            rw [hab]; simp
          have h2 : s.mb.received.take k <+: s.mb.pushed :=
            (List.take_prefix _ _).trans (received_sublist_pushed hg.shape)
          have h3 : a ++ [(w.1, Sig.msg w.2)] <+: s.mb.received.take k := by
            rcases List.prefix_or_prefix_of_prefix h1 h2 with h | h
            · exact h
            · rcases List.prefix_concat_iff.mp h with h | h
              · rw [h]; exact List.prefix_refl _
              · exfalso
                have hin := h.subset (mem_msgsOf.mp hwt)
                obtain ⟨y, hy⟩ := h1
                rw [← hy] at hndk
                simp only [List.map_append, List.nodup_append] at hndk
                exact hndk.1.2.2 w.1 (List.mem_map_of_mem hin) w.1 (by simp) rfl
          have h4 : (t, Sig.stop) ∈ s.mb.received.take (k - 1) := by
            obtain ⟨y, hy⟩ := h3
            have hlen : a.length + 1 ≤ k := by
              have := congrArg List.length hy
              simp at this; omega
            have : s.mb.received.take (k - 1) = (s.mb.received.take k).take (k - 1) := by
              rw [List.take_take]; congr 1; omega
            rw [this, ← hy, List.append_assoc, List.take_append]
            refine List.mem_append_left _ ?_
            rw [List.take_of_length_le (by omega)]
            exact ht
          have := hfe.some k hc _ h4
          simp [endsStartup] at this
        · left
          have hwd := (hto w hwr).resolve_left hwt
          have hS' : [w, o] <+ startupOrder k s.mb.received := h.trans hhS
          have hod : o ∈ msgsOf (s.mb.received.drop k) := by
            refine (hto o hor).resolve_left fun hot => ?_
            refine pair_anti hS hS' ?_
            unfold startupOrder
            exact pair_append (List.mem_append_right _ (oB hot)) hwd
          have h1 : [w, o] <+ msgsOf (s.mb.received.drop k) :=
            pair_down (by unfold startupOrder; exact List.sublist_append_right _ _) hS hwd hod hS'
          have h2 : [w, o] <+ msgsOf s.mb.received := by
            rw [hsplit]; exact h1.trans (List.sublist_append_right _ _)
          exact pair_down hppm hnd hwp hop (h2.trans hrp)
      · left
        exact pair_down hppm hnd hwp hop (h.trans (hfull (by simpa using hroom)))
    · rintro (h | ⟨h1, h2⟩)
      · have h1 : [w, o] <+ msgsOf s.mb.received := pair_down hrp hnd hwr hor (h.trans hppm)
        refine pair_down hhS hS hwh hoh ?_
        by_cases hwt : w ∈ msgsOf (s.mb.received.take k)
        · exact early hwt
        · have hwd := (hto w hwr).resolve_left hwt
          have hod : o ∈ msgsOf (s.mb.received.drop k) := by
            refine (hto o hor).resolve_left fun hot => ?_
            refine pair_anti hR h1 ?_
            rw [hsplit]
            exact pair_append hot hwd
          have h2 : [w, o] <+ msgsOf (s.mb.received.drop k) :=
            pair_down (by rw [hsplit]; exact List.sublist_append_right _ _) hR hwd hod h1
          exact h2.trans (by unfold startupOrder; exact List.sublist_append_right _ _)
      · obtain ⟨a, b, hab⟩ := List.append_of_mem (mem_msgsOf.mp hwp)
        obtain ⟨x, y, hxy, hx, hy⟩ := hself a b h1 hab (h2 a b hab)
        rw [hxy] at hoh ⊢
        exact pair_append hx ((List.mem_append.mp hoh).resolve_left hy)

/-- Room in the mailbox, and the actor's own message goes first though it was accepted second; and no room, and it goes second. -/
example : let pre : List Op := [.send (tell 10), .run, .send (self 11)]
    let post : List Op := [.pollBegin, .recv, .recv, .handlerEnd (.ret (.ok 0)), .recv, .handlerEnd (.ret (.ok 0)), .recv,
      .handlerEnd (.ret (.ok 0))]
    (after none pre).phase = .starting ∧ msgsOf (after none pre).mb.pushed = [(0, tell 10), (1, self 11)] ∧
    (after none pre).mb.hasRoom = true ∧
    (after none (pre ++ .startEnd .ok :: post)).handled = [(1, self 11), (0, tell 10)] ∧
    (after (some 2) pre).phase = .starting ∧ msgsOf (after (some 2) pre).mb.pushed = [(0, tell 10), (1, self 11)] ∧
    (after (some 2) pre).mb.hasRoom = false ∧
    (after (some 2) (pre ++ .startEnd .ok :: post)).handled = [(0, tell 10), (1, self 11)] := by decide

end Verif.Lifecycle
