import Verif.Boot.Inv

/-
In which order things happen while a node is bootstrapped.
-/

namespace Verif.Boot

/-- The event shows that the handler is gone. -/
def Gone : Event → Prop
  | .ended _ => True
  | .returned _ .panicked => True
  | .crashed _ => True
  | _ => False

/-- What must have happened, or must not have happened, before an event. -/
def Before (l : List Event) : Event → Prop
  | .saw none => ∀ e ∈ l, Quiet e
  | .refused _ => ∀ e ∈ l, Quiet e
  | .sent _ => ∀ e ∈ l, ¬ Gone e
  | .took _ _ => ∀ e ∈ l, ¬ Gone e
  | .crashed _ => ∃ c, .ended c ∈ l ∨ .returned c .panicked ∈ l
  | .returned _ (.ok _) => ∀ e ∈ l, ¬ Gone e
  | .returned c (.already q _) => ∃ w k, w ≠ c ∧ .started w k q ∈ l
  | .returned c .nothing => ∃ w k q, w ≠ c ∧ .started w k q ∈ l
  | .saw (some p) => ∃ w k, .started w k p ∈ l
  | _ => True

def Ordered (l : List Event) : Prop := ∀ l1 e l2, l = l1 ++ e :: l2 → Before l1 e

theorem ordered_snoc {l : List Event} {e : Event} (h : Ordered l) (he : Before l e) : Ordered (l ++ [e]) := by
  intro l1 e' l2 hl
  rcases List.eq_nil_or_concat l2 with rfl | ⟨l3, e3, rfl⟩
  · obtain ⟨rfl, h2⟩ := List.append_inj' hl rfl
    cases h2
    exact he
  · refine h l1 e' l3 ?_
    have hl' : l ++ [e] = (l1 ++ e' :: l3) ++ [e3] := by simpa using hl
    exact (List.append_inj' hl' rfl).1

theorem not_gone {s : State} (h : Inv s) {w : Cell} (hw : s.cell = some w)
    (ha : (s.chan w.call).alive = true ∨ s.call w.call ≠ none) : ∀ e ∈ s.log, ¬ Gone e := by
  intro e he hg
  have : ∃ w, s.cell = some w ∧ (s.chan w.call).alive = false ∧ s.call w.call = none := by
    apply h.gone e he
    cases e with
    | returned c r => cases r <;> simp_all [Gone]
    | _ => simp_all [Gone]
  obtain ⟨w', hw', h1, h2⟩ := this
  rw [hw] at hw'
  cases hw'
  rcases ha with ha | ha
  · rw [h1] at ha; cases ha
  · exact ha h2

theorem ordered_step {s : State} (h : Inv s) (ho : Ordered s.log) (op : Op) : Ordered (s.step op).log := by
  cases op with
  | start k p => exact ordered_snoc ho trivial
  | make c ok =>
    simp only [State.step]
    split
    · split
      · exact ho
      · exact ordered_snoc ho trivial
    · exact ho
  | check c built =>
    simp only [State.step]
    split
    · next hc =>
      split
      · next w hw =>
        obtain ⟨k, hk, hs⟩ := h.winner w hw
        refine ordered_snoc ho ⟨w.call, k, ?_, hk⟩
        rintro rfl
        have hf := h.fits w hw
        have hr := h.spawn
        rcases hs with hs | hs | hs
        · rw [hc] at hs; cases hs.1
        · have := returned_none h hs; rw [hc] at this; cases this
        · have := returned_none h hs.1; rw [hc] at this; cases this
      · split
        · exact ho
        · exact ordered_snoc ho trivial
    · exact ho
  | insert c =>
    simp only [State.step]
    split
    · next hc =>
      split
      · next w hw =>
        obtain ⟨k, hk, hs⟩ := h.winner w hw
        have hne : w.call ≠ c := by
          rintro rfl
          rcases hs with hs | hs | hs
          · rw [hc] at hs; cases hs.1
          · have := returned_none h hs; rw [hc] at this; cases this
          · have := returned_none h hs.1; rw [hc] at this; cases this
        split
        · exact ordered_snoc ho ⟨w.call, k, w.peer, hne, hk⟩
        · exact ordered_snoc ho ⟨w.call, k, hne, hk⟩
      · exact ho
    · exact ho
  | spawn c rt =>
    simp only [State.step]
    split
    · next hc =>
      split
      · exact ordered_snoc ho (not_gone h (h.spawn _ _ _ hc) (.inr (by simp [hc])))
      · exact ordered_snoc ho trivial
    · exact ho
  | ends c =>
    simp only [State.step]
    split
    · exact ho
    · split
      · exact ordered_snoc ho trivial
      · exact ho
  | take c =>
    simp only [State.step]
    split
    · exact ho
    · split
      · next x q ha hq =>
        by_cases hc : ∀ w, s.cell = some w → w.call ≠ c
        · rw [h.others c hc] at ha; cases ha
        · have hw : ∃ w, s.cell = some w ∧ w.call = c := by grind
          obtain ⟨w, hw, rfl⟩ := hw
          exact ordered_snoc ho (not_gone h hw (.inl ha))
      · exact ho
  | get =>
    simp only [State.step]
    cases hc : s.cell with
    | none => exact ordered_snoc ho (h.empty hc)
    | some w =>
      obtain ⟨k, hk, _⟩ := h.winner w hc
      exact ordered_snoc ho ⟨w.call, k, hk⟩
  | send x =>
    simp only [State.step]
    split
    · next hc => exact ordered_snoc ho (h.empty hc)
    · next w hw =>
      split
      · next ha => exact ordered_snoc ho (not_gone h hw (.inl ha))
      · next ha => exact ordered_snoc ho ⟨w.call, h.ended w hw (by simpa using ha)⟩

theorem ordered_run (ops : List Op) : Ordered (run ops).log := by
  suffices ∀ s, Inv s → Ordered s.log → Ordered (ops.foldl State.step s).log from
    this _ inv_init (by intro l1 e l2 h; simp at h)
  induction ops with
  | nil => exact fun _ _ h => h
  | cons op ops ih => exact fun s hi h => ih _ (inv_step hi op) (ordered_step hi h op)

end Verif.Boot
