/-! General list lemmas used by several modules. -/

namespace Verif

/-- In a list with distinct keys an entry is determined by its key. -/
theorem key_inj {κ β : Type} {l : List (κ × β)} (hn : (l.map (·.1)).Nodup) {p q : κ × β}
    (hp : p ∈ l) (hq : q ∈ l) (h : p.1 = q.1) : p = q := by
  induction l with
  | nil => simp at hp
  | cons x l ih =>
    simp only [List.map_cons, List.nodup_cons] at hn
    rcases List.mem_cons.mp hp with rfl | hp' <;> rcases List.mem_cons.mp hq with rfl | hq'
    · rfl
    · exact absurd (h ▸ List.mem_map_of_mem (f := (·.1)) hq') hn.1
    · exact absurd (h ▸ List.mem_map_of_mem (f := (·.1)) hp') hn.1
    · exact ih hn.2 hp' hq'

/-- The same for any key function. -/
theorem map_inj {κ β : Type} {f : β → κ} {l : List β} (hn : (l.map f).Nodup) {p q : β}
    (hp : p ∈ l) (hq : q ∈ l) (h : f p = f q) : p = q := by
  induction l with
  | nil => simp at hp
  | cons x l ih =>
    simp only [List.map_cons, List.nodup_cons] at hn
    rcases List.mem_cons.mp hp with rfl | hp' <;> rcases List.mem_cons.mp hq with rfl | hq'
    · rfl
    · exact absurd (h ▸ List.mem_map_of_mem (f := f) hq') hn.1
    · exact absurd (h ▸ List.mem_map_of_mem (f := f) hp') hn.1
    · exact ih hn.2 hp' hq'

end Verif
