import Verif.Plain.Spec

/-! Lemmas about the comparison of signals and answers. -/

namespace Verif.Plain

open Verif.Mailbox

variable {p : List (Nat × Lifecycle.Sig)}

@[simp] theorem same_nil : Same p [] [] := rfl

theorem same_nil_left {q : List (Nat × Lifecycle.Sig)} : Same p [] q ↔ q = [] := by
  cases q <;> simp [Same]

theorem same_nil_right {l : List Next.Item} : Same p l [] ↔ l = [] := by
  cases l <;> simp [Same]

theorem same_cons {it : Next.Item} {l : List Next.Item} {x : Nat × Lifecycle.Sig} {q : List (Nat × Lifecycle.Sig)} :
    Same p (it :: l) (x :: q) ↔ tag p it = mark x ∧ Same p l q := by
  simp [Same]

theorem same_append {a b : List Next.Item} {x y : List (Nat × Lifecycle.Sig)} (h : Same p a x) (h' : Same p b y) :
    Same p (a ++ b) (x ++ y) := by
  simp only [Same, List.map_append] at *; rw [h, h']

theorem same_cons_right {l : List Next.Item} {x : Nat × Lifecycle.Sig} {q : List (Nat × Lifecycle.Sig)}
    (h : Same p l (x :: q)) : ∃ it l', l = it :: l' ∧ tag p it = mark x ∧ Same p l' q := by
  cases l with
  | nil => simp [Same] at h
  | cons it l' => exact ⟨it, l', rfl, same_cons.mp h⟩

theorem tag_mono {it : Next.Item} {x : Nat × Lifecycle.Sig} (h : tag p it = mark x) (y : List (Nat × Lifecycle.Sig)) :
    tag (p ++ y) it = mark x := by
  simp only [tag, mark, Prod.mk.injEq] at *
  refine ⟨h.1, h.2.1, ?_⟩
  have := h.2.2
  rw [List.getElem?_eq_some_iff] at this
  obtain ⟨hl, hx⟩ := this
  rw [List.getElem?_append_left hl]
  exact h.2.2

theorem same_mono {l : List Next.Item} {q : List (Nat × Lifecycle.Sig)} (h : Same p l q)
    (y : List (Nat × Lifecycle.Sig)) : Same (p ++ y) l q := by
  induction l generalizing q with
  | nil => rw [same_nil_left] at h; subst h; exact same_nil
  | cons it l ih =>
    cases q with
    | nil => simp [Same] at h
    | cons x q => rw [same_cons] at *; exact ⟨tag_mono h.1 y, ih h.2⟩

@[simp] theorem sigs_nil : sigs [] = [] := rfl
@[simp] theorem sigs_cons (m : Lifecycle.Msg) (l : List Lifecycle.Msg) : sigs (m :: l) = (m.1, .msg m.2) :: sigs l := rfl
@[simp] theorem sigs_append (a b : List Lifecycle.Msg) : sigs (a ++ b) = sigs a ++ sigs b := by simp [sigs]
@[simp] theorem sigs_keys (l : List Lifecycle.Msg) : (sigs l).map (·.1) = l.map (·.1) := by
  induction l with
  | nil => rfl
  | cons m l ih => simp [ih]

theorem same_sigs_nil {l : List Lifecycle.Msg} : Same p [] (sigs l) ↔ l = [] := by
  rw [same_nil_left]; cases l <;> simp

theorem mem_ids {l : List Next.Item} {q : List (Nat × Lifecycle.Sig)} (hp : (p.map (·.1)).Nodup) (h : Same p l q)
    {i t : Nat} {x : Lifecycle.Sig} (hi : p[i]? = some (t, x)) : i ∈ l.map (·.id) ↔ t ∈ q.map (·.1) := by
  induction l generalizing q with
  | nil => rw [same_nil_left] at h; subst h; simp
  | cons it l ih =>
    cases q with
    | nil => simp [Same] at h
    | cons y q =>
      rw [same_cons] at h
      have h1 := ih h.2
      have h2 : p[it.id]? = some y := by
        have := h.1; simp only [tag, mark, Prod.mk.injEq] at this; exact this.2.2
      simp only [List.map_cons, List.mem_cons]
      rw [h1]
      have : i = it.id ↔ t = y.1 := by
        constructor
        · intro e; subst e; rw [hi] at h2; cases h2; rfl
        · intro e
          rw [List.getElem?_eq_some_iff] at hi h2
          obtain ⟨a1, a2⟩ := hi; obtain ⟨b1, b2⟩ := h2
          have c1 : (p.map (·.1))[i]'(by simpa using a1) = t := by simp [a2]
          have c2 : (p.map (·.1))[it.id]'(by simpa using b1) = y.1 := by simp [b2]
          exact (List.getElem_inj hp).mp (c1.trans (e.trans c2.symm))
      rw [this]

variable {σ : Nat → Lifecycle.Slot} {ν : Nat → Option Next.Out} {g : List Nat}

theorem waiting_none (h : Answers p σ ν g) {i t : Nat} {b : Lifecycle.Body} (hi : p[i]? = some (t, .msg b))
    (ha : b.ask = true) : σ t = .waiting ↔ i ∉ g ∧ ν i = none := by
  rcases h i t b hi ha with ⟨h1, h2⟩ | ⟨h1, this⟩
  · simp [h1, h2]
  · cases hs : σ t with
    | none => simp [outOf, hs] at this
    | waiting => simp [outOf, hs] at this; simp [h1, this]
    | gaveUp => simp [outOf, hs] at this
    | got r => cases r <;> simp [outOf, hs] at this <;> simp [← this]
    | failed f => cases f <;> simp [outOf, hs] at this <;> simp [← this]

/-- Reply senders are used or dropped. -/
theorem answers_upd (h : Answers p σ ν g) {P Q : Nat → Prop} [DecidablePred P] [DecidablePred Q]
    (hpq : ∀ i t b, p[i]? = some (t, .msg b) → b.ask = true → (P i ↔ Q t))
    {v : Lifecycle.Slot} {o : Next.Out} (hv : outOf v = some (some o)) :
    Answers p (fun t => if σ t = .waiting ∧ Q t then v else σ t)
      (fun y => if P y ∧ ν y = none then some o else ν y) g := by
  intro i t b hi ha
  have h1 := hpq i t b hi ha
  have h2 := waiting_none h hi ha
  have h3 := h i t b hi ha
  simp only []
  rcases h3 with ⟨h4, h5⟩ | ⟨h4, h5⟩
  · exact .inl ⟨h4, by rw [if_neg (by rintro ⟨x, -⟩; rw [h5] at x; cases x)]; exact h5⟩
  · refine .inr ⟨h4, ?_⟩
    by_cases hc : ν i = none
    · by_cases hd : Q t
      · rw [if_pos ⟨h2.mpr ⟨h4, hc⟩, hd⟩, if_pos ⟨h1.mpr hd, hc⟩]; exact hv
      · rw [if_neg (fun x => hd x.2), if_neg (fun x => hd (h1.mp x.1))]; exact h5
    · rw [if_neg (fun x => hc (h2.mp x.1).2), if_neg (fun x => hc x.2)]; exact h5

theorem answers_drop (hp : (p.map (·.1)).Nodup) {l : List Next.Item} {q : List (Nat × Lifecycle.Sig)} (hs : Same p l q)
    (h : Answers p σ ν g) :
    Answers p (fun t => if σ t = .waiting ∧ t ∈ q.map (·.1) then .failed .actorStopped else σ t)
      (fun y => if y ∈ l.map (·.id) ∧ ν y = none then some .dropped else ν y) g :=
  answers_upd h (fun _ _ _ hi _ => mem_ids hp hs hi) rfl

theorem answers_congr {σ' : Nat → Lifecycle.Slot} (h : Answers p σ ν g) (he : ∀ t ∈ p.map (·.1), σ' t = σ t) :
    Answers p σ' ν g := by
  intro i t b hi ha
  rw [he t]
  · exact h i t b hi ha
  · exact List.mem_map.mpr ⟨(t, .msg b), List.mem_of_getElem? hi, rfl⟩

theorem apart (hp : (p.map (·.1)).Nodup) {i j t u : Nat} {x y : Lifecycle.Sig} (hi : p[i]? = some (t, x))
    (hj : p[j]? = some (u, y)) : i = j ↔ t = u := by
  constructor
  · rintro rfl; rw [hi] at hj; cases hj; rfl
  · intro e
    rw [List.getElem?_eq_some_iff] at hi hj
    obtain ⟨a1, a2⟩ := hi; obtain ⟨b1, b2⟩ := hj
    have c1 : (p.map (·.1))[i]'(by simpa using a1) = t := by simp [a2]
    have c2 : (p.map (·.1))[j]'(by simpa using b1) = u := by simp [b2]
    exact (List.getElem_inj hp).mp (c1.trans (e.trans c2.symm))

/-- Someone gives a reply to the message at place `j`, or drops its reply sender. -/
theorem answers_resolve (hp : (p.map (·.1)).Nodup) {j t : Nat} {x : Lifecycle.Sig}
    (ht : p[j]? = some (t, x)) {v : Lifecycle.Slot} {o : Next.Out} (hv : outOf v = some (some o))
    (h : Answers p σ ν g) :
    Answers p (fun u => if σ u = .waiting ∧ u = t then v else σ u)
      (fun y => if y = j ∧ ν y = none then some o else ν y) g :=
  answers_upd h (fun _ _ _ hi _ => apart hp hi ht) hv

/-- The end of a message that nobody asked for a reply to changes no answer. -/
theorem answers_tell {it : Next.Item} {t : Nat} {b : Lifecycle.Body}
    (ht : tag p it = mark (t, .msg b)) (hb : b.ask = false) (o : Next.Out)
    (h : Answers p σ ν g) : Answers p σ (fun y => if y = it.id ∧ ν y = none then some o else ν y) g := by
  intro i u b' hi ha
  have h2 : p[it.id]? = some (t, .msg b) := by
    simp only [tag, mark, Prod.mk.injEq] at ht; exact ht.2.2
  have : ¬ (i = it.id ∧ ν i = none) := by
    rintro ⟨e, -⟩; subst e; rw [h2] at hi; cases hi; simp [hb] at ha
  simp only [this, if_false]
  exact h i u b' hi ha

theorem at_end {i : Nat} {q x : Nat × Lifecycle.Sig} (hi : (p ++ [q])[i]? = some x) :
    p[i]? = some x ∨ (i = p.length ∧ q = x) := by
  by_cases hl : i < p.length
  · rw [List.getElem?_append_left hl] at hi; exact .inl hi
  · rw [List.getElem?_append_right (by omega)] at hi
    have : i = p.length := by
      rcases Nat.lt_or_ge (i - p.length) 1 with h1 | h1
      · omega
      · rw [List.getElem?_eq_none (by simpa using h1)] at hi; cases hi
    subst this
    simp at hi
    exact .inr ⟨rfl, hi⟩

theorem answers_push (h : Answers p σ ν g) (q : Nat × Lifecycle.Sig) (g' : List Nat)
    (hg : ∀ i, i < p.length → (i ∈ g' ↔ i ∈ g))
    (hq : ∀ b, q.2 = .msg b → b.ask = true →
      (p.length ∈ g' ∧ σ q.1 = .gaveUp) ∨ (p.length ∉ g' ∧ outOf (σ q.1) = some (ν p.length))) :
    Answers (p ++ [q]) σ ν g' := by
  intro i t b hi ha
  rcases at_end hi with h1 | ⟨rfl, rfl⟩
  · rw [hg i (List.getElem?_eq_some_iff.mp h1).1]; exact h i t b h1 ha
  · exact hq b rfl ha

/-- The reply senders and the answers. -/
structure Talk (p : List (Nat × Lifecycle.Sig)) (σ : Nat → Lifecycle.Slot) (d : List Nat) (ν : Nat → Option Next.Out)
    (e : List Nat) (g : List Nat) (a : List Nat) : Prop where
  new : ∀ y, p.length ≤ y → ν y = none
  later : Later p e d
  asks : ∀ i, i ∈ a ↔ ∃ t b, p[i]? = some (t, .msg b) ∧ b.ask = true
  gave : ∀ i ∈ g, i < p.length
  answers : Answers p σ ν g

variable {d e a : List Nat}

theorem later_mem (hp : (p.map (·.1)).Nodup) (h : Later p e d) {i t : Nat} {x : Lifecycle.Sig}
    (hi : p[i]? = some (t, x)) : i ∈ e ↔ t ∈ d := by
  induction e generalizing d with
  | nil => cases d <;> simp [Later] at h ⊢
  | cons j e ih =>
    cases d with
    | nil => simp [Later] at h
    | cons u d =>
      simp only [Later, List.map_cons, List.cons.injEq] at h
      obtain ⟨h1, h2⟩ := h
      simp only [List.mem_cons]
      rw [ih h2]
      cases hj : p[j]? with
      | none => rw [hj] at h1; simp at h1
      | some y =>
        rw [hj] at h1; simp at h1
        have := apart hp hi (show p[j]? = some (y.1, y.2) from hj)
        rw [this, h1]

theorem later_find (h : Later p e d) {t : Nat} (ht : t ∈ d) : ∃ i ∈ e, ∃ x, p[i]? = some (t, x) := by
  have : some t ∈ e.map (fun i => p[i]?.map (·.1)) := by rw [h]; simpa using ht
  obtain ⟨i, hi, h2⟩ := List.mem_map.mp this
  cases hj : p[i]? with
  | none => rw [hj] at h2; simp at h2
  | some y => rw [hj] at h2; simp at h2; exact ⟨i, hi, y.2, by rw [hj, ← h2]⟩

theorem later_get (h : Later p e d) {i : Nat} (hi : i ∈ e) : ∃ t ∈ d, ∃ x, p[i]? = some (t, x) := by
  have : p[i]?.map (·.1) ∈ d.map some := by rw [← h]; exact List.mem_map_of_mem hi
  obtain ⟨t, ht, h2⟩ := List.mem_map.mp this
  cases hj : p[i]? with
  | none => rw [hj] at h2; simp at h2
  | some y => rw [hj] at h2; simp at h2; exact ⟨t, ht, y.2, by rw [h2]⟩

theorem later_filter (hp : (p.map (·.1)).Nodup) (h : Later p e d) {i t : Nat} {x : Lifecycle.Sig}
    (hi : p[i]? = some (t, x)) : Later p (e.filter (· != i)) (d.filter (· != t)) := by
  induction e generalizing d with
  | nil => cases d <;> simp [Later] at h ⊢
  | cons j e ih =>
    cases d with
    | nil => simp [Later] at h
    | cons u d =>
      simp only [Later, List.map_cons, List.cons.injEq] at h
      obtain ⟨h1, h2⟩ := h
      have h3 := ih h2
      have : (j != i) = (u != t) := by
        cases hj : p[j]? with
        | none => rw [hj] at h1; simp at h1
        | some y =>
          rw [hj] at h1; simp at h1
          have := apart hp (show p[j]? = some (y.1, y.2) from hj) hi
          rw [h1] at this
          rw [Bool.eq_iff_iff]
          simp [this]
      simp only [List.filter_cons, this]
      cases hu : (u != t) with
      | true =>
        simp only [if_true, Later, List.map_cons, List.cons.injEq]
        exact ⟨h1, h3⟩
      | false => simpa using h3

theorem later_mono (h : Later p e d) (y : List (Nat × Lifecycle.Sig)) : Later (p ++ y) e d := by
  unfold Later at *
  rw [← h]
  apply List.map_congr_left
  intro i hi
  obtain ⟨t, -, x, hx⟩ := later_get h hi
  have := (List.getElem?_eq_some_iff.mp hx).1
  rw [List.getElem?_append_left this]

theorem later_snoc (h : Later p e d) {i t : Nat} {x : Lifecycle.Sig} (hi : p[i]? = some (t, x)) :
    Later p (e ++ [i]) (d ++ [t]) := by
  unfold Later at *
  simp [h, hi]

@[simp] theorem sees_append (a b : List Lifecycle.Ev) : sees (a ++ b) = sees a ++ sees b := by simp [sees]
@[simp] theorem shows_append (a b : List Next.Ev) : shows (a ++ b) = shows a ++ shows b := by simp [shows]
@[simp] theorem sees_nil : sees [] = [] := rfl
@[simp] theorem shows_nil : shows [] = [] := rfl

end Verif.Plain
