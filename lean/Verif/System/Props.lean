import Verif.System.Flight

/-!
Property theorems about linked actors: C22 (link sets), C23 (death notifications).
-/

set_option linter.unusedSimpArgs false

namespace Verif.System

open Verif.Mailbox Verif.Lifecycle

/-! ### C22: link sets -/

/-- **C22**, irreflexive: no actor is ever in its own link set, and no actor is in a link set twice. -/
theorem never_linked_to_itself (cap : Id → Option Nat) (ops : List SOp) (x : Id) :
    x ∉ ((sysAfter cap ops).act x).links ∧ ((sysAfter cap ops).act x).links.Nodup :=
  ⟨(linksOk cap ops x).irr, (linksOk cap ops x).nd⟩

example : ((sysAfter (fun _ => none) (chainDemo ++ [.link 1 1, .link 0 1])).act 1).links = [0, 2] := by decide

/-- **C22**, symmetric: between two actors which have not left their message loops, `a` is linked to
`b` iff `b` is linked to `a`. -/
theorem links_symmetric (cap : Id → Option Nat) (ops : List SOp) (a b : Id)
    (ha : ¬ ((sysAfter cap ops).act a).phase.out) (hb : ¬ ((sysAfter cap ops).act b).phase.out) :
    a ∈ ((sysAfter cap ops).act b).links ↔ b ∈ ((sysAfter cap ops).act a).links := by
  have h := (rel_after cap ops).sym
  constructor
  · intro h1
    rcases h a b h1 with h2 | h2 | h2
    · exact h2
    · exact (ha h2).elim
    · exact (hb h2).elim
  · intro h1
    rcases h b a h1 with h2 | h2 | h2
    · exact h2
    · exact (hb h2).elim
    · exact (ha h2).elim

example : ((sysAfter (fun _ => none) chainDemo).act 0).links = [1] ∧
    ((sysAfter (fun _ => none) chainDemo).act 1).links = [0, 2] ∧
    ((sysAfter (fun _ => none) chainDemo).act 2).links = [1] ∧
    ¬ ((sysAfter (fun _ => none) chainDemo).act 0).phase.out ∧
    ¬ ((sysAfter (fun _ => none) chainDemo).act 1).phase.out := by
  refine ⟨by decide, by decide, by decide, ?_, ?_⟩ <;>
  · rintro ⟨h, _⟩; revert h; decide

/-- What `link` does to link sets. -/
theorem link_links (S : Sys) (a b x y : Id) :
    y ∈ ((S.step (.link a b)).act x).links ↔
      y ∈ (S.act x).links ∨ (a ≠ b ∧ ((x = a ∧ y = b) ∨ (x = b ∧ y = a))) := by
  have hl : ∀ (s : St) (y z : Id), z ∈ (s.step (.link y)).links ↔ z ∈ s.links ∨ z = y := by
    intro s y z
    simp only [St.step]
    split
    · grind
    · simp
  simp only [Sys.step]
  split
  · next h => simp [h]
  · next h =>
    simp only [set_act]
    split
    · next e => subst e; rw [hl]; grind
    · split
      · next e => subst e; rw [hl]; grind
      · grind

/-- What `unlink` does to link sets. -/
theorem unlink_links (S : Sys) (a b x y : Id) :
    y ∈ ((S.step (.unlink a b)).act x).links ↔
      y ∈ (S.act x).links ∧ ¬ (a ≠ b ∧ ((x = a ∧ y = b) ∨ (x = b ∧ y = a))) := by
  have hl : ∀ (s : St) (y z : Id), z ∈ (s.step (.unlink y)).links ↔ z ∈ s.links ∧ z ≠ y := by
    intro s y z
    simp [St.step]
  simp only [Sys.step]
  split
  · next h => simp [h]
  · next h =>
    simp only [set_act]
    split
    · next e => subst e; rw [hl]; grind
    · split
      · next e => subst e; rw [hl]; grind
      · grind

/-- **C22**: the effect of a call. `link` makes the two actors linked (both ways), `unlink` makes them
not linked (both ways), whoever calls it; neither changes any other link, and an actor linked with
itself stays unlinked. -/
theorem link_unlink_effect (cap : Id → Option Nat) (ops : List SOp) (a b : Id) (hab : a ≠ b) :
    (b ∈ ((sysAfter cap (ops ++ [.link a b])).act a).links ∧
      a ∈ ((sysAfter cap (ops ++ [.link a b])).act b).links) ∧
    (b ∉ ((sysAfter cap (ops ++ [.unlink a b])).act a).links ∧
      a ∉ ((sysAfter cap (ops ++ [.unlink a b])).act b).links) ∧
    (∀ x y, (x, y) ≠ (a, b) → (x, y) ≠ (b, a) → ∀ call, call = .link a b ∨ call = .unlink a b →
      (y ∈ ((sysAfter cap (ops ++ [call])).act x).links ↔ y ∈ ((sysAfter cap ops).act x).links)) ∧
    (∀ x y, y ∈ ((sysAfter cap (ops ++ [.link a a])).act x).links ↔
      y ∈ ((sysAfter cap ops).act x).links) := by
  simp only [sysAfter_snoc]
  refine ⟨⟨?_, ?_⟩, ⟨?_, ?_⟩, ?_, ?_⟩
  · rw [link_links]; grind
  · rw [link_links]; grind
  · rw [unlink_links]; grind
  · rw [unlink_links]; grind
  · rintro x y h1 h2 call (rfl | rfl)
    · rw [link_links]; grind
    · rw [unlink_links]; grind
  · intro x y; rw [link_links]; grind

example : ((sysAfter (fun _ => none) (chainDemo ++ [.link 1 0])).act 1).links = [0, 2] ∧
    ((sysAfter (fun _ => none) (chainDemo ++ [.unlink 1 0])).act 1).links = [2] ∧
    ((sysAfter (fun _ => none) (chainDemo ++ [.unlink 1 0])).act 0).links = [] := by decide

/-- **C22**, idempotent: calling `link` a second time, from either side, changes no link set; nor does
a second `unlink`; and an `unlink` from either side undoes a `link` of two actors that were not
linked. -/
theorem link_idempotent (cap : Id → Option Nat) (ops : List SOp) (a b x y : Id) :
    (y ∈ ((sysAfter cap (ops ++ [.link a b, .link a b])).act x).links ↔
      y ∈ ((sysAfter cap (ops ++ [.link a b])).act x).links) ∧
    (y ∈ ((sysAfter cap (ops ++ [.link a b, .link b a])).act x).links ↔
      y ∈ ((sysAfter cap (ops ++ [.link a b])).act x).links) ∧
    (y ∈ ((sysAfter cap (ops ++ [.unlink a b, .unlink b a])).act x).links ↔
      y ∈ ((sysAfter cap (ops ++ [.unlink a b])).act x).links) ∧
    (b ∉ ((sysAfter cap ops).act a).links → a ∉ ((sysAfter cap ops).act b).links →
      (y ∈ ((sysAfter cap (ops ++ [.link a b, .unlink b a])).act x).links ↔
        y ∈ ((sysAfter cap ops).act x).links)) := by
  have e : ∀ p q, sysAfter cap (ops ++ [p, q]) = ((sysAfter cap ops).step p).step q := by
    intro p q
    rw [show ops ++ [p, q] = (ops ++ [p]) ++ [q] by simp, sysAfter_snoc, sysAfter_snoc]
  simp only [e, sysAfter_snoc, link_links, unlink_links]
  grind

example : ((sysAfter (fun _ => none) (chainDemo ++ [.link 1 0])).act 1).links = [0, 2] ∧
    ((sysAfter (fun _ => none) (chainDemo ++ [.unlink 1 0])).act 1).links = [2] ∧
    ((sysAfter (fun _ => none) (chainDemo ++ [.unlink 1 0])).act 0).links = [] ∧
    ((sysAfter (fun _ => none) (chainDemo ++ [.link 0 2, .unlink 2 0])).act 0).links = [1] := by decide

/-! ### C23: death notifications -/

/-- The reasons of the link-died signals actor `i` ever sent to this actor. -/
def toldBy (i : Id) (s : St) : List Reason := ((deaths s).filter (fun p => p.1 == i)).map (·.2)

theorem toldBy_nil {cap : Id → Option Nat} {ops : List SOp} {i : Id}
    (h : ∀ r, ¬ Told r ((sysAfter cap ops).act i)) (j : Id) : toldBy i ((sysAfter cap ops).act j) = [] := by
  have hs := (rel_after cap ops).src
  simp only [toldBy, List.map_eq_nil_iff, List.filter_eq_nil_iff]
  rintro ⟨k, r⟩ hm e
  simp at e
  subst e
  exact h r (hs k j r hm).2

theorem closed_step (s : St) (op : Lifecycle.Op) (h : s.mb.closed = true) : (s.step op).mb.closed = true := by
  obtain ⟨mops, hm⟩ := step_mb s op
  rw [hm]
  clear hm
  generalize s.mb = m at *
  induction mops generalizing m with
  | nil => exact h
  | cons o l ih =>
    apply ih (m.step o)
    cases o <;> simp [Mb.step, h]

theorem pushed_step (s : St) (op : Lifecycle.Op) {p : Nat × Sig} (h : p ∈ s.mb.pushed) :
    p ∈ (s.step op).mb.pushed :=
  (exec_pushed s [op]).subset h

/-- The signal reached the queue of this actor, or the actor was already gone. -/
def Reached (i : Id) (r : Reason) (s : St) : Prop :=
  (∃ t, (t, .linkDied i r) ∈ s.mb.pushed) ∨ s.mb.closed = true

theorem reached_view {S : Sys} {x : Id} {s : St} (h : View S x s) {i : Id} {r : Reason}
    (hr : Reached i r (S.act x)) : Reached i r s := by
  rcases h.ops with e | ⟨op, e⟩
  · rw [e]; exact hr
  · rw [e]
    rcases hr with ⟨t, ht⟩ | hc
    · exact Or.inl ⟨t, pushed_step _ _ ht⟩
    · exact Or.inr (closed_step _ _ hc)

/-- How far actor `i`, which left its loop with reason `r` and links `P`, has come. -/
def Progress (i : Id) (r : Reason) (P : List Id) (S : Sys) : Prop :=
  ((S.act i).phase = .stopping r P true ∧ ∀ j, toldBy i (S.act j) = [] ∧ (i, j) ∉ keys S) ∨
  (∃ p res, (S.act i).phase = .notifying r p res ∧ p.Nodup ∧ (∀ j ∈ p, j ∈ P) ∧ ∀ j,
    (j ∉ P → toldBy i (S.act j) = []) ∧
    (j ∈ p → ((i, j) ∈ keys S ∧ toldBy i (S.act j) = [r]) ∨
      ((i, j) ∉ keys S ∧ toldBy i (S.act j) = [])) ∧
    (j ∈ P → j ∉ p → toldBy i (S.act j) = [r] ∧ Reached i r (S.act j))) ∨
  ((S.act i).phase = .stopped r ∧ ∀ j, (j ∉ P → toldBy i (S.act j) = []) ∧
    (j ∈ P → toldBy i (S.act j) = [r] ∧ Reached i r (S.act j))) ∨
  (S.act i).phase = .crashed

/-- A step which sends no link-died signal and changes no notification in progress keeps the progress. -/
theorem progress_quiet {S S' : Sys} {i : Id} {r : Reason} {P : List Id} (hP : P.Nodup) (h : Progress i r P S)
    (hf : S'.flight = S.flight) (hd : ∀ j, deaths (S'.act j) = deaths (S.act j))
    (hr : ∀ j, Reached i r (S.act j) → Reached i r (S'.act j))
    (hi : S'.act i = S.act i ∨ ∃ op, (∀ j, op ≠ .notifyEnd j) ∧ S'.act i = (S.act i).step op) :
    Progress i r P S' := by
  have hk : keys S' = keys S := by simp [keys, hf]
  have ht : ∀ j, toldBy i (S'.act j) = toldBy i (S.act j) := fun j => by simp [toldBy, hd]
  obtain ⟨h1, h2, h3, h4⟩ : (∀ r p, (S.act i).phase = .stopping r p true →
        (S'.act i).phase = .stopping r p true ∨
        (∃ res, (S'.act i).phase = .notifying r p res) ∨ (S'.act i).phase = .crashed) ∧
      (∀ r p res, (S.act i).phase = .notifying r p res → (S'.act i).phase = .notifying r p res ∨
        (p = [] ∧ (S'.act i).phase = .stopped r) ∨ (S'.act i).phase = .crashed) ∧
      (∀ r, (S.act i).phase = .stopped r → (S'.act i).phase = .stopped r) ∧
      ((S.act i).phase = .crashed → (S'.act i).phase = .crashed) := by
    rcases hi with e | ⟨op, ho, e⟩
    · rw [e]; exact ⟨fun _ _ h => Or.inl h, fun _ _ _ h => Or.inl h, fun _ h => h, fun h => h⟩
    · rw [e]; exact stopping_step ho
  rcases h with ⟨hp, h⟩ | ⟨p, res, hp, hn, hs, h⟩ | ⟨hp, h⟩ | hp
  · rcases h1 r P hp with h5 | ⟨res, h5⟩ | h5
    · exact Or.inl ⟨h5, fun j => by rw [ht, hk]; exact h j⟩
    · refine Or.inr (Or.inl ⟨P, res, h5, hP, fun j hj => hj, fun j => ?_⟩)
      rw [ht, hk]
      exact ⟨fun _ => (h j).1, fun _ => Or.inr ⟨(h j).2, (h j).1⟩, fun a b => absurd a b⟩
    · exact Or.inr (Or.inr (Or.inr h5))
  · rcases h2 r p res hp with h5 | ⟨h5, h6⟩ | h5
    · refine Or.inr (Or.inl ⟨p, res, h5, hn, hs, fun j => ?_⟩)
      rw [ht, hk]
      exact ⟨(h j).1, (h j).2.1, fun a b => ⟨((h j).2.2 a b).1, hr _ ((h j).2.2 a b).2⟩⟩
    · subst h5
      refine Or.inr (Or.inr (Or.inl ⟨h6, fun j => ?_⟩))
      rw [ht]
      exact ⟨(h j).1, fun a => ⟨((h j).2.2 a (by simp)).1, hr _ ((h j).2.2 a (by simp)).2⟩⟩
    · exact Or.inr (Or.inr (Or.inr h5))
  · refine Or.inr (Or.inr (Or.inl ⟨h3 r hp, fun j => ?_⟩))
    rw [ht]
    exact ⟨(h j).1, fun a => ⟨((h j).2 a).1, hr _ ((h j).2 a).2⟩⟩
  · exact Or.inr (Or.inr (Or.inr (h4 hp)))

theorem progress_step {S : Sys} (hfl : Fl S) {i : Id} {r : Reason} {P : List Id} (hP : P.Nodup)
    (h : Progress i r P S) (op : SOp) : Progress i r P (S.step op) := by
  have hv := fun x => view S op x
  have hr : ∀ j, Reached i r (S.act j) → Reached i r ((S.step op).act j) :=
    fun j h => reached_view (hv j) h
  cases op with
  | loc x o =>
    simp only [Sys.step] at hr ⊢
    split at hr
    · next ha =>
      rw [if_pos ha]
      have ho : ∀ j, o ≠ .notifyEnd j := by rintro j rfl; simp [Sys.allowed, isLocal] at ha
      refine progress_quiet hP h rfl (fun j => ?_) hr ?_
      · simp only [set_act]; split
        · next e =>
          subst e
          apply deaths_loc
          rintro i r rfl
          simp [Sys.allowed, isLocal] at ha
        · rfl
      · simp only [set_act]; split
        · next e => subst e; exact Or.inr ⟨o, ho, rfl⟩
        · exact Or.inl rfl
    · next ha => rw [if_neg ha]; exact h
  | link a b =>
    simp only [Sys.step] at hr ⊢
    split at hr
    · next ha => rw [if_pos ha]; exact h
    · next ha =>
      rw [if_neg ha]
      refine progress_quiet hP h rfl (fun j => ?_) hr ?_
      · simp only [set_act]; split
        · next e => subst e; rfl
        · split
          · next e => subst e; rfl
          · rfl
      · simp only [set_act]; split
        · next e => subst e; exact Or.inr ⟨.link a, by simp, rfl⟩
        · split
          · next e => subst e; exact Or.inr ⟨.link b, by simp, rfl⟩
          · exact Or.inl rfl
  | unlink a b =>
    simp only [Sys.step] at hr ⊢
    split at hr
    · next ha => rw [if_pos ha]; exact h
    · next ha =>
      rw [if_neg ha]
      refine progress_quiet hP h rfl (fun j => ?_) hr ?_
      · simp only [set_act]; split
        · next e => subst e; rfl
        · split
          · next e => subst e; rfl
          · rfl
      · simp only [set_act]; split
        · next e => subst e; exact Or.inr ⟨.unlink a, by simp, rfl⟩
        · split
          · next e => subst e; exact Or.inr ⟨.unlink b, by simp, rfl⟩
          · exact Or.inl rfl
  | notifyStart a b =>
    simp only [Sys.step] at hr ⊢
    split
    · next r' p' res' hp' =>
      rw [hp'] at hr
      simp only at hr
      split
      · next hc =>
        rw [if_pos hc] at hr
        have hnk := keys_not_mem.mp hc.2
        generalize hS : ({ S.set b ((S.act b).step (.sendLinkDied a r')) with
          flight := S.flight ++ [(a, b, (S.act b).mb.next)] } : Sys) = S' at hr ⊢
        have hk : keys S' = keys S ++ [(a, b)] := by subst hS; simp [keys]
        have hph : ∀ x, (S'.act x).phase = (S.act x).phase := by
          intro x; subst hS; simp only [set_act]; split
          · next e => subst e; rfl
          · rfl
        have ht : ∀ j, toldBy i (S'.act j) =
            if j = b ∧ a = i then toldBy i (S.act j) ++ [r'] else toldBy i (S.act j) := by
          intro j
          subst hS
          simp only [set_act]
          by_cases hj : j = b
          · subst hj
            simp only [if_true, toldBy, deaths_died]
            by_cases ha : a = i
            · simp [ha]
            · simp [ha]
          · simp [hj]
        by_cases ha : a = i
        · subst ha
          rcases h with ⟨hp, h⟩ | ⟨p, res, hp, hn, hs, h⟩ | ⟨hp, h⟩ | hp
          · rw [hp] at hp'; cases hp'
          · obtain ⟨rfl, rfl, rfl⟩ : r = r' ∧ p = p' ∧ res = res' := by
              rw [hp] at hp'; simpa using hp'
            refine Or.inr (Or.inl ⟨p, res, by rw [hph]; exact hp, hn, hs, fun j => ?_⟩)
            by_cases hj : j = b
            · subst hj
              have hbP := hs j hc.1
              rcases (h j).2.1 hc.1 with h1 | h1
              · exact (hnk h1.1).elim
              · refine ⟨fun hn => absurd hbP hn, fun _ => Or.inl ⟨by simp [hk], by simp [ht, h1.2]⟩,
                  fun _ hn => absurd hc.1 hn⟩
            · have ht' : toldBy a (S'.act j) = toldBy a (S.act j) := by simp [ht, hj]
              have hk' : (a, j) ∈ keys S' ↔ (a, j) ∈ keys S := by simp [hk, hj]
              rw [ht', hk']
              exact ⟨(h j).1, (h j).2.1, fun x y => ⟨((h j).2.2 x y).1, hr _ ((h j).2.2 x y).2⟩⟩
          · rw [hp] at hp'; cases hp'
          · rw [hp] at hp'; cases hp'
        · have ht' : ∀ j, toldBy i (S'.act j) = toldBy i (S.act j) := by intro j; simp [ht, ha]
          have hk' : ∀ j, (i, j) ∈ keys S' ↔ (i, j) ∈ keys S := by
            intro j; simp [hk, Ne.symm ha]
          rcases h with ⟨hp, h⟩ | ⟨p, res, hp, hn, hs, h⟩ | ⟨hp, h⟩ | hp
          · exact Or.inl ⟨by rw [hph]; exact hp, fun j => by rw [ht', hk']; exact h j⟩
          · refine Or.inr (Or.inl ⟨p, res, by rw [hph]; exact hp, hn, hs, fun j => ?_⟩)
            rw [ht', hk']
            exact ⟨(h j).1, (h j).2.1, fun x y => ⟨((h j).2.2 x y).1, hr _ ((h j).2.2 x y).2⟩⟩
          · refine Or.inr (Or.inr (Or.inl ⟨by rw [hph]; exact hp, fun j => ?_⟩))
            rw [ht']
            exact ⟨(h j).1, fun x => ⟨((h j).2 x).1, hr _ ((h j).2 x).2⟩⟩
          · exact Or.inr (Or.inr (Or.inr (by rw [hph]; exact hp)))
      · exact h
    · exact h
  | notifyEnd a b =>
    simp only [Sys.step] at hr ⊢
    split
    · next q hq =>
      rw [hq] at hr
      simp only at hr
      split
      · exact h
      · next hpn =>
        rw [if_neg hpn] at hr
        have hq1 := List.mem_of_find?_eq_some hq
        have hq2 := List.find?_some hq
        obtain ⟨q1, q2, t0⟩ := q
        simp at hq2
        obtain ⟨rfl, rfl⟩ := hq2
        generalize hS : ({ S.set q1 ((S.act q1).step (.notifyEnd q2)) with
          flight := S.flight.erase (q1, q2, t0) } : Sys) = S' at hr ⊢
        have hmb : ∀ x, (S'.act x).mb = (S.act x).mb := by
          intro x
          subst hS
          simp only [set_act]
          split
          · next e =>
            subst e
            simp only [St.step]
            repeat' split
            all_goals rfl
          · rfl
        have ht : ∀ j, toldBy i (S'.act j) = toldBy i (S.act j) := by
          intro j; simp [toldBy, deaths, hmb]
        have hk : ∀ x y, (x, y) ∈ keys S' ↔ (x, y) ∈ keys S ∧ (x, y) ≠ (q1, q2) := by
          intro x y
          have hnd2 : S.flight.Nodup := (List.pairwise_map.mp hfl.nd).imp (by
            intro a b hab e; subst e; exact hab rfl)
          subst hS
          simp only [keys, List.mem_map]
          constructor
          · rintro ⟨⟨a, b, t⟩, hm, e⟩
            simp at e
            obtain ⟨rfl, rfl⟩ := e
            have hm' := List.mem_of_mem_erase hm
            refine ⟨⟨(a, b, t), hm', rfl⟩, ?_⟩
            intro e
            simp at e
            obtain ⟨rfl, rfl⟩ := e
            have e : (a, b, t) = (a, b, t0) := map_inj hfl.nd hm' hq1 rfl
            rw [e] at hm
            exact (List.Nodup.not_mem_erase hnd2) hm
          · rintro ⟨⟨⟨a, b, t⟩, hm, e⟩, hne⟩
            simp at e
            obtain ⟨rfl, rfl⟩ := e
            refine ⟨(a, b, t), ?_, rfl⟩
            apply (List.mem_erase_of_ne ?_).mpr hm
            rintro e
            cases e
            exact hne rfl
        by_cases ha : q1 = i
        · subst ha
          have hact : S'.act q1 = (S.act q1).step (.notifyEnd q2) := by subst hS; simp
          have hst := hfl.st _ _ _ hq1
          rcases h with ⟨hp, h⟩ | ⟨p, res, hp, hn, hs, h⟩ | ⟨hp, h⟩ | hp
          · exact ((h q2).2 (List.mem_map.mpr ⟨_, hq1, rfl⟩)).elim
          · rcases hst with hst | ⟨r2, p2, res2, e1, hq2p, hkept⟩
            · rw [hp] at hst; cases hst
            · rw [hp] at e1
              cases e1
              have hreach : Reached q1 r (S.act q2) := by
                rcases hkept with hw | hw | hw | hw
                · exfalso; apply hpn; simp only [pendingIn, List.any_eq_true]
                  exact ⟨_, List.mem_append_left _ hw, by simp⟩
                · exfalso; apply hpn; simp only [pendingIn, List.any_eq_true]
                  exact ⟨_, List.mem_append_right _ hw, by simp⟩
                · exact Or.inl ⟨_, hw⟩
                · exact Or.inr hw
              refine Or.inr (Or.inl ⟨p.erase q2, res, by rw [hact]; exact (notified_step _ _).2.1 _ _ _ hp,
                hn.erase _, fun j hj => hs j (List.mem_of_mem_erase hj), fun j => ?_⟩)
              rw [ht, hk]
              by_cases hj : j = q2
              · subst hj
                have hk0 : (q1, j) ∈ keys S := List.mem_map.mpr ⟨_, hq1, rfl⟩
                refine ⟨(h j).1, fun hm => absurd hm hn.not_mem_erase, fun _ _ => ⟨?_, hr _ hreach⟩⟩
                rcases (h j).2.1 hq2p with h1 | h1
                · exact h1.2
                · exact (h1.1 hk0).elim
              · have hmem : j ∈ p.erase q2 ↔ j ∈ p := List.mem_erase_of_ne hj
                rw [hmem]
                have : (q1, j) ≠ (q1, q2) := by simpa using hj
                refine ⟨(h j).1, fun hm => ?_, fun x y => ⟨((h j).2.2 x y).1, hr _ ((h j).2.2 x y).2⟩⟩
                rcases (h j).2.1 hm with h1 | h1
                · exact Or.inl ⟨⟨h1.1, this⟩, h1.2⟩
                · exact Or.inr ⟨fun hx => h1.1 hx.1, h1.2⟩
          · rcases hst with hst | ⟨r2, p2, res2, e1, _⟩
            · rw [hp] at hst; cases hst
            · rw [hp] at e1; cases e1
          · exact Or.inr (Or.inr (Or.inr (by rw [hact]; exact (notified_step _ _).2.2.2 hp)))
        · have hact : S'.act i = S.act i := by subst hS; simp [Ne.symm ha]
          have hk' : ∀ j, (i, j) ∈ keys S' ↔ (i, j) ∈ keys S := by
            intro j; rw [hk]; simp [Ne.symm ha]
          rcases h with ⟨hp, h⟩ | ⟨p, res, hp, hn, hs, h⟩ | ⟨hp, h⟩ | hp
          · exact Or.inl ⟨by rw [hact]; exact hp, fun j => by rw [ht, hk']; exact h j⟩
          · refine Or.inr (Or.inl ⟨p, res, by rw [hact]; exact hp, hn, hs, fun j => ?_⟩)
            rw [ht, hk']
            exact ⟨(h j).1, (h j).2.1, fun x y => ⟨((h j).2.2 x y).1, hr _ ((h j).2.2 x y).2⟩⟩
          · refine Or.inr (Or.inr (Or.inl ⟨by rw [hact]; exact hp, fun j => ?_⟩))
            rw [ht]
            exact ⟨(h j).1, fun x => ⟨((h j).2 x).1, hr _ ((h j).2 x).2⟩⟩
          · exact Or.inr (Or.inr (Or.inr (by rw [hact]; exact hp)))
    · exact h

theorem progress (cap : Id → Option Nat) (ops ops' : List SOp) {i : Id} {r : Reason} {P : List Id}
    (h : ((sysAfter cap ops).act i).phase = .stopping r P true) :
    Progress i r P (sysAfter cap (ops ++ ops')) := by
  have hP : P.Nodup := by
    have := (linksOk cap ops i).pnd
    rw [h] at this
    exact this
  have h0 : Progress i r P (sysAfter cap ops) := by
    refine Or.inl ⟨h, fun j => ⟨toldBy_nil (fun r' hr' => ?_) j, fun hk => ?_⟩⟩
    · rcases hr' with ⟨p, res, h1⟩ | h1 | h1 <;> (rw [h] at h1; cases h1)
    · obtain ⟨⟨a, b, t⟩, hm, e⟩ := List.mem_map.mp hk
      simp at e
      obtain ⟨rfl, rfl⟩ := e
      rcases (fl_after cap ops).st _ _ _ hm with h1 | ⟨r2, p2, res2, h1, _⟩ <;> (rw [h] at h1; cases h1)
  clear h
  induction ops' generalizing ops with
  | nil => simpa using h0
  | cons op l ih =>
    have := ih (ops ++ [op]) (by rw [sysAfter_snoc]; exact progress_step (fl_after cap ops) hP h0 op)
    simpa using this

/-- **C23**: let an actor leave its message loop with reason `r`, `P` being its links at that moment.
If it stops, then it has sent to every actor in `P` exactly one link-died signal, which carries its
identity and `r`, and to no other actor any; and each signal has reached the queue of its receiver
unless that one was gone. For every link graph, every schedule, and every mailbox. (The signals counted
are all that were ever sent by this actor.)

Missing from the full claim: an actor whose `on_start` failed (there the last argument of `stopping` is
`false`) tells nobody, see `Lifecycle.failed_start_notifies_nobody`. -/
theorem linked_actors_told_exactly_once_partial (cap : Id → Option Nat) (ops ops' : List SOp) (i : Id)
    (r r' : Reason) (P : List Id) (h : ((sysAfter cap ops).act i).phase = .stopping r P true)
    (h' : ((sysAfter cap (ops ++ ops')).act i).phase = .stopped r') :
    r' = r ∧ ∀ j,
      (j ∈ P → toldBy i ((sysAfter cap (ops ++ ops')).act j) = [r] ∧
        ((∃ t, (t, .linkDied i r) ∈ ((sysAfter cap (ops ++ ops')).act j).mb.pushed) ∨
          ((sysAfter cap (ops ++ ops')).act j).mb.closed = true)) ∧
      (j ∉ P → toldBy i ((sysAfter cap (ops ++ ops')).act j) = []) := by
  rcases progress cap ops ops' h with ⟨hp, _⟩ | ⟨p, res, hp, _⟩ | ⟨hp, hj⟩ | hp
  · rw [h'] at hp; cases hp
  · rw [h'] at hp; cases hp
  · rw [h'] at hp; cases hp
    exact ⟨rfl, fun j => ⟨(hj j).2, (hj j).1⟩⟩
  · rw [h'] at hp; cases hp

example : ((sysAfter (fun _ => none) (chainDemo ++ dieDemo.take 2)).act 0).phase = .stopping .killed [1] true ∧
    ((sysAfter (fun _ => none) (chainDemo ++ dieDemo.take 2 ++ dieDemo.drop 2)).act 0).phase = .stopped .killed ∧
    toldBy 0 ((sysAfter (fun _ => none) (chainDemo ++ dieDemo)).act 1) = [.killed] ∧
    toldBy 0 ((sysAfter (fun _ => none) (chainDemo ++ dieDemo)).act 2) = [] := by decide

/-- No signal is sent twice. -/
structure Once (S : Sys) : Prop where
  le : ∀ i j, (toldBy i (S.act j)).length ≤ 1
  key : ∀ i j r p res, (S.act i).phase = .notifying r p res → j ∈ p → toldBy i (S.act j) ≠ [] →
    (i, j) ∈ keys S

theorem src_toldBy {S : Sys} (hr : Rel S) {i j : Id} (h : toldBy i (S.act j) ≠ []) :
    ∃ r, r ∈ toldBy i (S.act j) ∧ .sBegin r ∈ (S.act i).log ∧ Told r (S.act i) := by
  obtain ⟨r, hm⟩ := List.exists_mem_of_ne_nil _ h
  refine ⟨r, hm, ?_⟩
  simp only [toldBy, List.mem_map, List.mem_filter] at hm
  obtain ⟨⟨k, r'⟩, ⟨h1, h2⟩, rfl⟩ := hm
  simp at h2
  subst h2
  exact hr.src k j r' h1

theorem into_notifying {s : St} {op : Lifecycle.Op} (ho : ∀ j, op ≠ .notifyEnd j) {r : Reason} {p : List Id}
    {res : Option Err} (h : (s.step op).phase = .notifying r p res) :
    s.phase = .notifying r p res ∨ s.phase = .stopping r p true := by
  have ht := step_tr s op
  generalize hs' : s.step op = s' at h ht
  have hdr : ∀ (a : St) (rest : List Msg) (ts : Bool), (a.drain rest ts).phase ≠ .notifying r p res := by
    intro a rest ts
    cases rest with
    | cons m ms => simp [St.drain]
    | nil => cases ts <;> simp [St.drain]
  cases ht with
  | notify r1 p1 res1 id hp hi =>
    exfalso
    have h2 := stopping_step (s := s) ho
    rcases h2.2.1 _ _ _ hp with h3 | ⟨h3, h4⟩ | h3
    · rw [hs'] at h3
      simp at h3
      exact h3 hi
    · subst h3; simp at hi
    · rw [hs'] at h3; simp at h3
  | recvNone => exact (hdr _ _ _ h).elim
  | recvStartup => exact (hdr _ _ _ h).elim
  | recvStop => exact (hdr _ _ _ h).elim
  | handlerReply => exact (hdr _ _ _ h).elim
  | handlerOk => exact (hdr _ _ _ h).elim
  | startOk => rw [(startOk_fields s).2.1] at h; cases h
  | stopNotify r1 p1 o res1 hp => right; simp at h; rw [hp, h.1, h.2.1]
  | refl => exact Or.inl h
  | _ =>
    first
      | (simp [St.step, St.crash, St.abortSeen, St.stopFailed, St.startFail] at h; done)
      | (left; simpa [St.step] using h)

theorem once_step {S : Sys} (hrel : Rel S) (hfl : Fl S) (hpnd : ∀ i, (pend (S.act i).phase).Nodup)
    (h : Once S) (op : SOp) : Once (S.step op) := by
  -- no signal is sent
  have quiet : ∀ S' : Sys, S'.flight = S.flight → (∀ j, deaths (S'.act j) = deaths (S.act j)) →
      (∀ i, S'.act i = S.act i ∨ ∃ op, (∀ j, op ≠ .notifyEnd j) ∧ S'.act i = (S.act i).step op) →
      Once S' := by
    intro S' hf hd hi
    have hk : keys S' = keys S := by simp [keys, hf]
    have ht : ∀ i j, toldBy i (S'.act j) = toldBy i (S.act j) := fun i j => by simp [toldBy, hd]
    constructor
    · intro i j; rw [ht]; exact h.le i j
    · intro i j r p res hp hj hne
      rw [ht] at hne
      rw [hk]
      rcases hi i with e | ⟨o, ho, e⟩
      · rw [e] at hp; exact h.key i j r p res hp hj hne
      · rw [e] at hp
        rcases into_notifying ho hp with h1 | h1
        · exact h.key i j r p res h1 hj hne
        · obtain ⟨r2, _, _, h3⟩ := src_toldBy hrel hne
          rcases h3 with ⟨p3, res3, h3⟩ | h3 | h3 <;> (rw [h1] at h3; cases h3)
  cases op with
  | loc x o =>
    simp only [Sys.step]
    split
    · next ha =>
      have ho : ∀ j, o ≠ .notifyEnd j := by rintro j rfl; simp [Sys.allowed, isLocal] at ha
      refine quiet _ (by rfl) ?_ ?_
      · intro j
        simp only [set_act]; split
        · next e =>
          subst e
          apply deaths_loc
          rintro i r rfl
          simp [Sys.allowed, isLocal] at ha
        · rfl
      · intro i
        simp only [set_act]; split
        · next e => subst e; exact Or.inr ⟨o, ho, rfl⟩
        · exact Or.inl rfl
    · exact h
  | link a b =>
    simp only [Sys.step]
    split
    · exact h
    · refine quiet _ (by rfl) ?_ ?_
      · intro j
        simp only [set_act]; split
        · next e => subst e; rfl
        · split
          · next e => subst e; rfl
          · rfl
      · intro i
        simp only [set_act]; split
        · next e => subst e; exact Or.inr ⟨.link a, by simp, rfl⟩
        · split
          · next e => subst e; exact Or.inr ⟨.link b, by simp, rfl⟩
          · exact Or.inl rfl
  | unlink a b =>
    simp only [Sys.step]
    split
    · exact h
    · refine quiet _ (by rfl) ?_ ?_
      · intro j
        simp only [set_act]; split
        · next e => subst e; rfl
        · split
          · next e => subst e; rfl
          · rfl
      · intro i
        simp only [set_act]; split
        · next e => subst e; exact Or.inr ⟨.unlink a, by simp, rfl⟩
        · split
          · next e => subst e; exact Or.inr ⟨.unlink b, by simp, rfl⟩
          · exact Or.inl rfl
  | notifyStart a b =>
    simp only [Sys.step]
    split
    · next r' p' res' hp' =>
      split
      · next hc =>
        have hnk := keys_not_mem.mp hc.2
        have hnil : toldBy a (S.act b) = [] := by
          refine Classical.byContradiction fun hne => ?_
          exact hnk (h.key a b r' p' res' hp' hc.1 hne)
        generalize hS : ({ S.set b ((S.act b).step (.sendLinkDied a r')) with
          flight := S.flight ++ [(a, b, (S.act b).mb.next)] } : Sys) = S'
        have hk : keys S' = keys S ++ [(a, b)] := by subst hS; simp [keys]
        have hph : ∀ x, (S'.act x).phase = (S.act x).phase := by
          intro x; subst hS; simp only [set_act]; split
          · next e => subst e; rfl
          · rfl
        have ht : ∀ i j, toldBy i (S'.act j) =
            if j = b ∧ a = i then toldBy i (S.act j) ++ [r'] else toldBy i (S.act j) := by
          intro i j
          subst hS
          simp only [set_act]
          by_cases hj : j = b
          · subst hj
            simp only [if_true, toldBy, deaths_died]
            by_cases ha : a = i
            · simp [ha]
            · simp [ha]
          · simp [hj]
        constructor
        · intro i j
          rw [ht]
          split
          · next e => obtain ⟨rfl, rfl⟩ := e; simp [hnil]
          · exact h.le i j
        · intro i j r p res hp hj hne
          rw [hph] at hp
          rw [ht] at hne
          split at hne
          · next e => obtain ⟨rfl, rfl⟩ := e; simp [hk]
          · rw [hk]; exact List.mem_append_left _ (h.key i j r p res hp hj hne)
      · exact h
    · exact h
  | notifyEnd a b =>
    simp only [Sys.step]
    split
    · next q hq =>
      split
      · exact h
      · next hpn =>
        have hq1 := List.mem_of_find?_eq_some hq
        have hq2 := List.find?_some hq
        obtain ⟨q1, q2, t0⟩ := q
        simp at hq2
        obtain ⟨rfl, rfl⟩ := hq2
        generalize hS : ({ S.set q1 ((S.act q1).step (.notifyEnd q2)) with
          flight := S.flight.erase (q1, q2, t0) } : Sys) = S'
        have hmb : ∀ x, (S'.act x).mb = (S.act x).mb := by
          intro x
          subst hS
          simp only [set_act]
          split
          · next e =>
            subst e
            simp only [St.step]
            repeat' split
            all_goals rfl
          · rfl
        have ht : ∀ i j, toldBy i (S'.act j) = toldBy i (S.act j) := by
          intro i j; simp [toldBy, deaths, hmb]
        constructor
        · intro i j; rw [ht]; exact h.le i j
        · intro i j r p res hp hj hne
          rw [ht] at hne
          have hin : (i, j) ∈ keys S ∧ (i, j) ≠ (q1, q2) := by
            by_cases ha : i = q1
            · subst ha
              have hact : S'.act i = (S.act i).step (.notifyEnd q2) := by subst hS; simp
              rw [hact] at hp
              rcases hfl.st _ _ _ hq1 with h1 | ⟨r2, p2, res2, h1, h2, _⟩
              · rw [(notified_step _ _).2.2.2 h1] at hp; cases hp
              · rw [(notified_step _ _).2.1 _ _ _ h1] at hp
                cases hp
                refine ⟨h.key i j _ _ _ h1 (List.mem_of_mem_erase hj) hne, ?_⟩
                intro e
                simp at e
                subst e
                have hnd := hpnd i
                rw [h1] at hnd
                exact (List.Nodup.not_mem_erase hnd) hj
            · have hact : S'.act i = S.act i := by subst hS; simp [ha]
              rw [hact] at hp
              exact ⟨h.key i j r p res hp hj hne, by simp [ha]⟩
          obtain ⟨⟨⟨a, b, t⟩, hm, e⟩, hne'⟩ := And.imp_left List.mem_map.mp hin
          simp at e
          obtain ⟨rfl, rfl⟩ := e
          subst hS
          refine List.mem_map.mpr ⟨(a, b, t), ?_, rfl⟩
          apply (List.mem_erase_of_ne ?_).mpr hm
          rintro e
          cases e
          exact hne' rfl
    · exact h

theorem once_after (cap : Id → Option Nat) (ops : List SOp) : Once (sysAfter cap ops) := by
  refine sys_induct (P := fun ops S => S = sysAfter cap ops → Once S) ?_ ?_ ops rfl
  · intro _
    constructor
    · intro i j; simp [toldBy, deaths, Sys.fresh, after, St.exec, St.fresh, Mb.fresh]
    · intro i j r p res h; simp [Sys.fresh, after, St.exec, St.fresh] at h
  · intro ops op ih _
    exact once_step (rel_after cap ops) (fl_after cap ops) (fun i => (linksOk cap ops i).pnd) (ih rfl) op

/-- **C23**, at every moment: an actor never gets two link-died signals from the same actor, never one
from an actor which had not left its loop, and never one with a reason other than the one the dead
actor's `on_stop` was called with. -/
theorem told_at_most_once (cap : Id → Option Nat) (ops : List SOp) (i j : Id) :
    toldBy i ((sysAfter cap ops).act j) = [] ∨
    ∃ r, toldBy i ((sysAfter cap ops).act j) = [r] ∧ .sBegin r ∈ ((sysAfter cap ops).act i).log := by
  by_cases hn : toldBy i ((sysAfter cap ops).act j) = []
  · exact Or.inl hn
  · right
    obtain ⟨r, h1, h2, _⟩ := src_toldBy (rel_after cap ops) hn
    refine ⟨r, ?_, h2⟩
    have hl := (once_after cap ops).le i j
    match hx : toldBy i ((sysAfter cap ops).act j) with
    | [] => rw [hx] at h1; simp at h1
    | [a] => rw [hx] at h1; simp at h1; rw [h1]
    | a :: b :: l => rw [hx] at hl; simp at hl

example : toldBy 1 ((sysAfter (fun _ => none) (chainDemo ++ dieDemo ++ fallDemo)).act 2) =
    [.linkDied 0 .killed] ∧
    .sBegin (.linkDied 0 .killed) ∈ ((sysAfter (fun _ => none) (chainDemo ++ dieDemo ++ fallDemo)).act 1).log := by
  decide

end Verif.System
