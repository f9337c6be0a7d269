import Verif.Atomic.Props
import Verif.System.Props

/-!
Property theorems C98, continued: in the model of many actors (Verif.System), where links are made at one moment, link sets
change as by the calls of Verif.Atomic made one at a time.
-/

namespace Verif.Atomic

open Verif.System Verif.Lifecycle

/-- The link sets of the actors. -/
def shown (S : Sys) : Sets := fun x y => if y ∈ (S.act x).links then some .here else none

theorem shown_eq {S : Sys} {f : Sets} (h : ∀ x y, f x y = if y ∈ (S.act x).links then some .here else none) : shown S = f := by
  funext x y; rw [h]; rfl

theorem shown_set_same {S : Sys} {i : Id} {s : Lifecycle.St} (h : s.links = (S.act i).links) : shown (S.set i s) = shown S := by
  funext x y
  by_cases hx : x = i
  · subst hx; simp [shown, Sys.set, h]
  · simp [shown, Sys.set, hx]

/-- **C98** Every step of the actors changes the link sets as one call made alone, or not at all: `link` and `unlink` as they
are to do, the end of an actor's loop by taking its own links, the end of `on_link_died` by removing the one link. -/
theorem actors_step_alone (S : Sys) (op : SOp) :
    match op with
    | .link a b => shown (S.step op) = (Call.link a b).effect (shown S)
    | .unlink a b => shown (S.step op) = (Call.unlink a b).effect (shown S)
    | .loc i _ => shown (S.step op) = shown S ∨
        ((S.act i).phase.inLoop = true ∧ (∃ r p, ((S.step op).act i).phase = .stopping r p true) ∧
          shown (S.step op) = (Call.finish i).effect (shown S)) ∨
        ∃ j r, (S.act i).phase = .linkDying j r ∧ shown (S.step op) = (Call.forget i j).effect (shown S)
    | _ => shown (S.step op) = shown S := by
  cases op with
  | link a b =>
    refine shown_eq (fun x y => ?_)
    rw [effect_writes]
    have := link_links S a b x y
    simp only [Call.writes, shown]
    by_cases h1 : y ∈ (S.act x).links <;> by_cases h2 : a ≠ b ∧ (a = x ∧ b = y ∨ a = y ∧ b = x) <;>
      simp only [h1, h2, if_true, if_false, Option.getD] <;> grind
  | unlink a b =>
    refine shown_eq (fun x y => ?_)
    rw [effect_writes]
    have := unlink_links S a b x y
    simp only [Call.writes, shown]
    by_cases h1 : y ∈ (S.act x).links <;> by_cases h2 : a ≠ b ∧ (a = x ∧ b = y ∨ a = y ∧ b = x) <;>
      simp only [h1, h2, if_true, if_false, Option.getD] <;> grind
  | loc i o =>
    dsimp only
    simp only [Sys.step]
    by_cases ha : S.allowed i o = true
    · simp only [ha, if_true]
      have hl : isLocal o = true := by
        cases o <;> simp_all [Sys.allowed, isLocal]
      rcases links_loc (S.act i) o hl with h | ⟨h, h2, h3⟩ | ⟨j, r, h2, h⟩
      · exact .inl (shown_set_same h)
      · refine .inr (.inl ⟨h2, by simpa [Sys.set] using h3, ?_⟩)
        refine shown_eq (fun x y => ?_)
        by_cases hx : x = i
        · subst hx; simp [Call.effect, Sys.set, h]
        · simp [Call.effect, Sys.set, shown, hx]
      · refine .inr (.inr ⟨j, r, h2, ?_⟩)
        refine shown_eq (fun x y => ?_)
        by_cases hx : x = i
        · subst hx
          by_cases hy : y = j
          · simp [Call.effect, put, Sys.set, h, hy]
          · simp [Call.effect, put, Sys.set, h, hy, shown]
        · simp [Call.effect, put, Sys.set, shown, hx]
    · simp [ha]
  | notifyStart i j =>
    simp only [Sys.step]
    split
    · split
      · exact shown_set_same (by simp only [Lifecycle.St.step]; repeat' split <;> rfl)
      · rfl
    · rfl
  | notifyEnd i j =>
    simp only [Sys.step]
    split
    · split
      · rfl
      · exact shown_set_same (notify_links _ _)
    · rfl

/-- **C98** So whatever has happened to many actors, their link sets are those of calls made one at a time: of the links and
unlinks made, in this order, and of some actors' ends and forgotten links in between. -/
theorem actors_one_at_a_time (cap : Id → Option Nat) (ops : List SOp) :
    ∃ ks : List Call, shown (sysAfter cap ops) = ks.foldl (fun f k => k.effect f) (fun _ _ => none) ∧
      ks.filter (fun k => match k with | .finish _ | .forget .. => false | _ => true) =
        ops.filterMap (fun op => match op with
          | .link a b => some (.link a b)
          | .unlink a b => some (.unlink a b)
          | _ => none) := by
  have key : ∀ (l : List SOp) (S : Sys), ∃ ks : List Call,
      shown (S.exec l) = ks.foldl (fun f k => k.effect f) (shown S) ∧
      ks.filter (fun k => match k with | .finish _ | .forget .. => false | _ => true) =
        l.filterMap (fun op => match op with
          | .link a b => some (.link a b)
          | .unlink a b => some (.unlink a b)
          | _ => none) := by
    intro l
    induction l with
    | nil => exact fun S => ⟨[], rfl, rfl⟩
    | cons op l ih =>
      intro S
      obtain ⟨ks, h1, h2⟩ := ih (S.step op)
      have hs := actors_step_alone S op
      have he : S.exec (op :: l) = (S.step op).exec l := rfl
      rw [he, h1]
      cases op with
      | link a b => exact ⟨.link a b :: ks, by rw [hs]; rfl, by simpa using h2⟩
      | unlink a b => exact ⟨.unlink a b :: ks, by rw [hs]; rfl, by simpa using h2⟩
      | loc i o =>
        rcases hs with hs | ⟨_, _, hs⟩ | ⟨j, r, _, hs⟩
        · exact ⟨ks, by rw [hs], by simpa using h2⟩
        · exact ⟨.finish i :: ks, by rw [hs]; rfl, by simpa using h2⟩
        · exact ⟨.forget i j :: ks, by rw [hs]; rfl, by simpa using h2⟩
      | notifyStart i j => exact ⟨ks, by rw [hs], by simpa using h2⟩
      | notifyEnd i j => exact ⟨ks, by rw [hs], by simpa using h2⟩
  obtain ⟨ks, h1, h2⟩ := key ops (Sys.fresh cap)
  refine ⟨ks, ?_, h2⟩
  rw [show sysAfter cap ops = (Sys.fresh cap).exec ops from rfl, h1]
  rfl

/-- Two actors are linked, a third linked and unlinked, and one ends. -/
example : shown (sysAfter (fun _ => none) [.link 0 1, .link 1 2, .unlink 2 1]) 0 1 = some .here ∧
    shown (sysAfter (fun _ => none) [.link 0 1, .link 1 2, .unlink 2 1]) 1 0 = some .here ∧
    shown (sysAfter (fun _ => none) [.link 0 1, .link 1 2, .unlink 2 1]) 1 2 = none ∧
    shown (sysAfter (fun _ => none) [.link 0 1, .loc 0 .run, .loc 0 (.startEnd .ok), .loc 0 .kill, .loc 0 .pollBegin]) 0 1 =
      none ∧
    shown (sysAfter (fun _ => none) [.link 0 1, .loc 0 .run, .loc 0 (.startEnd .ok), .loc 0 .kill, .loc 0 .pollBegin]) 1 0 =
      some .here := by decide

end Verif.Atomic
