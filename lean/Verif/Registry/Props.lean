import Verif.Registry.Model

/-!
Property theorems about the registry: C32. The specification is the history itself: `current ops n` is the
entry most recently inserted under the name `n` and not removed since.
-/

namespace Verif.Registry

variable {Name : Type} [DecidableEq Name]

/-- The entry inserted last under `n` in a history (newest operation first), unless it was removed or the
registry cleared since. -/
def currentRev (n : Name) : List (Op Name) → Option Entry
  | [] => none
  | .insert n' e :: older => if n' = n then some e else currentRev n older
  | .remove n' :: older => if n' = n then none else currentRev n older
  | .clear :: _ => none

/-- The entry inserted last under `n` in the history `ops` (oldest operation first) and not removed
since. -/
def current (ops : List (Op Name)) (n : Name) : Option Entry := currentRev n ops.reverse

omit [DecidableEq Name] in
theorem after_snoc [DecidableEq Name] (ops : List (Op Name)) (op : Op Name) :
    after (ops ++ [op]) = (after ops).step op := by
  simp [after, List.foldl_append]

theorem ok_step {r : Reg Name} (h : Map.Ok r) (op : Op Name) : Map.Ok (r.step op) := by
  cases op with
  | insert n e => exact Map.ok_put h n e
  | remove n => exact Map.ok_del h n
  | clear => exact Map.ok_nil

theorem inv (ops : List (Op Name)) :
    Map.Ok (after ops) ∧ ∀ n, Map.find (after ops) n = current ops n := by
  suffices h : ∀ l : List (Op Name), Map.Ok (after l.reverse) ∧
      ∀ n, Map.find (after l.reverse) n = currentRev n l by
    have := h ops.reverse
    rwa [List.reverse_reverse] at this
  intro l
  induction l with
  | nil => exact ⟨Map.ok_nil, fun n => rfl⟩
  | cons op l ih =>
    rw [List.reverse_cons, after_snoc]
    refine ⟨ok_step ih.1 op, fun n => ?_⟩
    cases op with
    | insert n' e =>
      simp only [Reg.step, Reg.insert, Map.find_put, currentRev, ih.2, eq_comm (a := n)]
    | remove n' =>
      simp only [Reg.step, Reg.remove, Map.find_del ih.1, currentRev, ih.2, eq_comm (a := n)]
    | clear => simp [Reg.step, Reg.clear, currentRev, Map.find]

/-- **C32** `get` (and so `lookup`) returns the actor most recently registered under the name and not removed
since, nothing if there is none, and `BadActorType` exactly if that one was registered with another
actor type. -/
theorem get_returns_current (ops : List (Op Name)) (ty : Nat) (n : Name) :
    ((after ops).get ty n = .nothing ↔ current ops n = none) ∧
    (∀ a, (after ops).get ty n = .actor a ↔ current ops n = some ⟨ty, a⟩) ∧
    ((after ops).get ty n = .badActorType ↔ ∃ e, current ops n = some e ∧ e.ty ≠ ty) := by
  unfold Reg.get
  rw [(inv ops).2 n]
  cases h : current ops n with
  | none => simp
  | some e =>
    obtain ⟨t, a⟩ := e
    by_cases ht : t = ty
    · subst ht; simp
    · simp [ht]

/-- A history with a replaced, a removed and a wrongly typed entry. -/
def regDemo : List (Op String) :=
  [.insert "a" ⟨0, 1⟩, .insert "b" ⟨0, 2⟩, .insert "a" ⟨1, 3⟩, .remove "b", .insert "c" ⟨0, 4⟩]

example : (after regDemo).get 1 "a" = .actor 3 ∧ (after regDemo).get 0 "a" = .badActorType ∧
    (after regDemo).get 0 "b" = .nothing ∧ (after regDemo).get 0 "c" = .actor 4 := by decide

/-- **C32** `contains_name`, `names`, `len` and `is_empty` agree with that map: the names are those with
a current entry, each listed once, and `len` is their number. -/
theorem names_are_current (ops : List (Op Name)) :
    (∀ n, (after ops).containsName n = true ↔ (current ops n).isSome = true) ∧
    (∀ n, n ∈ (after ops).names ↔ (current ops n).isSome = true) ∧
    (after ops).names.Nodup ∧ (after ops).len = (after ops).names.length ∧
    ((after ops).isEmpty = true ↔ ∀ n, current ops n = none) := by
  have h := inv ops
  refine ⟨fun n => ?_, fun n => ?_, h.1, ?_, ?_⟩
  · rw [← h.2 n]; rfl
  · rw [← h.2 n]
    exact (Map.has_iff _ n).symm
  · simp [Reg.len, Reg.names, Map.keys]
  · constructor
    · intro he n
      have : after ops = [] := by simpa [Reg.isEmpty] using he
      rw [← h.2 n, this]
      rfl
    · intro hn
      have : after ops = [] := by
        rcases hl : after ops with _ | ⟨⟨k, v⟩, rest⟩
        · rfl
        · have := hn k
          rw [← h.2 k, hl] at this
          simp [Map.find] at this
      simp [Reg.isEmpty, this]

example : (after regDemo).names = ["a", "c"] ∧ (after regDemo).len = 2 := by decide

/-- **C32** `insert` returns whether it replaced an entry, and `remove` whether it removed one. -/
theorem results_are_current (ops : List (Op Name)) (n : Name) (e : Entry) :
    (after ops).result (.insert n e) = some (current ops n).isSome ∧
    (after ops).result (.remove n) = some (current ops n).isSome := by
  rw [← (inv ops).2 n]
  exact ⟨rfl, rfl⟩

example : (after regDemo).result (.insert "a" ⟨0, 9⟩) = some true ∧ (after regDemo).result (.remove "b") = some false := by
  decide

/-- The name an operation is about; none for `clear`. -/
def Op.name : Op Name → Option Name
  | .insert n _ => some n
  | .remove n => some n
  | .clear => none

/-- **C32** Operations on other names do not affect a name: after any further operations none of which is
about `n` (nor clears the registry), `n` is what it was. -/
theorem names_are_independent (ops more : List (Op Name)) (n : Name)
    (h : ∀ op ∈ more, ∃ n', op.name = some n' ∧ n' ≠ n) (ty : Nat) :
    (after (ops ++ more)).get ty n = (after ops).get ty n ∧
    (after (ops ++ more)).containsName n = (after ops).containsName n := by
  have key : Map.find (after (ops ++ more)) n = Map.find (after ops) n := by
    rw [(inv (ops ++ more)).2, (inv ops).2]
    unfold current
    rw [List.reverse_append]
    have hr : ∀ op ∈ more.reverse, ∃ n', op.name = some n' ∧ n' ≠ n := fun op ho => h op (List.mem_reverse.mp ho)
    generalize more.reverse = l at hr
    induction l with
    | nil => rfl
    | cons op l ih =>
      have ih := ih (fun op ho => hr op (List.mem_cons_of_mem _ ho))
      obtain ⟨n', hn, hne⟩ := hr op List.mem_cons_self
      cases op with
      | insert m e =>
        cases hn
        simpa [currentRev, hne] using ih
      | remove m =>
        cases hn
        simpa [currentRev, hne] using ih
      | clear => cases hn
  simp only [Reg.get, Reg.containsName, Map.has, key, and_self]

example : ∀ op ∈ ([.insert "x" ⟨0, 7⟩, .remove "c"] : List (Op String)), ∃ n', op.name = some n' ∧ n' ≠ "a" := by
  intro op h
  rcases List.mem_cons.mp h with h | h
  · subst h; exact ⟨"x", rfl, by decide⟩
  · rcases List.mem_cons.mp h with h | h
    · subst h; exact ⟨"c", rfl, by decide⟩
    · cases h

/-- **C32** The last registration under a name wins, whatever was there before: registering and looking up
with the same type gives that actor; with another type `BadActorType`; removing gives nothing. -/
theorem register_then_lookup (ops : List (Op Name)) (n : Name) (e : Entry) (ty : Nat) :
    (after (ops ++ [.insert n e])).get ty n = (if e.ty = ty then .actor e.actor else .badActorType) ∧
    (after (ops ++ [.remove n])).get ty n = .nothing ∧ (after (ops ++ [.clear])).get ty n = .nothing := by
  simp only [Reg.get, (inv _).2, current, List.reverse_append, List.reverse_cons, List.reverse_nil, List.nil_append,
    List.singleton_append, currentRev, if_true, and_self]

example : (after (regDemo ++ [.insert "a" ⟨5, 6⟩])).get 5 "a" = .actor 6 := by decide

end Verif.Registry
