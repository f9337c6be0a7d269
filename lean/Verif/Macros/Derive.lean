/-!
# The derive macros for `Actor` and `RemoteActor`

`macros/src/derive_actor.rs`, `macros/src/derive_remote_actor.rs`: the name of an actor, and the id that stands for its
type on the wire. Text is a list of characters.
-/

namespace Verif.Macros.Derive

/-- Text, as a list of characters (`String` in the code, `macros/src/derive_actor.rs` L23-26). -/
abbrev Text := List Char

/-! ## The model -/

/-- The argument of an attribute: an item `key = "lit"`, or something else. `macros/src/derive_actor.rs` L79-90,
`macros/src/derive_remote_actor.rs` L124-148. -/
inductive Item where
  | assign (key : Text) (lit : Text)
  | other
  deriving DecidableEq, Repr

/-- An attribute of the type: its path, and its arguments, if it has a list of them. `macros/src/derive_actor.rs` L48-57. -/
structure Attr where
  path : Text
  args : Option (List Item)
  deriving DecidableEq, Repr

/-- The type the derive is on: name, attributes and the module it is in (`module_path!()`,
`macros/src/derive_remote_actor.rs` L26). Generics are passed through and left out. -/
structure Input where
  ident : Text
  modPath : Text := []
  attrs : List Attr := []

/-- The items of `#[actor(..)]`: all have to be `name = ".."`, `macros/src/derive_actor.rs` L79-90; the second one is an
error, L92-104. -/
def parseActorArgs : List Item → Option Text → Option (Option Text)
  | [], acc => some acc
  | .other :: _, _ => none
  | .assign k s :: r, acc =>
    if k = "name".toList then
      match acc with
      | none => parseActorArgs r (some s)
      | some _ => none
    else none

/-- `DeriveActorAttrs::parse` by `parse_args_with`, which wants an argument list. `macros/src/derive_actor.rs` L56,
L73-107. -/
def actorAttr : Option (List Item) → Option (Option Text)
  | none => none
  | some items => parseActorArgs items none

/-- The loop over the attributes for one of path `p`: a second one is an error. `none`: compile error.
`macros/src/derive_actor.rs` L47-58, `macros/src/derive_remote_actor.rs` L97-108. -/
def scan (p : Text) (parse : Option (List Item) → Option (Option Text)) :
    List Attr → Option (Option Text) → Option (Option (Option Text))
  | [], acc => some acc
  | a :: r, acc =>
    if a.path = p then
      match acc with
      | some _ => none
      | none =>
        match parse a.args with
        | none => none
        | some x => scan p parse r (some x)
    else scan p parse r acc

/-- `Actor::name` as derived; `none`: compile error. `macros/src/derive_actor.rs` L16-40, L42-66. -/
def deriveName (i : Input) : Option Text :=
  match scan "actor".toList actorAttr i.attrs none with
  | none => none
  | some acc => some (((acc.getD none)).getD i.ident)

/-- `DeriveRemoteActorAttrs::parse`: exactly `id = ".."`. `macros/src/derive_remote_actor.rs` L124-148. -/
def remoteAttr : Option (List Item) → Option (Option Text)
  | some [.assign k s] => if k = "id".toList then some (some s) else none
  | _ => none

/-- `RemoteActor::REMOTE_ID` as derived; by default the path of the module, `::` and the name.
`macros/src/derive_remote_actor.rs` L23-34, L94-117. -/
def deriveId (i : Input) : Option Text :=
  match scan "remote_actor".toList remoteAttr i.attrs none with
  | none => none
  | some acc => some (((acc.getD none)).getD (i.modPath ++ "::".toList ++ i.ident))

/-! ## C70 -/

/-- The attributes of path `p`. -/
def Input.of (i : Input) (p : String) : List Attr := i.attrs.filter (·.path = p.toList)

theorem parseActorArgs_iff (items : List Item) (acc r : Option Text) :
    parseActorArgs items acc = some r ↔
      (items = [] ∧ r = acc) ∨ (acc = none ∧ ∃ s, items = [.assign "name".toList s] ∧ r = some s) := by
  match items with
  | [] => simp [parseActorArgs, eq_comm]
  | .other :: t => simp [parseActorArgs]
  | .assign k s :: t =>
    unfold parseActorArgs
    by_cases hk : k = "name".toList
    · rw [if_pos hk]
      match acc with
      | some a => simp
      | none =>
        dsimp only
        rw [parseActorArgs_iff t (some s) r]
        simp only [hk]
        constructor
        · rintro (⟨rfl, rfl⟩ | ⟨h, -⟩)
          · exact .inr ⟨trivial, s, rfl, rfl⟩
          · cases h
        · rintro (⟨h, -⟩ | ⟨-, s', h, rfl⟩)
          · cases h
          · cases h; exact .inl ⟨rfl, rfl⟩
    · rw [if_neg hk]
      simp only [reduceCtorEq, List.cons.injEq, Item.assign.injEq, false_iff, false_and, false_or]
      rintro ⟨-, s', ⟨⟨h, -⟩, -⟩, -⟩
      exact hk h

theorem scan_iff (p : Text) (parse : Option (List Item) → Option (Option Text)) (l : List Attr)
    (acc : Option (Option Text)) (r : Option (Option Text)) :
    scan p parse l acc = some r ↔
      (l.filter (·.path = p) = [] ∧ r = acc) ∨
      (acc = none ∧ ∃ a x, l.filter (·.path = p) = [a] ∧ parse a.args = some x ∧ r = some x) := by
  induction l generalizing acc r with
  | nil => simp [scan, eq_comm]
  | cons a t ih =>
    unfold scan
    by_cases ha : a.path = p
    · rw [if_pos ha]
      match acc with
      | some y => simp [ha]
      | none =>
        dsimp only
        match hp : parse a.args with
        | none =>
          simp only [reduceCtorEq, List.filter_cons, ha, decide_true, if_true, false_and, false_or, List.cons.injEq,
            true_and, false_iff]
          rintro ⟨a', x, ⟨rfl, -⟩, h, -⟩
          rw [hp] at h; cases h
        | some x =>
          dsimp only
          rw [ih]
          simp only [reduceCtorEq, false_and, or_false, List.filter_cons, ha, decide_true, if_true, List.cons.injEq,
            false_or, true_and]
          constructor
          · rintro ⟨h, rfl⟩; exact ⟨a, x, ⟨rfl, h⟩, hp, rfl⟩
          · rintro ⟨a', x', ⟨rfl, h⟩, h2, rfl⟩
            rw [hp] at h2; cases h2; exact ⟨h, rfl⟩
    · rw [if_neg ha, ih]
      simp [ha]

/-- **C70**: the name of an actor is the one in its only `#[actor(name = "..")]`, or that of its type if there is no such
name; in all other cases (two attributes, two names, anything else in the attribute) there is a compile error. -/
theorem actor_name (i : Input) (n : Text) :
    deriveName i = some n ↔
      (i.of "actor" = [] ∧ n = i.ident) ∨
      (∃ a, i.of "actor" = [a] ∧ a.args = some [] ∧ n = i.ident) ∨
      (∃ a, i.of "actor" = [a] ∧ a.args = some [.assign "name".toList n]) := by
  have h1 : deriveName i = some n ↔ ∃ r, scan "actor".toList actorAttr i.attrs none = some r ∧ (r.getD none).getD i.ident = n := by
    unfold deriveName
    generalize scan "actor".toList actorAttr i.attrs none = z
    cases z <;> simp
  rw [h1]
  simp only [scan_iff, true_and, Input.of]
  constructor
  · rintro ⟨r, ⟨h, rfl⟩ | ⟨a, x, h, hp, rfl⟩, hr⟩
    · exact .inl ⟨h, by simpa using hr.symm⟩
    · match ha : a.args with
      | none => rw [ha] at hp; cases hp
      | some items =>
        rw [ha] at hp
        simp only [actorAttr] at hp
        rw [parseActorArgs_iff] at hp
        rcases hp with ⟨rfl, rfl⟩ | ⟨-, s, rfl, rfl⟩
        · exact .inr (.inl ⟨a, h, ha, by simpa using hr.symm⟩)
        · refine .inr (.inr ⟨a, h, ?_⟩)
          have : s = n := by simpa using hr
          rw [ha, this]
  · rintro (⟨h, rfl⟩ | ⟨a, h, ha, rfl⟩ | ⟨a, h, ha⟩)
    · exact ⟨none, .inl ⟨h, rfl⟩, rfl⟩
    · exact ⟨some none, .inr ⟨a, none, h, by rw [ha]; rfl, rfl⟩, rfl⟩
    · refine ⟨some (some n), .inr ⟨a, some n, h, ?_, rfl⟩, rfl⟩
      rw [ha]
      simp only [actorAttr]
      rw [parseActorArgs_iff]
      exact .inr ⟨rfl, n, rfl, rfl⟩

example : deriveName { ident := "Counter".toList, attrs := [⟨"actor".toList, some [.assign "name".toList "c".toList]⟩] } =
    some "c".toList := by decide

example : deriveName { ident := "Counter".toList, attrs := [⟨"actor".toList,
    some [.assign "name".toList "c".toList, .assign "name".toList "d".toList]⟩] } = none := by decide

/-- **C70**: likewise for the id of a remote actor, where the attribute has to have an id. -/
theorem remote_id (i : Input) (n : Text) :
    deriveId i = some n ↔
      (i.of "remote_actor" = [] ∧ n = i.modPath ++ "::".toList ++ i.ident) ∨
      (∃ a, i.of "remote_actor" = [a] ∧ a.args = some [.assign "id".toList n]) := by
  have h1 : deriveId i = some n ↔ ∃ r, scan "remote_actor".toList remoteAttr i.attrs none = some r ∧
      (r.getD none).getD (i.modPath ++ "::".toList ++ i.ident) = n := by
    unfold deriveId
    generalize scan "remote_actor".toList remoteAttr i.attrs none = z
    cases z <;> simp
  rw [h1]
  simp only [scan_iff, true_and, Input.of]
  constructor
  · rintro ⟨r, ⟨h, rfl⟩ | ⟨a, x, h, hp, rfl⟩, hr⟩
    · exact .inl ⟨h, by simpa using hr.symm⟩
    · right
      refine ⟨a, h, ?_⟩
      unfold remoteAttr at hp
      split at hp
      · next k s ha =>
        split at hp
        · next hk => cases hp; rw [ha, hk]; simp at hr; rw [hr]
        · cases hp
      · cases hp
  · rintro (⟨h, rfl⟩ | ⟨a, h, ha⟩)
    · exact ⟨none, .inl ⟨h, rfl⟩, rfl⟩
    · exact ⟨some (some n), .inr ⟨a, some n, h, by rw [ha]; simp [remoteAttr], rfl⟩, rfl⟩

/-- With an id, without, and with an attribute that has none. -/
example : deriveId { ident := "A".toList, modPath := "app".toList, attrs :=
      [⟨"remote_actor".toList, some [.assign "id".toList "a-1".toList]⟩] } = some "a-1".toList ∧
    deriveId { ident := "A".toList, modPath := "app".toList } = some "app::A".toList ∧
    deriveId { ident := "A".toList, attrs := [⟨"remote_actor".toList, some []⟩] } = none := by decide

theorem split_last {a b i j : Text} (hi : ':' ∉ i) (hj : ':' ∉ j) (h : a ++ ':' :: i = b ++ ':' :: j) : a = b ∧ i = j := by
  induction a generalizing b with
  | nil =>
    match b with
    | [] => simpa using h
    | c :: b =>
      simp only [List.nil_append, List.cons_append, List.cons.injEq] at h
      exact absurd (by rw [h.2]; simp) hi
  | cons x a ih =>
    match b with
    | [] =>
      simp only [List.nil_append, List.cons_append, List.cons.injEq] at h
      exact absurd (by rw [← h.2]; simp) hj
    | c :: b =>
      simp only [List.cons_append, List.cons.injEq] at h
      obtain ⟨h1, h2⟩ := ih h.2
      exact ⟨by rw [h.1, h1], h2⟩

/-- **C70**, for types without `#[remote_actor(id = "..")]`: types of different name or in different modules have different
ids. (Identifiers contain no `:`.) Ids that are given by hand may of course be equal. -/
theorem default_remote_ids_differ (i j : Input) (hi : ':' ∉ i.ident) (hj : ':' ∉ j.ident)
    (ai : i.of "remote_actor" = []) (aj : j.of "remote_actor" = []) (h : deriveId i = deriveId j) :
    i.modPath = j.modPath ∧ i.ident = j.ident := by
  have h1 := (remote_id i _).2 (.inl ⟨ai, rfl⟩)
  have h2 := (remote_id j _).2 (.inl ⟨aj, rfl⟩)
  rw [h1, h2, Option.some.injEq] at h
  have h' : (i.modPath ++ [':']) ++ ':' :: i.ident = (j.modPath ++ [':']) ++ ':' :: j.ident := by
    simpa using h
  obtain ⟨k1, k2⟩ := split_last hi hj h'
  exact ⟨List.append_cancel_right k1, k2⟩

example : deriveId { ident := "A".toList, modPath := "app::x".toList } = some "app::x::A".toList ∧
    deriveId { ident := "A".toList, modPath := "app::y".toList } = some "app::y::A".toList := by decide

end Verif.Macros.Derive
