import Verif.Macros.Remote

/-!
# C78: what `#[remote_message]` and `derive(RemoteActor)` register
-/

namespace Verif.Macros.Remote

open Verif.Macros.Derive (Text Input deriveId)

/-! ## Specification -/

/-- How Rust reads a type followed by generic arguments: a type alone is itself; a path without arguments takes them;
nothing else can be followed by any. -/
def Head.read : Head → Option Ty
  | ⟨t, []⟩ => some t
  | ⟨.path segs [] [], gs⟩ =>
    some (.path segs ((gs.filter (·.kind == .lifetime)).map (·.name)) ((gs.filter (·.kind != .lifetime)).map useTy))
  | _ => none

/-- The names that are mentioned in it. -/
def Head.names (h : Head) : List (Bool × String) := h.ty.names ++ h.generics.map GP.key

/-- The names mentioned in the `static REG` of a message, which is an item of its own: no generic parameter is in scope. -/
def Out.regNames (o : Out) : List (Bool × String) :=
  o.keyActor.names ++ o.keyFor.names ++ namesAll o.keyArgs ++
    [o.ask, o.tryAsk, o.tell, o.tryTell].flatMap (fun u => u.actor.names ++ namesAll u.msg)

/-- The names mentioned in the `static REG` of an actor. -/
def ActorOut.regNames (o : ActorOut) : List (Bool × String) :=
  o.keyFor.names ++ [o.link, o.unlink, o.signalLinkDied].flatMap (·.2.names)

/-- What is to be produced for `impl Message<args> for ty` with id `id`: the implementation of `RemoteMessage<args>` for
`ty` with that id; an entry under the id of `ty` and that id; and in it the four functions for `ty` and `args`, each in its
place. -/
structure Right (ty : Ty) (args : List Ty) (id : Text) (o : Out) : Prop where
  impl : o.implFor.read = some ty ∧ o.implArgs = args ∧ o.id = id
  key : o.keyActor = ty ∧ o.keyFor.read = some ty ∧ o.keyArgs = args
  fns : (o.ask, o.tryAsk, o.tell, o.tryTell) =
    (⟨.ask, ty, args⟩, ⟨.tryAsk, ty, args⟩, ⟨.tell, ty, args⟩, ⟨.tryTell, ty, args⟩)

/-- The same for an actor type. -/
structure RightActor (ty : Ty) (id : Text) (o : ActorOut) : Prop where
  impl : o.implFor.read = some ty ∧ o.id = id
  key : o.keyFor.read = some ty
  fns : (o.link.1, o.unlink.1, o.signalLinkDied.1) = (Fn.link, Fn.unlink, Fn.signalLinkDied)
  heads : o.link.2.read = some ty ∧ o.unlink.2.read = some ty ∧ o.signalLinkDied.2.read = some ty

/-- `T: RemoteActor`, with `REMOTE_ID = a`. -/
def Program.HasId (p : Program) (t : Nat) (a : Text) : Prop :=
  (∃ i, (t, i) ∈ p.derived ∧ deriveId i = some a) ∨ (t, a) ∈ p.manual

/-- `#[remote_message(id)] impl Message<msg> for ty` is in the program. -/
def Program.Declares (p : Program) (id : Text) (ty msg : Ty) : Prop :=
  ∃ i, (id, i) ∈ p.messages ∧ i.generics = [] ∧ i.selfTy = ty ∧ ∃ segs, i.trait = some (segs, .angle [msg])

/-- What Rust checks: no type implements `RemoteActor` twice, the derives are accepted, and every remote message is an
implementation of a trait with one argument, without parameters, for a type that is a remote actor. -/
structure Program.Compiles (p : Program) : Prop where
  once : (p.derived.map (·.1) ++ p.manual.map (·.1)).Nodup
  derives : ∀ x ∈ p.derived, ∃ a, deriveId x.2 = some a
  msgs : ∀ x ∈ p.messages, ∃ ty msg a, x.2.generics = [] ∧ x.2.selfTy = ty ∧
    (∃ segs, x.2.trait = some (segs, .angle [msg])) ∧ p.HasId (p.res ty) a

/-- Two remote messages have different pairs of ids. -/
def Program.Distinct (p : Program) : Prop :=
  p.messages.Pairwise fun x y => ∀ a b, p.HasId (p.res x.2.selfTy) a → p.HasId (p.res y.2.selfTy) b → (a, x.1) ≠ (b, y.1)

/-! ## The macros -/

/-- **C78 (refusals)** The macro accepts an `impl` of a trait with arguments in angle brackets if it is given an id, and
nothing else. -/
theorem remote_message_accepts (a : Attr) (i : Impl) :
    (∃ o, expand a i = .ok o) ↔ (∃ id, a = .lit id) ∧ ∃ segs ts, i.trait = some (segs, .angle ts) := by
  cases a with
  | lit id =>
    obtain ⟨gs, ty, tr⟩ := i
    rcases tr with _ | ⟨segs, _ | ts | ts⟩ <;> simp [expand, Attr.parse, Impl.parse]
  | empty => simp [expand, Attr.parse]
  | other => simp [expand, Attr.parse]

example : (∃ o, expand (.lit "x".toList) ⟨[], .path ["A"] [] [], some (["Message"], .angle [.path ["M"] [] []])⟩ = .ok o) :=
  (remote_message_accepts _ _).2 ⟨⟨_, rfl⟩, _, _, rfl⟩

/-- **C78 (negation)** Which trait is implemented plays no role: what is generated is the same for all of them, although
the macro says that it can only be used on an impl of `Message`. -/
theorem any_trait_is_accepted (id : Text) (gs : List GP) (ty : Ty) (segs segs' : List String) (ts : List Ty) :
    ∃ o, expand (.lit id) ⟨gs, ty, some (segs, .angle ts)⟩ = .ok o ∧
      expand (.lit id) ⟨gs, ty, some (segs', .angle ts)⟩ = .ok o :=
  ⟨_, rfl, rfl⟩

example : ∃ o, expand (.lit "x".toList) ⟨[], .path ["A"] [] [], some (["From"], .angle [.path ["M"] [] []])⟩ = .ok o ∧
    Right (.path ["A"] [] []) [.path ["M"] [] []] "x".toList o :=
  ⟨_, rfl, ⟨rfl, rfl, rfl⟩, ⟨rfl, rfl, rfl⟩, rfl⟩

/-- **C78 (without generic parameters)** What is generated is what the property asks for, and mentions no other names than
the `impl` does. -/
theorem remote_message_registers_partial (a : Attr) (i : Impl) (o : Out) (hg : i.generics = []) (h : expand a i = .ok o) :
    ∃ id segs args, a = .lit id ∧ i.trait = some (segs, .angle args) ∧ Right i.selfTy args id o ∧
      o.implGenerics = [] ∧ ∀ n ∈ o.regNames, n ∈ i.selfTy.names ++ namesAll args := by
  obtain ⟨⟨id, rfl⟩, segs, args, ht⟩ := (remote_message_accepts a i).1 ⟨o, h⟩
  obtain ⟨gs, ty, tr⟩ := i
  simp only at hg ht
  subst hg ht
  simp only [expand, Attr.parse, Impl.parse, Except.ok.injEq] at h
  subst h
  refine ⟨id, segs, args, rfl, rfl, ⟨⟨rfl, rfl, rfl⟩, ⟨rfl, rfl, rfl⟩, rfl⟩, rfl, ?_⟩
  intro n hn
  simp only [Out.regNames, Impl.render, Head.names, List.map_nil, List.append_nil, List.flatMap_cons, List.flatMap_nil,
    List.mem_append] at hn ⊢
  grind

example : ∃ o, expand (.lit "x".toList) ⟨[], .path ["A"] [] [], some (["Message"], .angle [.path ["M"] [] []])⟩ = .ok o ∧
    Right (.path ["A"] [] []) [.path ["M"] [] []] "x".toList o := by
  obtain ⟨o, h⟩ := (remote_message_accepts (.lit "x".toList)
    ⟨[], .path ["A"] [] [], some (["Message"], .angle [.path ["M"] [] []])⟩).2 ⟨⟨_, rfl⟩, _, _, rfl⟩
  obtain ⟨id, segs, args, h1, h2, h3, -⟩ := remote_message_registers_partial _ _ o rfl h
  injection h1 with h1
  injection h2 with h2
  injection h2 with h2 h4
  injection h4 with h4
  subst h1 h4
  exact ⟨o, h, h3⟩

/-- **C78 (negation)** With generic parameters it never is: the implementation of `RemoteMessage` is not for the type of the
block (the parameters are put behind it once more: `A<T><T>`), and the static mentions every parameter, none of which is in
scope there. So a generic actor or message cannot be a remote one. -/
theorem generic_remote_message_fails (a : Attr) (i : Impl) (o : Out) (hg : i.generics ≠ []) (h : expand a i = .ok o) :
    o.implFor.read ≠ some i.selfTy ∧ o.keyFor.read ≠ some i.selfTy ∧ ∀ g ∈ i.generics, g.key ∈ o.regNames := by
  obtain ⟨⟨id, rfl⟩, segs, args, ht⟩ := (remote_message_accepts a i).1 ⟨o, h⟩
  obtain ⟨gs, ty, tr⟩ := i
  simp only at hg ht
  subst ht
  simp only [expand, Attr.parse, Impl.parse, Except.ok.injEq] at h
  subst h
  have key : Head.read ⟨ty, gs⟩ ≠ some ty := by
    obtain ⟨g, r, rfl⟩ : ∃ g r, gs = g :: r := by cases gs with
      | nil => exact absurd rfl hg
      | cons g r => exact ⟨g, r, rfl⟩
    unfold Head.read
    split
    · next h => simp at h
    · next segs gs' _ h =>
      injection h with h1 h2
      subst h1 h2
      intro hh
      injection hh with hh
      injection hh with _ h3 h4
      cases hk : (g.kind == Kind.lifetime) <;> simp_all
    · simp
  refine ⟨key, key, fun g hgs => ?_⟩
  simp only [Out.regNames, Impl.render, Head.names, List.mem_append, List.mem_map]
  exact .inl (.inl (.inr (.inr ⟨g, hgs, rfl⟩)))

example : ∃ o, expand (.lit "x".toList)
      ⟨[⟨.type, "T"⟩], .path ["A"] [] [.path ["T"] [] []], some (["Message"], .angle [.path ["M"] [] []])⟩ = .ok o ∧
    o.implFor.read = none ∧ (false, "T") ∈ o.regNames :=
  ⟨_, rfl, rfl, by decide⟩

/-- **C78 (derive, without generic parameters)** `derive(RemoteActor)` implements the trait for the type, with the id of C70,
and registers the three functions for it, each in its place. -/
theorem derive_registers_partial (a : Actor) (o : ActorOut) (hg : a.generics = []) (h : a.render = some o) :
    ∃ id, deriveId a.input = some id ∧ RightActor (.path [String.ofList a.input.ident] [] []) id o ∧ o.implGenerics = [] := by
  obtain ⟨inp, gs⟩ := a
  simp only at hg
  subst hg
  simp only [Actor.render] at h
  split at h
  · simp at h
  · next id hid =>
    injection h with h
    subst h
    exact ⟨id, hid, ⟨⟨rfl, rfl⟩, rfl, rfl, rfl, rfl, rfl⟩, rfl⟩

example : ∃ o, Actor.render ⟨{ ident := "A".toList, modPath := "m".toList }, []⟩ = some o ∧ o.id = "m::A".toList := ⟨_, rfl, rfl⟩

/-- **C78 (derive, negation)** With generic parameters, the static mentions all of them, out of scope. -/
theorem derive_generic_fails (a : Actor) (o : ActorOut) (h : a.render = some o) :
    ∀ g ∈ a.generics, g.key ∈ o.regNames := by
  obtain ⟨inp, gs⟩ := a
  simp only [Actor.render] at h
  split at h
  · simp at h
  · injection h with h
    subst h
    intro g hg
    simp only [ActorOut.regNames, Head.names, List.mem_append, List.mem_map]
    exact .inl (.inr ⟨g, hg, rfl⟩)

example : ∃ o, Actor.render ⟨{ ident := "A".toList, modPath := "m".toList }, [⟨.type, "T"⟩]⟩ = some o ∧
    (false, "T") ∈ o.regNames := by
  obtain ⟨o, h⟩ : ∃ o, Actor.render ⟨{ ident := "A".toList, modPath := "m".toList }, [⟨.type, "T"⟩]⟩ = some o := ⟨_, rfl⟩
  exact ⟨o, h, derive_generic_fails _ o h ⟨.type, "T"⟩ (by simp)⟩

/-! ## Programs -/

theorem hasId_unique {p : Program} (hc : p.Compiles) {t : Nat} {a b : Text} (ha : p.HasId t a) (hb : p.HasId t b) : a = b := by
  obtain ⟨h1, h2, h3⟩ := List.nodup_append.1 hc.once
  have inj : ∀ {β : Type} (l : List (Nat × β)), (l.map (·.1)).Nodup → ∀ x ∈ l, ∀ y ∈ l, x.1 = y.1 → x = y := by
    intro β l
    induction l with
    | nil => simp
    | cons z l ih =>
      intro hn x hx y hy he
      simp only [List.map_cons, List.nodup_cons, List.mem_map, not_exists, not_and] at hn
      rcases List.mem_cons.1 hx with ex | hx' <;> rcases List.mem_cons.1 hy with ey | hy'
      · rw [ex, ey]
      · exact absurd (by rw [← he, ex]) (hn.1 y hy')
      · exact absurd (by rw [he, ey]) (hn.1 x hx')
      · exact ih hn.2 x hx' y hy' he
  rcases ha with ⟨i, hi, ea⟩ | ha <;> rcases hb with ⟨j, hj, eb⟩ | hb
  · have := inj _ h1 _ hi _ hj rfl
    injection this with _ this
    subst this
    rw [ea] at eb; injection eb
  · exact absurd rfl (h3 t (List.mem_map.2 ⟨_, hi, rfl⟩) t (List.mem_map.2 ⟨_, hb, rfl⟩))
  · exact absurd rfl (h3 t (List.mem_map.2 ⟨_, hj, rfl⟩) t (List.mem_map.2 ⟨_, ha, rfl⟩))
  · have := inj _ h2 _ ha _ hb rfl
    injection this

theorem idOf_iff {p : Program} (hc : p.Compiles) {t : Nat} {a : Text} : p.idOf t = some a ↔ p.HasId t a := by
  have sound : ∀ {a}, p.idOf t = some a → p.HasId t a := by
    intro a h
    unfold Program.idOf at h
    split at h
    · next x hx =>
      have := List.find?_some hx
      simp only [decide_eq_true_eq] at this
      exact .inl ⟨x.2, by rw [← this]; exact List.mem_of_find?_eq_some hx, h⟩
    · next hx =>
      simp only [Option.map_eq_some_iff] at h
      obtain ⟨y, hy, rfl⟩ := h
      have := List.find?_some hy
      simp only [decide_eq_true_eq] at this
      exact .inr (by rw [← this]; exact List.mem_of_find?_eq_some hy)
  refine ⟨sound, fun h => ?_⟩
  suffices hs : ∃ b, p.idOf t = some b by
    obtain ⟨b, hb⟩ := hs
    rw [hb, hasId_unique hc h (sound hb)]
  unfold Program.idOf
  split
  · next x hx => exact hc.derives x (List.mem_of_find?_eq_some hx)
  · next hx =>
    rcases h with ⟨i, hi, -⟩ | h
    · have := List.find?_eq_none.1 hx _ hi
      simp at this
    · cases hy : p.manual.find? (fun x => x.1 = t) with
      | none =>
        have := List.find?_eq_none.1 hy _ h
        simp at this
      | some y => exact ⟨y.2, rfl⟩

/-- The functions of an actor type and a message type. -/
def Program.fnsOf (p : Program) (t m : Nat) : Verif.Remote.Fns :=
  ⟨t, m, (p.codecs t m).1, (p.codecs t m).2.1, (p.codecs t m).2.2⟩

theorem entry_of {p : Program} (hc : p.Compiles) {x : Text × Impl} (hx : x ∈ p.messages) :
    ∃ msg a segs, x.2.trait = some (segs, .angle [msg]) ∧ x.2.generics = [] ∧ p.HasId (p.res x.2.selfTy) a ∧
      p.entry x = some ((String.ofList a, String.ofList x.1), p.fnsOf (p.res x.2.selfTy) (p.res msg)) := by
  obtain ⟨ty, msg, a, hg, rfl, ⟨segs, ht⟩, hid⟩ := hc.msgs x hx
  refine ⟨msg, a, segs, ht, hg, hid, ?_⟩
  obtain ⟨id, gs, ty, tr⟩ := x
  simp only at ht hid ⊢
  subst ht
  simp only [Program.entry, expand, Attr.parse, Impl.parse, Impl.render, Program.inst, (idOf_iff hc).2 hid, Program.fnsOf]

theorem ofList_inj {a b : Text} (h : String.ofList a = String.ofList b) : a = b := by
  have := congrArg String.toList h
  simpa using this

theorem keys_distinct {p : Program} (hc : p.Compiles) :
    ((p.messages.filterMap p.entry).map (·.1)).Nodup ↔ p.Distinct := by
  have key : ∀ l : List (Text × Impl), (∀ x ∈ l, x ∈ p.messages) →
      (((l.filterMap p.entry).map (·.1)).Nodup ↔ l.Pairwise fun x y => ∀ a b, p.HasId (p.res x.2.selfTy) a →
        p.HasId (p.res y.2.selfTy) b → (a, x.1) ≠ (b, y.1)) := by
    intro l
    induction l with
    | nil => intro _; simp
    | cons x l ih =>
      intro hl
      obtain ⟨msg, a, segs, -, -, hid, he⟩ := entry_of hc (hl x (.head _))
      rw [List.filterMap_cons_some he, List.map_cons, List.nodup_cons, List.pairwise_cons,
        ih (fun y hy => hl y (.tail _ hy))]
      refine and_congr ⟨?_, ?_⟩ Iff.rfl
      · intro h y hy a' b ha' hb hab
        obtain rfl := hasId_unique hc ha' hid
        injection hab with h1 h2
        subst h1
        obtain ⟨msg', b', segs', -, -, hid', he'⟩ := entry_of hc (hl y (.tail _ hy))
        obtain rfl := hasId_unique hc hb hid'
        refine h (List.mem_map.2 ⟨_, List.mem_filterMap.2 ⟨y, hy, he'⟩, ?_⟩)
        rw [h2]
      · intro h hm
        obtain ⟨z, hz, hk⟩ := List.mem_map.1 hm
        obtain ⟨y, hy, he'⟩ := List.mem_filterMap.1 hz
        obtain ⟨msg', b', segs', -, -, hid', he''⟩ := entry_of hc (hl y (.tail _ hy))
        rw [he''] at he'
        injection he' with he'
        subst he'
        simp only [Prod.mk.injEq] at hk
        exact h y hy a b' hid hid' (by rw [ofList_inj hk.1, ofList_inj hk.2])
  exact key p.messages (fun _ h => h)

theorem lookup_iff {K V : Type} [DecidableEq K] (l : List (K × V)) (hn : (l.map (·.1)).Nodup) (k : K) (v : V) :
    Verif.Remote.lookup l k = some v ↔ (k, v) ∈ l := by
  unfold Verif.Remote.lookup
  induction l with
  | nil => simp
  | cons x l ih =>
    simp only [List.map_cons, List.nodup_cons, List.mem_map, not_exists, not_and] at hn
    rw [List.find?_cons]
    by_cases h : x.1 = k
    · subst h
      simp only [decide_true, Option.map_some, Option.some.injEq, List.mem_cons]
      refine ⟨fun h => .inl (by rw [← h]), ?_⟩
      rintro (h | h)
      · rw [← h]
      · exact (hn.1 (x.1, v) h rfl).elim
    · simp only [h, decide_false, List.mem_cons]
      rw [ih hn.2]
      refine ⟨.inr, ?_⟩
      rintro (h' | h')
      · exact absurd (by rw [← h']) h
      · exact h'

/-! ### A program: `A` derives `RemoteActor`, `B` implements it by hand, both handle `M` -/

/-- The types. -/
def resEx : Ty → Nat
  | .path ["A"] _ _ => 0
  | .path ["B"] _ _ => 1
  | _ => 2

/-- `impl Message<M> for ty`. -/
def implEx (ty : String) : Impl := ⟨[], .path [ty] [] [], some (["Message"], .angle [.path ["M"] [] []])⟩

/-- The program, with the ids of the two messages. -/
def progEx (x y : Text) (e : Verif.Remote.Codec) : Program where
  res := resEx
  derived := [(0, { ident := "A".toList, modPath := "m".toList })]
  manual := [(1, "b".toList)]
  messages := [(x, implEx "A"), (y, implEx "B")]
  codecs := fun _ _ => (e, e, e)

theorem compilesEx (x y : Text) (e : Verif.Remote.Codec) : (progEx x y e).Compiles where
  once := by simp [progEx]
  derives := by intro z hz; simp only [progEx, List.mem_singleton] at hz; subst hz; exact ⟨_, rfl⟩
  msgs := by
    intro z hz
    simp only [progEx, List.mem_cons, List.not_mem_nil, or_false] at hz
    rcases hz with rfl | rfl
    · exact ⟨_, .path ["M"] [] [], "m::A".toList, rfl, rfl, ⟨_, rfl⟩, .inl ⟨_, by simp [progEx, implEx, resEx]; rfl, rfl⟩⟩
    · exact ⟨_, .path ["M"] [] [], "b".toList, rfl, rfl, ⟨_, rfl⟩, .inr (by simp [progEx, implEx, resEx])⟩

theorem hasIdEx (x y : Text) (e : Verif.Remote.Codec) : (progEx x y e).HasId 0 "m::A".toList ∧ (progEx x y e).HasId 1 "b".toList :=
  ⟨.inl ⟨_, .head _, rfl⟩, .inr (.head _)⟩

theorem distinctEx (x y : Text) (e : Verif.Remote.Codec) : (progEx x y e).Distinct := by
  refine .cons ?_ (.cons (by simp) .nil)
  intro z hz a b ha hb hab
  simp only [List.mem_singleton] at hz
  subst hz
  obtain rfl := hasId_unique (compilesEx x y e) ha (hasIdEx x y e).1
  obtain rfl := hasId_unique (compilesEx x y e) hb (hasIdEx x y e).2
  injection hab with h
  revert h
  decide

/-- **C78 (lookup)** If no two remote messages have the same pair of ids, a request with the ids of an actor type and a message
finds the functions of that actor and message; and whatever is found was declared. -/
theorem remote_message_found (I : Type) [DecidableEq I] (p : Program) (hc : p.Compiles) (hd : p.Distinct) (a m : Text)
    (f : Verif.Remote.Fns) :
    (p.node I).message (String.ofList a) (String.ofList m) = .val (some f) ↔
      ∃ ty msg, p.Declares m ty msg ∧ p.HasId (p.res ty) a ∧ f = p.fnsOf (p.res ty) (p.res msg) := by
  have hn := (keys_distinct hc).2 hd
  simp only [Verif.Remote.Node.message, Program.node, hn, if_true, Verif.Request.Out.val.injEq]
  rw [lookup_iff _ hn, List.mem_filterMap]
  constructor
  · rintro ⟨x, hx, he⟩
    obtain ⟨msg, b, segs, ht, hg, hid, he'⟩ := entry_of hc hx
    rw [he'] at he
    simp only [Option.some.injEq, Prod.mk.injEq] at he
    obtain ⟨⟨h1, h2⟩, h3⟩ := he
    obtain rfl := ofList_inj h1
    obtain rfl := ofList_inj h2
    exact ⟨x.2.selfTy, msg, ⟨x.2, hx, hg, rfl, segs, ht⟩, hid, h3.symm⟩
  · rintro ⟨ty, msg, ⟨i, hi, hg, rfl, segs, ht⟩, hid, rfl⟩
    refine ⟨_, hi, ?_⟩
    obtain ⟨msg', b, segs', ht', -, hid', he'⟩ := entry_of hc hi
    simp only at ht' hid' he'
    rw [ht] at ht'
    simp only [Option.some.injEq, Prod.mk.injEq, Args.angle.injEq, List.cons.injEq, and_true] at ht'
    rw [he', ht'.2, hasId_unique hc hid hid']

example (e : Verif.Remote.Codec) : ∃ f, ((progEx "x".toList "x".toList e).node Nat).message (String.ofList "b".toList)
    (String.ofList "x".toList) = .val (some f) ∧ f.actorTy = 1 ∧ f.msgTy = 2 :=
  ⟨_, (remote_message_found Nat _ (compilesEx _ _ e) (distinctEx _ _ e) _ _ _).2
    ⟨.path ["B"] [] [], .path ["M"] [] [], ⟨_, .tail _ (.head _), rfl, rfl, _, rfl⟩, (hasIdEx _ _ e).2, rfl⟩, rfl, rfl⟩

/-- **C78 (duplicates)** The first request panics, whatever it is for, exactly if two remote messages have the same pair of
ids. -/
theorem duplicate_message_panics (I : Type) [DecidableEq I] (p : Program) (hc : p.Compiles) (a m : String) :
    (p.node I).message a m = .panic ↔ ¬ p.Distinct := by
  rw [← keys_distinct hc]
  unfold Verif.Remote.Node.message
  by_cases h : (((p.node I).messages).map (·.1)).Nodup
  · rw [if_pos h]; exact ⟨fun h' => by (cases h'), fun h' => absurd h h'⟩
  · rw [if_neg h]; exact ⟨fun _ => h, fun _ => rfl⟩

/-- The same actor with two messages of the same id. -/
def twiceEx (e : Verif.Remote.Codec) : Program where
  res := resEx
  derived := [(0, { ident := "A".toList, modPath := "m".toList })]
  manual := []
  messages := [("x".toList, implEx "A"), ("x".toList, implEx "A")]
  codecs := fun _ _ => (e, e, e)

example (e : Verif.Remote.Codec) (a m : String) : ((twiceEx e).node Nat).message a m = .panic := by
  have hid : (twiceEx e).HasId 0 "m::A".toList := .inl ⟨_, .head _, rfl⟩
  refine (duplicate_message_panics Nat _ ⟨by simp [twiceEx], ?_, ?_⟩ a m).2 ?_
  · intro z hz
    simp only [twiceEx, List.mem_singleton] at hz
    subst hz
    exact ⟨_, rfl⟩
  · intro z hz
    simp only [twiceEx, List.mem_cons, List.not_mem_nil, or_false, or_self] at hz
    subst hz
    exact ⟨_, .path ["M"] [] [], "m::A".toList, rfl, rfl, ⟨_, rfl⟩, hid⟩
  · intro hd
    unfold Program.Distinct twiceEx at hd
    cases hd with
    | cons h _ => exact h _ (.head _) _ _ hid hid rfl

theorem actors_mem {p : Program} (a : Text) (t : Nat) :
    (String.ofList a, t) ∈ p.derived.filterMap (fun x => (deriveId x.2).map (fun a => (String.ofList a, x.1))) ↔
      ∃ i, (t, i) ∈ p.derived ∧ deriveId i = some a := by
  simp only [List.mem_filterMap, Option.map_eq_some_iff, Prod.mk.injEq]
  constructor
  · rintro ⟨⟨t', i⟩, hx, b, hb, h1, h2⟩
    simp only at h2 hb
    subst h2
    exact ⟨i, hx, by rw [hb, ofList_inj h1]⟩
  · rintro ⟨i, hi, h⟩
    exact ⟨_, hi, a, h, rfl, rfl⟩

/-- **C78 (actors)** If no two derived ids are the same, the id of a type with `derive(RemoteActor)` is found, with that type,
and no other id is. -/
theorem remote_actor_found (I : Type) [DecidableEq I] (p : Program)
    (hd : p.derived.Pairwise fun x y => deriveId x.2 ≠ deriveId y.2) (a : Text) (t : Nat) :
    (p.node I).actorFns (String.ofList a) = .val (some t) ↔ ∃ i, (t, i) ∈ p.derived ∧ deriveId i = some a := by
  have hn : ((p.node I).actors.map (·.1)).Nodup := by
    simp only [Program.node]
    generalize p.derived = l at hd
    induction l with
    | nil => simp
    | cons x l ih =>
      rw [List.pairwise_cons] at hd
      cases hx : deriveId x.2 with
      | none => rw [List.filterMap_cons_none (by simp [hx])]; exact ih hd.2
      | some b =>
        rw [List.filterMap_cons_some (b := (String.ofList b, x.1)) (by simp [hx]), List.map_cons, List.nodup_cons]
        refine ⟨fun hm => ?_, ih hd.2⟩
        obtain ⟨z, hz, hk⟩ := List.mem_map.1 hm
        obtain ⟨y, hy, he⟩ := List.mem_filterMap.1 hz
        obtain ⟨c, hc, rfl⟩ := Option.map_eq_some_iff.1 he
        exact hd.1 y hy (by rw [hx, hc, ofList_inj hk])
  simp only [Verif.Remote.Node.actorFns, hn, if_true, Verif.Request.Out.val.injEq]
  rw [lookup_iff _ hn]
  exact actors_mem a t

example (e : Verif.Remote.Codec) :
    ((progEx [] [] e).node Nat).actorFns (String.ofList "m::A".toList) = .val (some 0) :=
  (remote_actor_found Nat _ (.cons (by simp) .nil) _ _).2 ⟨_, .head _, rfl⟩

/-- **C78 (negation)** The example in the documentation that implements `RemoteActor` by hand gives an actor that can be sent
remote messages, but no remote link: its type is not registered, and whatever a link, an unlink or a notice of a death is
about, the answer is that the actor is unknown. -/
theorem manual_actor_not_linkable (I R : Type) [DecidableEq I] (p : Program) (hc : p.Compiles)
    (hd : p.derived.Pairwise fun x y => deriveId x.2 ≠ deriveId y.2) (t : Nat) (a : Text)
    (hm : (t, a) ∈ p.manual) (hne : ∀ x ∈ p.derived, deriveId x.2 ≠ some a) :
    p.HasId t a ∧
    (∀ m ty msg, p.Distinct → p.Declares m ty msg → p.res ty = t →
      (p.node I).message (String.ofList a) (String.ofList m) = .val (some (p.fnsOf t (p.res msg)))) ∧
    (∀ n : Verif.Remote.Node I, n.actors = (p.node I).actors → ∀ (id sib : I) (srid : String) (reason : R) (sent : Bool),
      (n.link id (String.ofList a) sib srid).2 = .val (.error (.unknownActor (String.ofList a))) ∧
      (n.unlink id (String.ofList a) sib).2 = .val (.error (.unknownActor (String.ofList a))) ∧
      n.signalLinkDied sib id (String.ofList a) reason sent =
        ([], .val (.error (.unknownActor (String.ofList a))))) := by
  refine ⟨.inr hm, ?_, ?_⟩
  · rintro m ty msg hdi hde rfl
    exact (remote_message_found I p hc hdi a m _).2 ⟨ty, msg, hde, .inr hm, rfl⟩
  · intro n hn id sib srid reason sent
    have h0 : n.actorFns (String.ofList a) = .val none := by
      have hnode : n.actorFns (String.ofList a) = (p.node I).actorFns (String.ofList a) := by
        simp only [Verif.Remote.Node.actorFns, hn]
      rw [hnode]
      have key := remote_actor_found I p hd a
      cases h : (p.node I).actorFns (String.ofList a) with
      | panic =>
        exfalso
        by_cases hx : ∃ x, x ∈ p.derived
        · obtain ⟨x, hx⟩ := hx
          obtain ⟨b, hb⟩ := hc.derives x hx
          have := (remote_actor_found I p hd b x.1).2 ⟨x.2, hx, hb⟩
          unfold Verif.Remote.Node.actorFns at this h
          split at h <;> simp_all
        · have : p.derived = [] := List.eq_nil_iff_forall_not_mem.2 (fun x h => hx ⟨x, h⟩)
          simp [Verif.Remote.Node.actorFns, Program.node, this] at h
      | val r =>
        cases r with
        | none => rfl
        | some t' =>
          obtain ⟨i, hi, he⟩ := (key t').1 h
          exact absurd he (hne _ hi)
    simp only [Verif.Remote.Node.link, Verif.Remote.Node.unlink, Verif.Remote.Node.signalLinkDied, h0]
    exact ⟨trivial, trivial, trivial⟩

example (e : Verif.Remote.Codec) (id sib : Nat) (srid : String) :
    (((progEx [] [] e).node Nat).link id (String.ofList "b".toList) sib srid).2 =
      .val (.error (.unknownActor (String.ofList "b".toList))) :=
  ((manual_actor_not_linkable Nat Unit _ (compilesEx [] [] e) (.cons (by simp) .nil) 1 "b".toList (.head _) (by
    intro x hx
    simp only [progEx, List.mem_singleton] at hx
    subst hx
    decide)).2.2 _ rfl id sib srid () true).1

end Verif.Macros.Remote
