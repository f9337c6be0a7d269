/-!
# The `#[messages]` macro

`macros/src/messages.rs`: an attribute on an `impl` block of an actor. Every method marked `#[message]` becomes a message
type, whose fields are the parameters of the method, and an implementation of `Message` for the actor which calls the
method.

The macro works on syntax trees. Tokens, spans, bounds, `where` clauses and bodies do not influence what is modelled here
and are left out, except that the body of a method is carried along. Of the syntax of types, `syn::Type`, all variants are
here. Upper camel case (`heck`, not part of /repo) is a function `camel` about which nothing is assumed.
-/

namespace Verif.Macros

/-- The kinds of generic parameters, `syn::GenericParam`. `macros/src/messages.rs` L147-158, L176-189. -/
inductive Kind where
  | lifetime
  | type
  | const
  deriving DecidableEq, Repr

/-- A generic parameter. Bounds are left out. `macros/src/messages.rs` L147-158. -/
structure GP where
  kind : Kind
  name : String
  deriving DecidableEq, Repr

/-- The types of Rust as the macro sees them (`syn::Type`), in the order of `contains_generic_in_param`,
`macros/src/messages.rs` L442-544. Simplified: the arguments of all segments of a path are in two lists, lifetimes and
types (a self type `<T as X>::Y` counts as an argument); an array has the names used in its length; a function type
without a return type returns `()`; `life` is a bound of a trait object, as are paths. -/
inductive Ty where
  | array (elem : Ty) (len : List String)
  | bareFn (ins : List Ty) (out : Ty)
  | group (t : Ty)
  | implTrait (bounds : List Ty)
  | infer
  | mac
  | never
  | paren (t : Ty)
  | path (segs : List String) (lts : List String) (args : List Ty)
  | ptr (t : Ty)
  | ref (lt : Option String) (t : Ty)
  | slice (t : Ty)
  | traitObj (bounds : List Ty)
  | life (lt : String)
  | tuple (ts : List Ty)
  | verbatim
  deriving Repr

/-- `validate_param`, `macros/src/messages.rs` L422-440: `true` for `Ok(())`. -/
def validate : Ty → Bool
  | .implTrait _ => false
  | .infer => false
  | .ref _ _ => false
  | .group t => validate t
  | .paren t => validate t
  | _ => true

/-- A single identifier, `Path::get_ident`. `macros/src/messages.rs` L463, L503. -/
def getIdent : List String → List String → List Ty → Option String
  | [s], [], [] => some s
  | _, _, _ => none

/-- The type parameter of that name, if it is among `G`. `macros/src/messages.rs` L464-473, L504-513. -/
def typeIn (G : List GP) (s : String) : List GP :=
  if G.any (fun g => g.kind == .type && g.name == s) then [⟨.type, s⟩] else []

/-- The lifetime of that name, if it is among `G`. `macros/src/messages.rs` L481-491, L519-530. -/
def lifeIn (G : List GP) (s : String) : List GP :=
  if G.any (fun g => g.kind == .lifetime && g.name == s) then [⟨.lifetime, s⟩] else []

mutual
/-- `contains_generic_in_param`, `macros/src/messages.rs` L442-544. -/
def contains (G : List GP) : Ty → List GP
  | .array t _ => contains G t
  | .bareFn ins out => containsAll G ins ++ contains G out
  | .group t => contains G t
  | .implTrait _ => []
  | .infer => []
  | .mac => []
  | .never => []
  | .paren t => contains G t
  | .path segs lts args =>
    match getIdent segs lts args with
    | some s => typeIn G s
    | none => []
  | .ptr t => contains G t
  | .ref lt t => (match lt with | some a => lifeIn G a | none => []) ++ contains G t
  | .slice t => contains G t
  | .traitObj bs => containsAll G bs
  | .life a => lifeIn G a
  | .tuple ts => containsAll G ts
  | .verbatim => []

/-- `flat_map` of `contains_generic_in_param` over a list. `macros/src/messages.rs` L446-454, L498-540. -/
def containsAll (G : List GP) : List Ty → List GP
  | [] => []
  | t :: ts => contains G t ++ containsAll G ts
end

/-- An attribute: `#[doc = ".."]`, `#[path]`, `#[path(..)]` with its arguments (`none` if they are not a non-empty list of
metas), any other. `macros/src/messages.rs` L94-143. -/
inductive Attr where
  | doc (s : String)
  | path (segs : List String)
  | list (segs : List String) (items : Option (List String))
  | other (s : String)
  deriving DecidableEq, Repr

/-- The pattern of a parameter: `x`, `mut x`, or something else. `macros/src/messages.rs` L60-63. -/
inductive Pat where
  | ident (s : String)
  | other
  deriving DecidableEq, Repr

/-- A parameter of a method, `syn::FnArg`. `macros/src/messages.rs` L55-58. -/
inductive Arg where
  | recv
  | typed (pat : Pat) (ty : Ty) (docs : List String)
  deriving Repr

/-- A method of the `impl` block, `syn::ImplItemFn`. `macros/src/messages.rs` L93. -/
structure Method where
  name : String
  vis : String := ""
  attrs : List Attr
  generics : List GP := []
  args : List Arg
  ret : Option Ty := none
  isAsync : Bool := false
  body : String := ""

/-- An item of the `impl` block: only methods matter. `macros/src/messages.rs` L92-93, L244. -/
inductive Item where
  | fn (m : Method)
  | other (s : String)

/-- The `impl` block, `syn::ItemImpl`. `macros/src/messages.rs` L393. -/
structure Block where
  generics : List GP := []
  selfTy : Ty
  items : List Item

/-- What the macro complains about: the arguments of `#[message(..)]` (`macros/src/messages.rs` L128-137), the type of a
parameter (L161-163), no receiver (L193-202), the pattern of a parameter (L62), the self type (L404-409). -/
inductive Err where
  | attrs
  | badType
  | receiver
  | pattern
  | selfTy
  deriving DecidableEq, Repr

/-- A field of a message. `macros/src/messages.rs` L66-69. -/
structure Field where
  docs : List String
  vis : String
  name : String
  ty : Ty

/-- What the macro keeps for a message, `struct Message`. `macros/src/messages.rs` L21-28. -/
structure Msg where
  vis : String
  sig : Method
  ident : String
  fields : List Field
  attrs : List String
  generics : List GP

/-- The scan of the attributes of a method: those kept, and what the first `message` says (`none`: not a message;
`some none`: its arguments do not parse). `macros/src/messages.rs` L103-143. -/
def strip : List Attr → List Attr × Option (Option (List String))
  | [] => ([], none)
  | .path ["message"] :: r => (r, some (some []))
  | .list ["message"] items :: r => (r, some items)
  | a :: r => (a :: (strip r).1, (strip r).2)

/-- The doc comments. `macros/src/messages.rs` L94-101. -/
def docs (l : List Attr) : List String := l.filterMap fun | .doc s => some s | _ => none

/-- The fields of a message: parameters other than the receiver; fails at the first that has no name.
`macros/src/messages.rs` L51-71. -/
def fieldsOf (vis : String) : List Arg → Option (List Field)
  | [] => some []
  | .recv :: r => fieldsOf vis r
  | .typed (.ident s) ty d :: r => (fieldsOf vis r).map (⟨d, vis, s, ty⟩ :: ·)
  | .typed .other _ _ :: _ => none

/-- `Vec::dedup`: only neighbours are compared. `macros/src/messages.rs` L172. -/
def dedup : List GP → List GP
  | [] => []
  | a :: r =>
    match dedup r with
    | [] => [a]
    | b :: r' => if a = b then b :: r' else a :: b :: r'

/-- The generics found in parameters and return type: those of the block that the method does not declare itself.
`macros/src/messages.rs` L146-172. -/
def found (b : Block) (m : Method) : List GP :=
  let own := b.generics.filter fun g => (g.kind == .lifetime || g.kind == .type) && !(m.generics.contains g)
  let G := own.filter (·.kind == .lifetime) ++ own.filter (·.kind == .type)
  dedup (m.args.flatMap (fun | .recv => [] | .typed _ ty _ => contains G ty)
    ++ (match m.ret with | some ty => contains G ty | none => []))

/-- The generics of the message; `none` if `parse_quote!` panics: between the lifetimes and the types there is no comma.
`macros/src/messages.rs` L173-191. -/
def genericsOf (b : Block) (m : Method) : Option (List GP) :=
  let g := found b m
  if g = [] then some m.generics
  else
    let lts := g.filter (·.kind == .lifetime) ++ m.generics.filter (·.kind == .lifetime)
    let tys := g.filter (·.kind == .type) ++ m.generics.filter (·.kind == .type)
    if lts = [] ∨ tys = [] then some (lts ++ tys) else none

/-- The types of the parameters that are refused. `macros/src/messages.rs` L159-163. -/
def typeErrs (m : Method) : List Err :=
  m.args.filterMap fun | .recv => none | .typed _ ty _ => if validate ty then none else some .badType

/-- The arguments of the attribute do not parse. `macros/src/messages.rs` L129-137. -/
def attrErrs : Option (List String) → List Err
  | none => [.attrs]
  | some _ => []

/-- Doc comments of parameters are taken off. `macros/src/messages.rs` L204-225. -/
def undoc : Arg → Arg
  | .recv => .recv
  | .typed p t _ => .typed p t []

/-- One method in `extract_messages`: the method as it stays in the block, the errors, the message. `none`: the macro
panics. `macros/src/messages.rs` L93-251. -/
def extract1 (camel : String → String) (b : Block) (m : Method) : Option (Method × List Err × Option Msg) :=
  match strip m.attrs with
  | (kept, none) => some ({ m with attrs := kept }, [], none)
  | (kept, some items) =>
    match genericsOf b m with
    | none => none
    | some g =>
      let e := attrErrs items ++ typeErrs m
      let m' := { m with attrs := kept }
      match m.args with
      | .recv :: _ =>
        let m'' := { m' with args := m.args.map undoc }
        match fieldsOf m.vis m.args with
        | none => some (m'', e ++ [.pattern], none)
        | some fs =>
          if e = [] then
            some (m'', [], some ⟨m.vis, m'', camel m.name, fs, docs m.attrs ++ items.getD [], g⟩)
          else some (m'', e, none)
      | _ => some (m', e ++ [.receiver], none)

/-- `extract_messages`: the items as they stay, the errors, the messages. `macros/src/messages.rs` L85-267. -/
def extract (camel : String → String) (b : Block) : List Item → Option (List Item × List Err × List Msg)
  | [] => some ([], [], [])
  | .other s :: r => do
    let (is, es, ms) ← extract camel b r
    return (.other s :: is, es, ms)
  | .fn m :: r => do
    let (m', e, x) ← extract1 camel b m
    let (is, es, ms) ← extract camel b r
    return (.fn m' :: is, e ++ es, x.toList ++ ms)

/-- A generated `struct`. `macros/src/messages.rs` L281-293. -/
structure Struct where
  attrs : List String
  vis : String
  name : String
  generics : List GP
  fields : List Field

/-- `expand_msgs`, `macros/src/messages.rs` L269-300: without fields, a unit struct without generics. -/
def Msg.toStruct (m : Msg) : Struct :=
  if m.fields.isEmpty then ⟨m.attrs, m.vis, m.ident, [], []⟩ else ⟨m.attrs, m.vis, m.ident, m.generics, m.fields⟩

/-- A generic parameter used as a type. `split_for_impl`, `macros/src/messages.rs` L309, L324. -/
def useTy (g : GP) : Ty := .path [g.name] [] []

/-- `ident` with the parameters `gs` as arguments. `macros/src/messages.rs` L309, L324, L357. -/
def applied (ident : String) (gs : List GP) : Ty :=
  .path [ident] ((gs.filter (·.kind == .lifetime)).map (·.name)) ((gs.filter (·.kind != .lifetime)).map useTy)

/-- A generated `impl Message<..> for ..`. `macros/src/messages.rs` L355-364. -/
structure Handler where
  generics : List GP
  msgName : String
  msgArgs : List GP
  actorTy : Ty
  reply : Ty
  method : String
  params : List String
  awaits : Bool

/-- The last segment of the self type. `macros/src/messages.rs` L395-410. -/
def actorIdent : Ty → Option String
  | .path segs _ _ => segs.getLast?
  | _ => none

/-- `expand_msg_impls`, `macros/src/messages.rs` L302-371. -/
def Msg.toHandler (b : Block) (actor : String) (m : Msg) : Handler where
  generics := b.generics ++ m.sig.generics
  msgName := m.ident
  msgArgs := m.generics
  actorTy := applied actor b.generics
  reply := m.sig.ret.getD (.tuple [])
  method := m.sig.name
  params := m.fields.map (·.name)
  awaits := m.sig.isAsync

/-- What the macro produces. `macros/src/messages.rs` L381-387. -/
structure Output where
  block : Block
  structs : List Struct
  handlers : List Handler
  errors : List Err

/-- The macro: `none` if it panics. If the self type is not a path, only an error is produced.
`macros/src/messages.rs` L374-420. -/
def expand (camel : String → String) (b : Block) : Option Output :=
  match actorIdent b.selfTy with
  | none => some ⟨{ b with items := [] }, [], [], [.selfTy]⟩
  | some a =>
    match extract camel b b.items with
    | none => none
    | some (is, es, ms) => some ⟨{ b with items := is }, ms.map Msg.toStruct, ms.map (Msg.toHandler b a), es⟩

/-- A value of a message: each field with its value, in the order in which they are written in the struct expression.
`macros/src/messages.rs` L348-353. -/
abbrev Value (V : Type) := List (String × V)

/-- What the generated `handle` does with a message: the method it calls, with the values of its parameters.
`macros/src/messages.rs` L348-353, L361. -/
def Handler.call {V : Type} (h : Handler) (v : Value V) : String × List (Option V) :=
  (h.method, h.params.map fun x => List.lookup x v)

end Verif.Macros
