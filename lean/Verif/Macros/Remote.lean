import Verif.Macros.PropsGenerics
import Verif.Macros.Derive
import Verif.Remote.Model

/-!
# `#[remote_message]` and `derive(RemoteActor)`

`macros/src/remote_message.rs`, `macros/src/derive_remote_actor.rs`: what they generate, and what of a program ends up in
the tables of remote messages and actors. As in `Verif.Macros`, the macros work on syntax trees; bounds, `where` clauses and
spans are left out.
-/

namespace Verif.Macros.Remote

open Verif.Macros.Derive (Text Input deriveId)

/-- The functions that are registered. `src/remote/_internal.rs` L83-300. -/
inductive Fn where
  | ask
  | tryAsk
  | tell
  | tryTell
  | link
  | unlink
  | signalLinkDied
  deriving DecidableEq, Repr

/-- The arguments of a segment of a path, `syn::PathArguments`. `macros/src/remote_message.rs` L146-155. -/
inductive Args where
  | none
  | angle (ts : List Ty)
  | paren (ts : List Ty)

/-- The `impl` the attribute is on: its generic parameters, its type, and the trait, if any, with the arguments of its last
segment. `macros/src/remote_message.rs` L125-155. -/
structure Impl where
  generics : List GP
  selfTy : Ty
  trait : Option (List String × Args)

/-- The argument of `#[remote_message(..)]`. `macros/src/remote_message.rs` L16-27. -/
inductive Attr where
  | empty
  | lit (id : Text)
  | other

/-- The errors. `macros/src/remote_message.rs` L19-25, L131-136, L150-155. -/
inductive Err where
  | id
  | trait
  | args
  deriving DecidableEq, Repr

/-- A type followed by generic arguments, as `quote!` puts them: `#actor_ty #ty_generics`. `macros/src/remote_message.rs`
L52, L66, `macros/src/derive_remote_actor.rs` L38, L50. -/
structure Head where
  ty : Ty
  generics : List GP

/-- A function with its type arguments. `macros/src/remote_message.rs` L73-76, L87-90, L100-103, L112-115. -/
structure Use where
  fn : Fn
  actor : Ty
  msg : List Ty

/-- What `#[remote_message]` adds to the `impl`: the implementation of `RemoteMessage` and the entry of `REMOTE_MESSAGES`.
`macros/src/remote_message.rs` L47-121. -/
structure Out where
  /-- `impl #impl_generics .. for ..`, L52 -/
  implGenerics : List GP
  implArgs : List Ty
  implFor : Head
  id : Text
  /-- `actor_remote_id`, L65 -/
  keyActor : Ty
  /-- `message_remote_id`, L66 -/
  keyFor : Head
  keyArgs : List Ty
  ask : Use
  tryAsk : Use
  tell : Use
  tryTell : Use

/-- `RemoteMessageAttrs::parse`, `macros/src/remote_message.rs` L16-27. -/
def Attr.parse : Attr → Except Err Text
  | .lit s => .ok s
  | _ => .error .id

/-- `RemoteMessage::parse`, `macros/src/remote_message.rs` L125-164: the arguments of the trait. -/
def Impl.parse (i : Impl) : Except Err (List Ty) :=
  match i.trait with
  | none => .error .trait
  | some (_, .angle ts) => .ok ts
  | some (_, _) => .error .args

/-- `RemoteMessage::into_tokens`, `macros/src/remote_message.rs` L36-122. -/
def Impl.render (i : Impl) (args : List Ty) (id : Text) : Out where
  implGenerics := i.generics
  implArgs := args
  implFor := ⟨i.selfTy, i.generics⟩
  id := id
  keyActor := i.selfTy
  keyFor := ⟨i.selfTy, i.generics⟩
  keyArgs := args
  ask := ⟨.ask, i.selfTy, args⟩
  tryAsk := ⟨.tryAsk, i.selfTy, args⟩
  tell := ⟨.tell, i.selfTy, args⟩
  tryTell := ⟨.tryTell, i.selfTy, args⟩

/-- The macro. `macros/src/lib.rs` L161-166, `macros/src/remote_message.rs` L16-164. -/
def expand (a : Attr) (i : Impl) : Except Err Out :=
  match a.parse with
  | .error e => .error e
  | .ok id =>
    match i.parse with
    | .error e => .error e
    | .ok args => .ok (i.render args id)

/-- A type with `derive(RemoteActor)`. `macros/src/derive_remote_actor.rs` L8-12. -/
structure Actor where
  input : Input
  generics : List GP

/-- What `derive(RemoteActor)` adds: the implementation of `RemoteActor` and the entry of `REMOTE_ACTORS`.
`macros/src/derive_remote_actor.rs` L36-90. -/
structure ActorOut where
  implGenerics : List GP
  implFor : Head
  id : Text
  keyFor : Head
  link : Fn × Head
  unlink : Fn × Head
  signalLinkDied : Fn × Head

/-- `derive(RemoteActor)`; `none`: an error of the attributes. `macros/src/derive_remote_actor.rs` L14-92. -/
def Actor.render (a : Actor) : Option ActorOut :=
  match deriveId a.input with
  | none => none
  | some id =>
    let h : Head := ⟨.path [String.ofList a.input.ident] [] [], a.generics⟩
    some ⟨a.generics, h, id, h, (.link, h), (.unlink, h), (.signalLinkDied, h)⟩

/-- A program, as far as remote actors go: the types (which are numbers, `res` says which type a path means) with the
derived and the handwritten implementations of `RemoteActor` (`src/remote.rs` L109-137), and the implementations of `Message`
with `#[remote_message]`. `codecs` are the encodings of a message and its reply and error, of an actor and a message.
`src/remote/_internal.rs` L83-222. -/
structure Program where
  res : Ty → Nat
  derived : List (Nat × Input)
  manual : List (Nat × Text)
  messages : List (Text × Impl)
  codecs : Nat → Nat → Verif.Remote.Codec × Verif.Remote.Codec × Verif.Remote.Codec

/-- `<A as RemoteActor>::REMOTE_ID`. `src/remote.rs` L134-137. -/
def Program.idOf (p : Program) (t : Nat) : Option Text :=
  match p.derived.find? (fun x => x.1 = t) with
  | some x => deriveId x.2
  | none => (p.manual.find? (fun x => x.1 = t)).map (·.2)

/-- What a function of `src/remote/_internal.rs` is for, with its type arguments. They take two; `none`: it does not compile.
`src/remote/_internal.rs` L83-222. -/
def Program.inst (p : Program) (u : Use) : Option Verif.Remote.Fns :=
  match u.msg with
  | [m] =>
    let a := p.res u.actor
    let c := p.codecs a (p.res m)
    some ⟨a, p.res m, c.1, c.2.1, c.2.2⟩
  | _ => none

/-- The entry of `REMOTE_MESSAGES`, where the four functions are taken together (that they agree is in
`remote_message_registers_partial`); `none` if the code does not compile. `macros/src/remote_message.rs` L56-120. -/
def Program.entry (p : Program) (x : Text × Impl) : Option ((String × String) × Verif.Remote.Fns) :=
  match expand (.lit x.1) x.2 with
  | .error _ => none
  | .ok o =>
    match p.idOf (p.res o.keyActor), p.inst o.ask with
    | some a, some f => some ((String.ofList a, String.ofList o.id), f)
    | _, _ => none

/-- The slices, as they are linked. `src/remote/_internal.rs` L16-20. -/
def Program.node (p : Program) (I : Type) : Verif.Remote.Node I where
  messages := p.messages.filterMap p.entry
  actors := p.derived.filterMap (fun x => (deriveId x.2).map (fun a => (String.ofList a, x.1)))

end Verif.Macros.Remote
