import Verif.Request.Model

/-!
The implementations of the trait `Reply` (`src/reply.rs` L68-111): `Result`, the types of the standard library
and of tokio and futures listed in `impl_infallible_reply!`, types with `#[derive(Reply)]`, `DelegatedReply` and
`ForwardedReply`; and how a reply gets from a handler to the asker or to `on_panic`.
-/

namespace Verif.Reply

open Verif.Request (Out)

/-- Rust types, as far as `src/reply.rs` L212-501 tells them apart. `con` names a type or type constructor of a
library, `app` applies one to a type (`Vec<u8>` is `app (con "Vec") (con "u8")`). Simplification: lifetimes and
array lengths are left out, and so are the bounds `Send` and `'static`: Rust does not compile what violates
them. -/
inductive RT where
  | con (name : String)
  | app (f x : RT)
  /-- A type without `Reply`. -/
  | user (n : Nat)
  /-- A type with `#[derive(Reply)]`, before its arguments. -/
  | derived (n : Nat)
  | result (t e : RT)
  | delegated (r : RT)
  | forwarded (m r : RT)
  | sendError (m e : RT)
  | infallible
  deriving DecidableEq, Repr

/-- Values. `data` is a value of any type but the ones below; its parts may be anything, also errors. `marker` is a
`DelegatedReply`, `src/reply.rs` L212-214; `fwd` a `ForwardedReply`, L245-251, with the error if the message was
refused. -/
inductive Val where
  | data (n : Nat) (parts : List Val)
  | ok (v : Val)
  | err (v : Val)
  | marker
  | fwd (refused : Option Val)

/-- An implementation of `Reply`, `src/reply.rs` L81-111: the three types, and the three conversions. A conversion
that ends in `unimplemented!` or `unreachable!` panics. -/
structure Impl where
  ok : RT
  err : RT
  value : RT
  toResult : Val → Out (Except Val Val)
  intoAnyErr : Val → Option Val
  intoValue : Val → Out Val

/-- The `i`-th of the entries of `impl_infallible_reply!` for tuples, `src/reply.rs` L459-484. -/
def tuples : List (String × Nat) := (List.range 26).map (fun i => ("tuple", i + 1))

/-- The types given to `impl_infallible_reply!`, `src/reply.rs` L378-492, as name and number of type arguments, all but
the tuples. Simplification: the atomics at the end (L485-492) depend on the target; here they are all there. -/
def listed : List (String × Nat) :=
  [("()", 0), ("usize", 0), ("u8", 0), ("u16", 0), ("u32", 0), ("u64", 0), ("u128", 0), ("isize", 0), ("i8", 0),
   ("i16", 0), ("i32", 0), ("i64", 0), ("i128", 0), ("f32", 0), ("f64", 0), ("char", 0), ("bool", 0),
   ("&'static str", 0), ("String", 0), ("&'static Path", 0), ("PathBuf", 0), ("Option", 1), ("Cow", 1), ("Arc", 1),
   ("Mutex", 1), ("RwLock", 1), ("&'static [;N]", 1), ("[;N]", 1), ("&'static []", 1), ("&'static mut", 1), ("Box", 1),
   ("Vec", 1), ("VecDeque", 1), ("LinkedList", 1), ("HashMap", 2), ("BTreeMap", 2), ("HashSet", 1), ("BTreeSet", 1),
   ("BinaryHeap", 1), ("NonZeroI8", 0), ("NonZeroI16", 0), ("NonZeroI32", 0), ("NonZeroI64", 0), ("NonZeroI128", 0),
   ("NonZeroIsize", 0), ("NonZeroU8", 0), ("NonZeroU16", 0), ("NonZeroU32", 0), ("NonZeroU64", 0), ("NonZeroU128", 0),
   ("NonZeroUsize", 0), ("AtomicBool", 0), ("AtomicIsize", 0), ("AtomicPtr", 1), ("AtomicUsize", 0), ("Once", 0),
   ("Thread", 0), ("OnceCell", 1), ("mpsc::Sender", 1), ("mpsc::Receiver", 1), ("FuturesOrdered", 1),
   ("FuturesUnordered", 1), ("tokio::OnceCell", 1), ("Semaphore", 0), ("Notify", 0), ("tokio::mpsc::Sender", 1),
   ("tokio::mpsc::Receiver", 1), ("UnboundedSender", 1), ("UnboundedReceiver", 1), ("watch::Sender", 1),
   ("watch::Receiver", 1), ("broadcast::Sender", 1), ("broadcast::Receiver", 1), ("oneshot::Sender", 1),
   ("oneshot::Receiver", 1), ("tokio::Mutex", 1), ("tokio::RwLock", 1), ("AtomicI8", 0), ("AtomicU8", 0),
   ("AtomicI16", 0), ("AtomicU16", 0), ("AtomicI32", 0), ("AtomicU32", 0), ("AtomicI64", 0), ("AtomicU64", 0)]

/-- Is there an entry of `impl_infallible_reply!` for the type that is applied to `n` further types?
`src/reply.rs` L334-492; or is it a type with `#[derive(Reply)]`, `macros/src/derive_reply.rs` L13-37, whose
implementation is for all arguments? -/
def covered : RT → Nat → Bool
  | .con name, n => (listed ++ tuples).contains (name, n)
  | .app f _, n => covered f (n + 1)
  | .derived _, _ => true
  | _, _ => false

/-- `impl_infallible_reply!`, `src/reply.rs` L356-376, and `#[derive(Reply)]`, `macros/src/derive_reply.rs` L18-37. -/
def plainImpl (r : RT) : Impl where
  ok := r
  err := .infallible
  value := r
  toResult v := .val (.ok v)
  intoAnyErr _ := none
  intoValue v := .val v

/-- `impl Reply for Result<T, E>`, `src/reply.rs` L310-332. The last arms are for values that are no `Result`; there
are none in Rust. -/
def resultImpl (t e : RT) : Impl where
  ok := t
  err := e
  value := .result t e
  toResult
    | .ok v => .val (.ok v)
    | .err x => .val (.error x)
    | _ => .panic
  intoAnyErr
    | .err x => some x
    | _ => none
  intoValue v := .val v

/-- `impl Reply for DelegatedReply<R>`, `src/reply.rs` L224-243; `i` is the implementation of `R`. -/
def delegatedImpl (i : Impl) : Impl where
  ok := i.ok
  err := i.err
  value := i.value
  toResult _ := .panic
  intoAnyErr _ := none
  intoValue _ := .panic

/-- `impl Reply for ForwardedReply<M, R>`, `src/reply.rs` L263-288; `i` is the implementation of `R`. -/
def forwardedImpl (m : RT) (i : Impl) : Impl where
  ok := i.ok
  err := .sendError m i.err
  value := .result i.ok (.sendError m i.err)
  toResult
    | .fwd (some x) => .val (.error x)
    | _ => .panic
  intoAnyErr
    | .fwd (some x) => some x
    | _ => none
  intoValue
    | .fwd (some x) => .val (.err x)
    | _ => .panic

/-- The implementation of `Reply` for a type, if it has one. `src/reply.rs` L212-492,
`macros/src/derive_reply.rs` L13-37. -/
def reply : RT → Option Impl
  | .result t e => some (resultImpl t e)
  | .delegated r => (reply r).map delegatedImpl
  | .forwarded m r => (reply r).map (forwardedImpl m)
  | r => if covered r 0 then some (plainImpl r) else none

/-- `Box<dyn Any>`: a value with its type. `src/reply.rs` L63, L103. -/
structure Boxed where
  ty : RT
  val : Val

/-- `ReplySender::<R::Value>::send`, `src/reply.rs` L168-178, after `into_value`, `src/message.rs` L295-302: `i`
implements the reply type of the handler, `j` its `Value`. What goes through the channel is boxed with the
types of `j`. -/
def sendReply (i j : Impl) (v : Val) : Out (Except Boxed Boxed) :=
  match i.intoValue v with
  | .panic => .panic
  | .val v' =>
    match j.toResult v' with
    | .panic => .panic
    | .val (.ok x) => .val (.ok ⟨j.ok, x⟩)
    | .val (.error x) => .val (.error ⟨j.err, x⟩)

/-- What the asker makes of it, `src/request/ask.rs` L135-142: `downcast_ok` and `downcast_err`, `src/reply.rs`
L103-110, with the types of the reply type of the handler; a wrong type panics. `.error` stands for
`SendError::HandlerError`. Simplification: `ForwardedReply` has its own `downcast_err`, which tries another type
before (L297-307; `Verif.Request.downcastErr` models it); an error of the handler itself is never of that
type. -/
def receive (i : Impl) : Except Boxed Boxed → Out (Except Val Val)
  | .ok b => if b.ty = i.ok then .val (.ok b.val) else .panic
  | .error b => if b.ty = i.err then .val (.error b.val) else .panic

/-- What the asker gets when a handler with reply type implemented by `i`, whose `Value` is implemented by `j`, returns
`v`. `src/message.rs` L295-302, `src/request/ask.rs` L135-142. -/
def asked (i j : Impl) (v : Val) : Out (Except Val Val) :=
  match sendReply i j v with
  | .panic => .panic
  | .val p => receive i p

/-- The error that goes to `on_panic` when a told message's handler returns `v`. `src/message.rs` L303. -/
def told (i : Impl) (v : Val) : Option Val := i.intoAnyErr v

end Verif.Reply
