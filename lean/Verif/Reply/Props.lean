import Verif.Reply.Model

/-!
Property theorems about the implementations of `Reply`: C79. The specification, `outcome`, looks at a returned value
and knows no implementation: an error is a `Result` that is an `Err`, or a `ForwardedReply` whose message was
refused; nothing else is.
-/

namespace Verif.Reply

open Verif.Request (Out)

/-- What a returned value says: a value, an error, or nothing because somebody else answers. -/
inductive Says where
  | value (v : Val)
  | error (x : Val)
  | elsewhere

/-- The meaning of a returned value. -/
def outcome : Val → Says
  | .ok v => .value v
  | .err x => .error x
  | .data n ps => .value (.data n ps)
  | .marker => .elsewhere
  | .fwd none => .elsewhere
  | .fwd (some x) => .error x

/-- The values of a type, as far as the outermost constructor goes. -/
def Fits : Val → RT → Prop
  | .ok _, .result _ _ => True
  | .err _, .result _ _ => True
  | .marker, .delegated _ => True
  | .fwd _, .forwarded _ _ => True
  | .data _ _, .con _ => True
  | .data _ _, .app _ _ => True
  | .data _ _, .derived _ => True
  | _, _ => False

/-- `vec![Err(3)]` -/
def vecErr : Val := .data 0 [.err (.data 3 [])]

/-- `Vec<Result<u8, String>>` -/
def vecTy : RT := .app (.con "Vec") (.result (.con "u8") (.con "String"))

/-- **C79** The types a reply type names fit together: its `Value` is a reply type too, with the same `Ok`, the same
`Error` and itself as `Value`. That is what the asker relies on when it downcasts what arrives. -/
theorem value_types_fit (r : RT) (i : Impl) (h : reply r = some i) :
    ∃ j, reply i.value = some j ∧ j.ok = i.ok ∧ j.err = i.err ∧ j.value = i.value := by
  induction r generalizing i with
  | result t e => simp only [reply, Option.some.injEq] at h; subst h; exact ⟨_, rfl, rfl, rfl, rfl⟩
  | delegated r ih =>
    simp only [reply, Option.map_eq_some_iff] at h
    obtain ⟨i', h', rfl⟩ := h
    exact ih i' h'
  | forwarded m r _ ih =>
    simp only [reply, Option.map_eq_some_iff] at h
    obtain ⟨i', h', rfl⟩ := h
    exact ⟨_, rfl, rfl, rfl, rfl⟩
  | _ =>
    simp only [reply] at h
    split at h
    · rename_i hc
      simp only [Option.some.injEq] at h; subst h
      refine ⟨_, ?_, rfl, rfl, rfl⟩
      simp only [plainImpl, reply, hc, if_true]
    · simp at h

example : (reply (.delegated (.forwarded (.user 1) vecTy))).map (·.value) =
    some (.result vecTy (.sendError (.user 1) .infallible)) := by decide

/-- The types an asker gets: the value and the error. A delegated reply is seen through; for a forwarded reply the
error is that of a send of the forwarded message. Specification of `src/reply.rs` L229-231, L268-270, L315-317, L361-363. -/
def askerTypes : RT → RT × RT
  | .result t e => (t, e)
  | .delegated r => askerTypes r
  | .forwarded m r => ((askerTypes r).1, .sendError m (askerTypes r).2)
  | r => (r, .infallible)

/-- **C79** The asker's types are those of the reply the handler promised: through any nesting of delegated and
forwarded replies, the message named in an error is the one that was forwarded. -/
theorem asker_types (r : RT) (i : Impl) (h : reply r = some i) : (i.ok, i.err) = askerTypes r := by
  induction r generalizing i with
  | result t e => simp only [reply, Option.some.injEq] at h; subst h; rfl
  | delegated r ih =>
    simp only [reply, Option.map_eq_some_iff] at h
    obtain ⟨i', h', rfl⟩ := h
    exact ih i' h'
  | forwarded m r _ ih =>
    simp only [reply, Option.map_eq_some_iff] at h
    obtain ⟨i', h', rfl⟩ := h
    simp only [askerTypes, ← ih i' h']
    rfl
  | _ =>
    simp only [reply] at h
    split at h
    · simp only [Option.some.injEq] at h; subst h; rfl
    · simp at h

example : (reply (.forwarded (.user 1) (.delegated (.result vecTy (.con "String"))))).isSome = true ∧
    askerTypes (.forwarded (.user 1) (.delegated (.result vecTy (.con "String")))) =
      (vecTy, .sendError (.user 1) (.con "String")) := by decide

/-- How `asked` comes out, whatever implementation the value type has. -/
theorem asked_eq (r : RT) (i j : Impl) (hi : reply r = some i) (hj : reply i.value = some j) (v : Val) (hv : Fits v r) :
    asked i j v = match outcome v with
      | .value x => .val (.ok x)
      | .error x => .val (.error x)
      | .elsewhere => .panic := by
  cases r with
  | result t e =>
    simp only [reply, Option.some.injEq] at hi; subst hi
    simp only [resultImpl, reply, Option.some.injEq] at hj; subst hj
    cases v <;> simp [Fits] at hv <;> simp [asked, sendReply, receive, resultImpl, outcome]
  | delegated r =>
    simp only [reply, Option.map_eq_some_iff] at hi
    obtain ⟨i', h', rfl⟩ := hi
    cases v <;> simp [Fits] at hv
    simp [asked, sendReply, delegatedImpl, outcome]
  | forwarded m r =>
    simp only [reply, Option.map_eq_some_iff] at hi
    obtain ⟨i', h', rfl⟩ := hi
    simp only [forwardedImpl, reply, Option.some.injEq] at hj; subst hj
    cases v with
    | fwd x => cases x <;> simp [asked, sendReply, receive, forwardedImpl, resultImpl, outcome]
    | _ => simp [Fits] at hv
  | _ =>
    simp only [reply] at hi
    split at hi
    · rename_i hc
      simp only [Option.some.injEq] at hi; subst hi
      simp only [plainImpl, reply, hc, if_true, Option.some.injEq] at hj; subst hj
      cases v <;> simp [Fits] at hv <;> simp [asked, sendReply, receive, plainImpl, outcome]
    · simp at hi

/-- **C79** The asker gets what the handler returned, whatever reply type it has: the value if it returned a value,
the error if it returned an error. The downcasts never fail. -/
theorem asker_gets_reply (r : RT) (i : Impl) (hi : reply r = some i) (v : Val) (hv : Fits v r) :
    ∃ j, reply i.value = some j ∧
      (∀ x, outcome v = .value x → asked i j v = .val (.ok x)) ∧
      (∀ x, outcome v = .error x → asked i j v = .val (.error x)) := by
  obtain ⟨j, hj, -⟩ := value_types_fit r i hi
  refine ⟨j, hj, fun x hx => ?_, fun x hx => ?_⟩ <;> rw [asked_eq r i j hi hj v hv, hx]

example : Fits vecErr vecTy ∧ outcome vecErr = .value vecErr ∧ (reply vecTy).isSome = true := ⟨trivial, rfl, rfl⟩

/-- **C79** Converting a reply panics exactly for a marker that says somebody else answers: a `DelegatedReply`, or a
`ForwardedReply` whose message was accepted. -/
theorem conversion_panics_iff (r : RT) (i : Impl) (hi : reply r = some i) (v : Val) (hv : Fits v r) :
    ∃ j, reply i.value = some j ∧ (asked i j v = .panic ↔ v = .marker ∨ v = .fwd none) := by
  obtain ⟨j, hj, -⟩ := value_types_fit r i hi
  refine ⟨j, hj, ?_⟩
  rw [asked_eq r i j hi hj v hv]
  cases v with
  | fwd x => cases x <;> simp [outcome]
  | _ => simp [outcome]

example : (reply (.delegated vecTy)).map (fun i => i.intoValue .marker matches .panic) = some true := by decide

/-- **C79** `to_result`, `src/reply.rs` L91-92, which is public, says the same: a value, an error, or a panic if somebody
else answers. -/
theorem to_result_says (r : RT) (i : Impl) (hi : reply r = some i) (v : Val) (hv : Fits v r) :
    (∀ x, outcome v = .value x → i.toResult v = .val (.ok x)) ∧
    (∀ x, outcome v = .error x → i.toResult v = .val (.error x)) ∧
    (outcome v = .elsewhere → i.toResult v = .panic) := by
  cases r with
  | result t e =>
    simp only [reply, Option.some.injEq] at hi; subst hi
    cases v <;> simp [Fits] at hv <;> simp [resultImpl, outcome]
  | delegated r =>
    simp only [reply, Option.map_eq_some_iff] at hi
    obtain ⟨i', h', rfl⟩ := hi
    cases v <;> simp [Fits] at hv
    simp [delegatedImpl, outcome]
  | forwarded m r =>
    simp only [reply, Option.map_eq_some_iff] at hi
    obtain ⟨i', h', rfl⟩ := hi
    cases v with
    | fwd x => cases x <;> simp [forwardedImpl, outcome]
    | _ => simp [Fits] at hv
  | _ =>
    simp only [reply] at hi
    split at hi
    · simp only [Option.some.injEq] at hi; subst hi
      cases v <;> simp [Fits] at hv <;> simp [plainImpl, outcome]
    · simp at hi

example : Fits (.fwd (some (.data 4 []))) (.forwarded (.user 1) vecTy) ∧ Fits vecErr vecTy ∧
    (reply (.forwarded (.user 1) vecTy)).isSome = true ∧ (reply vecTy).isSome = true := ⟨trivial, trivial, by decide, by decide⟩

/-- **C79** After a told message `on_panic` hears of an error exactly if the returned value says one, and of that
one. An error further inside of the value is data, in whatever type it is. -/
theorem told_error_iff (r : RT) (i : Impl) (hi : reply r = some i) (v : Val) (hv : Fits v r) (x : Val) :
    told i v = some x ↔ outcome v = .error x := by
  cases r with
  | result t e =>
    simp only [reply, Option.some.injEq] at hi; subst hi
    cases v <;> simp [Fits] at hv <;> simp [told, resultImpl, outcome]
  | delegated r =>
    simp only [reply, Option.map_eq_some_iff] at hi
    obtain ⟨i', h', rfl⟩ := hi
    cases v <;> simp [Fits] at hv
    simp [told, delegatedImpl, outcome]
  | forwarded m r =>
    simp only [reply, Option.map_eq_some_iff] at hi
    obtain ⟨i', h', rfl⟩ := hi
    cases v with
    | fwd x => cases x <;> simp [told, forwardedImpl, outcome]
    | _ => simp [Fits] at hv
  | _ =>
    simp only [reply] at hi
    split at hi
    · simp only [Option.some.injEq] at hi; subst hi
      cases v <;> simp [Fits] at hv <;> simp [told, plainImpl, outcome]
    · simp at hi

example : (reply (.result (.con "u8") (.con "String"))).map (fun i => told i (.err (.data 3 []))) =
    some (some (.data 3 [])) := rfl

/-- **C79** A collection, box, tuple or derived type full of errors is no error: nobody's `on_panic` hears of it. -/
theorem errors_inside_are_data (r : RT) (i : Impl) (hi : reply r = some i) (n : Nat) (parts : List Val)
    (hv : Fits (.data n parts) r) : told i (.data n parts) = none := by
  cases h : told i (.data n parts) with
  | none => rfl
  | some x =>
    have := (told_error_iff r i hi _ hv x).mp h
    simp [outcome] at this

example : (reply vecTy).map (fun i => told i vecErr) = some none := rfl

/-- The type of tuples with the given components. -/
def tupleTy (ts : List RT) : RT := ts.foldl .app (.con "tuple")

theorem covered_foldl (ts : List RT) (f : RT) (n : Nat) : covered (ts.foldl .app f) n = covered f (n + ts.length) := by
  induction ts generalizing f n with
  | nil => rfl
  | cons t ts ih =>
    rw [List.foldl_cons, ih, covered, List.length_cons]
    congr 1

theorem reply_foldl (ts : List RT) (name : String) :
    (reply (ts.foldl .app (.con name))).isSome = covered (.con name) ts.length := by
  have hp : ∀ (ts : List RT) (f : RT), (∃ g x, f = .app g x) ∨ (∃ m, f = .con m) →
      (∃ g x, ts.foldl RT.app f = .app g x) ∨ (∃ m, ts.foldl RT.app f = .con m) := by
    intro ts
    induction ts with
    | nil => intro f h; exact h
    | cons t ts ih => intro f _; exact ih _ (.inl ⟨_, _, rfl⟩)
  have hr : reply (ts.foldl .app (.con name)) =
      if covered (ts.foldl .app (.con name)) 0 then some (plainImpl (ts.foldl .app (.con name))) else none := by
    rcases hp ts (.con name) (.inr ⟨_, rfl⟩) with ⟨g, x, h⟩ | ⟨m, h⟩ <;> rw [h] <;> rfl
  rw [hr, covered_foldl, Nat.zero_add]
  cases covered (.con name) ts.length <;> rfl

/-- **C79** Tuples are replies from one to 26 components, of whatever types; none with more. -/
theorem tuple_replies (ts : List RT) : (reply (tupleTy ts)).isSome = true ↔ 1 ≤ ts.length ∧ ts.length ≤ 26 := by
  unfold tupleTy
  rw [reply_foldl, covered, List.contains_iff_mem, List.mem_append]
  have hl : ∀ k, ("tuple", k) ∉ listed := by
    intro k h
    simp [listed] at h
  constructor
  · rintro (h | h)
    · exact absurd h (hl _)
    · simp only [tuples, List.mem_map, List.mem_range, Prod.mk.injEq, true_and] at h
      omega
  · intro h
    right
    simp only [tuples, List.mem_map, List.mem_range, Prod.mk.injEq, true_and]
    exact ⟨ts.length - 1, by omega, by omega⟩

example : (reply (tupleTy [.con "u8", .user 3])).isSome = true ∧ (reply (tupleTy (List.replicate 27 (.con "u8")))).isSome = false := by
  decide

/-- The types and type constructors with `n` arguments that are replies, the tuples apart. (Specification.) -/
def replyNames : Nat → List String
  | 0 => ["()", "bool", "char", "u8", "u16", "u32", "u64", "u128", "usize", "i8", "i16", "i32", "i64", "i128", "isize",
      "f32", "f64", "&'static str", "String", "&'static Path", "PathBuf",
      "NonZeroU8", "NonZeroU16", "NonZeroU32", "NonZeroU64", "NonZeroU128", "NonZeroUsize",
      "NonZeroI8", "NonZeroI16", "NonZeroI32", "NonZeroI64", "NonZeroI128", "NonZeroIsize",
      "AtomicBool", "AtomicU8", "AtomicU16", "AtomicU32", "AtomicU64", "AtomicUsize",
      "AtomicI8", "AtomicI16", "AtomicI32", "AtomicI64", "AtomicIsize", "Once", "Thread", "Semaphore", "Notify"]
  | 1 => ["Option", "Box", "Arc", "Cow", "Vec", "VecDeque", "LinkedList", "HashSet", "BTreeSet", "BinaryHeap",
      "[;N]", "&'static [;N]", "&'static []", "&'static mut", "Mutex", "RwLock", "OnceCell", "AtomicPtr",
      "mpsc::Sender", "mpsc::Receiver", "FuturesOrdered", "FuturesUnordered", "tokio::OnceCell", "tokio::Mutex",
      "tokio::RwLock", "tokio::mpsc::Sender", "tokio::mpsc::Receiver", "UnboundedSender", "UnboundedReceiver",
      "watch::Sender", "watch::Receiver", "broadcast::Sender", "broadcast::Receiver", "oneshot::Sender",
      "oneshot::Receiver"]
  | 2 => ["HashMap", "BTreeMap"]
  | _ => []

/-- **C79** Which types of libraries are replies, by name and number of arguments, whatever the arguments: a
constructor with the wrong number of arguments is none, and the arguments need not be replies themselves. -/
theorem library_replies (name : String) (ts : List RT) :
    (reply (ts.foldl .app (.con name))).isSome = true ↔
      name ∈ replyNames ts.length ∨ (name = "tuple" ∧ 1 ≤ ts.length ∧ ts.length ≤ 26) := by
  rw [reply_foldl, covered, List.contains_iff_mem, List.mem_append]
  have ht : (name, ts.length) ∈ tuples ↔ name = "tuple" ∧ 1 ≤ ts.length ∧ ts.length ≤ 26 := by
    simp only [tuples, List.mem_map, List.mem_range, Prod.mk.injEq]
    constructor
    · rintro ⟨a, h1, h2, h3⟩
      exact ⟨h2.symm, by omega, by omega⟩
    · rintro ⟨h1, h2, h3⟩
      exact ⟨ts.length - 1, by omega, h1.symm, by omega⟩
  rw [ht]
  apply or_congr _ Iff.rfl
  generalize ts.length = k
  have h1 : ∀ p ∈ listed, p.1 ∈ replyNames p.2 := by decide
  have h2 : ∀ k ∈ [0, 1, 2], ∀ n ∈ replyNames k, (n, k) ∈ listed := by decide
  constructor
  · intro h; exact h1 _ h
  · intro h
    refine h2 k ?_ name h
    match k, h with
    | 0, _ => simp
    | 1, _ => simp
    | 2, _ => simp
    | k + 3, h => simp [replyNames] at h

/-- `HashMap<u8, X>` is a reply although the type `X` is none; `Vec` with two arguments would be none. -/
example : (reply ([.con "u8", .user 3].foldl .app (.con "HashMap"))).isSome = true ∧ reply (.user 3) = none ∧
    (reply ([.con "u8", .user 3].foldl .app (.con "Vec"))).isSome = false := by decide

/-- **C79** A type with `#[derive(Reply)]` is a reply with whatever arguments: its value is the whole of it, and it is
never an error. -/
theorem derived_replies (n : Nat) (ts : List RT) :
    ∃ i, reply (ts.foldl .app (.derived n)) = some i ∧ i.ok = ts.foldl .app (.derived n) ∧
      i.value = ts.foldl .app (.derived n) ∧ i.err = .infallible ∧ (∀ v, i.toResult v = .val (.ok v)) ∧
      (∀ v, i.intoAnyErr v = none) ∧ ∀ v, i.intoValue v = .val v := by
  have hp : ∀ (ts : List RT) (f : RT), (∃ g x, f = .app g x) ∨ (∃ m, f = .derived m) →
      (∃ g x, ts.foldl RT.app f = .app g x) ∨ (∃ m, ts.foldl RT.app f = .derived m) := by
    intro ts
    induction ts with
    | nil => intro f h; exact h
    | cons t ts ih => intro f _; exact ih _ (.inl ⟨_, _, rfl⟩)
  have hr : reply (ts.foldl .app (.derived n)) =
      if covered (ts.foldl .app (.derived n)) 0 then some (plainImpl (ts.foldl .app (.derived n))) else none := by
    rcases hp ts (.derived n) (.inr ⟨_, rfl⟩) with ⟨g, x, h⟩ | ⟨m, h⟩ <;> rw [h] <;> rfl
  rw [hr, covered_foldl]
  exact ⟨_, rfl, rfl, rfl, rfl, fun _ => rfl, fun _ => rfl, fun _ => rfl⟩

example : (reply (.app (.derived 4) (.user 3))).map (fun i => told i (.err (.data 1 []))) = some none := rfl

/-- **C79** A type of the user's without `#[derive(Reply)]` is no reply, with whatever arguments; nor is a `SendError`
or the type without values. -/
theorem no_replies (f : RT) (hf : (∃ n, f = .user n) ∨ (∃ m e, f = .sendError m e) ∨ f = .infallible) (ts : List RT) :
    reply (ts.foldl .app f) = none := by
  have hp : ∀ (ts : List RT) (g : RT), (∃ h x, g = .app h x) → ∃ h x, ts.foldl RT.app g = .app h x := by
    intro ts
    induction ts with
    | nil => intro g h; exact h
    | cons t ts ih => intro g _; exact ih _ ⟨_, _, rfl⟩
  have hc : covered (ts.foldl .app f) 0 = false := by
    rw [covered_foldl]
    rcases hf with ⟨n, rfl⟩ | ⟨m, e, rfl⟩ | rfl <;> rfl
  cases ts with
  | nil =>
    rcases hf with ⟨n, rfl⟩ | ⟨m, e, rfl⟩ | rfl <;> rfl
  | cons t ts =>
    obtain ⟨h, x, he⟩ := hp ts (.app f t) ⟨_, _, rfl⟩
    rw [List.foldl_cons] at hc ⊢
    rw [he] at hc ⊢
    simp [reply, hc]

example : reply ([.con "u8"].foldl .app (.user 3)) = none ∧ (∃ n, RT.user 3 = .user n) := ⟨by decide, _, rfl⟩

/-- **C79** The documentation says that every type of the standard library is a reply. It is not so: `Duration`, for
one, is none, and no handler can return it without wrapping it. -/
theorem not_all_of_std : reply (.con "Duration") = none ∧ reply (.app (.con "Weak") (.con "u8")) = none ∧
    (reply (.app (.con "Option") (.con "Duration"))).isSome = true := by
  decide

/-- **C79** Nothing in the trait makes the types fit: with a handwritten implementation whose `Value` has another `Ok`
type the asker panics whenever the handler returns a value, with another `Error` type whenever it returns an
error; and the actor does not notice. -/
theorem handwritten_can_panic (i j : Impl) (v v' : Val) (hv : i.intoValue v = .val v') :
    (∀ x, j.toResult v' = .val (.ok x) → j.ok ≠ i.ok → asked i j v = .panic ∧ sendReply i j v ≠ .panic) ∧
    (∀ x, j.toResult v' = .val (.error x) → j.err ≠ i.err → asked i j v = .panic ∧ sendReply i j v ≠ .panic) := by
  refine ⟨fun x hx h => ?_, fun x hx h => ?_⟩ <;>
    simp [asked, sendReply, receive, hv, hx, h]

/-- A type whose replies are converted to `u8` on the way. -/
def odd : Impl := { plainImpl (.user 0) with value := .con "u8" }

example : odd.intoValue (.data 1 []) = .val (.data 1 []) ∧ (plainImpl (.con "u8")).ok ≠ odd.ok := ⟨rfl, by decide⟩

end Verif.Reply
