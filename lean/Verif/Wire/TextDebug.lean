import Verif.Wire.PropsText

/-
What errors print with `{:?}` (`RemoteSendError`, `RegistryError`, `PanicError`), and what `BootstrapError` and
`ActorIDFromBytesError` print: C91. `src/error.rs` L328-407, L411-466, L753-773, L797-821. The derived implementations are those
of the standard library's `derive(Debug)` without `{:#?}`.

`{:?}` of a `str` is the standard library's, not part of /repo: `StrDebug` is what is assumed of it.
-/

namespace Verif.Wire

open Verif.ActorId Verif.Request

variable {P E F M N : Type}

/-- What is assumed of `Debug` of `str`, called at `src/error.rs` L764 and by the derived `Debug` at L413: the text is between
quotes and quotes in it are escaped, so that it can be seen where it ends. -/
structure StrDebug where
  text : String → String
  ends : ∀ a b (x y : List Char), (text a).toList ++ x = (text b).toList ++ y → a = b
  quoted : ∀ a, (text a).toList.head? = some '"'

/-- Escape a character (used for the example of a `StrDebug` only; the standard library escapes more). `src/error.rs` L764. -/
def escapeChar (c : Char) : List Char := if c = '"' ∨ c = '\\' then ['\\', c] else [c]

theorem escape_ends (a b x y : List Char)
    (h : a.flatMap escapeChar ++ '"' :: x = b.flatMap escapeChar ++ '"' :: y) : a = b := by
  induction a generalizing b with
  | nil =>
    cases b with
    | nil => rfl
    | cons d b =>
      simp only [List.flatMap_nil, List.nil_append, List.flatMap_cons, escapeChar] at h
      split at h
      · simp at h
      · rename_i hd; simp at h; exact absurd (Or.inl h.1.symm) hd
  | cons c a ih =>
    cases b with
    | nil =>
      simp only [List.flatMap_nil, List.nil_append, List.flatMap_cons, escapeChar] at h
      split at h
      · simp at h
      · rename_i hd; simp at h; exact absurd (Or.inl h.1) hd
    | cons d b =>
      simp only [List.flatMap_cons, escapeChar] at h
      split at h <;> split at h
      · simp at h; rw [h.1, ih b h.2]
      · rename_i hd; simp at h; exact absurd (Or.inr h.1.symm) hd
      · rename_i hd _; simp at h; exact absurd (Or.inr h.1) hd
      · simp at h; rw [h.1, ih b h.2]

/-- Text between quotes, with quotes and backslashes escaped: meets what is assumed of `src/error.rs` L764. -/
def plainQuotes : StrDebug where
  text a := String.ofList ('"' :: a.toList.flatMap escapeChar ++ ['"'])
  ends a b x y h := by
    simp only [String.toList_ofList, List.cons_append, List.append_assoc, List.cons.injEq, true_and] at h
    exact String.toList_inj.mp (escape_ends _ _ _ _ h)
  quoted a := by simp

/-- `Debug` of `RemoteSendError`, derived, `src/error.rs` L413-466; `s` is that of the handler's error and `o` that of
`std::io::Error`. -/
def RErr.debug (q : StrDebug) (s : E → String) (o : String → String) : RErr E → String
  | .actorNotRunning => "ActorNotRunning"
  | .actorStopped => "ActorStopped"
  | .unknownActor a => "UnknownActor { actor_remote_id: " ++ q.text a ++ " }"
  | .unknownMessage a m => "UnknownMessage { actor_remote_id: " ++ q.text a ++ ", message_remote_id: " ++ q.text m ++ " }"
  | .badActorType => "BadActorType"
  | .mailboxFull => "MailboxFull"
  | .replyTimeout => "ReplyTimeout"
  | .handlerError e => "HandlerError(" ++ s e ++ ")"
  | .serializeMessage e => "SerializeMessage(" ++ q.text e ++ ")"
  | .deserializeMessage e => "DeserializeMessage(" ++ q.text e ++ ")"
  | .serializeReply e => "SerializeReply(" ++ q.text e ++ ")"
  | .serializeHandlerError e => "SerializeHandlerError(" ++ q.text e ++ ")"
  | .deserializeHandlerError e => "DeserializeHandlerError(" ++ q.text e ++ ")"
  | .swarmNotBootstrapped => "SwarmNotBootstrapped"
  | .dialFailure => "DialFailure"
  | .networkTimeout => "NetworkTimeout"
  | .connectionClosed => "ConnectionClosed"
  | .unsupportedProtocols => "UnsupportedProtocols"
  | .io (some e) => "Io(Some(" ++ o e ++ "))"
  | .io none => "Io(None)"

/-- `Debug` of `RegistryError`, derived, `src/error.rs` L375-391. -/
def registryDebug : Swarm.RegErr → String
  | .swarmNotBootstrapped => "SwarmNotBootstrapped"
  | .badActorType => "BadActorType"
  | .quorumFailed q => "QuorumFailed { quorum: " ++ Nat.repr q ++ " }"
  | .timeout => "Timeout"

/-- `Debug` of `PanicError`, `src/error.rs` L753-773; `o` is that of a payload which is no string. -/
def Payload.debug (q : StrDebug) (o : Nat → String) : Payload → String
  | .staticStr s => "PanicError { err: " ++ q.text s ++ " }"
  | .string s => "PanicError { err: " ++ q.text s ++ " }"
  | .other n => "PanicError { err: " ++ o n ++ " }"

/-- `BootstrapError`, `src/error.rs` L328-340. Of the swarm only its text is kept, of the other two the texts as well:
`shown` is their `Display`, `debug` their `Debug`. -/
inductive BootErr where
  | alreadyBootstrapped (swarm : String)
  | behaviour (shown debug : String)
  | transport (shown debug : String)
  deriving DecidableEq, Repr

/-- `Display` of `BootstrapError`, `src/error.rs` L361-369. -/
def BootErr.text : BootErr → String
  | .alreadyBootstrapped _ => "swarm already bootstrapped"
  | .behaviour s _ => s
  | .transport s _ => s

/-- `Debug` of `BootstrapError`, `src/error.rs` L350-358. -/
def BootErr.debug : BootErr → String
  | .alreadyBootstrapped s => s
  | .behaviour _ d => d
  | .transport _ d => d

/-- `ActorIDFromBytesError`, `src/error.rs` L797-804; of libp2p's error only its text is kept. -/
inductive IdErr where
  | missingSequenceId
  | parsePeerId (shown : String)
  deriving DecidableEq, Repr

/-- `Display` of `ActorIDFromBytesError`, `src/error.rs` L813-821. -/
def IdErr.text : IdErr → String
  | .missingSequenceId => "missing instance ID"
  | .parsePeerId s => s

/-! ## Specification -/

/-- The two are the same error with the same details, where the details of a handler's error and of an `io::Error` are what these
print themselves. -/
inductive SameError (s : E → String) (o : String → String) : RErr E → RErr E → Prop where
  | same {x : RErr E} : SameError s o x x
  | handlerError {e e' : E} : s e = s e' → SameError s o (.handlerError e) (.handlerError e')
  | io {e e' : String} : o e = o e' → SameError s o (.io (some e)) (.io (some e'))

/-! ## Properties -/

private theorem text_inj (q : StrDebug) {a b : String} (h : (q.text a).toList = (q.text b).toList) : a = b :=
  q.ends a b [] [] (by rw [h])

/-- **C91** (`Debug` of `RemoteSendError`) — unlike what it displays, what it prints with `{:?}` is never ambiguous: two errors print
the same exactly if they are the same with the same details, whatever handler's errors print and whatever quotes there are in ids. -/
theorem remote_debug_iff (q : StrDebug) (s : E → String) (o : String → String) (x y : RErr E) :
    x.debug q s o = y.debug q s o ↔ SameError s o x y := by
  constructor
  · intro h
    have h := congrArg String.toList h
    cases x with
    | io e =>
      cases e <;> cases y with
      | io e' =>
        cases e' <;> unfold RErr.debug at h <;> simp [-String.toList_append, String.toList_append] at h
        all_goals first
          | exact .same
          | exact .io (String.toList_inj.mp h)
          | skip
      | _ => unfold RErr.debug at h; simp [String.toList_append] at h
    | _ =>
      cases y with
      | io e' => cases e' <;> unfold RErr.debug at h <;> simp [String.toList_append] at h
      | _ =>
        unfold RErr.debug at h
        simp only [String.toList_append, List.append_assoc] at h
        first
          | exact .same
          | (simp at h; done)
          | (simp at h; exact .handlerError (String.toList_inj.mp h))
          | (simp at h; rw [text_inj q h]; exact .same)
          | (simp only [List.append_cancel_left_eq] at h
             have h1 := q.ends _ _ _ _ h
             rw [h1, List.append_cancel_left_eq, List.append_cancel_left_eq] at h
             rw [h1, q.ends _ _ _ _ h]
             exact .same)
  · rintro (_ | h | h)
    · rfl
    · exact congrArg (fun t => "HandlerError(" ++ t ++ ")") h
    · exact congrArg (fun t => "Io(Some(" ++ t ++ "))") h

/-- An error of a handler that prints like another kind, and quotes in an id: all are told apart. -/
example : (RErr.replyTimeout : RErr String).debug plainQuotes id id = "ReplyTimeout" ∧
    (RErr.handlerError "ReplyTimeout").debug plainQuotes id id = "HandlerError(ReplyTimeout)" ∧
    (RErr.unknownActor "a\"b" : RErr String).debug plainQuotes id id = "UnknownActor { actor_remote_id: \"a\\\"b\" }" ∧
    ¬ SameError id id (RErr.unknownActor "a" : RErr String) (.unknownActor "b") := by
  refine ⟨by decide, by decide, by decide, ?_⟩
  generalize hx : (RErr.unknownActor "a" : RErr String) = x
  generalize hy : (RErr.unknownActor "b" : RErr String) = y
  rintro (_ | h | h)
  · rw [← hy] at hx
    exact absurd (RErr.unknownActor.inj hx) (by decide)
  · cases hx
  · cases hx

/-- **C91** (`Debug` of `RegistryError`) — two that print the same are the same, with the same quorum. -/
theorem registry_debug_inj (x y : Swarm.RegErr) (h : registryDebug x = registryDebug y) : x = y := by
  have h := congrArg String.toList h
  cases x <;> cases y <;> unfold registryDebug at h <;> simp only [String.toList_append, List.append_assoc] at h
  all_goals first
    | rfl
    | (simp at h; done)
    | (rw [repr_inj (String.toList_inj.mp (List.append_cancel_right (List.append_cancel_left h)))])

example : registryDebug (.quorumFailed 12) = "QuorumFailed { quorum: 12 }" := by decide

/-- **C91** (`Debug` of `PanicError`) — strings are shown, whichever kind of string was thrown: two panics with strings print the same
exactly if the strings are the same. One that is no string is not taken for a string unless it prints itself as one, and its own
text is shown. -/
theorem panic_debug_iff (q : StrDebug) (o : Nat → String) (x y : Payload) :
    x.debug q o = y.debug q o ↔
      match x, y with
      | .other n, .other m => o n = o m
      | .other n, y => y.withStr.map q.text = some (o n)
      | x, .other m => x.withStr.map q.text = some (o m)
      | x, y => x.withStr = y.withStr := by
  have key : ∀ a b p e : String, p ++ a ++ e = p ++ b ++ e ↔ a = b := by
    intro a b p e
    constructor
    · intro h
      have h := congrArg String.toList h
      simp only [String.toList_append, List.append_assoc, List.append_cancel_left_eq] at h
      exact String.toList_inj.mp (List.append_cancel_right h)
    · intro h; rw [h]
  have hq : ∀ a b, q.text a = q.text b ↔ a = b :=
    fun a b => ⟨fun h => text_inj q (by rw [h]), fun h => by rw [h]⟩
  cases x <;> cases y <;> unfold Payload.debug <;> rw [key] <;> simp [Payload.withStr, hq, eq_comm]

example : (Payload.staticStr "boom").debug plainQuotes (fun _ => "Any { .. }") = "PanicError { err: \"boom\" }" ∧
    (Payload.string "boom").debug plainQuotes (fun _ => "Any { .. }") = "PanicError { err: \"boom\" }" ∧
    (Payload.other 3).debug plainQuotes (fun _ => "Any { .. }") = "PanicError { err: Any { .. } }" := by decide

/-- **C91** (`Debug` and `Display` of `PanicError`) — where `Display` says no more than that there was a panic, `Debug` tells two
payloads apart that print differently. -/
theorem panic_debug_says_more (q : StrDebug) (o : Nat → String) (n m : Nat) (h : o n ≠ o m) :
    (Payload.other n).display = (Payload.other m).display ∧ (Payload.other n).debug q o ≠ (Payload.other m).debug q o :=
  ⟨rfl, fun hd => h ((panic_debug_iff q o (.other n) (.other m)).mp hd)⟩

example : (toString 3 : String) ≠ toString 4 := by decide

/-- **C91** (negation for `BootstrapError`) — `BehaviourError` and `Transport` print what they carry and nothing else: a behaviour error
can print like `AlreadyBootstrapped`, and like a transport error, and each kind with `{:?}` like each other. -/
theorem bootstrap_text_ambiguous (s d : String) :
    (BootErr.behaviour "swarm already bootstrapped" d).text = (BootErr.alreadyBootstrapped s).text ∧
    (BootErr.behaviour s d).text = (BootErr.transport s d).text ∧
    (BootErr.behaviour s d).debug = (BootErr.transport s d).debug ∧
    (BootErr.alreadyBootstrapped d).debug = (BootErr.behaviour s d).debug ∧
    BootErr.behaviour s d ≠ BootErr.transport s d := ⟨rfl, rfl, rfl, rfl, fun h => by cases h⟩

/-- **C91** (`BootstrapError`, part) — that a node is bootstrapped already is not mistaken where the errors carried do not say just
that. -/
theorem bootstrap_text_partial (x y : BootErr) (h : x.text = y.text)
    (hx : ∀ s d, x = .behaviour s d ∨ x = .transport s d → s ≠ "swarm already bootstrapped")
    (hy : ∀ s d, y = .behaviour s d ∨ y = .transport s d → s ≠ "swarm already bootstrapped") :
    (∃ s, x = .alreadyBootstrapped s) ↔ ∃ s, y = .alreadyBootstrapped s := by
  cases x <;> cases y <;> simp_all [BootErr.text]

example : (BootErr.behaviour "no transport" "NoTransport").text = "no transport" ∧
    (BootErr.alreadyBootstrapped "ActorSwarm { .. }").text = "swarm already bootstrapped" := by decide

/-- **C91** (`ActorIDFromBytesError`) — bytes too short for the number and a peer id that cannot be read print differently, unless
libp2p's error prints just that; errors of the latter kind print what libp2p says. -/
theorem id_error_text_iff (x y : IdErr) :
    x.text = y.text ↔ x = y ∨ (x = .missingSequenceId ∧ y = .parsePeerId "missing instance ID") ∨
      (y = .missingSequenceId ∧ x = .parsePeerId "missing instance ID") := by
  cases x <;> cases y <;> simp [IdErr.text, eq_comm]

example : IdErr.missingSequenceId.text = "missing instance ID" ∧
    (IdErr.parsePeerId "invalid multihash").text = "invalid multihash" := by decide

end Verif.Wire
