import Verif.Wire.Model
import Verif.ActorId.Props

/-
Property theorems about errors and stop reasons on the wire: C53.
-/

namespace Verif.Wire

open Verif.ActorId

variable {P E F : Type}

/-- Specification: in process `w'` the reason `r'` says what `r` says in process `w`: the same variants, and ids with
the same sequence number naming the same peer. What is said about panics is left to `R`. -/
inductive Says (R : Payload → Payload → Prop) (w w' : World P) : Reason P → Reason P → Prop where
  | normal : Says R w w' .normal .normal
  | killed : Says R w w' .killed .killed
  | panicked {p q : Payload} : R p q → Says R w w' (.panicked p) (.panicked q)
  | linkDied {i j : ActorID P} {r r' : Reason P} :
    i.seq = j.seq → i.peer.get w = j.peer.get w' → Says R w w' r r' → Says R w w' (.linkDied i r) (.linkDied j r')
  | peerDisconnected : Says R w w' .peerDisconnected .peerDisconnected

/-- The panic at the bottom of a chain of link deaths, if any. -/
def Reason.panic : Reason P → Option Payload
  | .panicked p => some p
  | .linkDied _ r => r.panic
  | _ => none

/-- The ids in a reason with the peers they name in process `w`. -/
def Reason.ids (w : World P) : Reason P → List (Nat × Option P)
  | .linkDied i r => (i.seq.val, i.peer.get w) :: r.ids w
  | _ => []

/-! ## Helper lemmas -/

theorem decId_encId (c : PeerCodec P) (p : P) (a : ActorID P) :
    ∃ q, a.peer.get (some p) = some q ∧ decId c (encId c (some p) a) = some ⟨a.seq, .peerId q⟩ := by
  have h := fromBytes_toBytes c (some p) a
  cases hq : a.peer.get (some p) with
  | none => cases ha : a.peer <;> simp [ha, PeerIdKind.get] at hq
  | some q =>
    refine ⟨q, rfl, ?_⟩
    simp only [hq] at h
    simp only [decId, encId, h]

/-- What one hop does. -/
def hop1 (p : P) : Reason P → Reason P
  | .panicked x => .panicked (.string x.display)
  | .linkDied i r => .linkDied ⟨i.seq, .peerId (match i.peer with | .isLocal => p | .peerId q => q)⟩ (hop1 p r)
  | .normal => .normal
  | .killed => .killed
  | .peerDisconnected => .peerDisconnected

theorem dec_enc (c : PeerCodec P) (p : P) (r : Reason P) :
    decReason c (encReason c (some p) r) = some (hop1 p r) := by
  induction r with
  | normal => simp [encReason, decReason, hop1]
  | killed => simp [encReason, decReason, hop1]
  | peerDisconnected => simp [encReason, decReason, hop1]
  | panicked x => simp [encReason, decReason, hop1, encPayload, decPayload]
  | linkDied i r ih =>
    obtain ⟨q, hq, hd⟩ := decId_encId c p i
    have : q = (match i.peer with | .isLocal => p | .peerId q => q) := by
      cases hp : i.peer <;> simp [hp, PeerIdKind.get] at hq <;> exact hq.symm
    simp only [encReason, decReason, hd, ih, hop1, this]

theorem hops_some (c : PeerCodec P) (ps : List P) (r : Reason P) :
    hops c ps r = some (ps.foldl (fun r p => hop1 p r) r) := by
  induction ps generalizing r with
  | nil => rfl
  | cons p ps ih => simp [hops, dec_enc, ih]

theorem Says.trans {R S T : Payload → Payload → Prop} {u v w : World P} {a b d : Reason P}
    (hT : ∀ x y z, R x y → S y z → T x z) (h : Says R u v a b) (h' : Says S v w b d) : Says T u w a d := by
  induction h generalizing d with
  | normal => cases h'; exact .normal
  | killed => cases h'; exact .killed
  | peerDisconnected => cases h'; exact .peerDisconnected
  | panicked hr => cases h' with | panicked hs => exact .panicked (hT _ _ _ hr hs)
  | linkDied h1 h2 _ ih =>
    cases h' with
    | linkDied g1 g2 g3 => exact .linkDied (h1.trans g1) (h2.trans g2) (ih g3)

/-- The message of a panic after it has been sent `n` times. -/
def sent : Nat → Payload → Payload
  | 0, x => x
  | n + 1, x => sent n (.string x.display)

theorem says_hop1 (p : P) (w : World P) (r : Reason P) :
    Says (fun x y => y = .string x.display) (some p) w r (hop1 p r) := by
  induction r with
  | normal => exact .normal
  | killed => exact .killed
  | peerDisconnected => exact .peerDisconnected
  | panicked x => exact .panicked rfl
  | linkDied i r ih =>
    refine .linkDied rfl ?_ ih
    cases hp : i.peer <;> simp [PeerIdKind.get]

theorem says_hops (c : PeerCodec P) (p : P) (ps : List P) (w : World P) (r r' : Reason P)
    (h : hops c (p :: ps) r = some r') : Says (fun x y => y = sent (ps.length + 1) x) (some p) w r r' := by
  rw [hops_some] at h
  cases h
  simp only [List.foldl_cons]
  induction ps generalizing p r with
  | nil => exact says_hop1 p w r
  | cons q qs ih =>
    simp only [List.foldl_cons, List.length_cons]
    refine Says.trans ?_ (says_hop1 p (some q) r) (ih q (hop1 p r))
    rintro x y z rfl rfl
    rfl

theorem Says.mono {R S : Payload → Payload → Prop} {u v : World P} {a b : Reason P}
    (h : Says R u v a b) (hRS : ∀ x y, a.panic = some x → R x y → S x y) : Says S u v a b := by
  induction h with
  | normal => exact .normal
  | killed => exact .killed
  | peerDisconnected => exact .peerDisconnected
  | panicked hr => exact .panicked (hRS _ _ rfl hr)
  | linkDied h1 h2 _ ih => exact .linkDied h1 h2 (ih hRS)

/-- The prefix `Display` puts before a message, `n` times. -/
def prefixes : Nat → String
  | 0 => ""
  | n + 1 => "panicked: " ++ prefixes n

theorem prefixes_succ' (n : Nat) : prefixes n ++ "panicked: " = prefixes (n + 1) := by
  induction n with
  | zero => rfl
  | succ n ih => rw [prefixes, String.append_assoc, ih]; rfl

theorem prefixes_length (n : Nat) : (prefixes n).length = 10 * n := by
  induction n with
  | zero => rfl
  | succ n ih =>
    rw [prefixes, String.length_append, ih]
    have : "panicked: ".length = 10 := by decide
    omega

theorem sent_str (n : Nat) (x : Payload) (s : String) (h : x.withStr = some s) :
    (sent n x).withStr = some (prefixes n ++ s) := by
  induction n generalizing x s with
  | zero => simpa [sent, prefixes] using h
  | succ n ih =>
    rw [sent, ih _ x.display rfl]
    rw [Payload.display, h]
    dsimp only
    rw [← String.append_assoc, prefixes_succ']

theorem sent_other (n k : Nat) : (sent (n + 1) (.other k)).withStr = some (prefixes n ++ "panicked") := by
  rw [sent, sent_str n _ _ rfl]
  rfl

/-! ## C53 -/

/-- A codec for the examples: a peer id is one byte. -/
def byteCodec : PeerCodec Byte where
  toBytes b := [b]
  fromBytes l := l.head?
  roundtrip _ := rfl
  nonempty _ := by simp

/-- **C53** (partial: nothing about panic messages). Whatever the reason and along however many nodes: it arrives,
with the same variants and the same ids naming the same peers, whichever node reads it. -/
theorem reason_survives_partial (c : PeerCodec P) (p : P) (ps : List P) (w : World P) (r : Reason P) :
    ∃ r', hops c (p :: ps) r = some r' ∧ Says (fun _ _ => True) (some p) w r r' := by
  refine ⟨_, hops_some c (p :: ps) r, ?_⟩
  exact (says_hops c p ps w r _ (hops_some c (p :: ps) r)).mono (fun _ _ _ _ => trivial)

/-- Concrete case: an actor died because a linked actor panicked with "boom"; the reason goes from node 1 to node 2
and from there to node 3. -/
example : hops byteCodec [1, 2] (.linkDied ⟨7, .isLocal⟩ (.linkDied ⟨8, .peerId 9⟩ (.panicked (.staticStr "boom")))) =
    some (.linkDied ⟨7, .peerId 1⟩ (.linkDied ⟨8, .peerId 9⟩ (.panicked (.string "panicked: panicked: boom")))) := by
  decide

/-- **C53** (partial: reasons without a panic). A reason without a panic arrives exactly. -/
theorem reason_without_panic_exact_partial (c : PeerCodec P) (p : P) (ps : List P) (w : World P) (r : Reason P)
    (h : r.panic = none) : ∃ r', hops c (p :: ps) r = some r' ∧ Says (fun _ _ => False) (some p) w r r' := by
  refine ⟨_, hops_some c (p :: ps) r, ?_⟩
  refine (says_hops c p ps w r _ (hops_some c (p :: ps) r)).mono ?_
  intro x y hx
  rw [h] at hx
  cases hx

example : (Reason.linkDied (P := Byte) ⟨7, .isLocal⟩ .killed).panic = none ∧
    hops byteCodec [1, 2] (.linkDied ⟨7, .isLocal⟩ .killed) = some (.linkDied ⟨7, .peerId 1⟩ .killed) := by
  decide

/-- **C53** (what happens to panic messages). After `n` hops a panic message has become the message with `"panicked: "`
put before it `n` times. -/
theorem panic_message_grows (c : PeerCodec P) (p : P) (ps : List P) (w : World P) (r : Reason P) :
    ∃ r', hops c (p :: ps) r = some r' ∧
      Says (fun x y => ∀ s, x.withStr = some s → y.withStr = some (prefixes (ps.length + 1) ++ s)) (some p) w r r' := by
  refine ⟨_, hops_some c (p :: ps) r, ?_⟩
  refine (says_hops c p ps w r _ (hops_some c (p :: ps) r)).mono ?_
  rintro x y - rfl s hs
  exact sent_str _ _ _ hs

example : hops byteCodec [1, 2, 3] (.panicked (.staticStr "boom")) =
      some (.panicked (.string "panicked: panicked: panicked: boom")) ∧
    prefixes 3 ++ "boom" = "panicked: panicked: panicked: boom" := by decide

/-- **C53** (what happens to panics that hold no string). They arrive as the string `"panicked"`, with `"panicked: "`
put before it for each further hop: the receiver takes them for panics with a message. -/
theorem panic_other_becomes_string (c : PeerCodec P) (p : P) (ps : List P) (w : World P) (r : Reason P) :
    ∃ r', hops c (p :: ps) r = some r' ∧
      Says (fun x y => ∀ k, x = .other k → y.withStr = some (prefixes ps.length ++ "panicked")) (some p) w r r' := by
  refine ⟨_, hops_some c (p :: ps) r, ?_⟩
  refine (says_hops c p ps w r _ (hops_some c (p :: ps) r)).mono ?_
  rintro x y - rfl k rfl
  exact sent_other _ _

/-- A panic with a number, over two hops. -/
example : hops byteCodec [1, 2] (.panicked (.other 5)) = some (.panicked (.string "panicked: panicked")) := by decide

theorem Says.panic {R : Payload → Payload → Prop} {u v : World P} {a b : Reason P} (h : Says R u v a b)
    (x : Payload) (hx : a.panic = some x) : ∃ y, b.panic = some y ∧ R x y := by
  induction h with
  | normal => cases hx
  | killed => cases hx
  | peerDisconnected => cases hx
  | panicked hr => cases hx; exact ⟨_, rfl, hr⟩
  | linkDied _ _ _ ih => exact ih hx

/-- **C53** (negation). A reason with a panic in it never arrives with the same message, be it sent once or more
often. -/
theorem panic_message_never_survives (c : PeerCodec P) (p : P) (ps : List P) (r r' : Reason P) (x : Payload)
    (hx : r.panic = some x) (h : hops c (p :: ps) r = some r') :
    ∃ y, r'.panic = some y ∧ y.withStr ≠ x.withStr := by
  obtain ⟨y, hy, rfl⟩ := (says_hops c p ps none r r' h).panic x hx
  refine ⟨_, hy, ?_⟩
  cases hs : x.withStr with
  | none =>
    cases x with
    | other k => rw [sent_other]; simp
    | staticStr s => cases hs
    | string s => cases hs
  | some s =>
    rw [sent_str _ _ _ hs]
    intro h
    have h := congrArg String.length (Option.some.inj h)
    rw [String.length_append, prefixes_length] at h
    omega

/-- The panic value 5, sent twice. -/
example : (Reason.linkDied ⟨7, .isLocal⟩ (.panicked (.other 5)) : Reason Byte).panic = some (.other 5) ∧
    hops byteCodec [1, 2] (.linkDied ⟨7, .isLocal⟩ (.panicked (.other 5))) =
      some (.linkDied ⟨7, .peerId 1⟩ (.panicked (.string "panicked: panicked"))) := by decide

/-! ### Errors -/

theorem rerr_hop (enc : E → Option Tree) (dec : Tree → Option E) (e : RErr E) (hio : ∀ x, e ≠ .io x)
    (he : ∀ x, e = .handlerError x → (enc x).bind dec = some x) : (e.enc enc).bind (RErr.dec dec) = some e := by
  cases e with
  | io x => exact absurd rfl (hio x)
  | handlerError x =>
    have h := he x rfl
    cases hx : enc x with
    | none => simp [hx] at h
    | some t => simp [hx] at h; simp [RErr.enc, RErr.dec, hx, h]
  | _ => simp [RErr.enc, RErr.dec]

/-- The bytes a handler error is sent as (`RemoteSendError<Vec<u8>>`, `src/remote/swarm.rs` L1307). -/
def encBytes (b : List Byte) : Option Tree := some (.bytes b)

def decBytes : Tree → Option (List Byte)
  | .bytes b => some b
  | _ => none

/-- **C53** (partial: all errors but `Io`). A remote send error arrives unchanged over any number of hops, if it is not
`Io` and the handler error in it, if any, survives a hop itself. -/
theorem error_survives_partial (enc : E → Option Tree) (dec : Tree → Option E) (n : Nat) (e : RErr E)
    (hio : ∀ x, e ≠ .io x) (he : ∀ x, e = .handlerError x → (enc x).bind dec = some x) :
    RErr.hops enc dec n e = some e := by
  induction n with
  | zero => rfl
  | succ n ih => rw [RErr.hops, rerr_hop enc dec e hio he]; exact ih

/-- Concrete case: an error with a payload, over three hops. -/
example : (∀ x : List Byte, (encBytes x).bind decBytes = some x) ∧
    RErr.hops encBytes decBytes 3 (.handlerError [1, 2]) = some (.handlerError [1, 2]) := ⟨fun _ => rfl, by decide⟩

example : RErr.hops encBytes decBytes 3 (.unknownMessage "Counter" "inc") = some (.unknownMessage "Counter" "inc") := by
  decide

/-- **C53** (negation). `Io` cannot be sent at all: it does not arrive. -/
theorem io_never_arrives (enc : E → Option Tree) (dec : Tree → Option E) (n : Nat) (x : Option String) :
    RErr.hops enc dec (n + 1) (.io x : RErr E) = none := by
  simp [RErr.hops, RErr.enc]

example : RErr.hops encBytes decBytes 1 (.io (some "refused")) = none := by decide

/-- **C53** (`map_err`). `map_err` changes nothing but the handler error: it is the only map that respects the
handler error and fixes each other variant. -/
theorem mapErr_spec (f : E → F) (e : RErr E) :
    (∀ x, e.mapErr f = .handlerError x ↔ ∃ y, e = .handlerError y ∧ x = f y) ∧
    (∀ (enc : E → Option Tree) (enc' : F → Option Tree), (∀ y, e ≠ .handlerError y) →
      (e.mapErr f).enc enc' = e.enc enc) := by
  constructor
  · intro x
    cases e <;> simp [RErr.mapErr, eq_comm]
  · intro enc enc' h
    cases e <;> first | rfl | exact absurd rfl (h _)

example : (RErr.handlerError 3 : RErr Nat).mapErr (· + 1) = .handlerError 4 ∧
    (RErr.mailboxFull : RErr Nat).mapErr (· + 1) = .mailboxFull := by decide

/-- **C53** (`flatten`). An error produced while handling a handler error replaces it, all others stay what they are:
an error wrapped once and flattened is itself, whichever way it is wrapped. -/
theorem flatten_spec (e : RErr E) :
    RErr.flatten (.handlerError e) = e ∧
    RErr.flatten (e.mapErr (fun x => RErr.handlerError x)) = e := by
  constructor
  · cases e <;> rfl
  · cases e <;> rfl

example : RErr.flatten (.handlerError (.serializeHandlerError "bad") : RErr (RErr Nat)) =
    .serializeHandlerError "bad" := by decide

end Verif.Wire
