import Verif.Wire.Text
import Verif.Wire.Props

/-
Property theorems about what errors, stop reasons and ids print: C91.
-/

namespace Verif.Wire

open Verif.ActorId Verif.Request

variable {P E F M N : Type}

/-! ## Specification -/

/-- The two are errors of the same kind. -/
inductive SameKind : SendError M E → SendError N F → Prop where
  | actorNotRunning {m : M} {n : N} : SameKind (.actorNotRunning m) (.actorNotRunning n)
  | actorStopped : SameKind .actorStopped .actorStopped
  | mailboxFull {m : M} {n : N} : SameKind (.mailboxFull m) (.mailboxFull n)
  | handlerError {e : E} {f : F} : SameKind (.handlerError e) (.handlerError f)
  | timeout {m : Option M} {n : Option N} : SameKind (.timeout m) (.timeout n)

/-- The two reasons begin alike; nothing is said of the cause of a link's death. -/
inductive SameTop (w : World P) : Reason P → Reason P → Prop where
  | normal : SameTop w .normal .normal
  | killed : SameTop w .killed .killed
  | peerDisconnected : SameTop w .peerDisconnected .peerDisconnected
  | panicked {x y : Payload} : x.withStr = y.withStr → SameTop w (.panicked x) (.panicked y)
  | linkDied {i j : ActorID P} {r r' : Reason P} :
    i.seq = j.seq → i.peer.get w = j.peer.get w → SameTop w (.linkDied i r) (.linkDied j r')

/-! ## Helper lemmas -/

/-- The first `c` of a list is where it is. -/
theorem split_at {α : Type} {c : α} {l l' r r' : List α} (h : l ++ c :: r = l' ++ c :: r') (hl : c ∉ l) (hl' : c ∉ l') :
    l = l' ∧ r = r' := by
  induction l generalizing l' with
  | nil =>
    cases l' with
    | nil => exact ⟨rfl, by simpa using h⟩
    | cons a l' =>
      simp only [List.nil_append, List.cons_append, List.cons.injEq] at h
      exact absurd (h.1 ▸ List.mem_cons_self) hl'
  | cons a l ih =>
    cases l' with
    | nil =>
      simp only [List.nil_append, List.cons_append, List.cons.injEq] at h
      exact absurd (h.1 ▸ List.mem_cons_self) hl
    | cons b l' =>
      simp only [List.cons_append, List.cons.injEq] at h
      obtain ⟨h1, h2⟩ := ih h.2 (fun hm => hl (List.mem_cons_of_mem _ hm)) (fun hm => hl' (List.mem_cons_of_mem _ hm))
      exact ⟨by rw [h.1, h1], h2⟩

theorem comma_not_digit (n : Nat) : ',' ∉ (Nat.repr n).toList := by
  rw [Nat.repr_eq_ofList_toDigits, String.toList_ofList]
  intro h
  exact absurd (Nat.isDigit_of_mem_toDigits (by decide) (by decide) h) (by decide)

theorem not_letter (t : PeerText P) (p : P) (c : Char) (h : c.isAlphanum = false) : c ∉ (t.text p).toList := by
  intro hm
  have := t.letters p c hm
  rw [h] at this
  cases this

theorem repr_inj {n m : Nat} (h : Nat.repr n = Nat.repr m) : n = m := by
  rw [Nat.repr_eq_ofList_toDigits, Nat.repr_eq_ofList_toDigits] at h
  have h := congrArg String.toList h
  rw [String.toList_ofList, String.toList_ofList] at h
  have := congrArg (fun l => Nat.ofDigitChars 10 l 0) h
  simpa [Nat.ofDigitChars_ten_toDigits] using this

/-- What follows the comma in the text of an id. -/
theorem id_split {n m : Nat} {x y : List Char} (h : (Nat.repr n).toList ++ ',' :: x = (Nat.repr m).toList ++ ',' :: y) :
    n = m ∧ x = y := by
  obtain ⟨h1, h2⟩ := split_at h (comma_not_digit n) (comma_not_digit m)
  exact ⟨repr_inj (String.toList_inj.mp h1), h2⟩

/-- The text of a peer id, or `local`. -/
def peerOr (t : PeerText P) : Option P → List Char
  | some p => (t.text p).toList
  | none => "local".toList

theorem idText_toList (t : PeerText P) (w : World P) (a : ActorID P) :
    (idText t w a).toList = "ActorID(".toList ++ ((Nat.repr a.seq.val).toList ++ ',' :: (' ' ::
      peerOr t (a.peer.get w) ++ [')'])) := by
  unfold idText
  split <;> simp [*, peerOr]

theorem peer_or_local (t : PeerText P) {x y : Option P} {r r' : List Char}
    (h : peerOr t x ++ ')' :: r =
      peerOr t y ++ ')' :: r') : x = y ∧ r = r' := by
  have hno : ∀ z : Option P, ')' ∉ peerOr t z := by
    intro z
    cases z with
    | none => simp [peerOr]
    | some p => exact not_letter t p _ (by decide)
  obtain ⟨h1, h2⟩ := split_at h (hno x) (hno y)
  refine ⟨?_, h2⟩
  cases x with
  | none =>
    cases y with
    | none => rfl
    | some q => exact absurd ((show "local".toList = (t.text q).toList from h1) ▸ (by decide : 'l' ∈ "local".toList)) (t.noEll q)
  | some p =>
    cases y with
    | none => exact absurd ((show (t.text p).toList = "local".toList from h1) ▸ (by decide : 'l' ∈ "local".toList)) (t.noEll p)
    | some q => exact congrArg some (t.inj p q (String.toList_inj.mp h1))

theorem idText_inj (t : PeerText P) (w w' : World P) (a b : ActorID P) (x y : List Char)
    (h : (idText t w a).toList ++ x = (idText t w' b).toList ++ y) :
    (a.seq = b.seq ∧ a.peer.get w = b.peer.get w') ∧ x = y := by
  rw [idText_toList, idText_toList] at h
  simp only [List.append_assoc] at h
  replace h := List.append_cancel_left h
  simp only [List.append_assoc, List.cons_append, List.nil_append] at h
  obtain ⟨h1, h2⟩ := id_split h
  simp only [List.cons.injEq, true_and] at h2
  obtain ⟨h3, h4⟩ := peer_or_local t h2
  exact ⟨⟨Fin.ext h1, h3⟩, h4⟩

theorem idText_congr (t : PeerText P) {w w' : World P} {a b : ActorID P} (h1 : a.seq = b.seq)
    (h2 : a.peer.get w = b.peer.get w') : idText t w a = idText t w' b := by
  unfold idText
  rw [h1, h2]

theorem eq_iff [DecidableEq P] (w : World P) (a b : ActorID P) :
    ActorId.eq w a b = true ↔ a.seq = b.seq ∧ a.peer.get w = b.peer.get w := by
  simp [ActorId.eq]

theorem peerDebug_inj (t : PeerText P) {x y : Option P} {r r' : List Char}
    (h : (peerDebug t x).toList ++ ')' :: r = (peerDebug t y).toList ++ ')' :: r') : x = y ∧ r = r' := by
  cases x with
  | none =>
    cases y with
    | none => exact ⟨rfl, by simpa [peerDebug] using h⟩
    | some q => simp [peerDebug] at h
  | some p =>
    cases y with
    | none => simp [peerDebug] at h
    | some q =>
      simp only [peerDebug, String.toList_append, List.append_assoc, List.append_cancel_left_eq] at h
      obtain ⟨h1, h2⟩ := split_at (c := '"') h (not_letter t p _ (by decide)) (not_letter t q _ (by decide))
      refine ⟨congrArg some (t.inj p q (String.toList_inj.mp h1)), ?_⟩
      simpa using h2

theorem idDebug_inj (t : PeerText P) (w w' : World P) (a b : ActorID P) (x y : List Char)
    (h : (idDebug t w a).toList ++ x = (idDebug t w' b).toList ++ y) :
    (a.seq = b.seq ∧ a.peer.get w = b.peer.get w') ∧ x = y := by
  simp only [idDebug, String.toList_append, List.append_assoc, List.append_cancel_left_eq] at h
  obtain ⟨h1, h2⟩ := id_split h
  have h2 : (peerDebug t (a.peer.get w)).toList ++ ')' :: x = (peerDebug t (b.peer.get w')).toList ++ ')' :: y := by
    simpa using h2
  obtain ⟨h3, h4⟩ := peerDebug_inj t h2
  exact ⟨⟨Fin.ext h1, h3⟩, h4⟩

/-! ## C91 -/

/-- Peer ids for the examples. -/
def twoPeers : PeerText Bool where
  text b := if b then "QmA" else "QmB"
  inj := by decide
  letters := by decide
  noEll := by decide

/-- **C91** (ids). Two ids print the same exactly if they are equal in this process: `Display` and `Debug`. -/
theorem id_text_iff_eq [DecidableEq P] (t : PeerText P) (w : World P) (a b : ActorID P) :
    (idText t w a = idText t w b ↔ ActorId.eq w a b = true) ∧ (idDebug t w a = idDebug t w b ↔ ActorId.eq w a b = true) := by
  refine ⟨⟨fun h => ?_, fun h => ?_⟩, fun h => ?_, fun h => ?_⟩
  · exact (eq_iff w a b).mpr (idText_inj t w w a b [] [] (by rw [h])).1
  · obtain ⟨h1, h2⟩ := (eq_iff w a b).mp h
    exact idText_congr t h1 h2
  · exact (eq_iff w a b).mpr (idDebug_inj t w w a b [] [] (by rw [h])).1
  · obtain ⟨h1, h2⟩ := (eq_iff w a b).mp h
    unfold idDebug
    rw [h1, h2]

example : idText twoPeers (some true) ⟨7, .isLocal⟩ = "ActorID(7, QmA)" ∧
    ActorId.eq (some true) (⟨7, .isLocal⟩ : ActorID Bool) ⟨7, .peerId true⟩ = true ∧
    idText twoPeers none ⟨7, .isLocal⟩ = "ActorID(7, local)" ∧
    idDebug twoPeers (some true) ⟨7, .peerId false⟩ = "ActorID(7, Some(PeerId(\"QmB\")))" := by
  refine ⟨by decide, by decide, by decide, by decide⟩

/-- **C91** (ids, negation). What the id of a local actor prints changes when the swarm is bootstrapped; what an id with a
peer prints does not. -/
theorem id_text_changes (t : PeerText P) (p : P) (a : ActorID P) :
    idText t none a = idText t (some p) a ↔ a.peer ≠ .isLocal := by
  constructor
  · intro h hl
    have := (idText_inj t none (some p) a a [] [] (by rw [h])).1.2
    rw [hl] at this
    cases this
  · intro h
    refine idText_congr t rfl ?_
    cases hp : a.peer with
    | isLocal => exact absurd hp h
    | peerId q => rfl

example : idText twoPeers none ⟨7, .isLocal⟩ ≠ idText twoPeers (some true) ⟨7, .isLocal⟩ := by decide

/-- **C91** (`SendError`; partial: handler's errors that print what the others print are left out). Two errors print the same
only if they are of the same kind, whatever the types of their messages; and those of the same kind do, but for what the
handler's errors print. -/
theorem send_text_partial (s : E → String) (x : SendError M E) (y : SendError N E)
    (hx : ∀ e, x = .handlerError e → s e ∉ ["actor not running", "actor stopped", "mailbox full", "timeout"])
    (hy : ∀ e, y = .handlerError e → s e ∉ ["actor not running", "actor stopped", "mailbox full", "timeout"]) :
    sendText s x = sendText s y ↔
      SameKind x y ∧ ∀ e f, x = .handlerError e → y = .handlerError f → s e = s f := by
  cases x with
  | handlerError e =>
    have h := hx e rfl
    simp only [List.mem_cons, List.not_mem_nil, not_or, or_false] at h
    obtain ⟨h1, h2, h3, h4⟩ := h
    cases y with
    | handlerError f =>
      constructor
      · intro h
        refine ⟨.handlerError, ?_⟩
        rintro _ _ ⟨⟩ ⟨⟩
        exact h
      · exact fun h => h.2 e f rfl rfl
    | actorNotRunning n => exact ⟨fun h => absurd h h1, fun h => nomatch h.1⟩
    | actorStopped => exact ⟨fun h => absurd h h2, fun h => nomatch h.1⟩
    | mailboxFull n => exact ⟨fun h => absurd h h3, fun h => nomatch h.1⟩
    | timeout n => exact ⟨fun h => absurd h h4, fun h => nomatch h.1⟩
  | _ =>
    cases y with
    | handlerError f =>
      have h := hy f rfl
      simp only [List.mem_cons, List.not_mem_nil, not_or, or_false] at h
      obtain ⟨h1, h2, h3, h4⟩ := h
      refine ⟨fun h => ?_, fun h => nomatch h.1⟩
      first
      | exact absurd h.symm h1
      | exact absurd h.symm h2
      | exact absurd h.symm h3
      | exact absurd h.symm h4
    | _ =>
      constructor
      · intro h
        first
        | exact ⟨.actorNotRunning, fun _ _ h => nomatch h⟩
        | exact ⟨.actorStopped, fun _ _ h => nomatch h⟩
        | exact ⟨.mailboxFull, fun _ _ h => nomatch h⟩
        | exact ⟨.timeout, fun _ _ h => nomatch h⟩
        | exact absurd h (by simp [sendText])
      · intro h
        first
        | rfl
        | exact nomatch h.1

/-- A full mailbox and a stopped actor; a handler's error that prints "boom". -/
example : sendText (M := Nat) (E := String) id (.mailboxFull 3) = "mailbox full" ∧
    sendText (M := Nat) (E := String) id .actorStopped ≠ sendText (M := Unit) id (.mailboxFull ()) ∧
    sendText (M := Nat) id (.handlerError "boom") = "boom" ∧
    "boom" ∉ ["actor not running", "actor stopped", "mailbox full", "timeout"] := by decide

/-- **C91** (`SendError`, negation). A handler's error is taken for an error of another kind exactly if it prints one of these
four texts, which nothing keeps it from. -/
theorem handler_error_looks_like [Inhabited M] (s : E → String) (e : E) :
    (∃ y : SendError M E, ¬ SameKind (.handlerError e : SendError M E) y ∧ sendText s (.handlerError e : SendError M E) = sendText s y) ↔
      s e ∈ ["actor not running", "actor stopped", "mailbox full", "timeout"] := by
  simp only [List.mem_cons, List.not_mem_nil, or_false]
  constructor
  · rintro ⟨y, hy, h⟩
    cases y with
    | handlerError f => exact absurd .handlerError hy
    | actorNotRunning m => exact .inl h
    | actorStopped => exact .inr (.inl h)
    | mailboxFull m => exact .inr (.inr (.inl h))
    | timeout m => exact .inr (.inr (.inr h))
  · rintro (h | h | h | h)
    · exact ⟨.actorNotRunning default, (fun h => nomatch h), h⟩
    · exact ⟨.actorStopped, (fun h => nomatch h), h⟩
    · exact ⟨.mailboxFull default, (fun h => nomatch h), h⟩
    · exact ⟨.timeout none, (fun h => nomatch h), h⟩

example : sendText (M := Nat) (E := String) id (.handlerError "timeout") = sendText id (.timeout (some 1)) := by decide

/-- **C91** (`SendError`, `Debug`; partial: not for handler's errors). `Debug` tells the kinds apart as well, and the messages
of the user need not have it. -/
theorem send_debug_partial (s : E → String) (x : SendError M E) (y : SendError N E)
    (hx : ∀ e, x ≠ .handlerError e) (hy : ∀ e, y ≠ .handlerError e) :
    sendDebug s x = sendDebug s y ↔ SameKind x y := by
  cases x <;> cases y <;> first
    | exact absurd rfl (hx _)
    | exact absurd rfl (hy _)
    | exact ⟨fun _ => .actorNotRunning, fun _ => rfl⟩
    | exact ⟨fun _ => .actorStopped, fun _ => rfl⟩
    | exact ⟨fun _ => .mailboxFull, fun _ => rfl⟩
    | exact ⟨fun _ => .timeout, fun _ => rfl⟩
    | exact ⟨fun h => absurd h (by simp [sendDebug]), fun h => nomatch h⟩

example : sendDebug (M := Nat) (E := String) id (.mailboxFull 3) = "MailboxFull" ∧
    sendDebug (M := Nat) (E := String) id (.timeout none) ≠ sendDebug (M := Nat) id .actorStopped := by decide

/-- **C91** (`RemoteSendError`; partial: without handler's errors and errors of the network that bring their own text, and
where no message id contains a quote). Two errors that print the same are the same, with all their details. -/
theorem remote_text_partial (s : E → String) (x y : RErr E)
    (hx : ∀ e, x ≠ .handlerError e) (hy : ∀ e, y ≠ .handlerError e)
    (hxi : ∀ e, x ≠ .io (some e)) (hyi : ∀ e, y ≠ .io (some e))
    (hxq : ∀ a m, x = .unknownMessage a m → '\'' ∉ m.toList) (hyq : ∀ a m, y = .unknownMessage a m → '\'' ∉ m.toList)
    (h : x.text s = y.text s) : x = y := by
  have h := congrArg String.toList h
  cases x with
  | handlerError e => exact absurd rfl (hx e)
  | io e =>
    cases e with
    | some e => exact absurd rfl (hxi e)
    | none =>
      cases y with
      | handlerError e => exact absurd rfl (hy e)
      | io e =>
        cases e with
        | some e => exact absurd rfl (hyi e)
        | none => rfl
      | unknownMessage a m => unfold RErr.text at h; simp only [String.toList_append, List.append_assoc] at h; simp at h
      | _ => unfold RErr.text at h; simp at h
  | unknownMessage a m =>
    cases y with
    | handlerError e => exact absurd rfl (hy e)
    | io e =>
      cases e with
      | some e => exact absurd rfl (hyi e)
      | none => unfold RErr.text at h; simp only [String.toList_append, List.append_assoc] at h; simp at h
    | unknownMessage a' m' =>
      unfold RErr.text at h
      simp only [String.toList_append, List.append_assoc] at h
      simp at h
      obtain ⟨h1, h2⟩ := split_at (c := '\'') h (hxq a m rfl) (hyq a' m' rfl)
      have h2 : a.toList ++ ['\''] = a'.toList ++ ['\''] := by simpa using h2
      rw [String.toList_inj.mp h1, String.toList_inj.mp (List.append_cancel_right h2)]
    | _ => unfold RErr.text at h; simp only [String.toList_append, List.append_assoc] at h; simp at h
  | _ =>
    cases y with
    | handlerError e => exact absurd rfl (hy e)
    | io e =>
      cases e with
      | some e => exact absurd rfl (hyi e)
      | none => unfold RErr.text at h; simp at h
    | unknownMessage a m => unfold RErr.text at h; simp only [String.toList_append, List.append_assoc] at h; simp at h
    | _ => unfold RErr.text at h; (simp at h) <;> first | rfl | simp [String.toList_inj.mp h]

/-- A message id without a quote; an actor id may have one. -/
example : RErr.text (E := String) id (.unknownMessage "it's" "Inc") = "unknown message 'Inc' for actor 'it's'" ∧
    '\'' ∉ "Inc".toList ∧
    RErr.text (E := String) id (.serializeReply "x") ≠ RErr.text id (.serializeHandlerError "x") := by decide

/-- **C91** (`RemoteSendError`, negation). With quotes in the ids the text of an unknown message does not say which part is the
message's id and which the actor's: two different errors print the same. -/
theorem unknown_message_ambiguous (s : E → String) (x y z : String) :
    (RErr.unknownMessage z (x ++ "' for actor '" ++ y)).text s =
      (RErr.unknownMessage (y ++ "' for actor '" ++ z) x).text s ∧
    (RErr.unknownMessage z (x ++ "' for actor '" ++ y) : RErr E) ≠ RErr.unknownMessage (y ++ "' for actor '" ++ z) x := by
  constructor
  · unfold RErr.text
    simp only [String.append_assoc]
  · intro h
    have h := congrArg String.length (RErr.unknownMessage.inj h).1
    simp only [String.length_append] at h
    have : "' for actor '".length = 13 := by decide
    omega

/-- Specification: an error of the network with a text of its own, or a handler's error, prints that text. -/
example : RErr.text (E := String) id (.io (some "timeout")) = RErr.text id .replyTimeout ∧
    RErr.text (E := String) id (.handlerError "network timeout") = RErr.text id .networkTimeout ∧
    RErr.text (E := String) id (.unknownMessage "c" "a' for actor 'b") = "unknown message 'a' for actor 'b' for actor 'c'" := by
  decide

/-- **C91** (conversions of `SendError`). Mapping the message or the error, flattening, boxing and taking out of the box
do not change what an error prints, if the handler's error prints the same before and after. -/
theorem send_conversions_keep_text (s : E → String) (f : M → N) (g : F → E) (x : SendError M F)
    (y : SendError M (SendError M E)) :
    sendText (s ∘ g) (x.mapMsg f) = sendText (s ∘ g) x ∧
    sendText s (x.mapErr g) = sendText (s ∘ g) x ∧
    sendText s y.flatten = sendText (sendText s) y ∧
    sendDebug (s ∘ g) (x.mapMsg f) = sendDebug (s ∘ g) x ∧
    sendDebug s (x.mapErr g) = sendDebug (s ∘ g) x ∧
    sendDebug s y.flatten = sendDebug (sendDebug s) y := by
  refine ⟨by cases x <;> rfl, by cases x <;> rfl, ?_, by cases x <;> rfl, by cases x <;> rfl, ?_⟩ <;>
  · cases y with
    | handlerError e => cases e <;> rfl
    | _ => rfl

example : sendText (M := Nat) (E := String) id (SendError.flatten (.handlerError (.timeout (some 3)))) = "timeout" ∧
    sendText (M := Nat) (E := SendError Nat String) (sendText id) (.handlerError (.timeout (some 3))) = "timeout" := by decide

/-- **C91** (boxed errors). What a boxed error prints is what the error prints, and taken out of the box it prints that again:
also where it turns out to be of another type and the box is given back. -/
theorem boxed_keeps_text (d : Dyn → String) (m e : Ty) (x : SendError m.Sem e.Sem) (b : BoxSendError) :
    sendText d (x.boxed m e) = sendText (fun v => d ⟨e, v⟩) x ∧
    (∀ y, tryDowncast m e b = .ok y → sendText (fun v => d ⟨e, v⟩) y = sendText d b) ∧
    ∀ b', tryDowncast m e b = .error b' → sendText d b' = sendText d b := by
  refine ⟨by cases x <;> rfl, ?_, ?_⟩
  · intro y hy
    cases b with
    | handlerError a =>
      simp only [tryDowncast] at hy
      split at hy
      · rename_i v hv
        cases hy
        unfold Dyn.downcast at hv
        split at hv
        · rename_i ht
          cases ht
          cases hv
          rfl
        · cases hv
      · cases hy
    | timeout a =>
      cases a with
      | none => simp only [tryDowncast] at hy; cases hy; rfl
      | some a => simp only [tryDowncast] at hy; split at hy <;> cases hy; rfl
    | actorStopped => simp only [tryDowncast] at hy; cases hy; rfl
    | actorNotRunning a => simp only [tryDowncast] at hy; split at hy <;> cases hy; rfl
    | mailboxFull a => simp only [tryDowncast] at hy; split at hy <;> cases hy; rfl
  · intro b' hb
    cases b with
    | timeout a =>
      cases a with
      | none => simp only [tryDowncast] at hb; cases hb
      | some a => simp only [tryDowncast] at hb; split at hb <;> cases hb; rfl
    | actorStopped => simp only [tryDowncast] at hb; cases hb
    | actorNotRunning a => simp only [tryDowncast] at hb; split at hb <;> cases hb; rfl
    | mailboxFull a => simp only [tryDowncast] at hb; split at hb <;> cases hb; rfl
    | handlerError a => simp only [tryDowncast] at hb; split at hb <;> cases hb; rfl

example : sendText (fun _ => "boxed") (SendError.boxed (.user 1) (.user 2) (.handlerError (5 : Nat))) = "boxed" ∧
    (match tryDowncast (.user 1) (.user 2) (.handlerError ⟨.user 2, (5 : Nat)⟩) with
      | .ok y => sendText (fun _ => "boxed") y = "boxed"
      | .error _ => False) := by
  exact ⟨rfl, rfl⟩

/-- **C91** (conversions to and of `RemoteSendError`). They do not change what an error prints either. -/
theorem remote_conversions_keep_text (s : E → String) (g : F → E) (x : SendError M E) (y : RErr F) (z : RErr (RErr E)) :
    (RErr.ofSend x).text s = sendText s x ∧ (y.mapErr g).text s = y.text (s ∘ g) ∧
    z.flatten.text s = z.text (fun e => e.text s) := by
  refine ⟨by cases x <;> rfl, ?_, ?_⟩
  · cases y with
    | io e => cases e <;> rfl
    | _ => rfl
  · cases z with
    | handlerError e =>
      cases e with
      | io e => cases e <;> rfl
      | _ => rfl
    | io e => cases e <;> rfl
    | _ => rfl

example : (RErr.ofSend (.timeout (some 3) : SendError Nat String)).text id = "timeout" ∧
    (RErr.flatten (.handlerError (.unknownActor "a")) : RErr String).text id = "unknown actor 'a'" := by decide

/-- **C91** (errors on the wire). However often an error is sent from node to node: if it arrives, it prints what it printed
where it was sent, provided the handler's errors do. -/
theorem error_text_survives (enc : E → Option Tree) (dec : Tree → Option E) (s : E → String)
    (hs : ∀ x y, (enc x).bind dec = some y → s y = s x) (n : Nat) (e e' : RErr E)
    (h : RErr.hops enc dec n e = some e') : e'.text s = e.text s := by
  induction n generalizing e with
  | zero => cases h; rfl
  | succ n ih =>
    simp only [RErr.hops] at h
    cases h1 : (e.enc enc).bind (RErr.dec dec) with
    | none => rw [h1] at h; cases h
    | some e1 =>
      rw [h1] at h
      rw [ih e1 h]
      cases e with
      | handlerError x =>
        simp only [RErr.enc] at h1
        cases hx : enc x with
        | none => rw [hx] at h1; cases h1
        | some tr =>
          rw [hx] at h1
          simp only [Option.map_some, Option.bind_some, RErr.dec] at h1
          cases hd : dec tr with
          | none => rw [hd] at h1; cases h1
          | some y =>
            rw [hd] at h1
            cases h1
            exact hs x y (by rw [hx]; exact hd)
      | io x => simp [RErr.enc] at h1
      | _ =>
        simp [RErr.enc, RErr.dec] at h1
        subst h1
        rfl

example : RErr.hops (E := String) (fun x => some (.str x)) (fun | .str x => some x | _ => none) 3
    (.unknownMessage "a" "m") = some (.unknownMessage "a" "m") := by decide

/-- **C91** (stop reasons). Two reasons print the same exactly if they begin alike: a panic prints its message, a link's death
the id of the actor that died and nothing about why it died. -/
theorem reason_text_iff (t : PeerText P) (w : World P) (r r' : Reason P) :
    r.text t w = r'.text t w ↔ SameTop w r r' := by
  have hd : ∀ x : Payload, x.display.toList = "panicked".toList ++
      (match x.withStr with | some s => ':' :: ' ' :: s.toList | none => []) := by
    intro x
    unfold Payload.display
    split <;> simp [*]
  constructor
  · intro h
    have h := congrArg String.toList h
    cases r with
    | normal => cases r' <;> unfold Reason.text at h <;> first | exact .normal | (simp [hd] at h)
    | killed => cases r' <;> unfold Reason.text at h <;> first | exact .killed | (simp [hd] at h)
    | peerDisconnected => cases r' <;> unfold Reason.text at h <;> first | exact .peerDisconnected | (simp [hd] at h)
    | panicked x =>
      cases r' with
      | panicked y =>
        refine .panicked ?_
        unfold Reason.text at h
        simp only [hd] at h
        replace h := List.append_cancel_left h
        cases hx : x.withStr <;> cases hy : y.withStr <;> simp [hx, hy] at h ⊢
        exact String.toList_inj.mp h
      | _ => unfold Reason.text at h; simp [hd] at h
    | linkDied i q =>
      cases r' with
      | linkDied j q' =>
        unfold Reason.text at h
        simp only [String.toList_append, List.append_assoc] at h
        replace h := List.append_cancel_left h
        obtain ⟨h1, h2⟩ := (idText_inj t w w i j _ _ h).1
        exact .linkDied h1 h2
      | _ => unfold Reason.text at h; simp [hd] at h
  · intro h
    cases h with
    | panicked hx => simp only [Reason.text, Payload.display, hx]
    | linkDied h1 h2 => simp only [Reason.text, idText_congr t h1 h2]
    | _ => rfl

/-- **C91** (stop reasons, negation). Why a linked actor died is not printed: two reasons with different causes print the
same. -/
theorem cause_not_printed (t : PeerText P) (w : World P) (i : ActorID P) (r r' : Reason P) (h : r ≠ r') :
    (Reason.linkDied i r).text t w = (Reason.linkDied i r').text t w ∧ Reason.linkDied i r ≠ Reason.linkDied i r' :=
  ⟨rfl, fun hh => h (Reason.linkDied.inj hh).2⟩

example : (Reason.linkDied ⟨7, .isLocal⟩ (.panicked (.staticStr "boom"))).text twoPeers (some true) = "link ActorID(7, QmA) died" ∧
    (Reason.linkDied ⟨7, .isLocal⟩ .killed).text twoPeers (some true) = "link ActorID(7, QmA) died" ∧
    (Reason.panicked (.staticStr "boom")).text twoPeers none = "panicked: boom" := by decide

/-- Specification: the two reasons are the same in process `w`, but for what panicked actors said. -/
abbrev SameShape (w : World P) : Reason P → Reason P → Prop := Says (fun _ _ => True) w w

/-- **C91** (stop reasons, `Debug`). Two reasons are the same in `Debug` exactly if they are the same down to the first cause,
but for what panicked actors said: `Debug` leaves out what `Display` tells, and tells what it leaves out. -/
theorem reason_debug_iff (t : PeerText P) (w : World P) (r r' : Reason P) :
    r.debug t w = r'.debug t w ↔ SameShape w r r' := by
  constructor
  · intro h
    induction r generalizing r' with
    | linkDied i q ih =>
      have h := congrArg String.toList h
      cases r' with
      | linkDied j q' =>
        unfold Reason.debug at h
        simp only [String.toList_append, List.append_assoc] at h
        replace h := List.append_cancel_left h
        obtain ⟨⟨h1, h2⟩, h3⟩ := idDebug_inj t w w i j _ _ h
        replace h3 := List.append_cancel_left h3
        exact .linkDied h1 h2 (ih q' (String.toList_inj.mp (List.append_cancel_right h3)))
      | _ => unfold Reason.debug at h; simp at h
    | normal =>
      have h := congrArg String.toList h
      cases r' <;> unfold Reason.debug at h <;> first | exact .normal | (simp at h)
    | killed =>
      have h := congrArg String.toList h
      cases r' <;> unfold Reason.debug at h <;> first | exact .killed | (simp at h)
    | peerDisconnected =>
      have h := congrArg String.toList h
      cases r' <;> unfold Reason.debug at h <;> first | exact .peerDisconnected | (simp at h)
    | panicked x =>
      have h := congrArg String.toList h
      cases r' <;> unfold Reason.debug at h <;> first | exact .panicked trivial | (simp at h)
  · intro h
    induction h with
    | linkDied h1 h2 _ ih =>
      unfold Reason.debug idDebug
      rw [h1, h2, ih]
    | _ => rfl

example : (Reason.linkDied ⟨7, .peerId false⟩ (.panicked (.staticStr "boom"))).debug twoPeers none =
    "LinkDied { id: ActorID(7, Some(PeerId(\"QmB\"))), reason: Panicked }" ∧
    (Reason.linkDied ⟨7, .peerId false⟩ .killed).debug twoPeers none =
    "LinkDied { id: ActorID(7, Some(PeerId(\"QmB\"))), reason: Killed }" := by decide

/-- **C91** (stop reasons on the wire). A reason that is not itself a panic prints at every node it is sent to what it printed
at the first; a panic prints one more `panicked: ` for each node. -/
theorem reason_text_on_the_wire (c : PeerCodec P) (t : PeerText P) (p : P) (ps : List P) (w : World P) (r r' : Reason P)
    (h : hops c (p :: ps) r = some r') :
    ((∀ x, r ≠ .panicked x) → r'.text t w = r.text t (some p)) ∧
    ∀ x, r = .panicked x → r'.text t w = prefixes (ps.length + 1) ++ r.text t (some p) := by
  have hs := says_hops c p ps w r r' h
  cases hs with
  | @panicked x y hx =>
    refine ⟨fun hn => absurd rfl (hn _), ?_⟩
    rintro _ ⟨⟩
    subst hx
    have hstr := sent_str ps.length (.string x.display) x.display rfl
    simp only [Reason.text]
    rw [sent, Payload.display, hstr]
    dsimp only
    rw [prefixes, String.append_assoc]
  | linkDied h1 h2 _ =>
    refine ⟨fun _ => ?_, fun x hx => nomatch hx⟩
    simp only [Reason.text]
    rw [idText_congr t h1 h2]
  | _ => exact ⟨fun _ => rfl, fun x hx => nomatch hx⟩

example : hops byteCodec [1, 2] (.panicked (.other 5)) = some (.panicked (.string "panicked: panicked")) ∧
    prefixes 2 ++ "panicked" = "panicked: panicked: panicked" := by decide

/-- **C91** (`RegistryError`). Two errors that print the same are the same, the size of the quorum included. -/
theorem registry_text_inj (x y : Swarm.RegErr) (h : registryText x = registryText y) : x = y := by
  have h := congrArg String.toList h
  cases x with
  | quorumFailed q =>
    cases y with
    | quorumFailed q' =>
      unfold registryText at h
      simp only [String.toList_append, List.append_assoc] at h
      replace h := List.append_cancel_right (List.append_cancel_left h)
      rw [repr_inj (String.toList_inj.mp h)]
    | _ => unfold registryText at h; simp at h
  | _ => cases y <;> unfold registryText at h <;> first | rfl | (simp at h)

example : registryText (.quorumFailed 12) = "the quorum failed; needed 12 peers" := by decide

end Verif.Wire
