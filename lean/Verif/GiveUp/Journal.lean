/-
Property theorems for C97: what calls have done is what is to be seen in the world, no more, no less, in the order in which it was done,
and calls go on when what they wait for has come. The observations below are written down without the functions of the model.
-/
import Verif.GiveUp.Props

namespace Verif.GiveUp

/-- What the step adds to what calls have done. -/
def news (s : State) : Op → List Act
  | .call c k => ((s.step (.call c k)).did c).drop (s.did c).length
  | .go c ok => ((s.step (.go c ok)).did c).drop (s.did c).length
  | _ => []

/-- The command with whose effect the swarm is through in this step. -/
def carried (s : State) : Op → List Cmd
  | .serve i true _ => ((s.world.swarm.getD [])[i]?).toList.map (·.2)
  | _ => []

/-- Everything calls have done in a history, oldest first. -/
def journal (s : State) : List Op → List Act
  | [] => []
  | o :: os => news s o ++ journal (s.step o) os

/-- All commands with whose effect the swarm is through, oldest first. -/
def carriedAll (s : State) : List Op → List Cmd
  | [] => []
  | o :: os => carried s o ++ carriedAll (s.step o) os

/-- What the act puts into the mailbox of `a`. -/
def Act.into (a : Id) : Act → Option (Option Nat)
  | .push b m => if b = a then some m else none
  | _ => none

/-- Whether the act makes or removes the entry of `b` in the link set of `a`. -/
def Act.entry (a b : Id) : Act → Option Bool
  | .link x y => if (x = a ∧ y = b) ∨ (x = b ∧ y = a) then some true else none
  | .unlink x y => if (x = a ∧ y = b) ∨ (x = b ∧ y = a) then some false else none
  | .mark x y => if x = a ∧ y = b then some true else none
  | .unmark x y => if x = a ∧ y = b then some false else none
  | _ => none

/-- The actor the act spawns. -/
def Act.born : Act → Option Id
  | .spawn a => some a
  | _ => none

/-- What the command does to the entry of `a` in the link set of `b`, on the node of `b`. -/
def Cmd.entry (a b : Id) : Cmd → Option Bool
  | .link x y => if x = a ∧ y = b then some true else none
  | .unlink x y => if x = a ∧ y = b then some false else none
  | _ => none

/-- What the command does to the record of the name. -/
def Cmd.record (n : Nat) : Cmd → Option (Option Id)
  | .register a m => if m = n then some (some a) else none
  | .unregister m => if m = n then some none else none
  | _ => none

/-- The request the command delivers. -/
def Cmd.request : Cmd → Option (Id × Nat)
  | .send b m => some (b, m)
  | _ => none

/-- The last value written, `v` if none was. -/
def lastOr {α β : Type} (f : α → Option β) (v : β) : List α → β
  | [] => v
  | x :: xs => lastOr f ((f x).getD v) xs

theorem lastOr_append {α β : Type} (f : α → Option β) (v : β) (l l' : List α) :
    lastOr f v (l ++ l') = lastOr f (lastOr f v l) l' := by
  induction l generalizing v with
  | nil => rfl
  | cons x xs ih => exact ih _

/-- The world `w'` is `w` after these acts and these effects of commands. -/
structure Wrote (w w' : World) (l : List Act) (x : List Cmd) : Prop where
  box : ∀ a, w'.box a = w.box a ++ l.filterMap (Act.into a)
  links : ∀ a b, w'.links a b = lastOr (Act.entry a b) (w.links a b) l
  listed : ∀ a, w'.listed a = true ↔ w.listed a = true ∨ .list a ∈ l
  spawned : w'.spawned = w.spawned ++ l.filterMap Act.born
  far : ∀ a b, w'.far b a = lastOr (Cmd.entry a b) (w.far b a) x
  records : ∀ n, w'.records n = lastOr (Cmd.record n) (w.records n) x
  farBox : w'.farBox = w.farBox ++ x.filterMap Cmd.request

theorem wrote_refl (w : World) : Wrote w w [] [] :=
  ⟨fun a => by simp, fun a b => rfl, fun a => by simp, by simp, fun a b => rfl, fun n => rfl, by simp⟩

theorem Wrote.trans {w w' w'' : World} {l l' : List Act} {x x' : List Cmd} (h : Wrote w w' l x) (h' : Wrote w' w'' l' x') :
    Wrote w w'' (l ++ l') (x ++ x') := by
  refine ⟨fun a => ?_, fun a b => ?_, fun a => ?_, ?_, fun a b => ?_, fun n => ?_, ?_⟩
  · rw [h'.box, h.box]; simp
  · rw [h'.links, h.links, lastOr_append]
  · rw [h'.listed, h.listed]; simp [or_assoc]
  · rw [h'.spawned, h.spawned]; simp
  · rw [h'.far, h.far, lastOr_append]
  · rw [h'.records, h.records, lastOr_append]
  · rw [h'.farBox, h.farBox]; simp

theorem wrote_act (w : World) (c : Nat) (x : Act) : Wrote w (w.act c x) [x] [] := by
  refine ⟨fun a => ?_, fun a b => ?_, fun a => ?_, ?_, fun a b => ?_, fun n => ?_, ?_⟩ <;>
    cases x <;> simp [World.act, set, Act.into, lastOr, Act.entry, Act.born, enter, List.filterMap_cons] <;> grind

theorem wrote_carry (w : World) (x : Cmd) : Wrote w (w.carry x) [] [x] := by
  refine ⟨fun a => ?_, fun a b => ?_, fun a => ?_, ?_, fun a b => ?_, fun n => ?_, ?_⟩ <;>
    cases x <;> simp [World.carry, set, lastOr, Cmd.entry, Cmd.record, Cmd.request, enter] <;> grind

/-- What the state of call `c` was, and what was done since, which is all the world shows. -/
def Since (s t : State) (c : Nat) : Prop := ∃ l, t.did c = s.did c ++ l ∧ Wrote s.world t.world l []

theorem since_refl (s : State) (c : Nat) : Since s s c := ⟨[], by simp, wrote_refl _⟩

theorem since_act {s t : State} {c : Nat} (h : Since s t c) (x : Act) : Since s (t.act c x) c := by
  obtain ⟨l, h1, h2⟩ := h
  exact ⟨l ++ [x], by simp [State.act, set, h1], h2.trans (wrote_act t.world c x)⟩

theorem since_at {s t : State} {c : Nat} (h : Since s t c) (x : Status) : Since s (t.at c x) c := h

theorem since_go (s : State) (c : Nat) (ok : Bool) (k : Kind) (pc : Nat) : Since s (s.go c ok k pc) c := by
  unfold State.go State.ordered State.answered
  (repeat' split) <;> first
    | exact since_refl s c
    | exact since_at (since_refl s c) _
    | exact since_at (since_act (since_refl s c) _) _
    | exact since_at (since_act (since_act (since_refl s c) _) _) _

theorem since_call (s : State) (c : Nat) (k : Kind) : Since s (s.call c k) c := by
  unfold State.call
  (repeat' split) <;> first
    | exact since_refl s c
    | exact since_at (since_refl s c) _
    | exact since_at (since_act (since_refl s c) _) _

theorem Since.wrote {s t : State} {c : Nat} (h : Since s t c) : Wrote s.world t.world ((t.did c).drop (s.did c).length) [] := by
  obtain ⟨l, h1, h2⟩ := h
  rw [h1]
  simpa using h2

theorem wrote_step (s : State) (op : Op) : Wrote s.world (s.step op).world (news s op) (carried s op) := by
  cases op with
  | call c k =>
    show Wrote _ _ (((s.step (.call c k)).did c).drop (s.did c).length) []
    apply Since.wrote
    simp only [State.step]
    split
    · exact since_call s c k
    · exact since_refl s c
  | go c ok =>
    show Wrote _ _ (((s.step (.go c ok)).did c).drop (s.did c).length) []
    apply Since.wrote
    simp only [State.step]
    split
    · exact since_go s c ok _ _
    · exact since_refl s c
  | drop c =>
    show Wrote _ _ [] []
    simp only [State.step]
    split <;> exact wrote_refl _
  | serve i dn ok =>
    show Wrote _ _ [] _
    simp only [State.step]
    cases hq : s.world.swarm with
    | none => cases dn <;> simpa [carried, hq] using wrote_refl _
    | some q =>
      simp only
      cases hx : q[i]? with
      | none => cases dn <;> simpa [carried, hq, hx] using wrote_refl _
      | some p =>
        obtain ⟨c, x⟩ := p
        have h0 : Wrote s.world { s.world with swarm := some (q.eraseIdx i) } [] [] :=
          ⟨fun a => by simp, fun a b => rfl, fun a => by simp, by simp, fun a b => rfl, fun n => rfl, by simp⟩
        cases dn with
        | false => simpa [carried] using h0
        | true => simpa [carried, hq, hx] using h0.trans (wrote_carry _ x)
  | close a =>
    exact ⟨fun a => by simp [news, State.step], fun a b => rfl, fun a => by simp [news, State.step], by simp [news, State.step],
      fun a b => rfl, fun n => rfl, by simp [carried, State.step]⟩
  | boot =>
    exact ⟨fun a => by simp [news, State.step], fun a b => rfl, fun a => by simp [news, State.step], by simp [news, State.step],
      fun a b => rfl, fun n => rfl, by simp [carried, State.step]⟩

theorem wrote_exec (ops : List Op) (s : State) : Wrote s.world (ops.foldl State.step s).world (journal s ops) (carriedAll s ops) := by
  induction ops generalizing s with
  | nil => exact wrote_refl _
  | cons o os ih => exact (wrote_step s o).trans (ih _)

/-- **C97** The world is what calls have done and the swarm has carried out, nothing else, in the order in which it was done: the mailboxes
have accepted what was put into them, the link sets say what was last written, the registry and the spawned actors are those of
the acts, and the link sets, names and mailboxes elsewhere are what the commands made of them. -/
theorem world_is_what_was_done (ops : List Op) :
    (∀ a, (after ops).world.box a = (journal {} ops).filterMap (Act.into a)) ∧
    (∀ a b, (after ops).world.links a b = lastOr (Act.entry a b) false (journal {} ops)) ∧
    (∀ a, (after ops).world.listed a = true ↔ .list a ∈ journal {} ops) ∧
    (after ops).world.spawned = (journal {} ops).filterMap Act.born ∧
    (∀ a b, (after ops).world.far b a = lastOr (Cmd.entry a b) false (carriedAll {} ops)) ∧
    (∀ n, (after ops).world.records n = lastOr (Cmd.record n) none (carriedAll {} ops)) ∧
    (after ops).world.farBox = (carriedAll {} ops).filterMap Cmd.request := by
  have h := wrote_exec ops {}
  refine ⟨fun a => ?_, fun a b => h.links a b, fun a => ?_, ?_, fun a b => h.far a b, fun n => h.records n, ?_⟩
  · simpa [after] using h.box a
  · simpa [after] using h.listed a
  · simpa [after] using h.spawned
  · simpa [after] using h.farBox

/-- A link, a remote link, an unlink that is given up, and a name that is taken back. -/
def busy : List Op :=
  [.boot, .call 0 (.link 1 2), .go 0 true, .call 1 (.unlink 1 2), .drop 1, .call 2 (.linkRemote 1 9), .go 2 true, .go 2 true,
   .call 3 (.register 2 7), .go 3 true, .call 4 (.unregister 7), .serve 0 true true, .serve 0 true true, .serve 0 true true, .drop 3,
   .call 5 (.remote 9 40), .go 5 true, .serve 0 true false]

example : journal {} busy = [.link 1 2, .list 1, .mark 1 9, .order (.link 1 9), .order (.register 2 7), .order (.unregister 7),
      .order (.send 9 40)] ∧
    carriedAll {} busy = [.link 1 9, .register 2 7, .unregister 7, .send 9 40] ∧ (after busy).world.links 2 1 = true ∧
    (after busy).world.links 9 1 = false ∧ (after busy).world.far 9 1 = true ∧ (after busy).world.far 1 9 = false ∧
    (after busy).world.records 7 = none ∧ (after busy).world.farBox = [(9, 40)] := by decide

/-! ### Where an act comes from -/

theorem news_of {s : State} {op : Op} {x : Act} (h : x ∈ news s op) : ∃ c, x ∈ (s.step op).did c := by
  cases op <;> simp only [news] at h <;> first
    | exact ⟨_, List.mem_of_mem_drop h⟩
    | cases h

theorem did_kept (s : State) (op : Op) (c : Nat) : s.did c <+: (s.step op).did c := by
  cases op with
  | call d k =>
    simp only [State.step]
    split
    · by_cases hd : c = d
      · subst hd
        obtain ⟨l, h, _⟩ := since_call s c k
        exact ⟨l, h.symm⟩
      · rw [(call_other s d k hd).2]
        exact List.prefix_refl _
    · exact List.prefix_refl _
  | go d ok =>
    simp only [State.step]
    split
    · by_cases hd : c = d
      · subst hd
        obtain ⟨l, h, _⟩ := since_go s c ok _ _
        exact ⟨l, h.symm⟩
      · rw [(go_other s d ok _ _ hd).2]
        exact List.prefix_refl _
    · exact List.prefix_refl _
  | drop d => simp only [State.step]; split <;> exact List.prefix_refl _
  | serve i dn ok => simp only [State.step]; (repeat' split) <;> exact List.prefix_refl _
  | close a => exact List.prefix_refl _
  | boot => exact List.prefix_refl _

theorem did_kept_all (ops : List Op) (s : State) (c : Nat) : s.did c <+: (ops.foldl State.step s).did c := by
  induction ops generalizing s with
  | nil => exact List.prefix_refl _
  | cons o os ih => exact (did_kept s o c).trans (ih _)

theorem journal_of (ops : List Op) (s : State) {x : Act} (h : x ∈ journal s ops) : ∃ c, x ∈ (ops.foldl State.step s).did c := by
  induction ops generalizing s with
  | nil => cases h
  | cons o os ih =>
    rcases List.mem_append.mp h with h | h
    · obtain ⟨c, hc⟩ := news_of h
      exact ⟨c, (did_kept_all os _ c).subset hc⟩
    · exact ih _ h

/-- **C97** Everything that was done was done by a call that was made for it. With `world_is_what_was_done`: no message gets into a mailbox,
no link is made or removed, and nobody is listed or spawned, but by a call that asks for it. -/
theorem every_act_was_called_for (ops : List Op) (x : Act) (h : x ∈ journal {} ops) :
    ∃ c k, .call c k ∈ ops ∧ x ∈ k.whole := by
  obtain ⟨c, hc⟩ := journal_of ops {} h
  obtain ⟨k, h1, _, h2⟩ := did_made hc
  exact ⟨c, k, h1, h2⟩

example : Act.mark 1 9 ∈ journal {} busy ∧ .call 2 (.linkRemote 1 9) ∈ busy ∧ Act.mark 1 9 ∈ (Kind.linkRemote 1 9).whole := by decide

/-! ### Calls that are not given up -/

/-- The actor whose mailbox the call waits for, and the signal. -/
def Kind.puts : Kind → Option (Id × Option Nat)
  | .tell a m => some (a, some m)
  | .ask a m => some (a, some m)
  | .stop a => some (a, none)
  | _ => none

/-- **C97** A tell, an ask or a stop request that is not given up fails, with nothing done, if the mailbox is closed; and puts its signal at
the end of the mailbox if it is not, and then has returned with success, or, an ask, waits for the reply. -/
theorem mailbox_decides (ops : List Op) (c : Nat) (ok : Bool) (k : Kind) (a : Id) (m : Option Nat) (hk : k.puts = some (a, m))
    (h : (after ops).status c = .waiting k 0) :
    ((after ops).world.closed a = true → (after (ops ++ [.go c ok])).status c = .returned k false ∧
      (after (ops ++ [.go c ok])).world = (after ops).world) ∧
    ((after ops).world.closed a = false →
      ((after (ops ++ [.go c ok])).status c = .returned k true ∨
        (k = .ask a (m.getD 0) ∧ (after (ops ++ [.go c ok])).status c = .waiting k 1)) ∧
      (after (ops ++ [.go c ok])).world.box a = (after ops).world.box a ++ [m]) := by
  have hs : after (ops ++ [.go c ok]) = (after ops).go c ok k 0 := by
    have : after (ops ++ [.go c ok]) = (after ops).step (.go c ok) := by simp [after]
    rw [this]
    simp only [State.step, h]
  rw [hs]
  cases k <;> simp only [Kind.puts, Option.some.injEq, Prod.mk.injEq, reduceCtorEq] at hk <;> obtain ⟨rfl, rfl⟩ := hk <;>
    constructor <;> intro hc <;> simp [State.go, hc, State.at, State.act, World.act, set]

example : (after [.call 0 (.ask 1 10)]).status 0 = .waiting (.ask 1 10) 0 ∧
    (Kind.ask 1 10).puts = some (1, some 10) ∧ (after [.call 0 (.ask 1 10)]).world.closed 1 = false ∧
    (after [.call 0 (.ask 1 10), .close 1]).world.closed 1 = true := by decide

/-- The call waits for the swarm's answer. -/
def Kind.asksSwarm : Kind → Nat → Bool
  | .linkRemote _ _, 2 => true
  | .unlinkRemote _ _, 1 => true
  | .register _ _, 1 => true
  | .unregister _, 1 => true
  | .remote _ _, 1 => true
  | _, _ => false

/-- **C97** A call that is not given up goes on when what it waits for has come: it returns or comes to its next wait. Where it waits for the
swarm it stays until the swarm has answered, and returns what the swarm answered; only a `register` that went well has one more
wait, for the registry. -/
theorem calls_go_on (ops : List Op) (c : Nat) (ok : Bool) (k : Kind) (pc : Nat) (h : (after ops).status c = .waiting k pc) :
    (k.asksSwarm pc = false → (∃ r, (after (ops ++ [.go c ok])).status c = .returned k r) ∨
      (after (ops ++ [.go c ok])).status c = .waiting k (pc + 1)) ∧
    (k.asksSwarm pc = true → match (after ops).answer c with
      | none => (after (ops ++ [.go c ok])).status c = .waiting k pc
      | some r => (after (ops ++ [.go c ok])).status c = .returned k r ∨
        (r = true ∧ (∃ a n, k = .register a n) ∧ (after (ops ++ [.go c ok])).status c = .waiting k (pc + 1))) := by
  have hs : after (ops ++ [.go c ok]) = (after ops).go c ok k pc := by
    have : after (ops ++ [.go c ok]) = (after ops).step (.go c ok) := by simp [after]
    rw [this]
    simp only [State.step, h]
  have hf := after_fits ops c
  rw [h] at hf
  rw [hs]
  cases k <;> rcases pc with _ | _ | _ | pc <;> simp only [Fits, Kind.upTo, reduceCtorEq] at hf <;>
    simp only [Kind.asksSwarm, State.go, State.ordered, State.answered, reduceCtorEq, false_implies, true_implies, and_true, true_and] <;>
    (repeat' split) <;> simp_all [State.at, State.act, set]

example : (after [.boot, .call 0 (.register 1 7), .go 0 true, .serve 0 false false]).status 0 = .waiting (.register 1 7) 1 ∧
    (Kind.register 1 7).asksSwarm 1 = true ∧
    (after [.boot, .call 0 (.register 1 7), .go 0 true, .serve 0 false false]).answer 0 = some false := by decide

end Verif.GiveUp
