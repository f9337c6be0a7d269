import Verif.Blocking.Model
import Verif.Request.Props

/-
Property theorems about the blocking methods and the spawn functions, by the place of the call (C88).
-/

namespace Verif.Blocking

open Verif.Mailbox Verif.Request

/-! ## Specification -/

/-- In this place a thread may be blocked: it is not polling the futures of a runtime. -/
def Ctx.MayBlock (c : Ctx) : Prop := c.driving = none

instance (c : Ctx) : Decidable c.MayBlock := inferInstanceAs (Decidable (c.driving = none))

/-- The code between the braces of an `async` function that tokio runs: the last way it came there is a task or a
`block_on`. -/
def Way.async : Way → Bool
  | .task => true
  | .blockOn _ => true
  | _ => false

/-! ## Helper lemmas -/

theorem block_may {c : Ctx} (h : c.MayBlock) {α : Type} (r : α) : c.block r = .val r := by
  unfold Ctx.MayBlock at h
  simp [Ctx.block, h]

theorem block_not {c : Ctx} (h : ¬ c.MayBlock) {α : Type} (r : α) : c.block r = .panic := by
  unfold Ctx.MayBlock at h
  cases hd : c.driving with
  | none => exact absurd hd h
  | some fl => simp [Ctx.block, hd]

theorem afterBlocking_may {c : Ctx} (h : c.MayBlock) (k : Kind) {ε β : Type} (r : Out (Except ε Unit))
    (next : Out (Except ε β)) : Call.afterBlocking c k r next = Call.after r next := by
  cases k <;> simp [Call.afterBlocking, block_may h]

theorem tell_cases (m : Ty) (x : m.Sem) (why : Option Why) :
    (why = none ∧ tell m x why = .val (.ok ())) ∨ (why ≠ none ∧ ∃ e, tell m x why = .val (.error e)) := by
  cases why with
  | none => exact .inl ⟨rfl, rfl⟩
  | some w =>
    refine .inr ⟨by simp, ?_⟩
    cases w <;> simp [tell, sendTry, tellMsg, askMsg, fromChannel, Signal.downcastMessage, Dyn.downcast, unwrap, Out.map]

theorem ask_cases (m e : Ty) (x : m.Sem) (ch : Nat) (why : Option Why) :
    (why = none ∧ ask m e x ch why = .val (.ok ())) ∨ (why ≠ none ∧ ∃ er, ask m e x ch why = .val (.error er)) := by
  cases why with
  | none => exact .inl ⟨rfl, rfl⟩
  | some w =>
    refine .inr ⟨by simp, ?_⟩
    cases w <;> simp [ask, sendTry, tellMsg, askMsg, fromChannel, Signal.downcastMessage, Dyn.downcast, unwrap, Out.map]

theorem go_async {c c' : Ctx} {w : Way} (hw : w.async = true) (h : c.go w = .val c') : ¬ c'.MayBlock := by
  unfold Ctx.MayBlock
  cases w <;> simp [Way.async] at hw <;> simp only [Ctx.go] at h <;> split at h <;>
    simp only [Out.val.injEq, reduceCtorEq] at h <;> subst h <;> simp

/-! ## C88 -/

/-- **C88** Where blocking is allowed, each blocking method does what the async one does: the same acceptance by the
mailbox, the same result; also the same links. -/
theorem blocking_is_async_partial (c : Ctx) (hc : c.MayBlock) (k : Kind) (m : Ty) (r : RTy) (t e : Ty) (x : m.Sem) (ch : Nat)
    (reply : Option Nat) (why : Option Why) (p : Option Packet) (l : LinkSet) (a b : Nat) :
    tellBlockingSend c k m x why = tellSend m x why ∧
    askBlockingSend c k m r x ch why p = askSend m r x ch why p ∧
    askBlockingEnqueue c k m x ch why = askEnqueue m x ch why ∧
    awaitedBlocking c m r p = awaited m r p ∧
    forwardBlocking c k m t e reply x why = forwardAsync m t e reply x why ∧
    blockingLink c l a b = (asyncLink l a b, .val ()) ∧
    blockingUnlink c l a b = (asyncUnlink l a b, .val ()) := by
  have hw : awaitedBlocking c m r p = awaited m r p := by simp [awaitedBlocking, block_may hc]
  refine ⟨afterBlocking_may hc k _ _, ?_, afterBlocking_may hc k _ _, hw, ?_, ?_, ?_⟩
  · unfold askBlockingSend askSend
    rw [afterBlocking_may hc, hw]
  · cases k <;> simp [forwardBlocking, block_may hc]
  · unfold blockingLink asyncLink
    split <;> simp [block_may hc]
  · unfold blockingUnlink asyncUnlink
    split <;> simp [block_may hc]

/-- In a thread of one's own, and in `spawn_blocking`. -/
example : (reach [.blockOn .multi, .task, .thread] = .val {}) ∧ ({} : Ctx).MayBlock ∧
    reach [.blockOn .multi, .task, .spawnBlocking] = .val ⟨some .multi, none⟩ ∧ (⟨some .multi, none⟩ : Ctx).MayBlock ∧
    (tellBlockingSend {} .bounded (.user 0) (5 : Nat) none).accepted = true := by decide

/-- **C88** (negation) The claim that the blocking methods can be used in handlers, at full strength: in any place an
actor's handlers run in, a tell with `blocking_send` is what it is elsewhere. It holds in none: however an actor is
spawned, also in a thread of its own, its handlers may not block. -/
theorem handlers_may_not_block (c c' : Ctx) (h : spawn c = .val c' ∨ spawnInThread c = .val c') : ¬ c'.MayBlock := by
  rcases h with h | h
  · exact go_async rfl h
  · unfold spawnInThread at h
    split at h
    · simp at h
    · simp at h
    · exact go_async rfl h

example : spawnInThread ⟨some .multi, some .multi⟩ = .val ⟨some .multi, some .multi⟩ ∧
    spawn ⟨some .current, some .current⟩ = .val ⟨some .current, some .current⟩ := by decide

/-- **C88** (negation) Where blocking is not allowed, a blocking method panics if the mailbox is bounded, even if there is
room or the actor has ended; the message is not sent, and is lost. -/
theorem bounded_blocking_panics (c : Ctx) (hc : ¬ c.MayBlock) (m : Ty) (r : RTy) (t e : Ty) (x : m.Sem) (ch : Nat)
    (reply : Option Nat) (why : Option Why) (p : Option Packet) :
    tellBlockingSend c .bounded m x why = ⟨false, .panic⟩ ∧
    askBlockingSend c .bounded m r x ch why p = ⟨false, .panic⟩ ∧
    askBlockingEnqueue c .bounded m x ch why = ⟨false, .panic⟩ ∧
    forwardBlocking c .bounded m t e reply x why = (⟨false, .panic⟩, none) := by
  simp [tellBlockingSend, askBlockingSend, askBlockingEnqueue, forwardBlocking, Call.afterBlocking, block_not hc]

example : ¬ (⟨some .multi, some .multi⟩ : Ctx).MayBlock ∧
    (tellBlockingSend ⟨some .multi, some .multi⟩ .bounded (.user 0) (5 : Nat) none).accepted = false := by decide

/-- **C88** With an unbounded mailbox `blocking_send` of a tell, `blocking_enqueue` and `blocking_forward` do what the
async ones do in every place. -/
theorem unbounded_blocking_anywhere (c : Ctx) (m : Ty) (t e : Ty) (x : m.Sem) (ch : Nat) (reply : Option Nat)
    (why : Option Why) :
    tellBlockingSend c .unbounded m x why = tellSend m x why ∧
    askBlockingEnqueue c .unbounded m x ch why = askEnqueue m x ch why ∧
    forwardBlocking c .unbounded m t e reply x why = forwardAsync m t e reply x why := ⟨rfl, rfl, rfl⟩

example : (tellBlockingSend ⟨some .multi, some .multi⟩ .unbounded (.user 0) (5 : Nat) none).accepted = true := by decide

/-- **C88** However a forward ends, blocking or not, and whether the mailbox takes the message or not, the context holds
no reply channel afterwards; only a taken message has it. So the handler cannot answer a request it has forwarded. -/
theorem forward_gives_reply_away (c : Ctx) (k : Kind) (m t e : Ty) (x : m.Sem) (reply : Option Nat) (why : Option Why) :
    (forwardAsync m t e reply x why).2 = none ∧ (forwardBlocking c k m t e reply x why).2 = none ∧
    ((forwardAsync m t e reply x why).1.accepted = true ↔ why = none) := by
  have h : (forwardAsync m t e reply x why).2 = none ∧
      ((forwardAsync m t e reply x why).1.accepted = true ↔ why = none) := by
    cases why with
    | none => cases reply <;> simp [forwardAsync, ctxForward, askForward, tell, sendTry]
    | some w =>
      cases reply with
      | some ch => simp [forwardAsync, (forward_panics m t e x ch w).2]
      | none =>
        obtain ⟨err, h, -⟩ := (enqueue_forward_report_partial m t e x 0 w).2.2.2.2
        simp [forwardAsync, h]
  refine ⟨h.1, ?_, h.2⟩
  cases k with
  | unbounded => exact h.1
  | bounded =>
    unfold forwardBlocking
    simp only
    split
    · rfl
    · exact h.1

example : (forwardAsync (.user 0) (.user 1) .never (some 3) (5 : Nat) none).1.accepted = true ∧
    (forwardAsync (.user 0) (.user 1) .never none (5 : Nat) (some .full)).1.accepted = false := ⟨rfl, rfl⟩

/-- **C88** (negation) With an unbounded mailbox, where blocking is not allowed, `blocking_send` of an ask panics after the
message has been sent: the actor handles it, and nobody gets the reply. Only if the actor has ended the caller is told.
The `recv` of an enqueued request panics likewise. -/
theorem ask_sent_then_panics (c : Ctx) (hc : ¬ c.MayBlock) (m : Ty) (r : RTy) (x : m.Sem) (ch : Nat) (why : Option Why)
    (p : Option Packet) :
    (why = none → askBlockingSend c .unbounded m r x ch why p = ⟨true, .panic⟩) ∧
    (why ≠ none → (askBlockingSend c .unbounded m r x ch why p).accepted = false ∧
      ∃ e, (askBlockingSend c .unbounded m r x ch why p).out = .val (.error e)) ∧
    awaitedBlocking c m r p = .panic := by
  have hw : awaitedBlocking c m r p = .panic := by simp [awaitedBlocking, block_not hc]
  refine ⟨?_, ?_, hw⟩
  · rintro rfl
    simp only [askBlockingSend, Call.afterBlocking, hw]
    rfl
  · intro hne
    rcases ask_cases m r.err x ch why with ⟨h, _⟩ | ⟨_, e, h⟩
    · exact absurd h hne
    · simp only [askBlockingSend, Call.afterBlocking, h, Call.after]
      exact ⟨trivial, e, rfl⟩

example : (askBlockingSend ⟨some .multi, some .multi⟩ .unbounded (.user 0) (.plain (.user 1) .never) (5 : Nat) 0 none
    (some (.ok ⟨.user 1, (7 : Nat)⟩))).accepted = true := by decide

/-- **C88** The tell, exactly: `blocking_send` panics just if the place does not allow blocking and the mailbox is
bounded. -/
theorem tell_blocking_panics_iff (c : Ctx) (k : Kind) (m : Ty) (x : m.Sem) (why : Option Why) :
    (tellBlockingSend c k m x why).out = .panic ↔ ¬ c.MayBlock ∧ k = .bounded := by
  have ht : (tellSend m x why).out ≠ .panic := by
    unfold tellSend
    rcases tell_cases m x why with ⟨_, h⟩ | ⟨_, e, h⟩ <;> rw [h] <;> simp [Call.after]
  by_cases hc : c.MayBlock
  · constructor
    · intro h
      unfold tellBlockingSend at h
      rw [afterBlocking_may hc] at h
      exact absurd h ht
    · exact fun h => absurd hc h.1
  · cases k with
    | bounded => simp [tellBlockingSend, Call.afterBlocking, block_not hc, hc]
    | unbounded =>
      constructor
      · intro h
        exact absurd h ht
      · rintro ⟨-, h⟩
        cases h

example : (tellBlockingSend ⟨some .multi, some .multi⟩ .bounded (.user 0) (5 : Nat) (some .closed)).out = .panic ∧
    ¬ (⟨some .multi, some .multi⟩ : Ctx).MayBlock := ⟨rfl, by decide⟩

/-- **C88** (negation) A handler of one's own that forwards with `blocking_forward` to a bounded mailbox panics, and the
asker's reply channel is gone with it. -/
theorem blocking_forward_loses_asker (c c' : Ctx) (h : spawn c = .val c' ∨ spawnInThread c = .val c') (m t e : Ty) (ch : Nat)
    (x : m.Sem) (why : Option Why) (n : Ty) (r : RTy) :
    forwardBlocking c' .bounded m t e (some ch) x why = (⟨false, .panic⟩, none) ∧
    awaited n r none = .val (.error .actorStopped) :=
  ⟨(bounded_blocking_panics c' (handlers_may_not_block c c' h) m (.plain t e) t e x ch (some ch) why none).2.2.2, rfl⟩

example : spawnInThread ⟨some .multi, some .multi⟩ = .val ⟨some .multi, some .multi⟩ ∧
    forwardBlocking ⟨some .multi, some .multi⟩ .bounded (.user 0) (.user 1) .never (some 3) (5 : Nat) none = (⟨false, .panic⟩, none) ∧
    (forwardBlocking {} .bounded (.user 0) (.user 1) .never (some 3) (5 : Nat) none).1.accepted = true := ⟨rfl, rfl, rfl⟩

/-- **C88** A blocking link or unlink where blocking is not allowed panics and leaves the links as they are; with itself
it does nothing. -/
theorem blocking_link_panics (c : Ctx) (hc : ¬ c.MayBlock) (l : LinkSet) (a b : Nat) :
    blockingLink c l a b = (l, if a = b then .val () else .panic) ∧
    blockingUnlink c l a b = (l, if a = b then .val () else .panic) := by
  unfold blockingLink blockingUnlink
  constructor <;> split <;> simp [block_not hc]

example : (blockingLink ⟨some .multi, some .multi⟩ (fun _ => []) 1 2).2 = .panic ∧
    (blockingLink {} (fun _ => []) 1 2).1 1 = [2] ∧ (blockingLink {} (fun _ => []) 1 2).1 2 = [1] := by decide

/-- **C88** What a blocking link or unlink does where blocking is allowed: it adds, or takes away, each of the two actors in
the links of the other, once, and changes nothing else. -/
theorem blocking_link_links (c : Ctx) (hc : c.MayBlock) (l : LinkSet) (a b : Nat) (hab : a ≠ b) (x y : Nat) :
    (y ∈ (blockingLink c l a b).1 x ↔ y ∈ l x ∨ (x = a ∧ y = b) ∨ (x = b ∧ y = a)) ∧
    (y ∈ (blockingUnlink c l a b).1 x ↔ y ∈ l x ∧ ¬ (x = a ∧ y = b) ∧ ¬ (x = b ∧ y = a)) ∧
    ((l x).Nodup → ((blockingLink c l a b).1 x).Nodup ∧ ((blockingUnlink c l a b).1 x).Nodup) := by
  have h1 : (blockingLink c l a b).1 = l.join a b := by simp [blockingLink, hab, block_may hc]
  have h2 : (blockingUnlink c l a b).1 = l.part a b := by simp [blockingUnlink, hab, block_may hc]
  rw [h1, h2]
  refine ⟨?_, ?_, ?_⟩
  · unfold LinkSet.join
    grind
  · unfold LinkSet.part
    grind
  · intro hn
    have hf : ∀ z, ((l x).filter (· ≠ z)).Nodup := fun z => hn.filter _
    constructor
    · unfold LinkSet.join
      split
      · exact List.nodup_cons.mpr ⟨by simp, hf b⟩
      · split
        · exact List.nodup_cons.mpr ⟨by simp, hf a⟩
        · exact hn
    · unfold LinkSet.part
      split
      · exact hf b
      · split
        · exact hf a
        · exact hn

example : ({} : Ctx).MayBlock ∧ (blockingLink {} (fun x => if x = 1 then [3] else []) 1 2).1 1 = [2, 3] ∧
    (blockingUnlink {} (fun x => if x = 1 then [2, 3] else [1]) 1 2).1 1 = [3] := by decide

/-- **C88** The example in the documentation of `spawn_in_thread`: it runs without a panic exactly in a place that has a
handle to a multi-threaded runtime and is not run by one. Then the message is sent as by an async tell. -/
theorem doc_example_iff (c : Ctx) (m : Ty) (x : m.Sem) (why : Option Why) :
    (docExample c m x why ≠ .panic ↔ c.handle = some .multi ∧ c.MayBlock) ∧
    (c.handle = some .multi ∧ c.MayBlock → docExample c m x why = (tellSend m x why).out) := by
  have ht : (tellSend m x why).out ≠ .panic := by
    unfold tellSend
    rcases tell_cases m x why with ⟨_, h⟩ | ⟨_, e, h⟩ <;> rw [h] <;> simp [Call.after]
  have hb : c.MayBlock → tellBlockingSend c .bounded m x why = tellSend m x why := fun h => afterBlocking_may h _ _ _
  have hp := tell_blocking_panics_iff c .bounded m x why
  unfold docExample spawnInThread
  constructor
  · cases hh : c.handle with
    | none => simp
    | some fl =>
      cases fl with
      | current => simp
      | multi =>
        simp only [Ctx.go, true_and]
        rw [ne_eq, hp]
        simp [Decidable.not_not]
  · rintro ⟨hh, hm⟩
    rw [hh]
    simp only [Ctx.go]
    rw [hb hm]

/-- With `Runtime::enter` in `main` it works. -/
example : reach [.guard .multi] = .val ⟨some .multi, none⟩ ∧
    docExample ⟨some .multi, none⟩ (.user 0) (5 : Nat) none = .val (.ok ()) := ⟨rfl, rfl⟩

/-- **C88** (negation) In async code the example panics, whatever the runtime; in a plain thread it panics as well, since
there is no runtime to spawn the actor with. -/
theorem doc_example_panics (ws : List Way) (w : Way) (c : Ctx) (hw : w.async = true ∨ w = .thread)
    (h : reach (ws ++ [w]) = .val c) (m : Ty) (x : m.Sem) (why : Option Why) : docExample c m x why = .panic := by
  have hd : ∃ c0 : Ctx, c0.go w = .val c := by
    simp only [reach, List.foldl_append, List.foldl_cons, List.foldl_nil] at h
    split at h
    · exact ⟨_, h⟩
    · simp at h
  obtain ⟨c0, h0⟩ := hd
  have hno : ¬ (c.handle = some .multi ∧ c.MayBlock) := by
    rintro ⟨h1, h2⟩
    rcases hw with hw | rfl
    · exact go_async hw h0 h2
    · simp only [Ctx.go, Out.val.injEq] at h0
      subst h0
      simp at h1
  have := (doc_example_iff c m x why).1
  exact Classical.byContradiction fun hne => hno (this.mp hne)

/-- With `#[tokio::main]`, and in a thread started from there. -/
example : reach [.blockOn .multi] = .val ⟨some .multi, some .multi⟩ ∧ reach [.blockOn .multi, .thread] = .val {} ∧
    docExample ⟨some .multi, some .multi⟩ (.user 0) (5 : Nat) none = .panic ∧
    docExample {} (.user 0) (5 : Nat) none = .panic := ⟨rfl, rfl, rfl, rfl⟩

/-- **C88** The places in which blocking is allowed, by the last way to them: a new thread and `spawn_blocking` always,
`block_in_place` whenever it does not panic itself, a task and `block_on` never; `Runtime::enter` changes nothing. -/
theorem may_block_after (c c' : Ctx) (w : Way) (h : c.go w = .val c') :
    c'.MayBlock ↔ (w = .thread ∨ w = .spawnBlocking ∨ w = .blockInPlace ∨ (∃ fl, w = .guard fl) ∧ c.MayBlock) := by
  unfold Ctx.MayBlock
  cases w <;> simp only [Ctx.go] at h <;> (try split at h) <;> simp_all <;> (try (subst h; simp_all))

example : reach [.blockOn .multi, .task, .blockInPlace] = .val ⟨some .multi, none⟩ ∧
    reach [.blockOn .current, .task, .blockInPlace] = .panic := by decide

/-- **C88** What a handler can do to block all the same: in an actor, however spawned, `spawn_blocking` does not panic,
leads to a place where blocking is allowed, and so on from there and from a `block_in_place`; `block_in_place` works in the
multi-threaded runtime and panics in the other. -/
theorem ways_out_of_handler (c c' : Ctx) (h : spawn c = .val c' ∨ spawnInThread c = .val c') :
    ∃ fl, c.handle = some fl ∧ c'.handle = some fl ∧
      (∃ c1, c'.go .spawnBlocking = .val c1 ∧ c1.MayBlock ∧ c1.handle = some fl ∧ c1.go .spawnBlocking = .val c1 ∧
        spawn c1 = spawn c) ∧
      (fl = .current → c'.go .blockInPlace = .panic) ∧
      (fl = .multi → ∃ c1, c'.go .blockInPlace = .val c1 ∧ c1.MayBlock ∧ c1.handle = some fl ∧
        (∃ c2, c1.go .spawnBlocking = .val c2 ∧ c2.MayBlock) ∧ spawn c1 = spawn c) := by
  obtain ⟨ch, cd⟩ := c
  rcases h with h | h
  · cases ch with
    | none => simp [spawn, Ctx.go] at h
    | some fl =>
      simp only [spawn, Ctx.go, Out.val.injEq] at h
      subst h
      refine ⟨fl, rfl, rfl, ⟨_, rfl, rfl, rfl, rfl, rfl⟩, ?_, ?_⟩
      · rintro rfl
        rfl
      · rintro rfl
        exact ⟨_, rfl, rfl, rfl, ⟨_, rfl, rfl⟩, rfl⟩
  · cases ch with
    | none => simp [spawnInThread] at h
    | some fl =>
      cases fl with
      | current => simp [spawnInThread] at h
      | multi =>
        simp only [spawnInThread, Ctx.go, Out.val.injEq] at h
        subst h
        exact ⟨.multi, rfl, rfl, ⟨_, rfl, rfl, rfl, rfl, rfl⟩, (fun h => nomatch h),
          fun _ => ⟨_, rfl, rfl, rfl, ⟨_, rfl, rfl⟩, rfl⟩⟩

example : spawn ⟨some .current, some .current⟩ = .val ⟨some .current, some .current⟩ ∧
    Ctx.go ⟨some .current, some .current⟩ .blockInPlace = .panic ∧
    Ctx.go ⟨some .current, some .current⟩ .spawnBlocking = .val ⟨some .current, none⟩ := by decide

end Verif.Blocking
