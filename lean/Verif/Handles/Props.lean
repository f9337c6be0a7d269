import Verif.Handles.Model

/-! C72: handles. -/

set_option linter.unusedSimpArgs false

namespace Verif.Handles

/-- How many handles of a kind, for channel `ch`, there are. (Specification.) -/
def St.count (s : St) (p : Handle → Bool) (ch : Nat) : Nat := s.held.countP (fun h => p h && h.ch == ch)

/-- The objects `PreparedActor::new` makes. -/
def fresh (n : Nat) : Ref :=
  { id := n, ch := n + 1, abort := n + 2, links := n + 3, sem := n + 4, startErr := n + 5, stopErr := n + 6 }

/-- The counters are right. -/
structure Exact (s : St) : Prop where
  strong : ∀ ch, s.strong ch = s.count Handle.strong ch
  weak : ∀ ch, s.weak ch = s.count (fun h => !h.strong) ch

theorem exact_add {s : St} (h : Exact s) (x : Handle) : Exact (s.add x) := by
  constructor
  · intro ch
    have := h.strong ch
    unfold St.add St.count bump at *
    cases hx : x.strong <;> simp [List.countP_append, hx, this] <;> grind
  · intro ch
    have := h.weak ch
    unfold St.add St.count bump at *
    cases hx : x.strong <;> simp [List.countP_append, hx, this] <;> grind

theorem countP_erase {p : Handle → Bool} {l : List Handle} {x : Handle} (h : x ∈ l) :
    l.countP p = (l.erase x).countP p + if p x then 1 else 0 := by
  rw [(List.perm_cons_erase h).countP_eq, List.countP_cons]

theorem exact_remove {s : St} (h : Exact s) (x : Handle) : Exact (s.remove x) := by
  unfold St.remove
  split
  · next hm =>
    have e := fun p => countP_erase (p := p) hm
    constructor
    · intro ch
      have h1 := h.strong ch
      have h2 := e (fun h => h.strong && h.ch == ch)
      unfold St.count bump at *
      cases hx : x.strong <;> simp [hx] at h2 ⊢ <;> grind
    · intro ch
      have h1 := h.weak ch
      have h2 := e (fun h => !h.strong && h.ch == ch)
      unfold St.count bump at *
      cases hx : x.strong <;> simp [hx] at h2 ⊢ <;> grind
  · exact h

theorem exact_dropEntry {s : St} (h : Exact s) (lk id : Nat) : Exact (s.dropEntry lk id) := by
  unfold St.dropEntry
  split
  · exact exact_remove h _
  · exact h

theorem exact_foldl {s : St} (h : Exact s) (l : List Handle) : Exact (l.foldl St.remove s) := by
  induction l generalizing s with
  | nil => exact h
  | cons x l ih => exact ih (exact_remove h x)

theorem exact_call {s : St} (h : Exact s) (op : Op) : Exact (s.call op).1 := by
  cases op with
  | prepare =>
    have := exact_add h (.ref (fresh s.next))
    exact ⟨this.strong, this.weak⟩
  | clone x => simp only [St.call]; split <;> first | exact exact_add h _ | exact h
  | drop x => simp only [St.call]; split <;> first | exact exact_remove h _ | exact h
  | downgrade x =>
    simp only [St.call]
    split
    · cases x <;> simp only [St.downgrade] <;> first | exact exact_add h _ | exact h
    · exact h
  | upgrade x =>
    simp only [St.call]
    split
    · unfold St.upgrade
      split
      · exact h
      · cases x <;> simp only [] <;> first | exact exact_add h _ | exact h
    · exact h
  | recipient c =>
    simp only [St.call]
    split
    · next hm =>
      have e := fun p => countP_erase (p := p) hm
      constructor
      · intro ch
        have h1 := h.strong ch
        have h2 := e (fun h => h.strong && h.ch == ch)
        unfold St.count at *
        simp [List.countP_append, Handle.strong, Handle.ch] at *
        grind
      · intro ch
        have h1 := h.weak ch
        have h2 := e (fun h => !h.strong && h.ch == ch)
        unfold St.count at *
        simp [List.countP_append, Handle.strong, Handle.ch] at *
        grind
    · exact h
  | mailbox c =>
    simp only [St.call]
    split
    · exact exact_add h (.sender c.ch)
    · exact h
  | link a b =>
    simp only [St.call]
    split
    · unfold St.link
      split
      · exact h
      · exact exact_add (exact_dropEntry (exact_add (exact_dropEntry h a.links b.id) (.entry a.links b.id b.ch))
          b.links a.id) (.entry b.links a.id a.ch)
    · exact h
  | unlink a b =>
    simp only [St.call]
    split
    · unfold St.unlink
      split
      · exact h
      · exact exact_dropEntry (exact_dropEntry h _ _) _ _
    · exact h
  | drain lk => exact exact_foldl h _

theorem after_snoc (ops : List Op) (op : Op) : after (ops ++ [op]) = ((after ops).call op).1 := by
  simp [after]

theorem induct {P : St → Prop} (h0 : P {}) (h : ∀ s op, P s → P (s.call op).1) (ops : List Op) : P (after ops) := by
  unfold after
  generalize ({} : St) = s at *
  induction ops generalizing s with
  | nil => exact h0
  | cons op l ih => exact ih _ (h _ _ h0)

theorem exact_after (ops : List Op) : Exact (after ops) :=
  induct (P := Exact) ⟨fun _ => rfl, fun _ => rfl⟩ (fun _ op h => exact_call h op) ops

/-! ### What a step does to the handles -/

theorem mem_add {s : St} {x h : Handle} : h ∈ (s.add x).held ↔ h ∈ s.held ∨ h = x := by
  unfold St.add; split <;> simp

theorem mem_remove {s : St} {x h : Handle} (hm : h ∈ (s.remove x).held) : h ∈ s.held := by
  unfold St.remove at hm
  split at hm
  · split at hm <;> exact List.mem_of_mem_erase hm
  · exact hm

theorem mem_dropEntry {s : St} {lk id : Nat} {h : Handle} (hm : h ∈ (s.dropEntry lk id).held) : h ∈ s.held := by
  unfold St.dropEntry at hm
  split at hm
  · exact mem_remove hm
  · exact hm

theorem mem_foldl {s : St} {l : List Handle} {h : Handle} (hm : h ∈ (l.foldl St.remove s).held) : h ∈ s.held := by
  induction l generalizing s with
  | nil => exact hm
  | cons x l ih => exact mem_remove (ih hm)

@[simp] theorem add_next (s : St) (x : Handle) : (s.add x).next = s.next ∧ (s.add x).made = s.made := by
  unfold St.add; split <;> exact ⟨rfl, rfl⟩

@[simp] theorem remove_next (s : St) (x : Handle) : (s.remove x).next = s.next ∧ (s.remove x).made = s.made := by
  unfold St.remove; split
  · split <;> exact ⟨rfl, rfl⟩
  · exact ⟨rfl, rfl⟩

@[simp] theorem dropEntry_next (s : St) (a b : Nat) :
    (s.dropEntry a b).next = s.next ∧ (s.dropEntry a b).made = s.made := by
  unfold St.dropEntry; split
  · exact remove_next _ _
  · exact ⟨rfl, rfl⟩

@[simp] theorem foldl_next (s : St) (l : List Handle) :
    (l.foldl St.remove s).next = s.next ∧ (l.foldl St.remove s).made = s.made := by
  induction l generalizing s with
  | nil => exact ⟨rfl, rfl⟩
  | cons x l ih => simp only [List.foldl_cons]; rw [(ih _).1, (ih _).2]; exact remove_next _ _

/-- Where handles come from. -/
inductive Born (s : St) : Op → Handle → Prop where
  | old (op : Op) (h : Handle) (hm : h ∈ s.held) : Born s op h
  | prepare : Born s .prepare (.ref (fresh s.next))
  | clone (h : Handle) (hm : h ∈ s.held) (he : h.isEntry = false) : Born s (.clone h) h.clone
  | weak (c : Ref) (hm : .ref c ∈ s.held) : Born s (.downgrade (.ref c)) (.weak c.downgrade)
  | weakSender (ch : Nat) (hm : .sender ch ∈ s.held) : Born s (.downgrade (.sender ch)) (.weakSender ch)
  | up (w : Weak) (hm : .weak w ∈ s.held) (hs : s.strong w.mailbox ≠ 0) :
      Born s (.upgrade (.weak w)) (.ref w.upgraded)
  | upRcp (w : Weak) (hm : .weakRcp w ∈ s.held) (hs : s.strong w.mailbox ≠ 0) :
      Born s (.upgrade (.weakRcp w)) (.rcp w.upgraded)
  | upSender (ch : Nat) (hm : .weakSender ch ∈ s.held) (hs : s.strong ch ≠ 0) :
      Born s (.upgrade (.weakSender ch)) (.sender ch)
  | rcp (c : Ref) (hm : .ref c ∈ s.held) : Born s (.recipient c) (.rcp c)
  | sender (c : Ref) (hm : .ref c ∈ s.held) : Born s (.mailbox c) (.sender c.ch)
  | entry (a b : Ref) (ha : .ref a ∈ s.held) (hb : .ref b ∈ s.held) (hab : a.id ≠ b.id) :
      Born s (.link a b) (.entry a.links b.id b.ch)
  | entry' (a b : Ref) (ha : .ref a ∈ s.held) (hb : .ref b ∈ s.held) (hab : a.id ≠ b.id) :
      Born s (.link a b) (.entry b.links a.id a.ch)

theorem born {s : St} {op : Op} {h : Handle} (hm : h ∈ (s.call op).1.held) : Born s op h := by
  cases op with
  | prepare =>
    rcases mem_add.mp (show h ∈ (s.add (.ref (fresh s.next))).held from hm) with hm | rfl
    · exact .old _ _ hm
    · exact .prepare
  | clone x =>
    simp only [St.call] at hm
    split at hm
    · next hx =>
      rcases mem_add.mp hm with hm | rfl
      · exact .old _ _ hm
      · exact .clone x hx.1 hx.2
    · exact .old _ _ hm
  | drop x =>
    simp only [St.call] at hm
    split at hm
    · exact .old _ _ (mem_remove hm)
    · exact .old _ _ hm
  | downgrade x =>
    simp only [St.call] at hm
    split at hm
    · next hx =>
      cases x with
      | ref c =>
        rcases mem_add.mp hm with hm | rfl
        · exact .old _ _ hm
        · exact .weak c hx
      | sender c =>
        rcases mem_add.mp hm with hm | rfl
        · exact .old _ _ hm
        · exact .weakSender c hx
      | _ => exact .old _ _ hm
    · exact .old _ _ hm
  | upgrade x =>
    simp only [St.call] at hm
    split at hm
    · next hx =>
      unfold St.upgrade at hm
      split at hm
      · exact .old _ _ hm
      · next hs =>
        cases x with
        | weak w =>
          rcases mem_add.mp hm with hm | rfl
          · exact .old _ _ hm
          · exact .up w hx hs
        | weakRcp w =>
          rcases mem_add.mp hm with hm | rfl
          · exact .old _ _ hm
          · exact .upRcp w hx hs
        | weakSender ch =>
          rcases mem_add.mp hm with hm | rfl
          · exact .old _ _ hm
          · exact .upSender ch hx hs
        | _ => exact .old _ _ hm
    · exact .old _ _ hm
  | recipient c =>
    simp only [St.call] at hm
    split at hm
    · next hx =>
      simp only [List.mem_append, List.mem_singleton] at hm
      rcases hm with hm | rfl
      · exact .old _ _ (List.mem_of_mem_erase hm)
      · exact .rcp c hx
    · exact .old _ _ hm
  | mailbox c =>
    simp only [St.call] at hm
    split at hm
    · next hx =>
      rcases mem_add.mp hm with hm | rfl
      · exact .old _ _ hm
      · exact .sender c hx
    · exact .old _ _ hm
  | link a b =>
    simp only [St.call] at hm
    split at hm
    · next hx =>
      unfold St.link at hm
      split at hm
      · exact .old _ _ hm
      · next hab =>
        rcases mem_add.mp hm with hm | rfl
        · rcases mem_add.mp (mem_dropEntry hm) with hm | rfl
          · exact .old _ _ (mem_dropEntry hm)
          · exact .entry a b hx.1 hx.2 hab
        · exact .entry' a b hx.1 hx.2 hab
    · exact .old _ _ hm
  | unlink a b =>
    simp only [St.call] at hm
    split at hm
    · unfold St.unlink at hm
      split at hm
      · exact .old _ _ hm
      · exact .old _ _ (mem_dropEntry (mem_dropEntry hm))
    · exact .old _ _ hm
  | drain lk => exact .old _ _ (mem_foldl hm)

theorem call_next (s : St) (op : Op) :
    ((s.call op).1.next = s.next ∧ (s.call op).1.made = s.made) ∨
    ((s.call op).1.next = s.next + 7 ∧ (s.call op).1.made = s.made ++ [fresh s.next]) := by
  cases op with
  | prepare => exact Or.inr ⟨rfl, by simp [St.call, St.prepare, fresh]⟩
  | clone x => left; simp only [St.call]; split <;> simp
  | drop x => left; simp only [St.call]; split <;> simp
  | downgrade x => left; simp only [St.call]; split <;> cases x <;> simp [St.downgrade]
  | upgrade x =>
    left; simp only [St.call]; split
    · unfold St.upgrade; split
      · simp
      · cases x <;> simp
    · simp
  | recipient c => left; simp only [St.call]; split <;> simp
  | mailbox c => left; simp only [St.call]; split <;> simp
  | link a b =>
    left; simp only [St.call]; split
    · unfold St.link; split <;> simp
    · simp
  | unlink a b =>
    left; simp only [St.call]; split
    · unfold St.unlink; split <;> simp
    · simp
  | drain lk => left; simp [St.call, St.drain]

/-- What each handle is made of. -/
def Handle.of (made : List Ref) : Handle → Prop
  | .ref c => c ∈ made
  | .rcp c => c ∈ made
  | .weak w => w.upgraded ∈ made
  | .weakRcp _ => False
  | .sender ch => ∃ c ∈ made, c.ch = ch
  | .weakSender ch => ∃ c ∈ made, c.ch = ch
  | .entry lk id ch => ∃ a ∈ made, ∃ b ∈ made, a.links = lk ∧ b.id = id ∧ b.ch = ch ∧ a ≠ b

theorem Handle.of_mono {m m' : List Ref} (hs : ∀ c ∈ m, c ∈ m') {h : Handle} (ho : h.of m) : h.of m' := by
  cases h with
  | ref c => exact hs _ ho
  | rcp c => exact hs _ ho
  | weak w => exact hs _ ho
  | weakRcp w => exact ho
  | sender ch => obtain ⟨c, h1, h2⟩ := ho; exact ⟨c, hs _ h1, h2⟩
  | weakSender ch => obtain ⟨c, h1, h2⟩ := ho; exact ⟨c, hs _ h1, h2⟩
  | entry lk id ch => obtain ⟨a, h1, b, h2, h3⟩ := ho; exact ⟨a, hs _ h1, b, hs _ h2, h3⟩

structure Coh (s : St) : Prop where
  next : s.next % 7 = 0
  made : ∀ c ∈ s.made, ∃ n, c = fresh n ∧ n % 7 = 0 ∧ n < s.next
  held : ∀ h ∈ s.held, h.of s.made

theorem coh_call {s : St} (h : Coh s) (op : Op) : Coh (s.call op).1 := by
  have hsub : ∀ c ∈ s.made, c ∈ (s.call op).1.made := by
    intro c hc
    rcases call_next s op with ⟨_, e⟩ | ⟨_, e⟩ <;> rw [e] <;> simp [hc]
  constructor
  · have := h.next
    rcases call_next s op with ⟨e, _⟩ | ⟨e, _⟩ <;> omega
  · intro c hc
    have hn := h.next
    rcases call_next s op with ⟨e, e'⟩ | ⟨e, e'⟩
    · rw [e'] at hc
      rw [e]
      exact h.made c hc
    · rw [e'] at hc
      rw [e]
      simp only [List.mem_append, List.mem_singleton] at hc
      rcases hc with hc | rfl
      · obtain ⟨n, h1, h2, h3⟩ := h.made c hc
        exact ⟨n, h1, h2, by omega⟩
      · exact ⟨s.next, rfl, hn, by omega⟩
  · intro x hx
    have hb := born hx
    cases hb with
    | old _ _ hm => exact Handle.of_mono hsub (h.held _ hm)
    | prepare => simp [Handle.of, St.call, St.prepare, fresh]
    | clone y hm he =>
      have := Handle.of_mono hsub (h.held _ hm)
      cases y <;> first | exact this | cases he
    | weak c hm => exact hsub _ (h.held _ hm)
    | weakSender ch hm => exact Handle.of_mono (h := .sender ch) hsub (h.held _ hm)
    | up w hm => exact hsub _ (h.held _ hm)
    | upRcp w hm => exact (h.held _ hm).elim
    | upSender ch hm => exact Handle.of_mono (h := .weakSender ch) hsub (h.held _ hm)
    | rcp c hm => exact hsub _ (h.held _ hm)
    | sender c hm => exact ⟨c, hsub _ (h.held _ hm), rfl⟩
    | entry a b ha hb hab =>
      exact ⟨a, hsub _ (h.held _ ha), b, hsub _ (h.held _ hb), rfl, rfl, rfl, fun e => hab (by rw [e])⟩
    | entry' a b ha hb hab =>
      exact ⟨b, hsub _ (h.held _ hb), a, hsub _ (h.held _ ha), rfl, rfl, rfl, fun e => hab (by rw [e])⟩

theorem coh_after (ops : List Op) : Coh (after ops) :=
  induct (P := Coh) ⟨rfl, by simp, by simp⟩ (fun _ op h => coh_call h op) ops

/-! ### Properties -/

/-- The shared objects a handle to an actor points to, in a fixed order: its id, mailbox, abort flag, link map, start-up
semaphore, start-up result, shut-down result. (Specification.) -/
def Handle.objects : Handle → Option (List Nat)
  | .ref c => some [c.id, c.ch, c.abort, c.links, c.sem, c.startErr, c.stopErr]
  | .rcp c => some [c.id, c.ch, c.abort, c.links, c.sem, c.startErr, c.stopErr]
  | .weak w => some [w.id, w.mailbox, w.abort, w.links, w.notify, w.startErr, w.stopErr]
  | .weakRcp w => some [w.id, w.mailbox, w.abort, w.links, w.notify, w.startErr, w.stopErr]
  | _ => none

/-- **C72** Every handle to an actor, however it was obtained, is a handle to one actor: two handles point to the same
seven objects, in the same roles, or have none in common. So a reference obtained by upgrading, cloning or converting any
other kills, links, awaits and sends to the same actor. -/
theorem handle_is_one_actor (ops : List Op) (h h' : Handle) (hm : h ∈ (after ops).held) (hm' : h' ∈ (after ops).held)
    (l l' : List Nat) (hl : h.objects = some l) (hl' : h'.objects = some l') :
    l = l' ∨ ∀ x ∈ l, x ∉ l' := by
  have hc := coh_after ops
  have key : ∀ h l, h ∈ (after ops).held → h.objects = some l → ∃ n, n % 7 = 0 ∧
      l = [n, n + 1, n + 2, n + 3, n + 4, n + 5, n + 6] := by
    intro h l hm hl
    have ho := hc.held h hm
    cases h with
    | ref c => obtain ⟨n, rfl, h2, _⟩ := hc.made _ ho; exact ⟨n, h2, by simpa [Handle.objects, fresh] using hl.symm⟩
    | rcp c => obtain ⟨n, rfl, h2, _⟩ := hc.made _ ho; exact ⟨n, h2, by simpa [Handle.objects, fresh] using hl.symm⟩
    | weak w =>
      obtain ⟨n, h1, h2, _⟩ := hc.made _ ho
      refine ⟨n, h2, ?_⟩
      obtain ⟨a, b, c, d, e, f, g⟩ := w
      simp only [Weak.upgraded, fresh, Ref.mk.injEq] at h1
      obtain ⟨rfl, rfl, rfl, rfl, rfl, rfl, rfl⟩ := h1
      simpa [Handle.objects] using hl.symm
    | weakRcp w => exact ho.elim
    | _ => simp [Handle.objects] at hl
  obtain ⟨n, h1, rfl⟩ := key h l hm hl
  obtain ⟨m, h2, rfl⟩ := key h' l' hm' hl'
  by_cases e : n = m
  · subst e; exact Or.inl rfl
  · right
    intro x hx hx'
    simp only [List.mem_cons, List.not_mem_nil, or_false] at hx hx'
    omega

/-- Two actors; a reference downgraded and upgraded again, a recipient, a link. -/
def handleDemo : List Op :=
  [.prepare, .prepare, .clone (.ref (fresh 0)), .downgrade (.ref (fresh 0)), .upgrade (.weak (fresh 0).downgrade),
   .recipient (fresh 7), .upgrade (.weak (fresh 0).downgrade), .prepare, .link (fresh 0) (fresh 14)]

example : (after handleDemo).held = [.ref (fresh 0), .ref (fresh 0), .weak (fresh 0).downgrade, .ref (fresh 0),
    .rcp (fresh 7), .ref (fresh 0), .ref (fresh 14), .entry 3 14 15, .entry 17 0 1] ∧
    (Handle.weak (fresh 0).downgrade).objects = (Handle.ref (fresh 0)).objects := by decide

/-- An `ActorRef`. (Specification.) -/
def isRef : Handle → Bool
  | .ref _ => true
  | _ => false
/-- A `Recipient`. (Specification.) -/
def isRecipient : Handle → Bool
  | .rcp _ => true
  | _ => false
/-- A `MailboxSender`. (Specification.) -/
def isSender : Handle → Bool
  | .sender _ => true
  | _ => false
/-- A `WeakActorRef`. (Specification.) -/
def isWeakRef : Handle → Bool
  | .weak _ => true
  | _ => false
/-- A `WeakMailboxSender`. (Specification.) -/
def isWeakSender : Handle → Bool
  | .weakSender _ => true
  | _ => false

theorem countP_split (l : List Handle) (p a b c : Handle → Bool)
    (h : ∀ x ∈ l, (if p x then 1 else 0) = (if a x then 1 else 0) + (if b x then 1 else 0) + (if c x then 1 else 0)) :
    l.countP p = l.countP a + l.countP b + l.countP c := by
  induction l with
  | nil => rfl
  | cons x l ih =>
    have h1 := h x (by simp)
    have h2 := ih (fun y hy => h y (by simp [hy]))
    simp only [List.countP_cons]
    omega

/-- **C72** `strong_count` of any handle, weak or not, is the number of `ActorRef`s, `Recipient`s and `MailboxSender`s of
this actor there are, wherever they are: those in queued messages and in the actor's own task included. -/
theorem strong_count_exact (ops : List Op) (h : Handle) :
    (after ops).strongCount h =
      (after ops).count isRef h.ch + (after ops).count isRecipient h.ch + (after ops).count isSender h.ch := by
  unfold St.strongCount
  rw [(exact_after ops).strong]
  unfold St.count
  apply countP_split
  intro x _
  cases x <;> simp [Handle.strong, isRef, isRecipient, isSender]

example : (after handleDemo).strongCount (.ref (fresh 0)) = 4 ∧ (after handleDemo).count isRef 1 = 4 ∧
    (after handleDemo).strongCount (.rcp (fresh 7)) = 1 ∧ (after handleDemo).count isRecipient 8 = 1 := by decide

/-- **C72** `weak_count` is the number of `WeakActorRef`s and `WeakMailboxSender`s of this actor and of the entries for it
in the link maps of others. (There are no `WeakRecipient`s, `no_weak_recipient`.) -/
theorem weak_count_exact (ops : List Op) (h : Handle) :
    (after ops).weakCount h =
      (after ops).count isWeakRef h.ch + (after ops).count isWeakSender h.ch + (after ops).count Handle.isEntry h.ch := by
  unfold St.weakCount
  rw [(exact_after ops).weak]
  unfold St.count
  apply countP_split
  intro x hx
  cases x with
  | weakRcp w => exact ((coh_after ops).held _ hx).elim
  | _ => simp [Handle.strong, isWeakRef, isWeakSender, Handle.isEntry]

example : (after handleDemo).strongCount (.ref (fresh 0)) = 4 ∧ (after handleDemo).weakCount (.ref (fresh 0)) = 2 ∧
    (after handleDemo).strongCount (.rcp (fresh 7)) = 1 := by decide

/-- An entry for the actor `id` in the link map `lk`. (Specification.) -/
def isEntryOf (lk id : Nat) : Handle → Bool
  | .entry l i _ => l == lk && i == id
  | _ => false

/-- The number of entries for the actor `id` in the link map `lk`. (Specification.) -/
def St.entries (s : St) (lk id : Nat) : Nat := s.held.countP (isEntryOf lk id)

/-- What a call of `op` means for the entry of `id` in the map `lk`, if there were `n` before. (Specification.) -/
def entriesAfter (s : St) (op : Op) (lk id n : Nat) : Nat :=
  match op with
  | .link a b =>
    if .ref a ∈ s.held ∧ .ref b ∈ s.held ∧ a.id ≠ b.id ∧ ((lk = a.links ∧ id = b.id) ∨ (lk = b.links ∧ id = a.id)) then 1
    else n
  | .unlink a b =>
    if .ref a ∈ s.held ∧ .ref b ∈ s.held ∧ a.id ≠ b.id ∧ ((lk = a.links ∧ id = b.id) ∨ (lk = b.links ∧ id = a.id)) then 0
    else n
  | .drain l => if l = lk then 0 else n
  | _ => n

theorem entries_add (s : St) (x : Handle) (lk id : Nat) :
    (s.add x).entries lk id =
      s.entries lk id + if (isEntryOf lk id x) = true then 1 else 0 := by
  have : (s.add x).held = s.held ++ [x] := by unfold St.add; split <;> rfl
  simp only [St.entries, this, List.countP_append, List.countP_cons, List.countP_nil, Nat.zero_add]

theorem entries_remove {s : St} {x : Handle} (hx : x ∈ s.held) (lk id : Nat) :
    (s.remove x).entries lk id +
      (if (isEntryOf lk id x) = true then 1 else 0) = s.entries lk id := by
  have : (s.remove x).held = s.held.erase x := by unfold St.remove; rw [if_pos hx]; split <;> rfl
  simp only [St.entries, this]
  rw [(List.perm_cons_erase hx).countP_eq, List.countP_cons]

theorem entries_dropEntry {s : St} (h1 : ∀ lk id, s.entries lk id ≤ 1) (l i lk id : Nat) :
    (s.dropEntry l i).entries lk id = if lk = l ∧ id = i then 0 else s.entries lk id := by
  unfold St.dropEntry
  split
  · rename_i h hf
    have hm := List.mem_of_find?_eq_some hf
    have hp := List.find?_some hf
    cases h with
    | entry l' i' ch =>
      simp only [Bool.and_eq_true, beq_iff_eq] at hp
      obtain ⟨rfl, rfl⟩ := hp
      have hr := entries_remove hm lk id
      by_cases e : l' = lk ∧ i' = id
      · obtain ⟨rfl, rfl⟩ := e
        have := h1 l' i'
        simp [isEntryOf] at hr ⊢
        omega
      · have e' : ¬ (lk = l' ∧ id = i') := fun h => e ⟨h.1.symm, h.2.symm⟩
        simp [isEntryOf, e] at hr
        simp [e', hr]
    | _ => simp at hp
  · rename_i hf
    split
    · rename_i e
      obtain ⟨rfl, rfl⟩ := e
      rw [List.find?_eq_none] at hf
      refine List.countP_eq_zero.mpr fun h hm => ?_
      have := hf h hm
      cases h <;> simp_all [isEntryOf]
    · rfl

theorem entries_foldl (l : List Handle) (s : St) (lk id : Nat)
    (hl : ∀ h ∈ l, (isEntryOf lk id h) = false) :
    (l.foldl St.remove s).entries lk id = s.entries lk id := by
  induction l generalizing s with
  | nil => rfl
  | cons x l ih =>
    rw [List.foldl_cons, ih _ (fun h hm => hl h (by simp [hm]))]
    by_cases hx : x ∈ s.held
    · have := entries_remove hx lk id
      rw [hl x (by simp)] at this
      simpa using this
    · unfold St.remove
      rw [if_neg hx]

theorem held_remove (s : St) (x : Handle) : (s.remove x).held = s.held.erase x := by
  unfold St.remove
  split
  · split <;> rfl
  · rename_i h; rw [List.erase_of_not_mem h]

theorem entries_drain (s : St) (l lk id : Nat) (h1 : ∀ lk id, s.entries lk id ≤ 1) :
    (s.drain l).entries lk id = if l = lk then 0 else s.entries lk id := by
  unfold St.drain
  split
  · rename_i e
    subst e
    have key : ∀ (m : List Handle) (t : St), (∀ lk id, t.entries lk id ≤ 1) →
        (m.foldl St.remove t).entries l id ≤ t.entries l id ∧
        ((∃ h ∈ m, h ∈ t.held ∧ (isEntryOf l id h) = true) →
          (m.foldl St.remove t).entries l id = 0) := by
      intro m
      induction m with
      | nil => intro t _; exact ⟨Nat.le_refl _, fun h => by obtain ⟨h, hm, _⟩ := h; simp at hm⟩
      | cons x m ih =>
        intro t ht
        have hle : ∀ lk id, (t.remove x).entries lk id ≤ t.entries lk id := by
          intro lk id
          unfold St.entries
          rw [held_remove]
          exact (List.erase_sublist).countP_le
        obtain ⟨i1, i2⟩ := ih (t.remove x) (fun lk id => Nat.le_trans (hle lk id) (ht lk id))
        refine ⟨by rw [List.foldl_cons]; exact Nat.le_trans i1 (hle l id), ?_⟩
        rintro ⟨h, hm, hh, hp⟩
        rw [List.foldl_cons]
        by_cases hxp : x ∈ t.held ∧ (isEntryOf l id x) = true
        · have := entries_remove hxp.1 l id
          rw [if_pos hxp.2] at this
          have := ht l id
          omega
        · refine i2 ⟨h, ?_, ?_, hp⟩
          · rcases List.mem_cons.mp hm with rfl | hm
            · exact absurd ⟨hh, hp⟩ hxp
            · exact hm
          · rw [held_remove]
            refine (List.mem_erase_of_ne ?_).mpr hh
            rintro rfl
            exact hxp ⟨hh, hp⟩
    by_cases h0 : s.entries l id = 0
    · exact Nat.le_zero.mp (h0 ▸ (key _ s h1).1)
    · apply (key _ s h1).2
      obtain ⟨h, hm, hp⟩ := List.countP_pos_iff.mp (Nat.pos_of_ne_zero h0)
      refine ⟨h, ?_, hm, hp⟩
      rw [List.mem_filter]
      refine ⟨hm, ?_⟩
      cases h <;> simp_all [isEntryOf]
  · rename_i hne
    apply entries_foldl
    intro h hm
    rw [List.mem_filter] at hm
    have h2 := hm.2
    cases h with
    | entry l' i ch =>
      simp only [beq_iff_eq] at h2
      subst h2
      simp [isEntryOf, hne]
    | _ => rfl

theorem entries_call {s : St} (h1 : ∀ lk id, s.entries lk id ≤ 1) (op : Op) (lk id : Nat) :
    (s.call op).1.entries lk id = entriesAfter s op lk id (s.entries lk id) := by
  have hadd : ∀ (x : Handle), x.isEntry = false → (s.add x).entries lk id = s.entries lk id := by
    intro x hx
    rw [entries_add]
    cases x <;> simp_all [Handle.isEntry, isEntryOf]
  have hrem : ∀ (x : Handle), x.isEntry = false → (s.remove x).entries lk id = s.entries lk id := by
    intro x hx
    exact entries_foldl [x] s lk id (by
      intro h hm
      simp only [List.mem_cons, List.not_mem_nil, or_false] at hm
      subst hm
      cases h <;> simp_all [Handle.isEntry, isEntryOf])
  cases op with
  | prepare =>
    have := hadd (.ref { id := s.next, ch := s.next + 1, abort := s.next + 2, links := s.next + 3, sem := s.next + 4,
                         startErr := s.next + 5, stopErr := s.next + 6 }) rfl
    simpa [St.call, St.prepare, entriesAfter, St.entries] using this
  | clone h =>
    simp only [St.call, entriesAfter]
    split
    · rename_i hh
      exact hadd _ (by obtain ⟨_, hh⟩ := hh; cases h <;> simp_all [Handle.isEntry, Handle.clone])
    · rfl
  | drop h =>
    simp only [St.call, entriesAfter]
    split
    · rename_i hh; exact hrem _ hh
    · rfl
  | downgrade h =>
    simp only [St.call, entriesAfter]
    split
    · cases h <;> simp only [St.downgrade] <;> first | rfl | exact hadd _ rfl
    · rfl
  | upgrade h =>
    simp only [St.call, entriesAfter]
    split
    · unfold St.upgrade
      split
      · rfl
      · cases h <;> first | rfl | exact hadd _ rfl
    · rfl
  | recipient c =>
    simp only [St.call, entriesAfter]
    split
    · rename_i hc
      simp only [St.entries, List.countP_append, List.countP_cons, List.countP_nil]
      rw [(List.perm_cons_erase hc).countP_eq, List.countP_cons]
      simp [isEntryOf]
    · rfl
  | mailbox c =>
    simp only [St.call, entriesAfter]
    split
    · exact hadd _ rfl
    · rfl
  | link a b =>
    simp only [St.call, entriesAfter]
    by_cases hh : Handle.ref a ∈ s.held ∧ Handle.ref b ∈ s.held
    · rw [if_pos hh]
      unfold St.link
      by_cases hid : a.id = b.id
      · simp [hid]
      · simp only [hid, if_false]
        have e1 : ∀ lk id, ((s.dropEntry a.links b.id).add (.entry a.links b.id b.ch)).entries lk id =
            if lk = a.links ∧ id = b.id then 1 else s.entries lk id := by
          intro lk id
          rw [entries_add, entries_dropEntry h1]
          by_cases e : lk = a.links ∧ id = b.id
          · obtain ⟨rfl, rfl⟩ := e; simp [isEntryOf]
          · have e' : ¬ (a.links = lk ∧ b.id = id) := fun h => e ⟨h.1.symm, h.2.symm⟩
            simp [isEntryOf, e, e']
        rw [entries_add, entries_dropEntry (fun lk id => by rw [e1]; split <;> simp [h1]), e1]
        by_cases e : lk = b.links ∧ id = a.id
        · obtain ⟨rfl, rfl⟩ := e; simp [isEntryOf, hh, hid]
        · have e' : ¬ (b.links = lk ∧ a.id = id) := fun h => e ⟨h.1.symm, h.2.symm⟩
          simp [isEntryOf, e, e', hh, hid]
    · rw [if_neg hh, if_neg (fun h => hh ⟨h.1, h.2.1⟩)]
  | unlink a b =>
    simp only [St.call, entriesAfter]
    by_cases hh : Handle.ref a ∈ s.held ∧ Handle.ref b ∈ s.held
    · rw [if_pos hh]
      unfold St.unlink
      by_cases hid : a.id = b.id
      · simp [hid]
      · simp only [hid, if_false]
        have e1 := entries_dropEntry h1 a.links b.id
        rw [entries_dropEntry (fun lk id => by rw [e1]; split <;> simp [h1]), e1]
        by_cases e : lk = b.links ∧ id = a.id
        · simp [e, hh, hid]
        · by_cases e2 : lk = a.links ∧ id = b.id
          · simp [e2, hh, hid]
          · simp [e, e2]
    · rw [if_neg hh, if_neg (fun h => hh ⟨h.1, h.2.1⟩)]
  | drain l =>
    simp only [St.call, entriesAfter]
    exact entries_drain s l lk id h1

/-- **C72** The links that `weak_count` counts are those there are: a link map has at most one entry for an actor, `link`
puts the two entries there, `unlink` takes both away, the end of an actor takes away all of its own map, and nothing else
changes them; in particular dropping handles leaves the links. -/
theorem links_counted (ops : List Op) (op : Op) (lk id : Nat) :
    (after ops).entries lk id ≤ 1 ∧
    (after (ops ++ [op])).entries lk id = entriesAfter (after ops) op lk id ((after ops).entries lk id) := by
  have h1 : ∀ lk id, (after ops).entries lk id ≤ 1 :=
    induct (P := fun s => ∀ lk id, s.entries lk id ≤ 1) (by intro lk id; simp [St.entries])
      (fun s op hs lk id => by
        rw [entries_call hs]
        have := hs lk id
        unfold entriesAfter
        split <;> first | exact this | (split <;> first | exact this | exact Nat.le_refl _ | exact Nat.zero_le _)) ops
  exact ⟨h1 lk id, by rw [after_snoc]; exact entries_call h1 op lk id⟩

example : (after handleDemo).entries 3 14 = 1 ∧ (after (handleDemo ++ [.unlink (fresh 0) (fresh 14)])).entries 3 14 = 0 ∧
    (after (handleDemo ++ [.unlink (fresh 0) (fresh 14)])).weakCount (.ref (fresh 0)) = 1 ∧
    (after (handleDemo ++ [.drain 3])).entries 3 14 = 0 ∧ (after (handleDemo ++ [.drain 3])).entries 17 0 = 1 := by decide

/-- The handle that the call `op` takes from the program, if it has it: `drop`, and `recipient`, which consumes the
reference. (Specification.) -/
def takes : Op → Handle → Bool
  | .drop x, h => x == h
  | .recipient c, h => .ref c == h
  | _, _ => false

theorem count_foldl (l : List Handle) (s : St) (h : Handle) (hl : ∀ x ∈ l, x.isEntry = true) (he : h.isEntry = false) :
    (l.foldl St.remove s).held.count h = s.held.count h := by
  induction l generalizing s with
  | nil => rfl
  | cons x l ih =>
    rw [List.foldl_cons, ih _ (fun y hy => hl y (List.mem_cons_of_mem _ hy)), held_remove]
    refine List.count_erase_of_ne ?_
    rintro rfl
    simp [hl h List.mem_cons_self] at he

theorem count_dropEntry (s : St) (l i : Nat) (h : Handle) (he : h.isEntry = false) :
    (s.dropEntry l i).held.count h = s.held.count h := by
  unfold St.dropEntry
  split
  · rename_i x hx
    have := List.find?_some hx
    refine count_foldl [x] s h ?_ he
    intro y hy
    rw [List.mem_singleton] at hy
    subst hy
    cases y <;> simp_all [Handle.isEntry]
  · rfl

theorem count_add (s : St) (x h : Handle) :
    (s.add x).held.count h = s.held.count h + if x = h then 1 else 0 := by
  have : (s.add x).held = s.held ++ [x] := by unfold St.add; split <;> rfl
  rw [this, List.count_append, List.count_singleton]
  by_cases e : x = h <;> simp [e]

theorem count_link (s : St) (a b : Ref) (h : Handle) (he : h.isEntry = false) :
    (s.link a b).held.count h = s.held.count h ∧ (s.unlink a b).held.count h = s.held.count h := by
  have hn : ∀ l i c, Handle.entry l i c ≠ h := by rintro l i c rfl; simp [Handle.isEntry] at he
  unfold St.link St.unlink
  split
  · exact ⟨rfl, rfl⟩
  · simp only [count_add, count_dropEntry _ _ _ _ he, hn, if_false, Nat.add_zero, and_self]

theorem count_call (s : St) (op : Op) (h : Handle) (he : h.isEntry = false) :
    (s.call op).1.held.count h + (if takes op h = true ∧ h ∈ s.held then 1 else 0) =
      s.held.count h + if (s.call op).2 = .got h then 1 else 0 := by
  cases op with
  | prepare =>
    have := count_add s (.ref (fresh s.next)) h
    by_cases e : Handle.ref (fresh s.next) = h
    · rw [if_pos e] at this
      rw [if_neg (by simp [takes]), if_pos (show (s.call .prepare).2 = .got h from congrArg Out.got e)]
      exact this
    · rw [if_neg e] at this
      rw [if_neg (by simp [takes]), if_neg (show ¬ (s.call .prepare).2 = .got h from fun h2 => e (Out.got.inj h2))]
      exact this
  | clone x =>
    simp only [St.call, takes, Bool.false_eq_true, false_and, if_false, Nat.add_zero]
    split
    · simp only [count_add, Out.got.injEq]
    · simp
  | drop x =>
    simp only [St.call, takes, beq_iff_eq]
    split
    · simp only [held_remove, reduceCtorEq, if_false, Nat.add_zero]
      by_cases e : x = h
      · subst e
        by_cases hm : x ∈ s.held
        · have := List.count_pos_iff.mpr hm
          simp only [List.count_erase_self, true_and, hm, if_true]
          omega
        · simp [hm, List.erase_of_not_mem hm]
      · simp [e, List.count_erase_of_ne (Ne.symm e)]
    · rename_i hx
      simp only [reduceCtorEq, if_false, Nat.add_zero]
      have : ¬ x = h := by rintro rfl; exact hx he
      simp [this]
  | downgrade x =>
    simp only [St.call, takes, Bool.false_eq_true, false_and, if_false, Nat.add_zero]
    split
    · cases x <;> simp [St.downgrade, count_add]
    · simp
  | upgrade x =>
    simp only [St.call, takes, Bool.false_eq_true, false_and, if_false, Nat.add_zero]
    split
    · unfold St.upgrade
      split
      · simp
      · cases x <;> simp [count_add]
    · simp
  | recipient c =>
    simp only [St.call, takes, beq_iff_eq]
    by_cases hm : Handle.ref c ∈ s.held
    · simp only [hm, if_true, List.count_append, List.count_singleton, Out.got.injEq]
      by_cases e : h = .ref c
      · subst e
        have := List.count_pos_iff.mpr hm
        simp [hm]
      · have e2 : ¬ (Handle.ref c = h ∧ h ∈ s.held) := fun h2 => e h2.1.symm
        rw [if_neg e2, List.count_erase_of_ne e]
        by_cases e3 : Handle.rcp c = h <;> simp [e3]
    · simp only [hm, if_false, reduceCtorEq]
      have e2 : ¬ (Handle.ref c = h ∧ h ∈ s.held) := by rintro ⟨rfl, h2⟩; exact hm h2
      rw [if_neg e2]
  | mailbox c =>
    simp only [St.call, takes, Bool.false_eq_true, false_and, if_false, Nat.add_zero]
    split
    · simp [count_add]
    · simp
  | link a b =>
    simp only [St.call, takes, Bool.false_eq_true, false_and, if_false, Nat.add_zero]
    split
    · simp [(count_link s a b h he).1]
    · simp
  | unlink a b =>
    simp only [St.call, takes, Bool.false_eq_true, false_and, if_false, Nat.add_zero]
    split
    · simp [(count_link s a b h he).2]
    · simp
  | drain l =>
    simp only [St.call, takes, Bool.false_eq_true, false_and, if_false, Nat.add_zero]
    refine count_foldl _ s h ?_ he
    intro x hx
    have := (List.mem_filter.mp hx).2
    cases x <;> simp_all [Handle.isEntry]

/-- **C72** The handles that the counts count are those the program has: a call adds the handle it returns and no other,
and only `drop` of a handle and `recipient()` of a reference take one away; in particular neither the end of an actor nor
links and unlinks touch the handles in the hands of a program. -/
theorem handles_counted (ops : List Op) (op : Op) (h : Handle) (he : h.isEntry = false) :
    (after (ops ++ [op])).held.count h + (if takes op h = true ∧ h ∈ (after ops).held then 1 else 0) =
      (after ops).held.count h + if ((after ops).call op).2 = .got h then 1 else 0 := by
  rw [after_snoc]
  exact count_call (after ops) op h he

example : (after handleDemo).held.count (.ref (fresh 0)) = 4 ∧
    (after (handleDemo ++ [.drain 3])).held.count (.ref (fresh 0)) = 4 ∧
    (after (handleDemo ++ [.drop (.ref (fresh 0))])).held.count (.ref (fresh 0)) = 3 ∧
    (after (handleDemo ++ [.recipient (fresh 0)])).held.count (.ref (fresh 0)) = 3 := by decide

/-- **C72**, not as documented ("the number of `ActorRef` handles", "the number of `WeakActorRef` handles"): the counts
contain recipients and links. -/
theorem counts_not_as_documented :
    (∃ ops c, .rcp c ∈ (after ops).held ∧ (after ops).count isRef c.ch = 0 ∧ (after ops).strongCount (.rcp c) = 1) ∧
    (∃ ops c, .ref c ∈ (after ops).held ∧ (after ops).count isWeakRef c.ch = 0 ∧ (after ops).weakCount (.ref c) = 1) :=
  ⟨⟨[.prepare, .recipient (fresh 0)], fresh 0, by decide⟩,
    ⟨[.prepare, .prepare, .link (fresh 0) (fresh 7)], fresh 0, by decide⟩⟩

/-- **C72**, exactly when the counts are as documented: `strong_count` is the number of `ActorRef`s just while there is no
`Recipient` and no `MailboxSender` of the actor, `weak_count` that of the `WeakActorRef`s just while there is no
`WeakMailboxSender` of it and it is in nobody's links. In all other states they are too large. -/
theorem counts_as_documented_iff (ops : List Op) (h : Handle) :
    ((after ops).strongCount h = (after ops).count isRef h.ch ↔
      ∀ x ∈ (after ops).held, x.ch = h.ch → isRecipient x = false ∧ isSender x = false) ∧
    ((after ops).weakCount h = (after ops).count isWeakRef h.ch ↔
      ∀ x ∈ (after ops).held, x.ch = h.ch → isWeakSender x = false ∧ x.isEntry = false) ∧
    (after ops).count isRef h.ch ≤ (after ops).strongCount h ∧ (after ops).count isWeakRef h.ch ≤ (after ops).weakCount h := by
  have zero : ∀ p : Handle → Bool, (after ops).count p h.ch = 0 ↔ ∀ x ∈ (after ops).held, x.ch = h.ch → p x = false := by
    intro p
    simp only [St.count, List.countP_eq_zero, Bool.and_eq_true, beq_iff_eq, not_and]
    refine forall_congr' fun x => forall_congr' fun _ => ?_
    cases p x <;> simp
  have h1 := strong_count_exact ops h
  have h2 := weak_count_exact ops h
  have two : ∀ p q : Handle → Bool, ((after ops).count p h.ch = 0 ∧ (after ops).count q h.ch = 0) ↔
      ∀ x ∈ (after ops).held, x.ch = h.ch → p x = false ∧ q x = false := by
    intro p q
    rw [zero, zero]
    exact ⟨fun hh x hx he => ⟨hh.1 x hx he, hh.2 x hx he⟩, fun hh => ⟨fun x hx he => (hh x hx he).1, fun x hx he => (hh x hx he).2⟩⟩
  refine ⟨?_, ?_, by omega, by omega⟩
  · rw [← two, h1]; omega
  · rw [← two, h2]; omega

example : (after [.prepare]).strongCount (.ref (fresh 0)) = (after [.prepare]).count isRef 1 ∧
    (after [.prepare, .clone (.ref (fresh 0)), .recipient (fresh 0)]).strongCount (.ref (fresh 0)) = 2 ∧
    (after [.prepare, .clone (.ref (fresh 0)), .recipient (fresh 0)]).count isRef 1 = 1 := by decide

/-- **C72** `upgrade` of a `WeakActorRef` gives a reference to this very actor if there is any `ActorRef`, `Recipient` or
`MailboxSender` of it left, and `None` if there is none. It never panics. -/
theorem upgrade_iff (ops : List Op) (w : Weak) (hm : .weak w ∈ (after ops).held) :
    ((∃ h ∈ (after ops).held, (isRef h || isRecipient h || isSender h) = true ∧ h.ch = w.mailbox) ∧
      ∃ c : Ref, ((after ops).call (.upgrade (.weak w))).2 = .got (.ref c) ∧
        (Handle.ref c).objects = (Handle.weak w).objects) ∨
    ((¬ ∃ h ∈ (after ops).held, (isRef h || isRecipient h || isSender h) = true ∧ h.ch = w.mailbox) ∧
      (after ops).call (.upgrade (.weak w)) = (after ops, .nothing)) := by
  have hs := (exact_after ops).strong w.mailbox
  have hk : ∀ h : Handle, h.strong = (isRef h || isRecipient h || isSender h) := by intro h; cases h <;> rfl
  by_cases h0 : (after ops).strong w.mailbox = 0
  · right
    constructor
    · rintro ⟨h, h1, h2, h3⟩
      rw [h0] at hs
      have := List.countP_eq_zero.mp hs.symm h h1
      simp [hk, h2, h3] at this
    · simp [St.call, hm, St.upgrade, Handle.ch, h0]
  · left
    constructor
    · rw [hs] at h0
      obtain ⟨h, h1, h2⟩ := List.countP_pos_iff.mp (Nat.pos_of_ne_zero h0)
      simp only [Bool.and_eq_true, beq_iff_eq] at h2
      exact ⟨h, h1, by rw [← hk]; exact h2.1, h2.2⟩
    · exact ⟨w.upgraded, by simp [St.call, hm, St.upgrade, Handle.ch, h0], rfl⟩

example : .weak (fresh 0).downgrade ∈ (after handleDemo).held ∧
    ((after handleDemo).call (.upgrade (.weak (fresh 0).downgrade))).2 = .got (.ref (fresh 0)) := by decide

theorem ch_lt {s : St} (h : Coh s) {x : Handle} (hm : x ∈ s.held) : x.ch < s.next := by
  have h0 : ∀ c ∈ s.made, c.ch < s.next := by
    intro c hc
    obtain ⟨n, rfl, h2, h3⟩ := h.made c hc
    have := h.next
    simp only [fresh]
    omega
  have ho := h.held x hm
  cases x with
  | ref c => exact h0 _ ho
  | rcp c => exact h0 _ ho
  | weak w => exact h0 _ ho
  | weakRcp w => exact ho.elim
  | sender ch => obtain ⟨c, h1, h2⟩ := ho; subst h2; exact h0 _ h1
  | weakSender ch => obtain ⟨c, h1, h2⟩ := ho; subst h2; exact h0 _ h1
  | entry lk id ch => obtain ⟨a, _, b, h1, _, _, h2, _⟩ := ho; subst h2; exact h0 _ h1

/-- **C72** Gone is gone: if no `ActorRef`, `Recipient` or `MailboxSender` of an actor is left, there will never be one
again, whatever the program does, and every later `upgrade` of a `WeakActorRef` of it gives `None`. -/
theorem gone_for_good (ops ops' : List Op) (x : Handle) (hx : x ∈ (after ops).held)
    (hg : ∀ h ∈ (after ops).held, h.ch = x.ch → (isRef h || isRecipient h || isSender h) = false) :
    (∀ h ∈ (after (ops ++ ops')).held, h.ch = x.ch → (isRef h || isRecipient h || isSender h) = false) ∧
    ∀ w, .weak w ∈ (after (ops ++ ops')).held → w.mailbox = x.ch →
      ((after (ops ++ ops')).call (.upgrade (.weak w))).2 = .nothing := by
  have hk : ∀ h : Handle, (isRef h || isRecipient h || isSender h) = h.strong := by intro h; cases h <;> rfl
  simp only [hk] at hg ⊢
  have h1 : ∀ h ∈ (after (ops ++ ops')).held, h.ch = x.ch → h.strong = false := by
    have hlt := ch_lt (coh_after ops) hx
    clear hx
    induction ops' generalizing ops with
    | nil => simpa using hg
    | cons op l ih =>
      have := ih (ops ++ [op]) (by
        rw [after_snoc]
        intro h hm hch
        have he := exact_after ops
        have h0 : (after ops).strong x.ch = 0 := by
          rw [he.strong]
          apply List.countP_eq_zero.mpr
          intro y hy hb
          simp only [Bool.and_eq_true, beq_iff_eq] at hb
          rw [hg y hy hb.2] at hb
          cases hb.1
        cases born hm with
        | old _ _ hm => exact hg _ hm hch
        | prepare => change (after ops).next + 1 = x.ch at hch; omega
        | clone y hy he =>
          have := hg y hy (by cases y <;> first | exact hch | rfl)
          cases y <;> first | exact this | rfl
        | weak c hm => rfl
        | weakSender ch hm => rfl
        | up w hm hs => exact absurd (by rw [show w.mailbox = x.ch from hch]; exact h0) hs
        | upRcp w hm hs => exact absurd (by rw [show w.mailbox = x.ch from hch]; exact h0) hs
        | upSender ch hm hs => exact absurd (by rw [show ch = x.ch from hch]; exact h0) hs
        | rcp c hc => exact hg (.ref c) hc hch
        | sender c hc => exact hg (.ref c) hc hch
        | entry => rfl
        | entry' => rfl) (by
        rw [after_snoc]
        rcases call_next (after ops) op with ⟨e, _⟩ | ⟨e, _⟩ <;> omega)
      simpa using this
  refine ⟨h1, fun w hm hw => ?_⟩
  have h0 : (after (ops ++ ops')).strong w.mailbox = 0 := by
    rw [(exact_after _).strong]
    apply List.countP_eq_zero.mpr
    intro y hy hb
    simp only [Bool.and_eq_true, beq_iff_eq] at hb
    rw [h1 y hy (by rw [hb.2, hw])] at hb
    cases hb.1
  simp [St.call, hm, St.upgrade, Handle.ch, h0]

/-- The only reference is dropped; a weak one is left. -/
example : .weak (fresh 0).downgrade ∈ (after [.prepare, .downgrade (.ref (fresh 0)), .drop (.ref (fresh 0))]).held ∧
    ∀ h ∈ (after [.prepare, .downgrade (.ref (fresh 0)), .drop (.ref (fresh 0))]).held,
      h.ch = (Handle.weak (fresh 0).downgrade).ch → (isRef h || isRecipient h || isSender h) = false := by decide

/-- **C72**, not as documented: `Recipient::downgrade` always panics (it is `todo!()`), so that there is never a
`WeakRecipient` in any program. -/
theorem no_weak_recipient (ops : List Op) :
    (∀ w, .weakRcp w ∉ (after ops).held) ∧
    ∀ c, .rcp c ∈ (after ops).held → (after ops).call (.downgrade (.rcp c)) = (after ops, .panicked) :=
  ⟨fun _ hm => (coh_after ops).held _ hm, fun c hm => by simp [St.call, hm, St.downgrade]⟩

example : .rcp (fresh 7) ∈ (after handleDemo).held := by decide

end Verif.Handles
