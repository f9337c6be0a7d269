import Verif.Atomic.Model

/-!
Property theorems C98: however the calls that touch link sets are interleaved, each of them happens at one moment.
-/

namespace Verif.Atomic

/-! ## The specification: calls that happen at one moment -/

/-- Change one link set. -/
def put (f : Sets) (a b : Nat) (e : Option Entry) : Sets := fun x y => if x = a ∧ y = b then e else f x y

/-- What a call, made alone, makes of the link sets. -/
def Call.effect : Call → Sets → Sets
  | .link a b, f | .blockingLink a b, f => if a = b then f else put (put f a b (some .here)) b a (some .here)
  | .unlink a b, f | .blockingUnlink a b, f => if a = b then f else put (put f a b none) b a none
  | .addRemote a b k, f => put f a b (some (.remote k))
  | .forget a b, f => put f a b none
  | .finish a, f => fun x => if x = a then fun _ => none else f x
  | .look _, f | .debug _, f => f

/-- What a call, made alone, gets to see. -/
def Call.sight : Call → Sets → Option LinkSet
  | .finish a, f | .look a, f | .debug a, f => some (f a)
  | _, _ => none

/-- The link sets after calls made one after the other. -/
def serial (c : Nat → Call) (l : List Nat) : Sets := l.foldl (fun f t => (c t).effect f) (fun _ _ => none)

/-! ## What is known of a call -/

/-- What the rest of a program makes of the link set of `a`. -/
def done (a : Nat) (p : List Act) (f : LinkSet) : LinkSet :=
  p.foldl (fun f x => match x with | .work w => if a = w.set then w.on f else f | _ => f) f

/-- The first link set the rest of a program gets to see. -/
def looks : List Act → Option Nat
  | [] => none
  | .work w :: p => if w.sees then some w.set else looks p
  | _ :: p => looks p

/-- With the locks `asked` for and those of them `held`, and having begun to work or not, the rest of a program requests no
lock once it works, works under locks it has, and gives all back. -/
def Plan : List Nat → List Nat → Bool → List Act → Prop
  | asked, _, _, [] => asked = []
  | asked, held, w, .req a :: p => w = false ∧ a ∉ asked ∧ Plan (a :: asked) held false p
  | asked, held, w, .await a :: p => w = false ∧ a ∈ asked ∧ Plan asked (a :: held) false p
  | asked, held, w, .try a :: p => w = false ∧ asked = [] ∧ held = [] ∧ Plan [a] [a] false p
  | asked, held, _, .work x :: p => x.set ∈ held ∧ (∀ a ∈ asked, a ∈ held) ∧ looks p = none ∧ Plan asked held true p
  | asked, held, w, .rel a :: p => w = true ∧ a ∈ held ∧ Plan (asked.filter (· != a)) (held.filter (· != a)) true p

theorem done_cons (a : Nat) (x : Act) (p : List Act) (f : LinkSet) :
    done a (x :: p) f = done a p (match x with | .work w => if a = w.set then w.on f else f | _ => f) := rfl

/-- A call that works changes only what it holds. -/
theorem Plan.same {asked held : List Nat} {p : List Act} (h : Plan asked held true p) {a : Nat} (ha : a ∉ held)
    (f : LinkSet) : done a p f = f := by
  induction p generalizing asked held f with
  | nil => rfl
  | cons x p ih =>
    rw [done_cons]
    cases x with
    | work w =>
      obtain ⟨h1, h2, _, h3⟩ := h
      have : a ≠ w.set := fun e => ha (e ▸ h1)
      simp only [this, if_false]
      exact ih h3 ha _
    | rel b => exact ih h.2.2 (fun hm => ha (List.mem_filter.mp hm).1) _
    | req b => exact absurd h.1 (by simp)
    | await b => exact absurd h.1 (by simp)
    | «try» b => exact absurd h.1 (by simp)

/-- What is known of a call: it is over, or it follows a plan. -/
structure Known (c : Nat → Call) (s : St) (t : Nat) (asked held : List Nat) (w : Bool) : Prop where
  plan : Plan asked held w (s.rest t)
  queued : ∀ a, t ∈ s.queue a → a ∈ asked
  holds : ∀ a ∈ held, (s.queue a).head? = some t
  all : w = true → ∀ a ∈ asked, a ∈ held
  worked : w = true ↔ t ∈ s.begun
  effect : w = false → ∀ a f, done a (s.rest t) (f a) = (c t).effect f a
  sight : w = false → ∀ f, (c t).sight f = (looks (s.rest t)).map f
  blind : w = true → looks (s.rest t) = none

/-- A call that is over, or will never do anything. -/
structure Over (s : St) (t : Nat) : Prop where
  rest : s.rest t = []
  gone : ∀ a, t ∉ s.queue a

theorem put_same (f : Sets) (a b : Nat) (e : Option Entry) : put f a b e a = fun x => if x = b then e else f a x := by
  funext x; simp [put]

theorem put_other (f : Sets) {a x : Nat} (h : x ≠ a) (b : Nat) (e : Option Entry) : put f a b e x = f x := by
  funext y; simp [put, h]

/-- Every program follows a plan and does what the call is to do. -/
theorem Call.plan (k : Call) : k.prog = [] ∧ k.effect = id ∧ (∀ f, k.sight f = none) ∨
    (Plan [] [] false k.prog ∧ (∀ a f, done a k.prog (f a) = k.effect f a) ∧
      ∀ f, k.sight f = (looks k.prog).map f) := by
  have two : ∀ a b : Nat, a ≠ b → ∀ (e : Option Entry) (f : Sets) (x : Nat),
      put (put f a b e) b a e x = if x = b then (fun y => if y = a then e else f x y)
        else if x = a then (fun y => if y = b then e else f x y) else f x := by
    intro a b hab e f x
    funext y
    by_cases h1 : x = b
    · subst h1
      have : ¬ (x = a) := fun h => hab h.symm
      simp [put, this]
    · by_cases h2 : x = a
      · subst h2; simp [put, h1]
      · simp [put, h1, h2]
  cases k with
  | link a b =>
    by_cases hab : a = b
    · left; subst hab; refine ⟨by simp [Call.prog, joined], ?_, fun _ => rfl⟩; funext f; simp [Call.effect]
    · right
      refine ⟨?_, ?_, ?_⟩
      · simp [Call.prog, joined, hab, Ne.symm hab, Plan, Work.set, looks, Work.sees]
      · intro x f
        simp only [Call.effect, hab, if_false, two a b hab]
        simp only [Call.prog, joined, hab, if_false, done, List.foldl_cons, List.foldl_nil, Work.set, Work.on]
        by_cases h1 : x = b
        · have : ¬ (x = a) := fun h => hab (h.symm.trans h1)
          simp [h1, Ne.symm hab]
        · by_cases h2 : x = a <;> simp [h1, h2, hab]
      · intro f; simp [Call.sight, Call.prog, joined, hab, looks, Work.sees]
  | blockingLink a b =>
    by_cases hab : a = b
    · left; subst hab; refine ⟨by simp [Call.prog, inTurn], ?_, fun _ => rfl⟩; funext f; simp [Call.effect]
    · right
      refine ⟨?_, ?_, ?_⟩
      · simp [Call.prog, inTurn, hab, Ne.symm hab, Plan, Work.set, looks, Work.sees]
      · intro x f
        simp only [Call.effect, hab, if_false, two a b hab]
        simp only [Call.prog, inTurn, hab, if_false, done, List.foldl_cons, List.foldl_nil, Work.set, Work.on]
        by_cases h1 : x = b
        · simp [h1, Ne.symm hab]
        · by_cases h2 : x = a <;> simp [h1, h2, hab]
      · intro f; simp [Call.sight, Call.prog, inTurn, hab, looks, Work.sees]
  | unlink a b =>
    by_cases hab : a = b
    · left; subst hab; refine ⟨by simp [Call.prog, joined], ?_, fun _ => rfl⟩; funext f; simp [Call.effect]
    · right
      refine ⟨?_, ?_, ?_⟩
      · simp [Call.prog, joined, hab, Ne.symm hab, Plan, Work.set, looks, Work.sees]
      · intro x f
        simp only [Call.effect, hab, if_false, two a b hab]
        simp only [Call.prog, joined, hab, if_false, done, List.foldl_cons, List.foldl_nil, Work.set, Work.on]
        by_cases h1 : x = b
        · simp [h1, Ne.symm hab]
        · by_cases h2 : x = a <;> simp [h1, h2, hab]
      · intro f; simp [Call.sight, Call.prog, joined, hab, looks, Work.sees]
  | blockingUnlink a b =>
    by_cases hab : a = b
    · left; subst hab; refine ⟨by simp [Call.prog, inTurn], ?_, fun _ => rfl⟩; funext f; simp [Call.effect]
    · right
      refine ⟨?_, ?_, ?_⟩
      · simp [Call.prog, inTurn, hab, Ne.symm hab, Plan, Work.set, looks, Work.sees]
      · intro x f
        simp only [Call.effect, hab, if_false, two a b hab]
        simp only [Call.prog, inTurn, hab, if_false, done, List.foldl_cons, List.foldl_nil, Work.set, Work.on]
        by_cases h1 : x = b
        · simp [h1, Ne.symm hab]
        · by_cases h2 : x = a <;> simp [h1, h2, hab]
      · intro f; simp [Call.sight, Call.prog, inTurn, hab, looks, Work.sees]
  | addRemote a b k =>
    right
    refine ⟨by simp [Call.prog, underLock, Plan, Work.set, looks], ?_,
      fun f => by simp [Call.sight, Call.prog, underLock, looks, Work.sees]⟩
    intro x f
    by_cases h : x = a
    · subst h; simp [Call.effect, put_same, Call.prog, underLock, done, Work.set, Work.on]
    · simp [Call.effect, put_other f h, Call.prog, underLock, done, Work.set, h]
  | forget a b =>
    right
    refine ⟨by simp [Call.prog, underLock, Plan, Work.set, looks], ?_,
      fun f => by simp [Call.sight, Call.prog, underLock, looks, Work.sees]⟩
    intro x f
    by_cases h : x = a
    · subst h; simp [Call.effect, put_same, Call.prog, underLock, done, Work.set, Work.on]
    · simp [Call.effect, put_other f h, Call.prog, underLock, done, Work.set, h]
  | finish a =>
    right
    refine ⟨by simp [Call.prog, underLock, Plan, Work.set, looks], ?_,
      fun f => by simp [Call.sight, Call.prog, underLock, looks, Work.sees, Work.set]⟩
    intro x f
    by_cases h : x = a
    · subst h; simp [Call.effect, Call.prog, underLock, done, Work.set, Work.on]
    · simp [Call.effect, Call.prog, underLock, done, Work.set, h]
  | look a =>
    right
    refine ⟨by simp [Call.prog, underLock, Plan, Work.set, looks], ?_,
      fun f => by simp [Call.sight, Call.prog, underLock, looks, Work.sees, Work.set]⟩
    intro x f
    simp [Call.effect, Call.prog, underLock, done, Work.on]
  | debug a =>
    right
    refine ⟨by simp [Call.prog, Plan, Work.set, looks], ?_,
      fun f => by simp [Call.sight, Call.prog, looks, Work.sees, Work.set]⟩
    intro x f
    simp [Call.effect, Call.prog, done, Work.on]

/-! ## The invariant -/

/-- A call is over, or it follows a plan. -/
def Told (c : Nat → Call) (s : St) (t : Nat) : Prop := Over s t ∨ ∃ asked held w, Known c s t asked held w

theorem Told.other {c : Nat → Call} {s s' : St} {u : Nat} (h : Told c s u) (hr : s'.rest u = s.rest u)
    (hq : ∀ a, u ∈ s'.queue a → u ∈ s.queue a)
    (hh : ∀ a, (s.queue a).head? = some u → (s'.queue a).head? = some u)
    (hb : u ∈ s'.begun ↔ u ∈ s.begun) : Told c s' u := by
  rcases h with h | ⟨asked, held, w, h⟩
  · exact .inl ⟨hr ▸ h.rest, fun a hm => h.gone a (hq a hm)⟩
  · refine .inr ⟨asked, held, w, ?_⟩
    exact
      { plan := hr ▸ h.plan
        queued := fun a hm => h.queued a (hq a hm)
        holds := fun a hm => hh a (h.holds a hm)
        all := h.all
        worked := h.worked.trans hb.symm
        effect := fun hw => hr ▸ h.effect hw
        sight := fun hw => hr ▸ h.sight hw
        blind := fun hw => hr ▸ h.blind hw }

/-- What holds after every history. -/
structure Inv (c : Nat → Call) (s : St) : Prop where
  told : ∀ t, Told c s t
  nodup : s.begun.Nodup
  data : ∀ a, (∃ t, (s.queue a).head? = some t ∧ t ∈ s.begun ∧ done a (s.rest t) (s.sets a) = serial c s.begun a) ∨
    ((∀ t, (s.queue a).head? = some t → t ∉ s.begun) ∧ s.sets a = serial c s.begun a)
  seen : ∀ l₁ t l₂, s.begun = l₁ ++ t :: l₂ → s.seen t = (c t).sight (serial c l₁)
  unseen : ∀ t, t ∉ s.begun → s.seen t = none
  dropped : ∀ t, s.dropped t = true → t ∉ s.begun ∧ s.rest t = []
  over : ∀ t, s.rest t = [] → (c t).prog ≠ [] → t ∈ s.begun ∨ s.dropped t = true ∨ ∃ a, c t = .debug a
  suffix : ∀ t, s.rest t <:+ (c t).prog

theorem head_append {l : List Nat} {t u : Nat} (h : l.head? = some u) : (l ++ [t]).head? = some u := by
  cases l with
  | nil => cases h
  | cons x l => exact h

theorem head_filter {l : List Nat} {t u : Nat} (h : l.head? = some u) (hu : u ≠ t) :
    (l.filter (· != t)).head? = some u := by
  cases l with
  | nil => cases h
  | cons x l =>
    have : x = u := Option.some.inj h
    subst this
    simp [hu]

theorem mem_of_head {l : List Nat} {u : Nat} (h : l.head? = some u) : u ∈ l := List.mem_of_head? h

theorem Inv.known {c : Nat → Call} {s : St} (h : Inv c s) {t : Nat} {x : Act} {p : List Act} (hp : s.rest t = x :: p) :
    ∃ asked held w, Known c s t asked held w := by
  rcases h.told t with ho | hk
  · rw [ho.rest] at hp; cases hp
  · exact hk

/-- Who has begun and is in a queue is its head. -/
theorem Inv.head {c : Nat → Call} {s : St} (h : Inv c s) {t a : Nat} (hb : t ∈ s.begun) (hq : t ∈ s.queue a) :
    (s.queue a).head? = some t := by
  rcases h.told t with ho | ⟨asked, held, w, hk⟩
  · exact absurd hq (ho.gone a)
  · exact hk.holds a (hk.all (hk.worked.mpr hb) a (hk.queued a hq))

/-- Who has begun works on, gives back, or is over. -/
theorem Inv.shape {c : Nat → Call} {s : St} (h : Inv c s) {t : Nat} (hb : t ∈ s.begun) :
    s.rest t = [] ∨ (∃ w p, s.rest t = .work w :: p) ∨ ∃ a p, s.rest t = .rel a :: p := by
  cases hp : s.rest t with
  | nil => exact .inl rfl
  | cons x p =>
    obtain ⟨asked, held, w, hk⟩ := h.known hp
    have hw := hk.worked.mpr hb
    have hpl := hk.plan
    rw [hp, hw] at hpl
    cases x with
    | work y => exact .inr (.inl ⟨y, p, rfl⟩)
    | rel a => exact .inr (.inr ⟨a, p, rfl⟩)
    | req a => exact absurd hpl.1 (by simp)
    | await a => exact absurd hpl.1 (by simp)
    | «try» a => exact absurd hpl.1 (by simp)

/-- The queues lose `t`, which has not begun: the link sets are what they were. -/
theorem Inv.data_filter {c : Nat → Call} {s : St} (h : Inv c s) {t : Nat} {r : Nat → List Act}
    (hr : ∀ u, u ≠ t → r u = s.rest u) (a : Nat)
    (ht : ∀ u, (s.queue a).head? = some u → u = t → u ∈ s.begun → done a (s.rest t) (s.sets a) = s.sets a) :
    (∃ u, ((s.queue a).filter (· != t)).head? = some u ∧ u ∈ s.begun ∧
      done a (r u) (s.sets a) = serial c s.begun a) ∨
    ((∀ u, ((s.queue a).filter (· != t)).head? = some u → u ∉ s.begun) ∧ s.sets a = serial c s.begun a) := by
  have out : ∀ u, ((s.queue a).filter (· != t)).head? = some u → u ∈ s.begun → (s.queue a).head? = some u := by
    intro u hu hb
    exact h.head hb (List.mem_filter.mp (mem_of_head hu)).1
  have tout : ∀ u, ((s.queue a).filter (· != t)).head? = some u → u ≠ t := by
    intro u hu
    simpa using (List.mem_filter.mp (mem_of_head hu)).2
  rcases h.data a with ⟨u, hu, hb, hd⟩ | ⟨hn, hd⟩
  · by_cases hut : u = t
    · right
      refine ⟨fun v hv hvb => ?_, ?_⟩
      · have := out v hv hvb
        rw [hu] at this
        exact tout v hv ((Option.some.inj this).symm.trans hut)
      · rw [← hd, hut]
        exact (ht u hu hut hb).symm
    · left
      exact ⟨u, head_filter hu hut, hb, by rw [hr u hut]; exact hd⟩
  · right
    exact ⟨fun u hu hb => hn u (out u hu hb) hb, hd⟩

/-- A program begins with a request for a lock. -/
theorem prog_head {k : Call} {x : Act} {p : List Act} (h : k.prog = x :: p) : (∃ a, x = .req a) ∨ ∃ a, x = .try a := by
  cases k <;> simp only [Call.prog, joined, inTurn, underLock] at h <;> (try split at h) <;> cases h <;> simp

/-- Only formatting tries for a lock. -/
theorem prog_try {k : Call} {a : Nat} {p : List Act} (h : .try a :: p <:+ k.prog) : ∃ a, k = .debug a := by
  have hm : Act.try a ∈ k.prog := h.subset (by simp)
  cases k <;> simp only [Call.prog, joined, inTurn, underLock] at hm <;> (try split at hm) <;> simp at hm
  exact ⟨_, rfl⟩

theorem suffix_tail {x : Act} {p q : List Act} (h : x :: p <:+ q) : p <:+ q := (List.suffix_cons x p).trans h

theorem inv_step {c : Nat → Call} {s : St} (h : Inv c s) (op : Op) : Inv c (s.step c op) := by
  cases op with
  | drop t =>
    simp only [St.step]
    split
    · next hd =>
      simp only [Bool.and_eq_true] at hd
      -- a dropped call has not begun
      have hnb : t ∉ s.begun := by
        intro hb
        rcases h.shape hb with he | ⟨w, p, he⟩ | ⟨a, p, he⟩ <;> simp [St.suspended, he] at hd
        all_goals
          rcases prog_head hd.2.symm with ⟨b, e⟩ | ⟨b, e⟩ <;> cases e
      constructor
      · intro u
        by_cases hu : u = t
        · subst hu
          refine .inl ⟨by simp [St.set], ?_⟩
          intro a hm
          simp at hm
        · refine (h.told u).other (by simp [St.set, hu]) ?_ ?_ Iff.rfl
          · intro a hm; exact (List.mem_filter.mp hm).1
          · intro a hm; exact head_filter hm hu
      · exact h.nodup
      · intro a
        refine h.data_filter (t := t) ?_ a ?_
        · intro u hu; simp [St.set, hu]
        · intro u _ hut hb; exact absurd (hut ▸ hb) hnb
      · exact h.seen
      · exact h.unseen
      · intro u hu
        dsimp at hu
        by_cases hut : u = t
        · subst hut; exact ⟨hnb, by simp [St.set]⟩
        · simp only [hut, if_false] at hu
          exact ⟨(h.dropped u hu).1, by simpa [St.set, hut] using (h.dropped u hu).2⟩
      · intro u hu hp
        by_cases hut : u = t
        · subst hut; exact .inr (.inl (by simp))
        · have := h.over u (by simpa [St.set, hut] using hu) hp
          dsimp [St.set]
          simpa [hut] using this
      · intro u
        by_cases hut : u = t
        · subst hut; simp [St.set]
        · simpa [St.set, hut] using h.suffix u
    · exact h
  | run t =>
    simp only [St.step]
    split
    · exact h
    · next a p hp =>
      obtain ⟨asked, held, w, hk⟩ := h.known hp
      have hpl := hk.plan
      rw [hp] at hpl
      obtain ⟨rfl, ha, hpl⟩ := hpl
      have hnb : t ∉ s.begun := fun hb => by have := hk.worked.mpr hb; cases this
      constructor
      · intro u
        by_cases hu : u = t
        · subst hu
          refine .inr ⟨a :: asked, held, false, ?_⟩
          exact
            { plan := by simpa [St.set] using hpl
              queued := by
                intro b hm
                dsimp at hm
                split at hm
                · next e => simp [e]
                · exact List.mem_cons_of_mem _ (hk.queued b hm)
              holds := by
                intro b hm
                dsimp
                split
                · exact head_append (hk.holds b hm)
                · exact hk.holds b hm
              all := by simp
              worked := hk.worked
              effect := fun hw => by
                have := hk.effect hw
                rw [hp] at this
                simpa [St.set, done] using this
              sight := fun hw => by
                have := hk.sight hw
                rw [hp] at this
                simpa [St.set, looks] using this
              blind := by simp }
        · refine (h.told u).other (by simp [St.set, hu]) ?_ ?_ Iff.rfl
          · intro b hm
            dsimp at hm
            split at hm
            · simpa [hu] using hm
            · exact hm
          · intro b hm
            dsimp
            split
            · exact head_append hm
            · exact hm
      · exact h.nodup
      · intro b
        have hd := h.data b
        rcases hd with ⟨u, hu, hb, hd⟩ | ⟨hn, hd⟩
        · have hut : u ≠ t := fun e => hnb (e ▸ hb)
          refine .inl ⟨u, ?_, hb, by simpa [St.set, hut] using hd⟩
          dsimp
          split
          · exact head_append hu
          · exact hu
        · refine .inr ⟨?_, hd⟩
          intro u hu
          dsimp at hu
          split at hu
          · cases hq : s.queue b with
            | nil =>
              rw [hq] at hu
              have : u = t := by simpa using hu.symm
              exact this ▸ hnb
            | cons x l =>
              rw [hq] at hu
              exact hn u (by rw [hq]; exact hu)
          · exact hn u hu
      · exact h.seen
      · exact h.unseen
      · intro u hu
        have := h.dropped u hu
        refine ⟨this.1, ?_⟩
        have hut : u ≠ t := fun e => by rw [e, hp] at this; cases this.2
        simpa [St.set, hut] using this.2
      · intro u hu hpr
        by_cases hut : u = t
        · subst hut
          have : p = [] := by simpa [St.set] using hu
          subst this
          simp [Plan] at hpl
        · exact h.over u (by simpa [St.set, hut] using hu) hpr
      · intro u
        by_cases hut : u = t
        · subst hut; simpa [St.set] using suffix_tail (hp ▸ h.suffix u)
        · simpa [St.set, hut] using h.suffix u
    · next a p hp =>
      obtain ⟨asked, held, w, hk⟩ := h.known hp
      have hpl := hk.plan
      rw [hp] at hpl
      obtain ⟨rfl, ha, hpl⟩ := hpl
      have hnb : t ∉ s.begun := fun hb => by have := hk.worked.mpr hb; cases this
      split
      · next hh =>
        constructor
        · intro u
          by_cases hu : u = t
          · subst hu
            refine .inr ⟨asked, a :: held, false, ?_⟩
            exact
              { plan := by simpa [St.set] using hpl
                queued := hk.queued
                holds := by
                  intro b hm
                  rcases List.mem_cons.mp hm with rfl | hm
                  · exact hh
                  · exact hk.holds b hm
                all := by simp
                worked := hk.worked
                effect := fun hw => by
                  have := hk.effect hw
                  rw [hp] at this
                  simpa [St.set, done] using this
                sight := fun hw => by
                  have := hk.sight hw
                  rw [hp] at this
                  simpa [St.set, looks] using this
                blind := by simp }
          · exact (h.told u).other (by simp [St.set, hu]) (fun _ hm => hm) (fun _ hm => hm) Iff.rfl
        · exact h.nodup
        · intro b
          rcases h.data b with ⟨u, hu, hb, hd⟩ | ⟨hn, hd⟩
          · have hut : u ≠ t := fun e => hnb (e ▸ hb)
            exact .inl ⟨u, hu, hb, by simpa [St.set, hut] using hd⟩
          · exact .inr ⟨hn, hd⟩
        · exact h.seen
        · exact h.unseen
        · intro u hu
          have := h.dropped u hu
          refine ⟨this.1, ?_⟩
          have hut : u ≠ t := fun e => by rw [e, hp] at this; cases this.2
          simpa [St.set, hut] using this.2
        · intro u hu hpr
          by_cases hut : u = t
          · subst hut
            have : p = [] := by simpa [St.set] using hu
            subst this
            simp only [Plan] at hpl
            subst hpl
            cases ha
          · exact h.over u (by simpa [St.set, hut] using hu) hpr
        · intro u
          by_cases hut : u = t
          · subst hut; simpa [St.set] using suffix_tail (hp ▸ h.suffix u)
          · simpa [St.set, hut] using h.suffix u
      · exact h
    · next a p hp =>
      obtain ⟨asked, held, w, hk⟩ := h.known hp
      have hpl := hk.plan
      rw [hp] at hpl
      obtain ⟨rfl, rfl, rfl, hpl⟩ := hpl
      have hnb : t ∉ s.begun := fun hb => by have := hk.worked.mpr hb; cases this
      have hnq : ∀ b, t ∉ s.queue b := fun b hm => by have := hk.queued b hm; cases this
      split
      · next he =>
        constructor
        · intro u
          by_cases hu : u = t
          · subst hu
            refine .inr ⟨[a], [a], false, ?_⟩
            exact
              { plan := by simpa [St.set] using hpl
                queued := by
                  intro b hm
                  dsimp at hm
                  split at hm
                  · next e => simp [e]
                  · exact absurd hm (hnq b)
                holds := by
                  intro b hm
                  have : b = a := by simpa using hm
                  simp [this]
                all := by simp
                worked := hk.worked
                effect := fun hw => by
                  have := hk.effect hw
                  rw [hp] at this
                  simpa [St.set, done] using this
                sight := fun hw => by
                  have := hk.sight hw
                  rw [hp] at this
                  simpa [St.set, looks] using this
                blind := by simp }
          · refine (h.told u).other (by simp [St.set, hu]) ?_ ?_ Iff.rfl
            · intro b hm
              dsimp at hm
              split at hm
              · simp [hu] at hm
              · exact hm
            · intro b hm
              dsimp
              split
              · next e => rw [e, he] at hm; cases hm
              · exact hm
        · exact h.nodup
        · intro b
          rcases h.data b with ⟨u, hu, hb, hd⟩ | ⟨hn, hd⟩
          · have hut : u ≠ t := fun e => hnb (e ▸ hb)
            refine .inl ⟨u, ?_, hb, by simpa [St.set, hut] using hd⟩
            dsimp
            split
            · next e => rw [e, he] at hu; cases hu
            · exact hu
          · refine .inr ⟨?_, hd⟩
            intro u hu
            dsimp at hu
            split at hu
            · have : u = t := by simpa using hu.symm
              exact this ▸ hnb
            · exact hn u hu
        · exact h.seen
        · exact h.unseen
        · intro u hu
          have := h.dropped u hu
          refine ⟨this.1, ?_⟩
          have hut : u ≠ t := fun e => by rw [e, hp] at this; cases this.2
          simpa [St.set, hut] using this.2
        · intro u hu hpr
          by_cases hut : u = t
          · subst hut
            have : p = [] := by simpa [St.set] using hu
            subst this
            simp [Plan] at hpl
          · exact h.over u (by simpa [St.set, hut] using hu) hpr
        · intro u
          by_cases hut : u = t
          · subst hut; simpa [St.set] using suffix_tail (hp ▸ h.suffix u)
          · simpa [St.set, hut] using h.suffix u
      · constructor
        · intro u
          by_cases hu : u = t
          · subst hu
            exact .inl ⟨by simp [St.set], hnq⟩
          · exact (h.told u).other (by simp [St.set, hu]) (fun _ hm => hm) (fun _ hm => hm) Iff.rfl
        · exact h.nodup
        · intro b
          rcases h.data b with ⟨u, hu, hb, hd⟩ | ⟨hn, hd⟩
          · have hut : u ≠ t := fun e => hnb (e ▸ hb)
            exact .inl ⟨u, hu, hb, by simpa [St.set, hut] using hd⟩
          · exact .inr ⟨hn, hd⟩
        · exact h.seen
        · exact h.unseen
        · intro u hu
          have := h.dropped u hu
          refine ⟨this.1, ?_⟩
          have hut : u ≠ t := fun e => by rw [e, hp] at this; cases this.2
          simpa [St.set, hut] using this.2
        · intro u hu hpr
          by_cases hut : u = t
          · subst hut
            exact .inr (.inr (prog_try (hp ▸ h.suffix u)))
          · exact h.over u (by simpa [St.set, hut] using hu) hpr
        · intro u
          by_cases hut : u = t
          · subst hut; simp [St.set]
          · simpa [St.set, hut] using h.suffix u
    · next x p hp =>
      obtain ⟨asked, held, w, hk⟩ := h.known hp
      have hpl := hk.plan
      rw [hp] at hpl
      obtain ⟨hset, hall, hl, hpl⟩ := hpl
      have hold : ∀ b, (s.queue b).head? = some t → b ∈ held := fun b hb => hall b (hk.queued b (mem_of_head hb))
      have hnd : ∀ u, s.dropped u = true → u ≠ t := fun u hu e => by
        have := (h.dropped u hu).2
        rw [e, hp] at this
        cases this
      have heff : t ∉ s.begun → ∀ b ∈ held, s.sets b = serial c s.begun b := by
        intro htb b hm
        rcases h.data b with ⟨u, hu, hb, _⟩ | ⟨_, hd⟩
        · rw [hk.holds b hm] at hu
          exact absurd (Option.some.inj hu ▸ hb) htb
        · exact hd
      have hmem : ∀ u, u ∈ (if t ∈ s.begun then s.begun else s.begun ++ [t]) ↔ u = t ∨ u ∈ s.begun := by
        intro u
        split
        · next htb =>
          constructor
          · exact .inr
          · rintro (rfl | hu)
            · exact htb
            · exact hu
        · simp [or_comm]
      constructor
      · intro u
        by_cases hu : u = t
        · subst hu
          refine .inr ⟨asked, held, true, ?_⟩
          exact
            { plan := by simpa [St.set] using hpl
              queued := hk.queued
              holds := hk.holds
              all := fun _ => hall
              worked := by simp only [true_iff]; exact (hmem u).mpr (.inl rfl)
              effect := by simp
              sight := by simp
              blind := fun _ => by simpa [St.set] using hl }
        · refine (h.told u).other (by simp [St.set, hu]) (fun _ hm => hm) (fun _ hm => hm) ?_
          exact (hmem u).trans (by simp [hu])
      · dsimp
        split
        · exact h.nodup
        · next htb => exact List.nodup_append.mpr ⟨h.nodup, by simp, by simp; exact fun a ha e => htb (e ▸ ha)⟩
      · intro b
        dsimp
        by_cases htb : t ∈ s.begun
        · simp only [htb, if_true]
          rcases h.data b with ⟨u, hu, hb, hd⟩ | ⟨hn, hd⟩
          · left
            refine ⟨u, hu, hb, ?_⟩
            by_cases hut : u = t
            · subst hut
              rw [hp, done_cons] at hd
              simpa [St.set] using hd
            · have : b ≠ x.set := by
                intro e
                rw [e, hk.holds _ hset] at hu
                exact hut (Option.some.inj hu).symm
              simpa [St.set, hut, this] using hd
          · have : b ≠ x.set := by
              intro e
              exact hn t (e ▸ hk.holds _ hset) htb
            right
            simp only [this, if_false]
            exact ⟨hn, hd⟩
        · simp only [htb, if_false]
          have hw : w = false := by
            cases w with
            | false => rfl
            | true => exact absurd (hk.worked.mp rfl) htb
          have hs : serial c (s.begun ++ [t]) b = done b (.work x :: p) (serial c s.begun b) := by
            rw [← hp, hk.effect hw b (serial c s.begun)]
            simp [serial]
          rw [hs, done_cons]
          by_cases hbh : b ∈ held
          · left
            refine ⟨t, hk.holds b hbh, by simp, ?_⟩
            rw [← heff htb b hbh]
            simp [St.set]
          · have hbx : b ≠ x.set := fun e => hbh (e ▸ hset)
            simp only [hbx, if_false]
            rw [hpl.same hbh]
            rcases h.data b with ⟨u, hu, hb, hd⟩ | ⟨hn, hd⟩
            · have hut : u ≠ t := fun e => htb (e ▸ hb)
              exact .inl ⟨u, hu, by simp [hb], by simpa [St.set, hut] using hd⟩
            · refine .inr ⟨fun u hu => ?_, hd⟩
              have hut : u ≠ t := fun e => hbh (hold b (e ▸ hu))
              simp [hut, hn u hu]
      · intro l₁ u l₂ he
        dsimp at he ⊢
        by_cases htb : t ∈ s.begun
        · simp only [htb, if_true] at he
          have hsee : x.sees = false := by
            have := hk.blind (hk.worked.mpr htb)
            rw [hp] at this
            cases hx : x.sees with
            | false => rfl
            | true => simp [looks, hx] at this
          simp only [hsee, Bool.false_eq_true, and_false, if_false]
          exact h.seen l₁ u l₂ he
        · simp only [htb, if_false] at he
          rcases List.eq_nil_or_concat l₂ with rfl | ⟨l, v, rfl⟩
          · have he' : s.begun = l₁ ∧ t = u := by
              have := List.append_inj' he rfl
              exact ⟨this.1, by simpa using this.2⟩
            obtain ⟨rfl, rfl⟩ := he'
            have hw : w = false := by
              cases w with
              | false => rfl
              | true => exact absurd (hk.worked.mp rfl) htb
            rw [hk.sight hw, hp]
            cases hx : x.sees with
            | false => simp [looks, hx, hl, h.unseen t htb]
            | true => simp [looks, hx, heff htb x.set hset]
          · have he' : s.begun = l₁ ++ u :: l := by
              have : s.begun ++ [t] = (l₁ ++ u :: l) ++ [v] := by simpa using he
              exact (List.append_inj' this rfl).1
            have hut : u ≠ t := fun e => htb (by rw [he', ← e]; simp)
            simp only [hut, false_and, if_false]
            exact h.seen l₁ u l he'
      · intro u hu
        have hu' := fun hm => hu ((hmem u).mpr hm)
        have hut : u ≠ t := fun e => hu' (.inl e)
        dsimp
        simp only [hut, false_and, if_false]
        exact h.unseen u (fun hm => hu' (.inr hm))
      · intro u hu
        have hut := hnd u hu
        refine ⟨fun hm => ?_, by simpa [St.set, hut] using (h.dropped u hu).2⟩
        exact ((hmem u).mp hm).elim hut (h.dropped u hu).1
      · intro u hu hpr
        by_cases hut : u = t
        · exact .inl ((hmem u).mpr (.inl hut))
        · rcases h.over u (by simpa [St.set, hut] using hu) hpr with ho | ho
          · exact .inl ((hmem u).mpr (.inr ho))
          · exact .inr ho
      · intro u
        by_cases hut : u = t
        · subst hut; simpa [St.set] using suffix_tail (hp ▸ h.suffix u)
        · simpa [St.set, hut] using h.suffix u
    · next a p hp =>
      obtain ⟨asked, held, w, hk⟩ := h.known hp
      have hpl := hk.plan
      rw [hp] at hpl
      obtain ⟨rfl, ha, hpl⟩ := hpl
      have htb : t ∈ s.begun := hk.worked.mp rfl
      constructor
      · intro u
        by_cases hu : u = t
        · subst hu
          refine .inr ⟨asked.filter (· != a), held.filter (· != a), true, ?_⟩
          exact
            { plan := by simpa [St.set] using hpl
              queued := by
                intro b hm
                dsimp at hm
                split at hm
                · simp at hm
                · next e => simp [hk.queued b hm, e]
              holds := by
                intro b hm
                have hm' : b ∈ held ∧ b ≠ a := by simpa using hm
                dsimp
                rw [if_neg hm'.2]
                exact hk.holds b hm'.1
              all := by
                intro _ b hm
                have hm' : b ∈ asked ∧ b ≠ a := by simpa using hm
                simp [hk.all rfl b hm'.1, hm'.2]
              worked := hk.worked
              effect := by simp
              sight := by simp
              blind := fun _ => by
                have := hk.blind rfl
                rw [hp] at this
                simpa [St.set, looks] using this }
        · refine (h.told u).other (by simp [St.set, hu]) ?_ ?_ Iff.rfl
          · intro b hm
            dsimp at hm
            split at hm
            · exact (List.mem_filter.mp hm).1
            · exact hm
          · intro b hm
            dsimp
            split
            · exact head_filter hm hu
            · exact hm
      · exact h.nodup
      · intro b
        dsimp
        by_cases hba : b = a
        · simp only [hba, if_true]
          refine h.data_filter (t := t) ?_ a ?_
          · intro u hu; simp [St.set, hu]
          · intro u _ _ _
            rw [hp, done_cons]
            exact hpl.same (by simp) _
        · simp only [hba, if_false]
          rcases h.data b with ⟨u, hu, hb, hd⟩ | ⟨hn, hd⟩
          · left
            refine ⟨u, hu, hb, ?_⟩
            by_cases hut : u = t
            · subst hut
              rw [hp, done_cons] at hd
              simpa [St.set] using hd
            · simpa [St.set, hut] using hd
          · exact .inr ⟨hn, hd⟩
      · exact h.seen
      · exact h.unseen
      · intro u hu
        have := h.dropped u hu
        refine ⟨this.1, ?_⟩
        have hut : u ≠ t := fun e => by rw [e, hp] at this; cases this.2
        simpa [St.set, hut] using this.2
      · intro u hu hpr
        by_cases hut : u = t
        · exact .inl (hut ▸ htb)
        · exact h.over u (by simpa [St.set, hut] using hu) hpr
      · intro u
        by_cases hut : u = t
        · subst hut; simpa [St.set] using suffix_tail (hp ▸ h.suffix u)
        · simpa [St.set, hut] using h.suffix u

theorem inv_after (c : Nat → Call) (ops : List Op) : Inv c (after c ops) := by
  have key : ∀ (l : List Op) (s : St), Inv c s → Inv c (l.foldl (St.step c) s) := by
    intro l
    induction l with
    | nil => exact fun s h => h
    | cons op l ih => exact fun s h => ih _ (inv_step h op)
  refine key ops _ ?_
  constructor
  · intro t
    rcases (c t).plan with ⟨h, _, _⟩ | ⟨h1, h2, h3⟩
    · exact .inl ⟨h, by simp⟩
    · refine .inr ⟨[], [], false, ?_⟩
      exact
        { plan := h1, queued := by simp, holds := by simp, all := by simp, worked := by simp
          effect := fun _ => h2, sight := fun _ => h3, blind := by simp }
  · simp
  · intro a; right; simp [serial]
  · intro l₁ t l₂ h; simp at h
  · simp
  · simp
  · intro t h hp; exact absurd h hp
  · intro t; exact List.suffix_refl _

theorem begun_prefix (c : Nat → Call) {pre ops : List Op} (h : pre <+: ops) :
    (after c pre).begun <+: (after c ops).begun := by
  obtain ⟨post, rfl⟩ := h
  have key : ∀ (l : List Op) (s : St), s.begun <+: (l.foldl (St.step c) s).begun := by
    intro l
    induction l with
    | nil => exact fun s => List.prefix_refl _
    | cons op l ih =>
      intro s
      refine List.IsPrefix.trans ?_ (ih _)
      cases op with
      | drop t => simp only [St.step]; split <;> exact List.prefix_refl _
      | run t =>
        simp only [St.step]
        split
        all_goals (try split)
        all_goals first
          | exact List.prefix_refl _
          | exact List.prefix_append _ _
  simpa only [after, List.foldl_append] using key post (after c pre)

/-! ## The theorems -/

/-- The call has not begun. -/
def St.new (c : Nat → Call) (s : St) (t : Nat) : Prop := s.rest t = (c t).prog

/-- The call is over; its future was not dropped. -/
def St.returned (s : St) (t : Nat) : Prop := s.rest t = [] ∧ s.dropped t = false

/-- Somebody has begun to work and has not yet done what is to be done with the link set of `a`. -/
def St.busy (s : St) (a : Nat) : Prop :=
  ∃ t w, (s.queue a).head? = some t ∧ t ∈ s.begun ∧ .work w ∈ s.rest t ∧ w.set = a

/-- The first in a list comes before the second. -/
def Before (l : List Nat) (u t : Nat) : Prop := ∃ l₁ l₂, l = l₁ ++ l₂ ∧ u ∈ l₁ ∧ t ∉ l₁

theorem done_idle {a : Nat} {p : List Act} (h : ∀ w, .work w ∈ p → w.set ≠ a) (f : LinkSet) : done a p f = f := by
  induction p generalizing f with
  | nil => rfl
  | cons x p ih =>
    rw [done_cons]
    cases x with
    | work w =>
      have : a ≠ w.set := fun e => h w (by simp) e.symm
      simp only [this, if_false]
      exact ih (fun w hw => h w (List.mem_cons_of_mem _ hw)) f
    | _ => exact ih (fun w hw => h w (List.mem_cons_of_mem _ hw)) f

theorem Inv.begun_not_new {c : Nat → Call} {s : St} (h : Inv c s) {t : Nat} (hp : (c t).prog ≠ []) (hn : s.new c t) :
    t ∉ s.begun := by
  intro hb
  unfold St.new at hn
  rcases h.shape hb with he | ⟨w, p, he⟩ | ⟨a, p, he⟩
  · exact hp (hn.symm.trans he)
  all_goals
    rcases prog_head (hn.symm.trans he) with ⟨b, e⟩ | ⟨b, e⟩ <;> cases e

/-- **C98** However the calls are interleaved, there is one order of them in which they could have been made one at a time, each
at one moment. The order has in it every call that has returned (except the formatting that found the lock taken, and links of
an actor with itself, which do nothing) and no call that has not begun or was dropped. A call that had returned before another
began is before it. Every link set is what the calls in this order make of it, unless somebody is at work on it just now. Every
call that looks at a link set sees what those before it have made of it. -/
theorem one_at_a_time (c : Nat → Call) (ops : List Op) : ∃ l : List Nat, l.Nodup ∧
    (∀ t, (after c ops).returned t → (c t).prog ≠ [] → (∀ a, c t ≠ .debug a) → t ∈ l) ∧
    (∀ t, (c t).prog ≠ [] → (after c ops).new c t ∨ (after c ops).dropped t = true → t ∉ l) ∧
    (∀ pre, pre <+: ops → ∀ u t, (after c pre).returned u → (∀ a, c u ≠ .debug a) → (after c pre).new c t →
      (c u).prog ≠ [] → (c t).prog ≠ [] → Before l u t) ∧
    (∀ a, ¬ (after c ops).busy a → (after c ops).sets a = serial c l a) ∧
    (∀ l₁ t l₂, l = l₁ ++ t :: l₂ → (after c ops).seen t = (c t).sight (serial c l₁)) ∧
    (∀ t, t ∉ l → (after c ops).seen t = none) := by
  have h := inv_after c ops
  have ret : ∀ (o : List Op) (t : Nat), (after c o).returned t → (c t).prog ≠ [] → (∀ a, c t ≠ .debug a) →
      t ∈ (after c o).begun := by
    intro o t hr hp hd
    rcases (inv_after c o).over t hr.1 hp with ho | ho | ⟨a, ho⟩
    · exact ho
    · rw [hr.2] at ho; cases ho
    · exact absurd ho (hd a)
  refine ⟨(after c ops).begun, h.nodup, ret ops, ?_, ?_, ?_, h.seen, h.unseen⟩
  · rintro t hp (hn | hd)
    · exact h.begun_not_new hp hn
    · exact (h.dropped t hd).1
  · intro pre hpre u t hu hud ht hup htp
    obtain ⟨l₂, hl⟩ := begun_prefix c hpre
    exact ⟨_, l₂, hl.symm, ret pre u hu hup hud, (inv_after c pre).begun_not_new htp ht⟩
  · intro a hb
    rcases h.data a with ⟨t, ht, hbt, hd⟩ | ⟨_, hd⟩
    · rw [← hd]
      refine (done_idle ?_ _).symm
      intro w hw e
      exact hb ⟨t, w, ht, hbt, hw, e⟩
    · exact hd

/-- Three actors; links in opposite directions, an end, a look. -/
private def exCalls : Nat → Call := fun t =>
  if t = 0 then .link 0 1 else if t = 1 then .blockingUnlink 1 0 else if t = 2 then .finish 0
  else if t = 3 then .debug 1 else if t = 4 then .link 2 0 else .look 1

/-- All of the first three under way at once; the formatting finds the lock taken, the fifth call is dropped while it waits. -/
private def exOps : List Op :=
  [.run 0, .run 0, .run 1, .run 2, .run 4, .run 3, .run 0, .run 0, .run 0, .run 4, .drop 4, .run 0, .run 0, .run 0] ++
  [.run 1, .run 1, .run 1, .run 2, .run 2, .run 2, .run 1, .run 1, .run 1, .run 1, .run 1]

example : (after exCalls exOps).begun = [0, 2, 1] ∧ (∀ t < 5, (after exCalls exOps).rest t = []) ∧
    (after exCalls exOps).dropped 4 = true ∧ (after exCalls exOps).seen 3 = none ∧
    ((after exCalls exOps).seen 2).map (fun f => f 1) = some (some .here) ∧
    (after exCalls (exOps.take 9)).sets 0 1 = some .here ∧ (after exCalls (exOps.take 9)).sets 1 0 = none := by
  decide

/-- What a call writes for `b` in the link set of `a`, if anything. -/
def Call.writes (a b : Nat) : Call → Option (Option Entry)
  | .link x y | .blockingLink x y => if x ≠ y ∧ (x = a ∧ y = b ∨ x = b ∧ y = a) then some (some .here) else none
  | .unlink x y | .blockingUnlink x y => if x ≠ y ∧ (x = a ∧ y = b ∨ x = b ∧ y = a) then some none else none
  | .addRemote x y k => if x = a ∧ y = b then some (some (.remote k)) else none
  | .forget x y => if x = a ∧ y = b then some none else none
  | .finish x => if x = a then some none else none
  | .look _ | .debug _ => none

theorem effect_writes (k : Call) (f : Sets) (a b : Nat) : k.effect f a b = (k.writes a b).getD (f a b) := by
  cases k <;> simp only [Call.effect, Call.writes] <;> (repeat' split) <;> simp only [put, Option.getD] <;> grind

theorem writes_prog {k : Call} {a b : Nat} (h : k.writes a b ≠ none) : k.prog ≠ [] ∧ ∀ x, k ≠ .debug x := by
  cases k <;> simp only [Call.writes, Call.prog, joined, inTurn, underLock, ne_eq] at * <;> grind

theorem serial_writes (c : Nat → Call) (a b : Nat) (l₁ l₂ : List Nat) (t : Nat) {e : Option Entry}
    (ht : (c t).writes a b = some e) (hn : ∀ u ∈ l₂, (c u).writes a b = none) :
    serial c (l₁ ++ t :: l₂) a b = e := by
  have key : ∀ (l : List Nat) (f : Sets), f a b = e → (∀ u ∈ l, (c u).writes a b = none) →
      (l.foldl (fun f t => (c t).effect f) f) a b = e := by
    intro l
    induction l with
    | nil => exact fun f h _ => h
    | cons u l ih =>
      intro f h hn
      refine ih _ ?_ (fun v hv => hn v (List.mem_cons_of_mem _ hv))
      show (c u).effect f a b = e
      rw [effect_writes, hn u (by simp)]
      exact h
  simp only [serial, List.foldl_append, List.foldl_cons]
  exact key l₂ _ (by rw [effect_writes, ht]; rfl) hn

theorem before_split {l : List Nat} (hl : l.Nodup) {u t : Nat} (h : Before l u t) {l₁ l₂ : List Nat}
    (e : l = l₁ ++ t :: l₂) : u ∈ l₁ := by
  obtain ⟨m₁, m₂, rfl, hu, ht⟩ := h
  have h1 : m₁ <+: l₁ := by
    rcases List.append_eq_append_iff.mp e with ⟨x, e1, e2⟩ | ⟨x, e1, e2⟩
    · exact ⟨x, e1.symm⟩
    · cases x with
      | nil => exact ⟨[], by simpa using e1⟩
      | cons y x =>
        have : t = y := by simpa using (List.cons.inj e2).1
        exact absurd (by rw [e1, this]; simp) ht
  exact h1.subset hu

/-- **C98** The last word counts: when a call that links, unlinks or ends has returned, and all others that concern the same
entry had returned before it began, have not begun or were dropped, the entry is what that call has made it, unless
somebody is at work just now. -/
theorem last_call_counts (c : Nat → Call) (ops : List Op) (t a b : Nat) (e : Option Entry)
    (hr : (after c ops).returned t) (hw : (c t).writes a b = some e)
    (ho : ∀ u, u ≠ t → (c u).writes a b ≠ none →
      (∃ pre, pre <+: ops ∧ (after c pre).returned u ∧ (after c pre).new c t) ∨ (after c ops).new c u ∨
        (after c ops).dropped u = true)
    (hb : ¬ (after c ops).busy a) : (after c ops).sets a b = e := by
  obtain ⟨l, hnd, h1, h2, h3, h4, _, _⟩ := one_at_a_time c ops
  have hp := writes_prog (a := a) (b := b) (k := c t) (by simp [hw])
  obtain ⟨l₁, l₂, rfl⟩ := List.append_of_mem (h1 t hr hp.1 hp.2)
  rw [h4 a hb]
  refine serial_writes c a b l₁ l₂ t hw ?_
  intro u hu
  by_cases hwu : (c u).writes a b = none
  · exact hwu
  · have hpu := writes_prog hwu
    have hut : u ≠ t := by
      intro hut
      subst hut
      exact (List.nodup_cons.mp (List.nodup_append.mp hnd).2.1).1 hu
    rcases ho u hut hwu with ⟨pre, hpre, hru, hnt⟩ | hx
    · have := before_split hnd (h3 pre hpre u t hru hpu.2 hnt hpu.1 hp.1) rfl
      exact absurd rfl ((List.nodup_append.mp hnd).2.2 u this u (List.mem_cons_of_mem _ hu))
    · exact absurd (List.mem_append_right _ (List.mem_cons_of_mem _ hu)) (h2 u hpu.1 hx)

/-- A link after an unlink; a dropped end, and another that has not begun. -/
private def exLast : Nat → Call := fun t =>
  if t = 0 then .blockingUnlink 1 0 else if t = 1 then .link 0 1 else if t = 2 then .finish 0
  else if t = 3 then .finish 1 else .look 5

example : (after exLast (List.replicate 8 (.run 0))).returned 0 ∧
    (after exLast (List.replicate 8 (.run 0))).new exLast 1 ∧
    (after exLast (List.replicate 8 (.run 0) ++ [.run 2, .run 1, .run 1, .drop 2] ++ List.replicate 6 (.run 1))).returned 1 ∧
    (after exLast (List.replicate 8 (.run 0) ++ [.run 2, .run 1, .run 1, .drop 2] ++ List.replicate 6 (.run 1))).dropped 2 = true ∧
    (after exLast (List.replicate 8 (.run 0) ++ [.run 2, .run 1, .run 1, .drop 2] ++ List.replicate 6 (.run 1))).new exLast 3 ∧
    (exLast 1).writes 0 1 = some (some .here) ∧ (exLast 1).writes 1 0 = some (some .here) ∧
    (after exLast (List.replicate 8 (.run 0) ++ [.run 2, .run 1, .run 1, .drop 2] ++ List.replicate 6 (.run 1))).queue 0 = [] := by
  unfold St.returned St.new
  decide

/-- **C98** Whoever looks at a link set, an actor that ends or the task for a lost connection, sees what the last call before it
has made of an entry: one that had returned before the look began, when all others that concern the entry had returned before
that one began, were dropped, or began only when the look was over. -/
theorem look_sees_last_call (c : Nat → Call) (ops : List Op) (d t a b : Nat) (e : Option Entry)
    (hd : c d = .finish a ∨ c d = .look a) (hrd : (after c ops).returned d) (hw : (c t).writes a b = some e)
    (hr : ∃ pre, pre <+: ops ∧ (after c pre).returned t ∧ (after c pre).new c d)
    (ho : ∀ u, u ≠ t → u ≠ d → (c u).writes a b ≠ none →
      (∃ pre, pre <+: ops ∧ (after c pre).returned u ∧ (after c pre).new c t) ∨
      (∃ pre, pre <+: ops ∧ (after c pre).returned d ∧ (after c pre).new c u) ∨ (after c ops).dropped u = true) :
    ∃ f, (after c ops).seen d = some f ∧ f b = e := by
  obtain ⟨l, hnd, h1, h2, h3, _, h5, _⟩ := one_at_a_time c ops
  have hp := writes_prog (a := a) (b := b) (k := c t) (by simp [hw])
  have hpd : (c d).prog ≠ [] ∧ ∀ x, c d ≠ .debug x := by
    rcases hd with hd | hd <;> simp [hd, Call.prog, underLock]
  have hs : ∀ f, (c d).sight f = some (f a) := by
    rcases hd with hd | hd <;> simp [hd, Call.sight]
  obtain ⟨pre, hpre, hrt, hnd'⟩ := hr
  obtain ⟨l₁, l₂, hl⟩ := List.append_of_mem (h1 d hrd hpd.1 hpd.2)
  have ht := before_split hnd (h3 pre hpre t d hrt hp.2 hnd' hp.1 hpd.1) hl
  obtain ⟨m₁, m₂, rfl⟩ := List.append_of_mem ht
  refine ⟨_, by rw [h5 _ d l₂ hl]; exact hs _, ?_⟩
  refine serial_writes c a b m₁ m₂ t hw ?_
  intro u hu
  by_cases hwu : (c u).writes a b = none
  · exact hwu
  have hpu := writes_prog hwu
  subst hl
  have hnd1 := List.nodup_append.mp hnd
  have hnd2 := List.nodup_append.mp hnd1.1
  have hut : u ≠ t := by
    intro hut
    subst hut
    exact (List.nodup_cons.mp hnd2.2.1).1 hu
  have hud : u ≠ d := by
    intro hud
    subst hud
    exact hnd1.2.2 u (by simp [hu]) u (by simp) rfl
  rcases ho u hut hud hwu with ⟨pre, hpre, hru, hnt⟩ | ⟨pre, hpre, hru, hnt⟩ | hx
  · have hb := h3 pre hpre u t hru hpu.2 hnt hpu.1 hp.1
    have := before_split hnd hb (l₁ := m₁) (l₂ := m₂ ++ d :: l₂) (by simp)
    exact absurd rfl (hnd2.2.2 u this u (List.mem_cons_of_mem _ hu))
  · have hb := h3 pre hpre d u hru hpd.2 hnt hpd.1 hpu.1
    obtain ⟨n₁, n₂, rfl⟩ := List.append_of_mem hu
    have := before_split hnd hb (l₁ := m₁ ++ t :: n₁) (l₂ := n₂ ++ d :: l₂) (by simp)
    have hin : d ∈ m₁ ++ t :: (n₁ ++ u :: n₂) := by
      rcases List.mem_append.mp this with h | h
      · exact List.mem_append_left _ h
      · refine List.mem_append_right _ ?_
        rcases List.mem_cons.mp h with h | h
        · exact h ▸ List.mem_cons_self
        · exact List.mem_cons_of_mem _ (List.mem_append_left _ h)
    exact absurd rfl (hnd1.2.2 d hin d (by simp))
  · exact absurd (by simp [hu]) (h2 u hpu.1 (.inr hx))

/-- A link, two looks: the end of one actor and a lost connection; an unlink begun when the first was over. -/
private def exLook : Nat → Call := fun t =>
  if t = 0 then .blockingLink 0 1 else if t = 1 then .finish 0 else if t = 2 then .unlink 1 0 else .look 1

private def exLookOps : List Op := List.replicate 8 (.run 0) ++ List.replicate 4 (.run 1) ++ [.run 2, .run 3]

example : (after exLook (exLookOps.take 8)).returned 0 ∧ (after exLook (exLookOps.take 8)).new exLook 1 ∧
    (after exLook (exLookOps.take 12)).returned 1 ∧ (after exLook (exLookOps.take 12)).new exLook 2 ∧
    (after exLook exLookOps).returned 1 ∧ (exLook 0).writes 0 1 = some (some .here) ∧
    ((after exLook exLookOps).seen 1).map (fun f => f 1) = some (some .here) ∧
    (after exLook exLookOps).rest 2 ≠ [] := by
  unfold St.returned St.new
  decide

/-- The calls of `link`, `unlink` and their blocking variants, and those that only look. -/
def Call.mutual : Call → Bool
  | .link .. | .blockingLink .. | .unlink .. | .blockingUnlink .. | .look _ | .debug _ => true
  | _ => false

theorem serial_symmetric (c : Nat → Call) (l : List Nat) (hc : ∀ t ∈ l, (c t).mutual = true) (a b : Nat) :
    serial c l a b = serial c l b a := by
  have key : ∀ (l : List Nat) (f : Sets), (∀ t ∈ l, (c t).mutual = true) → f a b = f b a →
      (l.foldl (fun f t => (c t).effect f) f) a b = (l.foldl (fun f t => (c t).effect f) f) b a := by
    intro l
    induction l with
    | nil => exact fun f _ h => h
    | cons u l ih =>
      intro f hc h
      refine ih _ (fun t ht => hc t (List.mem_cons_of_mem _ ht)) ?_
      show (c u).effect f a b = (c u).effect f b a
      have hu := hc u (by simp)
      rw [effect_writes, effect_writes, h]
      congr 1
      cases hk : c u <;> simp [hk, Call.mutual] at hu <;> simp only [Call.writes] <;> grind
  exact key l _ hc rfl

/-- **C98** No half links: as long as actors of one node are linked and unlinked only, and none has ended or been told of a
death, two link sets nobody is at work on agree about each other, whatever calls are under way or were dropped. -/
theorem never_half_linked (c : Nat → Call) (hc : ∀ t, (c t).mutual = true) (ops : List Op) (a b : Nat)
    (ha : ¬ (after c ops).busy a) (hb : ¬ (after c ops).busy b) :
    (after c ops).sets a b = (after c ops).sets b a := by
  obtain ⟨l, _, _, _, _, h4, _, _⟩ := one_at_a_time c ops
  rw [h4 a ha, h4 b hb]
  exact serial_symmetric c l (fun t _ => hc t) a b

/-- Whoever has both locks and has not yet begun to work finds nobody at work. -/
theorem holder_not_busy (c : Nat → Call) (ops : List Op) (t a : Nat) (hh : ((after c ops).queue a).head? = some t)
    (hn : t ∉ (after c ops).begun) : ¬ (after c ops).busy a := by
  rintro ⟨u, w, hu, hub, _⟩
  rw [hh] at hu
  exact hn (Option.some.inj hu ▸ hub)

/-- Two links and an unlink under way; the third holds both link sets and finds them linked. Midway through the first they are not
alike. -/
private def exHalf : Nat → Call := fun t =>
  if t = 0 then .link 0 1 else if t = 1 then .blockingLink 2 1 else if t = 2 then .unlink 1 0 else .debug 0

private def exHalfOps : List Op :=
  [.run 0, .run 0, .run 2, .run 2, .run 0, .run 0, .run 0, .run 0, .run 0, .run 0, .run 2, .run 2]

example : (∀ t, (exHalf t).mutual = true) ∧ ((after exHalf exHalfOps).queue 0).head? = some 2 ∧
    ((after exHalf exHalfOps).queue 1).head? = some 2 ∧ 2 ∉ (after exHalf exHalfOps).begun ∧
    (after exHalf exHalfOps).sets 0 1 = some .here ∧ (after exHalf exHalfOps).sets 1 0 = some .here ∧
    (after exHalf (exHalfOps.take 7)).sets 0 1 = some .here ∧ (after exHalf (exHalfOps.take 7)).sets 1 0 = none := by
  refine ⟨?_, by decide⟩
  intro t
  unfold exHalf
  (repeat' split) <;> rfl

/-! ### Calls that are given up -/

/-- The calls that are futures. -/
def Call.future (k : Call) : Prop :=
  (∃ a b, k = .link a b) ∨ (∃ a b, k = .unlink a b) ∨ (∃ a b n, k = .addRemote a b n) ∨ (∃ a b, k = .forget a b) ∨
  (∃ a, k = .finish a) ∨ ∃ a, k = .look a

/-- **C98** A future that is dropped before it has begun, or while it waits for a lock, is given up for good: it has no lock and
waits for none, it does nothing more ever after, and no link set and no other call changes by the drop. -/
theorem drop_gives_up (c : Nat → Call) (ops : List Op) (t : Nat) (hk : (c t).future)
    (hs : ((after c ops).new c t ∧ (c t).prog ≠ []) ∨ ∃ a p, (after c ops).rest t = .await a :: p) :
    (after c (ops ++ [.drop t])).dropped t = true ∧ (∀ x, t ∉ (after c (ops ++ [.drop t])).queue x) ∧
    (after c (ops ++ [.drop t])).sets = (after c ops).sets ∧
    (∀ u, u ≠ t → (after c (ops ++ [.drop t])).rest u = (after c ops).rest u ∧
      ∀ x, u ∈ (after c (ops ++ [.drop t])).queue x ↔ u ∈ (after c ops).queue x) ∧
    ∀ ops', (after c (ops ++ [.drop t] ++ ops')).rest t = [] := by
  have hstep : after c (ops ++ [.drop t]) = (after c ops).step c (.drop t) := by simp [after]
  have ha : (c t).isAsync = true := by
    rcases hk with ⟨a, b, h⟩ | ⟨a, b, h⟩ | ⟨a, b, n, h⟩ | ⟨a, b, h⟩ | ⟨a, h⟩ | ⟨a, h⟩ <;> rw [h] <;> rfl
  have hsus : (after c ops).suspended c t = true := by
    unfold St.suspended
    rcases hs with ⟨h1, h2⟩ | ⟨a, p, h⟩
    · rw [show (after c ops).rest t = (c t).prog from h1]
      simp [h2]
    · rw [h]; simp
  have he : (after c ops).step c (.drop t) = { (after c ops).set t [] with
        queue := fun x => ((after c ops).queue x).filter (· != t)
        dropped := fun u => if u = t then true else (after c ops).dropped u } := by
    simp [St.step, ha, hsus]
  rw [hstep, he]
  refine ⟨by simp, fun x => by simp, rfl, fun u hu => ⟨by simp [St.set, hu], fun x => by simp [hu]⟩, fun ops' => ?_⟩
  have key : ∀ (l : List Op) (s : St), s.rest t = [] → (l.foldl (St.step c) s).rest t = [] := by
    intro l
    induction l with
    | nil => intro s h; exact h
    | cons o os ih =>
      intro s h
      refine ih _ ?_
      cases o with
      | run u =>
        by_cases hu : u = t
        · subst hu; simp [St.step, h]
        · simp only [St.step]
          (repeat' split) <;> simp_all [St.set] <;> (intro e; exact absurd e.symm hu)
      | drop u =>
        simp only [St.step]
        split
        · by_cases hu : t = u
          · simp [St.set, hu]
          · simp [St.set, hu, h]
        · exact h
  rw [show after c (ops ++ [.drop t] ++ ops') = ops'.foldl (St.step c) (after c (ops ++ [.drop t])) by simp [after], hstep, he]
  exact key ops' _ (by simp [St.set])

example : (exHalf 0).future ∧ (∃ a p, (after exHalf [.run 1, .run 1, .run 1, .run 1, .run 0, .run 0, .run 0]).rest 0 = .await a :: p) ∧
    (after exHalf [.run 1, .run 1, .run 1, .run 1, .run 0, .run 0, .run 0]).queue 1 = [1, 0] ∧
    (after exHalf [.run 1, .run 1, .run 1, .run 1, .run 0, .run 0, .run 0, .drop 0]).queue 1 = [1] ∧
    (after exHalf [.run 1, .run 1, .run 1, .run 1, .run 0, .run 0, .run 0, .drop 0]).queue 0 = [] :=
  ⟨Or.inl ⟨0, 1, rfl⟩, ⟨_, _, rfl⟩, by decide⟩

/-- **C98** The blocking calls and the formatting are not futures: nobody drops them halfway. -/
theorem blocking_not_dropped (c : Nat → Call) (ops : List Op) (t : Nat)
    (hk : (∃ a b, c t = .blockingLink a b) ∨ (∃ a b, c t = .blockingUnlink a b) ∨ ∃ a, c t = .debug a) :
    (after c ops).dropped t = false := by
  have ha : (c t).isAsync = false := by
    rcases hk with ⟨a, b, h⟩ | ⟨a, b, h⟩ | ⟨a, h⟩ <;> rw [h] <;> rfl
  have key : ∀ (l : List Op) (s : St), s.dropped t = false → (l.foldl (St.step c) s).dropped t = false := by
    intro l
    induction l with
    | nil => intro s h; exact h
    | cons o os ih =>
      intro s h
      refine ih _ ?_
      cases o with
      | run u => simp only [St.step]; (repeat' split) <;> exact h
      | drop u =>
        simp only [St.step]
        split
        · by_cases hu : t = u
          · subst hu; simp_all
          · simp [hu, h]
        · exact h
  exact key ops _ rfl

example : (∃ a b, exHalf 1 = .blockingLink a b) ∧
    (after exHalf [.run 1, .drop 1]).rest 1 = (after exHalf [.run 1]).rest 1 := ⟨⟨2, 1, rfl⟩, by decide⟩

end Verif.Atomic
