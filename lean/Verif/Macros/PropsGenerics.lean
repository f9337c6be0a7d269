import Verif.Macros.Props

/-!
# C69: the generics of what `#[messages]` produces

The produced items have to make sense by themselves: a message type declares the generic parameters its fields mention,
each once and no others (Rust rejects undeclared, repeated and unused ones), it is used with the arguments it declares, and
the implementation is for the type of the block.
-/

namespace Verif.Macros

/-! ## Specification -/

mutual
/-- The names a type mentions that may be those of generic parameters: lifetimes (`true`) and names of types and constants
(`false`). Of a path it is the first segment that can be a parameter. -/
def Ty.names : Ty → List (Bool × String)
  | .array t len => t.names ++ len.map (false, ·)
  | .bareFn ins out => namesAll ins ++ out.names
  | .group t => t.names
  | .implTrait bs => namesAll bs
  | .infer => []
  | .mac => []
  | .never => []
  | .paren t => t.names
  | .path segs lts args => (segs.take 1).map (false, ·) ++ lts.map (true, ·) ++ namesAll args
  | .ptr t => t.names
  | .ref lt t => lt.toList.map (true, ·) ++ t.names
  | .slice t => t.names
  | .traitObj bs => namesAll bs
  | .life a => [(true, a)]
  | .tuple ts => namesAll ts
  | .verbatim => []

/-- The names a list of types mentions. -/
def namesAll : List Ty → List (Bool × String)
  | [] => []
  | t :: ts => t.names ++ namesAll ts
end

/-- The name of a parameter, as it is mentioned. -/
def GP.key (g : GP) : Bool × String := (g.kind == .lifetime, g.name)

/-- The parameters of a message type and its use fit: each is declared once, all that the fields mention are declared, none
without being mentioned; the implementation gives the type the arguments it declares, and declares itself the parameters
of the block and of the method, no others. -/
structure Scoped (b : Block) (m : Method) (s : Struct) (h : Handler) : Prop where
  once : (s.generics.map GP.key).Nodup
  declared : ∀ g ∈ b.generics ++ m.generics, ∀ f ∈ s.fields, g.key ∈ f.ty.names → g.key ∈ s.generics.map GP.key
  used : ∀ g ∈ s.generics, g.kind ≠ .const → ∃ f ∈ s.fields, g.key ∈ f.ty.names
  arity : h.msgArgs = s.generics
  impl : ∀ g, g ∈ h.generics ↔ g ∈ b.generics ∨ g ∈ m.generics

/-! ## What the search finds -/

theorem mem_typeIn {G : List GP} {s : String} {g : GP} : g ∈ typeIn G s ↔ g = ⟨.type, s⟩ ∧ g ∈ G := by
  unfold typeIn
  split
  · next h =>
    simp only [List.any_eq_true, Bool.and_eq_true, beq_iff_eq] at h
    obtain ⟨x, hx, h1, h2⟩ := h
    have : x = ⟨.type, s⟩ := by cases x; simp_all
    simp only [List.mem_singleton]
    exact ⟨fun h => ⟨h, by rw [h, ← this]; exact hx⟩, (·.1)⟩
  · next h =>
    simp only [List.any_eq_true, Bool.and_eq_true, beq_iff_eq, not_exists, not_and] at h
    simp only [List.not_mem_nil, false_iff, not_and]
    rintro rfl hg
    exact h _ hg rfl rfl

theorem mem_lifeIn {G : List GP} {s : String} {g : GP} : g ∈ lifeIn G s ↔ g = ⟨.lifetime, s⟩ ∧ g ∈ G := by
  unfold lifeIn
  split
  · next h =>
    simp only [List.any_eq_true, Bool.and_eq_true, beq_iff_eq] at h
    obtain ⟨x, hx, h1, h2⟩ := h
    have : x = ⟨.lifetime, s⟩ := by cases x; simp_all
    simp only [List.mem_singleton]
    exact ⟨fun h => ⟨h, by rw [h, ← this]; exact hx⟩, (·.1)⟩
  · next h =>
    simp only [List.any_eq_true, Bool.and_eq_true, beq_iff_eq, not_exists, not_and] at h
    simp only [List.not_mem_nil, false_iff, not_and]
    rintro rfl hg
    exact h _ hg rfl rfl

theorem getIdent_some {segs lts : List String} {args : List Ty} {s : String} (h : getIdent segs lts args = some s) :
    segs = [s] ∧ lts = [] ∧ args = [] := by
  unfold getIdent at h
  split at h
  · cases h; exact ⟨rfl, rfl, rfl⟩
  · cases h

mutual
/-- What is found is a parameter, and it is mentioned. -/
theorem contains_sound (G : List GP) (t : Ty) {g : GP} (h : g ∈ contains G t) : g ∈ G ∧ g.key ∈ t.names := by
  match t with
  | .array t len =>
    have := contains_sound G t (by simpa [contains] using h)
    exact ⟨this.1, by simp [Ty.names, this.2]⟩
  | .bareFn ins out =>
    simp only [contains, List.mem_append] at h
    rcases h with h | h
    · have := containsAll_sound G ins h; exact ⟨this.1, by simp [Ty.names, this.2]⟩
    · have := contains_sound G out h; exact ⟨this.1, by simp [Ty.names, this.2]⟩
  | .group t => simpa [Ty.names] using contains_sound G t (by simpa [contains] using h)
  | .implTrait _ => simp [contains] at h
  | .infer => simp [contains] at h
  | .mac => simp [contains] at h
  | .never => simp [contains] at h
  | .paren t => simpa [Ty.names] using contains_sound G t (by simpa [contains] using h)
  | .path segs lts args =>
    simp only [contains] at h
    split at h
    · next s hs =>
      obtain ⟨rfl, rfl, rfl⟩ := getIdent_some hs
      rw [mem_typeIn] at h
      refine ⟨h.2, ?_⟩
      rw [h.1]; simp [GP.key, Ty.names]
    · simp at h
  | .ptr t => simpa [Ty.names] using contains_sound G t (by simpa [contains] using h)
  | .ref lt t =>
    simp only [contains, List.mem_append] at h
    rcases h with h | h
    · split at h
      · rw [mem_lifeIn] at h
        refine ⟨h.2, ?_⟩
        rw [h.1]; simp [GP.key, Ty.names]
      · simp at h
    · have := contains_sound G t h; exact ⟨this.1, by simp [Ty.names, this.2]⟩
  | .slice t => simpa [Ty.names] using contains_sound G t (by simpa [contains] using h)
  | .traitObj bs => simpa [Ty.names] using containsAll_sound G bs (by simpa [contains] using h)
  | .life a =>
    simp only [contains, mem_lifeIn] at h
    refine ⟨h.2, ?_⟩
    rw [h.1]; simp [GP.key, Ty.names]
  | .tuple ts => simpa [Ty.names] using containsAll_sound G ts (by simpa [contains] using h)
  | .verbatim => simp [contains] at h

theorem containsAll_sound (G : List GP) (ts : List Ty) {g : GP} (h : g ∈ containsAll G ts) :
    g ∈ G ∧ g.key ∈ namesAll ts := by
  match ts with
  | [] => simp [containsAll] at h
  | t :: ts =>
    simp only [containsAll, List.mem_append] at h
    rcases h with h | h
    · have := contains_sound G t h; exact ⟨this.1, by simp [namesAll, this.2]⟩
    · have := containsAll_sound G ts h; exact ⟨this.1, by simp [namesAll, this.2]⟩
end

mutual
/-- None of the parameters `K` is mentioned where the search does not look: in the arguments or the beginning of a longer
path, in the length of an array, in `impl Trait`. -/
def Shallow (K : List (Bool × String)) : Ty → Prop
  | .array t len => Shallow K t ∧ ∀ x ∈ len, (false, x) ∉ K
  | .bareFn ins out => ShallowAll K ins ∧ Shallow K out
  | .group t => Shallow K t
  | .implTrait bs => ∀ k ∈ namesAll bs, k ∉ K
  | .infer => True
  | .mac => True
  | .never => True
  | .paren t => Shallow K t
  | .path segs lts args =>
    (segs.length = 1 ∧ lts = [] ∧ args = []) ∨ ∀ k ∈ Ty.names (.path segs lts args), k ∉ K
  | .ptr t => Shallow K t
  | .ref _ t => Shallow K t
  | .slice t => Shallow K t
  | .traitObj bs => ShallowAll K bs
  | .life _ => True
  | .tuple ts => ShallowAll K ts
  | .verbatim => True

/-- The same for a list of types. -/
def ShallowAll (K : List (Bool × String)) : List Ty → Prop
  | [] => True
  | t :: ts => Shallow K t ∧ ShallowAll K ts
end

mutual
/-- Where the search looks, it finds everything but constants. -/
theorem contains_complete (K : List (Bool × String)) (G : List GP) (t : Ty) (hs : Shallow K t) {g : GP} (hg : g ∈ G)
    (hk : g.key ∈ K) (hc : g.kind ≠ .const) (h : g.key ∈ t.names) : g ∈ contains G t := by
  have htype : ∀ s, g.key = (false, s) → g = ⟨.type, s⟩ := by
    intro s h; cases g with | mk k n => cases k <;> simp_all [GP.key]
  have hlife : ∀ s, g.key = (true, s) → g = ⟨.lifetime, s⟩ := by
    intro s h; cases g with | mk k n => cases k <;> simp_all [GP.key]
  match t with
  | .array t len =>
    simp only [Ty.names, List.mem_append, List.mem_map] at h
    rcases h with h | ⟨x, hx, h⟩
    · simpa [contains] using contains_complete K G t hs.1 hg hk hc h
    · exact absurd (h ▸ hk) (hs.2 x hx)
  | .bareFn ins out =>
    simp only [Ty.names, List.mem_append] at h
    simp only [contains, List.mem_append]
    rcases h with h | h
    · exact .inl (containsAll_complete K G ins hs.1 hg hk hc h)
    · exact .inr (contains_complete K G out hs.2 hg hk hc h)
  | .group t => simpa [contains] using contains_complete K G t hs hg hk hc (by simpa [Ty.names] using h)
  | .implTrait bs => exact absurd hk (hs _ (by simpa [Ty.names] using h))
  | .infer => simp [Ty.names] at h
  | .mac => simp [Ty.names] at h
  | .never => simp [Ty.names] at h
  | .paren t => simpa [contains] using contains_complete K G t hs hg hk hc (by simpa [Ty.names] using h)
  | .path segs lts args =>
    rcases hs with ⟨h1, rfl, rfl⟩ | hs
    · match segs, h1 with
      | [s], _ =>
        simp [Ty.names, namesAll] at h
        simp only [contains, getIdent, mem_typeIn]
        exact ⟨htype s h, hg⟩
    · exact absurd hk (hs _ h)
  | .ptr t => simpa [contains] using contains_complete K G t hs hg hk hc (by simpa [Ty.names] using h)
  | .ref lt t =>
    simp only [Ty.names, List.mem_append] at h
    simp only [contains, List.mem_append]
    rcases h with h | h
    · match lt with
      | none => simp at h
      | some a => simp at h; left; simp only [mem_lifeIn]; exact ⟨hlife a h, hg⟩
    · exact .inr (contains_complete K G t hs hg hk hc h)
  | .slice t => simpa [contains] using contains_complete K G t hs hg hk hc (by simpa [Ty.names] using h)
  | .traitObj bs => simpa [contains] using containsAll_complete K G bs hs hg hk hc (by simpa [Ty.names] using h)
  | .life a =>
    simp [Ty.names] at h
    simp only [contains, mem_lifeIn]
    exact ⟨hlife a h, hg⟩
  | .tuple ts => simpa [contains] using containsAll_complete K G ts hs hg hk hc (by simpa [Ty.names] using h)
  | .verbatim => simp [Ty.names] at h

theorem containsAll_complete (K : List (Bool × String)) (G : List GP) (ts : List Ty) (hs : ShallowAll K ts) {g : GP}
    (hg : g ∈ G) (hk : g.key ∈ K) (hc : g.kind ≠ .const) (h : g.key ∈ namesAll ts) : g ∈ containsAll G ts := by
  match ts with
  | [] => simp [namesAll] at h
  | t :: ts =>
    simp only [namesAll, List.mem_append] at h
    simp only [containsAll, List.mem_append]
    rcases h with h | h
    · exact .inl (contains_complete K G t hs.1 hg hk hc h)
    · exact .inr (containsAll_complete K G ts hs.2 hg hk hc h)
end

/-! ## Neighbours -/

theorem mem_dedup {l : List GP} {g : GP} : g ∈ dedup l ↔ g ∈ l := by
  induction l with
  | nil => simp [dedup]
  | cons a r ih =>
    unfold dedup
    split
    · next h =>
      have : g ∉ r := by rw [← ih, h]; simp
      simp [this]
    · next b r' h =>
      rw [h] at ih
      split
      · next hab => subst hab; rw [ih]; simp only [List.mem_cons]; rw [← ih]; simp
      · simp only [List.mem_cons] at ih ⊢; rw [ih]

/-- Equal neighbours collapse to one. -/
theorem dedup_same {l : List GP} {t : GP} (h : ∀ g ∈ l, g = t) : dedup l = [] ∨ dedup l = [t] := by
  induction l with
  | nil => exact .inl rfl
  | cons a r ih =>
    right
    have ha := h a (by simp)
    subst ha
    rcases ih (fun g hg => h g (by simp [hg])) with h1 | h1 <;> simp [dedup, h1]

/-! ## What holds -/

/-- What is enough: the block has at most one parameter, a type; it is mentioned only where the search looks, and not in the
return type alone; and the parameters of the method are types that its parameters mention. -/
structure Tidy (b : Block) (m : Method) : Prop where
  one : ∃ T, ∀ g ∈ b.generics, g = ⟨.type, T⟩
  types : ∀ g ∈ m.generics, g.kind = .type ∧ g ∉ b.generics
  nodup : m.generics.Nodup
  used : ∀ g ∈ m.generics, ∃ x ∈ m.params, g.key ∈ x.2.names
  shallow : ∀ x ∈ m.params, Shallow (b.generics.map GP.key) x.2
  ret : ∀ g ∈ b.generics, ∀ t, m.ret = some t → g.key ∈ t.names → ∃ x ∈ m.params, g.key ∈ x.2.names

theorem mem_found {b : Block} {m : Method} {g : GP} (h : g ∈ found b m) :
    g ∈ b.generics ∧ ((∃ p ty d, .typed p ty d ∈ m.args ∧ g.key ∈ ty.names) ∨ ∃ t, m.ret = some t ∧ g.key ∈ t.names) := by
  unfold found at h
  dsimp only at h
  rw [mem_dedup, List.mem_append] at h
  generalize hG : (List.filter (fun g : GP => g.kind == .lifetime) _ ++ _) = G at h
  have hsub : ∀ x ∈ G, x ∈ b.generics := by
    intro x hx
    rw [← hG] at hx
    simp only [List.mem_append, List.mem_filter] at hx
    rcases hx with hx | hx <;> exact hx.1.1
  rcases h with h | h
  · rw [List.mem_flatMap] at h
    obtain ⟨a, ha, h⟩ := h
    match a with
    | .recv => simp at h
    | .typed p ty d =>
      have := contains_sound G ty h
      exact ⟨hsub _ this.1, .inl ⟨p, ty, d, ha, this.2⟩⟩
  · match hr : m.ret with
    | none => rw [hr] at h; simp at h
    | some t =>
      rw [hr] at h
      have := contains_sound G t h
      exact ⟨hsub _ this.1, .inr ⟨t, rfl, this.2⟩⟩

theorem found_of_mention {b : Block} {m : Method} {g : GP} {p : Pat} {ty : Ty} {d : List String}
    (hg : g ∈ b.generics) (hk : g.kind = .type) (hn : g ∉ m.generics) (hs : Shallow (b.generics.map GP.key) ty)
    (ha : .typed p ty d ∈ m.args) (h : g.key ∈ ty.names) : g ∈ found b m := by
  unfold found
  dsimp only
  rw [mem_dedup, List.mem_append]
  left
  rw [List.mem_flatMap]
  refine ⟨_, ha, ?_⟩
  refine contains_complete (b.generics.map GP.key) _ ty hs ?_ (List.mem_map_of_mem hg) (by simp [hk]) h
  simp [hg, hk, hn]

theorem found_of_tidy {b : Block} {m : Method} (ht : Tidy b m) :
    found b m = [] ∨ ∃ T, found b m = [⟨.type, T⟩] ∧ ⟨.type, T⟩ ∈ b.generics := by
  obtain ⟨T, hT⟩ := ht.one
  have hall : ∀ g ∈ found b m, g = ⟨.type, T⟩ := fun g hg => hT g (mem_found hg).1
  have h2 : found b m = [] ∨ found b m = [⟨.type, T⟩] := by
    have hraw : ∃ l, found b m = dedup l := ⟨_, rfl⟩
    obtain ⟨l, hl⟩ := hraw
    rw [hl] at hall ⊢
    exact dedup_same fun g hg => hall g (mem_dedup.2 hg)
  rcases h2 with h | h
  · exact .inl h
  · exact .inr ⟨T, h, (mem_found (by rw [h]; simp)).1⟩

theorem genericsOf_tidy {b : Block} {m : Method} (ht : Tidy b m) :
    genericsOf b m = some (found b m ++ m.generics) := by
  have h1 : m.generics.filter (·.kind == .lifetime) = [] := by
    rw [List.filter_eq_nil_iff]; intro g hg; simp [(ht.types g hg).1]
  have h2 : m.generics.filter (·.kind == .type) = m.generics := by
    rw [List.filter_eq_self]; intro g hg; simp [(ht.types g hg).1]
  unfold genericsOf
  dsimp only
  rcases found_of_tidy ht with h | ⟨T, h, -⟩
  · simp [h]
  · rw [h, h1, h2]; simp

theorem extract1_msg {camel : String → String} {b : Block} {m m' : Method} {e : List Err} {msg : Msg}
    (h : extract1 camel b m = some (m', e, some msg)) :
    genericsOf b m = some msg.generics ∧ fieldsOf m.vis m.args = some msg.fields ∧ msg.sig.generics = m.generics := by
  unfold extract1 at h
  split at h
  · cases h
  · split at h
    · cases h
    next g hg =>
    dsimp only at h
    split at h
    · split at h
      · cases h
      next fs hf =>
      split at h
      · cases h; exact ⟨hg, hf, rfl⟩
      · cases h
    · cases h

theorem scoped_of_tidy {camel : String → String} {b : Block} {m m' : Method} {e : List Err} {msg : Msg} (ht : Tidy b m)
    (h : extract1 camel b m = some (m', e, some msg)) (a : String) :
    Scoped b m msg.toStruct (msg.toHandler b a) := by
  obtain ⟨hg, hf, hsig⟩ := extract1_msg h
  rw [genericsOf_tidy ht, Option.some.injEq] at hg
  have hmap := (fieldsOf_some hf).1
  have hfield : ∀ x ∈ m.params, ∃ f ∈ msg.fields, f.ty = x.2 := by
    intro x hx
    have : x ∈ msg.fields.map (fun f => (f.name, f.ty)) := by rw [hmap]; exact hx
    obtain ⟨f, h1, h2⟩ := List.mem_map.1 this
    exact ⟨f, h1, by rw [← h2]⟩
  have hparam : ∀ f ∈ msg.fields, (f.name, f.ty) ∈ m.params := by
    intro f hfm
    have : (f.name, f.ty) ∈ msg.fields.map (fun f => (f.name, f.ty)) := List.mem_map.2 ⟨f, hfm, rfl⟩
    rw [hmap] at this; exact this
  have harg : ∀ x ∈ m.params, ∃ p d, .typed p x.2 d ∈ m.args := by
    intro x hx
    simp only [Method.params, List.mem_filterMap] at hx
    obtain ⟨y, h1, h2⟩ := hx
    split at h2
    · cases h2; exact ⟨_, _, h1⟩
    · cases h2
  have hargp : ∀ p ty d, .typed p ty d ∈ m.args → ∃ x ∈ m.params, x.2 = ty := by
    intro p ty d hm
    match p with
    | .other => rw [(fieldsOf_none _ _).2 ⟨ty, d, hm⟩] at hf; cases hf
    | .ident s => exact ⟨(s, ty), by simp only [Method.params, List.mem_filterMap]; exact ⟨_, hm, rfl⟩, rfl⟩
  -- all that is declared is mentioned by a field
  have husd : ∀ g ∈ msg.generics, ∃ f ∈ msg.fields, g.key ∈ f.ty.names := by
    intro g hgm
    have : ∃ x ∈ m.params, g.key ∈ x.2.names := by
      rw [← hg, List.mem_append] at hgm
      rcases hgm with hgm | hgm
      · obtain ⟨hb, ⟨p, ty, d, hm, hn⟩ | ⟨t, hr, hn⟩⟩ := mem_found hgm
        · obtain ⟨x, hx, rfl⟩ := hargp p ty d hm; exact ⟨x, hx, hn⟩
        · exact ht.ret g hb t hr hn
      · exact ht.used g hgm
    obtain ⟨x, hx, hn⟩ := this
    obtain ⟨f, hfm, hfe⟩ := hfield x hx
    exact ⟨f, hfm, by rw [hfe]; exact hn⟩
  have hgen : msg.toStruct.generics = msg.generics ∧ msg.toStruct.fields = msg.fields := by
    unfold Msg.toStruct
    split
    · next hem =>
      have hem : msg.fields = [] := by simpa using hem
      refine ⟨?_, hem.symm⟩
      match hgg : msg.generics with
      | [] => rfl
      | g :: r =>
        obtain ⟨f, hfm, -⟩ := husd g (by rw [hgg]; simp)
        rw [hem] at hfm; cases hfm
    · exact ⟨rfl, rfl⟩
  obtain ⟨T, hT⟩ := ht.one
  refine ⟨?_, ?_, ?_, by rw [hgen.1]; rfl, by simp [Msg.toHandler, hsig]⟩
  · rw [hgen.1, ← hg, List.map_append, List.nodup_append]
    have hnd : (m.generics.map GP.key).Nodup := by
      have : ∀ l : List GP, (∀ g ∈ l, g.kind = .type) → l.Nodup → (l.map GP.key).Nodup := by
        intro l
        induction l with
        | nil => simp
        | cons x l ih =>
          intro h1 h2
          simp only [List.nodup_cons] at h2
          simp only [List.map_cons, List.nodup_cons, List.mem_map, not_exists, not_and]
          refine ⟨fun y hy hxy => h2.1 ?_, ih (fun g hg => h1 g (by simp [hg])) h2.2⟩
          have hx := h1 x (by simp)
          have hy' := h1 y (by simp [hy])
          have : y = x := by cases x; cases y; simp_all [GP.key]
          exact this ▸ hy
      exact this _ (fun g hg => (ht.types g hg).1) ht.nodup
    refine ⟨?_, hnd, ?_⟩
    · rcases found_of_tidy ht with h | ⟨T, h, -⟩ <;> rw [h] <;> simp
    · intro k hk k' hk' hkk
      obtain ⟨x, hx, rfl⟩ := List.mem_map.1 hk
      obtain ⟨y, hy, rfl⟩ := List.mem_map.1 hk'
      have hxb := (mem_found hx).1
      have hxt := hT x hxb
      have hy' := ht.types y hy
      have : y = x := by cases x; cases y; simp_all [GP.key]
      exact hy'.2 (this ▸ hxb)
  · intro g hgm f hfm hn
    rw [hgen.1, ← hg]
    rw [hgen.2] at hfm
    apply List.mem_map_of_mem
    rcases List.mem_append.1 hgm with hb | hm
    · apply List.mem_append_left
      have hp := hparam f hfm
      obtain ⟨p, d, hm⟩ := harg _ hp
      refine found_of_mention hb (by rw [hT g hb]) (fun hm' => (ht.types g hm').2 hb) (ht.shallow _ hp) hm hn
    · exact List.mem_append_right _ hm
  · intro g hgm _
    rw [hgen.1] at hgm
    rw [hgen.2]
    exact husd g hgm

/-- **C69**, for blocks that are `Tidy`: the macro does not panic, and the generic parameters of every message fit. Missing:
blocks with several parameters, lifetimes or constants, and parameters mentioned inside of other types, for which it is
false (below). -/
theorem message_generics_fit_partial (camel : String → String) (b : Block)
    (ht : ∀ m ∈ methods b.items, m.marked = true → Tidy b m) :
    ∃ out, expand camel b = some out ∧ ∀ (i : Nat) s h, out.structs[i]? = some s → out.handlers[i]? = some h →
      ∃ m ∈ methods b.items, Renders camel m s h ∧ Scoped b m s h := by
  have key : ∀ items : List Item, (∀ m ∈ methods items, m.marked = true → Tidy b m) →
      ∃ is es ms, extract camel b items = some (is, es, ms) ∧ ∀ msg ∈ ms, ∃ m ∈ methods items, ∀ a,
        Renders camel m msg.toStruct (msg.toHandler b a) ∧ Scoped b m msg.toStruct (msg.toHandler b a) := by
    intro items
    induction items with
    | nil => exact fun _ => ⟨_, _, _, rfl, by simp⟩
    | cons it r ih =>
      intro ht
      match it with
      | .other s =>
        obtain ⟨is, es, ms, h1, h2⟩ := ih (by simpa [methods] using ht)
        exact ⟨_, _, _, by simp [extract, h1]; exact ⟨rfl, rfl, rfl⟩, by simpa [methods] using h2⟩
      | .fn m =>
        have hmm : methods (.fn m :: r) = m :: methods r := rfl
        rw [hmm] at ht ⊢
        obtain ⟨is, es, ms, h1, h2⟩ := ih (fun m' hm' => ht m' (by simp [hm']))
        have hx : ∃ x, extract1 camel b m = some x := by
          unfold extract1
          split
          · exact ⟨_, rfl⟩
          · next kept items hs =>
            have hmk : m.marked = true := by
              have h1 : (strip m.attrs).2 ≠ none := by rw [hs]; simp
              rw [Ne, strip_unmarked] at h1
              simpa [Method.marked] using h1
            rw [genericsOf_tidy (ht m (by simp) hmk)]
            dsimp only
            split
            · split
              · exact ⟨_, rfl⟩
              · split <;> exact ⟨_, rfl⟩
            · exact ⟨_, rfl⟩
        obtain ⟨⟨m', e, x⟩, hx⟩ := hx
        refine ⟨_, _, _, by simp [extract, hx, h1]; exact ⟨rfl, rfl, rfl⟩, ?_⟩
        intro msg hmsg
        rcases List.mem_append.1 hmsg with hmsg | hmsg
        · have hxs : x = some msg := by simpa using hmsg
          subst hxs
          rcases extract1_cases hx with ⟨-, -, h⟩ | ⟨-, -, -, h⟩ | ⟨k1, -, -, msg', h, k3⟩
          · cases h
          · cases h
          · cases h
            exact ⟨m, by simp, fun a => ⟨k3 a, scoped_of_tidy (ht m (by simp) k1) hx a⟩⟩
        · obtain ⟨m'', hm'', h3⟩ := h2 msg hmsg
          exact ⟨m'', by simp [hm''], h3⟩
  obtain ⟨is, es, ms, h1, h2⟩ := key b.items ht
  unfold expand
  split
  · exact ⟨_, rfl, by simp⟩
  next a ha =>
  rw [h1]
  refine ⟨_, rfl, ?_⟩
  intro i s h hs hh
  simp only [List.getElem?_map, Option.map_eq_some_iff] at hs hh
  obtain ⟨msg, k1, rfl⟩ := hs
  obtain ⟨msg', k2, rfl⟩ := hh
  rw [k1] at k2; cases k2
  obtain ⟨m, hm, h3⟩ := h2 msg (List.mem_of_getElem? k1)
  exact ⟨m, hm, h3 a⟩

/-- `impl<T> Store<T> { #[message] fn put<K>(&mut self, key: K, vals: [T; 2]) -> Option<T>; }` -/
def exStore : Block where
  generics := [⟨.type, "T"⟩]
  selfTy := .path ["Store"] [] [.path ["T"] [] []]
  items := [.fn { name := "put", attrs := [.path ["message"]], generics := [⟨.type, "K"⟩],
                  args := [.recv, .typed (.ident "key") (.path ["K"] [] []) [], .typed (.ident "vals") (.array (.path ["T"] [] []) []) []],
                  ret := some (.path ["Option"] [] [.path ["T"] [] []]) }]

example : ∀ m ∈ methods exStore.items, m.marked = true → Tidy exStore m := by
  intro m hm _
  simp [methods, exStore] at hm
  subst hm
  constructor
  · exact ⟨"T", by simp [exStore]⟩
  · simp [exStore]
  · simp
  · simp [Method.params, Ty.names, GP.key]
  · simp [Method.params, Shallow, exStore]
  · simp [exStore, Method.params, Ty.names, GP.key, namesAll]

example : (expand id exStore).map (fun o => o.structs.map (·.generics)) = some [[⟨.type, "T"⟩, ⟨.type, "K"⟩]] := rfl

/-! ## What does not hold -/

/-- A block with one method. -/
def single (gs : List GP) (self : Ty) (m : Method) : Block := ⟨gs, self, [.fn m]⟩

/-- What the macro keeps of a method marked `#[message]`. -/
def kept (camel : String → String) (m : Method) (fs : List Field) (g : List GP) : Msg :=
  ⟨m.vis, { m with attrs := [], args := m.args.map undoc }, camel m.name, fs, [], g⟩

theorem expand_single (camel : String → String) {gs : List GP} {self : Ty} {actor : String} {m : Method} {g : List GP}
    {fs : List Field} {r : List Arg} (ha : actorIdent self = some actor) (hm : m.attrs = [.path ["message"]])
    (hr : m.args = .recv :: r) (hg : genericsOf (single gs self m) m = some g) (hf : fieldsOf m.vis m.args = some fs)
    (ht : typeErrs m = []) :
    ∃ out, expand camel (single gs self m) = some out ∧ out.errors = [] ∧ out.structs = [(kept camel m fs g).toStruct] ∧
      out.handlers = [(kept camel m fs g).toHandler (single gs self m) actor] := by
  have h1 : extract1 camel (single gs self m) m =
      some ({ m with attrs := [], args := m.args.map undoc }, [], some (kept camel m fs g)) := by
    unfold extract1
    simp only [hm, strip, hg]
    rw [hr] at hf ⊢
    dsimp only
    rw [hf]
    simp [attrErrs, ht, kept, docs, hr]
  have h2 : extract camel (single gs self m) (single gs self m).items =
      some ([.fn { m with attrs := [], args := m.args.map undoc }], [], [kept camel m fs g]) := by
    show extract camel (single gs self m) [.fn m] = _
    simp [extract, h1]
  refine ⟨⟨{ single gs self m with items := [.fn { m with attrs := [], args := m.args.map undoc }] },
    [(kept camel m fs g).toStruct], [(kept camel m fs g).toHandler (single gs self m) actor], []⟩, ?_, rfl, rfl, rfl⟩
  unfold expand
  rw [h2]
  show (match actorIdent self with | none => _ | some a => _) = _
  rw [ha]
  rfl

/-- **C69** is false: a parameter mentioned inside of another type, as in `fn put(&mut self, all: Vec<T>)`, is not
declared. -/
theorem nested_generic_undeclared (camel : String → String) (actor T name x : String) (segs : List String) :
    let m : Method := { name := name, attrs := [.path ["message"]],
                        args := [.recv, .typed (.ident x) (.path segs [] [.path [T] [] []]) []] }
    let b := single [⟨.type, T⟩] (.path [actor] [] [.path [T] [] []]) m
    ∃ out s h, expand camel b = some out ∧ out.errors = [] ∧ out.structs = [s] ∧ out.handlers = [h] ∧
      ¬ Scoped b m s h := by
  intro m b
  have hgi : getIdent segs [] [Ty.path [T] [] []] = none := by unfold getIdent; split <;> simp_all
  have hf : found b m = [] := by simp [found, b, m, single, contains, hgi, dedup]
  obtain ⟨out, h1, h2, h3, h4⟩ := expand_single camel (gs := [⟨.type, T⟩]) (self := .path [actor] [] [.path [T] [] []])
    (m := m) (g := []) (fs := [⟨[], "", x, .path segs [] [.path [T] [] []]⟩]) rfl rfl rfl (by unfold genericsOf; dsimp only; rw [show found (single _ _ m) m = [] from hf]; rfl)
    (by simp [fieldsOf, m]) (by simp [typeErrs, m, validate])
  refine ⟨out, _, _, h1, h2, h3, h4, fun hs => ?_⟩
  have := hs.declared ⟨.type, T⟩ (by simp [b, single]) ⟨[], "", x, .path segs [] [.path [T] [] []]⟩
    (by simp [kept, Msg.toStruct]) (by simp [GP.key, Ty.names, namesAll])
  simp [kept, Msg.toStruct] at this

/-- `impl<T> Store<T> { fn put(&mut self, all: Vec<T>) }`. -/
example : (expand id (single [⟨.type, "T"⟩] (.path ["Store"] [] [.path ["T"] [] []])
    { name := "put", attrs := [.path ["message"]],
      args := [.recv, .typed (.ident "all") (.path ["Vec"] [] [.path ["T"] [] []]) []] })).map
      (fun o => o.structs.map (·.generics)) = some [[]] := rfl

/-- **C69** is false: a method without parameters that returns a parameter of the block, as in `fn get(&self) -> T`. The
message type has no parameters, and is used with one. -/
theorem returned_generic_mismatch (camel : String → String) (actor T name : String) :
    let m : Method := { name := name, attrs := [.path ["message"]], args := [.recv], ret := some (.path [T] [] []) }
    let b := single [⟨.type, T⟩] (.path [actor] [] [.path [T] [] []]) m
    ∃ out s h, expand camel b = some out ∧ out.errors = [] ∧ out.structs = [s] ∧ out.handlers = [h] ∧
      s.generics = [] ∧ h.msgArgs = [⟨.type, T⟩] := by
  intro m b
  obtain ⟨out, h1, h2, h3, h4⟩ := expand_single camel (gs := [⟨.type, T⟩]) (self := .path [actor] [] [.path [T] [] []])
    (m := m) (g := [⟨.type, T⟩]) (fs := []) rfl rfl rfl
    (by simp [genericsOf, found, m, single, contains, getIdent, typeIn, dedup])
    (by simp [fieldsOf, m]) (by simp [typeErrs, m])
  exact ⟨out, _, _, h1, h2, h3, h4, rfl, rfl⟩

/-- `impl<T> Store<T> { fn get(&self) -> T }`. -/
example : (expand id (single [⟨.type, "T"⟩] (.path ["Store"] [] [.path ["T"] [] []])
    { name := "get", attrs := [.path ["message"]], args := [.recv], ret := some (.path ["T"] [] []) })).map
      (fun o => (o.structs.map (·.generics), o.handlers.map (·.msgArgs))) = some ([[]], [[⟨.type, "T"⟩]]) := rfl

/-- **C69** is false: with another parameter in between, a parameter is declared twice, as in
`fn swap(&mut self, a: T, b: U, c: T)`. -/
theorem repeated_generic_declared_twice (camel : String → String) (actor T U name x y z : String) (hTU : T ≠ U) :
    let m : Method := { name := name, attrs := [.path ["message"]],
                        args := [.recv, .typed (.ident x) (.path [T] [] []) [], .typed (.ident y) (.path [U] [] []) [],
                                 .typed (.ident z) (.path [T] [] []) []] }
    let b := single [⟨.type, T⟩, ⟨.type, U⟩] (.path [actor] [] [.path [T] [] [], .path [U] [] []]) m
    ∃ out s h, expand camel b = some out ∧ out.errors = [] ∧ out.structs = [s] ∧ out.handlers = [h] ∧
      s.generics = [⟨.type, T⟩, ⟨.type, U⟩, ⟨.type, T⟩] := by
  intro m b
  have hUT := Ne.symm hTU
  obtain ⟨out, h1, h2, h3, h4⟩ := expand_single camel (gs := [⟨.type, T⟩, ⟨.type, U⟩])
    (self := .path [actor] [] [.path [T] [] [], .path [U] [] []])
    (m := m) (g := [⟨.type, T⟩, ⟨.type, U⟩, ⟨.type, T⟩])
    (fs := [⟨[], "", x, .path [T] [] []⟩, ⟨[], "", y, .path [U] [] []⟩, ⟨[], "", z, .path [T] [] []⟩]) rfl rfl rfl
    (by simp [genericsOf, found, m, single, contains, getIdent, typeIn, dedup, hTU, hUT])
    (by simp [fieldsOf, m]) (by simp [typeErrs, m, validate])
  exact ⟨out, _, _, h1, h2, h3, h4, rfl⟩

/-- `impl<T, U> Store<T, U> { fn swap(&mut self, a: T, b: U, c: T) }`. -/
example : (expand id (single [⟨.type, "T"⟩, ⟨.type, "U"⟩] (.path ["Store"] [] [.path ["T"] [] [], .path ["U"] [] []])
    { name := "swap", attrs := [.path ["message"]],
      args := [.recv, .typed (.ident "a") (.path ["T"] [] []) [], .typed (.ident "b") (.path ["U"] [] []) [],
        .typed (.ident "c") (.path ["T"] [] []) []] })).map
      (fun o => o.structs.map (·.generics)) = some [[⟨.type, "T"⟩, ⟨.type, "U"⟩, ⟨.type, "T"⟩]] := rfl

/-- **C69** is false: a constant parameter of the block is never declared, as in `fn fill(&mut self, a: [u8; N])`. -/
theorem const_generic_undeclared (camel : String → String) (actor N name x u8 : String) :
    let m : Method := { name := name, attrs := [.path ["message"]],
                        args := [.recv, .typed (.ident x) (.array (.path [u8] [] []) [N]) []] }
    let b := single [⟨.const, N⟩] (.path [actor] [] [.path [N] [] []]) m
    ∃ out s h, expand camel b = some out ∧ out.errors = [] ∧ out.structs = [s] ∧ out.handlers = [h] ∧
      ¬ Scoped b m s h := by
  intro m b
  obtain ⟨out, h1, h2, h3, h4⟩ := expand_single camel (gs := [⟨.const, N⟩]) (self := .path [actor] [] [.path [N] [] []])
    (m := m) (g := []) (fs := [⟨[], "", x, .array (.path [u8] [] []) [N]⟩]) rfl rfl rfl
    (by simp [genericsOf, found, m, single, contains, getIdent, typeIn, dedup])
    (by simp [fieldsOf, m]) (by simp [typeErrs, m, validate])
  refine ⟨out, _, _, h1, h2, h3, h4, fun hs => ?_⟩
  have := hs.declared ⟨.const, N⟩ (by simp [b, single]) ⟨[], "", x, .array (.path [u8] [] []) [N]⟩
    (by simp [kept, Msg.toStruct]) (by simp [GP.key, Ty.names])
  simp [kept, Msg.toStruct] at this

/-- `impl<const N: usize> Store<N> { fn fill(&mut self, a: [u8; N]) }`. -/
example : (expand id (single [⟨.const, "N"⟩] (.path ["Store"] [] [.path ["N"] [] []])
    { name := "fill", attrs := [.path ["message"]],
      args := [.recv, .typed (.ident "a") (.array (.path ["u8"] [] []) ["N"]) []] })).map
      (fun o => o.structs.map (·.generics)) = some [[]] := rfl

/-- **C69** is false: with a lifetime of the block and a type found in the parameters the macro panics, as in
`fn show(&mut self, d: (&'a str, T))`. -/
theorem lifetime_and_type_panics (camel : String → String) (actor a T name x str : String) :
    let m : Method := { name := name, attrs := [.path ["message"]],
                        args := [.recv, .typed (.ident x) (.tuple [.ref (some a) (.path [str] [] []), .path [T] [] []]) []] }
    expand camel (single [⟨.lifetime, a⟩, ⟨.type, T⟩] (.path [actor] [a] [.path [T] [] []]) m) = none := by
  intro m
  generalize hb : single [⟨.lifetime, a⟩, ⟨.type, T⟩] (.path [actor] [a] [.path [T] [] []]) m = b
  have hg : genericsOf b m = none := by
    have hl : ⟨.lifetime, a⟩ ∈ found b m := by
      subst hb; simp [found, mem_dedup, single, m, contains, containsAll, lifeIn]
    have ht : ⟨.type, T⟩ ∈ found b m := by
      subst hb; simp [found, mem_dedup, single, m, contains, containsAll, lifeIn, getIdent, typeIn]
    unfold genericsOf
    dsimp only
    have h0 : found b m ≠ [] := by intro h; rw [h] at hl; cases hl
    rw [if_neg h0, if_neg]
    rintro (h | h)
    · simp only [List.append_eq_nil_iff, List.filter_eq_nil_iff] at h; exact h.1 _ hl rfl
    · simp only [List.append_eq_nil_iff, List.filter_eq_nil_iff] at h; exact h.1 _ ht rfl
  have h1 : extract1 camel b m = none := by
    unfold extract1; simp only [m, strip] at hg ⊢; simp [hg]
  have h2 : extract camel b b.items = none := by
    have : b.items = [.fn m] := by rw [← hb]; rfl
    rw [this]; simp [extract, h1]
  have ha : actorIdent b.selfTy = some actor := by rw [← hb]; rfl
  unfold expand
  rw [ha, h2]

/-- `impl<'a, T> Store<'a, T> { fn show(&mut self, d: (&'a str, T)) }`. -/
example : expand id (single [⟨.lifetime, "a"⟩, ⟨.type, "T"⟩] (.path ["Store"] ["a"] [.path ["T"] [] []])
    { name := "show", attrs := [.path ["message"]],
      args := [.recv, .typed (.ident "d") (.tuple [.ref (some "a") (.path ["str"] [] []), .path ["T"] [] []]) []] }) =
      none := rfl

/-- **C69** is false: the implementation is for the last segment of the self type with the parameters of the block. For a
type of another module, or with other arguments than the parameters of the block, as in `impl Store<u32>`, that is another
type. -/
theorem implemented_for_other_type (camel : String → String) (b : Block) (segs lts : List String) (args : List Ty)
    (hs : b.selfTy = .path segs lts args)
    (hne : segs.length ≠ 1 ∨ args.length ≠ (b.generics.filter (·.kind != .lifetime)).length)
    (out : Output) (h : expand camel b = some out) : ∀ hd ∈ out.handlers, hd.actorTy ≠ b.selfTy ∧
      ∃ pre actor, segs = pre ++ [actor] ∧
        hd.actorTy = .path [actor] ((b.generics.filter (·.kind == .lifetime)).map (·.name))
          ((b.generics.filter (·.kind != .lifetime)).map (fun g => .path [g.name] [] [])) := by
  unfold expand at h
  split at h
  · cases h; simp
  next a ha =>
  split at h
  · cases h
  cases h
  intro hd hm
  obtain ⟨msg, -, rfl⟩ := List.mem_map.1 hm
  rw [hs] at ha ⊢
  have ha' : segs.getLast? = some a := ha
  obtain ⟨pre, hpre⟩ := List.getLast?_eq_some_iff.mp ha'
  refine ⟨fun heq => ?_, pre, a, hpre, rfl⟩
  simp only [Msg.toHandler, applied, Ty.path.injEq] at heq
  obtain ⟨h1, -, h3⟩ := heq
  rcases hne with h | h
  · exact h (by rw [← h1]; rfl)
  · exact h (by rw [← h3]; simp)

/-- `impl Store<u32>`: the implementation is for `Store`. -/
example : ((expand id (single [] (.path ["Store"] [] [.path ["u32"] [] []])
    { name := "put", attrs := [.path ["message"]], args := [.recv] })).map (fun o => o.handlers.map (·.actorTy))) =
    some [.path ["Store"] [] []] := rfl

/-- **C69**: it is for the type of the block if that is written as its name with the parameters of the block. -/
theorem implemented_for_block_partial (camel : String → String) (b : Block) (actor : String)
    (hs : b.selfTy = .path [actor] ((b.generics.filter (·.kind == .lifetime)).map (·.name))
      ((b.generics.filter (·.kind != .lifetime)).map (fun g => .path [g.name] [] [])))
    (out : Output) (h : expand camel b = some out) : ∀ hd ∈ out.handlers, hd.actorTy = b.selfTy := by
  unfold expand at h
  split at h
  · cases h; simp
  next a ha =>
  split at h
  · cases h
  cases h
  rw [hs] at ha ⊢
  simp [actorIdent] at ha
  subst ha
  intro hd hm
  obtain ⟨msg, -, rfl⟩ := List.mem_map.1 hm
  rfl

example : exStore.selfTy = .path ["Store"] ((exStore.generics.filter (·.kind == .lifetime)).map (·.name))
      ((exStore.generics.filter (·.kind != .lifetime)).map (fun g => .path [g.name] [] [])) := rfl

/-- `impl Store<u32> { #[message] fn put(..) }`: the implementation is for `Store`. -/
example : ((expand id (single [] (.path ["Store"] [] [.path ["u32"] [] []])
    { name := "put", attrs := [.path ["message"]], args := [.recv] })).map (fun o => o.handlers.map (·.actorTy))) =
    some [.path ["Store"] [] []] := rfl

/-- **C69**, exactly: an implementation is for the type of the block if and only if that is written as one name, with the
lifetimes of the block and then its other parameters in their order. (If the type is no path, or the macro panics, there is
no implementation.) -/
theorem implemented_for_block_iff (camel : String → String) (b : Block) (out : Output) (h : expand camel b = some out)
    (hd : Handler) (hm : hd ∈ out.handlers) :
    hd.actorTy = b.selfTy ↔ ∃ actor, b.selfTy = .path [actor] ((b.generics.filter (·.kind == .lifetime)).map (·.name))
      ((b.generics.filter (·.kind != .lifetime)).map (fun g => .path [g.name] [] [])) := by
  constructor
  · intro heq
    unfold expand at h
    split at h
    · cases h; simp at hm
    next a ha =>
    split at h
    · cases h
    cases h
    obtain ⟨msg, -, rfl⟩ := List.mem_map.1 hm
    exact ⟨a, heq.symm⟩
  · rintro ⟨actor, hs⟩
    exact implemented_for_block_partial camel b actor hs out h hd hm

/-- `impl<T> Store<T>` is for its block; so `impl<T> Store<Vec<T>>` and `impl<T> m::Store<T>` are not. -/
example :
    let ty (self : Ty) := (expand id (single [⟨.type, "T"⟩] self
      { name := "put", attrs := [.path ["message"]], args := [.recv] })).map (fun o => o.handlers.map (·.actorTy))
    ty (.path ["Store"] [] [.path ["T"] [] []]) = some [.path ["Store"] [] [.path ["T"] [] []]] ∧
    ty (.path ["Store"] [] [.path ["Vec"] [] [.path ["T"] [] []]]) = some [.path ["Store"] [] [.path ["T"] [] []]] ∧
    ty (.path ["m", "Store"] [] [.path ["T"] [] []]) = some [.path ["Store"] [] [.path ["T"] [] []]] := ⟨rfl, rfl, rfl⟩

end Verif.Macros
