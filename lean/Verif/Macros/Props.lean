import Verif.Macros.Model

/-!
# C68: what `#[messages]` produces
-/

namespace Verif.Macros

/-! ## Specification -/

/-- `#[message]` or `#[message(..)]`. -/
def Attr.marks : Attr → Bool
  | .path ["message"] => true
  | .list ["message"] _ => true
  | _ => false

/-- A method that is to be a message. -/
def Method.marked (m : Method) : Bool := m.attrs.any Attr.marks

/-- Types that are refused: references, `impl Trait` and `_`, in any number of parentheses. -/
inductive Refused : Ty → Prop
  | implTrait (bs) : Refused (.implTrait bs)
  | infer : Refused .infer
  | ref (lt t) : Refused (.ref lt t)
  | group {t} : Refused t → Refused (.group t)
  | paren {t} : Refused t → Refused (.paren t)

/-- A parameter a message can have as a field. -/
def Arg.fit : Arg → Prop
  | .recv => True
  | .typed p ty _ => p ≠ .other ∧ ¬ Refused ty

/-- A method that can be a message: it has a receiver, its other parameters can be fields, and the arguments of the
attribute parse. -/
structure Method.Valid (m : Method) : Prop where
  recv : m.args.head? = some .recv
  args : ∀ a ∈ m.args, a.fit
  attr : ∀ segs, m.attrs.find? Attr.marks ≠ some (.list segs none)

/-- The methods of a block. -/
def methods (items : List Item) : List Method := items.filterMap fun | .fn m => some m | .other _ => none

/-- The names and types of the parameters. -/
def Method.params (m : Method) : List (String × Ty) :=
  m.args.filterMap fun | .typed (.ident s) t _ => some (s, t) | _ => none

/-- `s` and `h` are the message of method `m`: the fields are the parameters, and the message, however its fields are
written down, makes the actor call the method with these values. -/
structure Renders (camel : String → String) (m : Method) (s : Struct) (h : Handler) : Prop where
  name : s.name = camel m.name
  sameName : h.msgName = s.name
  vis : s.vis = m.vis ∧ ∀ f ∈ s.fields, f.vis = m.vis
  fields : s.fields.map (fun f => (f.name, f.ty)) = m.params
  attrs : ∀ d, .doc d ∈ m.attrs → d ∈ s.attrs
  reply : h.reply = m.ret.getD (.tuple [])
  awaits : h.awaits = m.isAsync
  call : ∀ (V : Type) (vs : List V) (lit : Value V), vs.length = m.params.length → (m.params.map (·.1)).Nodup →
    lit.Perm ((m.params.map (·.1)).zip vs) → h.call lit = (m.name, vs.map some)

/-! ## Proofs -/

theorem validate_iff (t : Ty) : validate t = false ↔ Refused t := by
  constructor
  · intro h
    fun_induction validate t with
    | case1 => exact .implTrait _
    | case2 => exact .infer
    | case3 => exact .ref _ _
    | case4 t ih => exact .group (ih h)
    | case5 t ih => exact .paren (ih h)
    | case6 => simp at h
  · intro h
    induction h with
    | implTrait | infer | ref => simp [validate]
    | group _ ih | paren _ ih => simpa [validate] using ih

theorem strip_unmarked (l : List Attr) : (strip l).2 = none ↔ l.any Attr.marks = false := by
  fun_induction strip l with
  | case1 => simp
  | case2 => simp [Attr.marks]
  | case3 => simp [Attr.marks]
  | case4 a r h1 h2 ih =>
    have : a.marks = false := by
      unfold Attr.marks; split
      · exact absurd rfl h1
      · exact absurd rfl (h2 _)
      · rfl
    simp [this, ih]

theorem strip_malformed (l : List Attr) :
    (strip l).2 = some none ↔ ∃ segs, l.find? Attr.marks = some (.list segs none) := by
  fun_induction strip l with
  | case1 => simp
  | case2 => simp [Attr.marks]
  | case3 items r =>
    simp only [List.find?, Attr.marks]
    constructor
    · intro h; simp at h; exact ⟨_, by rw [h]⟩
    · rintro ⟨segs, h⟩; simp at h; simp [h.2]
  | case4 a r h1 h2 ih =>
    have : a.marks = false := by
      unfold Attr.marks; split
      · exact absurd rfl h1
      · exact absurd rfl (h2 _)
      · rfl
    simp [List.find?, this, ih]

theorem fieldsOf_none (v : String) (l : List Arg) :
    fieldsOf v l = none ↔ ∃ ty d, .typed .other ty d ∈ l := by
  fun_induction fieldsOf v l with
  | case1 => simp
  | case2 r ih => simp [ih]
  | case3 s ty d r ih => simp [ih]
  | case4 ty d r => simp; exact ⟨ty, d, .inl ⟨rfl, rfl⟩⟩

theorem fieldsOf_some {v : String} {l : List Arg} {fs : List Field} (h : fieldsOf v l = some fs) :
    fs.map (fun f => (f.name, f.ty)) = l.filterMap (fun | .typed (.ident s) t _ => some (s, t) | _ => none) ∧
      ∀ f ∈ fs, f.vis = v := by
  fun_induction fieldsOf v l generalizing fs with
  | case1 => simp at h; simp [h]
  | case2 r ih => simpa using ih h
  | case3 s ty d r ih =>
    simp only [Option.map_eq_some_iff] at h
    obtain ⟨fs', h1, rfl⟩ := h
    obtain ⟨i1, i2⟩ := ih h1
    simp only [List.map_cons, List.filterMap_cons, i1, List.mem_cons, forall_eq_or_imp, true_and]
    exact i2
  | case4 ty d r => simp at h

theorem typeErrs_nil (m : Method) : typeErrs m = [] ↔ ∀ p ty d, .typed p ty d ∈ m.args → ¬ Refused ty := by
  simp only [typeErrs, List.filterMap_eq_nil_iff]
  constructor
  · intro h p ty d hm
    have := h _ hm
    simp only [← validate_iff]
    intro hv; simp [hv] at this
  · intro h a ha
    match a with
    | .recv => rfl
    | .typed p ty d =>
      have := h p ty d ha
      rw [← validate_iff] at this
      simp at this; simp [this]

theorem docs_mem {l : List Attr} {d : String} (h : .doc d ∈ l) : d ∈ docs l := by
  simp only [docs, List.mem_filterMap]; exact ⟨_, h, rfl⟩

/-- Looking up the fields in any order of writing. -/
theorem lookup_perm {V : Type} {l l' : Value V} (hp : l.Perm l') (hn : (l'.map (·.1)).Nodup) (x : String) :
    List.lookup x l = List.lookup x l' := by
  induction hp with
  | nil => rfl
  | cons a _ ih =>
    simp only [List.map_cons, List.nodup_cons] at hn
    obtain ⟨k, v⟩ := a
    simp only [List.lookup_cons]
    rw [ih hn.2]
  | swap a b l =>
    obtain ⟨k, v⟩ := a
    obtain ⟨k', v'⟩ := b
    simp only [List.map_cons, List.nodup_cons, List.mem_cons, not_or] at hn
    simp only [List.lookup_cons]
    by_cases h1 : x = k
    · have h2 : (x == k') = false := by simp only [beq_eq_false_iff_ne]; exact fun h => hn.1.1 (h1.symm.trans h)
      rw [h2]
    · have h1' : (x == k) = false := by simpa using h1
      rw [h1']
  | trans h1 h2 ih1 ih2 =>
    rw [ih1 ((h2.map _).nodup_iff.2 hn), ih2 hn]

theorem lookup_zip {V : Type} (ks : List String) (vs : List V) (hl : vs.length = ks.length) (hn : ks.Nodup) :
    ks.map (fun x => List.lookup x (ks.zip vs)) = vs.map some := by
  induction ks generalizing vs with
  | nil => cases vs <;> simp_all
  | cons k ks ih =>
    match vs with
    | [] => simp at hl
    | v :: vs =>
      simp only [List.nodup_cons] at hn
      simp only [List.zip_cons_cons, List.map_cons, List.lookup_cons, beq_self_eq_true]
      congr 1
      rw [← ih vs (by simpa using hl) hn.2]
      apply List.map_congr_left
      intro x hx
      have : (x == k) = false := by
        simp only [beq_eq_false_iff_ne]; rintro rfl; exact hn.1 hx
      simp [this]

/-- One method: what `extract1` gives. -/
theorem extract1_cases {camel : String → String} {b : Block} {m m' : Method} {e : List Err} {x : Option Msg}
    (h : extract1 camel b m = some (m', e, x)) :
    (m.marked = false ∧ e = [] ∧ x = none) ∨
    (m.marked = true ∧ ¬ m.Valid ∧ e ≠ [] ∧ x = none) ∨
    (m.marked = true ∧ m.Valid ∧ e = [] ∧ ∃ msg, x = some msg ∧ ∀ a, Renders camel m msg.toStruct (msg.toHandler b a)) := by
  unfold extract1 at h
  split at h
  · next kept hs =>
    left
    have : (strip m.attrs).2 = none := by rw [hs]
    cases h
    exact ⟨(strip_unmarked _).1 this, rfl, rfl⟩
  · next kept items hs =>
    right
    have hmk : m.marked = true := by
      have h1 : (strip m.attrs).2 ≠ none := by rw [hs]; simp
      rw [Ne, strip_unmarked] at h1
      simpa [Method.marked] using h1
    have hattr : items = none ↔ ∃ segs, m.attrs.find? Attr.marks = some (.list segs none) := by
      rw [← strip_malformed, hs]; simp
    split at h
    · cases h
    next g hg =>
    dsimp only at h
    split at h
    · next r hargs =>
      split at h
      · next hf =>
        left
        cases h
        obtain ⟨ty, d, hmem⟩ := (fieldsOf_none _ _).1 hf
        refine ⟨hmk, fun hv => ?_, by simp, rfl⟩
        exact (hv.args _ hmem).1 rfl
      · next fs hf =>
        split at h
        · next he =>
          right
          cases h
          simp only [List.append_eq_nil_iff] at he
          obtain ⟨he1, he2⟩ := he
          have hi : items ≠ none := by rintro rfl; cases he1
          refine ⟨hmk, ⟨by rw [hargs]; rfl, ?_, fun segs hs' => hi (hattr.2 ⟨segs, hs'⟩)⟩, rfl, _, rfl, ?_⟩
          · intro a ha
            match a with
            | .recv => trivial
            | .typed p ty d =>
              refine ⟨?_, (typeErrs_nil m).1 he2 p ty d ha⟩
              rintro rfl
              have : fieldsOf m.vis m.args = none := (fieldsOf_none _ _).2 ⟨ty, d, ha⟩
              rw [this] at hf; cases hf
          · intro a
            obtain ⟨h1, h2⟩ := fieldsOf_some hf
            have hst : ∀ g', (Msg.toStruct ⟨m.vis, g', camel m.name, fs, docs m.attrs ++ items.getD [], g⟩).fields = fs ∧
                (Msg.toStruct ⟨m.vis, g', camel m.name, fs, docs m.attrs ++ items.getD [], g⟩).name = camel m.name ∧
                (Msg.toStruct ⟨m.vis, g', camel m.name, fs, docs m.attrs ++ items.getD [], g⟩).vis = m.vis ∧
                (Msg.toStruct ⟨m.vis, g', camel m.name, fs, docs m.attrs ++ items.getD [], g⟩).attrs =
                  docs m.attrs ++ items.getD [] := by
              intro g'; unfold Msg.toStruct; split
              · next hem => exact ⟨by simpa using hem.symm, rfl, rfl, rfl⟩
              · exact ⟨rfl, rfl, rfl, rfl⟩
            have hnames : fs.map (·.name) = m.params.map (·.1) := by
              have := congrArg (List.map (·.1)) h1
              simpa [List.map_map, Function.comp_def, Method.params] using this
            obtain ⟨s1, s2, s3, s4⟩ := hst { m with attrs := kept, args := m.args.map undoc }
            refine ⟨s2, ?_, ⟨s3, ?_⟩, ?_, ?_, rfl, rfl, ?_⟩
            · rw [s2]; rfl
            · rw [s1]; exact h2
            · rw [s1]; exact h1
            · intro d hd; rw [s4]; exact List.mem_append_left _ (docs_mem hd)
            · intro V vs lit hl hn hp
              simp only [Handler.call, Msg.toHandler, hnames]
              congr 1
              rw [← lookup_zip _ vs (by simpa using hl) hn]
              apply List.map_congr_left
              intro y _
              apply lookup_perm hp
              rwa [List.map_fst_zip (by simp [hl])]
        · next he =>
          left
          cases h
          refine ⟨hmk, fun hv => he ?_, he, rfl⟩
          have hi : items ≠ none := fun hn => let ⟨segs, h⟩ := hattr.1 hn; hv.attr segs h
          match items, hi with
          | some x, _ =>
          simp only [attrErrs, List.nil_append]
          rw [typeErrs_nil]
          intro p ty d hm
          exact (hv.args _ hm).2
    · next hargs =>
      left
      cases h
      refine ⟨hmk, fun hv => ?_, by simp, rfl⟩
      have := hv.recv
      match hm : m.args with
      | [] => rw [hm] at this; simp at this
      | .recv :: r => exact hargs r hm
      | .typed _ _ _ :: r => rw [hm] at this; simp at this

/-- The methods `ms` and the messages `msgs` made of them, in order. -/
inductive Made (camel : String → String) (b : Block) : List Method → List Msg → Prop
  | nil : Made camel b [] []
  | skip {m ms msgs} : ¬ (m.marked = true ∧ m.Valid) → Made camel b ms msgs → Made camel b (m :: ms) msgs
  | make {m ms msg msgs} : m.marked = true → m.Valid → (∀ a, Renders camel m msg.toStruct (msg.toHandler b a)) →
      Made camel b ms msgs → Made camel b (m :: ms) (msg :: msgs)

theorem extract_made {camel : String → String} {b : Block} {items is : List Item} {es : List Err} {msgs : List Msg}
    (h : extract camel b items = some (is, es, msgs)) :
    Made camel b (methods items) msgs ∧ (es = [] ↔ ∀ m ∈ methods items, m.marked = true → m.Valid) := by
  induction items generalizing is es msgs with
  | nil => simp [extract] at h; obtain ⟨-, rfl, rfl⟩ := h; exact ⟨.nil, by simp [methods]⟩
  | cons i r ih =>
    match i with
    | .other s =>
      simp only [extract, Option.bind_eq_bind, Option.bind_eq_some_iff, Option.pure_def, Option.some.injEq] at h
      obtain ⟨⟨is', es', ms'⟩, h1, h2⟩ := h
      cases h2
      simpa [methods] using ih h1
    | .fn m =>
      simp only [extract, Option.bind_eq_bind, Option.bind_eq_some_iff, Option.pure_def, Option.some.injEq] at h
      obtain ⟨⟨m', e, x⟩, h0, ⟨is', es', ms'⟩, h1, h2⟩ := h
      cases h2
      obtain ⟨i1, i2⟩ := ih h1
      have hmm : methods (.fn m :: r) = m :: methods r := rfl
      rw [hmm]
      rcases extract1_cases h0 with ⟨k1, rfl, rfl⟩ | ⟨k1, k2, k3, rfl⟩ | ⟨k1, k2, rfl, msg, rfl, k3⟩
      · exact ⟨.skip (by simp [k1]) i1, by simp [i2, k1]⟩
      · exact ⟨.skip (by simp [k2]) i1, by simp [k1, k2, k3]⟩
      · exact ⟨.make k1 k2 k3 i1, by simp [i2, k1, k2]⟩

theorem made_nth {camel : String → String} {b : Block} {ms : List Method} {msgs : List Msg} (h : Made camel b ms msgs) :
    ∃ acc : List Method, acc.Sublist ms ∧ acc.length = msgs.length ∧
      (∀ m ∈ ms, m.marked = true → m.Valid → m ∈ acc) ∧ (∀ m ∈ acc, m.marked = true ∧ m.Valid) ∧
      ∀ (i : Nat) (m : Method), acc[i]? = some m →
        ∃ msg : Msg, msgs[i]? = some msg ∧ ∀ a, Renders camel m msg.toStruct (msg.toHandler b a) := by
  induction h with
  | nil => exact ⟨[], by simp⟩
  | skip hn _ ih =>
    obtain ⟨acc, h1, h2, h3, h4, h5⟩ := ih
    refine ⟨acc, h1.cons _, h2, ?_, h4, h5⟩
    intro m' hm' k1 k2
    rcases List.mem_cons.1 hm' with rfl | hm'
    · exact absurd ⟨k1, k2⟩ hn
    · exact h3 m' hm' k1 k2
  | @make m ms msg msgs k1 k2 k3 _ ih =>
    obtain ⟨acc, h1, h2, h3, h4, h5⟩ := ih
    refine ⟨m :: acc, h1.cons_cons _, by simp [h2], ?_, ?_, ?_⟩
    · intro m' hm' l1 l2
      rcases List.mem_cons.1 hm' with rfl | hm'
      · simp
      · exact List.mem_cons_of_mem _ (h3 m' hm' l1 l2)
    · intro m' hm'
      rcases List.mem_cons.1 hm' with rfl | hm'
      · exact ⟨k1, k2⟩
      · exact h4 m' hm'
    · intro i m' hi
      match i with
      | 0 => simp at hi; subst hi; exact ⟨msg, rfl, k3⟩
      | i + 1 => simpa using h5 i m' (by simpa using hi)

/-! ## A block -/

/-- `impl Counter { /// Adds. #[message(derive(Clone))] pub async fn add(&mut self, by: u32, note: String) -> u32;
fn helper(&self); #[message] fn bad(&mut self, s: &str); }` -/
def exBlock : Block where
  selfTy := .path ["Counter"] [] []
  items := [
    .fn { name := "add", vis := "pub", attrs := [.doc "Adds.", .list ["message"] (some ["derive(Clone)"])],
          args := [.recv, .typed (.ident "by") (.path ["u32"] [] []) [], .typed (.ident "note") (.path ["String"] [] []) ["why"]],
          ret := some (.path ["u32"] [] []), isAsync := true },
    .fn { name := "helper", attrs := [.other "inline"], args := [.recv] },
    .fn { name := "bad", attrs := [.path ["message"]], args := [.recv, .typed (.ident "s") (.ref none (.path ["str"] [] [])) []] }]

/-- Upper camel case for the example. -/
private def exCamel (s : String) : String := if s = "add" then "Add" else s

/-- **C68**: of every block the macro takes, exactly the methods marked `#[message]` that can be messages become one, in
order; and the message of a method, sent with any values, makes the actor call that method with these values, wait for it
if it is asynchronous, and reply with what it returns. -/
theorem messages_render_methods (camel : String → String) (b : Block) (out : Output)
    (h : expand camel b = some out) (hp : .selfTy ∉ out.errors) :
    ∃ acc : List Method, acc.Sublist (methods b.items) ∧
      (∀ m ∈ methods b.items, m.marked = true → m.Valid → m ∈ acc) ∧ (∀ m ∈ acc, m.marked = true ∧ m.Valid) ∧
      acc.length = out.structs.length ∧ acc.length = out.handlers.length ∧
      ∀ (i : Nat) (m : Method), acc[i]? = some m →
        ∃ s hd, out.structs[i]? = some s ∧ out.handlers[i]? = some hd ∧ Renders camel m s hd := by
  unfold expand at h
  split at h
  · cases h; simp at hp
  next a ha =>
  split at h
  · cases h
  next is es ms he =>
  cases h
  obtain ⟨acc, h1, h2, h3, h4, h5⟩ := made_nth (extract_made he).1
  refine ⟨acc, h1, h3, h4, by simpa using h2, by simpa using h2, ?_⟩
  intro i m hi
  obtain ⟨msg, k1, k2⟩ := h5 i m hi
  exact ⟨_, _, by simp [k1], by simp [k1], k2 a⟩

/-- Of three methods the two marked ones are looked at, and the one that can be a message becomes one; its fields are
the parameters, and it is sent with the fields written the other way round. -/
example : ∃ out, expand exCamel exBlock = some out ∧ .selfTy ∉ out.errors ∧
    out.structs.map (fun s => (s.name, s.attrs, s.fields.map (·.name))) =
      [("Add", ["Adds.", "derive(Clone)"], ["by", "note"])] ∧
    out.handlers.map (fun h => h.call [("note", 2), ("by", 1)]) = [("add", [some 1, some 2])] :=
  ⟨_, rfl, by simp [attrErrs, typeErrs], rfl, rfl⟩

/-- **C68**, the other side: a marked method that cannot be a message is never left out silently; the expansion is a compile
error exactly if there is one. -/
theorem invalid_message_is_error (camel : String → String) (b : Block) (out : Output)
    (h : expand camel b = some out) (hp : .selfTy ∉ out.errors) :
    out.errors ≠ [] ↔ ∃ m ∈ methods b.items, m.marked = true ∧ ¬ m.Valid := by
  unfold expand at h
  split at h
  · cases h; simp at hp
  split at h
  · cases h
  next he =>
  cases h
  rw [Ne, (extract_made he).2]
  grind

/-- The third method of `exBlock` takes a reference. -/
example : ∃ out, expand exCamel exBlock = some out ∧ .selfTy ∉ out.errors ∧ out.errors = [.badType] :=
  ⟨_, rfl, by simp [attrErrs, typeErrs], rfl⟩

theorem extract1_selfTy {camel : String → String} {b : Block} {m m' : Method} {e : List Err} {x : Option Msg}
    (h : extract1 camel b m = some (m', e, x)) : .selfTy ∉ e := by
  have h1 : ∀ i, Err.selfTy ∉ attrErrs i := by intro i; cases i <;> simp [attrErrs]
  have h2 : Err.selfTy ∉ typeErrs m := by simp only [typeErrs]; grind
  unfold extract1 at h
  simp only at h
  (repeat' split at h) <;>
    (first | (cases h; done) | (simp only [Option.some.injEq, Prod.mk.injEq] at h; rw [← h.2.1]; simp [h1, h2]))

theorem extract_selfTy {camel : String → String} {b : Block} : ∀ {l : List Item} {is : List Item} {es : List Err} {ms : List Msg},
    extract camel b l = some (is, es, ms) → .selfTy ∉ es := by
  intro l
  induction l with
  | nil => intro is es ms h; simp [extract] at h; simp [h.2.1]
  | cons i l ih =>
    intro is es ms h
    cases i with
    | other s =>
      simp only [extract, Option.bind_eq_bind, Option.bind_eq_some_iff] at h
      obtain ⟨⟨is', es', ms'⟩, h1, h2⟩ := h
      simp at h2
      rw [← h2.2.1]
      exact ih h1
    | fn m =>
      simp only [extract, Option.bind_eq_bind, Option.bind_eq_some_iff] at h
      obtain ⟨⟨m', e, x⟩, h0, ⟨is', es', ms'⟩, h1, h2⟩ := h
      simp at h2
      rw [← h2.2.1, List.mem_append]
      rintro (h | h)
      · exact extract1_selfTy h0 h
      · exact ih h1 h

/-- **C68**: the self type is complained about exactly if it is not the name of a type, and then nothing else comes out: no
method, no message, no handler. -/
theorem self_type_error_iff (camel : String → String) (b : Block) (out : Output) (h : expand camel b = some out) :
    (.selfTy ∈ out.errors ↔ ∀ segs lts args, b.selfTy = .path segs lts args → segs = []) ∧
      (.selfTy ∈ out.errors → out.errors = [.selfTy] ∧ out.block.items = [] ∧ out.structs = [] ∧ out.handlers = []) := by
  unfold expand at h
  split at h
  · next ha =>
    cases h
    refine ⟨⟨fun _ segs lts args e => ?_, fun _ => by simp⟩, fun _ => ⟨rfl, rfl, rfl, rfl⟩⟩
    rw [e] at ha
    simpa [actorIdent] using ha
  · next a ha =>
    split at h
    · cases h
    next is es ms he =>
    cases h
    have := extract_selfTy he
    refine ⟨⟨fun hm => (this hm).elim, fun hp => ?_⟩, fun hm => (this hm).elim⟩
    cases hs : b.selfTy with
    | path segs lts args => rw [hs, hp _ _ _ hs] at ha; simp [actorIdent] at ha
    | _ => rw [hs] at ha; simp [actorIdent] at ha

/-- A block for a tuple. -/
example : ∃ out, expand exCamel { exBlock with selfTy := .tuple [] } = some out ∧ .selfTy ∈ out.errors ∧
    (∃ out, expand exCamel exBlock = some out ∧ .selfTy ∉ out.errors) :=
  ⟨_, rfl, by simp, _, rfl, by simp [attrErrs, typeErrs]⟩

/-- A parameter without its doc comments. -/
def Arg.core : Arg → Option (Pat × Ty)
  | .recv => none
  | .typed p t _ => some (p, t)

/-- What stays of a method: everything but the attribute and the doc comments of parameters. -/
structure SameMethod (m m' : Method) : Prop where
  name : m'.name = m.name
  vis : m'.vis = m.vis
  generics : m'.generics = m.generics
  args : m'.args.map Arg.core = m.args.map Arg.core
  ret : m'.ret = m.ret
  isAsync : m'.isAsync = m.isAsync
  body : m'.body = m.body
  attrs : m'.attrs.filter (fun a => !a.marks) = m.attrs.filter (fun a => !a.marks)

/-- What stays of an item. -/
inductive SameItem : Item → Item → Prop
  | fn {m m'} : SameMethod m m' → SameItem (.fn m) (.fn m')
  | other (s) : SameItem (.other s) (.other s)

theorem strip_kept (l : List Attr) :
    (strip l).1.filter (fun a => !a.marks) = l.filter (fun a => !a.marks) := by
  fun_induction strip l with
  | case1 => simp
  | case2 => simp [Attr.marks]
  | case3 => simp [Attr.marks]
  | case4 a r h1 h2 ih => simp [List.filter_cons, ih]

theorem undoc_core (a : Arg) : (undoc a).core = a.core := by cases a <;> rfl

theorem extract1_same {camel : String → String} {b : Block} {m m' : Method} {e : List Err} {x : Option Msg}
    (h : extract1 camel b m = some (m', e, x)) : SameMethod m m' := by
  have hd : (m.args.map undoc).map Arg.core = m.args.map Arg.core := by simp [List.map_map, Function.comp_def, undoc_core]
  unfold extract1 at h
  split at h
  · next kept hs =>
    cases h
    exact ⟨rfl, rfl, rfl, rfl, rfl, rfl, rfl, by have := strip_kept m.attrs; rwa [hs] at this⟩
  · next kept items hs =>
    have hk := strip_kept m.attrs
    rw [hs] at hk
    split at h
    · cases h
    dsimp only at h
    split at h
    · split at h
      · cases h; exact ⟨rfl, rfl, rfl, hd, rfl, rfl, rfl, hk⟩
      · split at h <;> cases h <;> exact ⟨rfl, rfl, rfl, hd, rfl, rfl, rfl, hk⟩
    · cases h; exact ⟨rfl, rfl, rfl, rfl, rfl, rfl, rfl, hk⟩

/-- **C68**: the methods themselves stay as they are, marked or not, with or without errors. -/
theorem block_is_kept (camel : String → String) (b : Block) (out : Output)
    (h : expand camel b = some out) (hp : .selfTy ∉ out.errors) :
    out.block.generics = b.generics ∧ out.block.selfTy = b.selfTy ∧ out.block.items.length = b.items.length ∧
      ∀ (i : Nat) x, b.items[i]? = some x → ∃ y, out.block.items[i]? = some y ∧ SameItem x y := by
  unfold expand at h
  split at h
  · cases h; simp at hp
  split at h
  · cases h
  next is es ms he =>
  cases h
  refine ⟨rfl, rfl, ?_⟩
  dsimp only
  generalize hit : b.items = items at he
  clear hit hp
  induction items generalizing is es ms with
  | nil => simp [extract] at he; simp [he.1]
  | cons it r ih =>
    match it with
    | .other s =>
      simp only [extract, Option.bind_eq_bind, Option.bind_eq_some_iff, Option.pure_def, Option.some.injEq] at he
      obtain ⟨⟨is', es', ms'⟩, h1, h2⟩ := he
      cases h2
      obtain ⟨i1, i2⟩ := ih _ _ _ h1
      refine ⟨by simp [i1], fun i x hx => ?_⟩
      match i with
      | 0 => simp at hx; subst hx; exact ⟨_, rfl, .other s⟩
      | i + 1 => simpa using i2 i x (by simpa using hx)
    | .fn m =>
      simp only [extract, Option.bind_eq_bind, Option.bind_eq_some_iff, Option.pure_def, Option.some.injEq] at he
      obtain ⟨⟨m', e, x⟩, h0, ⟨is', es', ms'⟩, h1, h2⟩ := he
      cases h2
      obtain ⟨i1, i2⟩ := ih _ _ _ h1
      refine ⟨by simp [i1], fun i x hx => ?_⟩
      match i with
      | 0 => simp at hx; subst hx; exact ⟨_, rfl, .fn (extract1_same h0)⟩
      | i + 1 => simpa using i2 i x (by simpa using hx)

example : (expand exCamel exBlock).map (fun o => (o.handlers.map (fun h => (h.method, h.params, h.awaits)), o.errors)) =
    some ([("add", ["by", "note"], true)], [.badType]) := rfl

end Verif.Macros
