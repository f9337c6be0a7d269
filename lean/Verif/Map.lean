/-
A finite map as Rust's `std::collections::HashMap` gives it: at most one value per key. The standard library
is not part of /repo; its hash maps are assumed to behave as maps (for a key type whose `Eq` and `Hash`
agree). The order in which keys are listed is unspecified in Rust; here it is the order of first insertion,
and no theorem may depend on it.
-/

namespace Verif

/-- The entries of a hash map. The hash maps of the code: `Links` (`src/actor/actor_ref.rs`
L1357), `ActorRegistry` (`src/registry.rs` L23-25), `PubSub` (`actors/src/pubsub.rs` L63-65),
`Broker` (`actors/src/broker.rs` L81-85-79), `MessageBus` (`actors/src/message_bus.rs` L70-73),
`ActorSwarmHandler` (`src/remote/swarm.rs` L497-504). -/
abbrev Map (K V : Type) := List (K × V)

namespace Map

variable {K V : Type} [DecidableEq K]

/-- `HashMap::get`. E.g. `src/registry.rs` L77-78. -/
def find (m : Map K V) (k : K) : Option V :=
  match m with
  | [] => none
  | (k', v) :: rest => if k' = k then some v else find rest k

/-- `HashMap::contains_key`. E.g. `src/registry.rs` L94. -/
def has (m : Map K V) (k : K) : Bool := (find m k).isSome

/-- `HashMap::insert`: replaces the value of a key that is there, keeps all else. E.g.
`src/registry.rs` L103-105. -/
def put (m : Map K V) (k : K) (v : V) : Map K V :=
  match m with
  | [] => [(k, v)]
  | (k', v') :: rest => if k' = k then (k, v) :: rest else (k', v') :: put rest k v

/-- `HashMap::remove`. E.g. `src/registry.rs` L114. -/
def del (m : Map K V) (k : K) : Map K V :=
  match m with
  | [] => []
  | (k', v') :: rest => if k' = k then rest else (k', v') :: del rest k

/-- `HashMap::keys`. E.g. `src/registry.rs` L49. -/
def keys (m : Map K V) : List K := m.map (·.1)

/-- At most one value per key. What every `HashMap` guarantees (`src/registry.rs` L23-25);
preserved by `put` and `del`, below. -/
def Ok (m : Map K V) : Prop := m.keys.Nodup

omit [DecidableEq K] in
theorem ok_nil : Ok ([] : Map K V) := List.nodup_nil

theorem mem_keys_put (m : Map K V) (k j : K) (v : V) : j ∈ (m.put k v).keys ↔ j = k ∨ j ∈ m.keys := by
  induction m with
  | nil => simp [put, keys]
  | cons p rest ih =>
    obtain ⟨k', v'⟩ := p
    simp only [put]
    split
    · rename_i h; subst h; simp [keys]
    · simp only [keys, List.map_cons, List.mem_cons] at ih ⊢
      rw [ih]
      constructor
      · rintro (h | h | h) <;> simp [h]
      · rintro (h | h | h) <;> simp [h]

theorem ok_put {m : Map K V} (h : m.Ok) (k : K) (v : V) : (m.put k v).Ok := by
  induction m with
  | nil => simp [put, Ok, keys]
  | cons p rest ih =>
    obtain ⟨k', v'⟩ := p
    simp only [Ok, keys, List.map_cons, List.nodup_cons] at h
    simp only [put]
    split
    · rename_i he
      subst he
      simpa [Ok, keys] using h
    · rename_i he
      simp only [Ok, keys, List.map_cons, List.nodup_cons]
      refine ⟨?_, ih h.2⟩
      intro hm
      rcases (mem_keys_put rest k k' v).mp hm with h1 | h1
      · exact he h1
      · exact h.1 h1

theorem mem_keys_del_of (m : Map K V) (k j : K) (h : j ∈ (m.del k).keys) : j ∈ m.keys := by
  induction m with
  | nil => simp [del, keys] at h
  | cons p rest ih =>
    obtain ⟨k', v'⟩ := p
    simp only [del] at h
    split at h
    · exact List.mem_cons_of_mem _ h
    · simp only [keys, List.map_cons, List.mem_cons] at h ⊢
      rcases h with h | h
      · exact Or.inl h
      · exact Or.inr (ih h)

theorem ok_del {m : Map K V} (h : m.Ok) (k : K) : (m.del k).Ok := by
  induction m with
  | nil => exact h
  | cons p rest ih =>
    obtain ⟨k', v'⟩ := p
    simp only [Ok, keys, List.map_cons, List.nodup_cons] at h
    simp only [del]
    split
    · exact h.2
    · simp only [Ok, keys, List.map_cons, List.nodup_cons]
      exact ⟨fun hm => h.1 (mem_keys_del_of rest k k' hm), ih h.2⟩

theorem find_none_iff (m : Map K V) (k : K) : m.find k = none ↔ k ∉ m.keys := by
  induction m with
  | nil => simp [find, keys]
  | cons p rest ih =>
    obtain ⟨k', v'⟩ := p
    simp only [find, keys, List.map_cons, List.mem_cons] at ih ⊢
    split
    · rename_i h; simp [h]
    · rename_i h
      rw [ih]
      constructor
      · rintro h1 (h2 | h2)
        · exact h h2.symm
        · exact h1 h2
      · exact fun h1 h2 => h1 (Or.inr h2)

theorem has_iff (m : Map K V) (k : K) : m.has k = true ↔ k ∈ m.keys := by
  have := find_none_iff m k
  unfold has
  cases h : m.find k with
  | none => simp [this.mp h]
  | some v =>
    simp only [Option.isSome_some, true_iff]
    exact Classical.byContradiction fun hn => by simp [this.mpr hn] at h

theorem find_put (m : Map K V) (k j : K) (v : V) :
    (m.put k v).find j = if j = k then some v else m.find j := by
  induction m with
  | nil => simp [put, find, eq_comm]
  | cons p rest ih =>
    obtain ⟨k', v'⟩ := p
    simp only [put]
    by_cases h : k' = k
    · subst h
      by_cases hj : j = k'
      · subst hj; simp [find]
      · simp [find, hj, Ne.symm hj]
    · simp only [if_neg h, find, ih]
      by_cases hj : j = k
      · subst hj; simp [h]
      · simp [hj]

theorem find_del {m : Map K V} (hm : m.Ok) (k j : K) :
    (m.del k).find j = if j = k then none else m.find j := by
  induction m with
  | nil => simp [del, find]
  | cons p rest ih =>
    obtain ⟨k', v'⟩ := p
    simp only [Ok, keys, List.map_cons, List.nodup_cons] at hm
    simp only [del]
    by_cases h : k' = k
    · subst h
      simp only [if_true, find]
      by_cases hj : j = k'
      · subst hj
        simp only [if_true]
        exact (find_none_iff rest j).mpr hm.1
      · simp [hj, Ne.symm hj]
    · simp only [if_neg h, find, ih hm.2]
      by_cases hj : j = k
      · subst hj; simp [h]
      · simp [hj]

theorem mem_of_find {m : Map K V} {k : K} {v : V} (h : m.find k = some v) : (k, v) ∈ m := by
  induction m with
  | nil => simp [find] at h
  | cons p rest ih =>
    obtain ⟨k', v'⟩ := p
    simp only [find] at h
    split at h
    · rename_i hk; subst hk; cases h; exact List.mem_cons_self
    · exact List.mem_cons_of_mem _ (ih h)

theorem find_of_mem {m : Map K V} (hm : m.Ok) {k : K} {v : V} (h : (k, v) ∈ m) : m.find k = some v := by
  induction m with
  | nil => cases h
  | cons p rest ih =>
    obtain ⟨k', v'⟩ := p
    simp only [Ok, keys, List.map_cons, List.nodup_cons] at hm
    simp only [find]
    rcases List.mem_cons.mp h with h | h
    · cases h; simp
    · have : k' ≠ k := by
        intro e
        subst e
        exact hm.1 (List.mem_map.mpr ⟨_, h, rfl⟩)
      simp [this, ih hm.2 h]

end Map

end Verif
