import Verif.Remote.Props

/-
Property theorems about links between actors on different nodes: C52 (symmetry) and C57 (death signals).
-/

namespace Verif.Remote

open Verif.Wire (RErr)
open Verif.Request (Out)

variable {I : Type} [DecidableEq I]

/-- Specification: actor `ref` of the node is linked to the actor with id `i`. -/
def Node.Linked (n : Node I) (ref : Nat) (i : I) : Prop := i ∈ (n.links ref).keys

/-- Specification: the actor registered under `id` on the node, with type `ty`, is linked to `i`. -/
def Node.LinkedAs (n : Node I) (id i : I) : Prop := ∃ e, n.registry.find id = some e ∧ n.Linked e.ref i

/-- Specification: no other link of any actor of the node has changed. -/
def Node.SameBut (n n' : Node I) (ref : Nat) (i : I) : Prop :=
  ∀ r j, (r, j) ≠ (ref, i) → (n'.Linked r j ↔ n.Linked r j)

/-! ## Helper lemmas -/

theorem linked_setLinks_put (n : Node I) (ref r : Nat) (i j : I) (rid : String) :
    (n.setLinks ref ((n.links ref).put i rid)).Linked r j ↔ (r = ref ∧ j = i) ∨ n.Linked r j := by
  simp only [Node.Linked, Node.setLinks]
  split
  · rename_i h
    subst h
    rw [Map.mem_keys_put]
    simp
  · rename_i h
    simp [h]

theorem not_linked_setLinks_del (n : Node I) (ref : Nat) (i : I) (h : (n.links ref).Ok) :
    ¬ (n.setLinks ref ((n.links ref).del i)).Linked ref i := by
  simp only [Node.Linked, Node.setLinks, if_true]
  rw [← Map.find_none_iff, Map.find_del h]
  simp

theorem actorFns_val (n : Node I) (rid : String) : n.actorFns rid = .panic ∨ ∃ o, n.actorFns rid = .val o := by
  unfold Node.actorFns
  split
  · exact .inr ⟨_, rfl⟩
  · exact .inl rfl

/-- What a link request does to the node it arrives at. -/
theorem link_cases (n : Node I) (id : I) (rid : String) (sib : I) (srid : String) :
    ((n.link id rid sib srid).1 = n ∧ (n.link id rid sib srid).2 ≠ .val (.ok ())) ∨
    (∃ e, n.registry.find id = some e ∧ lookup n.actors rid = some e.ty ∧
      n.link id rid sib srid = (n.setLinks e.ref ((n.links e.ref).put sib srid), .val (.ok ()))) := by
  by_cases hn : (n.actors.map (·.1)).Nodup
  · have h1 : n.actorFns rid = .val (lookup n.actors rid) := by simp only [Node.actorFns, hn, if_true]
    cases hl : lookup n.actors rid with
    | none => left; simp [Node.link, h1, hl]
    | some ty =>
      cases hf : n.registry.find id with
      | none => left; simp [Node.link, h1, hl, Node.actorRef, hf]
      | some e =>
        by_cases ht : e.ty = ty
        · right
          refine ⟨e, rfl, by rw [ht], ?_⟩
          simp only [Node.link, h1, hl, Node.actorRef, hf, if_pos ht]
        · left; simp [Node.link, h1, hl, Node.actorRef, hf, ht]
  · left
    have h1 : n.actorFns rid = .panic := by simp only [Node.actorFns, hn, if_false]
    simp [Node.link, h1]

theorem unlink_cases (n : Node I) (id : I) (rid : String) (sib : I) :
    ((n.unlink id rid sib).1 = n ∧ (n.unlink id rid sib).2 ≠ .val (.ok ())) ∨
    (∃ e, n.registry.find id = some e ∧ lookup n.actors rid = some e.ty ∧
      n.unlink id rid sib = (n.setLinks e.ref ((n.links e.ref).del sib), .val (.ok ()))) := by
  by_cases hn : (n.actors.map (·.1)).Nodup
  · have h1 : n.actorFns rid = .val (lookup n.actors rid) := by simp only [Node.actorFns, hn, if_true]
    cases hl : lookup n.actors rid with
    | none => left; simp [Node.unlink, h1, hl]
    | some ty =>
      cases hf : n.registry.find id with
      | none => left; simp [Node.unlink, h1, hl, Node.actorRef, hf]
      | some e =>
        by_cases ht : e.ty = ty
        · right
          refine ⟨e, rfl, by rw [ht], ?_⟩
          simp only [Node.unlink, h1, hl, Node.actorRef, hf, if_pos ht]
        · left; simp [Node.unlink, h1, hl, Node.actorRef, hf, ht]
  · left
    have h1 : n.actorFns rid = .panic := by simp only [Node.actorFns, hn, if_false]
    simp [Node.unlink, h1]

theorem swarmResult_ok {net : Net} {r : Out (Except (RErr Bytes) Unit)} (h : swarmResult net r = .val (.ok ())) :
    net = .both ∧ r = .val (.ok ()) := by
  cases net with
  | both =>
    cases r with
    | panic => simp [swarmResult] at h
    | val x => simp only [swarmResult] at h; exact ⟨rfl, h⟩
  | noRequest e => simp [swarmResult] at h
  | noResponse e => simp [swarmResult] at h

theorem swarmResult_val (net : Net) (r : Out (Except (RErr Bytes) Unit)) : ∃ x, swarmResult net r = .val x := by
  cases net with
  | both => cases r <;> simp [swarmResult]
  | noRequest e => simp [swarmResult]
  | noResponse e => simp [swarmResult]

/-! ## Two nodes for the concrete cases -/

/-- Two nodes; actor 10 (id 1) here, actor 20 (id 2) there. -/
def pair12 : Two Nat :=
  { here := { actors := [("A", 3)], registry := [(1, ⟨10, 3⟩)] }
    there := { actors := [("B", 4)], registry := [(2, ⟨20, 4⟩)] } }

/-! ## C52 -/

/-- **C52** (success). If `link_remote` returns `Ok`, both sides are linked: the actor to its sibling, and the actor
registered as the sibling to the actor. No other link has changed on either node. -/
theorem link_remote_ok_both_linked (s : Two I) (net : Net) (ref ty : Nat) (id : I) (rid : String) (sib : I)
    (srid : String) (hne : id ≠ sib) (h : (s.linkRemote net ref ty id rid sib srid).2 = .val (.ok ())) :
    (s.linkRemote net ref ty id rid sib srid).1.here.Linked ref sib ∧
    (s.linkRemote net ref ty id rid sib srid).1.there.LinkedAs sib id ∧
    s.here.SameBut (s.linkRemote net ref ty id rid sib srid).1.here ref sib ∧
    ∃ e, s.there.registry.find sib = some e ∧
      s.there.SameBut (s.linkRemote net ref ty id rid sib srid).1.there e.ref id := by
  simp only [Two.linkRemote, if_neg hne] at h ⊢
  by_cases hb : s.here.bootstrapped = true
  · have hbs : ∀ m : Map I Entry, ∀ l, ({ s.here with registry := m } : Node I).setLinks ref l =
        { s.here with registry := m, links := (s.here.setLinks ref l).links } := by
      intro m l; rfl
    have hbb : (({ s.here with registry := s.here.registry.put id ⟨ref, ty⟩ } : Node I).setLinks ref
        ((s.here.links ref).put sib srid)).bootstrapped = true := hb
    rw [if_pos hbb] at h ⊢
    simp only [Two.swarmLink] at h ⊢
    obtain ⟨rfl, hr⟩ := swarmResult_ok h
    simp only [Net.handled, if_true]
    rcases link_cases s.there sib srid id rid with ⟨_, hno⟩ | ⟨e, hf, -, he⟩
    · exact absurd hr hno
    · rw [he]
      dsimp only
      refine ⟨?_, ⟨e, hf, ?_⟩, ?_, e, hf, ?_⟩
      · have := (linked_setLinks_put s.here ref ref sib sib srid).mpr (.inl ⟨rfl, rfl⟩)
        simpa [Node.Linked, Node.setLinks] using this
      · exact (linked_setLinks_put _ _ _ _ _ _).mpr (.inl ⟨rfl, rfl⟩)
      · intro r j hrj
        have := linked_setLinks_put s.here ref r sib j srid
        have h2 : ¬ (r = ref ∧ j = sib) := fun h => hrj (by rw [h.1, h.2])
        simp only [h2, false_or] at this
        simpa [Node.Linked, Node.setLinks] using this
      · intro r j hrj
        rw [linked_setLinks_put]
        have h2 : ¬ (r = e.ref ∧ j = id) := fun h => hrj (by rw [h.1, h.2])
        simp [h2]
  · have hbb : ¬ (({ s.here with registry := s.here.registry.put id ⟨ref, ty⟩ } : Node I).setLinks ref
        ((s.here.links ref).put sib srid)).bootstrapped = true := hb
    rw [if_neg hbb] at h
    cases h

example : (pair12.linkRemote .both 10 3 1 "A" 2 "B").2 = .val (.ok ()) ∧
    (pair12.linkRemote .both 10 3 1 "A" 2 "B").1.here.links 10 = [(2, "B")] ∧
    (pair12.linkRemote .both 10 3 1 "A" 2 "B").1.there.links 20 = [(1, "A")] := ⟨rfl, rfl, rfl⟩

/-- **C52** (negation, for every failure). Whenever `link_remote` returns an error, the actor is linked to its sibling all
the same: a failed call always leaves its own side linked. -/
theorem link_remote_error_own_side_linked (s : Two I) (net : Net) (ref ty : Nat) (id : I) (rid : String) (sib : I)
    (srid : String) (e : RErr Bytes) (h : (s.linkRemote net ref ty id rid sib srid).2 = .val (.error e)) :
    (s.linkRemote net ref ty id rid sib srid).1.here.Linked ref sib := by
  by_cases hne : id = sib
  · simp [Two.linkRemote, hne] at h
  · have key := (linked_setLinks_put s.here ref ref sib sib srid).mpr (.inl ⟨rfl, rfl⟩)
    simp only [Two.linkRemote, if_neg hne]
    split
    · simp only [Two.swarmLink]
      split <;> simpa [Node.Linked, Node.setLinks] using key
    · simpa [Node.Linked, Node.setLinks] using key

/-- The sibling is not registered: the call fails, the caller stays linked to it. -/
example : (pair12.linkRemote .both 10 3 1 "A" 5 "B").2 = .val (.error .actorNotRunning) ∧
    (pair12.linkRemote .both 10 3 1 "A" 5 "B").1.here.links 10 = [(5, "B")] := ⟨rfl, rfl⟩

/-- **C52** (partial: the sibling's side, if no response is lost). An error leaves the sibling's node unchanged, unless
the request was handled and its response lost. -/
theorem link_remote_error_sibling_untouched_partial (s : Two I) (net : Net) (ref ty : Nat) (id : I) (rid : String)
    (sib : I) (srid : String) (e : RErr Bytes) (hnet : ∀ x, net ≠ .noResponse x)
    (h : (s.linkRemote net ref ty id rid sib srid).2 = .val (.error e)) :
    (s.linkRemote net ref ty id rid sib srid).1.there = s.there := by
  by_cases hne : id = sib
  · simp [Two.linkRemote, hne] at h
  · simp only [Two.linkRemote, if_neg hne] at h ⊢
    split
    · rename_i hb
      rw [if_pos hb] at h
      simp only [Two.swarmLink] at h ⊢
      cases net with
      | noRequest x => simp [Net.handled]
      | noResponse x => exact absurd rfl (hnet x)
      | both =>
        simp only [Net.handled, if_true]
        rcases link_cases s.there sib srid id rid with ⟨h1, _⟩ | ⟨e', _, _, he⟩
        · exact h1
        · rw [he] at h
          simp [swarmResult] at h
    · rfl

/-- The request does not get there. -/
example : (pair12.linkRemote (.noRequest .dialFailure) 10 3 1 "A" 2 "B").2 = .val (.error .dialFailure) ∧
    (pair12.linkRemote (.noRequest .dialFailure) 10 3 1 "A" 2 "B").1.there.links 20 = [] := ⟨rfl, rfl⟩

/-- **C52** (negation). If the response is lost the call fails, and yet both sides are linked. -/
theorem link_remote_lost_response_links_both (s : Two I) (x : RErr Empty) (ref ty : Nat) (id : I) (rid : String)
    (sib : I) (srid : String) (hne : id ≠ sib) (hb : s.here.bootstrapped = true)
    (h : (s.there.link sib srid id rid).2 = .val (.ok ())) :
    (s.linkRemote (.noResponse x) ref ty id rid sib srid).2 = .val (.error (x.mapErr Empty.elim)) ∧
    (s.linkRemote (.noResponse x) ref ty id rid sib srid).1.here.Linked ref sib ∧
    (s.linkRemote (.noResponse x) ref ty id rid sib srid).1.there.LinkedAs sib id := by
  have hr : (s.linkRemote (.noResponse x) ref ty id rid sib srid).2 = .val (.error (x.mapErr Empty.elim)) := by
    simp only [Two.linkRemote, if_neg hne]
    rw [if_pos (by exact hb)]
    rfl
  refine ⟨hr, link_remote_error_own_side_linked s _ ref ty id rid sib srid _ hr, ?_⟩
  simp only [Two.linkRemote, if_neg hne]
  rw [if_pos (by exact hb)]
  simp only [Two.swarmLink, Net.handled, if_true]
  rcases link_cases s.there sib srid id rid with ⟨_, hno⟩ | ⟨e, hf, -, he⟩
  · exact absurd h hno
  · rw [he]
    exact ⟨e, hf, (linked_setLinks_put _ _ _ _ _ _).mpr (.inl ⟨rfl, rfl⟩)⟩

example : pair12.here.bootstrapped = true ∧ (pair12.there.link 2 "B" 1 "A").2 = .val (.ok ()) ∧
    (pair12.linkRemote (.noResponse .networkTimeout) 10 3 1 "A" 2 "B").2 = .val (.error .networkTimeout) ∧
    (pair12.linkRemote (.noResponse .networkTimeout) 10 3 1 "A" 2 "B").1.there.links 20 = [(1, "A")] :=
  ⟨rfl, rfl, rfl, rfl⟩

/-- What is wrong on the node of a sibling, as the error of a refused request says: its type's remote id is not known
there, no actor is registered with its id, the one that is has another type, or the table of actor types has an id twice
and the task serving the request panicked. -/
def Refused (n : Node I) (sib : I) (srid : String) (e : RErr Bytes) : Prop :=
  (e = .unknownActor srid ∧ ∀ ty, (srid, ty) ∉ n.actors) ∨
  (e = .actorNotRunning ∧ ∀ en, (sib, en) ∉ n.registry) ∨
  (e = .badActorType ∧ ∃ en, (sib, en) ∈ n.registry ∧ (srid, en.ty) ∉ n.actors) ∨
  (e = .connectionClosed ∧ ¬ (n.actors.map (·.1)).Nodup)

theorem refused_link (n : Node I) (hm : n.registry.Ok) (id : I) (rid : String) (r : Out (Except (RErr Bytes) Unit))
    (hr : r = match n.actorFns rid with
      | .panic => .panic
      | .val none => .val (.error (.unknownActor rid))
      | .val (some ty) => match n.actorRef id ty with
        | .error e => .val (.error e)
        | .ok _ => .val (.ok ()))
    (e : RErr Bytes) (h : swarmResult .both r = .val (.error e)) : Refused n id rid e := by
  subst hr
  by_cases hn : (n.actors.map (·.1)).Nodup
  · have h1 : n.actorFns rid = .val (lookup n.actors rid) := by simp only [Node.actorFns, hn, if_true]
    simp only [h1] at h
    cases hl : lookup n.actors rid with
    | none =>
      simp [hl, swarmResult] at h
      refine Or.inl ⟨h.symm, fun ty ht => ?_⟩
      rw [(lookup_some hn _ _).mpr ht] at hl
      cases hl
    | some ty =>
      simp only [hl, Node.actorRef] at h
      cases hf : n.registry.find id with
      | none =>
        simp [hf, swarmResult] at h
        refine Or.inr (Or.inl ⟨h.symm, fun en ht => ?_⟩)
        rw [Map.find_of_mem hm ht] at hf
        cases hf
      | some en =>
        by_cases ht : en.ty = ty
        · simp [hf, ht, swarmResult] at h
        · simp [hf, ht, swarmResult] at h
          refine Or.inr (Or.inr (Or.inl ⟨h.symm, en, Map.mem_of_find hf, fun h2 => ?_⟩))
          rw [(lookup_some hn _ _).mpr h2] at hl
          simp at hl
          exact ht hl
  · have h1 : n.actorFns rid = .panic := by simp only [Node.actorFns, hn, if_false]
    simp [h1, swarmResult] at h
    exact Or.inr (Or.inr (Or.inr ⟨h.symm, hn⟩))

/-- **C52** (the error). On a node with a swarm, the error of `link_remote`, as that of `unlink_remote`, says what went wrong:
it is that of the network, or true of the sibling's node. -/
theorem link_remote_error_true (s : Two I) (net : Net) (ref ty : Nat) (id : I) (rid : String) (sib : I) (srid : String)
    (hb : s.here.bootstrapped = true) (hm : s.there.registry.Ok) (e : RErr Bytes)
    (h : (s.linkRemote net ref ty id rid sib srid).2 = .val (.error e) ∨
      (s.unlinkRemote net ref id sib srid).2 = .val (.error e)) :
    (∃ x : RErr Empty, (net = .noRequest x ∨ net = .noResponse x) ∧ e = x.mapErr Empty.elim) ∨
    (net = .both ∧ Refused s.there sib srid e) := by
  by_cases hne : id = sib
  · simp [Two.linkRemote, Two.unlinkRemote, hne] at h
  · have hl : (s.linkRemote net ref ty id rid sib srid).2 = swarmResult net (s.there.link sib srid id rid).2 := by
      simp only [Two.linkRemote, if_neg hne]
      rw [if_pos (by exact hb)]
      rfl
    have hu : (s.unlinkRemote net ref id sib srid).2 = swarmResult net (s.there.unlink sib srid id).2 := by
      simp only [Two.unlinkRemote, if_neg hne]
      rw [if_pos (by exact hb)]
      rfl
    rw [hl, hu] at h
    cases net with
    | noRequest x => simp [swarmResult] at h; exact Or.inl ⟨x, by simp, h.symm⟩
    | noResponse x => simp [swarmResult] at h; exact Or.inl ⟨x, by simp, h.symm⟩
    | both =>
      refine Or.inr ⟨rfl, ?_⟩
      rcases h with h | h
      · refine refused_link _ hm _ _ _ ?_ e h
        simp only [Node.link]
        (repeat' split) <;> simp_all
      · refine refused_link _ hm _ _ _ ?_ e h
        simp only [Node.unlink]
        (repeat' split) <;> simp_all

/-- An actor that is not registered there, a type not known there, an actor of another type, and a table with an id twice. -/
example : (pair12.linkRemote .both 10 3 1 "A" 5 "B").2 = .val (.error .actorNotRunning) ∧
    (pair12.linkRemote .both 10 3 1 "A" 2 "C").2 = .val (.error (.unknownActor "C")) ∧
    (({ pair12 with there := { pair12.there with actors := [("B", 4), ("C", 5)] } } : Two Nat).unlinkRemote .both 10 1 2 "C").2 =
      .val (.error .badActorType) ∧
    (({ pair12 with there := { pair12.there with actors := [("B", 4), ("B", 5)] } } : Two Nat).unlinkRemote .both 10 1 2 "B").2 =
      .val (.error .connectionClosed) := ⟨rfl, rfl, rfl, rfl⟩

/-- **C52** (two remote actors, the result). `RemoteActorRef::link_remote` returns the error of the request that failed;
if both failed, that of the one that was done first. It returns `Ok` only if neither failed. -/
theorem link_both_result (s : Two I) (neta netb : Net) (aFirst : Bool) (id : I) (rid : String) (sib : I) (srid : String)
    (hne : id ≠ sib) (x y : Except (RErr Bytes) Unit)
    (hx : swarmResult neta (s.there.link sib srid id rid).2 = .val x)
    (hy : swarmResult netb (s.here.link id rid sib srid).2 = .val y) :
    ∃ z, (s.linkBoth neta netb aFirst id rid sib srid).2 = .val z ∧
      (z = .ok () ↔ x = .ok () ∧ y = .ok ()) ∧
      (∀ e, z = .error e → (x = .error e ∧ (y = .ok () ∨ aFirst = true)) ∨ (y = .error e ∧ (x = .ok () ∨ aFirst = false))) := by
  simp only [Two.linkBoth, if_neg hne, hx, hy]
  cases aFirst <;> cases x <;> cases y <;> simp [tryJoin]

/-- The first request cannot reach its node, the second gets no answer: the error is that of whichever was done first. -/
example : (pair12.linkBoth (.noResponse .dialFailure) (.noResponse .networkTimeout) true 1 "A" 2 "B").2 =
      .val (.error .dialFailure) ∧
    (pair12.linkBoth (.noResponse .dialFailure) (.noResponse .networkTimeout) false 1 "A" 2 "B").2 =
      .val (.error .networkTimeout) := ⟨rfl, rfl⟩

/-- **C52** (two remote actors, success). If `RemoteActorRef::link_remote` returns `Ok`, both sides are linked. -/
theorem link_both_ok (s : Two I) (neta netb : Net) (aFirst : Bool) (id : I) (rid : String) (sib : I) (srid : String)
    (hne : id ≠ sib) (h : (s.linkBoth neta netb aFirst id rid sib srid).2 = .val (.ok ())) :
    (s.linkBoth neta netb aFirst id rid sib srid).1.here.LinkedAs id sib ∧
    (s.linkBoth neta netb aFirst id rid sib srid).1.there.LinkedAs sib id := by
  simp only [Two.linkBoth, if_neg hne] at h ⊢
  have hj : swarmResult neta (s.there.link sib srid id rid).2 = .val (.ok ()) ∧
      swarmResult netb (s.here.link id rid sib srid).2 = .val (.ok ()) := by
    obtain ⟨x, hx⟩ := swarmResult_val neta (s.there.link sib srid id rid).2
    obtain ⟨y, hy⟩ := swarmResult_val netb (s.here.link id rid sib srid).2
    rw [hx, hy] at h ⊢
    cases aFirst <;> cases x <;> cases y <;> simp_all [tryJoin]
  obtain ⟨rfl, ha⟩ := swarmResult_ok hj.1
  obtain ⟨rfl, hb⟩ := swarmResult_ok hj.2
  simp only [Net.handled, if_true]
  constructor
  · rcases link_cases s.here id rid sib srid with ⟨_, hno⟩ | ⟨e, hf, -, he⟩
    · exact absurd hb hno
    · rw [he]
      exact ⟨e, hf, (linked_setLinks_put _ _ _ _ _ _).mpr (.inl ⟨rfl, rfl⟩)⟩
  · rcases link_cases s.there sib srid id rid with ⟨_, hno⟩ | ⟨e, hf, -, he⟩
    · exact absurd ha hno
    · rw [he]
      exact ⟨e, hf, (linked_setLinks_put _ _ _ _ _ _).mpr (.inl ⟨rfl, rfl⟩)⟩

example : (pair12.linkBoth .both .both true 1 "A" 2 "B").2 = .val (.ok ()) ∧
    (pair12.linkBoth .both .both true 1 "A" 2 "B").1.here.links 10 = [(2, "B")] ∧
    (pair12.linkBoth .both .both true 1 "A" 2 "B").1.there.links 20 = [(1, "A")] := ⟨rfl, rfl, rfl⟩

/-- **C52** (two remote actors, negation). If one of the two nodes refuses its half, whatever the reason, and the other
takes its half, the call fails and the other's half is linked. -/
theorem link_both_error_one_sided (s : Two I) (aFirst : Bool) (id : I) (rid : String) (sib : I) (srid : String)
    (hne : id ≠ sib) (hok : (s.here.link id rid sib srid).2 = .val (.ok ())) (e : RErr Bytes)
    (hbad : (s.there.link sib srid id rid).2 = .val (.error e)) :
    (s.linkBoth .both .both aFirst id rid sib srid).2 = .val (.error e) ∧
    (s.linkBoth .both .both aFirst id rid sib srid).1.here.LinkedAs id sib ∧
    (s.linkBoth .both .both aFirst id rid sib srid).1.there = s.there := by
  simp only [Two.linkBoth, if_neg hne, Net.handled, if_true]
  refine ⟨?_, ?_, ?_⟩
  · rw [hok, hbad]
    cases aFirst <;> rfl
  · rcases link_cases s.here id rid sib srid with ⟨_, hno⟩ | ⟨e', hf, -, he⟩
    · exact absurd hok hno
    · rw [he]
      exact ⟨e', hf, (linked_setLinks_put _ _ _ _ _ _).mpr (.inl ⟨rfl, rfl⟩)⟩
  · rcases link_cases s.there sib srid id rid with ⟨h1, _⟩ | ⟨e', hf, -, he⟩
    · exact h1
    · rw [he] at hbad
      simp at hbad

/-- No actor 5 there: the half of actor 1 is linked all the same. -/
example : (pair12.here.link 1 "A" 5 "B").2 = .val (.ok ()) ∧
    (pair12.there.link 5 "B" 1 "A").2 = .val (.error .actorNotRunning) ∧
    (pair12.linkBoth .both .both true 1 "A" 5 "B").2 = .val (.error .actorNotRunning) ∧
    (pair12.linkBoth .both .both true 1 "A" 5 "B").1.here.links 10 = [(5, "B")] := ⟨rfl, rfl, rfl, rfl⟩

/-- **C52** (unlinking, success). If `unlink_remote` returns `Ok` neither side is linked. -/
theorem unlink_remote_ok_neither_linked (s : Two I) (net : Net) (ref : Nat) (id : I) (sib : I) (srid : String)
    (hne : id ≠ sib) (hh : ∀ r, (s.here.links r).Ok) (ht : ∀ r, (s.there.links r).Ok)
    (h : (s.unlinkRemote net ref id sib srid).2 = .val (.ok ())) :
    ¬ (s.unlinkRemote net ref id sib srid).1.here.Linked ref sib ∧
    ¬ (s.unlinkRemote net ref id sib srid).1.there.LinkedAs sib id := by
  have key := not_linked_setLinks_del s.here ref sib (hh ref)
  simp only [Two.unlinkRemote, if_neg hne] at h ⊢
  split
  · rename_i hb
    rw [if_pos hb] at h
    simp only [Two.swarmUnlink] at h ⊢
    obtain ⟨rfl, hr⟩ := swarmResult_ok h
    simp only [Net.handled, if_true]
    rcases unlink_cases s.there sib srid id with ⟨_, hno⟩ | ⟨e, hf, -, he⟩
    · exact absurd hr hno
    · rw [he]
      refine ⟨key, ?_⟩
      rintro ⟨e', hf', hl⟩
      have : some e = some e' := hf.symm.trans hf'
      cases this
      exact not_linked_setLinks_del s.there e.ref id (ht e.ref) hl
  · rename_i hb
    rw [if_neg hb] at h
    cases h

/-- Two linked actors are unlinked. -/
example : ((pair12.linkRemote .both 10 3 1 "A" 2 "B").1.unlinkRemote .both 10 1 2 "B").2 = .val (.ok ()) ∧
    ((pair12.linkRemote .both 10 3 1 "A" 2 "B").1.unlinkRemote .both 10 1 2 "B").1.here.links 10 = [] ∧
    ((pair12.linkRemote .both 10 3 1 "A" 2 "B").1.unlinkRemote .both 10 1 2 "B").1.there.links 20 = [] :=
  ⟨rfl, rfl, rfl⟩

/-- **C52** (unlinking, negation). A failed `unlink_remote` has always removed the actor's own link; the sibling's node is
untouched unless the request was handled: two linked actors are then linked on one side only. -/
theorem unlink_remote_error_own_side_unlinked (s : Two I) (net : Net) (ref : Nat) (id : I) (sib : I) (srid : String)
    (hh : ∀ r, (s.here.links r).Ok) (e : RErr Bytes) (h : (s.unlinkRemote net ref id sib srid).2 = .val (.error e)) :
    ¬ (s.unlinkRemote net ref id sib srid).1.here.Linked ref sib ∧
    (net.handled = false → (s.unlinkRemote net ref id sib srid).1.there = s.there) := by
  have key := not_linked_setLinks_del s.here ref sib (hh ref)
  by_cases hne : id = sib
  · simp [Two.unlinkRemote, hne] at h
  · simp only [Two.unlinkRemote, if_neg hne]
    split
    · simp only [Two.swarmUnlink]
      constructor
      · split <;> exact key
      · intro hn
        simp [hn]
    · exact ⟨key, fun _ => rfl⟩

/-- Linked actors, and an unlink request that does not get through. -/
example : ((pair12.linkRemote .both 10 3 1 "A" 2 "B").1.unlinkRemote (.noRequest .dialFailure) 10 1 2 "B").2 =
      .val (.error .dialFailure) ∧
    ((pair12.linkRemote .both 10 3 1 "A" 2 "B").1.unlinkRemote (.noRequest .dialFailure) 10 1 2 "B").1.here.links 10 =
      [] ∧
    ((pair12.linkRemote .both 10 3 1 "A" 2 "B").1.unlinkRemote (.noRequest .dialFailure) 10 1 2 "B").1.there.links 20 =
      [(1, "A")] := ⟨rfl, rfl, rfl⟩

/-- **C52** (no swarm). On a node without a swarm both calls say so, and nothing reaches the other node. -/
theorem no_swarm_says_so (s : Two I) (net : Net) (ref ty : Nat) (id : I) (rid : String) (sib : I) (srid : String)
    (hne : id ≠ sib) (hb : s.here.bootstrapped = false) :
    (s.linkRemote net ref ty id rid sib srid).2 = .val (.error .swarmNotBootstrapped) ∧
    (s.unlinkRemote net ref id sib srid).2 = .val (.error .swarmNotBootstrapped) ∧
    (s.linkRemote net ref ty id rid sib srid).1.there = s.there ∧ (s.unlinkRemote net ref id sib srid).1.there = s.there := by
  simp [Two.linkRemote, Two.unlinkRemote, if_neg hne, Node.setLinks, hb]

example : ({ pair12 with here := { pair12.here with bootstrapped := false } } : Two Nat).here.bootstrapped = false ∧
    (({ pair12 with here := { pair12.here with bootstrapped := false } } : Two Nat).unlinkRemote .both 10 1 2 "B").2 =
      .val (.error .swarmNotBootstrapped) := ⟨rfl, rfl⟩

/-! ## C57 -/

/-- **C57** (the signals sent). A stopping actor on a node with a swarm sends exactly one death signal per remote link, to
that link, with its own id, the reason, and the type the link was made with. (`_partial`: on a node without a swarm none is
sent, `no_swarm_no_death_signals`; and a signal that gets lost is not sent again, `Flight.lost_notice_never_told`.) -/
theorem death_signals_exact_partial {R : Type} (n : Node I) (ref : Nat) (id : I) (reason : R)
    (hb : n.bootstrapped = true) (hl : (n.links ref).Ok) :
    (∀ d i rid r, (d, i, rid, r) ∈ n.deathSignals ref id reason ↔
      d = id ∧ r = reason ∧ (n.links ref).find i = some rid) ∧
    (n.deathSignals ref id reason).length = (n.links ref).keys.length ∧
    ((n.deathSignals ref id reason).map (fun p => p.2.1)).Nodup := by
  simp only [Node.deathSignals, hb, if_true]
  refine ⟨?_, ?_, ?_⟩
  · intro d i rid r
    simp only [List.mem_map, Prod.mk.injEq]
    constructor
    · rintro ⟨⟨j, s⟩, hm, rfl, rfl, rfl, rfl⟩
      exact ⟨rfl, rfl, Map.find_of_mem hl hm⟩
    · rintro ⟨rfl, rfl, hf⟩
      exact ⟨(i, rid), Map.mem_of_find hf, rfl, rfl, rfl, rfl⟩
  · simp [Map.keys]
  · simpa [Map.Ok, Map.keys, Function.comp_def] using hl

/-- Linked to two remote actors: two signals. -/
example : (pair12.here.setLinks 10 [(2, "B"), (7, "C")]).bootstrapped = true ∧
    (pair12.here.setLinks 10 [(2, "B"), (7, "C")]).deathSignals 10 1 9 = [(1, 2, "B", 9), (1, 7, "C", 9)] := ⟨rfl, rfl⟩

/-- **C57** (the signal received). A death signal that arrives is put in the mailbox of the actor registered under the
notified id, once, with the dead actor's id and the reason, iff that actor is registered with the type the link was made
with; otherwise no actor is signalled. -/
theorem death_signal_dispatch {R : Type} (n : Node I) (hu : (n.actors.map (·.1)).Nodup) (hm : n.registry.Ok)
    (dead notified : I) (rid : String) (reason : R) (sent : Bool) :
    (∀ ref ty, (rid, ty) ∈ n.actors → (notified, ⟨ref, ty⟩) ∈ n.registry →
      (n.signalLinkDied dead notified rid reason sent).1 = [(ref, dead, reason)]) ∧
    ((¬ ∃ ref ty, (rid, ty) ∈ n.actors ∧ (notified, ⟨ref, ty⟩) ∈ n.registry) →
      (n.signalLinkDied dead notified rid reason sent).1 = [] ∧
      ∃ e, (n.signalLinkDied dead notified rid reason sent).2 = .val (.error e)) := by
  have h1 : n.actorFns rid = .val (lookup n.actors rid) := by simp only [Node.actorFns, hu, if_true]
  constructor
  · intro ref ty h2 h3
    have h4 := (lookup_some hu _ _).mpr h2
    have h5 := ((actorRef_spec n hm notified ty).1 ref).mpr h3
    simp only [Node.signalLinkDied, h1, h4, h5]
  · intro h
    cases hl : lookup n.actors rid with
    | none => simp [Node.signalLinkDied, h1, hl]
    | some ty =>
      cases ha : n.actorRef notified ty with
      | error e => simp [Node.signalLinkDied, h1, hl, ha]
      | ok ref =>
        exact absurd ⟨ref, ty, (lookup_some hu _ _).mp hl, ((actorRef_spec n hm notified ty).1 ref).mp ha⟩ h

/-- A signal for actor 2, and one for an id nobody has there. -/
example : (pair12.there.signalLinkDied 1 2 "B" 9 true).1 = [(20, 1, 9)] ∧
    (pair12.there.signalLinkDied 1 5 "B" 9 true).1 = [] := ⟨rfl, rfl⟩

/-- **C57** (negation). On a node without a swarm a stopping actor tells no remote link, though `link_remote` has recorded
the links (it returns `SwarmNotBootstrapped` and keeps them). -/
theorem no_swarm_no_death_signals {R : Type} (n : Node I) (ref : Nat) (id : I) (reason : R)
    (hb : n.bootstrapped = false) : n.deathSignals ref id reason = [] := by
  simp [Node.deathSignals, hb]

/-- A node without a swarm: the link is recorded, the call fails, and no signal is ever sent. -/
example :
    let s : Two Nat := { pair12 with here := { pair12.here with bootstrapped := false } }
    (s.linkRemote .both 10 3 1 "A" 2 "B").2 = .val (.error .swarmNotBootstrapped) ∧
    (s.linkRemote .both 10 3 1 "A" 2 "B").1.here.links 10 = [(2, "B")] ∧
    (s.linkRemote .both 10 3 1 "A" 2 "B").1.here.deathSignals 10 1 9 = [] := ⟨rfl, rfl, rfl⟩

/-- **C57** (linking then dying). After a successful `link_remote` the death of the actor is signalled on the sibling's
node to exactly the sibling, with the actor's id and the reason. -/
theorem linked_then_dead (s : Two I) (net : Net) (ref ty : Nat) (id : I) (rid : String) (sib : I) (srid : String)
    {R : Type} (reason : R) (sent : Bool) (hne : id ≠ sib)
    (h : (s.linkRemote net ref ty id rid sib srid).2 = .val (.ok ())) :
    ∃ e, s.there.registry.find sib = some e ∧
      (id, sib, srid, reason) ∈ (s.linkRemote net ref ty id rid sib srid).1.here.deathSignals ref id reason ∧
      ((s.linkRemote net ref ty id rid sib srid).1.there.signalLinkDied id sib srid reason sent).1 =
        [(e.ref, id, reason)] := by
  simp only [Two.linkRemote, if_neg hne] at h ⊢
  by_cases hb : s.here.bootstrapped = true
  · rw [if_pos (by exact hb)] at h ⊢
    simp only [Two.swarmLink] at h ⊢
    obtain ⟨rfl, hr⟩ := swarmResult_ok h
    simp only [Net.handled, if_true]
    rcases link_cases s.there sib srid id rid with ⟨_, hno⟩ | ⟨e, hf, hty, he⟩
    · exact absurd hr hno
    · refine ⟨e, hf, ?_, ?_⟩
      · simp only [Node.deathSignals, Node.setLinks, hb, if_true]
        refine List.mem_map.mpr ⟨(sib, srid), Map.mem_of_find ?_, rfl⟩
        rw [Map.find_put]
        simp
      · rw [he]
        have hu : (s.there.actors.map (·.1)).Nodup := by
          apply Classical.byContradiction
          intro hu
          have h1 : s.there.actorFns srid = .panic := by simp only [Node.actorFns, hu, if_false]
          rw [Node.link, h1] at he
          simp at he
        have h1 : s.there.actorFns srid = .val (lookup s.there.actors srid) := by
          simp only [Node.actorFns, hu, if_true]
        have h2 : (s.there.setLinks e.ref ((s.there.links e.ref).put id rid)).actorFns srid = .val (some e.ty) := by
          rw [← hty, ← h1]; rfl
        have h3 : (s.there.setLinks e.ref ((s.there.links e.ref).put id rid)).actorRef sib e.ty = .ok e.ref := by
          have : (s.there.setLinks e.ref ((s.there.links e.ref).put id rid)).registry = s.there.registry := rfl
          simp only [Node.actorRef, this, hf, if_true]
        simp only [Node.signalLinkDied, h2, h3]
  · rw [if_neg (by exact hb)] at h
    cases h

/-- Concrete case: linked, then the actor dies with reason 9; actor 20 gets one signal. -/
example : (pair12.linkRemote .both 10 3 1 "A" 2 "B").1.here.deathSignals 10 1 9 = [(1, 2, "B", 9)] ∧
    ((pair12.linkRemote .both 10 3 1 "A" 2 "B").1.there.signalLinkDied 1 2 "B" 9 true).1 = [(20, 1, 9)] := ⟨rfl, rfl⟩

end Verif.Remote
