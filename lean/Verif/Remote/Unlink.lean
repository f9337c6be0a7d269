import Verif.Remote.Links

/-!
# Unlinking two actors of other nodes: C52
-/

namespace Verif.Remote

open Verif.Wire (RErr)
open Verif.Request (Out)

variable {I : Type} [DecidableEq I]

/-- `RemoteActorRef::unlink_remote`, `src/actor/actor_ref.rs` L1181-1202: the actor `id` is on node `here`, its sibling on
node `there`, the call is made on a third node that has a swarm. As for `link_remote`, both commands are sent before any
answer is awaited. -/
def Two.unlinkBoth (s : Two I) (neta netb : Net) (aFirst : Bool) (id : I) (rid : String) (sib : I) (srid : String) :
    Two I × Out (Except (RErr Bytes) Unit) :=
  if id = sib then (s, .val (.ok ()))
  else
    let ra := s.there.unlink sib srid id
    let rb := s.here.unlink id rid sib
    (⟨if netb.handled then rb.1 else s.here, if neta.handled then ra.1 else s.there⟩,
      tryJoin aFirst (swarmResult neta ra.2) (swarmResult netb rb.2))

theorem tryJoin_ok {aFirst : Bool} {neta netb : Net} {a b : Out (Except (RErr Bytes) Unit)}
    (h : tryJoin aFirst (swarmResult neta a) (swarmResult netb b) = .val (.ok ())) :
    (neta = .both ∧ a = .val (.ok ())) ∧ netb = .both ∧ b = .val (.ok ()) := by
  suffices swarmResult neta a = .val (.ok ()) ∧ swarmResult netb b = .val (.ok ()) from
    ⟨swarmResult_ok this.1, swarmResult_ok this.2⟩
  obtain ⟨x, hx⟩ := swarmResult_val neta a
  obtain ⟨y, hy⟩ := swarmResult_val netb b
  rw [hx, hy] at h ⊢
  cases aFirst <;> cases x <;> cases y <;> simp_all [tryJoin]

theorem unlink_ok {n : Node I} {id : I} {rid : String} {sib : I} (hm : ∀ r, (n.links r).Ok)
    (h : (n.unlink id rid sib).2 = .val (.ok ())) :
    ∃ e, n.registry.find id = some e ∧ (n.unlink id rid sib).1.registry = n.registry ∧
      ¬ (n.unlink id rid sib).1.Linked e.ref sib ∧ n.SameBut (n.unlink id rid sib).1 e.ref sib := by
  rcases unlink_cases n id rid sib with ⟨-, hno⟩ | ⟨e, hf, -, he⟩
  · exact absurd h hno
  · rw [he]
    refine ⟨e, hf, rfl, not_linked_setLinks_del n e.ref sib (hm _), ?_⟩
    intro r j hne
    simp only [Node.Linked, Node.setLinks]
    split
    · rename_i hr
      subst hr
      have hj : j ≠ sib := fun hh => hne (by rw [hh])
      constructor
      · intro hk
        refine Classical.byContradiction fun hc => ?_
        rw [← Map.find_none_iff] at hc
        have : ((n.links e.ref).del sib).find j = none := by rw [Map.find_del (hm _), if_neg hj, hc]
        exact (Map.find_none_iff _ _).mp this hk
      · intro hk
        refine Classical.byContradiction fun hc => ?_
        rw [← Map.find_none_iff, Map.find_del (hm _), if_neg hj, Map.find_none_iff] at hc
        exact hc hk
    · exact Iff.rfl

/-- **C52** (two remote actors, unlinking). If `RemoteActorRef::unlink_remote` returns `Ok`, neither actor is linked to the
other any more, and no other link has changed on either node. -/
theorem unlink_both_ok (s : Two I) (neta netb : Net) (aFirst : Bool) (id : I) (rid : String) (sib : I) (srid : String)
    (hne : id ≠ sib) (hh : ∀ r, (s.here.links r).Ok) (ht : ∀ r, (s.there.links r).Ok)
    (h : (s.unlinkBoth neta netb aFirst id rid sib srid).2 = .val (.ok ())) :
    (∃ e, s.here.registry.find id = some e ∧
      ¬ (s.unlinkBoth neta netb aFirst id rid sib srid).1.here.Linked e.ref sib ∧
      s.here.SameBut (s.unlinkBoth neta netb aFirst id rid sib srid).1.here e.ref sib) ∧
    ∃ e, s.there.registry.find sib = some e ∧
      ¬ (s.unlinkBoth neta netb aFirst id rid sib srid).1.there.Linked e.ref id ∧
      s.there.SameBut (s.unlinkBoth neta netb aFirst id rid sib srid).1.there e.ref id := by
  simp only [Two.unlinkBoth, if_neg hne] at h ⊢
  obtain ⟨⟨rfl, ha⟩, rfl, hb⟩ := tryJoin_ok h
  simp only [Net.handled, if_true]
  obtain ⟨e, h1, -, h2, h3⟩ := unlink_ok hh hb
  obtain ⟨e', h1', -, h2', h3'⟩ := unlink_ok ht ha
  exact ⟨⟨e, h1, h2, h3⟩, e', h1', h2', h3'⟩

/-- The two actors, linked to each other. -/
def linked12 : Two Nat :=
  { here := { pair12.here with links := fun r => if r = 10 then [(2, "B")] else [] }
    there := { pair12.there with links := fun r => if r = 20 then [(1, "A"), (7, "C")] else [] } }

example : (linked12.unlinkBoth .both .both true 1 "A" 2 "B").2 = .val (.ok ()) ∧
    (linked12.unlinkBoth .both .both true 1 "A" 2 "B").1.here.links 10 = [] ∧
    (linked12.unlinkBoth .both .both true 1 "A" 2 "B").1.there.links 20 = [(7, "C")] := ⟨rfl, rfl, rfl⟩

/-- **C52** (two remote actors, unlinking, negation). If the request to one node fails and that to the other is handled, the
call fails, and the actors are linked on one side only. -/
theorem unlink_both_error_one_side (s : Two I) (e : RErr Empty) (aFirst : Bool) (id : I) (rid : String) (sib : I)
    (srid : String) (hne : id ≠ sib) (hh : ∀ r, (s.here.links r).Ok)
    (hb : (s.here.unlink id rid sib).2 = .val (.ok ())) (hl : s.there.LinkedAs sib id) :
    (s.unlinkBoth (.noRequest e) .both aFirst id rid sib srid).2 = .val (.error (e.mapErr Empty.elim)) ∧
    (∃ x, s.here.registry.find id = some x ∧
      ¬ (s.unlinkBoth (.noRequest e) .both aFirst id rid sib srid).1.here.Linked x.ref sib) ∧
    (s.unlinkBoth (.noRequest e) .both aFirst id rid sib srid).1.there.LinkedAs sib id := by
  simp only [Two.unlinkBoth, if_neg hne, Net.handled, if_true]
  refine ⟨?_, ?_, hl⟩
  · rw [hb]
    cases aFirst <;> rfl
  · obtain ⟨x, h1, -, h2, -⟩ := unlink_ok hh hb
    exact ⟨x, h1, h2⟩

example : (linked12.unlinkBoth (.noRequest .dialFailure) .both true 1 "A" 2 "B").2 = .val (.error .dialFailure) ∧
    (linked12.unlinkBoth (.noRequest .dialFailure) .both true 1 "A" 2 "B").1.here.links 10 = [] ∧
    (linked12.unlinkBoth (.noRequest .dialFailure) .both true 1 "A" 2 "B").1.there.links 20 = [(1, "A"), (7, "C")] :=
  ⟨rfl, rfl, rfl⟩

/-- **C52** (an actor and itself). Linking an actor to itself, or unlinking it, through any reference, is `Ok` and changes
nothing, whatever the network does and whether or not there is a swarm. -/
theorem self_link_remote_nothing (s : Two I) (net net' : Net) (aFirst : Bool) (ref ty : Nat) (id : I) (rid srid : String) :
    s.linkRemote net ref ty id rid id srid = (s, .val (.ok ())) ∧
    s.unlinkRemote net ref id id srid = (s, .val (.ok ())) ∧
    s.linkBoth net net' aFirst id rid id srid = (s, .val (.ok ())) ∧
    s.unlinkBoth net net' aFirst id rid id srid = (s, .val (.ok ())) := by
  simp only [Two.linkRemote, Two.unlinkRemote, Two.linkBoth, Two.unlinkBoth, if_true]
  exact ⟨trivial, trivial, trivial, trivial⟩

example : (pair12.linkBoth (.noRequest .dialFailure) .both true 1 "A" 1 "A").2 = .val (.ok ()) ∧
    (pair12.linkBoth (.noRequest .dialFailure) .both true 1 "A" 2 "B").2 = .val (.error .dialFailure) := ⟨rfl, rfl⟩

/-- No link of this node has changed but, at most, that of the actor known as `id` to `sib`. -/
def Node.Keeps (n n' : Node I) (id sib : I) : Prop :=
  ∀ r j, (∀ e, n.registry.find id = some e → (r, j) ≠ (e.ref, sib)) → (n'.Linked r j ↔ n.Linked r j)

theorem linked_setLinks_del {n : Node I} {ref r : Nat} {i j : I} (hm : ∀ r, (n.links r).Ok) (h : (r, j) ≠ (ref, i)) :
    (n.setLinks ref ((n.links ref).del i)).Linked r j ↔ n.Linked r j := by
  simp only [Node.Linked, Node.setLinks]
  split
  · next hr =>
    subst hr
    have hj : j ≠ i := fun hh => h (by rw [hh])
    have hf : ((n.links r).del i).find j = (n.links r).find j := by rw [Map.find_del (hm _), if_neg hj]
    constructor
    · intro hk
      refine Classical.byContradiction fun hc => ?_
      rw [← Map.find_none_iff] at hc
      exact (Map.find_none_iff _ _).mp (hf.trans hc) hk
    · intro hk
      refine Classical.byContradiction fun hc => ?_
      rw [← Map.find_none_iff, hf, Map.find_none_iff] at hc
      exact hc hk
  · exact Iff.rfl

theorem link_keeps (n : Node I) (id : I) (rid : String) (sib : I) (srid : String) :
    n.Keeps (n.link id rid sib srid).1 id sib := by
  intro r j h
  rcases link_cases n id rid sib srid with ⟨h1, -⟩ | ⟨e, hf, -, he⟩
  · rw [h1]
  · rw [he, linked_setLinks_put]
    have : ¬ (r = e.ref ∧ j = sib) := fun hh => h e hf (by rw [hh.1, hh.2])
    simp [this]

theorem unlink_keeps {n : Node I} (hm : ∀ r, (n.links r).Ok) (id : I) (rid : String) (sib : I) :
    n.Keeps (n.unlink id rid sib).1 id sib := by
  intro r j h
  rcases unlink_cases n id rid sib with ⟨h1, -⟩ | ⟨e, hf, -, he⟩
  · rw [h1]
  · rw [he, linked_setLinks_del hm (h e hf)]

/-- **C52** (no other link changes, whatever the result). Linking and unlinking remote actors, through either kind of
reference and whether it succeeds, fails or gets lost, changes no link on the two nodes but the ones between the two
actors; and a node the request does not get to is left as it is. -/
theorem no_other_link_changes (s : Two I) (neta netb : Net) (aFirst : Bool) (ref ty : Nat) (id : I) (rid : String)
    (sib : I) (srid : String) (hh : ∀ r, (s.here.links r).Ok) (ht : ∀ r, (s.there.links r).Ok) :
    (∀ w, w = (s.linkBoth neta netb aFirst id rid sib srid).1 ∨ w = (s.unlinkBoth neta netb aFirst id rid sib srid).1 →
      s.here.Keeps w.here id sib ∧ s.there.Keeps w.there sib id ∧
      (netb.handled = false → w.here = s.here) ∧ (neta.handled = false → w.there = s.there)) ∧
    (∀ w, w = (s.linkRemote neta ref ty id rid sib srid).1 ∨ w = (s.unlinkRemote neta ref id sib srid).1 →
      s.here.SameBut w.here ref sib ∧ s.there.Keeps w.there sib id ∧ (neta.handled = false → w.there = s.there)) := by
  have hl := link_keeps s.there sib srid id rid
  have hu := unlink_keeps ht sib srid id
  by_cases hne : id = sib
  · have h1 : ∀ (n : Node I) (a b : I), n.Keeps n a b := fun n a b r j _ => Iff.rfl
    have h2 : ∀ n : Node I, n.SameBut n ref sib := fun n r j _ => Iff.rfl
    constructor
    · rintro w (rfl | rfl)
      · simp only [Two.linkBoth, if_pos hne]
        exact ⟨h1 _ _ _, h1 _ _ _, fun _ => by trivial, fun _ => by trivial⟩
      · simp only [Two.unlinkBoth, if_pos hne]
        exact ⟨h1 _ _ _, h1 _ _ _, fun _ => by trivial, fun _ => by trivial⟩
    · rintro w (rfl | rfl)
      · simp only [Two.linkRemote, if_pos hne]
        exact ⟨h2 _, h1 _ _ _, fun _ => by trivial⟩
      · simp only [Two.unlinkRemote, if_pos hne]
        exact ⟨h2 _, h1 _ _ _, fun _ => by trivial⟩
  · constructor
    · rintro w (rfl | rfl)
      · simp only [Two.linkBoth, if_neg hne]
        refine ⟨?_, ?_, fun h => by simp [h], fun h => by simp [h]⟩
        · split
          · exact link_keeps s.here id rid sib srid
          · exact fun r j _ => Iff.rfl
        · split
          · exact hl
          · exact fun r j _ => Iff.rfl
      · simp only [Two.unlinkBoth, if_neg hne]
        refine ⟨?_, ?_, fun h => by simp [h], fun h => by simp [h]⟩
        · split
          · exact unlink_keeps hh id rid sib
          · exact fun r j _ => Iff.rfl
        · split
          · exact hu
          · exact fun r j _ => Iff.rfl
    · rintro w (rfl | rfl)
      · have hs : s.here.SameBut (({ s.here with registry := s.here.registry.put id ⟨ref, ty⟩ } : Node I).setLinks ref
            ((s.here.links ref).put sib srid)) ref sib := by
          intro r j h
          have h2 : ¬ (r = ref ∧ j = sib) := fun hx => h (by rw [hx.1, hx.2])
          have := linked_setLinks_put s.here ref r sib j srid
          simp only [h2, false_or] at this
          exact this
        simp only [Two.linkRemote, if_neg hne, Two.swarmLink]
        split
        · split
          · next hn => exact ⟨hs, hl, fun h => by simp [h] at hn⟩
          · exact ⟨hs, fun r j _ => Iff.rfl, fun _ => by trivial⟩
        · exact ⟨hs, fun r j _ => Iff.rfl, fun _ => by trivial⟩
      · have hs : s.here.SameBut (s.here.setLinks ref ((s.here.links ref).del sib)) ref sib :=
          fun r j h => linked_setLinks_del hh h
        simp only [Two.unlinkRemote, if_neg hne, Two.swarmUnlink]
        split
        · split
          · next hn => exact ⟨hs, hu, fun h => by simp [h] at hn⟩
          · exact ⟨hs, fun r j _ => Iff.rfl, fun _ => by trivial⟩
        · exact ⟨hs, fun r j _ => Iff.rfl, fun _ => by trivial⟩

/-- The call that fails takes away one link and leaves another. -/
example : (∀ r, (linked12.here.links r).Ok) ∧ (∀ r, (linked12.there.links r).Ok) ∧
    (linked12.unlinkBoth .both (.noRequest .dialFailure) true 1 "A" 2 "B").2 = .val (.error .dialFailure) ∧
    (linked12.unlinkBoth .both (.noRequest .dialFailure) true 1 "A" 2 "B").1.there.links 20 = [(7, "C")] ∧
    (linked12.unlinkBoth .both (.noRequest .dialFailure) true 1 "A" 2 "B").1.here.links 10 = [(2, "B")] := by
  refine ⟨fun r => ?_, fun r => ?_, rfl, rfl, rfl⟩
  · simp only [linked12, Map.Ok]; split <;> decide
  · simp only [linked12, Map.Ok]; split <;> decide

end Verif.Remote
