import Verif.Swarm.PropsNames

/-
C58, exactly: when unregistering a name has any effect on the node itself.
-/

namespace Verif.Swarm

open Verif.ActorId
open Verif.Remote (Bytes)

variable {P : Type} [DecidableEq P]

/-- **C58** (exactly when unregistering works): the swarm task takes the unregistration of `k`; then, with nothing in between
that touches `k`, a local lookup of `k`. The lookup finds nothing if and only if the node had peers at that moment, or there
was no record under `k`, or it was one this node had published, that is, one registered when the node had peers. Otherwise
the record is as it was: one registered here without peers, or one that another node has stored here. -/
theorem unregister_works_iff (c : PeerCodec P) (own : P) (pre mid : List (Op P)) (acc' : Bool)
    (t u : Nat) (k : Key) (rest rest' : List (Item P)) (ha : (run c own pre).alive = true)
    (hq : (run c own pre).queue = .call t (.unregister k) :: rest)
    (hquiet : Quiet c own (pre ++ [.recv true]) k mid)
    (ha' : (run c own (pre ++ [.recv true] ++ mid)).alive = true)
    (hq' : (run c own (pre ++ [.recv true] ++ mid)).queue = .call u (.lookupLocal k) :: rest') :
    ((run c own (pre ++ [.recv true] ++ mid ++ [.recv acc'])).answers =
        (run c own (pre ++ [.recv true] ++ mid)).answers ++ [(u, .registration none)] ↔
      (run c own pre).peers ≠ 0 ∨ ∀ r, (run c own pre).store.find k = some r → r.publisher = some own) ∧
    ((run c own pre).peers = 0 → (∃ r, (run c own pre).store.find k = some r ∧ r.publisher ≠ some own) →
      (run c own (pre ++ [.recv true] ++ mid)).store.find k = (run c own pre).store.find k) := by
  have hst := store_ok_run c own pre
  have how := own_run c own pre
  -- the record after the unregistration
  have hkeep : (run c own pre).peers = 0 → ∀ r, (run c own pre).store.find k = some r → r.publisher ≠ some own →
      (run c own (pre ++ [.recv true] ++ mid)).store.find k = some r := by
    intro hp r hf hne
    rw [quiet_find c own k mid _ hquiet, run_snoc]
    simp only [State.step, ha, if_true, hq, State.call, if_pos hp, State.removeRecord, hf, how, if_neg hne, State.answer]
  refine ⟨⟨fun h => ?_, fun h => ?_⟩, ?_⟩
  · refine Classical.byContradiction fun hn => ?_
    simp only [not_or, Decidable.not_not] at hn
    obtain ⟨hp, hn⟩ := hn
    refine hn fun r hf => Classical.byContradiction fun hne => ?_
    have hf' := hkeep hp r hf hne
    rw [run_snoc] at h
    simp only [State.step, ha', if_true, hq', State.call, hf'] at h
    split at h
    · have := congrArg List.length h
      simp [State.die] at this
    · simp [State.answer] at h
  · by_cases hp : (run c own pre).peers = 0
    · have h := h.resolve_left (fun h => h hp)
      have hf : (run c own (pre ++ [.recv true])).store.find k = none := by
        rw [run_snoc]
        simp only [State.step, ha, if_true, hq, State.call, if_pos hp, State.removeRecord]
        split
        · rename_i r hr
          rw [if_pos (by rw [how]; exact h r hr)]
          simp only [State.answer]
          rw [Map.find_del hst, if_pos rfl]
        · simpa [State.answer] using by assumption
      rw [← quiet_find c own k mid _ hquiet] at hf
      exact (lookupLocal_answer c own _ acc' u k rest' ha' hq').1 hf
    · exact unregistered_name_is_gone_partial c own pre mid acc' t u k rest rest' ha hq hp hquiet ha' hq'
  · rintro hp ⟨r, hf, hne⟩
    rw [hkeep hp r hf hne, hf]

/-- Registered with a peer and unregistered without: it works. Registered by another node: it does not. -/
example : (run Wire.byteCodec 1 [.setPeers 1, .send (.register "a" [1, 7, 0, 0, 0, 0, 0, 0, 0, 1]), .recv true, .setPeers 0,
      .send (.unregister "a"), .send (.lookupLocal "a"), .recv true, .recv true]).answers =
      [(1, .put (.ok ())), (2, .registration none)] ∧
    (run Wire.byteCodec 1 [.storeRemote "a" (some ⟨[1, 7, 0, 0, 0, 0, 0, 0, 0, 2], some 2⟩),
      .send (.unregister "a"), .send (.lookupLocal "a"), .recv true, .recv true]).answers =
      [(0, .put (.ok ())), (1, .registration (some ⟨⟨7, .peerId 2⟩, ""⟩))] := ⟨rfl, rfl⟩

end Verif.Swarm
