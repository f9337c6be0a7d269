import Verif.System.LastWords
import Verif.Lifecycle.OrderExact

/-! C99, exactly: which of the last words of an actor are handled when the news of its death is. -/

namespace Verif.System

open Verif.Mailbox Verif.Lifecycle

/-- **C99**, exactly. When `on_link_died` of `j` is called for `i`, a message that `j` had accepted while user code of `i` could
still run has been handled if and only if the start-up of `j` is finished or `j` sent the message to itself, and it has not fallen behind another
message of the start-up buffer whose handler failed. -/
theorem last_words_handled_iff (cap : Id → Option Nat) (pre post : List SOp) (i j : Id) (r : Reason) (m : Msg)
    (hm : (m.1, Sig.msg m.2) ∈ ((sysAfter cap pre).act j).mb.pushed)
    (hs : silent ((sysAfter cap pre).act i).phase = false)
    (hp : ((sysAfter cap (pre ++ post)).act j).phase = .linkDying i r) (hist : List Lifecycle.Op)
    (hh : (sysAfter cap (pre ++ post)).act j = after (cap j) hist) :
    m ∈ ((sysAfter cap (pre ++ post)).act j).handled ↔
      (((sysAfter cap (pre ++ post)).act j).finished = true ∨ m.2.within = true) ∧ ¬ Fell (cap j) hist m := by
  have hr := received_before_news cap pre post i j r m hm hs hp
  rw [hh] at hr hp ⊢
  have hg := good_after (cap j) hist
  have hcut := hg.shape.cut
  constructor
  · intro h
    refine ⟨?_, fun hf => dropped_not_handled _ _ m (lost_of_fell hf) h⟩
    cases hc : (after (cap j) hist).cut with
    | none =>
      right
      rw [(hg.ord.none hc).1] at h
      exact (List.mem_filter.mp h).2
    | some k => left; rw [hcut, hc]; rfl
  · rintro ⟨h1, h2⟩
    have hlost : m ∉ (after (cap j) hist).lost := fun h =>
      h2 (fell_of_lost _ _ (by rw [hp]; rfl) h)
    have := hg.acct.mem_iff.mp (mem_msgsOf.mpr hr)
    rw [hp] at this
    simp only [Phase.rest, List.append_nil, List.mem_append] at this
    rcases this with (h | h) | h
    · exact h
    · exfalso
      have hf := (hg.shape.buf (List.ne_nil_of_mem h)).1
      rw [hf] at h1
      have hw := h1.resolve_left (by simp)
      have hc : (after (cap j) hist).cut = none := by
        rw [hcut] at hf
        simpa using hf
      rw [(hg.ord.none hc).2 (by rw [hp]; rfl)] at h
      have := (List.mem_filter.mp h).2
      rw [hw] at this; cases this
    · exact absurd h hlost

/-- The history of actor 1 in `lateWords`. -/
def lateHist : List Lifecycle.Op := [.link 0, .run, .send (tell 10), .sendLinkDied 0 .killed, .startEnd .ok, .pollBegin, .recv, .recv]

example : (0, Sig.msg (tell 10)) ∈ ((sysAfter (fun _ => none) (lateWords.take 7)).act 1).mb.pushed ∧
    silent ((sysAfter (fun _ => none) (lateWords.take 7)).act 0).phase = false ∧
    ((sysAfter (fun _ => none) (lateWords.take 7 ++ lateWords.drop 7)).act 1).phase = .linkDying 0 .killed ∧
    (sysAfter (fun _ => none) (lateWords.take 7 ++ lateWords.drop 7)).act 1 = after none lateHist :=
  ⟨by decide, by decide, by decide, rfl⟩

end Verif.System
