import Verif.Lifecycle.LiveInv
import Verif.Lifecycle.LiveEx

/-!
Property theorems about fair executions (`Fair`, `Verif/Lifecycle/Live.lean`): C60 (accepted messages are
handled), C61 (an actor that is to end does end), and the liveness parts of C08, C09, C14 and C18.
-/

set_option linter.unusedSimpArgs false

namespace Verif.Lifecycle

open Verif.Mailbox

/-- The actor has left its message loop, or never entered it because `on_start` failed. -/
def Phase.over : Phase → Bool
  | .startPanicking _ => true
  | .stopping _ _ _ => true
  | .notifying _ _ _ => true
  | .stopped _ => true
  | .crashed => true
  | _ => false

theorem phase_cases (p : Phase) : p.unborn = true ∨ p.inLoop = true ∨ p.over = true := by
  cases p <;> simp [Phase.unborn, Phase.inLoop, Phase.over]

/-! ### Stopping comes to an end -/

/-- Steps of its own that a stopping actor still takes. -/
def Phase.togo : Phase → Nat
  | .startPanicking _ => 4
  | .stopping _ pend _ => pend.length + 3
  | .notifying _ pend _ => pend.length + 2
  | _ => 0

section
variable (b : Bool) (r : Reason) (e : Err) (p : List Id) (x : Option Err)
@[simp] theorem over_startPanicking : (Phase.startPanicking e).over = true := rfl
@[simp] theorem over_stopping : (Phase.stopping r p b).over = true := rfl
@[simp] theorem over_notifying : (Phase.notifying r p x).over = true := rfl
@[simp] theorem over_stopped : (Phase.stopped r).over = true := rfl
@[simp] theorem over_crashed : Phase.crashed.over = true := rfl
@[simp] theorem togo_startPanicking : (Phase.startPanicking e).togo = 4 := rfl
@[simp] theorem togo_stopping : (Phase.stopping r p b).togo = p.length + 3 := rfl
@[simp] theorem togo_notifying : (Phase.notifying r p x).togo = p.length + 2 := rfl
@[simp] theorem togo_stopped : (Phase.stopped r).togo = 0 := rfl
@[simp] theorem togo_crashed : Phase.crashed.togo = 0 := rfl
end

/-- Once over, always over, and never farther from the end. -/
theorem over_step {s : St} (op : Op) (ho : s.phase.over = true) :
    (s.step op).phase.over = true ∧ (s.step op).phase.togo ≤ s.phase.togo ∧
      (Own s op → (s.step op).phase.togo < s.phase.togo) := by
  cases hp : s.phase <;> simp [hp, Phase.over] at ho <;> cases op
  case startPanicking.panicEnd e o =>
    cases o <;> simp [St.step, hp, St.startPanicEnd, St.stopFailed]
  case stopping.stopEnd r pend st o =>
    cases st <;> cases o <;> simp [St.step, hp, St.stopEnd, St.stopDone, St.finishAll] <;> omega
  case notifying.notifyEnd r pend x id =>
    simp only [St.step, hp]
    split
    · next h =>
      have := List.length_erase_of_mem h
      have := List.length_pos_of_mem h
      simp
      omega
    · next h => simp [hp, Own, h]
  case notifying.finish r pend x =>
    cases pend <;> simp [St.step, hp, Own, St.finishAll]
  all_goals
    simp [St.step, hp, Own, Phase.inLoop]
    try (split <;> simp [hp])

theorem over_mono {cap : Option Nat} {ops : Nat → Op} {n k : Nat} (h : n ≤ k)
    (ho : (upto cap ops n).phase.over = true) : (upto cap ops k).phase.over = true := by
  induction h with
  | refl => exact ho
  | step _ ih => rw [upto_succ]; exact (over_step _ ih).1

theorem togo_zero {p : Phase} (ho : p.over = true) (h : p.togo = 0) : p.ended = true := by
  cases p <;> simp_all [Phase.over]

/-- A message from before `on_start`, one whose handler panics and `on_panic` continues, an ask, a stop request,
`on_stop`; then nothing more. No code in /repo corresponds to it. -/
def liveDemo : List Op :=
  [.send (tell 10), .run, .startEnd .ok, .send (tell 11), .pollBegin, .recv, .recv, .handlerEnd (.ret (.ok 0)),
   .send (ask 12), .recv, .handlerEnd (.panic 1), .pollEnd, .pollBegin, .panicEnd .cont, .recv,
   .handlerEnd (.ret (.ok 7)), .sendStop, .recv, .pollEnd, .stopEnd .ok, .finish]

/-- **C61** In a fair execution an actor that has left its message loop, or whose `on_start` failed, comes to
its end: `on_stop` returns, the links are notified, the mailbox is closed. (That user code returns and that
the notifications get through is part of `Fair`; C27 is about when they do.) -/
theorem stopping_comes_to_end (cap : Option Nat) (ops : Nat → Op) (hf : Fair cap ops) (n : Nat)
    (ho : (upto cap ops n).phase.over = true) :
    ∃ k, n ≤ k ∧ (upto cap ops k).phase.ended = true ∧ (upto cap ops k).mb.closed = true := by
  suffices h : ∃ k, n ≤ k ∧ (upto cap ops k).phase.ended = true by
    obtain ⟨k, hk, he⟩ := h
    exact ⟨k, hk, he, by rw [(upto_good cap ops k).shape.closed, he]⟩
  generalize hw : (upto cap ops n).phase.togo = w
  induction w using Nat.strongRecOn generalizing n with
  | _ w ih =>
    by_cases he : (upto cap ops n).phase.ended = true
    · exact ⟨n, Nat.le_refl _, he⟩
    · have hb : Busy (upto cap ops n) := by
        revert he ho
        unfold Busy
        cases (upto cap ops n).phase <;> simp [Phase.over]
      obtain ⟨m, hm, h⟩ := hf.task n hb
      rcases h with h | h
      · have hle : ∀ j, n ≤ j → (upto cap ops j).phase.togo ≤ w := by
          intro j hj
          induction hj with
          | refl => omega
          | @step j hj ih' =>
            have := (over_step (ops j) (over_mono hj ho)).2.1
            rw [← upto_succ] at this
            exact Nat.le_trans this ih'
        have h1 := (over_step (ops m) (over_mono hm ho)).2.2 h
        rw [← upto_succ] at h1
        have h2 := hle m hm
        obtain ⟨k, hk, hk2⟩ := ih _ (by omega) (n := m + 1) (over_mono (by omega) ho) rfl
        exact ⟨k, by omega, hk2⟩
      · exact ⟨m, hm, h⟩

/-- A fair execution in which the actor has left its loop after 18 operations and has ended after 21. -/
example : Fair none (quiet liveDemo) ∧ (upto none (quiet liveDemo) 18).phase.over = true ∧
    (upto none (quiet liveDemo) 21).phase = .stopped .normal :=
  ⟨fair_of_fairB (by decide), by decide, by decide⟩

/-! ### Starting comes to an end -/

theorem unborn_step {s : St} (op : Op) (hu : s.phase.unborn = false) :
    (s.step op).phase.unborn = false := by
  rcases phase_cases s.phase with h | h | h
  · simp [h] at hu
  · have ht := step_tr s op
    generalize s.step op = s' at *
    cases ht with
    | startOk h' => simp [h'] at hu
    | run h' => simp [h'] at hu
    | startFail _ _ h' => simp [h'] at hu
    | recvStartup => cases hb : s.buffer <;> simp [St.drain, Phase.unborn]
    | recvStop => cases hb : s.buffer <;> simp [St.drain, Phase.unborn]
    | recvNone => cases hb : s.buffer <;> simp [St.drain, Phase.unborn]
    | handlerReply m rest ts => cases rest <;> cases ts <;> simp [St.drain, Phase.unborn]
    | handlerOk m tk rest ts => cases rest <;> cases ts <;> simp [St.drain, Phase.unborn]
    | _ => simp_all [St.step, St.crash, St.abortSeen, St.stopFailed, St.startFail, Phase.unborn]
  · have := (over_step op h).1
    revert this
    cases (s.step op).phase <;> simp [Phase.over, Phase.unborn]

theorem unborn_mono {cap : Option Nat} {ops : Nat → Op} {n k : Nat} (h : n ≤ k)
    (ho : (upto cap ops n).phase.unborn = false) : (upto cap ops k).phase.unborn = false := by
  induction h with
  | refl => exact ho
  | step _ ih => rw [upto_succ]; exact unborn_step _ ih

theorem starting_step {s : St} (op : Op) (h : s.phase = .starting) :
    (s.step op).phase.unborn = false ∨ (s.step op).phase = .starting := by
  have ht := step_tr s op
  generalize s.step op = s' at *
  cases ht with
  | startOk => left; rw [(startOk_fields s).2.1]; rfl
  | _ => simp_all [St.step, St.crash, St.abortSeen, St.stopFailed, St.startFail, Phase.unborn]

theorem gets_born {cap : Option Nat} {ops : Nat → Op} (hf : Fair cap ops) (n : Nat) :
    ∃ k, n ≤ k ∧ (upto cap ops k).phase.unborn = false := by
  have hstart : ∀ n, (upto cap ops n).phase = .starting →
      ∃ k, n ≤ k ∧ (upto cap ops k).phase.unborn = false := by
    intro n hp
    obtain ⟨m, hm, h⟩ := hf.task n (by simp [Busy, hp])
    by_cases hu : (upto cap ops m).phase.unborn = false
    · exact ⟨m, hm, hu⟩
    · have hstay : ∀ j, n ≤ j → (upto cap ops j).phase.unborn = false ∨
          (upto cap ops j).phase = .starting := by
        intro j hj
        induction hj with
        | refl => exact Or.inr hp
        | @step j hj ih =>
          rw [upto_succ]
          rcases ih with h | h
          · exact Or.inl (unborn_step _ h)
          · exact starting_step _ h
      have hs : (upto cap ops m).phase = .starting := (hstay m hm).resolve_left hu
      rcases h with h | h
      · simp only [Own, hs] at h
        obtain ⟨o, ho⟩ := h
        refine ⟨m + 1, by omega, ?_⟩
        rw [upto_succ, ho]
        cases o <;> simp [St.step, hs, St.startEnd, St.startFail, Phase.unborn, (startOk_fields _).2.1]
      · simp [hs] at h
  by_cases hu : (upto cap ops n).phase.unborn = false
  · exact ⟨n, Nat.le_refl _, hu⟩
  · have hp : (upto cap ops n).phase = .prepared ∨ (upto cap ops n).phase = .starting := by
      revert hu
      cases (upto cap ops n).phase <;> simp [Phase.unborn]
    rcases hp with hp | hp
    · obtain ⟨m, hm, h⟩ := hf.task n (by simp [Busy, hp])
      by_cases hu' : (upto cap ops m).phase.unborn = false
      · exact ⟨m, hm, hu'⟩
      · have hp' : (upto cap ops m).phase = .prepared ∨ (upto cap ops m).phase = .starting := by
          revert hu'
          cases (upto cap ops m).phase <;> simp [Phase.unborn]
        rcases hp' with hp' | hp'
        · rcases h with h | h
          · simp only [Own, hp'] at h
            obtain ⟨k, hk, hk2⟩ := hstart (m + 1) (by rw [upto_succ, h]; simp [St.step, hp'])
            exact ⟨k, by omega, hk2⟩
          · simp [hp'] at h
        · obtain ⟨k, hk, hk2⟩ := hstart m hp'
          exact ⟨k, by omega, hk2⟩
    · exact hstart n hp

/-- Either the actor is over at some point, or from some point on it is in its message loop for good. -/
theorem over_or_stays {cap : Option Nat} {ops : Nat → Op} (hf : Fair cap ops) (n : Nat) :
    (∃ k, n ≤ k ∧ (upto cap ops k).phase.over = true) ∨ ∃ k, n ≤ k ∧ Stays cap ops k := by
  by_cases h : ∃ k, n ≤ k ∧ (upto cap ops k).phase.over = true
  · exact Or.inl h
  · obtain ⟨k, hk, hu⟩ := gets_born hf n
    refine Or.inr ⟨k, hk, fun j hj => ?_⟩
    have h1 := unborn_mono hj hu
    rcases phase_cases (upto cap ops j).phase with h2 | h2 | h2
    · rw [h1] at h2; cases h2
    · exact h2
    · exact absurd ⟨j, by omega, h2⟩ h

/-! ### Accepted signals are taken -/

/-- In an actor that stays in its loop a time comes at which it waits for its next signal, start-up is over,
and everything accepted before `n` has been taken from the mailbox. -/
theorem catches_up {cap : Option Nat} {ops : Nat → Op} (hf : Fair cap ops) {n : Nat}
    (hs : Stays cap ops n) : ∃ k, n ≤ k ∧ (upto cap ops k).phase = .idle ∧
      (upto cap ops k).finished = true ∧
      ∀ p ∈ (upto cap ops n).mb.pushed, p ∈ (upto cap ops k).mb.received := by
  obtain ⟨k, hk, h1, h2⟩ := all_received hf hs _ (Nat.le_refl _)
  have h3 := loop_hist (upto_good cap ops k) (hs k hk)
  have hpre : (upto cap ops n).mb.pushed <+: (upto cap ops k).mb.received :=
    List.prefix_of_prefix_length_le (pushed_mono cap ops hk) (h3 ▸ List.prefix_append _ _) h2
  refine ⟨k, hk, h1, ?_, fun p hp => hpre.subset hp⟩
  have hsn : Sigs (upto cap ops n) := sigs_after _ _
  have hsk : Sigs (upto cap ops k) := sigs_after _ _
  rcases hsn.up (hs n (Nat.le_refl _)) with h | ⟨t, h⟩
  · clear hpre h2 h3 h1
    induction hk with
    | refl => exact h
    | @step j hj ih => exact finished_tr (upto_tr cap ops j) (ih (sigs_after _ _))
  · exact hsk.fin t (hpre.subset h)

/-- Nothing received is lost as long as the actor is in its loop and no drain of the start-up buffer fails. -/
theorem lost_nil (cap : Option Nat) (ops : List Op) (hl : (after cap ops).phase.inLoop = true)
    (hd : ¬ DrainFail (after cap ops)) : (after cap ops).lost = [] := by
  apply Classical.byContradiction
  intro h
  have hlo := loss_after cap ops
  rcases hlo.lost h with h | h | ⟨r, _, h⟩ | ⟨h, _⟩
  · exact hd h
  · exact brkNormal_out cap ops hl h
  · exact hlo.sb (Or.inl hl) r h
  · rw [h] at hl; cases hl

/-- **C60** (part). In a fair execution every message the mailbox has accepted is given to its handler, unless
the actor ends before that. The actor may be starting, running, or failing and continuing any number of
times, and anything else may go on meanwhile.

Missing for the full claim: it needs that no handler fails for an outside message received before start-up
was over; otherwise messages of the start-up buffer are lost (`accepted_message_never_handled`). -/
theorem accepted_message_handled_partial (cap : Option Nat) (ops : Nat → Op) (hf : Fair cap ops)
    (hd : ∀ k, ¬ DrainFail (upto cap ops k)) (n : Nat) (m : Msg)
    (hm : m ∈ msgsOf (upto cap ops n).mb.pushed) :
    ∃ k, n ≤ k ∧ (m ∈ (upto cap ops k).handled ∨ (upto cap ops k).phase.ended = true) := by
  rcases over_or_stays hf n with ⟨k, hk, h⟩ | ⟨k, hk, hs⟩
  · obtain ⟨j, hj, h1, _⟩ := stopping_comes_to_end cap ops hf k h
    exact ⟨j, by omega, Or.inr h1⟩
  · obtain ⟨j, hj, h1, h2, h3⟩ := catches_up hf hs
    refine ⟨j, by omega, Or.inl ?_⟩
    have hg := upto_good cap ops j
    have hlost := lost_nil cap _ (hs j hj) (hd j)
    have hbuf : (upto cap ops j).buffer = [] := hg.shape.buf_nil (Or.inl h2)
    have h4 : m ∈ msgsOf (upto cap ops j).mb.received :=
      mem_msgsOf.mpr (h3 _ ((pushed_mono cap ops hk).subset (mem_msgsOf.mp hm)))
    have h5 := hg.acct.mem_iff.mp h4
    change (upto cap ops j).lost = [] at hlost
    rw [hlost, hbuf, h1] at h5
    simpa [Phase.rest] using h5

/-- Both hypotheses hold in `liveDemo`, where one handler panics. -/
example : Fair none (quiet liveDemo) ∧ (∀ k, ¬ DrainFail (upto none (quiet liveDemo) k)) ∧
    (2, tell 11) ∈ msgsOf (upto none (quiet liveDemo) 4).mb.pushed :=
  ⟨fair_of_fairB (by decide), never_drainFail (by decide) (by decide), by decide⟩

/-- **C60** fails: a fair execution in which the mailbox accepts message 1, message 0 panics and `on_panic` says
`Continue`; the actor never ends and message 1 is never given to its handler. -/
theorem accepted_message_never_handled :
    ∃ cap ops n m, Fair cap ops ∧ m ∈ msgsOf (upto cap ops n).mb.pushed ∧
      ∀ k, m ∉ (upto cap ops k).handled ∧ (upto cap ops k).phase.over = false := by
  let l : List Op := [.send (tell 10), .send (tell 11), .run, .startEnd .ok, .pollBegin, .recv, .recv, .recv,
    .handlerEnd (.panic 1), .panicEnd .cont]
  refine ⟨none, quiet l, 2, (1, tell 11), fair_of_fairB (by decide), by decide, fun k => ?_⟩
  have hall : ∀ k, k < l.length + 1 → (1, tell 11) ∉ (after none (l.take k)).handled ∧
      (after none (l.take k)).phase.over = false := by decide
  by_cases hk : k ≤ l.length
  · rw [quiet_take none l hk]
    exact hall k (by omega)
  · rw [quiet_rest none l (by decide) (by omega)]
    exact hall l.length (by decide)

/-- **C14** (liveness). In a fair execution every ask the mailbox has accepted comes to an outcome, whatever
handlers do: the asker gets a reply or a failure or has given up, or user code holds the reply sender that the
handler took. -/
theorem accepted_ask_answered (cap : Option Nat) (ops : Nat → Op) (hf : Fair cap ops) (n t : Nat) (b : Body)
    (hm : (t, Sig.msg b) ∈ (upto cap ops n).mb.pushed) (ha : b.ask = true) :
    ∃ k, n ≤ k ∧ ((∃ r, (upto cap ops k).slots t = .got r) ∨ (∃ f, (upto cap ops k).slots t = .failed f) ∨
      (upto cap ops k).slots t = .gaveUp ∨ t ∈ (upto cap ops k).delegated) := by
  have hsent : ∀ k, n ≤ k → (t, Sig.msg b) ∈ (upto cap ops k).mb.sent := by
    intro k hk
    apply (upto_good cap ops k).shape.mb.mem_sent
    simp [(pushed_mono cap ops hk).subset hm]
  rcases over_or_stays hf n with ⟨k, hk, h⟩ | ⟨k, hk, hs⟩
  · obtain ⟨j, hj, h1, _⟩ := stopping_comes_to_end cap ops hf k h
    refine ⟨j, by omega, ?_⟩
    have h2 := every_ask_resolved cap ((List.range j).map ops) t b (by
      change (∃ r, (upto cap ops j).phase = .stopped r) ∨ (upto cap ops j).phase = .crashed
      revert h1
      cases (upto cap ops j).phase <;> simp) (hsent j (by omega)) ha
    change (∃ r, (upto cap ops j).slots t = .got r) ∨ (∃ f, (upto cap ops j).slots t = .failed f) ∨
      (upto cap ops j).slots t = .gaveUp ∨
      ((upto cap ops j).slots t = .waiting ∧ t ∈ (upto cap ops j).delegated) at h2
    grind
  · obtain ⟨j, hj, h1, h2, h3⟩ := catches_up hf hs
    refine ⟨j, by omega, ?_⟩
    have hg := upto_good cap ops j
    have hbuf : (upto cap ops j).buffer = [] := hg.shape.buf_nil (Or.inl h2)
    have h4 := h3 _ ((pushed_mono cap ops hk).subset hm)
    have hne : (upto cap ops j).slots t ≠ .none := (hg.slots.a t).mpr ⟨b, hsent j (by omega), ha⟩
    cases hsl : (upto cap ops j).slots t with
    | none => exact absurd hsl hne
    | got r => simp
    | failed f => simp
    | gaveUp => simp
    | waiting =>
      have hl := hg.slots.w t hsl
      have hnd := hg.shape.mb.part_nodup
      rw [loop_hist hg (hs j hj)] at hnd
      unfold live mbK at hl
      rw [hbuf, h1] at hl
      simp only [List.map_append, List.nodup_append, List.mem_append, List.mem_map] at hnd
      simp only [K, Phase.rest, Phase.cur, List.map_nil, List.not_mem_nil, false_or, List.mem_append,
        List.mem_map] at hl
      grind

example : Fair none (quiet liveDemo) ∧ (3, Sig.msg (ask 12)) ∈ (upto none (quiet liveDemo) 9).mb.pushed ∧
    (upto none (quiet liveDemo) 9).slots 3 = .waiting ∧
    (upto none (quiet liveDemo) 16).slots 3 = .got (.ok 7) :=
  ⟨fair_of_fairB (by decide), by decide, by decide, by decide⟩

/-- **C08** (liveness, part). In a fair execution an accepted stop request ends the actor.

Missing for the full claim: it needs that no handler fails for an outside message received before start-up was
over; otherwise the request can be forgotten for good (`accepted_stop_never_ends`). -/
theorem accepted_stop_ends_partial (cap : Option Nat) (ops : Nat → Op) (hf : Fair cap ops)
    (hd : ∀ k, ¬ DrainFail (upto cap ops k)) (n t : Nat)
    (hm : (t, Sig.stop) ∈ (upto cap ops n).mb.pushed) :
    ∃ k, n ≤ k ∧ (upto cap ops k).phase.ended = true := by
  rcases over_or_stays hf n with ⟨k, hk, h⟩ | ⟨k, hk, hs⟩
  · obtain ⟨j, hj, h1, _⟩ := stopping_comes_to_end cap ops hf k h
    exact ⟨j, by omega, h1⟩
  · exfalso
    obtain ⟨j, hj, h1, h2, h3⟩ := catches_up hf hs
    have hsj : Sigs (upto cap ops j) := sigs_after _ _
    rcases hsj.stop (hs j hj) t (h3 _ ((pushed_mono cap ops hk).subset hm)) with h | h
    · rw [h1] at h; cases h
    · exact hd j h

example : Fair none (quiet liveDemo) ∧ (∀ k, ¬ DrainFail (upto none (quiet liveDemo) k)) ∧
    (4, Sig.stop) ∈ (upto none (quiet liveDemo) 17).mb.pushed :=
  ⟨fair_of_fairB (by decide), never_drainFail (by decide) (by decide), by decide⟩

/-- **C08** fails: a fair execution in which the mailbox accepts a stop request, a handler panics, `on_panic` says
`Continue`, and the actor runs on for ever. -/
theorem accepted_stop_never_ends :
    ∃ cap ops n t, Fair cap ops ∧ (t, Sig.stop) ∈ (upto cap ops n).mb.pushed ∧
      ∀ k, (upto cap ops k).phase.over = false := by
  let l : List Op := stopEarly ++ [.handlerEnd (.panic 1), .panicEnd .cont, .recv]
  refine ⟨none, quiet l, 2, 1, fair_of_fairB (by decide), by decide, fun k => ?_⟩
  have hall : ∀ k, k < l.length + 1 → (after none (l.take k)).phase.over = false := by decide
  by_cases hk : k ≤ l.length
  · rw [quiet_take none l hk]
    exact hall k (by omega)
  · rw [quiet_rest none l (by decide) (by omega)]
    exact hall l.length (by decide)

/-- **C09** (liveness). In a fair execution a killed actor ends, in whatever state it was killed. -/
theorem killed_actor_ends (cap : Option Nat) (ops : Nat → Op) (hf : Fair cap ops) (n : Nat)
    (hk : ops n = .kill) : ∃ k, n ≤ k ∧ (upto cap ops k).phase.ended = true := by
  have hab : ∀ k, n + 1 ≤ k → (upto cap ops k).aborted = true := by
    intro k hle
    exact aborted_mono hle (by rw [upto_succ, hk]; rfl)
  rcases over_or_stays hf (n + 1) with ⟨k, hk, h⟩ | ⟨k, hk, hs⟩
  · obtain ⟨j, hj, h1, _⟩ := stopping_comes_to_end cap ops hf k h
    exact ⟨j, by omega, h1⟩
  · exfalso
    obtain ⟨m, hm, h⟩ := hf.kill k (hab k hk) (hs k (Nat.le_refl _))
    have h1 := hs (m + 1) (by omega)
    have h2 := hs m hm
    have h3 := hab m (by omega)
    rw [upto_succ] at h1
    rcases h with ⟨hp, h⟩ | ⟨hp, h⟩ | h
    · rw [h] at h1; simp [St.step, h2, hp, h3] at h1
    · rw [h] at h1; simp [St.step, h2, hp, h3] at h1
    · rw [h] at h2; cases h2

/-- Killed while a handler is running and another message waits. -/
def killLiveDemo : List Op :=
  [.run, .startEnd .ok, .send (tell 10), .send (tell 11), .pollBegin, .recv, .recv, .kill, .pollEnd,
   .stopEnd .ok, .finish]

example : Fair none (quiet killLiveDemo) ∧ quiet killLiveDemo 7 = .kill ∧
    (∃ m tk rest ts, (upto none (quiet killLiveDemo) 7).phase = .handling m tk rest ts) ∧
    (upto none (quiet killLiveDemo) 11).phase = .stopped .killed :=
  ⟨fair_of_fairB (by decide), rfl, ⟨(1, tell 10), false, [], false, by decide⟩, by decide⟩

end Verif.Lifecycle
