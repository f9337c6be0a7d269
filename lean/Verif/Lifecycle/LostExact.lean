import Verif.Lifecycle.PropsLive
import Verif.Lifecycle.PropsExact
import Verif.Lifecycle.Turn

/-!
C60, exactly: which accepted messages of an actor that goes on running are never handled. They are those behind another
message in the start-up buffer whose handler fails while the buffer is emptied (`src/actor/kind.rs` L76-94),
and no others.
-/

namespace Verif.Lifecycle

/-- Specification: in the step from `s` to `s'` the handler of another message fails, while `m` waits behind that message
to be handled next, out of the start-up buffer. -/
def Falls (s s' : St) (m : Msg) : Prop :=
  ∃ x tk rest ts o e, s.phase = .handling x tk rest ts ∧ m ∈ rest ∧ failing x tk o = true ∧
    s'.phase = .panicking e ∧ s'.log = s.log ++ [.hEnd x tk o, .pBegin e]

/-- A message gets lost in the loop only behind a handler that fails. -/
theorem lost_tr {s s' : St} (ht : Tr s s') (hl : s'.phase.over = false) {m : Msg} (h0 : m ∉ s.lost) (h1 : m ∈ s'.lost) : Falls s s' m := by
  have hdr : ∀ (s0 : St) (rest : List Msg) (ts : Bool), s0.lost = s.lost →
      (s0.drain rest ts).phase.over = false → m ∈ (s0.drain rest ts).lost → False := by
    intro s0 rest ts h hl hm
    cases rest with
    | cons m ms => simp [St.drain, h] at hm; exact h0 hm
    | nil =>
      cases ts with
      | false => simp [St.drain, h] at hm; exact h0 hm
      | true => simp [St.drain, St.onShutdown, Phase.over] at hl
  cases ht with
  | recvNone => exact (hdr _ _ _ (by simp) hl h1).elim
  | recvStartup => exact (hdr _ _ _ (by simp) hl h1).elim
  | recvStop => exact (hdr _ _ _ (by simp) hl h1).elim
  | handlerReply => exact (hdr _ _ _ (by simp) hl h1).elim
  | handlerOk => exact (hdr _ _ _ (by simp) hl h1).elim
  | handlerErr x tk rest ts e hp _ ha =>
    refine ⟨x, tk, rest, ts, .ret (.err e), e, hp, ?_, ?_, rfl, by simp⟩
    · simpa [h0] using h1
    · rcases ha with ha | ha <;> simp [failing, ha]
  | handlerPanic x tk rest ts e hp _ =>
    refine ⟨x, tk, rest, ts, .panic e, e, hp, ?_, rfl, rfl, by simp⟩
    simpa [h0] using h1
  | startOk hp => rw [(startOk_fields s).2.2.2.2.2.2] at h1; exact absurd h1 h0
  | teardown => simp [St.crash, Phase.over] at hl
  | abort => simp [St.abortSeen, Phase.over] at hl
  | refl => exact absurd h1 h0
  | linkStop => simp [Phase.over] at hl
  | panicStop => simp [Phase.over] at hl
  | panicDie => simp [Phase.over] at hl
  | startPanicStop => simp [St.stopFailed, Phase.over] at hl
  | startPanicDie => simp [Phase.over] at hl
  | stopDie => simp [Phase.over] at hl
  | stopFinish => simp [Phase.over] at hl
  | finish => simp [Phase.over] at hl
  | startFail => simp [St.startFail, Phase.over] at hl
  | _ => simp [St.step, h0] at h1

/-- A handler that fails takes all that waits behind it. -/
theorem fell_lost {s s' : St} (ht : Tr s s') {x : Msg} {tk : Bool} {rest : List Msg} {ts : Bool} {e : Err}
    (hp : s.phase = .handling x tk rest ts) (hq : s'.phase = .panicking e) {m : Msg} (hm : m ∈ rest) : m ∈ s'.lost := by
  have hdr : ∀ (s0 : St) (r : List Msg) (t : Bool), (s0.drain r t).phase = .panicking e → False := by
    intro s0 r t h
    cases r with
    | cons y ys => simp [St.drain] at h
    | nil => cases t <;> simp [St.drain, St.onShutdown] at h
  cases ht with
  | handlerErr y tk' r' ts' e' h _ _ => rw [hp] at h; cases h; simp [hm]
  | handlerPanic y tk' r' ts' e' h _ => rw [hp] at h; cases h; simp [hm]
  | handlerReply => exact (hdr _ _ _ hq).elim
  | handlerOk => exact (hdr _ _ _ hq).elim
  | abort => simp [St.abortSeen] at hq
  | teardown => simp [St.crash] at hq
  | _ => simp_all [St.step]

theorem lost_mono (cap : Option Nat) (ops : Nat → Op) {n k : Nat} (h : n ≤ k) {m : Msg} (hm : m ∈ (upto cap ops n).lost) :
    m ∈ (upto cap ops k).lost := by
  induction h with
  | refl => exact hm
  | step _ ih => exact (tr_lost (upto_tr cap ops _)).subset ih

theorem handled_mono' (cap : Option Nat) (ops : Nat → Op) {n k : Nat} (h : n ≤ k) {m : Msg}
    (hm : m ∈ (upto cap ops n).handled) : m ∈ (upto cap ops k).handled := by
  induction h with
  | refl => exact hm
  | @step j _ ih =>
    rcases handled_change (upto_good cap ops j).shape (upto_tr cap ops j) with ⟨e, _⟩ | ⟨x, e, _⟩
    · rw [e]; exact ih
    · rw [e]; simp [ih]

/-- **C60**, exactly. In a fair execution an accepted message is given to its handler, or the actor ends, or it waits in
the start-up buffer behind another message whose handler fails. -/
theorem accepted_message_handled_or_behind (cap : Option Nat) (ops : Nat → Op) (hf : Fair cap ops) (n : Nat) (m : Msg)
    (hm : m ∈ msgsOf (upto cap ops n).mb.pushed) :
    (∃ k, n ≤ k ∧ (m ∈ (upto cap ops k).handled ∨ (upto cap ops k).phase.ended = true)) ∨
      ∃ j, Falls (upto cap ops j) (upto cap ops (j + 1)) m := by
  rcases over_or_stays hf n with ⟨k, hk, h⟩ | ⟨k, hk, hs⟩
  · obtain ⟨j, hj, h1, _⟩ := stopping_comes_to_end cap ops hf k h
    exact .inl ⟨j, by omega, Or.inr h1⟩
  · obtain ⟨j, hj, h1, h2, h3⟩ := catches_up hf hs
    have hg := upto_good cap ops j
    have hbuf : (upto cap ops j).buffer = [] := hg.shape.buf_nil (Or.inl h2)
    have h4 : m ∈ msgsOf (upto cap ops j).mb.received :=
      mem_msgsOf.mpr (h3 _ ((pushed_mono cap ops hk).subset (mem_msgsOf.mp hm)))
    have h5 := hg.acct.mem_iff.mp h4
    rw [hbuf, h1] at h5
    simp only [Phase.rest, List.append_nil, List.mem_append] at h5
    rcases h5 with h5 | h5
    · exact .inl ⟨j, by omega, Or.inl h5⟩
    · right
      have hno : ∀ i, i ≤ j → (upto cap ops i).phase.over = false := by
        intro i hi
        cases ho : (upto cap ops i).phase.over with
        | false => rfl
        | true => have := over_mono hi ho; rw [h1] at this; cases this
      have first : ∀ i, i ≤ j → m ∈ (upto cap ops i).lost → ∃ j, Falls (upto cap ops j) (upto cap ops (j + 1)) m := by
        intro i
        induction i with
        | zero => intro _ h; cases h
        | succ i ih =>
          intro hi h
          by_cases h0 : m ∈ (upto cap ops i).lost
          · exact ih (by omega) h0
          · exact ⟨i, lost_tr (upto_tr cap ops i) (hno _ hi) h0 h⟩
      exact first j (Nat.le_refl _) h5

/-- **C60** fails for every message that falls behind so, in whatever execution: it is never given to its handler, not if
`on_panic` says `Continue` and the actor runs for ever. -/
theorem behind_never_handled (cap : Option Nat) (ops : Nat → Op) (j : Nat) (m : Msg) 
    (h : Falls (upto cap ops j) (upto cap ops (j + 1)) m) (k : Nat) :
    m ∉ (upto cap ops k).handled := by
  obtain ⟨x, tk, rest, ts, o, e, hp, hm, _, hq, _⟩ := h
  have hl := fell_lost (upto_tr cap ops j) hp hq hm
  intro hh
  exact dropped_not_handled cap _ m (lost_mono cap ops (Nat.le_max_left (j + 1) k) hl)
    (handled_mono' cap ops (Nat.le_max_right (j + 1) k) hh)

/-- Both cases in one fair execution: message 0 panics while the start-up buffer is emptied, message 1 waits behind it,
message 3 is sent later and handled. -/
def behindDemo : List Op :=
  [.send (tell 10), .send (tell 11), .run, .startEnd .ok, .pollBegin, .recv, .recv, .recv, .handlerEnd (.panic 1),
   .panicEnd .cont, .send (tell 12), .recv, .handlerEnd (.ret (.ok 0))]

example : Fair none (quiet behindDemo) ∧ (1, tell 11) ∈ msgsOf (upto none (quiet behindDemo) 11).mb.pushed ∧
    Falls (upto none (quiet behindDemo) 8) (upto none (quiet behindDemo) 9) (1, tell 11) ∧ (upto none (quiet behindDemo) 13).phase = .idle ∧
    (3, tell 12) ∈ (upto none (quiet behindDemo) 13).handled :=
  ⟨fair_of_fairB (by decide), by decide, ⟨(0, tell 10), false, [(1, tell 11)], false, .panic 1, 1, by decide⟩, by decide,
    by decide⟩

/-- **C13**, exactly. As long as the actor has not left its loop, every accepted message has been given to its handler, or
waits, or has fallen behind a message of the start-up buffer whose handler failed; and those that have fallen behind are
never handled, whatever comes. -/
theorem only_those_behind_are_lost (cap : Option Nat) (ops : List Op) (hl : (after cap ops).phase.inLoop = true) :
    (∀ m ∈ msgsOf (after cap ops).mb.pushed, m ∈ (after cap ops).handled ∨ m ∈ msgsOf (after cap ops).mb.queue ∨
      m ∈ (after cap ops).buffer ∨ m ∈ (after cap ops).phase.rest ∨
      ∃ pre op post, ops = pre ++ op :: post ∧ Falls (after cap pre) (after cap (pre ++ [op])) m) ∧
    ∀ m pre op post, ops = pre ++ op :: post → Falls (after cap pre) (after cap (pre ++ [op])) m →
      ∀ more, m ∉ (after cap (ops ++ more)).handled := by
  have fell : ∀ ops : List Op, (after cap ops).phase.over = false → ∀ m ∈ (after cap ops).lost,
      ∃ pre op post, ops = pre ++ op :: post ∧ Falls (after cap pre) (after cap (pre ++ [op])) m := by
    suffices h : ∀ r ops : List Op, ops = r.reverse → (after cap ops).phase.over = false → ∀ m ∈ (after cap ops).lost,
        ∃ pre op post, ops = pre ++ op :: post ∧ Falls (after cap pre) (after cap (pre ++ [op])) m from
      fun ops => h ops.reverse ops (by simp)
    intro r
    induction r with
    | nil => rintro ops rfl _ m hm; cases hm
    | cons op r ih =>
      rintro ops rfl ho m hm
      rw [List.reverse_cons] at ho hm ⊢
      by_cases h0 : m ∈ (after cap r.reverse).lost
      · have : (after cap r.reverse).phase.over = false := by
          cases h : (after cap r.reverse).phase.over with
          | false => rfl
          | true => rw [after_snoc, (over_step op h).1] at ho; cases ho
        obtain ⟨pre, op', post, e, hf⟩ := ih _ rfl this m h0
        exact ⟨pre, op', post ++ [op], by rw [e]; simp, hf⟩
      · refine ⟨r.reverse, op, [], rfl, lost_tr ?_ ho h0 hm⟩
        rw [after_snoc]; exact step_tr _ _
  refine ⟨?_, ?_⟩
  · have hg := good_after cap ops
    have hno : (after cap ops).phase.over = false := by
      revert hl; cases (after cap ops).phase <;> simp [Phase.inLoop, Phase.over]
    have hfell := fell ops hno
    have hml : (after cap ops).mb.lost = [] := by
      apply hg.shape.mb.openLost
      have : (after cap ops).phase.ended = false := by revert hl; cases (after cap ops).phase <;> simp
      rw [hg.shape.closed, this]
    intro m hm
    rw [hg.shape.mb.hist, hml] at hm
    simp only [msgsOf_append, List.append_nil, List.mem_append] at hm
    rcases hm with hm | hm
    · have := hg.acct.mem_iff.mp hm
      simp only [List.mem_append] at this
      rcases this with ((h | h) | h) | h
      · exact .inl h
      · exact .inr (.inr (.inr (.inl h)))
      · exact .inr (.inr (.inl h))
      · exact .inr (.inr (.inr (.inr (hfell m h))))
    · exact .inr (.inl hm)
  · rintro m pre op post rfl ⟨x, tk, rest, ts, o, e, hp, hm, _, hq, _⟩ more
    apply dropped_not_handled
    have h1 : m ∈ (after cap (pre ++ [op])).lost := by
      rw [after_snoc] at hq ⊢
      exact fell_lost (step_tr _ _) hp hq hm
    have : pre ++ op :: post ++ more = (pre ++ [op]) ++ (post ++ more) := by simp
    rw [this, after_append]
    exact exec_inv (P := fun s => m ∈ s.lost) (fun s s' h ht => (tr_lost ht).subset h) h1 _

example : (after none (behindDemo.take 10)).phase.inLoop = true ∧
    (1, tell 11) ∈ msgsOf (after none (behindDemo.take 10)).mb.pushed ∧
    behindDemo.take 10 = behindDemo.take 8 ++ .handlerEnd (.panic 1) :: [.panicEnd .cont] ∧
    Falls (after none (behindDemo.take 8)) (after none (behindDemo.take 8 ++ [.handlerEnd (.panic 1)])) (1, tell 11) :=
  ⟨by decide, by decide, rfl, (0, tell 10), false, [(1, tell 11)], false, .panic 1, 1, by decide⟩

end Verif.Lifecycle
