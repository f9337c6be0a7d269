import Verif.Lifecycle.LostExact
import Verif.Lifecycle.PropsStop

/-!
C06 and C08, exactly: what a graceful stop leaves unhandled, and when an accepted stop request does not end the actor.
-/

set_option linter.unusedSimpArgs false

namespace Verif.Lifecycle

open Verif.Mailbox

theorem drain_lost (s0 : St) (rest : List Msg) (ts : Bool) (h : ts = true → s0.buffer = []) : (s0.drain rest ts).lost = s0.lost := by
  cases rest with
  | cons m ms => simp [St.drain]
  | nil => cases ts <;> simp_all [St.drain, St.onShutdown, St.leave, St.lose]

theorem cancelEv_no_begin (p : Phase) (r : Reason) : Ev.sBegin r ∉ p.cancelEv := by cases p <;> simp [Phase.cancelEv]

/-- In a step that begins `on_stop` with `Normal`, not by decision of a hook, nothing gets lost. -/
theorem lost_normal {s s' : St} (hg : Good s) (ht : Tr s s') (hn : .sBegin .normal ∈ s'.log)
    (hb : ¬ BrkNormal s'.log) (hN : .sBegin .normal ∉ s.log) : s'.lost = s.lost := by
  have hbuf : ∀ m tk rest ts, s.phase = .handling m tk rest ts → ts = true → s.buffer = [] := by
    intro m tk rest ts hp h
    exact hg.shape.buf_nil (Or.inl (hg.shape.ts (by simp [hp, h])))
  cases ht with
  | recvNone => rw [drain_lost] <;> simp [St.finishStartup]
  | recvStartup => rw [drain_lost] <;> simp [St.finishStartup]
  | recvStop => rw [drain_lost] <;> simp [St.finishStartup]
  | handlerReply m rest ts res hp => rw [drain_lost] <;> simp; exact hbuf _ _ _ _ hp
  | handlerOk m tk rest ts v hp => rw [drain_lost] <;> simp; exact hbuf _ _ _ _ hp
  | handlerErr x tk rest ts e hp _ ha => simp [hN] at hn
  | handlerPanic x tk rest ts e hp _ => simp [hN] at hn
  | startOk hp => exact (startOk_fields s).2.2.2.2.2.2
  | teardown => simp [St.crash, hN, cancelEv_no_begin] at hn
  | abort => simp [St.abortSeen, hN, cancelEv_no_begin] at hn
  | linkStop i r r' =>
    simp [hN] at hn; subst hn; exact absurd (.inl ⟨i, r, by simp⟩) hb
  | panicStop e o r _ _ ho =>
    simp [hN] at hn; subst hn
    have ho : o = .brk .normal := by simpa using ho
    exact absurd (.inr ⟨e, by simp [ho]⟩) hb
  | panicDie => simp [hN, St.die] at hn
  | startPanicStop e o r _ ho =>
    simp [hN, St.stopFailed] at hn; subst hn
    have ho : o = .brk .normal := by simpa using ho
    exact absurd (.inr ⟨e, by simp [ho, St.stopFailed]⟩) hb
  | startPanicDie => simp [hN, St.die] at hn
  | stopDie => simp [hN, St.die] at hn
  | stopFinish => simp
  | finish => simp
  | startFail => simp [St.startFail]
  | _ => simp [St.step]

/-- Past its loop the actor loses nothing more. -/
theorem lost_out {s s' : St} (hg : Good s) (ho : s.phase.out) (ht : Tr s s') : s'.lost = s.lost := by
  have hb : s.buffer = [] := by
    by_cases h : s.buffer = []
    · exact h
    · have := (hg.shape.buf h).2; rw [ho.1] at this; cases this
  obtain ⟨h1, h2⟩ := ho
  have hno : ∀ p, s.phase = p → p.inLoop = true ∨ p.unborn = true → False := by
    rintro p rfl (h | h) <;> simp_all
  cases ht with
  | startOk h => exact (hno _ h (by simp)).elim
  | startFail _ _ h => exact (hno _ h (by simp)).elim
  | abort h => rw [h1] at h; cases h
  | recvNone h => exact (hno _ h (by simp)).elim
  | recvStartup h => exact (hno _ h (by simp)).elim
  | recvStop h => exact (hno _ h (by simp)).elim
  | handlerReply _ _ _ _ hp => exact (hno _ hp (by simp)).elim
  | handlerOk _ _ _ _ _ hp => exact (hno _ hp (by simp)).elim
  | handlerErr _ _ _ _ _ hp => exact (hno _ hp (by simp)).elim
  | handlerPanic _ _ _ _ _ hp => exact (hno _ hp (by simp)).elim
  | linkStop _ _ _ hp => exact (hno _ hp (by simp)).elim
  | panicStop _ _ _ hp => exact (hno _ hp (by simp)).elim
  | panicDie _ _ hp => exact (hno _ hp (by simp)).elim
  | teardown => 
    cases hp : s.phase <;> simp_all [St.crash, St.cancelRunning]
  | startPanicStop => simp [St.stopFailed, hb]
  | startPanicDie => simp [hb]
  | stopDie => simp [hb]
  | _ => simp [St.step]

theorem brkNormal_mono_tr {s s' : St} (ht : Tr s s') (h : BrkNormal s.log) : BrkNormal s'.log := by
  obtain ⟨x, hx⟩ := tr_log ht
  rw [hx]; exact h.mono

/-- An actor that has left its loop does not begin `on_stop` with `Normal`, unless `on_panic` says so after a failed
start. -/
theorem no_begin_over {s s' : St} (ht : Tr s s') (ho : s.phase.over = true) (hb : ¬ BrkNormal s'.log)
    (hN : .sBegin .normal ∉ s.log) : .sBegin .normal ∉ s'.log := by
  cases ht with
  | startPanicStop e o r _ ho =>
    intro hn
    simp [hN, St.stopFailed] at hn; subst hn
    have ho : o = .brk .normal := by simpa using ho
    exact hb (.inr ⟨e, by simp [ho, St.stopFailed]⟩)
  | recvNone h => rw [h] at ho; cases ho
  | recvStartup h => rw [h] at ho; cases ho
  | recvStop h => rw [h] at ho; cases ho
  | handlerReply _ _ _ _ hp => rw [hp] at ho; cases ho
  | handlerOk _ _ _ _ _ hp => rw [hp] at ho; cases ho
  | linkStop _ _ _ hp => rw [hp] at ho; cases ho
  | panicStop _ _ _ hp => rw [hp] at ho; cases ho
  | startOk h => rw [h] at ho; cases ho
  | teardown => simp [St.crash, hN, cancelEv_no_begin]
  | abort h => revert h ho; cases s.phase <;> simp [Phase.over]
  | _ => simp [St.step, St.startFail, hN]

/-- **C06**, exactly. If the actor stops with `Normal` and this was not chosen by a hook, then it stopped at a stop request,
and every message accepted ahead of that request has been given to its handler, except for those that waited in the
start-up buffer behind a message whose handler failed; and those are never handled, so that the claim fails for each of
them. -/
theorem graceful_stop_leaves_only_those_behind (cap : Option Nat) (ops : List Op)
    (hn : .sBegin .normal ∈ (after cap ops).log) (hb : ¬ BrkNormal (after cap ops).log) :
    ∃ ahead t behind, (after cap ops).mb.pushed = ahead ++ (t, .stop) :: behind ∧
      (after cap ops).mb.received = ahead ++ [(t, .stop)] ∧
      (∀ m ∈ msgsOf ahead, m ∈ (after cap ops).handled ∨
        ∃ pre op post, ops = pre ++ op :: post ∧ Falls (after cap pre) (after cap (pre ++ [op])) m) ∧
      ∀ m pre op post, ops = pre ++ op :: post → Falls (after cap pre) (after cap (pre ++ [op])) m →
        m ∈ msgsOf ahead ∧ ∀ more, m ∉ (after cap (ops ++ more)).handled := by
  have fell : ∀ r ops : List Op, ops = r.reverse →
      ((after cap ops).phase.over = false ∨ .sBegin .normal ∈ (after cap ops).log) → ¬ BrkNormal (after cap ops).log →
      ∀ m ∈ (after cap ops).lost,
        ∃ pre op post, ops = pre ++ op :: post ∧ Falls (after cap pre) (after cap (pre ++ [op])) m := by
    intro r
    induction r with
    | nil => rintro ops rfl _ _ m hm; cases hm
    | cons op r ih =>
      rintro ops rfl ho hb m hm
      rw [List.reverse_cons] at ho hm hb ⊢
      have ht : Tr (after cap r.reverse) (after cap (r.reverse ++ [op])) := by rw [after_snoc]; exact step_tr _ _
      have hb0 : ¬ BrkNormal (after cap r.reverse).log := fun h => hb (brkNormal_mono_tr ht h)
      have hg := good_after cap r.reverse
      have use : m ∈ (after cap r.reverse).lost →
          ((after cap r.reverse).phase.over = false ∨ .sBegin .normal ∈ (after cap r.reverse).log) →
          ∃ pre op' post, r.reverse ++ [op] = pre ++ op' :: post ∧ Falls (after cap pre) (after cap (pre ++ [op'])) m := by
        intro h0 h1
        obtain ⟨pre, op', post, e, hf⟩ := ih _ rfl h1 hb0 m h0
        exact ⟨pre, op', post ++ [op], by rw [e]; simp, hf⟩
      by_cases hN : .sBegin .normal ∈ (after cap r.reverse).log
      · rw [lost_out hg (out_of_sBegin cap _ hN) ht] at hm
        exact use hm (.inr hN)
      · rcases ho with ho | ho
        · by_cases h0 : m ∈ (after cap r.reverse).lost
          · refine use h0 (.inl ?_)
            cases h : (after cap r.reverse).phase.over with
            | false => rfl
            | true => rw [after_snoc, (over_step op h).1] at ho; cases ho
          · exact ⟨r.reverse, op, [], rfl, lost_tr ht ho h0 hm⟩
        · rw [lost_normal hg ht ho hb hN] at hm
          refine use hm (.inl ?_)
          cases h : (after cap r.reverse).phase.over with
          | false => rfl
          | true => exact absurd ho (no_begin_over ht h hb hN)
  have hg := good_after cap ops
  have hl := loss_after cap ops
  have hout := out_of_sBegin cap ops hn
  obtain ⟨ahead, t, hrec⟩ := (hl.last (Or.inr hn)).resolve_right hb
  have hbuf : (after cap ops).buffer = [] := by
    by_cases h : (after cap ops).buffer = []
    · exact h
    · have := (hg.shape.buf h).2; simp [hout.1] at this
  have hrest : (after cap ops).phase.rest = [] := by
    have := hout.1
    revert this
    cases (after cap ops).phase <;> simp
  obtain ⟨behind, hbh⟩ := received_sublist_pushed hg.shape
  refine ⟨ahead, t, behind, by rw [← hbh, hrec]; simp, hrec, fun m hm => ?_, ?_⟩
  · have := hg.acct
    unfold Acct at this
    rw [hbuf, hrest] at this
    simp only [List.append_nil] at this
    have hm : m ∈ msgsOf (after cap ops).mb.received := by rw [hrec]; simp [hm]
    rcases List.mem_append.mp (this.mem_iff.mp hm) with h | h
    · exact .inl h
    · exact .inr (fell ops.reverse ops (by simp) (.inr hn) hb m h)
  · rintro m pre op post rfl ⟨x, tk, rest, ts, o, e, hp, hm, _, hq, _⟩
    constructor
    · have h1 : m ∈ msgsOf (after cap pre).mb.received := by
        apply (good_after cap pre).acct.mem_iff.mpr
        simp [hp, hm]
      have h2 : (after cap pre).mb.received <+: (after cap (pre ++ op :: post)).mb.received := by
        rw [after_append]
        exact exec_inv (P := fun s => (after cap pre).mb.received <+: s.mb.received) (fun s s' h ht => h.trans (tr_received ht))
          (List.prefix_refl _) _
      have h3 : (m.1, Sig.msg m.2) ∈ (after cap (pre ++ op :: post)).mb.received := h2.subset (mem_msgsOf.mp h1)
      rw [hrec] at h3
      simp at h3
      exact mem_msgsOf.mpr h3
    · intro more
      apply dropped_not_handled
      have h1 : m ∈ (after cap (pre ++ [op])).lost := by
        rw [after_snoc] at hq ⊢
        exact fell_lost (step_tr _ _) hp hq hm
      have : pre ++ op :: post ++ more = (pre ++ [op]) ++ (post ++ more) := by simp
      rw [this, after_append]
      exact exec_inv (P := fun s => m ∈ s.lost) (fun s s' h ht => (tr_lost ht).subset h) h1 _

/-- As `behindDemo`, and then a stop request: message 1 was ahead of it and has fallen behind. -/
def behindStop : List Op := behindDemo ++ [.sendStop, .recv]

example : .sBegin .normal ∈ (after none behindStop).log ∧ ¬ BrkNormal (after none behindStop).log ∧
    (after none behindStop).handled = [(0, tell 10), (3, tell 12)] ∧
    behindStop = behindDemo.take 8 ++ .handlerEnd (.panic 1) :: (behindDemo.drop 9 ++ [.sendStop, .recv]) ∧
    Falls (after none (behindDemo.take 8)) (after none (behindDemo.take 8 ++ [.handlerEnd (.panic 1)])) (1, tell 11) := by
  refine ⟨by decide, ?_, by decide, rfl, (0, tell 10), false, [(1, tell 11)], false, .panic 1, 1, by decide⟩
  have : (after none behindStop).log = [.startBegin, .startEnd .ok, .hBegin (0, tell 10),
    .hEnd (0, tell 10) false (.panic 1), .pBegin 1, .pEnd 1 .cont, .hBegin (3, tell 12),
    .hEnd (3, tell 12) false (.ret (.ok 0)), .stopTaken, .sBegin .normal] := by decide
  rw [this]; simp [BrkNormal]

/-! ### C08 -/

/-- Specification: in this execution a handler fails while the start-up buffer is emptied because of a stop request, at `i`,
and `on_panic`, which is then called, says `Continue`, at `j`. -/
def Forgets (cap : Option Nat) (ops : Nat → Op) (i j : Nat) : Prop :=
  i < j ∧ ∃ x tk rest o e, (upto cap ops i).phase = .handling x tk rest true ∧ failing x tk o = true ∧
    (upto cap ops (i + 1)).log = (upto cap ops i).log ++ [.hEnd x tk o, .pBegin e] ∧
    (∀ k, i < k → k ≤ j → (upto cap ops k).phase = .panicking e) ∧
    (upto cap ops (j + 1)).log = (upto cap ops j).log ++ [.pEnd e .cont] ∧ (upto cap ops (j + 1)).phase = .idle

theorem stop_draining {s s' : St} (ht : Tr s s') (ho : s'.phase.over = false) {x : Msg} {tk : Bool} {rest : List Msg}
    (hp : s.phase = .handling x tk rest true) :
    (∃ x' tk' rest', s'.phase = .handling x' tk' rest' true) ∨
    ∃ o e, failing x tk o = true ∧ s'.log = s.log ++ [.hEnd x tk o, .pBegin e] ∧ s'.phase = .panicking e := by
  have hdr : ∀ (s0 : St) (r : List Msg), (s0.drain r true).phase.over = false →
      ∃ x' tk' rest', (s0.drain r true).phase = .handling x' tk' rest' true := by
    intro s0 r h
    cases r with
    | cons m ms => exact ⟨m, false, ms, rfl⟩
    | nil => simp [St.drain, St.onShutdown, Phase.over] at h
  cases ht with
  | handlerReply y r t res h => rw [hp] at h; cases h; exact .inl (hdr _ _ ho)
  | handlerOk y k r t v h => rw [hp] at h; cases h; exact .inl (hdr _ _ ho)
  | handlerErr y k r t e h _ ha =>
    rw [hp] at h; cases h
    refine .inr ⟨.ret (.err e), e, ?_, by simp, rfl⟩
    rcases ha with ha | ha <;> simp [failing, ha]
  | handlerPanic y k r t e h => rw [hp] at h; cases h; exact .inr ⟨.panic e, e, rfl, by simp, rfl⟩
  | takeReply m r t h => rw [hp] at h; cases h; exact .inl ⟨_, _, _, rfl⟩
  | abort => simp [St.abortSeen, Phase.over] at ho
  | teardown => simp [St.crash, Phase.over] at ho
  | _ => simp_all [St.step]

theorem panicking_stays {s s' : St} (ht : Tr s s') (ho : s'.phase.over = false) {e : Err} (hp : s.phase = .panicking e) :
    s'.phase = .panicking e ∨ (s'.log = s.log ++ [.pEnd e .cont] ∧ s'.phase = .idle) := by
  cases ht with
  | panicCont e' h => rw [hp] at h; cases h; exact .inr ⟨rfl, rfl⟩
  | abort => simp [St.abortSeen, Phase.over] at ho
  | teardown => simp [St.crash, Phase.over] at ho
  | panicStop => simp [Phase.over] at ho
  | panicDie => simp [Phase.over] at ho
  | _ => simp_all [St.step]

theorem stop_taken {s s' : St} (ht : Tr s s') (ho : s'.phase.over = false) {t : Nat} (h0 : (t, Sig.stop) ∉ s.mb.received)
    (h1 : (t, Sig.stop) ∈ s'.mb.received) : s'.mb.received = s.mb.received ++ [(t, .stop)] ∧
    ∃ x rest, s'.phase = .handling x false rest true := by
  have hrec : ∀ (p : Nat × Sig) q, s.mb.queue = p :: q → (t, Sig.stop) ∈ s.mb.recv.received → p = (t, Sig.stop) := by
    intro p q hq h
    rw [recv_received _ hq] at h
    simp [h0] at h
    exact h.symm
  cases ht with
  | recvStop h hp t' q hq =>
    have h2 := hrec _ _ hq (by simpa using h1)
    cases h2
    refine ⟨by simp [recv_received _ hq], ?_⟩
    cases hb : s.buffer with
    | cons m ms => exact ⟨m, ms, by simp [St.drain]⟩
    | nil => simp [hb, St.drain, St.onShutdown, Phase.over] at ho
  | recvStartup h hp t' q hq => have := hrec _ _ hq (by simpa using h1); cases this
  | recvBuffer h hp t' b q hq => have := hrec _ _ hq (by simpa using h1); cases this
  | recvMsg h hp t' b q hq => have := hrec _ _ hq (by simpa using h1); cases this
  | recvLink h hp t' id r q hq => have := hrec _ _ hq (by simpa using h1); cases this
  | startOk hp => rw [(startOk_fields2 s).2.2.2.2] at h1; exact absurd (by simpa using h1) h0
  | _ => simp [St.step, St.crash, St.abortSeen, St.stopFailed, St.startFail, h0] at h1

theorem received_handling {s s' : St} (ht : Tr s s') {x : Msg} {tk : Bool} {rest : List Msg} {ts : Bool}
    (hp : s.phase = .handling x tk rest ts) : s'.mb.received = s.mb.received := by
  cases ht with
  | recvStop h => rw [hp] at h; cases h
  | recvStartup h => rw [hp] at h; cases h
  | recvBuffer h => rw [hp] at h; cases h
  | recvMsg h => rw [hp] at h; cases h
  | recvLink h => rw [hp] at h; cases h
  | startOk h => rw [hp] at h; cases h
  | _ => simp [St.step, St.crash, St.abortSeen, St.stopFailed, St.startFail]

/-- **C08** (liveness), exactly. In a fair execution an accepted stop request ends the actor, unless it is forgotten: the actor
takes the request from its mailbox, a handler fails while the start-up buffer is emptied because of it, and `on_panic` says
`Continue`. -/
theorem accepted_stop_ends_or_forgotten (cap : Option Nat) (ops : Nat → Op) (hf : Fair cap ops) (n t : Nat)
    (hm : (t, Sig.stop) ∈ (upto cap ops n).mb.pushed) :
    (∃ k, n ≤ k ∧ (upto cap ops k).phase.ended = true) ∨
    ∃ i j, Forgets cap ops i j ∧ ∃ earlier, (upto cap ops i).mb.received = earlier ++ [(t, .stop)] := by
  rcases over_or_stays hf n with ⟨k, hk, h⟩ | ⟨k, hk, hs⟩
  · obtain ⟨j, hj, h1, _⟩ := stopping_comes_to_end cap ops hf k h
    exact .inl ⟨j, by omega, h1⟩
  · right
    obtain ⟨j, hj, h1, _, h3⟩ := catches_up hf hs
    have hno : ∀ i, i ≤ j → (upto cap ops i).phase.over = false := by
      intro i hi
      cases ho : (upto cap ops i).phase.over with
      | false => rfl
      | true => have := over_mono hi ho; rw [h1] at this; cases this
    have hrec := h3 _ ((pushed_mono cap ops hk).subset hm)
    have fate : ∀ k, k ≤ j → (t, Sig.stop) ∈ (upto cap ops k).mb.received →
        (∃ i j, Forgets cap ops i j ∧ ∃ earlier, (upto cap ops i).mb.received = earlier ++ [(t, .stop)]) ∨
        ((∃ x tk rest, (upto cap ops k).phase = .handling x tk rest true) ∧
          ∃ earlier, (upto cap ops k).mb.received = earlier ++ [(t, .stop)]) ∨
        ∃ i x tk rest o e, i < k ∧ (upto cap ops i).phase = .handling x tk rest true ∧ failing x tk o = true ∧
          (upto cap ops (i + 1)).log = (upto cap ops i).log ++ [.hEnd x tk o, .pBegin e] ∧
          (∀ l, i < l → l ≤ k → (upto cap ops l).phase = .panicking e) ∧
          ∃ earlier, (upto cap ops i).mb.received = earlier ++ [(t, .stop)] := by
      intro k
      induction k with
      | zero => intro _ h; cases h
      | succ k ih =>
        intro hk h
        have ht := upto_tr cap ops k
        have ho := hno _ hk
        by_cases h0 : (t, Sig.stop) ∈ (upto cap ops k).mb.received
        · rcases ih (by omega) h0 with g | ⟨⟨x, tk, rest, g⟩, earlier, ge⟩ | ⟨i, x, tk, rest, o, e, g1, g2, g3, g4, g5, g6⟩
          · exact .inl g
          · rcases stop_draining ht ho g with g' | ⟨o, e, f1, f2, f3⟩
            · exact .inr (.inl ⟨g', earlier, by rw [received_handling ht g, ge]⟩)
            · refine .inr (.inr ⟨k, x, tk, rest, o, e, by omega, g, f1, f2, ?_, earlier, ge⟩)
              intro l hl1 hl2
              have : l = k + 1 := by omega
              rw [this]; exact f3
          · rcases panicking_stays ht ho (g5 k g1 (Nat.le_refl _)) with f | ⟨f1, f2⟩
            · refine .inr (.inr ⟨i, x, tk, rest, o, e, by omega, g2, g3, g4, ?_, g6⟩)
              intro l hl1 hl2
              by_cases hl : l ≤ k
              · exact g5 l hl1 hl
              · have : l = k + 1 := by omega
                rw [this]; exact f
            · exact .inl ⟨i, k, ⟨g1, x, tk, rest, o, e, g2, g3, g4, g5, f1, f2⟩, g6⟩
        · obtain ⟨f1, x, rest, f2⟩ := stop_taken ht ho h0 h
          exact .inr (.inl ⟨⟨x, false, rest, f2⟩, _, f1⟩)
    rcases fate j (Nat.le_refl _) hrec with g | ⟨⟨x, tk, rest, g⟩, _⟩ | ⟨i, x, tk, rest, o, e, g1, _, _, _, g5, _⟩
    · exact g
    · rw [h1] at g; cases g
    · have := g5 j g1 (Nat.le_refl _); rw [h1] at this; cases this

/-- The request is forgotten: the execution of `accepted_stop_never_ends`. -/
def forgetDemo : List Op := stopEarly ++ [.handlerEnd (.panic 1), .panicEnd .cont, .recv]

example : Fair none (quiet forgetDemo) ∧ (1, Sig.stop) ∈ (upto none (quiet forgetDemo) 2).mb.pushed ∧
    (∃ i j, Forgets none (quiet forgetDemo) i j ∧
      ∃ earlier, (upto none (quiet forgetDemo) i).mb.received = earlier ++ [(1, .stop)]) ∧
    Fair none (quiet liveDemo) ∧ (4, Sig.stop) ∈ (upto none (quiet liveDemo) 17).mb.pushed := by
  refine ⟨fair_of_fairB (by decide), by decide, ⟨7, 8, ⟨by decide, ?_⟩, ?_⟩, fair_of_fairB (by decide), by decide⟩
  · refine ⟨(0, tell 10), false, [], .panic 1, 1, by decide, rfl, by decide, ?_, by decide, by decide⟩
    intro k h1 h2
    have : k = 8 := by omega
    subst this; decide
  · exact ⟨[(0, .msg (tell 10))], by decide⟩

end Verif.Lifecycle
