import Verif.Lifecycle.Loss

/-!
Property theorems about order: C01 (handling order), C02 (one at a time), C03 (no duplicate,
no invention), C04 (`on_start` first), C05 (self-sent messages during start-up first).

`after cap ops` is the actor after an arbitrary history `ops` of environment steps and steps
of its task, see `Verif/Lifecycle/Model.lean`.
-/

set_option linter.unusedSimpArgs false

namespace Verif.Lifecycle

open Verif.Mailbox

/-- A tell from outside with payload `v` (for examples). -/
abbrev tell (v : Nat) : Body := ⟨v, false, false⟩
/-- An ask from outside with payload `v` (for examples). -/
abbrev ask (v : Nat) : Body := ⟨v, true, false⟩
/-- A tell by the actor to itself (for examples). -/
abbrev self (v : Nat) : Body := ⟨v, false, true⟩

/-- A history used in examples: an outside message and a self-sent message arrive before
start-up is over, then one more outside message. -/
def demo : List Op :=
  [.send (tell 10), .run, .send (self 11), .startEnd .ok, .pollBegin, .recv, .recv,
   .handlerEnd (.ret (.ok 0)), .send (tell 12), .recv, .handlerEnd (.ret (.ok 0)), .recv,
   .handlerEnd (.ret (.ok 0))]

/-! ### Accepted signals stay accepted -/

theorem run_pushed (m : Mb Sig) (ops : List (Mailbox.Op Sig)) : m.pushed <+: (m.run ops).pushed := by
  induction ops generalizing m with
  | nil => exact List.prefix_refl _
  | cons op ops ih => exact (Mailbox.step_pushed m op).trans (ih (m.step op))

theorem exec_pushed (s : St) (ops : List Op) : s.mb.pushed <+: (s.exec ops).mb.pushed := by
  induction ops generalizing s with
  | nil => exact List.prefix_refl _
  | cons op ops ih =>
    refine List.IsPrefix.trans ?_ (ih (s.step op))
    obtain ⟨mops, hm⟩ := step_mb s op
    rw [hm]; exact run_pushed _ _

/-! ### C01 -/

theorem received_sublist_pushed {s : St} (hs : Shape s) :
    s.mb.received <+: s.mb.pushed := by
  rw [hs.mb.hist]; exact ⟨s.mb.lost ++ s.mb.queue, by simp⟩

/-- **C01** Among the messages from outside (`w = false`), and among the messages the actor
sent to itself (`w = true`), handlers start in the order in which the mailbox accepted the
messages. -/
theorem handled_in_acceptance_order (cap : Option Nat) (ops : List Op) (w : Bool) :
    ((after cap ops).handled.filter (fun m => m.2.within == w)).Sublist
      ((msgsOf (after cap ops).mb.pushed).filter (fun m => m.2.within == w)) := by
  have hg := good_after cap ops
  generalize after cap ops = s at hg
  have hpre : (msgsOf s.mb.received).Sublist (msgsOf s.mb.pushed) := by
    rw [hg.shape.mb.hist]; simp
  refine List.Sublist.trans ?_ (hpre.filter _)
  cases hc : s.cut with
  | none =>
    rw [(hg.ord.none hc).1]
    exact List.filter_sublist.filter _
  | some k =>
    obtain ⟨_, h2, _⟩ := hg.ord.some k hc
    have h3 := ((List.sublist_append_left s.handled s.phase.rest).trans h2).filter
      (fun m => m.2.within == w)
    refine h3.trans ?_
    have hs : msgsOf s.mb.received =
        msgsOf (s.mb.received.take k) ++ msgsOf (s.mb.received.drop k) := by
      rw [← msgsOf_append, List.take_append_drop]
    rw [hs]
    unfold startupOrder
    generalize msgsOf (s.mb.received.take k) = a
    generalize msgsOf (s.mb.received.drop k) = b
    rw [List.filter_append, List.filter_append, List.filter_append]
    refine List.Sublist.append ?_ (List.Sublist.refl _)
    cases w with
    | true =>
      have : (a.filter (fun m => !m.2.within)).filter (fun m => m.2.within == true) = [] := by
        simp [List.filter_eq_nil_iff]
      rw [this, List.append_nil]
      exact List.filter_sublist.filter _
    | false =>
      have : (a.filter (·.2.within)).filter (fun m => m.2.within == false) = [] := by
        simp [List.filter_eq_nil_iff]
      rw [this, List.nil_append]
      exact List.filter_sublist.filter _

example : (after (some 4) demo).handled.map (·.2.val) = [11, 10, 12] := by decide

/-- What one step does to the list of started handlers. -/
theorem handled_change {s s' : St} (hs : Shape s) (ht : Tr s s') :
    (s'.handled = s.handled ∧ (s.finished = true → s.phase.rest = [] → s'.phase.rest = [])) ∨
    (∃ m, s'.handled = s.handled ++ [m] ∧ s.phase.inLoop = true ∧
      (s.finished = true → s.phase.rest = [] → s'.phase.rest = [] ∧
        s'.mb.received = s.mb.received ++ [(m.1, .msg m.2)])) := by
  have hbuf : s.finished = true → s.buffer = [] := by
    intro hf
    by_cases h : s.buffer = []
    · exact h
    · have := (hs.buf h).1; simp [hf] at this
  have hdr : ∀ (s0 : St) (rest : List Msg) (ts : Bool), s0.handled = s.handled →
      s.phase.inLoop = true → (s.finished = true → s.phase.rest = [] → rest = []) →
      ((s0.drain rest ts).handled = s.handled ∧
        (s.finished = true → s.phase.rest = [] → (s0.drain rest ts).phase.rest = [])) ∨
      (∃ m, (s0.drain rest ts).handled = s.handled ++ [m] ∧ s.phase.inLoop = true ∧
        (s.finished = true → s.phase.rest = [] → (s0.drain rest ts).phase.rest = [] ∧
        (s0.drain rest ts).mb.received = s.mb.received ++ [(m.1, .msg m.2)])) := by
    intro s0 rest ts h1 h2 h3
    cases rest with
    | nil => left; cases ts <;> simp [St.drain, h1]
    | cons m ms =>
      right
      exact ⟨m, by simp [St.drain, h1], h2, fun hf hr => by simp at h3; exact absurd hr (h3 hf)⟩
  cases ht with
  | recvNone hp _ _ _ => exact hdr _ _ _ (by simp) (by simp [hp]) (fun hf _ => hbuf hf)
  | recvStartup hp _ t q hq => exact hdr _ _ _ (by simp) (by simp [hp]) (fun hf _ => hbuf hf)
  | recvStop hp _ t q hq => exact hdr _ _ _ (by simp) (by simp [hp]) (fun hf _ => hbuf hf)
  | handlerReply m rest ts res hp _ _ =>
    exact hdr _ _ _ (by simp) (by simp [hp]) (fun _ hr => by simpa [hp] using hr)
  | handlerOk m tk rest ts v hp _ _ =>
    exact hdr _ _ _ (by simp) (by simp [hp]) (fun _ hr => by simpa [hp] using hr)
  | recvMsg hp hpo t b q hq hw =>
    right
    refine ⟨(t, b), by simp, by simp [hp], fun _ _ => ⟨by simp, ?_⟩⟩
    simpa using recv_received s.mb hq
  | startOk hp =>
    left
    obtain ⟨_, h2, h3, _⟩ := startOk_fields s
    exact ⟨h3, fun _ _ => by simp [h2]⟩
  | teardown h1 h2 => left; simp
  | takeReply m rest ts hp _ _ => left; simp [hp]
  | startFail o e hp _ => left; simp [St.startFail]
  | abort hp ha => left; simp [St.abortSeen]
  | startPanicStop e o r hp _ => left; simp [St.stopFailed]
  | _ => left; simp [St.step, *]

/-- **C01** Once the actor has finished starting up (and has emptied its start-up buffer) there
is no reordering at all: whatever it handles from then on is a subsequence of what the mailbox
accepted, in the order of acceptance. -/
theorem no_reordering_after_startup (cap : Option Nat) (ops ops' : List Op)
    (hf : (after cap ops).finished = true) (hr : (after cap ops).phase = .idle) :
    ∃ later accepted, (after cap (ops ++ ops')).handled = (after cap ops).handled ++ later ∧
      (after cap (ops ++ ops')).mb.pushed = (after cap ops).mb.received ++ accepted ∧
      later.Sublist (msgsOf accepted) := by
  have hg := good_after cap ops
  have hr' : (after cap ops).phase.rest = [] := by simp [hr]
  have heq : after cap (ops ++ ops') = (after cap ops).exec ops' := by simp [after, St.exec]
  rw [heq]
  generalize after cap ops = s0 at *
  have := exec_good_inv (s := s0) (P := fun s => s.finished = true ∧ s.phase.rest = [] ∧
      ∃ later x, s.handled = s0.handled ++ later ∧ s.mb.received = s0.mb.received ++ x ∧
        later.Sublist (msgsOf x)) ?_ hg ⟨hf, hr', [], [], by simp⟩ ops'
  · obtain ⟨_, _, later, x, h1, h2, h3⟩ := this
    have hs := (good_exec hg ops').shape
    obtain ⟨y, hy⟩ := received_sublist_pushed hs
    refine ⟨later, x ++ y, h1, by rw [← hy, h2]; simp, ?_⟩
    rw [msgsOf_append]
    exact h3.trans (List.sublist_append_left _ _)
  · rintro s s' hg' ⟨h1, h2, later, x, h3, h4, h5⟩ ht
    have hcut : s'.cut = s.cut := tr_cut ht (by
      have := hg'.shape.cut; rw [h1] at this; intro hn; simp [hn] at this)
    have hfin : s'.finished = true := by
      rw [(good_tr hg' ht).shape.cut, hcut, ← hg'.shape.cut, h1]
    obtain ⟨z, hz⟩ := tr_received ht
    rcases handled_change hg'.shape ht with ⟨h6, h7⟩ | ⟨m, h6, _, h7⟩
    · refine ⟨hfin, h7 h1 h2, later, x ++ z, by rw [h6, h3], by rw [← hz, h4]; simp, ?_⟩
      rw [msgsOf_append]
      exact h5.trans (List.sublist_append_left _ _)
    · obtain ⟨h8, h9⟩ := h7 h1 h2
      refine ⟨hfin, h8, later ++ [m], x ++ [(m.1, .msg m.2)], by rw [h6, h3]; simp,
        by rw [h9, h4]; simp, ?_⟩
      rw [msgsOf_append]
      exact h5.append (by simp)

example : (after (some 4) demo).finished = true ∧ (after (some 4) demo).phase = .idle ∧
    (after (some 4) (demo ++ [.send (self 13), .send (tell 14), .recv])).handled.map (·.2.val)
      = [11, 10, 12, 13] := by decide

/-! ### C02 -/

/-- **C02** Between the starts of two handlers or hooks the first one has been completed or
cancelled. -/
theorem one_handler_at_a_time (cap : Option Nat) (ops : List Op) (pre mid post : List Ev)
    (b b' : Ev) (hlog : (after cap ops).log = pre ++ b :: mid ++ b' :: post)
    (hb : b.isBegin = true) (hb' : b'.isBegin = true) : ∃ e ∈ mid, closes b e = true := by
  obtain ⟨l, h, _⟩ := logOk_after cap ops
  rw [hlog] at h
  exact begins_separated h hb hb'

example : ∃ pre mid post, (after (some 4) demo).log =
    pre ++ .hBegin (1, self 11) :: mid ++ .hBegin (0, tell 10) :: post :=
  ⟨[.startBegin, .startEnd .ok], [.hEnd (1, self 11) false (.ret (.ok 0))],
    [.hEnd (0, tell 10) false (.ret (.ok 0)), .hBegin (3, tell 12),
     .hEnd (3, tell 12) false (.ret (.ok 0))], by decide⟩

/-- **C02** Every completion (or cancellation) belongs to the handler or hook started last,
which had not been completed before; so each start is completed at most once. -/
theorem one_completion_per_start (cap : Option Nat) (ops : List Op) (pre post : List Ev) (e : Ev)
    (hlog : (after cap ops).log = pre ++ e :: post) (he : e.isEnd = true) :
    ∃ pre' b mid, pre = pre' ++ b :: mid ∧ closes b e = true ∧
      ∀ x ∈ mid, x.isBegin = false ∧ x.isEnd = false := by
  obtain ⟨l, h, _⟩ := logOk_after cap ops
  rw [hlog] at h
  exact end_closes_last h he

example : ∃ pre post, (after (some 4) demo).log =
    pre ++ .hEnd (0, tell 10) false (.ret (.ok 0)) :: post :=
  ⟨[.startBegin, .startEnd .ok, .hBegin (1, self 11), .hEnd (1, self 11) false (.ret (.ok 0)),
    .hBegin (0, tell 10)],
    [.hBegin (3, tell 12), .hEnd (3, tell 12) false (.ret (.ok 0))], by decide⟩

/-- **C02** While a handler runs its start is the last start in the history and it is not yet
completed; while the actor waits for a signal every start has been completed. -/
theorem running_iff_open (cap : Option Nat) (ops : List Op) :
    (∀ m tk rest ts, (after cap ops).phase = .handling m tk rest ts →
      ∃ pre mid, (after cap ops).log = pre ++ .hBegin m :: mid ∧
        ∀ x ∈ mid, x.isBegin = false ∧ x.isEnd = false) ∧
    ((after cap ops).phase = .idle → ∀ pre b mid, (after cap ops).log = pre ++ b :: mid →
      b.isBegin = true → ∃ e ∈ mid, closes b e = true) := by
  obtain ⟨l, h, hm⟩ := logOk_after cap ops
  generalize after cap ops = s at *
  constructor
  · intro m tk rest ts hp
    rw [hp] at hm
    simp only [matchLife] at hm
    subst hm
    exact run_current h _ rfl
  · intro hp pre b mid hlog hb
    rw [hp] at hm
    simp only [matchLife] at hm
    subst hm
    rw [hlog] at h
    obtain ⟨l1, _, h2⟩ := Life.run_split h
    obtain ⟨l2, h3, h4⟩ := Life.run_cons h2
    rcases run_open (begin_step h3 hb).2 h4 with h5 | ⟨h5, _⟩
    · exact h5
    · simp [Life.current] at h5

example : (after (some 4) (demo.take 8)).phase = .idle ∧
    (after (some 4) (demo.take 7)).phase = .handling (1, self 11) false [] false := by decide

/-! ### C03 -/

theorem after_snoc (cap : Option Nat) (ops : List Op) (op : Op) :
    after cap (ops ++ [op]) = (after cap ops).step op := by simp [after, St.exec]

theorem after_append (cap : Option Nat) (ops ops' : List Op) :
    after cap (ops ++ ops') = (after cap ops).exec ops' := by simp [after, St.exec]

/-- Induction on histories, last step first. -/
theorem after_induct (cap : Option Nat) {P : List Op → St → Prop} (h0 : P [] (after cap []))
    (hstep : ∀ ops op, P ops (after cap ops) → P (ops ++ [op]) ((after cap ops).step op))
    (ops : List Op) : P ops (after cap ops) := by
  have h : ∀ n (ops : List Op), ops.length = n → P ops (after cap ops) := by
    intro n
    induction n with
    | zero => intro ops h; rw [List.length_eq_zero_iff.mp h]; exact h0
    | succ n ih =>
      intro ops h
      rcases List.eq_nil_or_concat ops with rfl | ⟨a, x, rfl⟩
      · simp at h
      · simp only [List.concat_eq_append] at h ⊢
        rw [after_snoc]
        exact hstep a x (ih a (by simpa using h))
  exact h _ ops rfl

/-- Only `send` and `try_send` create message signals. -/
theorem sent_step (s : St) (op : Op) (t : Nat) (b : Body)
    (h : (t, Sig.msg b) ∈ (s.step op).mb.sent) :
    (t, Sig.msg b) ∈ s.mb.sent ∨ op = .send b ∨ op = .trySend b := by
  cases op with
  | send b' => simp [St.step] at h; grind
  | trySend b' => simp [St.step] at h; grind
  | startEnd o =>
    simp only [St.step] at h
    split at h
    · cases o <;> simp [St.startEnd, St.startFail, (startOk_fields2 s).2.2.2.2] at h <;> exact Or.inl h
    · exact Or.inl h
  | recv =>
    simp only [St.step, St.recvStep, St.onSignal] at h
    left
    repeat' split at h
    all_goals simpa using h
  | handlerEnd o =>
    simp only [St.step, St.handlerEnd] at h
    left
    repeat' split at h
    all_goals simpa using h
  | linkEnd o =>
    simp only [St.step, St.linkEnd] at h
    left
    repeat' split at h
    all_goals simpa using h
  | panicEnd o =>
    simp only [St.step, St.panicEnd, St.startPanicEnd, St.stopFailed] at h
    left
    repeat' split at h
    all_goals simpa using h
  | stopEnd o =>
    simp only [St.step, St.stopEnd, St.stopDone] at h
    left
    repeat' split at h
    all_goals simpa using h
  | _ =>
    simp only [St.step, St.crash, St.abortSeen] at h
    left
    repeat' split at h
    all_goals simpa using h

/-- Everything in the mailbox's list of sends was put there by a call. -/
theorem sent_by_call (cap : Option Nat) (ops : List Op) (t : Nat) (b : Body)
    (h : (t, Sig.msg b) ∈ (after cap ops).mb.sent) : .send b ∈ ops ∨ .trySend b ∈ ops := by
  revert h
  refine after_induct cap (P := fun ops s => (t, Sig.msg b) ∈ s.mb.sent →
    .send b ∈ ops ∨ .trySend b ∈ ops) ?_ ?_ ops
  · simp [after, St.exec, St.fresh, Mb.fresh]
  · intro ops op ih h
    rcases sent_step _ _ _ _ h with h | h | h
    · rcases ih h with h | h <;> simp [h]
    · simp [h]
    · simp [h]

/-- **C03** No message is given to a handler twice, and every message given to a handler was
sent by some call and was accepted by the mailbox. -/
theorem handled_once_and_accepted (cap : Option Nat) (ops : List Op) :
    ((after cap ops).handled.map (·.1)).Nodup ∧
    ∀ m ∈ (after cap ops).handled, (m.1, Sig.msg m.2) ∈ (after cap ops).mb.pushed ∧
      (.send m.2 ∈ ops ∨ .trySend m.2 ∈ ops) := by
  have hg := good_after cap ops
  refine ⟨(distinct_of hg.shape hg.acct).handledNodup, fun m hm => ?_⟩
  have hse := handled_sent hg.shape hg.acct (m := m) (by simp [hm])
  refine ⟨?_, sent_by_call cap ops m.1 m.2 hse⟩
  have hr : m ∈ msgsOf (after cap ops).mb.received :=
    hg.acct.mem_iff.mpr (by simp [hm])
  exact (received_sublist_pushed hg.shape).subset (mem_msgsOf.mp hr)

example : (after (some 4) demo).handled.length = 3 := by decide

/-! ### C04 -/

/-- **C04** No message handler, `on_link_died`, `on_panic` or `on_stop` starts before `on_start`
has completed; handlers and `on_link_died` only start after it has succeeded. -/
theorem nothing_before_on_start (cap : Option Nat) (ops : List Op) (pre post : List Ev) (e : Ev)
    (hlog : (after cap ops).log = pre ++ e :: post) (he : e.isBegin = true)
    (hne : e ≠ .startBegin) :
    (∃ o, .startEnd o ∈ pre) ∧
    ((∃ m, e = .hBegin m) ∨ (∃ id r, e = .lBegin id r) → .startEnd .ok ∈ pre) := by
  obtain ⟨l, h, _⟩ := logOk_after cap ops
  rw [hlog] at h
  obtain ⟨l1, h1, h2⟩ := Life.run_split h
  obtain ⟨l2, h3, _⟩ := Life.run_cons h2
  obtain ⟨_, _, h4, h5⟩ := start_first h1
  constructor
  · apply h4 <;> rintro rfl <;> cases h3 <;> simp_all [Ev.isBegin]
  · rintro (⟨m, rfl⟩ | ⟨id, r, rfl⟩) <;> cases h3 <;> apply h5 <;> simp

example : ∃ pre post, (after (some 4) demo).log = pre ++ .hBegin (1, self 11) :: post :=
  ⟨[.startBegin, .startEnd .ok], [.hEnd (1, self 11) false (.ret (.ok 0)), .hBegin (0, tell 10),
    .hEnd (0, tell 10) false (.ret (.ok 0)), .hBegin (3, tell 12),
    .hEnd (3, tell 12) false (.ret (.ok 0))], by decide⟩

theorem startBegin_or_prepared (cap : Option Nat) (ops : List Op) (h : .teardown ∉ ops) :
    (after cap ops).phase = .prepared ∨ .startBegin ∈ (after cap ops).log := by
  revert h
  refine after_induct cap (P := fun ops s => .teardown ∉ ops → s.phase = .prepared ∨
    .startBegin ∈ s.log) ?_ ?_ ops
  · intro _; left; rfl
  · intro ops op ih h
    simp only [List.mem_append, not_or, List.mem_singleton] at h
    rcases ih h.1 with hp | hp
    · have h2 := h.2
      generalize after cap ops = s at *
      clear ih h
      cases op <;> simp [St.step, hp] at h2 ⊢ <;> (try split) <;> simp [hp]
    · right
      obtain ⟨x, hx⟩ := tr_log (step_tr (after cap ops) op)
      rw [hx]; simp [hp]

/-- **C04** `on_start` never starts twice, and it starts exactly once for an actor which is run
(and whose `PreparedActor` was not dropped before). -/
theorem on_start_once (cap : Option Nat) (ops : List Op) :
    (after cap ops).log.count .startBegin ≤ 1 ∧
    (∀ pre post, ops = pre ++ .run :: post → .teardown ∉ pre →
      (after cap ops).log.count .startBegin = 1) := by
  obtain ⟨l, h, _⟩ := logOk_after cap ops
  obtain ⟨h1, h2, _, _⟩ := start_first h
  have hz : .startBegin ∈ (after cap ops).log → l ≠ .notStarted := by
    rintro hm rfl
    have := (h1 rfl _ hm).1
    simp [Ev.isBegin] at this
  constructor
  · by_cases hl : .startBegin ∈ (after cap ops).log
    · rw [h2 (hz hl)]; exact Nat.le_refl 1
    · rw [List.count_eq_zero.mpr hl]; exact Nat.zero_le 1
  · intro pre post hops hnt
    apply h2
    apply hz
    have hsplit : after cap ops = ((after cap pre).step .run).exec post := by
      rw [hops]; simp [after, St.exec]
    rw [hsplit]
    obtain ⟨x, hx⟩ := exec_log ((after cap pre).step .run) post
    rw [hx]
    apply List.mem_append_left
    rcases startBegin_or_prepared cap pre hnt with hp | hp
    · simp [St.step, hp]
    · obtain ⟨y, hy⟩ := tr_log (step_tr (after cap pre) .run)
      rw [hy]; simp [hp]

example : (after (some 4) demo).log.count .startBegin = 1 ∧
    demo = [.send (tell 10)] ++ .run :: demo.drop 2 := by decide

/-! ### C05 -/

/-- After a start-up whose signal fitted in the mailbox, start-up is finished by receiving that
signal or a stop signal. -/
theorem cut_ends {s : St} (hg : Good s) (hc : s.cut = none) (hu : s.phase.unborn = false)
    (ops : List Op) : ∀ k, (s.exec ops).cut = some k →
      ∃ pre t sg, (s.exec ops).mb.received.take k = pre ++ [(t, sg)] ∧
        (sg = .startup ∨ sg = .stop) := by
  have := exec_good_inv (s := s) (P := fun s => s.phase.unborn = false ∧ ∀ k, s.cut = some k →
      ∃ pre t sg, s.mb.received.take k = pre ++ [(t, sg)] ∧ (sg = .startup ∨ sg = .stop)) ?_ hg
      ⟨hu, by simp [hc]⟩ ops
  · exact this.2
  · rintro s s' hg ⟨hu, h⟩ ht
    have hkeep : s'.phase.unborn = false → s'.cut = s.cut → (s'.phase.unborn = false ∧
        ∀ k, s'.cut = some k → ∃ pre t sg, s'.mb.received.take k = pre ++ [(t, sg)] ∧
          (sg = .startup ∨ sg = .stop)) := by
      intro h1 h2
      refine ⟨h1, fun k hk => ?_⟩
      rw [h2] at hk
      obtain ⟨z, hz⟩ := tr_received ht
      rw [← hz, List.take_append_of_le_length (hg.ord.some k hk).1]
      exact h k hk
    have hfin : ∀ (s0 : St) (t : Nat) (sg : Sig) (q : List (Nat × Sig)),
        s.mb.queue = (t, sg) :: q → s'.mb = s.mb.recv → (sg = .startup ∨ sg = .stop) →
        s'.phase.unborn = false → (s.cut = none → s'.cut = some (s.mb.recv.received.length)) →
        (s'.phase.unborn = false ∧ ∀ k, s'.cut = some k →
          ∃ pre t sg, s'.mb.received.take k = pre ++ [(t, sg)] ∧ (sg = .startup ∨ sg = .stop)) := by
      intro s0 t sg q hq hmb hsg h1 h2
      by_cases hcn : s.cut = none
      · refine ⟨h1, fun k hk => ?_⟩
        rw [h2 hcn] at hk
        simp only [Option.some.injEq] at hk
        refine ⟨s.mb.received, t, sg, ?_, hsg⟩
        rw [hmb, ← hk, List.take_length, recv_received s.mb hq]
      · exact hkeep h1 (tr_cut ht hcn)
    have hdl : ∀ (s0 : St) rest ts, (s0.drain rest ts).phase.unborn = false := by
      intro s0 rest ts
      rcases drain_loop s0 rest ts with h | ⟨r, p, h⟩
      · revert h; cases (s0.drain rest ts).phase <;> simp
      · simp [h]
    have hnp : ∀ p, s.phase = p → p.unborn = true → False := by
      rintro p rfl h; simp [hu] at h
    cases ht with
    | recvNone hp _ _ hn =>
      exfalso
      have := hg.shape.own
      simp [St.noSenders, hp] at hn this
      simp [this] at hn
    | recvStartup hp _ t q hq =>
      refine hfin s t .startup q hq (by simp) (Or.inl rfl) (hdl _ _ _) ?_
      intro hcn
      simp [St.finishStartup, hcn]
    | recvStop hp _ t q hq =>
      refine hfin s t .stop q hq (by simp) (Or.inr rfl) (hdl _ _ _) ?_
      intro hcn
      simp [St.finishStartup, hcn]
    | run hp => exact (hnp _ hp (by simp)).elim
    | startOk hp => exact (hnp _ hp (by simp)).elim
    | startFail o e hp _ => exact (hnp _ hp (by simp)).elim
    | handlerReply => exact hkeep (hdl _ _ _) (by simp)
    | handlerOk => exact hkeep (hdl _ _ _) (by simp)
    | abort => exact hkeep (by simp [St.abortSeen]) (by simp [St.abortSeen])
    | startPanicStop => exact hkeep (by simp [St.stopFailed]) (by simp [St.stopFailed])
    | _ => exact hkeep (by simp [St.step, *]) (by simp [St.step, St.crash])

/-- **C05** (part). Let `w` be a message the actor sent to itself during `on_start` and which the
mailbox accepted, suppose that no stop request was accepted ahead of it, and that there is
still room in the mailbox when `on_start` succeeds. Then every message from outside that is
ever handled is handled after `w` was.

Missing for the full claim: it is false for a mailbox which is full when `on_start` ends
(`self_sent_overtaken_when_full`), and when a stop request is accepted before `w`
(`self_sent_overtaken_after_stop`). -/
theorem self_sent_first_partial (cap : Option Nat) (pre post : List Op) (w o : Msg)
    (a b : List (Nat × Sig))
    (hstart : (after cap pre).phase = .starting)
    (hroom : (after cap pre).mb.hasRoom = true)
    (hacc : (after cap pre).mb.pushed = a ++ (w.1, .msg w.2) :: b)
    (hw : w.2.within = true) (hstop : ∀ t, (t, Sig.stop) ∉ a)
    (ho : o ∈ (after cap (pre ++ .startEnd .ok :: post)).handled) (hout : o.2.within = false) :
    ∃ h1 h2, (after cap (pre ++ .startEnd .ok :: post)).handled = h1 ++ h2 ∧ w ∈ h1 ∧ o ∉ h1 := by
  have hg0 := good_after cap pre
  have hst0 := start_after cap pre
  have heq : after cap (pre ++ .startEnd .ok :: post) = ((after cap pre).startOk).exec post := by
    rw [after_append]
    simp [St.exec, St.step, hstart, St.startEnd]
  rw [heq] at ho ⊢
  generalize after cap pre = s0 at *
  have hg1 : Good s0.startOk := good_tr hg0 (.startOk hstart)
  have hcl : s0.mb.closed = false := by simpa [hstart] using hg0.shape.closed
  have hcut0 : s0.cut = none := by
    have := (hg0.shape.early (by simp [hstart])).2.1
    rw [hg0.shape.cut] at this
    simpa using this
  have hcut1 : s0.startOk.cut = none := by
    simp [St.startOk, hroom, hcut0]
  have hmb1 : s0.startOk.mb = s0.mb.trySend .startup := (startOk_fields s0).1
  have hpush1 : s0.startOk.mb.pushed = a ++ (w.1, .msg w.2) :: b ++ [(s0.mb.next, .startup)] := by
    rw [hmb1]
    simp [Mb.trySend, hcl, hroom, Mb.push, Mb.bump, hacc]
  have hg2 := good_exec hg1 post
  have hcut := cut_ends hg1 hcut1 (by simp [(startOk_fields s0).2.1]) post
  have hpp : s0.startOk.mb.pushed <+: (s0.startOk.exec post).mb.pushed :=
    exec_pushed _ _
  have hns : startups s0.mb.sent = 0 := (hst0.noRes (hst0.unborn (by simp [hstart]))).2.1
  have hnst : ∀ t, (t, Sig.startup) ∉ a := by
    intro t ht
    have : (t, Sig.startup) ∈ s0.mb.sent := hg0.shape.mb.mem_sent (by simp [hacc, ht])
    simp only [startups, List.countP_eq_zero] at hns
    simpa using hns _ this
  generalize s0.startOk.exec post = s at *
  cases hc : s.cut with
  | none =>
    rw [(hg2.ord.none hc).1] at ho
    simp [hout] at ho
  | some k =>
    obtain ⟨hk, _, hpre⟩ := hg2.ord.some k hc
    obtain ⟨p0, t, sg, htake, hsg⟩ := hcut k hc
    have htk : s.mb.received.take k <+: s.mb.pushed :=
      (List.take_prefix _ _).trans (received_sublist_pushed hg2.shape)
    have hab : (a ++ [(w.1, Sig.msg w.2)]) <+: s.mb.pushed := by
      refine List.IsPrefix.trans ?_ hpp
      rw [hpush1]
      exact ⟨b ++ [(s0.mb.next, .startup)], by simp⟩
    have hwin : w ∈ msgsOf (s.mb.received.take k) := by
      rw [mem_msgsOf]
      rcases List.prefix_or_prefix_of_prefix hab htk with h | h
      · exact h.subset (by simp)
      · exfalso
        have hmem : (t, sg) ∈ a ++ [(w.1, Sig.msg w.2)] := h.subset (by rw [htake]; simp)
        simp only [List.mem_append, List.mem_singleton, Prod.mk.injEq] at hmem
        rcases hsg with rfl | rfl
        · rcases hmem with hm | ⟨_, hm⟩
          · exact hnst _ hm
          · cases hm
        · rcases hmem with hm | ⟨_, hm⟩
          · exact hstop _ hm
          · cases hm
    obtain ⟨h2, hh⟩ := hpre
    refine ⟨_, h2, hh.symm, ?_, ?_⟩
    · simp [hwin, hw]
    · simp [hout]

example : (after (some 4) (demo.take 3)).phase = .starting ∧
    (after (some 4) (demo.take 3)).mb.hasRoom = true ∧
    (after (some 4) (demo.take 3)).mb.pushed = [(0, .msg (tell 10))] ++ (1, .msg (self 11)) :: [] ∧
    demo = demo.take 3 ++ .startEnd .ok :: demo.drop 4 ∧
    (0, tell 10) ∈ (after (some 4) demo).handled := by decide

/-- **C05** fails when the mailbox is full at the end of `on_start`: start-up then counts as
finished at once, nothing is buffered, and the outside message accepted before the self-sent
one is handled first. -/
theorem self_sent_overtaken_when_full :
    ∃ cap pre post, (after cap pre).phase = .starting ∧
      (after cap pre).mb.pushed = [(0, .msg (tell 10)), (1, .msg (self 11))] ∧
      (after cap (pre ++ .startEnd .ok :: post)).handled = [(0, tell 10), (1, self 11)] :=
  ⟨some 2, [.send (tell 10), .run, .send (self 11)],
    [.pollBegin, .recv, .handlerEnd (.ret (.ok 0)), .recv], by decide⟩

/-- **C05** also fails when a stop request is accepted ahead of the self-sent message and the
handler of a buffered message fails with `on_panic` continuing: the stop request is forgotten,
and the outside message was handled first. -/
theorem self_sent_overtaken_after_stop :
    ∃ cap pre post, (after cap pre).phase = .starting ∧ (after cap pre).mb.hasRoom = true ∧
      (after cap pre).mb.pushed = [(0, .msg (tell 10)), (1, .stop), (2, .msg (self 11))] ∧
      (after cap (pre ++ .startEnd .ok :: post)).handled = [(0, tell 10), (2, self 11)] :=
  ⟨none, [.send (tell 10), .run, .sendStop, .send (self 11)],
    [.pollBegin, .recv, .recv, .handlerEnd (.panic 1), .panicEnd .cont, .recv], by decide⟩

end Verif.Lifecycle
