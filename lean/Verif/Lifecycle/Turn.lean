import Verif.Lifecycle.LinkHook

/-!
The order in which messages and the news that a linked actor has died are processed. Both travel through the mailbox
(`Signal`, `src/mailbox.rs` L441-454), but until the start-up is finished messages from outside are put aside
(`src/actor/kind.rs` L104-113) and the news are not.
-/

set_option linter.unusedSimpArgs false

namespace Verif.Lifecycle

open Verif.Mailbox

/-- A call of a message handler or of `on_link_died`; `src/actor/kind.rs` L115, L133-138 (specification). -/
inductive Turn where
  | msg (m : Msg)
  | news (id : Id) (r : Reason)
  deriving DecidableEq, Repr

/-- The call that an event begins (specification; `src/actor/kind.rs` L115, L133-138). -/
def turnOf : Ev → Option Turn
  | .hBegin m => some (.msg m)
  | .lBegin i r => some (.news i r)
  | _ => none

/-- The calls of handlers and of `on_link_died`, in order (specification; `src/actor/kind.rs` L115, L133-138). -/
def callsOf (log : List Ev) : List Turn := log.filterMap turnOf

/-- The call that a signal is for, if it takes its turn (specification; `src/mailbox.rs` L441-454). -/
def inTurn : Nat × Sig → Option Turn
  | (t, .msg b) => some (.msg (t, b))
  | (_, .linkDied i r) => some (.news i r)
  | _ => none

/-- The call that a signal is for, if it is not put aside as a message from fromOutside (specification;
`src/mailbox.rs` L441-454). -/
def notAside : Nat × Sig → Option Turn
  | (t, .msg b) => if b.within then some (.msg (t, b)) else none
  | (_, .linkDied i r) => some (.news i r)
  | _ => none

/-- The messages from outside among the signals (specification; `src/mailbox.rs` L441-454). -/
def fromOutside (l : List (Nat × Sig)) : List Msg := (msgsOf l).filter (fun m => !m.2.within)

/-- Does the signal finish the start-up? (Specification; `src/actor/spawn.rs` L629-634, L650-654.) -/
def endsStartup : Sig → Bool
  | .startup => true
  | .stop => true
  | _ => false

@[simp] theorem callsOf_append (a b : List Ev) : callsOf (a ++ b) = callsOf a ++ callsOf b := by simp [callsOf]

@[simp] theorem callsOf_nil : callsOf [] = [] := rfl

@[simp] theorem callsOf_cons (e : Ev) (l : List Ev) : callsOf (e :: l) = (turnOf e).toList ++ callsOf l := by
  unfold callsOf
  rw [List.filterMap_cons]
  cases turnOf e <;> rfl

theorem callsOf_cancelEv (p : Phase) : callsOf p.cancelEv = [] := by
  cases p <;> rfl

theorem callsOf_drainEv (rest : List Msg) (ts : Bool) : callsOf (drainEv rest ts) = rest.head?.toList.map .msg := by
  cases rest with
  | nil => cases ts <;> rfl
  | cons m ms => rfl

theorem drain_rest (s : St) (rest : List Msg) (ts : Bool) : (s.drain rest ts).phase.rest = rest.tail := by
  cases rest with
  | nil => cases ts <;> rfl
  | cons m ms => rfl

/-- What one step does to the calls. -/
inductive TurnStep (s s' : St) : Prop where
  | keep (h1 : s'.mb.received = s.mb.received) (h2 : callsOf s'.log = callsOf s.log) (h3 : s'.cut = s.cut)
      (h4 : s'.phase.rest = s.phase.rest ∨ s'.phase.rest = [])
  | full (h0 : s.mb.received = []) (h1 : s'.mb.received = []) (h2 : callsOf s'.log = callsOf s.log) (h3 : s.cut = none)
      (h4 : s'.cut = some 0) (h5 : s'.phase.rest = [])
  | finish (t : Nat) (sg : Sig) (hsg : endsStartup sg = true) (h0 : s.phase = .idle)
      (h1 : s'.mb.received = s.mb.received ++ [(t, sg)]) (h2 : callsOf s'.log = callsOf s.log ++ s.buffer.head?.toList.map .msg)
      (h3 : s'.phase.rest = s.buffer.tail)
      (h4 : s'.cut = match s.cut with | none => some (s.mb.received.length + 1) | some k => some k)
  | next (m : Msg) (ms : List Msg) (h0 : s.phase.rest = m :: ms) (h1 : s'.mb.received = s.mb.received)
      (h2 : callsOf s'.log = callsOf s.log ++ [.msg m]) (h3 : s'.cut = s.cut) (h4 : s'.phase.rest = ms)
  | msg (t : Nat) (b : Body) (h0 : s.phase = .idle) (hw : b.within = true ∨ s.finished = true)
      (h1 : s'.mb.received = s.mb.received ++ [(t, .msg b)]) (h2 : callsOf s'.log = callsOf s.log ++ [.msg (t, b)])
      (h3 : s'.cut = s.cut) (h4 : s'.phase.rest = [])
  | aside (t : Nat) (b : Body) (h0 : s.phase = .idle) (hw : b.within = false) (hf : s.finished = false)
      (h1 : s'.mb.received = s.mb.received ++ [(t, .msg b)]) (h2 : callsOf s'.log = callsOf s.log)
      (h3 : s'.cut = s.cut) (h4 : s'.phase.rest = [])
  | news (t : Nat) (i : Id) (r : Reason) (h0 : s.phase = .idle)
      (h1 : s'.mb.received = s.mb.received ++ [(t, .linkDied i r)]) (h2 : callsOf s'.log = callsOf s.log ++ [.news i r])
      (h3 : s'.cut = s.cut) (h4 : s'.phase.rest = [])

theorem finishStartup_cut_eq (s : St) : s.finishStartup.cut =
    match s.cut with | none => some s.mb.received.length | some k => some k := by
  unfold St.finishStartup
  simp only
  split <;> simp_all

theorem turnStep {s s' : St} (hg : Good s) (ht : Tr s s') : TurnStep s s' := by
  have hdr : ∀ (s0 : St) (rest : List Msg) (ts : Bool) (x : List Ev), s0.log = s.log ++ x → callsOf x = [] →
      s.phase.rest = rest → s0.mb.received = s.mb.received → s0.cut = s.cut → TurnStep s (s0.drain rest ts) := by
    intro s0 rest ts x h1 h2 h3 h4 h5
    cases rest with
    | nil =>
      refine .keep (by simp [h4]) ?_ (by simp [h5]) (Or.inr (drain_rest _ _ _))
      rw [drain_log, callsOf_append, callsOf_drainEv, h1, callsOf_append, h2]
      simp
    | cons m ms =>
      refine .next m ms h3 (by simp [h4]) ?_ (by simp [h5]) (drain_rest _ _ _)
      rw [drain_log, callsOf_append, callsOf_drainEv, h1, callsOf_append, h2]
      simp
  cases ht with
  | refl => exact .keep rfl rfl rfl (.inl rfl)
  | startOk hp =>
    obtain ⟨e1, e2, _, _, _⟩ := hg.shape.early (by simp [hp])
    have ec : s.cut = none := by
      have := hg.shape.cut
      rw [e2] at this
      cases h : s.cut with
      | none => rfl
      | some k => simp [h] at this
    have hr : s.startOk.mb.received = s.mb.received := by rw [(startOk_fields s).1]; simp
    have hph : s.startOk.phase.rest = [] := by rw [(startOk_fields s).2.1]; rfl
    have hl : callsOf s.startOk.log = callsOf s.log := by simp [turnOf]
    by_cases hroom : (s.mb.closed || s.mb.hasRoom) = true
    · refine .keep hr hl ?_ (.inr hph)
      simp [St.startOk, hroom]
    · refine .full e1 (by rw [hr, e1]) hl ec ?_ hph
      simp only [St.startOk, hroom]
      rw [if_neg (by simp), finishStartup_cut_eq]
      simp [ec, e1]
  | teardown h1 h2 =>
    refine .keep (by simp [St.crash]) ?_ (by simp [St.crash]) (.inr (by simp [St.crash]))
    simp [St.crash, callsOf_cancelEv]
  | abort hp ha =>
    refine .keep (by simp [St.abortSeen]) ?_ (by simp [St.abortSeen]) (.inr (by simp [St.abortSeen]))
    simp [St.abortSeen, callsOf_cancelEv, turnOf]
  | recvNone hp _ _ hn =>
    exfalso
    have := hg.shape.own
    simp [St.noSenders, hp] at hn this
    simp [this] at hn
  | recvStartup hp _ t q hq =>
    refine .finish t .startup rfl hp ?_ ?_ (drain_rest _ _ _) ?_
    · simp [recv_received s.mb hq]
    · rw [drain_log, callsOf_append, callsOf_drainEv]
      rfl
    · have := finishStartup_cut_eq { s with mb := s.mb.recv }
      simp only [recv_received s.mb hq, List.length_append, List.length_cons, List.length_nil] at this
      simpa using this
  | recvStop hp _ t q hq =>
    refine .finish t .stop rfl hp ?_ ?_ (drain_rest _ _ _) ?_
    · simp [recv_received s.mb hq]
    · rw [drain_log, callsOf_append, callsOf_drainEv]
      simp [turnOf]
    · have := finishStartup_cut_eq { s with mb := s.mb.recv }
      simp only [recv_received s.mb hq, List.length_append, List.length_cons, List.length_nil] at this
      simpa using this
  | recvBuffer hp _ t b q hq hw hf =>
    exact .aside t b hp hw hf (by simp [recv_received s.mb hq]) rfl rfl (by simp [hp])
  | recvMsg hp _ t b q hq hw =>
    exact .msg t b hp hw (by simp [recv_received s.mb hq]) (by simp [turnOf]) rfl rfl
  | recvLink hp _ t i r q hq =>
    exact .news t i r hp (by simp [recv_received s.mb hq]) (by simp [turnOf]) rfl rfl
  | handlerReply m rest ts res hp _ _ => exact hdr _ _ _ [.hEnd m false (.ret res)] (by simp) rfl (by simp [hp]) (by simp) (by simp)
  | handlerOk m tk rest ts v hp _ _ => exact hdr _ _ _ [.hEnd m tk (.ret (.ok v))] (by simp) rfl (by simp [hp]) (by simp) (by simp)
  | takeReply m rest ts hp _ _ => exact .keep rfl rfl rfl (.inl (by simp [hp]))
  | startFail o e hp _ => exact .keep (by simp [St.startFail]) (by simp [St.startFail, turnOf]) rfl (.inr rfl)
  | startPanicStop e o r hp _ =>
    exact .keep (by simp [St.stopFailed]) (by simp [St.stopFailed, turnOf]) (by simp [St.stopFailed])
      (.inr (by simp [St.stopFailed]))
  | _ => exact .keep (by simp [St.step]) (by simp [St.step, turnOf]) (by simp [St.step]) (by simp [St.step, *])

/-- The calls so far, in terms of the signals received; `k` is where the start-up ended. -/
structure Turns (s : St) : Prop where
  none : s.cut = none → callsOf s.log = s.mb.received.filterMap notAside
  some : ∀ k, s.cut = some k → k ≤ s.mb.received.length ∧
    (k = 0 ∨ ∃ pre t sg, s.mb.received.take k = pre ++ [(t, sg)] ∧ endsStartup sg = true) ∧
    (s.phase.rest ≠ [] → s.mb.received.drop k = []) ∧
    ∃ B, callsOf s.log = (s.mb.received.take k).filterMap notAside ++ B.map .msg ++ (s.mb.received.drop k).filterMap inTurn ∧
      B ++ s.phase.rest <+: fromOutside (s.mb.received.take k)

theorem inTurn_ends {sg : Sig} (t : Nat) (h : endsStartup sg = true) : inTurn (t, sg) = none ∧ notAside (t, sg) = none := by
  cases sg <;> simp [endsStartup] at h <;> exact ⟨rfl, rfl⟩

theorem fromOutside_append (a b : List (Nat × Sig)) : fromOutside (a ++ b) = fromOutside a ++ fromOutside b := by
  simp [fromOutside]

theorem fromOutside_ends {sg : Sig} (t : Nat) (h : endsStartup sg = true) : fromOutside [(t, sg)] = [] := by
  cases sg <;> simp [endsStartup] at h <;> rfl

theorem turns_tr {s s' : St} (hg : Good s) (h : Turns s) (ht : Tr s s') : Turns s' := by
  have hrest : s.phase = .idle → s.phase.rest = [] := by intro h; rw [h]; rfl
  have hfin := hg.shape.cut
  -- a signal which takes its turn
  have hturn : ∀ (p : Nat × Sig) (c : Option Turn), s.phase = .idle → s'.mb.received = s.mb.received ++ [p] →
      callsOf s'.log = callsOf s.log ++ c.toList → s'.cut = s.cut → s'.phase.rest = [] → (s.cut = none → notAside p = c) →
      (∀ k, s.cut = some k → inTurn p = c) → Turns s' := by
    intro p c h0 h1 h2 h3 h4 h5 h6
    constructor
    · intro hn
      rw [h3] at hn
      rw [h1, h2, h.none hn, List.filterMap_append, ← h5 hn]
      cases hp : notAside p <;> simp [hp]
    · intro k hk
      rw [h3] at hk
      obtain ⟨a1, a2, a3, B, a4, a5⟩ := h.some k hk
      rw [h1, List.take_append_of_le_length a1, List.drop_append_of_le_length a1, h4]
      refine ⟨by simp; omega, a2, by simp, B, ?_, ?_⟩
      · rw [h2, a4, ← h6 k hk, List.filterMap_append]
        cases hp : inTurn p <;> simp [hp]
      · rw [hrest h0] at a5; exact a5
  cases turnStep hg ht with
  | keep h1 h2 h3 h4 =>
    constructor
    · intro hn
      rw [h2, h1]; exact h.none (h3 ▸ hn)
    · intro k hk
      obtain ⟨a1, a2, a3, B, a4, a5⟩ := h.some k (h3 ▸ hk)
      rw [h1]
      rcases h4 with h4 | h4
      · exact ⟨a1, a2, by rw [h4]; exact a3, B, by rw [h2]; exact a4, by rw [h4]; exact a5⟩
      · exact ⟨a1, a2, by rw [h4]; simp, B, by rw [h2]; exact a4,
          by rw [h4, List.append_nil]; exact (List.prefix_append _ _).trans a5⟩
  | full h0 h1 h2 h3 h4 h5 =>
    constructor
    · intro hn; rw [h4] at hn; cases hn
    · intro k hk
      rw [h4] at hk
      cases hk
      rw [h1, h5]
      have := h.none h3
      rw [h0] at this
      exact ⟨by simp, .inl rfl, by simp, [], by rw [h2, this]; rfl, by simp⟩
  | finish t sg hsg h0 h1 h2 h3 h4 =>
    obtain ⟨e1, e2⟩ := inTurn_ends t hsg
    cases hc : s.cut with
    | some k =>
      have hb : s.buffer = [] := by
        by_cases hb : s.buffer = []
        · exact hb
        · have := (hg.shape.buf hb).1
          rw [hfin, hc] at this
          cases this
      rw [hb] at h2 h3
      rw [hc] at h4
      refine hturn (t, sg) none h0 h1 (by simpa using h2) (by rw [h4, hc]) h3 (by rw [hc]; simp) (fun _ _ => e1)
    | none =>
      rw [hc] at h4
      simp only at h4
      constructor
      · intro hn; rw [h4] at hn; cases hn
      · intro k hk
        rw [h4] at hk
        cases hk
        have hlen : s.mb.received.length + 1 = (s.mb.received ++ [(t, sg)]).length := by simp
        have hbuf : s.buffer = fromOutside s.mb.received := (hg.ord.none hc).2 (by simp [h0])
        rw [h1, hlen, List.take_length, List.drop_length]
        refine ⟨Nat.le_refl _, .inr ⟨_, t, sg, rfl, hsg⟩, by simp, s.buffer.head?.toList, ?_, ?_⟩
        · rw [h2, h.none hc, List.filterMap_append]
          simp [List.filterMap_cons, e2]
        · rw [h3, fromOutside_append, fromOutside_ends t hsg, ← hbuf]
          cases s.buffer <;> simp
  | next m ms h0 h1 h2 h3 h4 =>
    have hc : s.cut ≠ none := by
      intro hn
      have := hg.shape.rest (by rw [h0]; simp)
      rw [hfin, hn] at this
      cases this
    constructor
    · intro hn; exact absurd (h3 ▸ hn) hc
    · intro k hk
      obtain ⟨a1, a2, a3, B, a4, a5⟩ := h.some k (h3 ▸ hk)
      have hd := a3 (by rw [h0]; simp)
      rw [h1, h4]
      refine ⟨a1, a2, fun _ => hd, B ++ [m], ?_, ?_⟩
      · rw [h2, a4, hd]; simp
      · rw [h0] at a5; simpa using a5
  | msg t b h0 hw h1 h2 h3 h4 =>
    refine hturn (t, .msg b) (some (.msg (t, b))) h0 h1 (by simpa using h2) h3 h4 ?_ (fun _ _ => rfl)
    intro hn
    rcases hw with hw | hw
    · simp [notAside, hw]
    · rw [hfin, hn] at hw; cases hw
  | aside t b h0 hw hf h1 h2 h3 h4 =>
    refine hturn (t, .msg b) none h0 h1 (by simpa using h2) h3 h4 ?_ ?_
    · intro _; simp [notAside, hw]
    · intro k hk; rw [hfin, hk] at hf; cases hf
  | news t i r h0 h1 h2 h3 h4 =>
    exact hturn (t, .linkDied i r) (some (.news i r)) h0 h1 (by simpa using h2) h3 h4 (fun _ => rfl) (fun _ _ => rfl)

theorem turns_after (cap : Option Nat) (ops : List Op) : Turns (after cap ops) := by
  refine exec_good_inv (P := Turns) (fun s s' hg h ht => turns_tr hg h ht) (good_after cap []) ?_ ops
  constructor <;> simp [after, St.exec, St.fresh, Mb.fresh]

/-- **C82** (part). The order of all calls of message handlers and of `on_link_died`, exactly: of the signals received
up to the one that finished the start-up, the news of deaths and the actor's own messages come in their order, and only
then the messages from outside, as many of them as are not dropped; after that every message and every news comes in its
turn, and none is skipped. -/
theorem calls_exact (cap : Option Nat) (ops : List Op) :
    ∃ early later outs, (after cap ops).mb.received = early ++ later ∧ outs <+: fromOutside early ∧
      callsOf (after cap ops).log = early.filterMap notAside ++ outs.map .msg ++ later.filterMap inTurn ∧
      (later ≠ [] ∨ outs ≠ [] → early = [] ∨ ∃ pre t sg, early = pre ++ [(t, sg)] ∧ endsStartup sg = true) := by
  have h := turns_after cap ops
  generalize after cap ops = s at h
  cases hc : s.cut with
  | none => exact ⟨s.mb.received, [], [], by simp, by simp, by simp [h.none hc], by simp⟩
  | some k =>
    obtain ⟨a1, a2, a3, B, a4, a5⟩ := h.some k hc
    refine ⟨_, _, B, (List.take_append_drop k _).symm, (List.prefix_append _ _).trans a5, a4, fun _ => ?_⟩
    rcases a2 with rfl | a2
    · left; simp
    · exact .inr a2

/-- A message from outside and one of the actor's own before the news of a death, all before the start-up is finished. -/
def newsDemo : List Op :=
  [.send (tell 10), .run, .send (self 11), .sendLinkDied 5 .normal, .startEnd .ok, .pollBegin, .recv, .recv,
   .handlerEnd (.ret (.ok 0)), .recv, .linkEnd .cont, .recv, .handlerEnd (.ret (.ok 0)), .send (tell 12),
   .sendLinkDied 6 .normal, .recv, .handlerEnd (.ret (.ok 0)), .recv]

example : callsOf (after none newsDemo).log =
    [.msg (1, self 11), .news 5 .normal, .msg (0, tell 10), .msg (4, tell 12), .news 6 .normal] := by decide

/-- **C82** (part). Once the start-up is finished and the messages put aside have been handled, every message and every
news that a linked actor has died has its turn in the order of acceptance, and none is skipped: the handlers of all
messages accepted before the news have been started when `on_link_died` is called for it, and no handler of one accepted
after it. Missing for the full claim: it is false before (`news_overtakes_message`, `news_drops_messages`). -/
theorem news_in_turn_partial (cap : Option Nat) (ops ops' : List Op)
    (hf : (after cap ops).finished = true) (hi : (after cap ops).phase = .idle) :
    ∃ taken rest, (after cap (ops ++ ops')).mb.pushed = (after cap ops).mb.received ++ taken ++ rest ∧
      callsOf (after cap (ops ++ ops')).log = callsOf (after cap ops).log ++ taken.filterMap inTurn := by
  have hg := good_after cap ops
  have hr' : (after cap ops).phase.rest = [] := by simp [hi]
  rw [after_append]
  generalize after cap ops = s0 at *
  have := exec_good_inv (s := s0) (P := fun s => s.finished = true ∧ s.phase.rest = [] ∧
      ∃ x, s.mb.received = s0.mb.received ++ x ∧ callsOf s.log = callsOf s0.log ++ x.filterMap inTurn) ?_ hg
      ⟨hf, hr', [], by simp⟩ ops'
  · obtain ⟨_, _, x, h1, h2⟩ := this
    obtain ⟨y, hy⟩ := received_sublist_pushed (good_exec hg ops').shape
    exact ⟨x, y, by rw [← hy, h1], h2⟩
  · rintro s s' hg' ⟨h1, h2, x, h3, h4⟩ ht
    have hcut : s.cut ≠ none := by
      have := hg'.shape.cut; rw [h1] at this; intro hn; simp [hn] at this
    have hfin : s'.finished = true := by
      rw [(good_tr hg' ht).shape.cut, tr_cut ht hcut, ← hg'.shape.cut, h1]
    have hbuf : s.buffer = [] := by
      by_cases hb : s.buffer = []
      · exact hb
      · have := (hg'.shape.buf hb).1; rw [h1] at this; cases this
    refine ⟨hfin, ?_⟩
    cases turnStep hg' ht with
    | keep a1 a2 a3 a4 =>
      refine ⟨?_, x, by rw [a1, h3], by rw [a2, h4]⟩
      rcases a4 with a4 | a4
      · rw [a4, h2]
      · exact a4
    | full _ _ _ a3 => exact absurd a3 hcut
    | finish t sg hsg a0 a1 a2 a3 a4 =>
      rw [hbuf] at a2 a3
      exact ⟨a3, x ++ [(t, sg)], by rw [a1, h3]; simp,
        by rw [a2, h4]; simp [List.filterMap_cons, (inTurn_ends t hsg).1]⟩
    | next m ms a0 => rw [h2] at a0; cases a0
    | msg t b a0 hw a1 a2 a3 a4 =>
      exact ⟨a4, x ++ [(t, .msg b)], by rw [a1, h3]; simp, by rw [a2, h4]; simp [List.filterMap_cons, inTurn]⟩
    | aside t b a0 hw hff => rw [h1] at hff; cases hff
    | news t i r a0 a1 a2 a3 a4 =>
      exact ⟨a4, x ++ [(t, .linkDied i r)], by rw [a1, h3]; simp, by rw [a2, h4]; simp [List.filterMap_cons, inTurn]⟩

example : (after none (newsDemo.take 13)).finished = true ∧ (after none (newsDemo.take 13)).phase = .idle := by decide

/-- **C82** fails while the actor starts: the news of a death overtakes a message from outside that was accepted before
it. -/
theorem news_overtakes_message :
    ∃ ops m i r, (after none ops).mb.pushed = [(0, .msg m), (1, .linkDied i r), (2, .startup)] ∧
      callsOf (after none ops).log = [.news i r, .msg (0, m)] :=
  ⟨[.send (tell 10), .sendLinkDied 5 .normal, .run, .startEnd .ok, .pollBegin, .recv, .recv, .linkEnd .cont, .recv],
    tell 10, 5, .normal, by decide⟩

theorem tr_lost {s s' : St} (ht : Tr s s') : s.lost <+: s'.lost := by
  have hdr : ∀ (s0 : St) (rest : List Msg) (ts : Bool), s0.lost = s.lost → s.lost <+: (s0.drain rest ts).lost := by
    intro s0 rest ts h
    cases rest with
    | cons m ms => simp [St.drain, h]
    | nil => cases ts <;> simp [St.drain, h]
  cases ht with
  | recvNone => exact hdr _ _ _ rfl
  | recvStartup => exact hdr _ _ _ rfl
  | recvStop => exact hdr _ _ _ rfl
  | handlerReply => exact hdr _ _ _ (by simp)
  | handlerOk => exact hdr _ _ _ (by simp)
  | startOk hp => rw [(startOk_fields s).2.2.2.2.2.2]; exact List.prefix_refl _
  | teardown => simp only [St.crash]; unfold St.cancelRunning; split <;> simp
  | abort => simp only [St.abortSeen]; unfold St.cancelRunning; split <;> simp
  | _ => simp [St.step, St.stopFailed, St.startFail]

/-- **C82** fails while the actor starts: if `on_link_died` stops the actor, all messages from outside that were accepted
before the news, however many, are dropped and never handled, although they were ahead of it. -/
theorem news_drops_messages (cap : Option Nat) (ops ops' : List Op) (i : Id) (r r' : Reason)
    (hr' : ∀ e, r' ≠ .panicked e) (hf : (after cap ops).finished = false)
    (hp : (after cap ops).phase = .linkDying i r) (hpo : (after cap ops).polling = true) (m : Msg)
    (hm : m ∈ fromOutside (after cap ops).mb.received) :
    m ∈ (after cap (ops ++ .linkEnd (.brk r') :: ops')).lost ∧
    m ∉ (after cap (ops ++ .linkEnd (.brk r') :: ops')).handled := by
  have hg := good_after cap ops
  have hc : (after cap ops).cut = none := by
    have := hg.shape.cut
    rw [hf] at this
    cases h : (after cap ops).cut with
    | none => rfl
    | some k => simp [h] at this
  have hb := (hg.ord.none hc).2 (by simp [hp])
  have heq : after cap (ops ++ .linkEnd (.brk r') :: ops') = ((after cap ops).linkEnd i r (.brk r')).exec ops' := by
    rw [after_append]
    simp [St.exec, St.step, hp, hpo]
  have h1 : m ∈ ((after cap ops).linkEnd i r (.brk r')).lost := by
    simp only [St.linkEnd, onShutdown_other _ _ hr']
    simp only [leave_lost]
    rw [List.mem_append]
    right
    change m ∈ (after cap ops).buffer
    rw [hb]
    exact hm
  have h2 : m ∈ (after cap (ops ++ .linkEnd (.brk r') :: ops')).lost := by
    rw [heq]
    exact exec_inv (P := fun s => m ∈ s.lost) (fun s s' h ht => (tr_lost ht).subset h) h1 ops'
  refine ⟨h2, fun hh => ?_⟩
  have hg' := good_after cap (ops ++ .linkEnd (.brk r') :: ops')
  generalize after cap (ops ++ .linkEnd (.brk r') :: ops') = s at *
  have h3 := hg'.shape.mb.part_nodup
  rw [hg'.shape.mb.hist] at h3
  have h4 : (K (s.handled ++ s.phase.rest ++ s.buffer ++ s.lost)).Nodup := by
    have hpm : (K (msgsOf s.mb.received)).Perm (K (s.handled ++ s.phase.rest ++ s.buffer ++ s.lost)) := hg'.acct.map _
    apply hpm.nodup_iff.mp
    apply (msgsOf_keys _).nodup
    simp only [List.map_append, List.nodup_append] at h3
    exact h3.1.1.1.1.1
  simp only [K_append, List.nodup_append, List.mem_append] at h4
  exact h4.2.2 m.1 (.inl (.inl (List.mem_map_of_mem hh))) m.1 (List.mem_map_of_mem h2) rfl

/-- Two messages and then the news of a killed actor arrive during `on_start`; the default `on_link_died` stops the actor,
and the one who asked gets `ActorStopped`. -/
def dropDemo : List Op :=
  [.run, .send (tell 10), .send (ask 11), .sendLinkDied 5 .killed, .startEnd .ok, .pollBegin, .recv, .recv, .recv]

example : (after none dropDemo).finished = false ∧ (after none dropDemo).phase = .linkDying 5 .killed ∧
    (after none dropDemo).polling = true ∧
    fromOutside (after none dropDemo).mb.received = [(0, tell 10), (1, ask 11)] ∧
    (after none (dropDemo ++ [.linkEnd (defaultOnLinkDied 5 .killed)])).slots 1 = .failed .actorStopped ∧
    (after none (dropDemo ++ [.linkEnd (defaultOnLinkDied 5 .killed)])).log.getLast? =
      some (.sBegin (.linkDied 5 .killed)) := by decide

/-- **C82** fails while the actor starts, whatever ends it: if the loop ends before the start-up is finished (by the news
of a death, by a failing message of the actor's own, by `kill`), every message from outside that the actor had taken from
its mailbox has been dropped, and none was handled. -/
theorem early_end_drops_all (cap : Option Nat) (ops : List Op) (hf : (after cap ops).finished = false)
    (hp : (after cap ops).phase.inLoop = false) :
    (∀ m ∈ fromOutside (after cap ops).mb.received, m ∈ (after cap ops).lost) ∧
    ∀ m ∈ (after cap ops).handled, m.2.within = true := by
  have hg := good_after cap ops
  generalize after cap ops = s at *
  have hc : s.cut = none := by
    have := hg.shape.cut
    rw [hf] at this
    cases h : s.cut with
    | none => rfl
    | some k => simp [h] at this
  have hh := (hg.ord.none hc).1
  refine ⟨fun m hm => ?_, fun m hm => ?_⟩
  · simp only [fromOutside, List.mem_filter] at hm
    have hb : s.buffer = [] := by
      by_cases hb : s.buffer = []
      · exact hb
      · have := (hg.shape.buf hb).2; rw [hp] at this; cases this
    have hr : s.phase.rest = [] := by
      by_cases hr : s.phase.rest = []
      · exact hr
      · have := hg.shape.rest hr; rw [hf] at this; cases this
    have := hg.acct.mem_iff.mp hm.1
    rw [hb, hr, hh] at this
    simp only [List.append_nil, List.mem_append, List.mem_filter] at this
    rcases this with h | h
    · have h2 := hm.2; simp [h.2] at h2
    · exact h
  · rw [hh, List.mem_filter] at hm
    exact hm.2

/-- An own message of the actor fails, and the message of someone else that was accepted before it is dropped. -/
example : let s := after none [.send (tell 10), .run, .send (self 11), .startEnd .ok, .pollBegin, .recv, .recv,
      .handlerEnd (.panic 3), .panicEnd (defaultOnPanic 3)]
    s.finished = false ∧ s.phase.inLoop = false ∧ fromOutside s.mb.received = [(0, tell 10)] ∧ s.lost = [(0, tell 10)] := by
  decide

end Verif.Lifecycle
