import Verif.Lifecycle.Turn
import Verif.Lifecycle.PropsExact

/-!
The signals that finish the start-up (`Signal::StartupFinished` and `Signal::Stop`, `src/actor/spawn.rs` L629-634, L650-654)
part the mailbox in two: whatever is ahead of one has had its turn, or was dropped, before anything behind it has.
-/

namespace Verif.Lifecycle

open Verif.Mailbox

/-- Where the start-up was finished, no signal ahead of that one could have finished it. -/
structure FirstEnd (s : St) : Prop where
  none : s.cut = none → ∀ x ∈ s.mb.received, endsStartup x.2 = false
  some : ∀ k, s.cut = some k → ∀ x ∈ s.mb.received.take (k - 1), endsStartup x.2 = false

theorem firstEnd_tr {s s' : St} (hg : Good s) (hk : Turns s) (h : FirstEnd s) (ht : Tr s s') : FirstEnd s' := by
  have happ : ∀ p : Nat × Sig, endsStartup p.2 = false → s'.mb.received = s.mb.received ++ [p] → s'.cut = s.cut →
      FirstEnd s' := by
    intro p hp h1 h2
    constructor
    · intro hn x hx
      rw [h1] at hx
      rcases List.mem_append.mp hx with hx | hx
      · exact h.none (h2 ▸ hn) x hx
      · rw [List.mem_singleton.mp hx]; exact hp
    · intro k hc x hx
      rw [h2] at hc
      have := (hk.some k hc).1
      rw [h1, List.take_append_of_le_length (by omega)] at hx
      exact h.some k hc x hx
  cases turnStep hg ht with
  | keep h1 h2 h3 h4 => exact ⟨by rw [h1, h3]; exact h.none, by rw [h1, h3]; exact h.some⟩
  | full h0 h1 h2 h3 h4 h5 => exact ⟨by rw [h4]; simp, by rw [h1]; simp⟩
  | next m ms h0 h1 h2 h3 h4 => exact ⟨by rw [h1, h3]; exact h.none, by rw [h1, h3]; exact h.some⟩
  | finish t sg hsg h0 h1 h2 h3 h4 =>
    cases hc : s.cut with
    | none =>
      rw [hc] at h4
      simp only at h4
      refine ⟨by rw [h4]; simp, ?_⟩
      intro k hk' x hx
      rw [h4] at hk'
      cases hk'
      rw [h1] at hx
      simp only [Nat.add_sub_cancel, List.take_left'] at hx
      exact h.none hc x hx
    | some k =>
      rw [hc] at h4
      simp only at h4
      refine ⟨by rw [h4]; simp, ?_⟩
      intro k' hk' x hx
      rw [h4] at hk'
      cases hk'
      have := (hk.some k hc).1
      rw [h1, List.take_append_of_le_length (by omega)] at hx
      exact h.some k hc x hx
  | msg t b h0 hw h1 h2 h3 h4 => exact happ _ rfl h1 h3
  | aside t b h0 hw hf h1 h2 h3 h4 => exact happ _ rfl h1 h3
  | news t i r h0 h1 h2 h3 h4 => exact happ _ rfl h1 h3

theorem firstEnd_after (cap : Option Nat) (ops : List Op) : FirstEnd (after cap ops) := by
  have := exec_good_inv (P := fun s => Turns s ∧ FirstEnd s)
    (fun s s' hg h ht => ⟨turns_tr hg h.1 ht, firstEnd_tr hg h.1 h.2 ht⟩) (good_after cap []) ?_ ops
  · exact this.2
  · refine ⟨turns_after cap [], ?_⟩
    constructor <;> simp [after, St.exec, St.fresh, Mb.fresh]

theorem inTurn_of_notAside {p : Nat × Sig} {c : Turn} (h : notAside p = some c) : inTurn p = some c := by
  rcases p with ⟨t, sg⟩
  cases sg with
  | msg b =>
    simp only [notAside] at h
    split at h
    · exact h
    · cases h
  | _ => first | exact h | cases h

theorem mem_fromOutside {l : List (Nat × Sig)} {m : Msg} (h : m ∈ fromOutside l) :
    ∃ p ∈ l, inTurn p = some (.msg m) := by
  simp only [fromOutside, List.mem_filter] at h
  exact ⟨_, mem_msgsOf.mp h.1, rfl⟩

/-- The message that a call is for (specification; `src/actor/kind.rs` L115). -/
def Turn.handled : Turn → Option Msg
  | .msg m => some m
  | .news _ _ => none

theorem handledOf_callsOf (log : List Ev) : (callsOf log).filterMap Turn.handled = hBegins log := by
  induction log with
  | nil => rfl
  | cons e l ih =>
    rw [callsOf_cons, List.filterMap_append, ih, hBegins_cons]
    congr 1
    cases e <;> rfl

/-- **C82** (part) and **C07** A stop request, or the signal that finishes the start-up, parts the signals taken from the
mailbox: first come the calls for signals ahead of it, and then the calls for those behind it, for each of them one and in
their order. So nothing behind it is processed before anything ahead of it, in whatever state the actor was. -/
theorem barrier_parts_calls (cap : Option Nat) (ops : List Op) (a b : List (Nat × Sig)) (t : Nat) (sg : Sig)
    (hsg : endsStartup sg = true) (hr : (after cap ops).mb.received = a ++ (t, sg) :: b) :
    ∃ first, callsOf (after cap ops).log = first ++ b.filterMap inTurn ∧ ∀ c ∈ first, ∃ p ∈ a, inTurn p = some c := by
  have hk := turns_after cap ops
  have hf := firstEnd_after cap ops
  generalize after cap ops = s at *
  cases hc : s.cut with
  | none =>
    have := hf.none hc (t, sg) (by rw [hr]; simp)
    simp only [hsg] at this
    cases this
  | some k =>
    obtain ⟨h1, h2, h3, B, h4, h5⟩ := hk.some k hc
    -- the start-up was finished at this signal or before it
    have hle : k ≤ a.length + 1 := by
      refine Nat.le_of_not_lt fun hlt => ?_
      have := hf.some k hc (t, sg) ?_
      · simp only [hsg] at this; cases this
      · rw [hr]
        have : k - 1 = a.length + 1 + (k - 2 - a.length) := by omega
        rw [this, List.take_append]
        simp
        exact .inr (by rw [show a.length + 1 + (k - 2 - a.length) - a.length = (k - 2 - a.length) + 1 by omega]; simp)
    have htake : s.mb.received.take k = (a ++ [(t, sg)]).take k := by
      rw [hr, show a ++ (t, sg) :: b = (a ++ [(t, sg)]) ++ b by simp, List.take_append_of_le_length (by simpa using hle)]
    have hdrop : s.mb.received.drop k = (a ++ [(t, sg)]).drop k ++ b := by
      rw [hr, show a ++ (t, sg) :: b = (a ++ [(t, sg)]) ++ b by simp, List.drop_append_of_le_length (by simpa using hle)]
    have hmem : ∀ p ∈ a ++ [(t, sg)], ∀ c, inTurn p = some c → p ∈ a := by
      intro p hp c hpc
      rcases List.mem_append.mp hp with hp | hp
      · exact hp
      · rw [List.mem_singleton.mp hp, (inTurn_ends t hsg).1] at hpc
        cases hpc
    rw [hdrop, List.filterMap_append, ← List.append_assoc] at h4
    refine ⟨_, h4, fun c hcm => ?_⟩
    rw [htake] at hcm h5
    simp only [List.mem_append, List.mem_filterMap, List.mem_map] at hcm
    rcases hcm with (⟨p, hp, hpc⟩ | ⟨m, hm, rfl⟩) | ⟨p, hp, hpc⟩
    · exact ⟨p, hmem p (List.mem_of_mem_take hp) c (inTurn_of_notAside hpc), inTurn_of_notAside hpc⟩
    · obtain ⟨p, hp, hpc⟩ := mem_fromOutside (h5.subset (List.mem_append_left _ hm))
      exact ⟨p, hmem p (List.mem_of_mem_take hp) _ hpc, hpc⟩
    · exact ⟨p, hmem p (List.mem_of_mem_drop hp) c hpc, hpc⟩

/-- **C05 is false** whenever a stop request is accepted between the two: if `o` was accepted ahead of a stop request and
the actor's own message `w` behind it, then `w`'s handler never runs before that of `o`, however early the actor sent it:
if `w` is handled at all, `o` was handled before or is never handled. -/
theorem stop_between_no_precedence (cap : Option Nat) (ops : List Op) (o w : Msg) (t : Nat)
    (a b c : List (Nat × Sig))
    (hacc : (after cap ops).mb.pushed = a ++ (t, .stop) :: (b ++ (w.1, .msg w.2) :: c))
    (ho : (o.1, Sig.msg o.2) ∈ a) (hw : w ∈ (after cap ops).handled) :
    ∃ h1 h2, (after cap ops).handled = h1 ++ h2 ∧ w ∈ h2 ∧ w ∉ h1 ∧ o ∉ h2 := by
  have hg := good_after cap ops
  have hnd : ((after cap ops).mb.pushed.map (·.1)).Nodup := by
    have h := (shape_after cap ops).mb.part_nodup
    simp only [List.map_append, List.nodup_append] at h
    exact h.1.1.1
  have hh := handled_after cap ops
  -- `w` was received, so the stop request was
  have hwr : (w.1, Sig.msg w.2) ∈ (after cap ops).mb.received := by
    have := hg.acct.mem_iff.mpr (List.mem_append_left _ (List.mem_append_left _ (List.mem_append_left _ hw)))
    exact mem_msgsOf.mp this
  have hpre : a ++ (t, .stop) :: b <+: (after cap ops).mb.received := by
    rcases List.prefix_or_prefix_of_prefix (received_sublist_pushed hg.shape)
      (⟨(w.1, .msg w.2) :: c, by rw [hacc]; simp⟩ : a ++ (t, .stop) :: b <+: (after cap ops).mb.pushed) with h | h
    · exfalso
      have hin := h.subset hwr
      rw [hacc, show a ++ (t, Sig.stop) :: (b ++ (w.1, .msg w.2) :: c) = (a ++ (t, .stop) :: b) ++ (w.1, .msg w.2) :: c by simp,
        List.map_append, List.nodup_append] at hnd
      exact hnd.2.2 w.1 (List.mem_map_of_mem hin) w.1 (by simp) rfl
    · exact h
  obtain ⟨d, hd⟩ := hpre
  have hrec : (after cap ops).mb.received = a ++ (t, .stop) :: (b ++ d) := by rw [← hd]; simp
  obtain ⟨first, hc, hf⟩ := barrier_parts_calls cap ops a (b ++ d) t .stop rfl hrec
  have hsub : (a ++ (t, .stop) :: (b ++ d)).map (·.1) |>.Nodup := by
    rw [← hrec]
    exact hnd.sublist ((received_sublist_pushed hg.shape).sublist.map _)
  rw [List.map_append, List.map_cons, List.nodup_append] at hsub
  rw [← handledOf_callsOf, hc, List.filterMap_append] at hh
  have hafter : ∀ m, m ∈ ((b ++ d).filterMap inTurn).filterMap Turn.handled → (m.1, Sig.msg m.2) ∈ b ++ d := by
    intro m hm
    simp only [List.mem_filterMap] at hm
    obtain ⟨x, ⟨p, hp, hpx⟩, hx⟩ := hm
    rcases p with ⟨u, sg⟩
    cases sg <;> simp only [inTurn, Option.some.injEq, reduceCtorEq] at hpx <;> subst hpx <;>
      simp only [Turn.handled, Option.some.injEq, reduceCtorEq] at hx
    subst hx
    exact hp
  have hbefore : ∀ m, m ∈ first.filterMap Turn.handled → (m.1, Sig.msg m.2) ∈ a := by
    intro m hm
    simp only [List.mem_filterMap] at hm
    obtain ⟨x, hxm, hx⟩ := hm
    obtain ⟨p, hp, hpx⟩ := hf x hxm
    rcases p with ⟨u, sg⟩
    cases sg <;> simp only [inTurn, Option.some.injEq, reduceCtorEq] at hpx <;> subst hpx <;>
      simp only [Turn.handled, Option.some.injEq, reduceCtorEq] at hx
    subst hx
    exact hp
  have hdis : ∀ m : Msg, (m.1, Sig.msg m.2) ∈ a → (m.1, Sig.msg m.2) ∈ b ++ d → False := fun m h1 h2 =>
    hsub.2.2 m.1 (List.mem_map_of_mem h1) m.1 (List.mem_cons_of_mem _ (List.mem_map_of_mem h2)) rfl
  have hwbd : (w.1, Sig.msg w.2) ∈ b ++ d := by
    rw [hrec] at hwr
    rcases List.mem_append.mp hwr with h | h
    · exfalso
      rw [hacc, List.map_append, List.nodup_append] at hnd
      exact hnd.2.2 w.1 (List.mem_map_of_mem h) w.1 (by simp) rfl
    · rcases List.mem_cons.mp h with h | h
      · cases h
      · exact h
  have hw1 : w ∉ first.filterMap Turn.handled := fun h => hdis w (hbefore w h) hwbd
  refine ⟨_, _, hh, ?_, hw1, fun h => hdis o ho (hafter o h)⟩
  rw [hh] at hw
  rcases List.mem_append.mp hw with h | h
  · exact absurd h hw1
  · exact h

/-- The message of someone else is handled before the one the actor sent itself while it started, because a stop request
came in between; it was forgotten when that handler failed. -/
example :
    let s := after none [.send (tell 10), .run, .sendStop, .send (self 11), .startEnd .ok, .pollBegin, .recv, .recv,
      .handlerEnd (.panic 1), .panicEnd .cont, .recv]
    s.mb.pushed = [(0, .msg (tell 10))] ++ (1, .stop) :: ([] ++ (2, .msg (self 11)) :: [(3, .startup)]) ∧
    s.mb.received = [(0, .msg (tell 10))] ++ (1, .stop) :: [(2, .msg (self 11))] ∧
    s.handled = [(0, tell 10), (2, self 11)] ∧
    callsOf s.log = [.msg (0, tell 10)] ++ [(2, Sig.msg (self 11))].filterMap inTurn := by decide

/-- While `on_link_died` runs the news it was called for is what was taken from the mailbox last. -/
def NewsLast (s : St) : Prop :=
  ∀ i r, s.phase = .linkDying i r → ∃ earlier t, s.mb.received = earlier ++ [(t, Sig.linkDied i r)]

theorem newsLast_tr {s s' : St} (_ : Good s) (h : NewsLast s) (ht : Tr s s') : NewsLast s' := by
  have hdr : ∀ (s0 : St) (rest : List Msg) (ts : Bool), NewsLast (s0.drain rest ts) := by
    intro s0 rest ts i r hp
    cases rest with
    | nil => cases ts <;> simp [St.drain] at hp
    | cons m ms => simp [St.drain] at hp
  cases ht with
  | recvNone => exact hdr _ _ _
  | recvStartup => exact hdr _ _ _
  | recvStop => exact hdr _ _ _
  | handlerReply => exact hdr _ _ _
  | handlerOk => exact hdr _ _ _
  | startOk hp => intro i r h'; rw [(startOk_fields s).2.1] at h'; cases h'
  | recvLink hp hpo t id r' q hq =>
    intro i r h'
    simp only [Phase.linkDying.injEq] at h'
    obtain ⟨rfl, rfl⟩ := h'
    exact ⟨s.mb.received, t, by simp [Mb.recv, hq]⟩
  | _ =>
    intro i r h'
    simp_all [NewsLast, St.step, St.stopFailed, St.startFail, St.crash, St.abortSeen]

theorem newsLast_after (cap : Option Nat) (ops : List Op) : NewsLast (after cap ops) :=
  exec_good_inv (P := NewsLast) (fun _ _ => newsLast_tr) (good_after cap []) (by intro i r h; cases h) ops

/-- **C82 is false** whenever the news of a death comes before the start-up is finished: `on_link_died` runs, and of the
messages from outside that were accepted before the news none has been handled, however many there are. -/
theorem news_overtakes_all (cap : Option Nat) (ops : List Op) (i : Id) (r : Reason)
    (hp : (after cap ops).phase = .linkDying i r) (hf : (after cap ops).finished = false) :
    (∀ m ∈ (after cap ops).handled, m.2.within = true) ∧
    ∃ earlier t, (after cap ops).mb.received = earlier ++ [(t, .linkDied i r)] ∧
      (after cap ops).buffer = fromOutside earlier := by
  have hg := good_after cap ops
  have hn := newsLast_after cap ops
  obtain ⟨earlier, t, hr⟩ := hn i r hp
  have hc : (after cap ops).cut = none := by
    have := hg.shape.cut
    rw [hf] at this
    cases h : (after cap ops).cut with
    | none => rfl
    | some k => simp [h] at this
  obtain ⟨h1, h2⟩ := hg.ord.none hc
  refine ⟨fun m hm => ?_, earlier, t, hr, ?_⟩
  · rw [h1, List.mem_filter] at hm
    exact hm.2
  · rw [h2 (by simp [hp]), hr]
    have : msgsOf [(t, Sig.linkDied i r)] = [] := rfl
    simp [fromOutside, this]

/-- Two messages from outside and one of the actor's own are ahead of the news; only the last has been handled. -/
example : let s := after none [.send (tell 10), .send (tell 11), .run, .send (self 12), .sendLinkDied 5 .normal,
      .startEnd .ok, .pollBegin, .recv, .recv, .recv, .handlerEnd (.ret (.ok 0)), .recv]
    s.phase = .linkDying 5 .normal ∧ s.finished = false ∧ s.buffer = [(0, tell 10), (1, tell 11)] ∧
    s.handled = [(2, self 12)] := by decide

end Verif.Lifecycle
