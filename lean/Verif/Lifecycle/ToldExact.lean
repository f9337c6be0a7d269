import Verif.Lifecycle.Told

/-!
C83, exactly: what the asker of a message is told is decided by what became of the message. C84, exactly: which errors of
handlers nobody hears of.
-/

namespace Verif.Lifecycle

open Verif.Mailbox

/-! ### Specification -/

/-- The message `(t, b)` was answered with `r` (`src/message.rs` L286-308, `src/reply.rs` L138-186): the handler run for
it returned `r` and had not taken the reply sender, or the reply sender taken from that run was used to send `r`. -/
def AnsweredWith (s : St) (t : Nat) (b : Body) (r : Res) : Prop :=
  .hEnd (t, b) false (.ret r) ∈ s.log ∨ .replySent t r ∈ s.log

/-- The send of the message `(t, b)` failed for the reason `w` (`src/mailbox.rs` L45-175): it never got into the mailbox. -/
def SendFailed (s : St) (t : Nat) (b : Body) (w : Mailbox.Why) : Prop := (t, Sig.msg b, w) ∈ s.mb.failed

/-! ### Lemmas -/

theorem pushed_of_handled {s : St} (hg : Good s) {m : Msg} (h : m ∈ s.handled ++ s.lost) : (m.1, Sig.msg m.2) ∈ s.mb.pushed := by
  have hr : m ∈ msgsOf s.mb.received := hg.acct.mem_iff.mpr (by
    rcases List.mem_append.mp h with h | h <;> simp [h])
  exact (received_sublist_pushed hg.shape).subset (mem_msgsOf.mp hr)

theorem stopped_pushed (cap : Option Nat) (ops : List Op) :
    ∀ t, (after cap ops).slots t = .failed .actorStopped → ∃ a, (t, a) ∈ (after cap ops).mb.pushed := by
  refine after_induct cap (P := fun _ s => ∀ t, s.slots t = .failed .actorStopped → ∃ a, (t, a) ∈ s.mb.pushed) ?_ ?_ ops
  · intro t h; simp [after, St.exec, St.fresh] at h
  · intro ops op ih t h
    have hg := good_after cap ops
    have hg' : Good ((after cap ops).step op) := good_tr hg (step_tr _ op)
    have hmono := (pushed_step (after cap ops) op).subset
    have hhand : ∀ b, (t, b) ∈ ((after cap ops).step op).handled ++ ((after cap ops).step op).lost →
        ∃ a, (t, a) ∈ ((after cap ops).step op).mb.pushed := fun b hb => ⟨_, pushed_of_handled hg' hb⟩
    have hlast : (after cap ops).step op = after cap (ops ++ [op]) := by simp [after, St.exec]
    have hen : ∀ b tk o, .hEnd (t, b) tk o ∈ ((after cap ops).step op).log → (t, b) ∈ ((after cap ops).step op).handled := by
      intro b tk o hm; rw [hlast] at hm ⊢; exact hEnd_handled cap _ hm
    have hcn : ∀ b, .hCancel (t, b) ∈ ((after cap ops).step op).log → (t, b) ∈ ((after cap ops).step op).handled := by
      intro b hm
      rw [hlast] at hm ⊢
      obtain ⟨a, c, hac⟩ := List.append_of_mem hm
      obtain ⟨p, bg, mid, h1, h2, _⟩ := one_completion_per_start cap _ a c _ hac rfl
      have hbg : bg = .hBegin (t, b) := by
        cases bg <;> simp [closes] at h2
        rw [h2]
      rw [handled_after, mem_hBegins, hac, h1, hbg]
      simp
    generalize after cap ops = s at *
    have ht := step_tr s op
    by_cases hold : s.slots t = .failed .actorStopped
    · obtain ⟨a, ha⟩ := ih t hold
      exact ⟨a, hmono ha⟩
    have hlt : t < s.mb.next := by
      apply Nat.lt_of_not_le
      intro hge
      rcases slot_new hg.shape hg.slots ht t hge with h1 | h1 | ⟨f, h1, h2, _⟩
      · rw [h] at h1; cases h1
      · rw [h] at h1; cases h1
      · rw [h] at h1; cases h1; exact h2 rfl
    cases slot_change hg.shape hg.slots ht t hlt with
    | same h1 => exact absurd (h1 ▸ h) hold
    | gaveUp _ h1 => rw [h] at h1; cases h1
    | got _ r h1 => rw [h] at h1; cases h1
    | failed hw f h1 =>
      cases lost1_tr hg ht hw h with
      | panicked b e h1 => exact hhand b (by simp [hen b _ _ h1])
      | cutOff b h1 o => exact hhand b (by simp [hcn b h1])
      | lost h1 w =>
        obtain ⟨b, hb⟩ := mem_K.mp h1
        exact hhand b (by simp [hb])
      | queue hq o e hh =>
        simp only [K, List.mem_map] at hq
        obtain ⟨⟨_, a⟩, ha, rfl⟩ := hq
        exact ⟨a, hmono (by rw [hg.shape.mb.hist]; simp [ha])⟩
      | deleg hd hd' =>
        obtain ⟨b, hb⟩ := mem_K.mp (hg.slots.d2 t (by simp [hd]))
        exact ⟨_, hmono (pushed_of_handled hg (m := (t, b)) (by simp [hb]))⟩

/-! ### C83 -/

/-- **C83** What the asker of a message is told is exactly what became of the message, once it is told anything and unless
it gave up waiting: a reply iff the message was answered with that reply; that the actor is not running, that the mailbox
is full or that it timed out iff the send failed for that reason; and that the actor stopped iff the message was accepted
by the mailbox and not answered — whether or not the actor has stopped. -/
theorem told_iff (cap : Option Nat) (ops : List Op) (t : Nat) (b : Body)
    (hs : (t, Sig.msg b) ∈ (after cap ops).mb.sent) (ha : b.ask = true)
    (hw : (after cap ops).slots t ≠ .waiting) (hg : (after cap ops).slots t ≠ .gaveUp) :
    (∀ r, (after cap ops).slots t = .got r ↔ AnsweredWith (after cap ops) t b r) ∧
    ((after cap ops).slots t = .failed .notRunning ↔ SendFailed (after cap ops) t b .closed) ∧
    ((after cap ops).slots t = .failed .full ↔ SendFailed (after cap ops) t b .full) ∧
    ((after cap ops).slots t = .failed .mailboxTimeout ↔ SendFailed (after cap ops) t b .timeout) ∧
    ((after cap ops).slots t = .failed .actorStopped ↔
      (t, Sig.msg b) ∈ (after cap ops).mb.pushed ∧ ∀ r, ¬ AnsweredWith (after cap ops) t b r) := by
  have hgd := good_after cap ops
  have hans := answers_after cap ops
  have hnd := hgd.shape.mb.part_nodup
  have hsn := hgd.shape.mb.sent_nodup
  have hstop := stopped_pushed cap ops t
  have hno : (after cap ops).slots t ≠ .none := (hgd.slots.a t).mpr ⟨b, hs, ha⟩
  have hsrep : ∀ r, .replySent t r ∈ (after cap ops).log → ∃ b, (t, b) ∈ (after cap ops).handled :=
    fun r h => (replySent_handled cap ops h).2
  have hend : ∀ tk o b', .hEnd (t, b') tk o ∈ (after cap ops).log → (t, b') ∈ (after cap ops).handled :=
    fun tk o b' hm => hEnd_handled cap ops hm
  generalize after cap ops = s at *
  -- the message of ticket `t` is `b` wherever it appears
  have hmsg : ∀ a, (t, a) ∈ s.mb.pushed ++ s.mb.granted ++ s.mb.waiting ++ s.mb.failed.map unwhy → a = Sig.msg b := by
    intro a h
    have := key_inj hsn hs (hgd.shape.mb.mem_sent h) rfl
    simpa using this.symm
  have hbody : ∀ b', (t, b') ∈ s.handled → b' = b := by
    intro b' h
    have h1 := pushed_of_handled hgd (m := (t, b')) (by simp [h])
    have := hmsg (.msg b') (by simp [h1])
    simpa using this
  have hfailOnce : ∀ w w', SendFailed s t b w → SendFailed s t b w' → w = w' := by
    intro w w' h h'
    have h1 : (s.mb.failed.map (·.1)).Nodup := by
      rw [List.map_append, List.nodup_append] at hnd
      have := hnd.2.1
      rw [List.map_map] at this
      exact this
    have := key_inj h1 h h' rfl
    simpa using this
  have hdisj : ∀ w, SendFailed s t b w → (t, Sig.msg b) ∉ s.mb.pushed := by
    intro w h hp
    rw [List.map_append, List.nodup_append] at hnd
    exact hnd.2.2 t (List.mem_map.mpr ⟨(t, .msg b), by simp [hp], rfl⟩) t
      (List.mem_map.mpr ⟨(t, .msg b), List.mem_map.mpr ⟨_, h, rfl⟩, rfl⟩) rfl
  have hansIn : ∀ r, AnsweredWith s t b r → (t, Sig.msg b) ∈ s.mb.pushed := by
    intro r h
    have : (t, b) ∈ s.handled := by
      rcases h with h | h
      · exact hend _ _ _ h
      · obtain ⟨b', h'⟩ := hsrep r h
        rwa [hbody b' h'] at h'
    exact pushed_of_handled hgd (m := (t, b)) (by simp [this])
  have hgot : ∀ r, AnsweredWith s t b r → s.slots t = .got r := by
    intro r h
    rcases h with h | h
    · rcases hans.returned (t, b) r h ha with h1 | h1
      · exact h1
      · exact absurd h1 hg
    · rcases hans.sent t r h with h1 | h1
      · exact h1
      · exact absurd h1 hg
  have hgot' : ∀ r, s.slots t = .got r → AnsweredWith s t b r := by
    intro r h
    rcases hans.got t r h with ⟨⟨t', b'⟩, rfl, h1⟩ | h1
    · obtain rfl := hbody b' (hend _ _ _ h1)
      exact Or.inl h1
    · exact Or.inr h1
  have hfail : ∀ f, s.slots t = .failed f → f ≠ .actorStopped → ∃ w, whyOf f = some w ∧ SendFailed s t b w := by
    intro f h hne
    rcases hans.failed t f h with h1 | ⟨b', w, h1, h2⟩
    · exact absurd h1 hne
    · refine ⟨w, h1, ?_⟩
      have := hmsg (.msg b') (by
        refine List.mem_append_right _ (List.mem_map.mpr ⟨_, h2, rfl⟩))
      simp at this
      exact this ▸ h2
  have hstop' : s.slots t = .failed .actorStopped → (t, Sig.msg b) ∈ s.mb.pushed := by
    intro h
    obtain ⟨a, h1⟩ := hstop h
    obtain rfl := hmsg a (by simp [h1])
    exact h1
  have hwhy : ∀ w f, whyOf f = some w → (s.slots t = .failed f ↔ SendFailed s t b w) := by
    intro w f hwf
    constructor
    · intro h
      obtain ⟨w', h1, h2⟩ := hfail f h (by rintro rfl; simp [whyOf] at hwf)
      rw [hwf] at h1
      cases h1
      exact h2
    · intro h
      cases hsl : s.slots t with
      | none => exact absurd hsl hno
      | waiting => exact absurd hsl hw
      | gaveUp => exact absurd hsl hg
      | got r => exact absurd (hansIn r (hgot' r hsl)) (hdisj w h)
      | failed f' =>
        by_cases hf : f' = .actorStopped
        · subst hf; exact absurd (hstop' hsl) (hdisj w h)
        · obtain ⟨w', h1, h2⟩ := hfail f' hsl hf
          obtain rfl := hfailOnce w w' h h2
          have : f = f' := by
            cases f <;> cases f' <;> simp [whyOf] at hwf h1 <;> first | rfl | (subst hwf; cases h1)
          rw [this]
  refine ⟨fun r => ⟨hgot' r, hgot r⟩, hwhy _ _ rfl, hwhy _ _ rfl, hwhy _ _ rfl, ?_, ?_⟩
  · intro h
    refine ⟨hstop' h, fun r hr => ?_⟩
    rw [hgot r hr] at h
    cases h
  · rintro ⟨h1, h2⟩
    cases hsl : s.slots t with
    | none => exact absurd hsl hno
    | waiting => exact absurd hsl hw
    | gaveUp => exact absurd hsl hg
    | got r => exact absurd (hgot' r hsl) (h2 r)
    | failed f =>
      by_cases hf : f = .actorStopped
      · rw [hf]
      · obtain ⟨w, _, h4⟩ := hfail f hsl hf
        exact absurd h1 (hdisj w h4)

/-- A handler answered, one was cut off, one message was never handled, and one send failed; a handler took the reply
sender and it was dropped; a send without waiting found the mailbox full, and one was given up. -/
example : (after none askDemo).slots 1 = .got (.ok 7) ∧ (after none askDemo).slots 2 = .failed .actorStopped ∧
    (after none askDemo).slots 3 = .failed .actorStopped ∧ (after none askDemo).slots 4 = .failed .notRunning ∧
    (after none takeDropDemo).slots 1 = .failed .actorStopped ∧ (1, Sig.msg (ask 10)) ∈ (after none takeDropDemo).mb.sent ∧
    (after (some 1) fullDemo).slots 2 = .failed .full ∧
    (after (some 1) [.send (tell 10), .send (ask 11), .cancel 1]).slots 1 = .failed .mailboxTimeout := by decide

/-! ### C84 -/

/-- **C84** Nobody hears of the error a handler ended with — `on_panic` is not called next with it, and no asker is told —
exactly if the handler returned it in answer to an ask, had not taken the reply sender, and the asker has given up. -/
theorem error_unheard_iff (cap : Option Nat) (ops : List Op) (pre post : List Ev) (m : Msg) (tk : Bool) (o : HOut)
    (e : Err) (hlog : (after cap ops).log = pre ++ .hEnd m tk o :: post) (ho : o.error = some e) :
    ((¬ ∃ mid post', post = mid ++ .pBegin e :: post' ∧ ∀ x ∈ mid, x.isBegin = false ∧ x.isEnd = false) ∧
      (after cap ops).slots m.1 ≠ .got (.err e)) ↔
    (o = .ret (.err e) ∧ m.2.ask = true ∧ tk = false ∧ (after cap ops).slots m.1 = .gaveUp) := by
  constructor
  · rintro ⟨h1, h2⟩
    rcases error_heard_partial cap ops pre post m tk o e hlog ho with h | ⟨h3, h4, h5, h6⟩
    · exact absurd h h1
    · exact ⟨h3, h4, h5, h6.resolve_left h2⟩
  · rintro ⟨rfl, ha, rfl, hg⟩
    refine ⟨?_, by rw [hg]; simp⟩
    rintro ⟨mid, post', h1, h2⟩
    exact (ask_error_goes_to_asker cap ops pre post m e ha hlog).2 mid _ post' h1 h2 rfl e rfl

/-- A tell whose error is heard, an ask whose error is told, and one whose error nobody hears of. -/
example : (after none (unheardDemo ++ [.handlerEnd (.ret (.err 5)), .recv])).log =
      [.startBegin, .startEnd .ok, .hBegin (1, ask 10)] ++ .hEnd (1, ask 10) false (.ret (.err 5)) :: [.hBegin (2, tell 11)] ∧
    (after none unheardDemo).slots 1 = .gaveUp ∧ (after none askErrDemo).slots 1 = .got (.err 5) := by decide

end Verif.Lifecycle
