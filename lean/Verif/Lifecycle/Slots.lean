import Verif.Lifecycle.Log

/-! Reply slots: who holds the reply sender of each pending ask. -/

set_option linter.unusedSimpArgs false

namespace Verif.Lifecycle

open Verif.Mailbox

/-- Tickets. -/
def K {α : Type} (l : List (Nat × α)) : List Nat := l.map (·.1)

@[simp] theorem K_nil {α : Type} : K ([] : List (Nat × α)) = [] := rfl
@[simp] theorem K_cons {α : Type} (p : Nat × α) (l) : K (p :: l) = p.1 :: K l := rfl
@[simp] theorem K_append {α : Type} (a b : List (Nat × α)) : K (a ++ b) = K a ++ K b := by simp [K]

/-- Tickets inside the mailbox. -/
def mbK (m : Mb Sig) : List Nat := K m.queue ++ K m.granted ++ K m.waiting

/-- Ticket of the running handler while its context still holds the reply sender. -/
def Phase.cur : Phase → List Nat
  | .handling m false _ _ => [m.1]
  | _ => []

section
variable (m : Msg) (tk ts b : Bool) (rs : List Msg) (i : Id) (r : Reason) (e : Err)
  (p : List Id) (x : Option Err)
@[simp] theorem cur_prepared : Phase.prepared.cur = [] := rfl
@[simp] theorem cur_starting : Phase.starting.cur = [] := rfl
@[simp] theorem cur_idle : Phase.idle.cur = [] := rfl
@[simp] theorem cur_handling : (Phase.handling m tk rs ts).cur = if tk then [] else [m.1] := by
  cases tk <;> rfl
@[simp] theorem cur_linkDying : (Phase.linkDying i r).cur = [] := rfl
@[simp] theorem cur_panicking : (Phase.panicking e).cur = [] := rfl
@[simp] theorem cur_startPanicking : (Phase.startPanicking e).cur = [] := rfl
@[simp] theorem cur_stopping : (Phase.stopping r p b).cur = [] := rfl
@[simp] theorem cur_notifying : (Phase.notifying r p x).cur = [] := rfl
@[simp] theorem cur_stopped : (Phase.stopped r).cur = [] := rfl
@[simp] theorem cur_crashed : Phase.crashed.cur = [] := rfl
end

/-- Somebody still holds the reply sender of `t` (or the message with ticket `t`). -/
def live (s : St) (t : Nat) : Prop :=
  t ∈ mbK s.mb ∨ t ∈ K s.buffer ∨ t ∈ K s.phase.rest ∨ t ∈ s.phase.cur ∨ t ∈ s.delegated

/-! Mailbox tickets. -/

theorem mbK_lt {m : Mb Sig} (h : Inv m) {t : Nat} (ht : t ∈ mbK m) : t < m.next := by
  have : ∃ p ∈ m.queue ++ m.granted ++ m.waiting, p.1 = t := by
    simp only [mbK, K, List.mem_append, List.mem_map] at ht
    simp only [List.mem_append]
    rcases ht with (⟨p, h1, h2⟩ | ⟨p, h1, h2⟩) | ⟨p, h1, h2⟩
    · exact ⟨p, Or.inl (Or.inl h1), h2⟩
    · exact ⟨p, Or.inl (Or.inr h1), h2⟩
    · exact ⟨p, Or.inr h1, h2⟩
  obtain ⟨p, hp, rfl⟩ := this
  apply h.sent_lt p
  apply h.mem_sent
  rw [h.hist]
  simp only [List.mem_append] at hp ⊢
  rcases hp with (hp | hp) | hp <;> simp [hp]

theorem mem_mbK_send {m : Mb Sig} {a : Sig} {t : Nat} :
    t ∈ mbK (m.send a) ↔ t ∈ mbK m ∨ (t = m.next ∧ m.closed = false) := by
  simp only [Mb.send, Mb.bump, Mb.push]
  split
  · simp [mbK, *]
  · split
    · simp [mbK, *]; grind
    · simp [mbK, *]; grind

theorem mem_mbK_trySend {m : Mb Sig} {a : Sig} {t : Nat} :
    t ∈ mbK (m.trySend a) ↔ t ∈ mbK m ∨ (t = m.next ∧ m.closed = false ∧ m.hasRoom = true) := by
  simp only [Mb.trySend, Mb.bump, Mb.push]
  split
  · simp [mbK, *]
  · split
    · simp [mbK, *]; grind
    · simp [mbK, *]

theorem mem_K {α : Type} {l : List (Nat × α)} {t : Nat} : t ∈ K l ↔ ∃ a, (t, a) ∈ l := by
  simp [K]

theorem mem_K_filter {α : Type} {l : List (Nat × α)} {t x : Nat} :
    x ∈ K (l.filter (fun p => p.1 != t)) ↔ x ∈ K l ∧ x ≠ t := by
  simp [mem_K]

theorem mem_mbK_release {m : Mb Sig} {x : Nat} : x ∈ mbK m.release ↔ x ∈ mbK m := by
  unfold Mb.release
  split
  · rfl
  · next w ws hw => simp [mbK, hw]

theorem mem_mbK_poll {m : Mb Sig} {t x : Nat} : x ∈ mbK (m.poll t) ↔ x ∈ mbK m := by
  unfold Mb.poll
  split
  · rfl
  · next p hf =>
    obtain ⟨hk, hm⟩ := find_key hf
    have hmem : t ∈ K m.granted := by rw [mem_K]; exact ⟨p.2, by rw [← hk]; exact hm⟩
    simp only [Mb.push, mbK, K_append, List.mem_append, mem_K_filter, K_cons, K_nil,
      List.mem_singleton]
    grind

/-- The mailbox tickets are distinct. -/
theorem mbK_nodup {m : Mb Sig} (h : Inv m) : (mbK m).Nodup := by
  have := h.part_nodup
  rw [h.hist] at this
  simp only [List.map_append, List.nodup_append, List.mem_append] at this
  simp only [mbK, K, List.nodup_append, List.mem_append]
  grind

theorem mem_mbK_cancel {m : Mb Sig} (h : Inv m) {t x : Nat} :
    x ∈ mbK (m.cancel t) ↔
      x ∈ mbK m ∧ ¬ (x = t ∧ t ∈ (m.waiting ++ m.granted).map (·.1)) := by
  have hnd := mbK_nodup h
  simp only [mbK, List.nodup_append, List.mem_append] at hnd
  have key : ∀ {l : List (Nat × Sig)}, l.find? (fun p => p.1 == t) = none → t ∉ K l := by
    intro l hl ht
    obtain ⟨a, ha⟩ := mem_K.mp ht
    have := List.find?_eq_none.mp hl _ ha
    simp at this
  unfold Mb.cancel
  split
  · next p hf =>
    obtain ⟨hk, hm⟩ := find_key hf
    have hmem : t ∈ K m.waiting := by rw [mem_K]; exact ⟨p.2, by rw [← hk]; exact hm⟩
    have hmem2 : t ∈ (m.waiting ++ m.granted).map (·.1) := by simp [K] at hmem ⊢; exact Or.inl hmem
    simp only [mbK, List.mem_append, mem_K_filter]
    grind
  · next hw =>
    have hw := key hw
    split
    · next p hf =>
      obtain ⟨hk, hm⟩ := find_key hf
      have hmem : t ∈ K m.granted := by rw [mem_K]; exact ⟨p.2, by rw [← hk]; exact hm⟩
      have hmem2 : t ∈ (m.waiting ++ m.granted).map (·.1) := by
        simp [K] at hmem ⊢; exact Or.inr hmem
      rw [mem_mbK_release]
      simp only [mbK, List.mem_append, mem_K_filter]
      grind
    · next hg =>
      have hg := key hg
      have : t ∉ (m.waiting ++ m.granted).map (·.1) := by
        simp only [List.map_append, List.mem_append]
        rintro (h | h)
        · exact hw h
        · exact hg h
      grind

theorem mem_mbK_recv {m : Mb Sig} (h : Inv m) {p : Nat × Sig} {q : List (Nat × Sig)}
    (hq : m.queue = p :: q) {x : Nat} : x ∈ mbK m.recv ↔ x ∈ mbK m ∧ x ≠ p.1 := by
  have hnd := mbK_nodup h
  simp only [mbK, hq, List.nodup_append, List.mem_append, K_cons, List.nodup_cons,
    List.mem_cons] at hnd
  simp only [Mb.recv, hq]
  rw [mem_mbK_release]
  simp only [mbK, hq, K_cons, List.mem_append, List.mem_cons]
  grind

@[simp] theorem mbK_close (m : Mb Sig) : mbK m.close = [] := rfl

/-- Everything in flight is in one place only. -/
structure Distinct (s : St) : Prop where
  mbHandled : ∀ t, t ∈ mbK s.mb → t ∉ K s.handled
  mbBuffer : ∀ t, t ∈ mbK s.mb → t ∉ K s.buffer
  mbRest : ∀ t, t ∈ mbK s.mb → t ∉ K s.phase.rest
  bufHandled : ∀ t, t ∈ K s.buffer → t ∉ K s.handled
  bufRest : ∀ t, t ∈ K s.buffer → t ∉ K s.phase.rest
  restHandled : ∀ t, t ∈ K s.phase.rest → t ∉ K s.handled
  handledNodup : (K s.handled).Nodup
  bufNodup : (K s.buffer).Nodup
  restNodup : (K s.phase.rest).Nodup

theorem msgsOf_keys (l : List (Nat × Sig)) : (K (msgsOf l)).Sublist (K l) := by
  induction l with
  | nil => simp
  | cons p l ih =>
    obtain ⟨t, sg⟩ := p
    have : msgsOf ((t, sg) :: l) = msgsOf [(t, sg)] ++ msgsOf l := by
      rw [← msgsOf_append]; rfl
    rw [this]
    cases sg <;> simp [ih] <;> exact List.Sublist.cons _ ih

theorem distinct_of {s : St} (hs : Shape s) (ha : Acct s s.phase.rest) : Distinct s := by
  have h1 := hs.mb.part_nodup
  rw [hs.mb.hist] at h1
  have h2 : (K (s.handled ++ s.phase.rest ++ s.buffer ++ s.lost)).Nodup := by
    have hp : (K (msgsOf s.mb.received)).Perm (K (s.handled ++ s.phase.rest ++ s.buffer ++ s.lost)) :=
      ha.map _
    apply hp.nodup_iff.mp
    apply (msgsOf_keys _).nodup
    simp only [List.map_append, List.nodup_append] at h1
    exact h1.1.1.1.1.1
  have h3 : ∀ t ∈ mbK s.mb, t ∉ K (s.handled ++ s.phase.rest ++ s.buffer ++ s.lost) := by
    intro t ht hc
    have hr : t ∈ K s.mb.received := by
      apply (msgsOf_keys _).subset
      exact ((ha.map (·.1)).mem_iff).mpr hc
    simp only [List.map_append, List.nodup_append, List.mem_append] at h1
    simp only [mbK, K, List.mem_append] at ht hr
    grind
  simp only [K_append, List.nodup_append, List.mem_append] at h2 h3
  constructor <;> grind

structure Slots (s : St) : Prop where
  d1 : (s.phase.cur ++ s.delegated).Nodup
  d2 : ∀ t ∈ s.phase.cur ++ s.delegated, t ∈ K s.handled
  w : ∀ t, s.slots t = .waiting → live s t
  v : ∀ t, live s t → s.slots t = .waiting ∨ s.slots t = .gaveUp ∨ s.slots t = .none
  a : ∀ t, s.slots t ≠ .none ↔ ∃ b, (t, Sig.msg b) ∈ s.mb.sent ∧ b.ask = true


@[simp] theorem send_sent (m : Mb Sig) (a : Sig) : (m.send a).sent = m.sent ++ [(m.next, a)] := by
  simp only [Mb.send, Mb.bump, Mb.push]; (repeat' split) <;> simp
@[simp] theorem trySend_sent (m : Mb Sig) (a : Sig) :
    (m.trySend a).sent = m.sent ++ [(m.next, a)] := by
  simp only [Mb.trySend, Mb.bump, Mb.push]; (repeat' split) <;> simp
@[simp] theorem poll_sent (m : Mb Sig) (t : Nat) : (m.poll t).sent = m.sent := by
  simp only [Mb.poll, Mb.push]; split <;> rfl
@[simp] theorem cancel_sent (m : Mb Sig) (t : Nat) : (m.cancel t).sent = m.sent := by
  simp only [Mb.cancel]; (repeat' split) <;> simp
@[simp] theorem recv_sent (m : Mb Sig) : m.recv.sent = m.sent := by
  simp only [Mb.recv]; split <;> simp
@[simp] theorem close_sent (m : Mb Sig) : m.close.sent = m.sent := rfl

theorem slots_keep {s s' : St} (h : Slots s)
    (hs : ∀ t b, (t, Sig.msg b) ∈ s'.mb.sent ↔ (t, Sig.msg b) ∈ s.mb.sent)
    (hd1 : (s'.phase.cur ++ s'.delegated).Nodup)
    (hd2 : ∀ t ∈ s'.phase.cur ++ s'.delegated, t ∈ K s'.handled)
    (hl : ∀ t, live s' t → live s t ∧ s'.slots t = s.slots t)
    (hn : ∀ t, ¬ live s' t → (s'.slots t = s.slots t ∧ s.slots t ≠ .waiting) ∨
      (s.slots t = .waiting ∧ s'.slots t ≠ .waiting ∧ s'.slots t ≠ .none)) : Slots s' := by
  obtain ⟨h1, h2, h3, h4, h5⟩ := h
  refine ⟨hd1, hd2, ?_, ?_, ?_⟩
  · intro t ht
    apply Classical.byContradiction
    intro hc
    rcases hn t hc with h | h
    · exact h.2 (h.1 ▸ ht)
    · exact h.2.1 ht
  · intro t ht
    obtain ⟨a, b⟩ := hl t ht
    rw [b]; exact h4 t a
  · intro t
    have : s'.slots t ≠ .none ↔ s.slots t ≠ .none := by
      by_cases hc : live s' t
      · rw [(hl t hc).2]
      · rcases hn t hc with h | h
        · rw [h.1]
        · simp [h]
    rw [this, h5]
    constructor
    · rintro ⟨b, hb, ha⟩; exact ⟨b, (hs t b).mpr hb, ha⟩
    · rintro ⟨b, hb, ha⟩; exact ⟨b, (hs t b).mp hb, ha⟩

theorem live_drain {s : St} {rest : List Msg} {ts : Bool} (hb : ts = true → s.buffer = []) {t : Nat} :
    live (s.drain rest ts) t ↔
      t ∈ mbK s.mb ∨ t ∈ K s.buffer ∨ t ∈ K rest ∨ t ∈ s.delegated := by
  cases rest with
  | cons m ms => simp [live, St.drain]; grind
  | nil => cases ts <;> simp_all [live, St.drain]

theorem drain_slots {s : St} {rest : List Msg} {ts : Bool} (hb : ts = true → s.buffer = []) :
    (s.drain rest ts).slots = s.slots := by
  cases rest with
  | cons m ms => rfl
  | nil => cases ts <;> simp_all [St.drain, St.dropReplies]

theorem slots_drain {s s' : St} {rest : List Msg} {ts : Bool} (h : Slots s)
    (hb : ts = true → s'.buffer = [])
    (hs : ∀ t b, (t, Sig.msg b) ∈ s'.mb.sent ↔ (t, Sig.msg b) ∈ s.mb.sent)
    (hdl : s'.delegated = s.delegated) (hh : s'.handled = s.handled)
    (hr : ∀ t ∈ K rest, t ∉ K s.handled)
    (hl : ∀ t, (t ∈ mbK s'.mb ∨ t ∈ K s'.buffer ∨ t ∈ K rest ∨ t ∈ s.delegated) →
      live s t ∧ s'.slots t = s.slots t)
    (hn : ∀ t, ¬ (t ∈ mbK s'.mb ∨ t ∈ K s'.buffer ∨ t ∈ K rest ∨ t ∈ s.delegated) →
      (s'.slots t = s.slots t ∧ s.slots t ≠ .waiting) ∨
      (s.slots t = .waiting ∧ s'.slots t ≠ .waiting ∧ s'.slots t ≠ .none)) :
    Slots (s'.drain rest ts) := by
  have hd1 := h.d1
  have hd2 := h.d2
  apply slots_keep h
  · simpa using hs
  · rw [drain_delegated, hdl]
    cases rest with
    | cons m ms =>
      simp only [St.drain, beginHandle_phase, cur_handling]
      simp only [List.nodup_append, List.mem_append] at hd1 hd2 ⊢
      simp at hr ⊢
      grind
    | nil => cases ts <;> simp_all [St.drain, List.nodup_append]
  · rw [drain_delegated, hdl]
    cases rest with
    | cons m ms =>
      simp only [St.drain, beginHandle_phase, cur_handling, beginHandle_handled, hh]
      simp only [K_append, List.mem_append] at hd2 ⊢
      simp at hr ⊢
      grind
    | nil => cases ts <;> simp_all [St.drain, List.nodup_append]
  · intro t ht
    rw [live_drain hb, hdl] at ht
    rw [drain_slots hb]
    exact hl t ht
  · intro t ht
    rw [live_drain hb, hdl] at ht
    rw [drain_slots hb]
    exact hn t ht

theorem slots_new {s s' : St} (h : Slots s)
    (a : Sig) (hb : ∀ b, a = .msg b → b.ask = false)
    (hsl : s'.slots = s.slots) (hph : s'.phase = s.phase) (hdl : s'.delegated = s.delegated)
    (hh : s'.handled = s.handled) (hbu : s'.buffer = s.buffer)
    (hse : s'.mb.sent = s.mb.sent ++ [(s.mb.next, a)])
    (hmb : ∀ t, t ∈ mbK s'.mb → t ∈ mbK s.mb ∨ t = s.mb.next)
    (hmb' : ∀ t, t ∈ mbK s.mb → t ∈ mbK s'.mb)
    (hfr : s.slots s.mb.next = .none) : Slots s' := by
  obtain ⟨h1, h2, h3, h4, h5⟩ := h
  refine ⟨by rw [hph, hdl]; exact h1, by rw [hph, hdl, hh]; exact h2, ?_, ?_, ?_⟩
  · intro t ht
    rw [hsl] at ht
    have := h3 t ht
    unfold live at *
    rw [hph, hdl, hbu]
    grind
  · intro t ht
    rw [hsl]
    by_cases hc : t = s.mb.next
    · rw [hc, hfr]; simp
    · apply h4
      unfold live at *
      rw [hph, hdl, hbu] at ht
      grind
  · intro t
    rw [hsl, h5, hse]
    constructor
    · rintro ⟨b, hb1, hb2⟩; exact ⟨b, by simp [hb1], hb2⟩
    · rintro ⟨b, hb1, hb2⟩
      simp at hb1
      rcases hb1 with hb1 | ⟨rfl, rfl⟩
      · exact ⟨b, hb1, hb2⟩
      · exact absurd hb2 (by simp [hb b rfl])

theorem slots_ask {s s' : St} (h : Slots s) (hnx : ∀ t, live s t → t < s.mb.next)
    (b : Body) (hb : b.ask = true) (v : Slot) (hv : v ≠ .none)
    (hsl : s'.slots = setSlot s.slots s.mb.next v) (hph : s'.phase = s.phase)
    (hdl : s'.delegated = s.delegated)
    (hh : s'.handled = s.handled) (hbu : s'.buffer = s.buffer)
    (hse : s'.mb.sent = s.mb.sent ++ [(s.mb.next, .msg b)])
    (hmb : ∀ t, t ∈ mbK s'.mb ↔ t ∈ mbK s.mb ∨ (t = s.mb.next ∧ v = .waiting)) : Slots s' := by
  obtain ⟨h1, h2, h3, h4, h5⟩ := h
  refine ⟨by rw [hph, hdl]; exact h1, by rw [hph, hdl, hh]; exact h2, ?_, ?_, ?_⟩
  · intro t ht
    rw [hsl] at ht
    have := h3 t
    unfold live setSlot at *
    rw [hph, hdl, hbu]
    grind
  · intro t ht
    rw [hsl]
    have := h4 t
    have := hnx t
    unfold live setSlot at *
    rw [hph, hdl, hbu] at ht
    grind
  · intro t
    rw [hsl, hse]
    have h5 := h5 t
    unfold setSlot
    by_cases hc : t = s.mb.next
    · simp [hc, hv]; exact Or.inr hb
    · simp [hc]; simpa using h5

theorem live_lt {s : St} (hs : Shape s) (ha : Acct s s.phase.rest) (h : Slots s) {t : Nat}
    (ht : live s t) : t < s.mb.next := by
  have hrec : ∀ t, t ∈ K (s.handled ++ s.phase.rest ++ s.buffer ++ s.lost) → t < s.mb.next := by
    intro t ht
    have hr : t ∈ K s.mb.received := by
      apply (msgsOf_keys _).subset
      exact ((ha.map (·.1)).mem_iff).mpr ht
    obtain ⟨a, ha⟩ := mem_K.mp hr
    apply hs.mb.sent_lt (t, a)
    apply hs.mb.mem_sent
    rw [hs.mb.hist]
    simp [ha]
  simp only [K_append, List.mem_append] at hrec
  have hd := h.d2
  simp only [List.mem_append] at hd
  rcases ht with h | h | h | h | h
  · exact mbK_lt hs.mb h
  · exact hrec t (Or.inl (Or.inr h))
  · exact hrec t (Or.inl (Or.inl (Or.inr h)))
  · exact hrec t (Or.inl (Or.inl (Or.inl (hd t (Or.inl h)))))
  · exact hrec t (Or.inl (Or.inl (Or.inl (hd t (Or.inr h)))))

theorem slots_fresh {s : St} (hs : Shape s) (h : Slots s) {t : Nat} (ht : s.mb.next ≤ t) :
    s.slots t = .none := by
  apply Classical.byContradiction
  intro hc
  obtain ⟨b, hb, _⟩ := (h.a t).mp hc
  have := hs.mb.sent_lt _ hb
  simp at this
  omega


theorem dropReplies_slots (s : St) (ts : List Nat) (t : Nat) : (s.dropReplies ts).slots t =
    if s.slots t = .waiting ∧ t ∈ ts then .failed .actorStopped else s.slots t := rfl
theorem failSends_slots (s : St) (ts : List Nat) (f : Fail) (t : Nat) : (s.failSends ts f).slots t =
    if s.slots t = .waiting ∧ t ∈ ts then .failed f else s.slots t := rfl

theorem closeMb_slots (s : St) (t : Nat) : ∃ f, s.closeMb.slots t =
    if s.slots t = .waiting ∧ t ∈ mbK s.mb then .failed f else s.slots t := by
  by_cases h : t ∈ K s.mb.queue
  · refine ⟨.actorStopped, ?_⟩
    simp only [St.closeMb, St.failSends, St.dropReplies, mbK]
    simp only [K, List.map_append, List.mem_append] at *
    grind
  · refine ⟨.notRunning, ?_⟩
    simp only [St.closeMb, St.failSends, St.dropReplies, mbK]
    simp only [K, List.map_append, List.mem_append] at *
    grind

theorem reply_slots (s : St) (x : Nat) (r : Res) (t : Nat) : (s.reply x r).slots t =
    if t = x ∧ s.slots t = .waiting then .got r else s.slots t := by
  unfold St.reply
  split
  · simp [setSlot]; grind
  · grind

/-- Slots after the task was torn down or returned: nothing the actor or its mailbox held is
still waiting. -/
theorem die_slots (s : St) (t : Nat) : ∃ f, s.die.slots t =
    if s.slots t = .waiting ∧ (t ∈ mbK s.mb ∨ t ∈ K s.buffer) then .failed f else s.slots t := by
  have h1 : s.die.slots t = (s.lose s.buffer).closeMb.slots t := rfl
  obtain ⟨f, hf⟩ := closeMb_slots (s.lose s.buffer) t
  rw [h1, hf]
  simp only [lose_slots, dropReplies_slots, lose_mb]
  by_cases hb : t ∈ K s.buffer
  · refine ⟨.actorStopped, ?_⟩
    have : t ∈ s.buffer.map (·.1) := hb
    grind
  · refine ⟨f, ?_⟩
    have : t ∉ s.buffer.map (·.1) := hb
    grind

theorem cancelRunning_slots (s : St) (t : Nat) : s.cancelRunning.slots t =
    if s.slots t = .waiting ∧ (t ∈ s.phase.cur ∨ t ∈ K s.phase.rest) then .failed .actorStopped
    else s.slots t := by
  cases hp : s.phase
  case handling m tk rs ts =>
    simp only [St.cancelRunning, hp, ev_slots, lose_slots, dropReplies_slots, cur_handling, rest_handling]
    have : ∀ x, x ∈ rs.map (·.1) ↔ x ∈ K rs := fun x => Iff.rfl
    cases tk <;> simp [this] <;> grind
  all_goals simp [St.cancelRunning, hp]

theorem K_def {α : Type} (l : List (Nat × α)) : l.map (·.1) = K l := rfl

theorem sig_slot {s : St} (hs : Shape s) (h : Slots s) {t : Nat} {sg : Sig}
    (hn : ∀ b, sg ≠ .msg b) (hm : (t, sg) ∈ s.mb.queue) : s.slots t = .none := by
  apply Classical.byContradiction
  intro hc
  obtain ⟨b, hb, hask⟩ := (h.a t).mp hc
  have h2 : (t, sg) ∈ s.mb.sent := by
    apply hs.mb.mem_sent
    rw [hs.mb.hist]
    simp [hm]
  have := key_inj hs.mb.sent_nodup hb h2 rfl
  simp at this
  exact hn b this.symm

theorem startOk_fields (s : St) : s.startOk.mb = s.mb.trySend .startup ∧ s.startOk.phase = .idle ∧
    s.startOk.handled = s.handled ∧ s.startOk.delegated = s.delegated ∧
    s.startOk.slots = s.slots ∧ (s.buffer = [] → s.startOk.buffer = []) ∧
    s.startOk.lost = s.lost := by
  unfold St.startOk
  simp only
  split <;> simp

/-- The running handler's message is among the handled ones. -/
def CurH (s : St) : Prop := ∀ m tk rs ts, s.phase = .handling m tk rs ts → m ∈ s.handled

theorem curH_drain (s : St) (rest : List Msg) (ts : Bool) : CurH (s.drain rest ts) := by
  intro m tk rs ts' hp
  cases rest with
  | cons m' ms => simp [St.drain] at hp ⊢; simp [hp]
  | nil => cases ts <;> simp [St.drain] at hp

theorem curH_tr {s s' : St} (h : CurH s) (ht : Tr s s') : CurH s' := by
  cases ht with
  | recvNone hp _ _ _ => exact curH_drain _ _ _
  | recvStartup hp hpo t q hq => exact curH_drain _ _ _
  | recvStop hp hpo t q hq => exact curH_drain _ _ _
  | handlerReply m rest ts res hp hpo ha => exact curH_drain _ _ _
  | handlerOk m taken rest ts v hp hpo ha => exact curH_drain _ _ _
  | startOk hp => intro m tk rs ts h1; rw [(startOk_fields s).2.1] at h1; simp at h1
  | takeReply m rest ts hp hpo ha =>
    intro m' tk rs ts h1
    simp at h1
    rw [← h1.1]
    exact h m _ _ _ hp
  | _ =>
    intro m tk rs ts h1
    have hh := h m tk rs ts
    clear h
    try simp [St.step, St.abortSeen, St.stopFailed, St.startFail] at h1 ⊢
    try exact hh h1
    try simp_all

theorem handled_sent {s : St} (hs : Shape s) (ha : Acct s s.phase.rest) {m : Msg}
    (hm : m ∈ s.handled ++ s.phase.rest ++ s.buffer ++ s.lost) : (m.1, Sig.msg m.2) ∈ s.mb.sent := by
  have : m ∈ msgsOf s.mb.received := ha.mem_iff.mpr hm
  rw [mem_msgsOf] at this
  apply hs.mb.mem_sent
  rw [hs.mb.hist]
  simp [this]

theorem tell_slot {s : St} (hs : Shape s) (ha : Acct s s.phase.rest) (h : Slots s) {m : Msg}
    (hm : m ∈ s.handled) (ht : m.2.ask = false) : s.slots m.1 = .none := by
  apply Classical.byContradiction
  intro hc
  obtain ⟨b, hb, hask⟩ := (h.a m.1).mp hc
  have := key_inj hs.mb.sent_nodup hb (handled_sent hs ha (m := m) (by simp [hm])) rfl
  simp at this
  simp [this, ht] at hask

set_option hygiene false in
local macro "at_phase" hp:term : tactic =>
  `(tactic| (
    rw [$hp:term] at d1 d2 hw e3 e5 e6 e9
    simp only [cur_idle, cur_handling, cur_linkDying, cur_panicking,
      cur_startPanicking, cur_starting, cur_prepared, cur_stopping, cur_notifying, rest_idle,
      rest_handling, rest_linkDying, rest_panicking, rest_startPanicking, rest_starting,
      rest_prepared, rest_stopping, rest_notifying, K_nil, List.not_mem_nil, false_or, or_false,
      Bool.false_eq_true, if_false, if_true, List.mem_singleton, List.nodup_nil, true_and,
      false_implies, implies_true, not_false_eq_true, and_true] at d1 d2 hw e3 e5 e6 e9))

theorem slots_tr {s s' : St} (hs : Shape s) (hac : Acct s s.phase.rest) (hcur : CurH s) (h : Slots s)
    (ht : Tr s s') : Slots s' := by
  have hD := distinct_of hs hac
  have hlt := fun t => live_lt hs hac h (t := t)
  have hfr := slots_fresh hs h (Nat.le_refl s.mb.next)
  have d1 := h.d1
  have d2 := h.d2
  have hw := h.w
  obtain ⟨e1, e2, e3, e4, e5, e6, e7, e8, e9⟩ := hD
  simp only [List.nodup_append, List.mem_append] at d1 d2
  simp only [live] at hw
  cases ht with
  | refl => exact h
  | send b =>
    by_cases hb : b.ask = true
    · refine slots_ask h hlt b hb (if s.mb.closed then .failed .notRunning else .waiting) ?_ ?_ rfl rfl rfl rfl ?_ ?_
      · split <;> simp
      · simp [St.step, hb]
      · simp [St.step]
      · intro t; simp only [St.step, mem_mbK_send]; cases s.mb.closed <;> simp
    · refine slots_new h (.msg b) ?_ ?_ rfl rfl rfl rfl ?_ ?_ ?_ hfr
      · intro b' hbb; cases hbb; simpa using hb
      · simp [St.step, hb]
      · simp [St.step]
      · intro t; simp only [St.step, mem_mbK_send]; grind
      · intro t; simp only [St.step, mem_mbK_send]; grind
  | trySend b =>
    by_cases hb : b.ask = true
    · refine slots_ask h hlt b hb (if s.mb.closed then .failed .notRunning
          else if s.mb.hasRoom then .waiting else .failed .full) ?_ ?_ rfl rfl rfl rfl ?_ ?_
      · (repeat' split) <;> simp
      · simp [St.step, hb]
      · simp [St.step]
      · intro t; simp only [St.step, mem_mbK_trySend]; cases s.mb.closed <;> cases s.mb.hasRoom <;> simp
    · refine slots_new h (.msg b) ?_ ?_ rfl rfl rfl rfl ?_ ?_ ?_ hfr
      · intro b' hbb; cases hbb; simpa using hb
      · simp [St.step, hb]
      · simp [St.step]
      · intro t; simp only [St.step, mem_mbK_trySend]; grind
      · intro t; simp only [St.step, mem_mbK_trySend]; grind
  | poll t =>
    apply slots_keep h <;> simp [live, mem_mbK_poll] <;> grind [live, List.nodup_append]
  | cancel t =>
    apply slots_keep h <;> simp [St.step, live, mem_mbK_cancel hs.mb, failSends_slots, List.nodup_append, K_def] <;> grind [live, mbK]
  | sendStop =>
    refine slots_new h .stop (by simp) rfl rfl rfl rfl rfl (by simp) ?_ ?_ hfr <;>
      intro t <;> simp only [mem_mbK_send] <;> grind
  | sendLinkDied id r =>
    refine slots_new h (.linkDied id r) (by simp) rfl rfl rfl rfl rfl (by simp) ?_ ?_ hfr <;>
      intro t <;> simp only [mem_mbK_send] <;> grind
  | kill => exact ⟨h.1, h.2, h.3, h.4, h.5⟩
  | link id => exact ⟨h.1, h.2, h.3, h.4, h.5⟩
  | unlink id => exact ⟨h.1, h.2, h.3, h.4, h.5⟩
  | ref n => exact ⟨h.1, h.2, h.3, h.4, h.5⟩
  | giveUp t hg =>
    obtain ⟨h1, h2, h3, h4, h5⟩ := h
    refine ⟨h1, h2, ?_, ?_, ?_⟩
    · intro x hx
      apply h3
      simp only [setSlot] at hx
      grind
    · intro x hx
      simp only [setSlot]
      have := h4 x hx
      grind
    · intro x
      rw [← h5]
      simp only [setSlot]
      by_cases hc : x = t <;> simp [hc, hg]
  | delegSend t r hm =>
    apply slots_keep h
    · simp
    · simp [List.nodup_append] at *; grind [List.filter_sublist, List.Sublist.nodup]
    · simp at *; grind
    · intro x; simp only [live, reply_mb, reply_buffer, reply_phase, ev_mb, ev_phase, ev_slots, ev_buffer, reply_slots, List.mem_filter]; grind
    · intro x; simp only [live, reply_mb, reply_buffer, reply_phase, ev_mb, ev_phase, ev_slots, ev_buffer, reply_slots, List.mem_filter]; grind
  | delegDrop t hm =>
    apply slots_keep h
    · simp
    · simp [List.nodup_append] at *; grind [List.filter_sublist, List.Sublist.nodup]
    · simp at *; grind
    · intro x; simp only [live, dropReplies_mb, dropReplies_buffer, dropReplies_phase, dropReplies_slots, List.mem_filter]; grind
    · intro x; simp only [live, dropReplies_mb, dropReplies_buffer, dropReplies_phase, dropReplies_slots, List.mem_filter]; grind
  | teardown _ _ =>
    apply slots_keep h
    · simp
    · simp; exact d1.2.1
    · simp; grind
    · intro x hx
      obtain ⟨f, hf⟩ := die_slots s.cancelRunning x
      simp [live] at hx
      rw [St.crash, hf, cancelRunning_slots]
      simp only [live, cancelRunning_mb, cancelRunning_buffer]
      grind
    · intro x hx
      obtain ⟨f, hf⟩ := die_slots s.cancelRunning x
      simp [live] at hx
      rw [St.crash, hf, cancelRunning_slots]
      simp only [cancelRunning_mb, cancelRunning_buffer]
      grind
  | run hp =>
    at_phase hp
    exact slots_keep h (by simp) (by simpa using d1) (by simpa using d2)
      (by intro x; simp [live, hp]) (by intro x; simp [live, hp]; grind)
  | startOk hp =>
    at_phase hp
    have hb : s.buffer = [] := hs.buf_nil (by simp [hp])
    obtain ⟨f1, f2, f3, f4, f5, f6, _⟩ := startOk_fields s
    refine slots_new (s := { s with phase := .idle }) ?_ .startup (by simp) f5 f2 f4 f3
      ((f6 hb).trans hb.symm) (by rw [f1]; simp) ?_ ?_ hfr
    · exact slots_keep h (by simp) (by simpa using d1) (by simpa using d2)
        (by intro x; simp [live, hp]) (by intro x; simp [live, hp]; grind)
    · intro t; rw [f1, mem_mbK_trySend]; grind
    · intro t; rw [f1, mem_mbK_trySend]; grind
  | startFail o e hp ho =>
    at_phase hp
    refine slots_new (s := { s with phase := .startPanicking e }) ?_ .startup (by simp) rfl rfl rfl rfl
      rfl (by simp [St.startFail]) ?_ ?_ hfr
    · exact slots_keep h (by simp) (by simpa using d1) (by simpa using d2)
        (by intro x; simp [live, hp]) (by intro x; simp [live, hp]; grind)
    · intro t; simp only [St.startFail, mem_mbK_trySend]; grind
    · intro t; simp only [St.startFail, mem_mbK_trySend]; grind
  | abort hp ha =>
    apply slots_keep h
    · simp
    · simp [St.abortSeen]; exact d1.2.1
    · simp [St.abortSeen]; grind
    · intro x hx
      simp [live, St.abortSeen] at hx
      simp only [St.abortSeen, leave_slots, dropReplies_slots, cancelRunning_slots, live, K_def,
        cancelRunning_buffer]
      grind
    · intro x hx
      simp [live, St.abortSeen] at hx
      simp only [St.abortSeen, leave_slots, dropReplies_slots, cancelRunning_slots, K_def,
        cancelRunning_buffer]
      grind
  | polling hp ha p => exact ⟨h.1, h.2, h.3, h.4, h.5⟩
  | recvNone hp _ _ hn =>
    have := hs.own
    rw [hp] at this
    simp [St.noSenders, this] at hn
  | recvStartup hp hpo t q hq =>
    at_phase hp
    have hm := fun x => mem_mbK_recv hs.mb hq (x := x)
    have hnone : s.slots t = .none := sig_slot hs h (sg := .startup) (by simp) (by rw [hq]; simp)
    refine slots_drain h (by simp) (by simp) rfl rfl e4 ?_ ?_
    · intro x; simp [live, hm]; grind
    · intro x; simp [live, hm]; grind
  | recvBuffer hp hpo t b q hq hwi hf =>
    at_phase hp
    have hm := fun x => mem_mbK_recv hs.mb hq (x := x)
    have ht : t ∈ mbK s.mb := by simp [mbK, hq]
    apply slots_keep h
    · simp
    · simpa [hp] using d1
    · simpa [hp] using d2
    · intro x; simp [live, hm, hp]; grind
    · intro x; simp [live, hm, hp]; grind
  | recvMsg hp hpo t b q hq hwi =>
    at_phase hp
    have hm := fun x => mem_mbK_recv hs.mb hq (x := x)
    have ht : t ∈ mbK s.mb := by simp [mbK, hq]
    apply slots_keep h
    · simp
    · simp; grind
    · simp; grind
    · intro x; simp [live, hm, hp]; grind
    · intro x; simp [live, hm, hp]; grind
  | recvLink hp hpo t id r q hq =>
    at_phase hp
    have hm := fun x => mem_mbK_recv hs.mb hq (x := x)
    have hnone : s.slots t = .none := sig_slot hs h (sg := .linkDied id r) (by simp) (by rw [hq]; simp)
    apply slots_keep h
    · simp
    · simpa [hp] using d1
    · simpa [hp] using d2
    · intro x; simp [live, hm, hp]; grind
    · intro x; simp [live, hm, hp]; grind
  | recvStop hp hpo t q hq =>
    at_phase hp
    have hm := fun x => mem_mbK_recv hs.mb hq (x := x)
    have hnone : s.slots t = .none := sig_slot hs h (sg := .stop) (by simp) (by rw [hq]; simp)
    refine slots_drain h (by simp) (by simp) rfl rfl e4 ?_ ?_
    · intro x; simp [live, hm]; grind
    · intro x; simp [live, hm]; grind
  | takeReply m rest ts hp hpo ha =>
    at_phase hp
    apply slots_keep h
    · simp
    · simp [List.nodup_append]; grind
    · simp; grind
    · intro x; simp [live, hp]; grind
    · intro x; simp [live, hp]; grind
  | handlerReply m rest ts res hp hpo ha =>
    at_phase hp
    have hts : ts = true → s.buffer = [] := fun h => hs.buf_nil (Or.inl (hs.ts (by simp [hp, h])))
    refine slots_drain h (by simpa using hts) (by simp) (by simp) (by simp) e6 ?_ ?_
    · intro x; simp only [live, hp, ev_mb, ev_buffer, ev_slots, reply_mb, reply_buffer, reply_slots, rest_handling]; grind
    · intro x; simp only [live, hp, ev_mb, ev_buffer, ev_slots, reply_mb, reply_buffer, reply_slots, rest_handling]; grind
  | handlerOk m taken rest ts v hp hpo ha =>
    have hnone : taken = false → s.slots m.1 = .none := by
      intro hk; exact tell_slot hs hac h (hcur _ _ _ _ hp) (by simpa [hk] using ha)
    at_phase hp
    have hts : ts = true → s.buffer = [] := fun h => hs.buf_nil (Or.inl (hs.ts (by simp [hp, h])))
    refine slots_drain h (by simpa using hts) (by simp) (by simp) (by simp) e6 ?_ ?_
    · intro x; simp only [live, hp, ev_mb, ev_buffer, ev_slots, rest_handling]; grind
    · intro x; simp only [live, hp, ev_mb, ev_buffer, ev_slots, rest_handling]; grind
  | handlerErr m taken rest ts e hp hpo ha =>
    have hnone : taken = false → s.slots m.1 = .none := by
      intro hk; exact tell_slot hs hac h (hcur _ _ _ _ hp) (by simpa [hk] using ha)
    at_phase hp
    apply slots_keep h
    · simp
    · simp; exact d1.2.1
    · simp; grind
    · intro x; simp [live, hp, dropReplies_slots, K_def]; grind
    · intro x; simp [live, hp, dropReplies_slots, K_def]; grind
  | handlerPanic m taken rest ts e hp hpo =>
    at_phase hp
    apply slots_keep h
    · simp
    · simp; exact d1.2.1
    · simp; grind
    · intro x; simp [live, hp, dropReplies_slots, K_def]; grind
    · intro x; simp [live, hp, dropReplies_slots, K_def]; grind
  | linkCont id r hp hpo =>
    at_phase hp
    exact slots_keep h (by simp) (by simpa using d1) (by simpa using d2)
      (by intro x; simp [live, hp]) (by intro x; simp [live, hp]; grind)
  | linkStop id r r' hp hpo hr =>
    at_phase hp
    apply slots_keep h
    · simp
    · simpa using d1
    · simpa using d2
    · intro x; simp [live, hp, dropReplies_slots, K_def]; grind
    · intro x; simp [live, hp, dropReplies_slots, K_def]; grind
  | linkPanic id r o e hp hpo ho =>
    at_phase hp
    exact slots_keep h (by simp) (by simpa using d1) (by simpa using d2)
      (by intro x; simp [live, hp]) (by intro x; simp [live, hp]; grind)
  | panicCont e hp hpo =>
    at_phase hp
    exact slots_keep h (by simp) (by simpa using d1) (by simpa using d2)
      (by intro x; simp [live, hp]) (by intro x; simp [live, hp]; grind)
  | panicStop e o r hp hpo ho =>
    at_phase hp
    apply slots_keep h
    · simp
    · simpa using d1
    · simpa using d2
    · intro x; simp [live, hp, dropReplies_slots, K_def]; grind
    · intro x; simp [live, hp, dropReplies_slots, K_def]; grind
  | panicDie e e' hp hpo =>
    at_phase hp
    have hds := die_slots (s.ev (.pEnd e (.panic e')))
    apply slots_keep h
    · simp
    · simpa using d1
    · simpa using d2
    · intro x hx
      obtain ⟨f, hf⟩ := hds x
      simp [live] at hx
      rw [hf]
      simp only [live, ev_mb, ev_buffer, ev_slots]
      grind
    · intro x hx
      obtain ⟨f, hf⟩ := hds x
      simp [live] at hx
      rw [hf]
      simp only [ev_mb, ev_buffer, ev_slots]
      grind
  | startPanicStop e o r hp ho =>
    at_phase hp
    apply slots_keep h
    · simp [St.stopFailed]
    · simpa [St.stopFailed] using d1
    · simpa [St.stopFailed] using d2
    · intro x; simp [live, hp, dropReplies_slots, K_def, St.stopFailed]; grind
    · intro x; simp [live, hp, dropReplies_slots, K_def, St.stopFailed]; grind
  | startPanicDie e e' hp =>
    at_phase hp
    have hds := die_slots (s.ev (.pEnd e (.panic e')))
    apply slots_keep h
    · simp
    · simpa using d1
    · simpa using d2
    · intro x hx
      obtain ⟨f, hf⟩ := hds x
      simp [live] at hx
      rw [hf]
      simp only [live, ev_mb, ev_buffer, ev_slots]
      grind
    · intro x hx
      obtain ⟨f, hf⟩ := hds x
      simp [live] at hx
      rw [hf]
      simp only [ev_mb, ev_buffer, ev_slots]
      grind
  | stopNotify r pend o res hp ho =>
    at_phase hp
    exact slots_keep h (by simp) (by simpa using d1) (by simpa using d2)
      (by intro x; simp [live, hp]) (by intro x; simp [live, hp]; grind)
  | stopFinish r pend o res hp ho =>
    at_phase hp
    have hds := closeMb_slots (s.ev (.sEnd r o))
    have hb : s.buffer = [] := hs.buf_nil (by simp [hp])
    apply slots_keep h
    · simp
    · simpa using d1
    · simpa using d2
    · intro x hx
      obtain ⟨f, hf⟩ := hds x
      simp [live, hb] at hx
      rw [finishAll_slots, hf]
      simp only [live, ev_mb, ev_buffer, ev_slots]
      grind
    · intro x hx
      obtain ⟨f, hf⟩ := hds x
      simp [live, hb] at hx
      try simp [hb] at hw
      rw [finishAll_slots, hf]
      try simp only [ev_mb, ev_buffer, ev_slots]
      grind
  | stopDie r pend st e hp =>
    at_phase hp
    have hds := die_slots (s.ev (.sEnd r (.panic e)))
    apply slots_keep h
    · simp
    · simpa using d1
    · simpa using d2
    · intro x hx
      obtain ⟨f, hf⟩ := hds x
      simp [live] at hx
      rw [hf]
      simp only [live, ev_mb, ev_buffer, ev_slots]
      grind
    · intro x hx
      obtain ⟨f, hf⟩ := hds x
      simp [live] at hx
      rw [hf]
      simp only [ev_mb, ev_buffer, ev_slots]
      grind
  | notify r pend res id hp hi =>
    at_phase hp
    exact slots_keep h (by simp) (by simpa using d1) (by simpa using d2)
      (by intro x; simp [live, hp]) (by intro x; simp [live, hp]; grind)
  | finish r res hp =>
    at_phase hp
    have hds := closeMb_slots (s)
    have hb : s.buffer = [] := hs.buf_nil (by simp [hp])
    apply slots_keep h
    · simp
    · simpa using d1
    · simpa using d2
    · intro x hx
      obtain ⟨f, hf⟩ := hds x
      simp [live, hb] at hx
      rw [finishAll_slots, hf]
      simp only [live, ev_mb, ev_buffer, ev_slots]
      grind
    · intro x hx
      obtain ⟨f, hf⟩ := hds x
      simp [live, hb] at hx
      try simp [hb] at hw
      rw [finishAll_slots, hf]
      try simp only [ev_mb, ev_buffer, ev_slots]
      grind

theorem slots_after (cap : Option Nat) (ops : List Op) :
    CurH (after cap ops) ∧ Slots (after cap ops) := by
  have := exec_inv (P := fun s => Shape s ∧ (Acct s s.phase.rest ∧ Ord s s.phase.rest) ∧ CurH s ∧ Slots s)
    (fun _ _ h ht => ⟨shape_tr h.1 ht, ordacct_tr h.1 h.2.1 ht, curH_tr h.2.2.1 ht,
      slots_tr h.1 h.2.1.1 h.2.2.1 h.2.2.2 ht⟩)
    (s := after cap []) ⟨shape_after cap [], ordacct_after cap [], ?_, ?_⟩ ops
  · exact this.2.2
  · intro m tk rs ts h; simp [after, St.exec, St.fresh] at h
  · constructor <;> simp [after, St.exec, St.fresh, live, mbK, Mb.fresh]

end Verif.Lifecycle
