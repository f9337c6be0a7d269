import Verif.Plain.Lists

/-! The simulation: each step of `Verif.Lifecycle` is none or some steps of `Verif.Next`, with the default `next`. -/

set_option linter.unusedSimpArgs false

namespace Verif.Plain

open Verif.Mailbox

/-- The calls, with that of `on_start`: `Verif.Next` has no state before it. -/
def whole (l : List Next.Ev) : List Next.Ev := if .b .start ∈ l then l else .b .start :: l

theorem whole_append {l a : List Next.Ev} (h : .b .start ∉ a) : whole (l ++ a) = whole l ++ a := by
  unfold whole
  by_cases hl : Next.Ev.b .start ∈ l <;> simp [hl, h]

/-- The parts of the two states that do not depend on where the task is. -/
structure Core (s : Lifecycle.St) (n : Next.St) : Prop where
  queue : Same s.mb.pushed n.queue s.mb.queue
  fresh : n.fresh = s.mb.pushed.length
  closed : n.closed = s.mb.closed
  held : n.held = []
  buffer : Same s.mb.pushed n.buffer (sigs s.buffer)
  finished : n.finished = s.finished
  aborted : n.aborted = s.aborted
  permits : n.permits = decide (0 < s.permits)
  started : Same s.mb.pushed n.started (sigs s.handled)
  log : shows n.log = whole (sees s.log)
  talk : Talk s.mb.pushed s.slots s.delegated n.slot n.delegated n.gaveUp n.asks

/-- The tasks are at the same place. -/
def AtP (s : Lifecycle.St) (n : Next.St) : Lifecycle.Phase → Prop
  | .prepared => n.phase = .starting
  | .starting => n.phase = .starting
  | .idle => n.phase = .next ∨ (n.phase = .doomed ∧ s.polling = false ∧ s.aborted = true)
  | .handling m taken rest ts => ∃ it l, n.phase = .handling it l ts ∧ tag s.mb.pushed it = mark (m.1, .msg m.2) ∧
      Same s.mb.pushed l (sigs rest) ∧ n.taken = taken
  | .linkDying _ _ => n.phase = .link
  | .panicking _ => n.phase = .onPanic false
  | .startPanicking _ => n.phase = .onPanic true
  | .stopping r _ _ => n.phase = .stopping (reasonOf r)
  | .notifying r _ _ => n.phase = .stopping (reasonOf r)
  | .stopped r => n.phase = .stopped (reasonOf r)
  | .crashed => n.phase = .crashed

/-- The tasks are at the same place. -/
def At (s : Lifecycle.St) (n : Next.St) : Prop := AtP s n s.phase

/-- The actors are in the same state. -/
structure Sim (s : Lifecycle.St) (n : Next.St) : Prop extends Core s n where
  at_ : At s n

/-- Some steps of `Verif.Next`. -/
def run (n : Next.St) (l : List Next.Op) : Next.St := l.foldl Next.St.step n

theorem at_congr {s s' : Lifecycle.St} {n n' : Next.St} (h : At s n) (y : List (Nat × Lifecycle.Sig))
    (h1 : s'.phase = s.phase) (h2 : s'.mb.pushed = s.mb.pushed ++ y) (h3 : s'.polling = s.polling)
    (h4 : s'.aborted = s.aborted) (k1 : n'.phase = n.phase) (k2 : n'.taken = n.taken) : At s' n' := by
  unfold At at *
  rw [h1]
  cases hp : s.phase <;> rw [hp] at h <;> simp only [AtP, k1, k2, h2, h3, h4] at h ⊢ <;> try exact h
  obtain ⟨it, l, a1, a2, a3, a4⟩ := h
  exact ⟨it, l, a1, tag_mono a2 y, same_mono a3 y, a4⟩

/-- What a step of a sender does to the mailbox. -/
inductive Grow (m m' : Mb Lifecycle.Sig) : Prop where
  | keep (h1 : m'.queue = m.queue) (h2 : m'.pushed = m.pushed) (h3 : m'.closed = m.closed)
  | push (q : Nat × Lifecycle.Sig) (h1 : m'.queue = m.queue ++ [q]) (h2 : m'.pushed = m.pushed ++ [q])
      (h3 : m'.closed = m.closed) (h4 : m.closed = false)

theorem grow_send (m : Mb Lifecycle.Sig) (a : Lifecycle.Sig) : Grow m (m.send a) := by
  unfold Mb.send
  simp only
  split
  · exact .keep rfl rfl rfl
  · next h =>
    split
    · exact .push (m.next, a) rfl rfl rfl (by simpa using h)
    · exact .keep rfl rfl rfl

theorem grow_trySend (m : Mb Lifecycle.Sig) (a : Lifecycle.Sig) : Grow m (m.trySend a) := by
  unfold Mb.trySend
  simp only
  split
  · exact .keep rfl rfl rfl
  · next h =>
    split
    · exact .push (m.next, a) rfl rfl rfl (by simpa using h)
    · exact .keep rfl rfl rfl

theorem grow_poll {m : Mb Lifecycle.Sig} (hi : Inv m) (t : Nat) : Grow m (m.poll t) := by
  unfold Mb.poll
  split
  · exact .keep rfl rfl rfl
  · next p hp =>
    refine .push (t, p.2) rfl rfl rfl ?_
    cases hc : m.closed with
    | false => rfl
    | true => rw [(hi.closedEmpty hc).2.1] at hp; simp at hp

theorem release_fields (m : Mb Lifecycle.Sig) : m.release.queue = m.queue ∧ m.release.pushed = m.pushed ∧
    m.release.closed = m.closed := by
  unfold Mb.release; split <;> exact ⟨rfl, rfl, rfl⟩

theorem grow_cancel (m : Mb Lifecycle.Sig) (t : Nat) : Grow m (m.cancel t) := by
  unfold Mb.cancel
  split
  · exact .keep rfl rfl rfl
  · split
    · obtain ⟨h1, h2, h3⟩ := release_fields { m with
        granted := m.granted.filter (fun p => p.1 != t)
        failed := m.failed ++ [(t, ‹Nat × Lifecycle.Sig›.2, Why.timeout)] }
      exact .keep h1 h2 h3
    · exact .keep rfl rfl rfl

theorem pushed_nodup {m : Mb Lifecycle.Sig} (h : Inv m) : (m.pushed.map (·.1)).Nodup := by
  have h1 := h.sent_nodup
  have h2 := (h.part.map (·.1)).nodup_iff.mpr h1
  simp only [List.map_append] at h2
  grind

/-- No two tickets are the same. -/
theorem pushed_apart {m : Mb Lifecycle.Sig} (h : Inv m) {t : Nat} (ht : t ∈ m.pushed.map (·.1)) :
    t ∉ (m.granted ++ m.waiting).map (·.1) := by
  have h1 := h.sent_nodup
  have h2 := (h.part.map (·.1)).nodup_iff.mpr h1
  simp only [List.map_append] at h2 ⊢
  grind

/-- Someone outside does something that the actor itself does not notice. -/
theorem sim_keep {s s' : Lifecycle.St} {n : Next.St} (h : Sim s n)
    (a : s'.mb.queue = s.mb.queue) (b : s'.mb.pushed = s.mb.pushed) (c : s'.mb.closed = s.mb.closed)
    (h1 : s'.phase = s.phase) (h2 : s'.finished = s.finished) (h3 : s'.buffer = s.buffer)
    (h4 : s'.aborted = s.aborted) (h5 : s'.permits = s.permits) (h6 : s'.handled = s.handled)
    (h7 : sees s'.log = sees s.log) (h8 : s'.delegated = s.delegated) (h10 : s'.polling = s.polling)
    (h9 : ∀ t ∈ s.mb.pushed.map (·.1), s'.slots t = s.slots t) : Sim s' n := by
  refine ⟨?_, at_congr h.at_ [] h1 (by simpa using b) h10 h4 rfl rfl⟩
  constructor <;> try simp only [a, b, c, h1, h2, h3, h4, h5, h6, h7, h8]
  · exact h.queue
  · exact h.fresh
  · exact h.closed
  · exact h.held
  · exact h.buffer
  · exact h.finished
  · exact h.aborted
  · exact h.permits
  · exact h.started
  · exact h.log
  · exact ⟨h.talk.new, h.talk.later, h.talk.asks, h.talk.gave, answers_congr h.talk.answers h9⟩

/-- Someone outside puts a signal into the mailbox. -/
theorem sim_push {s s' : Lifecycle.St} {n : Next.St} (h : Sim s n)
    (q : Nat × Lifecycle.Sig) (a : s'.mb.queue = s.mb.queue ++ [q]) (b : s'.mb.pushed = s.mb.pushed ++ [q])
    (c : s'.mb.closed = s.mb.closed) (d : s.mb.closed = false)
    (h1 : s'.phase = s.phase) (h2 : s'.finished = s.finished) (h3 : s'.buffer = s.buffer)
    (h4 : s'.aborted = s.aborted) (h5 : s'.permits = s.permits) (h6 : s'.handled = s.handled)
    (h7 : sees s'.log = sees s.log) (h8 : s'.delegated = s.delegated) (h10 : s'.polling = s.polling)
    (g : List Nat) (hg1 : ∀ i, i < s.mb.pushed.length → (i ∈ g ↔ i ∈ n.gaveUp)) (hg2 : ∀ i ∈ g, i ≤ s.mb.pushed.length)
    (hw : ∀ b, q.2 = .msg b → b.ask = true →
      (n.fresh ∈ g ∧ s'.slots q.1 = .gaveUp) ∨ (n.fresh ∉ g ∧ s'.slots q.1 = .waiting))
    (h9 : ∀ t ∈ s.mb.pushed.map (·.1), s'.slots t = s.slots t) :
    Sim s' { n.push (bodyOf q.2) (askOf q.2) with gaveUp := g } := by
  have hcl : n.closed = false := h.closed.trans d
  have hask : ((bodyOf q.2).isMsg && askOf q.2) = askOf q.2 := by
    cases hq : q.2 <;> simp [bodyOf, askOf, Next.Body.isMsg]
  have htag : tag (s.mb.pushed ++ [q]) { id := n.fresh, body := bodyOf q.2, ask := askOf q.2 } = mark q := by
    simp [tag, mark, h.fresh]
  refine ⟨?_, at_congr h.at_ [q] h1 b h10 h4 (by simp [Next.St.push, hcl]) (by simp [Next.St.push, hcl])⟩
  constructor <;> simp only [Next.St.push, hcl, hask, a, b, c, h1, h2, h3, h4, h5, h6, h7, h8,
    Bool.false_eq_true, if_false]
  · exact same_append (same_mono h.queue _) (by rw [same_cons]; exact ⟨htag, same_nil⟩)
  · simp [h.fresh]
  · rw [d]
  · exact h.held
  · exact same_mono h.buffer _
  · exact h.finished
  · exact h.aborted
  · exact h.permits
  · exact same_mono h.started _
  · exact h.log
  · constructor
    · intro y hy; exact h.talk.new y (by simp at hy; omega)
    · exact later_mono h.talk.later _
    · intro i
      have hold : i ∈ n.asks → ∃ t b, (s.mb.pushed ++ [q])[i]? = some (t, .msg b) ∧ b.ask = true := by
        intro hi
        obtain ⟨t, b', h11, h12⟩ := (h.talk.asks i).mp hi
        exact ⟨t, b', by rw [List.getElem?_append_left (List.getElem?_eq_some_iff.mp h11).1]; exact h11, h12⟩
      constructor
      · intro hi
        split at hi
        · next hk =>
          rcases List.mem_append.mp hi with hi | hi
          · exact hold hi
          · simp only [List.mem_singleton] at hi
            subst hi
            cases hq : q.2 with
            | msg b' =>
              rw [hq] at hk
              refine ⟨q.1, b', ?_, hk⟩
              rw [h.fresh]
              simp only [List.getElem?_append_right (Nat.le_refl _), Nat.sub_self, List.getElem?_cons_zero]
              rw [← hq]
            | _ => rw [hq] at hk; simp [askOf] at hk
        · exact hold hi
      · rintro ⟨t, b', h11, h12⟩
        rcases at_end h11 with h13 | ⟨rfl, rfl⟩
        · have := (h.talk.asks i).mpr ⟨t, b', h13, h12⟩
          split
          · exact List.mem_append.mpr (.inl this)
          · exact this
        · rw [if_pos (by exact h12), h.fresh]
          simp
    · intro i hi; have := hg2 i hi; simp; omega
    · refine answers_push (answers_congr h.talk.answers h9) q g hg1 ?_
      intro b' hb ha
      rw [← h.fresh]
      rcases hw b' hb ha with x | ⟨x, y⟩
      · exact .inl x
      · exact .inr ⟨x, by rw [y, h.talk.new _ (by rw [h.fresh]; exact Nat.le_refl _)]; rfl⟩

/-- The one who asked still waits. -/
theorem sim_push_wait {s s' : Lifecycle.St} {n : Next.St} (h : Sim s n)
    (q : Nat × Lifecycle.Sig) (a : s'.mb.queue = s.mb.queue ++ [q]) (b : s'.mb.pushed = s.mb.pushed ++ [q])
    (c : s'.mb.closed = s.mb.closed) (d : s.mb.closed = false)
    (h1 : s'.phase = s.phase) (h2 : s'.finished = s.finished) (h3 : s'.buffer = s.buffer)
    (h4 : s'.aborted = s.aborted) (h5 : s'.permits = s.permits) (h6 : s'.handled = s.handled)
    (h7 : sees s'.log = sees s.log) (h8 : s'.delegated = s.delegated) (h10 : s'.polling = s.polling)
    (hw : ∀ b, q.2 = .msg b → b.ask = true → s'.slots q.1 = .waiting)
    (h9 : ∀ t ∈ s.mb.pushed.map (·.1), s'.slots t = s.slots t) :
    Sim s' (run n [.send (bodyOf q.2) (askOf q.2)]) := by
  have hcl : n.closed = false := h.closed.trans d
  have := sim_push h q a b c d h1 h2 h3 h4 h5 h6 h7 h8 h10 n.gaveUp (fun _ _ => Iff.rfl)
    (fun i hi => Nat.le_of_lt (h.talk.gave i hi)) (fun b' hb ha => .inr ⟨?_, hw b' hb ha⟩) h9
  · simpa [run, Next.St.step, Next.St.push, hcl] using this
  · intro x
    have := h.talk.gave _ x
    rw [h.fresh] at this
    omega

/-- The one who asked gave up while they waited for room in the mailbox. -/
theorem sim_push_gone {s s' : Lifecycle.St} {n : Next.St} (h : Sim s n)
    (q : Nat × Lifecycle.Sig) (a : s'.mb.queue = s.mb.queue ++ [q]) (b : s'.mb.pushed = s.mb.pushed ++ [q])
    (c : s'.mb.closed = s.mb.closed) (d : s.mb.closed = false)
    (h1 : s'.phase = s.phase) (h2 : s'.finished = s.finished) (h3 : s'.buffer = s.buffer)
    (h4 : s'.aborted = s.aborted) (h5 : s'.permits = s.permits) (h6 : s'.handled = s.handled)
    (h7 : sees s'.log = sees s.log) (h8 : s'.delegated = s.delegated) (h10 : s'.polling = s.polling)
    (hw : s'.slots q.1 = .gaveUp) (ha : askOf q.2 = true)
    (h9 : ∀ t ∈ s.mb.pushed.map (·.1), s'.slots t = s.slots t) :
    Sim s' (run n [.send (bodyOf q.2) (askOf q.2), .giveUp n.fresh]) := by
  have hcl : n.closed = false := h.closed.trans d
  have hni : n.fresh ∉ n.gaveUp := by
    intro x
    have := h.talk.gave _ x
    rw [h.fresh] at this
    omega
  have := sim_push h q a b c d h1 h2 h3 h4 h5 h6 h7 h8 h10 (n.gaveUp ++ [n.fresh]) (fun i hi => ?_)
    (fun i hi => ?_) (fun b' hb ha => .inl ⟨by simp, hw⟩) h9
  · have hm : (bodyOf q.2).isMsg = true := by
      cases hq : q.2 <;> rw [hq] at ha <;> simp_all [bodyOf, askOf, Next.Body.isMsg]
    have hs := h.talk.new n.fresh (by rw [h.fresh]; exact Nat.le_refl _)
    have hr : run n [.send (bodyOf q.2) (askOf q.2), .giveUp n.fresh] =
        { n.push (bodyOf q.2) (askOf q.2) with gaveUp := n.gaveUp ++ [n.fresh] } := by
      simp [run, Next.St.step, Next.St.push, Next.St.giveUp, hcl, hm, ha, hs, hni]
    rw [hr]; exact this
  · simp only [List.mem_append, List.mem_singleton, h.fresh]
    constructor
    · rintro (x | x)
      · exact x
      · omega
    · exact .inl
  · rcases List.mem_append.mp hi with x | x
    · exact Nat.le_of_lt (h.talk.gave i x)
    · simp only [List.mem_singleton] at x; rw [x, h.fresh]; exact Nat.le_refl _

theorem room_of_push {cap : Option Nat} {s s' : Lifecycle.St} {n : Next.St} (h : Sim s n) (hs' : Lifecycle.Good s')
    (hc : s'.mb.cap = cap) {q : Nat × Lifecycle.Sig} (a : s'.mb.queue = s.mb.queue ++ [q]) : room cap n = true := by
  unfold room
  cases cap with
  | none => rfl
  | some c =>
    have h1 := hs'.shape.mb.capOk c hc
    rw [a] at h1
    have h2 := congrArg List.length h.queue
    simp only [List.length_map, List.length_append, List.length_singleton] at h1 h2
    simp only [decide_eq_true_eq]
    omega

/-- Someone outside does something that the actor itself does not notice. -/
theorem sim_env {cap : Option Nat} {s s' : Lifecycle.St} {n : Next.St} (h : Sim s n) (hs' : Lifecycle.Good s')
    (hc : s'.mb.cap = cap)
    (hg : Grow s.mb s'.mb) (hst : ∀ q, s'.mb.queue = s.mb.queue ++ [q] → q.2 ≠ .startup)
    (h1 : s'.phase = s.phase) (h2 : s'.finished = s.finished) (h3 : s'.buffer = s.buffer)
    (h4 : s'.aborted = s.aborted) (h5 : s'.permits = s.permits) (h6 : s'.handled = s.handled)
    (h7 : sees s'.log = sees s.log) (h8 : s'.delegated = s.delegated) (h10 : s'.polling = s.polling)
    (h9 : ∀ t ∈ s.mb.pushed.map (·.1), s'.slots t = s.slots t) :
    ∃ l, Default l ∧ Fits cap n l ∧ Sim s' (run n l) := by
  cases hg with
  | keep a b c => exact ⟨[], .nil, trivial, sim_keep h a b c h1 h2 h3 h4 h5 h6 h7 h8 h10 h9⟩
  | push q a b c d =>
    have hr := room_of_push h hs' hc a
    have hout : outside (.send (bodyOf q.2) (askOf q.2)) = true := by
      have := hst q a
      cases hq : q.2 <;> simp_all [outside, bodyOf]
    have hv : ∀ b', q.2 = .msg b' → b'.ask = true → s'.slots q.1 = .waiting ∨ s'.slots q.1 = .gaveUp := by
      intro b' hb ha
      have hq : q ∈ s'.mb.queue := by rw [a]; simp
      have hlive : Lifecycle.live s' q.1 := .inl (by
        simp only [Lifecycle.mbK, Lifecycle.K, List.mem_append]
        exact .inl (.inl (List.mem_map.mpr ⟨q, hq, rfl⟩)))
      rcases hs'.slots.v _ hlive with w | w | w
      · exact .inl w
      · exact .inr w
      · refine absurd w ((hs'.slots.a q.1).mpr ⟨b', ?_, ha⟩)
        apply hs'.shape.mb.mem_sent
        rw [b]
        have : q = (q.1, Lifecycle.Sig.msg b') := by rw [← hb]
        rw [← this]; simp
    by_cases hw : askOf q.2 = true ∧ s'.slots q.1 = .gaveUp
    · refine ⟨_, .out hout (.one (op := .giveUp n.fresh) rfl), ?_,
        sim_push_gone h q a b c d h1 h2 h3 h4 h5 h6 h7 h8 h10 hw.2 hw.1 h9⟩
      exact ⟨by simp [fits, hr], rfl, trivial⟩
    · refine ⟨_, .one hout, ⟨by simp [fits, hr], trivial⟩, sim_push_wait h q a b c d h1 h2 h3 h4 h5 h6 h7 h8 h10 ?_ h9⟩
      intro b' hb ha
      rcases hv b' hb ha with x | x
      · exact x
      · exact absurd ⟨by rw [hb]; exact ha, x⟩ hw

end Verif.Plain
