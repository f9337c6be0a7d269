import Verif.Calls.Runs

/-!
Property theorems C75: when handlers that make requests come to an end, and requests come back.

The specification: which request can block for ever (`Call.canBlock`, in `Runs.lean`), fair executions (`Fair`, in
`Live.lean`), and what it is to be waiting in a circle. Executions that meet the hypotheses are in `Runs.lean`.
-/

set_option linter.unusedSimpArgs false

namespace Verif.Calls

open Verif.Mailbox

section
variable {caps : Nat → Option Nat} {ops : Nat → Op}

theorem ok_at {P : Nat → Call → Prop} (hP : Handlers ops P) (n a : Nat) (r : Option Nat) (pc : Pc)
    (hh : (at_ caps ops n).hand a = .busy r pc) : pc.Ok (P a) := by
  induction n generalizing a r pc with
  | zero => simp [at_, World.fresh] at hh
  | succ n ih => exact ok_step (fun a p e => hP n a p e) ih a r pc hh

/-- What a stuck handler waits for can block for ever, and is one of the requests it may make. -/
theorem stuck_blocks (hf : Fair caps ops) {P : Nat → Call → Prop} (hP : Handlers ops P) {n a : Nat} {r : Option Nat}
    {pc : Pc} {c : Call} (h : StuckFrom caps ops n a r pc) (hc : pc.call? = some c) : c.canBlock caps ∧ P a c := by
  have hok := ok_at hP n a r pc (h n (Nat.le_refl _))
  cases pc with
  | go p => simp [Pc.call?] at hc
  | sending c' t ch k =>
    simp only [Pc.call?, Option.some.injEq] at hc; subst hc
    refine ⟨Or.inl ⟨hok.1, stuck_sending_untimed hf h, fun e => ?_⟩, hok.2.1⟩
    obtain ⟨sg, hsg⟩ := stuck_sending_waits hf h
    have h1 := hsg n (Nat.le_refl _)
    rw [(((inv_at caps ops n).mb c'.tgt).unb ((at_cap _ n).trans e)).2] at h1; simp at h1
  | awaiting c' ch k =>
    simp only [Pc.call?, Option.some.injEq] at hc; subst hc
    exact ⟨Or.inr ⟨hok.1, stuck_awaiting_untimed hf h⟩, hok.2.1⟩

theorem never_stuck (hf : Fair caps ops) (hcap : ∀ b, caps b ≠ some 0) {rank : Nat → Nat} (hr : Descends caps ops rank)
    (d : Nat) : ∀ n a r pc, rank a = d → ¬ StuckFrom caps ops n a r pc := by
  induction d using Nat.strongRecOn with
  | ind d ih =>
    intro n a r pc hd h
    obtain ⟨c, hc, m, r', pc', _, h'⟩ := stuck_target hf hcap h
    obtain ⟨h1, h2⟩ := stuck_blocks hf hr h hc
    have := h2 h1
    exact ih (rank c.tgt) (by omega) m c.tgt r' pc' rfl h'

/-- **C75**: if the requests that may block for ever go down a rank of the actors - in particular, if there are none -
every handler comes to an end in every fair execution. -/
theorem handlers_end (hf : Fair caps ops) (hcap : ∀ b, caps b ≠ some 0) (rank : Nat → Nat)
    (hr : Descends caps ops rank) (n a : Nat) :
    ∃ m, n ≤ m ∧ ((at_ caps ops m).hand a = .idle ∨ (at_ caps ops m).hand a = .ended) := by
  obtain ⟨m, hm, h | ⟨r, pc, h⟩⟩ := ends_always hf n a
  · refine ⟨m, hm, ?_⟩
    cases e : (at_ caps ops m).hand a with
    | idle => exact Or.inl rfl
    | ended => exact Or.inr rfl
    | busy r pc => exact (h r pc e).elim
  · exact (never_stuck hf hcap hr _ m a r pc rfl h).elim

/-- The handler of actor 0 is waiting for actor 1 at moment 3, and has ended at moment 7. -/
example : Fair two (rest chain) ∧ (∀ b, two b ≠ some 0) ∧ Descends two (rest chain) (fun a => 1 - a) ∧
    ((World.fresh two).run (chain.take 3)).hand 0 ≠ .idle ∧ ((World.fresh two).run chain).hand 0 = .idle :=
  ⟨chain_fair, by simp [two], chain_descends, (by intro h; cases h), rfl⟩

theorem answered (hf : Fair caps ops) {n b ch : Nat} {p : Nat × Sig}
    (hfree : ∀ m, n ≤ m → ∀ r pc, ¬ StuckFrom caps ops m b r pc)
    (hp : p ∈ ((at_ caps ops n).mb b).pushed) (hr : p.2.reply = some ch) :
    ∃ m, n ≤ m ∧ (at_ caps ops m).chan ch ≠ .opn := by
  refine Classical.byContradiction fun hno => ?_
  have hopn : ∀ m, n ≤ m → (at_ caps ops m).chan ch = .opn :=
    fun m hm => Classical.byContradiction fun e => hno ⟨m, hm, e⟩
  have hplace : ∀ m, n ≤ m → p ∈ ((at_ caps ops m).mb b).queue ∨
      ∃ pc, (at_ caps ops m).hand b = .busy (some ch) pc := by
    intro m hm
    rcases (inv_at caps ops m).place b p ch ((at_pushed (caps := caps) (ops := ops) _ hm).subset hp) hr with e | e
    · exact (e (hopn m hm)).elim
    · exact e
  have hw : Working caps ops n b := by
    refine ⟨fun m hm => ?_, hfree⟩
    cases ec : ((at_ caps ops m).mb b).closed with
    | false => rfl
    | true =>
      exfalso
      rcases hplace m hm with e | ⟨pc, e⟩
      · rw [((inv_at caps ops m).mb _).closedEmpty ec |>.1] at e; simp at e
      · rw [((inv_at caps ops m).ended _).mpr ec] at e; simp at e
  obtain ⟨m, hm, hrec⟩ := hw.served hf hp
  obtain ⟨j, hj, hid⟩ := hw.idle hf hm
  rcases hplace j (by omega) with e | ⟨pc, e⟩
  · have h1 := (at_received (caps := caps) (ops := ops) b hj).subset hrec
    exact received_not_queue ((inv_at caps ops j).mb _) h1 e rfl
  · rw [hid] at e; simp at e

/-- **C75**: under the same conditions every request taken by a mailbox is replied to, or its reply sender is dropped (the
caller gets `ActorStopped`). -/
theorem requests_answered (hf : Fair caps ops) (hcap : ∀ b, caps b ≠ some 0) (rank : Nat → Nat)
    (hr : Descends caps ops rank) {n b ch : Nat} {p : Nat × Sig} (hp : p ∈ ((at_ caps ops n).mb b).pushed)
    (hc : p.2.reply = some ch) :
    ∃ m, n ≤ m ∧ ((∃ v, (at_ caps ops m).chan ch = .value v) ∨ (at_ caps ops m).chan ch = .dropped) := by
  obtain ⟨m, hm, h⟩ := answered hf (fun m _ r pc => never_stuck hf hcap hr _ m b r pc rfl) hp hc
  refine ⟨m, hm, ?_⟩
  have hI := inv_at caps ops m
  have hmade := hI.made b p ch (pushed_sent (hI.mb b) ((at_pushed (caps := caps) (ops := ops) b hm).subset hp)) hc
  cases e : (at_ caps ops m).chan ch with
  | none => exact (hmade e).elim
  | opn => exact (h e).elim
  | value v => exact Or.inl ⟨v, rfl⟩
  | dropped => exact Or.inr rfl

/-- The request of actor 0 to actor 1, taken at moment 3: actor 1 replies 7. -/
example : Fair two (rest chain) ∧ (∀ b, two b ≠ some 0) ∧ Descends two (rest chain) (fun a => 1 - a) ∧
    (∃ p ∈ ((at_ two (rest chain) 3).mb 1).pushed, p.2.reply = some 1) ∧ (at_ two (rest chain) 5).chan 1 = .value 7 :=
  ⟨chain_fair, by simp [two], chain_descends, ⟨(0, .msg (some 0) 0 (some 1)), by decide⟩, by decide⟩

/-- A send operation that is under way does not wait for ever. -/
theorem sends_end (hf : Fair caps ops) {n b : Nat} {p : Nat × Sig} (hcap : caps b ≠ some 0)
    (hfree : ∀ m, n ≤ m → ∀ r pc, ¬ StuckFrom caps ops m b r pc) :
    ∃ m, n ≤ m ∧ p ∉ pend ((at_ caps ops m).mb b) := by
  refine Classical.byContradiction fun hno => ?_
  have hin : ∀ m, n ≤ m → p ∈ pend ((at_ caps ops m).mb b) :=
    fun m hm => Classical.byContradiction fun e => hno ⟨m, hm, e⟩
  have hw : Working caps ops n b := by
    refine ⟨fun m hm => ?_, hfree⟩
    cases ec : ((at_ caps ops m).mb b).closed with
    | false => rfl
    | true => have := hin m hm; rw [pend_closed (inv_at caps ops m) ec] at this; simp at this
  by_cases hwait : ∀ m, n ≤ m → p ∈ ((at_ caps ops m).mb b).waiting
  · exact hw.admits hf hcap (t := p.1) (s := p.2) hwait
  · simp only [Classical.not_forall] at hwait
    obtain ⟨j, hj, hjw⟩ := hwait
    have hall : ∀ i, j ≤ i → p ∈ ((at_ caps ops i).mb b).granted := by
      intro i hi
      rcases List.mem_append.mp (hin i (by omega)) with e | e
      · exact e
      · exfalso
        have hI := (inv_at caps ops j).mb b
        rcases at_waiting hi e with h1 | h1
        · exact hjw h1
        · have := hI.sent_lt p (pend_sent hI (hin j hj)); omega
    have hpoll : ∀ i, j ≤ i → ((at_ caps ops (i + 1)).mb b) = ((at_ caps ops i).mb b).poll p.1 → False := by
      intro i hi e
      have h1 := hin (i + 1) (by omega)
      rw [e, poll_pend ((inv_at caps ops i).mb b) (List.mem_map_of_mem (hall i hi))] at h1
      simpa using (List.mem_filter.mp h1).2
    cases hs : p.2.src with
    | none =>
      obtain ⟨i, h1, h2⟩ := hf.outside j b p.1 p.2 hs (fun i hi => hall i hi)
      have hany : ((at_ caps ops i).mb b).granted.any (fun q => q.1 == p.1 && q.2.src == none) = true :=
        List.any_eq_true.mpr ⟨p, hall i h1, by simp [hs]⟩
      rcases h2 with h2 | h2
      · refine hpoll i h1 ?_
        show ((at_ caps ops i).step (ops i)).mb b = _
        rw [h2]; simp only [World.step, World.outPoll, hany, if_true, setMb_mb]
      · have he : ((at_ caps ops (i + 1)).mb b) = ((at_ caps ops i).mb b).cancel p.1 := by
          show ((at_ caps ops i).step (ops i)).mb b = _
          have hany' : (((at_ caps ops i).mb b).granted ++ ((at_ caps ops i).mb b).waiting).any
              (fun q => q.1 == p.1 && q.2.src == none) = true := by
            rw [List.any_append, hany]; rfl
          rw [h2]; simp only [World.step, World.outCancel, hany', if_true, setMb_mb]
        have h3 := hin (i + 1) (by omega)
        rw [he, cancel_pend ((inv_at caps ops i).mb b)] at h3
        simpa using (List.mem_filter.mp h3).2
    | some x =>
      have hown : ∀ i, j ≤ i → ∃ r c ch k, (at_ caps ops i).hand x = .busy r (.sending c p.1 ch k) ∧ c.tgt = b :=
        fun i hi => (inv_at caps ops i).owner b p x (hin i (by omega)) hs
      obtain ⟨i, h1, h2⟩ := hf.poll j x (by
        intro i hi
        obtain ⟨r, c, ch, k, e1, e2⟩ := hown i hi
        simp only [World.ready, e1]; right; rw [e2]; exact List.mem_map_of_mem (hall i hi))
      obtain ⟨r, c, ch, k, e1, e2⟩ := hown i h1
      refine hpoll i h1 ?_
      show ((at_ caps ops i).step (ops i)).mb b = _
      rw [h2]
      have hgm : p.1 ∈ ((at_ caps ops i).mb b).granted.map (·.1) := List.mem_map_of_mem (hall i h1)
      simp only [World.step, World.poll, e1, e2, hw.opened i (by omega)]
      simp [hgm]

theorem put_pend (wait : Bool) (m : Mb Sig) (x : Sig) {p : Nat × Sig} (hp : p ∈ pend m) : p ∈ pend (put wait m x) := by
  simp only [pend, put_granted, put_waiting] at hp ⊢
  rcases List.mem_append.mp hp with hp | hp
  · exact List.mem_append.mpr (Or.inl hp)
  · refine List.mem_append.mpr (Or.inr ?_)
    split
    · exact List.mem_append.mpr (Or.inl hp)
    · exact hp

theorem poll_leaves {m : Mb Sig} (h : Mailbox.Inv m) (t : Nat) {p : Nat × Sig} (hp : p ∈ pend m) :
    p ∈ pend (m.poll t) ∨ p ∈ (m.poll t).pushed := by
  by_cases hg : t ∈ m.granted.map (·.1)
  · obtain ⟨q, hq, hqt, _, h2, _⟩ := poll_granted hg
    by_cases hpt : p.1 = t
    · right; rw [h2]
      have := key_unique h (pend_sent h hp) (pend_sent h (p := q) (by simp [pend, hq])) (hpt.trans hqt.symm)
      simp [this]
    · left; rw [poll_pend h hg]; exact List.mem_filter.mpr ⟨hp, by simpa using hpt⟩
  · left; simp only [Mb.poll, find_none_of_not_mem hg]; exact hp

/-- How a send operation made outside of the actors ends: its message is taken, the mailbox is closed, or it is given
up. -/
theorem out_leaves {w : World} (h : Inv w) {op : Op} {b : Nat} {p : Nat × Sig} (hp : p ∈ pend (w.mb b))
    (hs : p.2.src = none) : p ∈ pend ((w.step op).mb b) ∨ p ∈ ((w.step op).mb b).pushed ∨
    ((w.step op).mb b).closed = true ∨ op = .outCancel b p.1 := by
  have hI := h.mb b
  have notmine : ∀ a r c t ch k, w.hand a = .busy r (.sending c t ch k) → c.tgt = b → p.1 ≠ t := by
    intro a r c t ch k hh hb e
    cases hc : (w.mb c.tgt).closed with
    | true => rw [← hb, pend_closed h hc] at hp; simp at hp
    | false =>
      obtain ⟨sg, h1, h2, _⟩ := h.send a r c t ch k hh hc
      rw [hb] at h1
      have := key_unique hI (pend_sent hI hp) (pend_sent hI h1) e
      rw [this] at hs; simp only at hs; rw [h2] at hs; simp at hs
  have cn : ∀ t, p.1 ≠ t → p ∈ pend ((w.mb b).cancel t) := fun t ht => by
    rw [cancel_pend hI]; exact List.mem_filter.mpr ⟨hp, by simpa using ht⟩
  cases op with
  | recv a x =>
    simp only [World.step, World.recv]
    split
    · left; simp only [setHand_mb, setMb_mb]; split
      · rename_i e; subst e; rw [recv_pend]; exact hp
      · exact hp
    · by_cases e : b = a
      · right; right; left; simp [e]
      · left; simpa [e] using hp
    · exact Or.inl hp
  | poll a =>
    simp only [World.step, World.poll]
    split
    · left; simpa using hp
    · left; simp only [World.call, setHand_mb]; split
      · rename_i e; subst e; exact put_pend _ _ _ hp
      · exact hp
    · split
      · left; simpa using hp
      · split
        · simp only [setHand_mb, setMb_mb]; split
          · rename_i t _ _ _ _ _ e; subst e
            rcases poll_leaves hI _ hp with h1 | h1
            · exact Or.inl h1
            · exact Or.inr (Or.inl h1)
          · exact Or.inl hp
        · exact Or.inl hp
    · left; split <;> simpa using hp
    · exact Or.inl hp
  | expire a =>
    left
    simp only [World.step, World.expire]
    split
    · rename_i r c t ch k hh
      split
      · simp only [setHand_mb, setMb_mb]; split
        · rename_i e; have := cn t (notmine a r c t ch k hh e.symm); rw [← e]; exact this
        · exact hp
      · exact hp
    · split <;> simpa using hp
    · exact hp
  | fail a => left; simp only [World.step, World.fail]; split <;> simpa using hp
  | kill a =>
    by_cases e : b = a
    · simp only [World.step, World.kill]
      split
      · exact Or.inl hp
      · right; right; left; simp [e]
      · right; right; left; simp [e]
      · right; right; left; simp [e]
    · left
      simp only [World.step, World.kill]
      split
      · exact hp
      · simpa [e] using hp
      · rename_i r c t ch k hh
        simp only [finish_mb, e, if_false, answer_mb, setMb_mb]
        split
        · rename_i e'; have := cn t (notmine a r c t ch k hh e'.symm); rw [← e']; exact this
        · exact hp
      · simpa [e] using hp
  | out x q m =>
    left; simp only [World.step, World.out]; split
    · rename_i e; subst e; exact put_pend _ _ _ hp
    · exact hp
  | stop x =>
    left; simp only [World.step, World.stop, setMb_mb]; split
    · rename_i e; subst e; exact put_pend _ _ _ hp
    · exact hp
  | outPoll x t =>
    simp only [World.step, World.outPoll]; split
    · simp only [setMb_mb]; split
      · rename_i e; subst e
        rcases poll_leaves hI t hp with h1 | h1
        · exact Or.inl h1
        · exact Or.inr (Or.inl h1)
      · exact Or.inl hp
    · exact Or.inl hp
  | outCancel x t =>
    by_cases hc : x = b ∧ t = p.1
    · right; right; right; rw [hc.1, hc.2]
    · left; simp only [World.step, World.outCancel]; split
      · simp only [setMb_mb]; split
        · rename_i e; subst e
          exact cn t (fun e => hc ⟨rfl, e.symm⟩)
        · exact hp
      · exact hp

/-- How an ask made outside of the actors has come back by moment `j`: with a reply; because the reply sender was dropped;
because the mailbox was closed before it was taken (`ActorNotRunning`); or the caller gives it up while it waits for room.
Specification. -/
def CameBack (caps : Nat → Option Nat) (ops : Nat → Op) (b t ch : Nat) (s : Sig) (j : Nat) : Prop :=
  (∃ v, (at_ caps ops j).chan ch = .value v) ∨ (at_ caps ops j).chan ch = .dropped ∨
  (((at_ caps ops j).mb b).closed = true ∧ (t, s) ∉ ((at_ caps ops j).mb b).pushed) ∨
  (ops j = .outCancel b t ∧ (t, s) ∈ pend ((at_ caps ops j).mb b))

/-- **C75**: under the same conditions every ask made outside of the actors comes back. -/
theorem asks_come_back (hf : Fair caps ops) (hcap : ∀ b, caps b ≠ some 0) (rank : Nat → Nat)
    (hr : Descends caps ops rank) {n b m : Nat} (ho : ops n = .out b true m) :
    ∃ j, n < j ∧ CameBack caps ops b ((at_ caps ops n).mb b).next (at_ caps ops n).calls
      (.msg none m (some (at_ caps ops n).calls)) j := by
  have hfree : ∀ m, n ≤ m → ∀ r pc, ¬ StuckFrom caps ops m b r pc := fun m _ r pc => never_stuck hf hcap hr _ m b r pc rfl
  have hmb : (at_ caps ops (n + 1)).mb b =
      put true ((at_ caps ops n).mb b) (.msg none m (some (at_ caps ops n).calls)) := by
    show ((at_ caps ops n).step (ops n)).mb b = _
    rw [ho]; simp [World.step, World.out]
  have fin : ∀ i, n < i → (((at_ caps ops n).mb b).next, Sig.msg none m (some (at_ caps ops n).calls)) ∈
      ((at_ caps ops i).mb b).pushed → ∃ j, n < j ∧ CameBack caps ops b ((at_ caps ops n).mb b).next
      (at_ caps ops n).calls (.msg none m (some (at_ caps ops n).calls)) j := by
    intro i hi hp
    obtain ⟨j, hj, h⟩ := requests_answered hf hcap rank hr hp rfl
    exact ⟨j, by omega, h.elim Or.inl (fun h => Or.inr (Or.inl h))⟩
  cases hc : ((at_ caps ops n).mb b).closed with
  | true =>
    refine ⟨n + 1, by omega, Or.inr (Or.inr (Or.inl ⟨at_closed (by omega) hc, ?_⟩))⟩
    rw [hmb, (put_not_taken true _ _ (Or.inl hc)).2]
    intro e
    have hI := (inv_at caps ops n).mb b
    have := hI.sent_lt _ (pushed_sent hI e)
    simp at this
  | false =>
    cases hroom : ((at_ caps ops n).mb b).hasRoom with
    | true =>
      refine fin (n + 1) (by omega) ?_
      rw [hmb, (put_taken true _ _ hc hroom).2.1]; simp
    | false =>
      have hin : (((at_ caps ops n).mb b).next, Sig.msg none m (some (at_ caps ops n).calls)) ∈
          pend ((at_ caps ops (n + 1)).mb b) := by
        rw [hmb]; simp [pend, put_granted, put_waiting, hc, hroom]
      obtain ⟨j, hj, hout⟩ := sends_end (n := n + 1) hf (hcap b) (fun m hm => hfree m (by omega))
        (p := (((at_ caps ops n).mb b).next, Sig.msg none m (some (at_ caps ops n).calls)))
      rcases until_change (P := fun j => (((at_ caps ops n).mb b).next, Sig.msg none m (some (at_ caps ops n).calls)) ∈
          pend ((at_ caps ops j).mb b)) hin with h1 | ⟨i, i1, i2, i3⟩
      · exact (hout (h1 j hj)).elim
      · have hi := i2 i i1 (Nat.le_refl _)
        rcases out_leaves (op := ops i) (inv_at caps ops i) hi rfl with h1 | h1 | h1 | h1
        · exact (i3 h1).elim
        · exact fin (i + 1) (by omega) h1
        · by_cases hp : (((at_ caps ops n).mb b).next, Sig.msg none m (some (at_ caps ops n).calls)) ∈
              ((at_ caps ops (i + 1)).mb b).pushed
          · exact fin (i + 1) (by omega) hp
          · exact ⟨i + 1, by omega, Or.inr (Or.inr (Or.inl ⟨h1, hp⟩))⟩
        · exact ⟨i, by omega, Or.inr (Or.inr (Or.inr ⟨h1, hi⟩))⟩

/-- Someone asks actor 0, and gets 8. -/
example : Fair two (rest chain) ∧ (∀ b, two b ≠ some 0) ∧ Descends two (rest chain) (fun a => 1 - a) ∧
    rest chain 0 = .out 0 true 5 ∧ ((World.fresh two).run chain).chan 0 = .value 8 :=
  ⟨chain_fair, by simp [two], chain_descends, rfl, rfl⟩

/-! ### Circles -/

theorem pigeon (N : Nat) (f : Nat → Nat) (h : ∀ i, f i < N) : ∃ i j, i < j ∧ f i = f j := by
  refine Classical.byContradiction fun hno => ?_
  have hnd : ((List.range (N + 1)).map f).Nodup := by
    unfold List.Nodup
    rw [List.pairwise_map]
    have := List.pairwise_lt_range (n := N + 1)
    exact this.imp fun {i j} hij e => hno ⟨i, j, hij, e⟩
  have hsub : (List.range (N + 1)).map f ⊆ List.range N := by
    intro x hx
    obtain ⟨i, _, rfl⟩ := List.mem_map.mp hx
    exact List.mem_range.mpr (h i)
  have := hnd.length_le_of_subset hsub
  simp at this; omega

/-- From `M` on, the handler of `a` stays at one place, where it waits for a request to `b` that can block for ever.
Specification. -/
def WaitsFor (caps : Nat → Option Nat) (ops : Nat → Op) (M a b : Nat) : Prop :=
  ∃ r pc c, (∀ m, M ≤ m → (at_ caps ops m).hand a = .busy r pc) ∧ pc.call? = some c ∧ c.tgt = b ∧ c.canBlock caps

/-- **C75**: conversely, if finitely many actors are asked, and a handler does not come to an end in a fair execution,
there is a circle of actors each of which waits for the next for ever, by a request without a time-out. -/
theorem circle_if_never_ends (hf : Fair caps ops) (hcap : ∀ b, caps b ≠ some 0) (N : Nat)
    (hN : Handlers ops (fun _ c => c.canBlock caps → c.tgt < N)) {n a : Nat}
    (hbusy : ∀ m, n ≤ m → (at_ caps ops m).hand a ≠ .idle ∧ (at_ caps ops m).hand a ≠ .ended) :
    ∃ (M k : Nat) (f : Nat → Nat), 0 < k ∧ f k = f 0 ∧ ∀ i, i < k → WaitsFor caps ops M (f i) (f (i + 1)) := by
  have hs0 : ∃ m r pc, StuckFrom caps ops m a r pc := by
    obtain ⟨m, hm, h | ⟨r, pc, h⟩⟩ := ends_always hf n a
    · exfalso
      obtain ⟨h1, h2⟩ := hbusy m hm
      cases e : (at_ caps ops m).hand a with
      | idle => exact h1 e
      | ended => exact h2 e
      | busy r pc => exact h r pc e
    · exact ⟨m, r, pc, h⟩
  have hstep : ∀ x : {x // ∃ m r pc, StuckFrom caps ops m x r pc}, ∃ y : {x // ∃ m r pc, StuckFrom caps ops m x r pc},
      y.1 < N ∧ ∃ m, WaitsFor caps ops m x.1 y.1 := by
    rintro ⟨x, m, r, pc, h⟩
    obtain ⟨c, hc, m', r', pc', _, h'⟩ := stuck_target hf hcap h
    obtain ⟨h1, h2⟩ := stuck_blocks hf hN h hc
    exact ⟨⟨c.tgt, m', r', pc', h'⟩, h2 h1, m, r, pc, c, h, hc, rfl, h1⟩
  let nxt := fun x => Classical.choose (hstep x)
  have hnxt : ∀ x, (nxt x).1 < N ∧ ∃ m, WaitsFor caps ops m x.1 (nxt x).1 := fun x => Classical.choose_spec (hstep x)
  let g : Nat → {x // ∃ m r pc, StuckFrom caps ops m x r pc} := fun i => Nat.rec (nxt ⟨a, hs0⟩) (fun _ x => nxt x) i
  have hg : ∀ i, g (i + 1) = nxt (g i) := fun i => rfl
  have hlt : ∀ i, (g i).1 < N := by
    intro i; cases i with
    | zero => exact (hnxt _).1
    | succ i => rw [hg]; exact (hnxt _).1
  obtain ⟨i, j, hij, he⟩ := pigeon N (fun i => (g i).1) hlt
  have hM : ∀ l, ∃ M, ∀ i', i' < l → WaitsFor caps ops M (g (i + i')).1 (g (i + i' + 1)).1 := by
    intro l
    induction l with
    | zero => exact ⟨0, by simp⟩
    | succ l ih =>
      obtain ⟨M, hM⟩ := ih
      obtain ⟨m, hm⟩ := (hnxt (g (i + l))).2
      have mono : ∀ {M M' x y}, M ≤ M' → WaitsFor caps ops M x y → WaitsFor caps ops M' x y := by
        rintro M M' x y h ⟨r, pc, c, h1, h2⟩
        exact ⟨r, pc, c, fun m hm => h1 m (by omega), h2⟩
      refine ⟨max M m, fun i' hi' => ?_⟩
      by_cases e : i' < l
      · exact mono (Nat.le_max_left _ _) (hM i' e)
      · have : i' = l := by omega
        subst this
        exact mono (Nat.le_max_right _ _) hm
  obtain ⟨M, hM⟩ := hM (j - i)
  refine ⟨M, j - i, fun l => (g (i + l)).1, by omega, ?_, fun l hl => hM l hl⟩
  show (g (i + (j - i))).1 = (g (i + 0)).1
  rw [show i + (j - i) = j by omega]; exact he.symm

end

/-- Two actors that ask each other: neither handler ever comes to an end. -/
example : Fair two (rest circle) ∧ (∀ b, two b ≠ some 0) ∧
    Handlers (rest circle) (fun _ c => c.canBlock two → c.tgt < 2) ∧
    ∀ m, 5 ≤ m → (at_ two (rest circle) m).hand 0 ≠ .idle ∧ (at_ two (rest circle) m).hand 0 ≠ .ended := by
  refine ⟨circle_fair, by simp [two], ?_, ?_⟩
  · refine handlers_rest fun a p hp => ?_
    simp only [circle, List.mem_cons, Op.recv.injEq, List.not_mem_nil, or_false, false_or, reduceCtorEq] at hp
    rcases hp with ⟨rfl, rfl⟩ | ⟨rfl, rfl⟩
    · exact asks1_all fun _ => by decide
    · exact ⟨fun _ => by decide, fun _ => trivial⟩
  · intro m hm
    rw [at_rest rfl, List.take_of_length_le (show circle.length ≤ m from hm)]
    exact ⟨(by intro h; cases h), (by intro h; cases h)⟩

/-- What a request that waits for its reply may be told, and when. (Specification.) -/
def Heard (w : World) (a : Nat) (op : Op) (c : Call) (ch : Nat) : Ans → Prop
  | .value v => w.chan ch = .value v
  | .stopped => w.chan ch = .dropped
  | .timeout => op = .expire a ∧ c.rt = true ∧ w.chan ch = .opn
  | _ => False

/-- **C75** (what comes back is true): a handler that waits for a reply goes on waiting until it is killed, or goes on with
the reply that was given, with `ActorStopped` if the reply sender was dropped, or with `Timeout` if it set one and there was
no reply. -/
theorem reply_heard (w : World) (op : Op) (a : Nat) (r : Option Nat) (c : Call) (ch : Nat) (k : Ans → Prog)
    (h : w.hand a = .busy r (.awaiting c ch k)) :
    (w.step op).hand a = .busy r (.awaiting c ch k) ∨
    (∃ x, Heard w a op c ch x ∧ (w.step op).hand a = .busy r (.go (k x))) ∨
    (op = .kill a ∧ (w.step op).hand a = .ended) := by
  have ans : ∀ (r' : Option Nat) (x : Chan) (v : World), (v.answer r' x).hand = v.hand := by
    intro r' x v; cases r' <;> rfl
  have other : ∀ (b : Nat) (v : World), b ≠ a → (∀ y, y ≠ b → v.hand y = w.hand y) → v.hand a = .busy r (.awaiting c ch k) := by
    intro b v hb hv; rw [hv a (Ne.symm hb)]; exact h
  have fin : ∀ b (v : World), ∀ y, y ≠ b → (v.finish b).hand y = v.hand y := by
    intro b v y hy; simp [World.finish, World.setHand, World.setMb, World.dropReplies, hy]
  cases op with
  | recv b p =>
    left
    by_cases hb : b = a
    · subst hb; simp [World.step, World.recv, h]
    · refine other b _ hb fun y hy => ?_
      simp only [World.step, World.recv]
      split
      · simp [World.setHand, World.setMb, hy]
      · rw [fin _ _ _ hy]; rfl
      · rfl
  | poll b =>
    by_cases hb : b = a
    · subst hb
      cases hc : w.chan ch with
      | value v => exact .inr (.inl ⟨.value v, hc, by simp [World.step, World.poll, h, hc, World.setHand]⟩)
      | dropped => exact .inr (.inl ⟨.stopped, hc, by simp [World.step, World.poll, h, hc, World.setHand]⟩)
      | none => left; simp [World.step, World.poll, h, hc]
      | opn => left; simp [World.step, World.poll, h, hc]
    · left
      refine other b _ hb fun y hy => ?_
      simp only [World.step, World.poll]
      split
      · simp [World.setHand, ans, hy]
      · simp [World.call, World.setHand, hy]
      · split
        · simp [World.setHand, hy]
        · split
          · simp [World.setHand, World.setMb, hy]
          · rfl
      · split <;> simp [World.setHand, hy]
      · rfl
  | expire b =>
    by_cases hb : b = a
    · subst hb
      by_cases hc : c.rt = true ∧ w.chan ch = .opn
      · exact .inr (.inl ⟨.timeout, ⟨rfl, hc⟩, by simp [World.step, World.expire, h, hc, World.setHand]⟩)
      · left; simp only [World.step, World.expire, h, hc, if_false]
    · left
      refine other b _ hb fun y hy => ?_
      simp only [World.step, World.expire]
      split
      · split
        · simp [World.setHand, World.setMb, hy]
        · rfl
      · split
        · simp [World.setHand, hy]
        · rfl
      · rfl
  | fail b =>
    left
    by_cases hb : b = a
    · subst hb; simp [World.step, World.fail, h]
    · refine other b _ hb fun y hy => ?_
      simp only [World.step, World.fail]
      split
      · simp [World.setHand, ans, hy]
      · rfl
  | kill b =>
    by_cases hb : b = a
    · subst hb
      exact .inr (.inr ⟨rfl, by simp [World.step, World.kill, h, World.finish, World.setHand]⟩)
    · left
      refine other b _ hb fun y hy => ?_
      simp only [World.step, World.kill]
      split
      · rfl
      · rw [fin _ _ _ hy]
      · rw [fin _ _ _ hy, ans]; rfl
      · rw [fin _ _ _ hy, ans]
  | out b q m => left; exact h
  | stop b => left; exact h
  | outPoll b t =>
    left; simp only [World.step, World.outPoll]
    split <;> exact h
  | outCancel b t =>
    left; simp only [World.step, World.outCancel]
    split <;> exact h

/-- Actor 0 has asked actor 1 and waits; actor 1 has replied 7. -/
example : (∃ r c ch k, ((World.fresh two).run (chain.take 5)).hand 0 = .busy r (.awaiting c ch k) ∧
    Heard ((World.fresh two).run (chain.take 5)) 0 (.poll 0) c ch (.value 7)) := ⟨_, _, _, _, rfl, rfl⟩

end Verif.Calls
