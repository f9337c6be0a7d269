import Verif.System.Props
import Verif.Lifecycle.Barrier

/-! C99: what an actor said last comes before the news of its death. -/

set_option linter.unusedSimpArgs false

namespace Verif.System

open Verif.Mailbox Verif.Lifecycle

/-- `on_stop` of the actor is over, or will never be called: user code of the actor does not run any more. The phases
after `src/actor/spawn.rs` L523 (`on_stop`). -/
def silent : Phase → Bool
  | .notifying _ _ _ => true
  | .stopped _ => true
  | .crashed => true
  | _ => false

theorem silent_tr {s s' : St} (h : silent s.phase = true) (ht : Tr s s') : silent s'.phase = true := by
  have hno : ∀ p, s.phase = p → silent p = false → False := by
    rintro p rfl h'; rw [h] at h'; cases h'
  have hloop : s.phase.inLoop = true → False := by
    intro hl; revert h hl; cases s.phase <;> simp [silent, Phase.inLoop]
  cases ht with
  | startOk hp => exact (hno _ hp rfl).elim
  | startFail _ _ hp => exact (hno _ hp rfl).elim
  | run hp => exact (hno _ hp rfl).elim
  | abort hp => exact (hloop hp).elim
  | polling hp => exact (hloop hp).elim
  | recvNone hp => exact (hno _ hp rfl).elim
  | recvStartup hp => exact (hno _ hp rfl).elim
  | recvBuffer hp => exact (hno _ hp rfl).elim
  | recvMsg hp => exact (hno _ hp rfl).elim
  | recvLink hp => exact (hno _ hp rfl).elim
  | recvStop hp => exact (hno _ hp rfl).elim
  | takeReply _ _ _ hp => exact (hno _ hp rfl).elim
  | handlerReply _ _ _ _ hp => exact (hno _ hp rfl).elim
  | handlerOk _ _ _ _ _ hp => exact (hno _ hp rfl).elim
  | handlerErr _ _ _ _ _ hp => exact (hno _ hp rfl).elim
  | handlerPanic _ _ _ _ _ hp => exact (hno _ hp rfl).elim
  | linkCont _ _ hp => exact (hno _ hp rfl).elim
  | linkStop _ _ _ hp => exact (hno _ hp rfl).elim
  | linkPanic _ _ _ _ hp => exact (hno _ hp rfl).elim
  | panicCont _ hp => exact (hno _ hp rfl).elim
  | panicStop _ _ _ hp => exact (hno _ hp rfl).elim
  | panicDie _ _ hp => exact (hno _ hp rfl).elim
  | startPanicStop _ _ _ hp => exact (hno _ hp rfl).elim
  | startPanicDie _ _ hp => exact (hno _ hp rfl).elim
  | stopNotify => rfl
  | stopFinish => rfl
  | stopDie => rfl
  | notify => rfl
  | finish => rfl
  | teardown => rfl
  | _ => simpa [St.step] using h

/-- News of a death was sent only by an actor that is silent. -/
def NewsFromSilent (S : Sys) : Prop := ∀ i j r, (i, r) ∈ deaths (S.act j) → silent (S.act i).phase = true

theorem newsFromSilent (cap : Id → Option Nat) (ops : List SOp) : NewsFromSilent (sysAfter cap ops) := by
  refine sys_induct (P := fun _ S => NewsFromSilent S) ?_ ?_ ops
  · intro i j r h
    simp [deaths, Sys.fresh, after, St.exec, St.fresh, Mb.fresh] at h
  · intro ops op ih i j r h
    refine silent_tr ?_ (view_tr (view (sysAfter cap ops) op i))
    rcases view_deaths (view (sysAfter cap ops) op j) with h1 | ⟨i', r', p, res, h1, _, h2⟩
    · exact ih i j r (h1 ▸ h)
    · rw [h2] at h
      rcases List.mem_append.mp h with h | h
      · exact ih i j r h
      · simp only [List.mem_singleton, Prod.mk.injEq] at h
        obtain ⟨rfl, rfl⟩ := h
        rw [h1]; rfl

/-- What an actor has accepted is kept, and later signals come behind. -/
theorem sys_pushed (cap : Id → Option Nat) (pre post : List SOp) (j : Id) :
    ((sysAfter cap pre).act j).mb.pushed <+: ((sysAfter cap (pre ++ post)).act j).mb.pushed := by
  induction post generalizing pre with
  | nil => simp
  | cons op post ih =>
    have h1 : ((sysAfter cap pre).act j).mb.pushed <+: ((sysAfter cap (pre ++ [op])).act j).mb.pushed := by
      rw [sysAfter_snoc]
      rcases (view (sysAfter cap pre) op j).ops with h | ⟨o, h⟩
      · rw [h]; exact List.prefix_refl _
      · rw [h]; exact exec_pushed ((sysAfter cap pre).act j) [o]
    have := ih (pre ++ [op])
    simp only [List.append_assoc, List.singleton_append] at this
    exact h1.trans this

theorem news_sent {s : St} (hs : Shape s) {t : Nat} {i : Id} {r : Reason} (h : (t, Sig.linkDied i r) ∈ s.mb.pushed) :
    (i, r) ∈ deaths s :=
  List.mem_filterMap.mpr ⟨(t, .linkDied i r), hs.mb.mem_sent (by simp [h]), rfl⟩

/-- **C99**, the order in the mailbox: if `j` had accepted the message `m` at a moment at which user code of `i` could
still run (its `on_stop` was not over), then, however the system goes on, no news of the death of `i` is ahead of `m` in
what `j` accepts; in particular everything `i` itself sent and saw accepted, in a handler or in `on_stop`, is ahead of
the news. The reason carries no weight: it holds for stops, kills, failures and errors alike. -/
theorem last_words_ahead (cap : Id → Option Nat) (pre post : List SOp) (i j : Id) (m : Msg)
    (hm : (m.1, Sig.msg m.2) ∈ ((sysAfter cap pre).act j).mb.pushed)
    (hs : silent ((sysAfter cap pre).act i).phase = false) :
    ∃ a b, ((sysAfter cap (pre ++ post)).act j).mb.pushed = a ++ b ∧ (m.1, Sig.msg m.2) ∈ a ∧
      ∀ t r, (t, Sig.linkDied i r) ∉ a := by
  obtain ⟨b, hb⟩ := sys_pushed cap pre post j
  refine ⟨_, b, hb.symm, hm, fun t r h => ?_⟩
  have := newsFromSilent cap pre i j r (news_sent (sys_good cap pre j).shape h)
  rw [hs] at this
  cases this

theorem received_before_news (cap : Id → Option Nat) (pre post : List SOp) (i j : Id) (r : Reason) (m : Msg)
    (hm : (m.1, Sig.msg m.2) ∈ ((sysAfter cap pre).act j).mb.pushed)
    (hs : silent ((sysAfter cap pre).act i).phase = false)
    (hp : ((sysAfter cap (pre ++ post)).act j).phase = .linkDying i r) :
    (m.1, Sig.msg m.2) ∈ ((sysAfter cap (pre ++ post)).act j).mb.received := by
  have hg := sys_good cap (pre ++ post) j
  have hn : NewsLast ((sysAfter cap (pre ++ post)).act j) := by
    obtain ⟨l, hl⟩ := actor_history cap (pre ++ post) j
    rw [hl]; exact newsLast_after _ _
  obtain ⟨earlier, t, hr⟩ := hn i r hp
  rcases List.prefix_or_prefix_of_prefix (sys_pushed cap pre post j) (received_sublist_pushed hg.shape) with h | h
  · exact h.subset hm
  · exfalso
    have hin := h.subset (by rw [hr]; simp : (t, Sig.linkDied i r) ∈ _)
    have := newsFromSilent cap pre i j r (news_sent (sys_good cap pre j).shape hin)
    rw [hs] at this
    cases this

/-- **C99**, what the linked actor sees: when its `on_link_died` is called for `i`, every message it had accepted while
user code of `i` could still run has been handled (or its handler has begun and failed), if the start-up of `j` is
finished and no handler of a message kept from the start-up has failed. Missing: the time before the start-up is
finished, for which it is false, see `last_words_overtaken`. -/
theorem last_words_handled_partial (cap : Id → Option Nat) (pre post : List SOp) (i j : Id) (r : Reason) (m : Msg)
    (hm : (m.1, Sig.msg m.2) ∈ ((sysAfter cap pre).act j).mb.pushed)
    (hs : silent ((sysAfter cap pre).act i).phase = false)
    (hp : ((sysAfter cap (pre ++ post)).act j).phase = .linkDying i r)
    (hf : ((sysAfter cap (pre ++ post)).act j).finished = true)
    (hd : ¬ DrainFail ((sysAfter cap (pre ++ post)).act j)) :
    m ∈ ((sysAfter cap (pre ++ post)).act j).handled := by
  have hr := received_before_news cap pre post i j r m hm hs hp
  have hg := sys_good cap (pre ++ post) j
  obtain ⟨l, hl⟩ := actor_history cap (pre ++ post) j
  rw [hl] at hr hp hf hd hg ⊢
  have hpu : m ∈ msgsOf (after (cap j) l).mb.pushed :=
    mem_msgsOf.mpr ((received_sublist_pushed hg.shape).subset hr)
  rcases continue_loses_nothing_partial (cap j) l (by rw [hp]; rfl) hd m hpu with h | h | h | h
  · exact h
  · exfalso
    have hnd := hg.shape.mb.part_nodup
    rw [hg.shape.mb.hist] at hnd
    simp only [List.map_append, List.nodup_append, List.mem_append] at hnd
    have h1 : m.1 ∈ (after (cap j) l).mb.received.map (·.1) := List.mem_map_of_mem hr
    have h2 : m.1 ∈ (after (cap j) l).mb.queue.map (·.1) := List.mem_map_of_mem (mem_msgsOf.mp h)
    grind
  · have := (hg.shape.buf (List.ne_nil_of_mem h)).1
    rw [hf] at this; cases this
  · rw [hp] at h; simp [Phase.rest] at h

/-- **C99 is false** while the start-up of the linked actor is not finished: `on_link_died` is called for `i` and none of
the messages of others has been handled, those that `i` sent before it died among them. They wait in the start-up
buffer. -/
theorem last_words_overtaken (cap : Id → Option Nat) (pre post : List SOp) (i j : Id) (r : Reason) (m : Msg)
    (hm : (m.1, Sig.msg m.2) ∈ ((sysAfter cap pre).act j).mb.pushed)
    (hs : silent ((sysAfter cap pre).act i).phase = false)
    (hp : ((sysAfter cap (pre ++ post)).act j).phase = .linkDying i r)
    (hf : ((sysAfter cap (pre ++ post)).act j).finished = false) (hw : m.2.within = false) :
    m ∉ ((sysAfter cap (pre ++ post)).act j).handled ∧ m ∈ ((sysAfter cap (pre ++ post)).act j).buffer := by
  have hr := received_before_news cap pre post i j r m hm hs hp
  obtain ⟨l, hl⟩ := actor_history cap (pre ++ post) j
  rw [hl] at hr hp hf ⊢
  obtain ⟨h1, earlier, t, h2, h3⟩ := news_overtakes_all (cap j) l i r hp hf
  refine ⟨fun h => ?_, ?_⟩
  · have := h1 m h
    rw [hw] at this; cases this
  · rw [h3]
    rw [h2] at hr
    simp only [List.mem_append, List.mem_singleton, Prod.mk.injEq, reduceCtorEq, and_false, or_false] at hr
    exact List.mem_filter.mpr ⟨mem_msgsOf.mpr hr, by simp [hw]⟩

/-- Actor 0 is linked to 1, is killed, and in its `on_stop` sends 1 a message. -/
def wordsPre : List SOp := chainDemo ++ [.loc 0 .kill, .loc 0 .pollEnd, .loc 1 (.send (tell 10))]

/-- Then its notification is sent, and 1 works through its mailbox up to it. -/
def wordsPost : List SOp := [.loc 0 (.stopEnd .ok), .notifyStart 0 1, .loc 1 .recv,
  .loc 1 (.handlerEnd (.ret (.ok 0))), .loc 1 .recv]

example : ((sysAfter (fun _ => none) wordsPre).act 0).phase = .stopping .killed [1] true ∧
    silent ((sysAfter (fun _ => none) wordsPre).act 0).phase = false ∧
    (1, Sig.msg (tell 10)) ∈ ((sysAfter (fun _ => none) wordsPre).act 1).mb.pushed ∧
    ((sysAfter (fun _ => none) (wordsPre ++ wordsPost)).act 1).mb.pushed =
      [(0, .startup), (1, .msg (tell 10)), (2, .linkDied 0 .killed)] ∧
    ((sysAfter (fun _ => none) (wordsPre ++ wordsPost)).act 1).phase = .linkDying 0 .killed ∧
    ((sysAfter (fun _ => none) (wordsPre ++ wordsPost)).act 1).finished = true ∧
    ((sysAfter (fun _ => none) (wordsPre ++ wordsPost)).act 1).handled = [(1, tell 10)] := by decide

/-- No handler has failed in that history. -/
example : ¬ DrainFail ((sysAfter (fun _ => none) (wordsPre ++ wordsPost)).act 1) := by
  rintro ⟨k, m, tk, o, _, _, _, h, hf⟩
  have hl : ((sysAfter (fun _ => none) (wordsPre ++ wordsPost)).act 1).log =
      [.startBegin, .startEnd .ok, .hBegin (1, tell 10), .hEnd (1, tell 10) false (.ret (.ok 0)), .lBegin 0 .killed] := by
    decide
  rw [hl] at h
  simp at h
  obtain ⟨rfl, rfl, rfl⟩ := h
  simp [failing] at hf

/-- The same while 1 is still starting: it hears of the death of 0 first, and what 0 said before is not handled yet. -/
def lateWords : List SOp := spawnDemo 0 ++ [.link 0 1, .loc 1 .run, .loc 1 (.send (tell 10)), .loc 0 .kill, .loc 0 .pollEnd,
  .loc 0 (.stopEnd .ok), .notifyStart 0 1, .loc 1 (.startEnd .ok), .loc 1 .pollBegin, .loc 1 .recv, .loc 1 .recv]

example : (0, Sig.msg (tell 10)) ∈ ((sysAfter (fun _ => none) (lateWords.take 7)).act 1).mb.pushed ∧
    silent ((sysAfter (fun _ => none) (lateWords.take 7)).act 0).phase = false ∧
    ((sysAfter (fun _ => none) lateWords).act 1).phase = .linkDying 0 .killed ∧
    ((sysAfter (fun _ => none) lateWords).act 1).finished = false ∧
    ((sysAfter (fun _ => none) lateWords).act 1).handled = [] := by decide

end Verif.System
