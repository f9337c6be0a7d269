import Verif.Listed.Model

/-! The remote registry lists an actor only while it runs (C66), and unregistering gives the actor back (C67). -/

namespace Verif.Listed

open Verif.Mailbox Verif.Lifecycle

/-! ## Specification -/

/-- The task of the actor has returned or has been torn down. -/
def Ended (s : St) : Prop := (∃ r, s.phase = .stopped r) ∨ s.phase = .crashed

/-- The operation puts actor `i` in the registry, if it has an effect at all. -/
def ROp.lists (i : Id) : ROp → Bool
  | .answer j ok => j == i && ok
  | .linkRemote j => j == i
  | _ => false

/-! ## Lemmas -/

theorem ended_iff (s : St) : Ended s ↔ s.phase.ended = true := by
  unfold Ended
  cases s.phase <;> simp [Phase.ended]

/-- `on_start` has failed, or the task has ended. -/
def Phase.dead : Phase → Bool
  | .startPanicking _ => true
  | .stopping _ _ false => true
  | .stopped _ => true
  | .crashed => true
  | _ => false

theorem not_inLoop_of_ended {p : Phase} (h : p.ended = true) : p.inLoop = false := by
  cases p <;> simp_all

theorem not_inLoop_of_dead {p : Phase} (h : Phase.dead p = true) : p.inLoop = false := by
  cases p <;> simp_all [Phase.dead]

theorem ended_tr {s s' : St} (h : s.phase.ended = true) (ht : Tr s s') : s'.phase = s.phase := by
  have hl := not_inLoop_of_ended h
  cases ht with
  | teardown h1 h2 => cases hp : s.phase <;> simp_all
  | delegSend t r hd => simp [St.reply, St.ev]; split <;> rfl
  | _ => first | rfl | (simp_all; done) | (simp only [St.step]; split <;> rfl)

theorem dead_tr {s s' : St} (h : Phase.dead s.phase = true) (ht : Tr s s') : Phase.dead s'.phase = true := by
  have hl := not_inLoop_of_dead h
  cases ht with
  | teardown h1 h2 => simp [St.crash, Phase.dead]
  | delegSend t r hd =>
    have : ((s.reply t r).ev (.replySent t r)).phase = s.phase := by simp [St.reply, St.ev]; split <;> rfl
    simpa [this] using h
  | startPanicStop e o r hp ho => rfl
  | _ =>
    first
    | exact h
    | rfl
    | (simp_all [Phase.dead]; done)
    | (simp only [St.step]; split <;> exact h)

theorem ended_exec {s : St} (h : s.phase.ended = true) (l : List Op) : (s.exec l).phase = s.phase := by
  induction l generalizing s with
  | nil => rfl
  | cons op l ih =>
    have h1 := ended_tr h (step_tr s op)
    show ((s.step op).exec l).phase = s.phase
    rw [ih (by rw [h1]; exact h), h1]

theorem dead_exec {s : St} (h : Phase.dead s.phase = true) (l : List Op) : Phase.dead (s.exec l).phase = true := by
  induction l generalizing s with
  | nil => exact h
  | cons op l ih => exact ih (dead_tr h (step_tr s op))

theorem ext_step (s : St) (op : Op) (h : op ≠ .dropRef) : s.ext ≤ (s.step op).ext := by
  have ht := step_tr s op
  cases op with
  | dropRef => exact absurd rfl h
  | cloneRef => simp only [St.step]; split <;> simp
  | _ =>
    simp only [St.step, St.recvStep, St.onSignal, St.handlerEnd, St.linkEnd, St.panicEnd, St.startPanicEnd, St.stopEnd,
      St.stopDone, St.startEnd, St.startOk, St.startFail, St.stopFailed]
    repeat' split
    all_goals simp

@[simp] theorem on_act (R : Reg) (i j : Id) (op : Op) :
    (R.on i op).act j = if j = i then (R.act i).step op else R.act j := rfl
@[simp] theorem on_listed (R : Reg) (i : Id) (op : Op) : (R.on i op).listed = R.listed := rfl
@[simp] theorem on_waiting (R : Reg) (i : Id) (op : Op) : (R.on i op).waiting = R.waiting := rfl

theorem step_loc (R : Reg) (i : Id) (op : Op) (h1 : op ≠ .dropRef) (h2 : op ≠ .finish) :
    R.step (.loc i op) = R.on i op := by
  cases op <;> first | rfl | contradiction

theorem step_finish (R : Reg) (i : Id) :
    (∃ r res, (R.act i).phase = .notifying r [] res ∧ R.step (.loc i .finish) = (R.remove i).on i .finish) ∨
    ((∀ r res, (R.act i).phase ≠ .notifying r [] res) ∧ R.step (.loc i .finish) = R) := by
  simp only [Reg.step]
  split
  · next r res h => exact .inl ⟨r, res, h, rfl⟩
  · next h => exact .inr ⟨fun r res hp => h r res hp, rfl⟩

/-- A step of the node is for each actor a number of steps of its own. -/
theorem act_step (R : Reg) (op : ROp) (j : Id) : ∃ l, (R.step op).act j = (R.act j).exec l := by
  have on : ∀ (R : Reg) i o, ∃ l, (R.on i o).act j = (R.act j).exec l := by
    intro R i o
    by_cases h : j = i
    · subst h; exact ⟨[o], by simp [St.exec]⟩
    · exact ⟨[], by simp [h, St.exec]⟩
  have ins : ∀ (R : Reg) i, ∃ l, (R.insert i).act j = (R.act j).exec l := by
    intro R i
    unfold Reg.insert
    split
    · exact on _ _ _
    · exact ⟨[], rfl⟩
  have tr : ∀ {a b c : St}, (∃ l, b = a.exec l) → (∃ l, c = b.exec l) → ∃ l, c = a.exec l := by
    rintro a b c ⟨l, rfl⟩ ⟨l', rfl⟩
    exact ⟨l ++ l', by simp [St.exec]⟩
  have rfl' : ∀ a : St, ∃ l, a = a.exec l := fun a => ⟨[], rfl⟩
  cases op with
  | loc i o =>
    by_cases h1 : o = .dropRef
    · subst h1
      simp only [Reg.step]
      split
      · exact on _ _ _
      · exact rfl' _
    · by_cases h2 : o = .finish
      · subst h2
        rcases step_finish R i with ⟨r, res, _, h⟩ | ⟨_, h⟩
        · rw [h]
          refine tr (b := (R.remove i).act j) ?_ (on _ _ _)
          unfold Reg.remove
          split
          · exact on R i _
          · exact rfl' _
        · rw [h]; exact rfl' _
      · rw [step_loc R i o h1 h2]; exact on _ _ _
  | register i =>
    simp only [Reg.step]
    split
    · exact on R i _
    · exact rfl' _
  | answer i ok =>
    simp only [Reg.step]
    split
    · split
      · exact ins { R with waiting := _ } i
      · exact on { R with waiting := _ } i _
    · exact rfl' _
  | abandon i =>
    simp only [Reg.step]
    split
    · exact on { R with waiting := _ } i _
    · exact rfl' _
  | linkRemote i =>
    simp only [Reg.step]
    split
    · exact tr (on R i _) (ins _ i)
    · exact rfl' _
  | unregister i => exact rfl' _

theorem exec_append (R : Reg) (a b : List ROp) : R.exec (a ++ b) = (R.exec a).exec b := by
  simp [Reg.exec]

theorem act_exec (R : Reg) (ops : List ROp) (j : Id) : ∃ l, (R.exec ops).act j = (R.act j).exec l := by
  induction ops generalizing R with
  | nil => exact ⟨[], rfl⟩
  | cons op ops ih =>
    obtain ⟨l, hl⟩ := act_step R op j
    obtain ⟨l', hl'⟩ := ih (R.step op)
    exact ⟨l ++ l', by
      show ((R.step op).exec ops).act j = _
      rw [hl', hl]; simp [St.exec]⟩

theorem act_after (cap : Id → Option Nat) (ops : List ROp) (j : Id) :
    ∃ l, (regAfter cap ops).act j = after (cap j) l := by
  obtain ⟨l, hl⟩ := act_exec (Reg.fresh cap) ops j
  exact ⟨l, by rw [regAfter, hl]; rfl⟩

/-- Who is taken out of the registry. -/
theorem unlisted_step (R : Reg) (op : ROp) (i : Id) (h : i ∈ R.listed) (h' : i ∉ (R.step op).listed) :
    op = .loc i .finish ∧ ∃ r res, (R.act i).phase = .notifying r [] res := by
  have ins : ∀ (R : Reg) j, i ∈ R.listed → i ∈ (R.insert j).listed := by
    intro R j hi
    unfold Reg.insert
    split <;> simp [hi]
  cases op with
  | loc j o =>
    by_cases h1 : o = .dropRef
    · subst h1
      simp only [Reg.step] at h'
      split at h' <;> exact absurd h h'
    · by_cases h2 : o = .finish
      · subst h2
        rcases step_finish R j with ⟨r, res, hp, he⟩ | ⟨_, he⟩
        · rw [he] at h'
          by_cases hj : i = j
          · subst hj; exact ⟨rfl, r, res, hp⟩
          · refine absurd ?_ h'
            simp only [on_listed, Reg.remove]
            split
            · exact (List.mem_erase_of_ne hj).mpr h
            · exact h
        · rw [he] at h'; exact absurd h h'
      · rw [step_loc R j o h1 h2] at h'; exact absurd h h'
  | register j =>
    simp only [Reg.step] at h'
    split at h' <;> exact absurd h h'
  | answer j ok =>
    simp only [Reg.step] at h'
    split at h'
    · split at h'
      · exact absurd (ins { R with waiting := R.waiting.erase j } j h) h'
      · exact absurd h h'
    · exact absurd h h'
  | abandon j =>
    simp only [Reg.step] at h'
    split at h' <;> exact absurd h h'
  | linkRemote j =>
    simp only [Reg.step] at h'
    split at h'
    · exact absurd (ins (R.on j .cloneRef) j h) h'
    · exact absurd h h'
  | unregister j => exact absurd h h'

/-- Who is put into the registry. -/
theorem listed_step (R : Reg) (op : ROp) (i : Id) (h : i ∉ R.listed) (h' : i ∈ (R.step op).listed) :
    op.lists i = true := by
  have ins : ∀ (R : Reg) j, i ∉ R.listed → i ∈ (R.insert j).listed → j = i := by
    intro R j hi h
    unfold Reg.insert at h
    split at h
    · exact absurd h hi
    · simp [hi] at h; exact h.symm
  cases op with
  | loc j o =>
    by_cases h1 : o = .dropRef
    · subst h1
      simp only [Reg.step] at h'
      split at h' <;> exact absurd h' h
    · by_cases h2 : o = .finish
      · subst h2
        rcases step_finish R j with ⟨r, res, hp, he⟩ | ⟨_, he⟩
        · rw [he] at h'
          refine absurd ?_ h
          simp only [on_listed, Reg.remove] at h'
          split at h'
          · exact List.mem_of_mem_erase h'
          · exact h'
        · rw [he] at h'; exact absurd h' h
      · rw [step_loc R j o h1 h2] at h'; exact absurd h' h
  | register j =>
    simp only [Reg.step] at h'
    split at h' <;> exact absurd h' h
  | answer j ok =>
    simp only [Reg.step] at h'
    split at h'
    · split at h'
      · next hok => simp [ROp.lists, hok, ins { R with waiting := R.waiting.erase j } j h h']
      · exact absurd h' h
    · exact absurd h' h
  | abandon j =>
    simp only [Reg.step] at h'
    split at h' <;> exact absurd h' h
  | linkRemote j =>
    simp only [Reg.step] at h'
    split at h'
    · simp [ROp.lists, ins (R.on j .cloneRef) j h h']
    · exact absurd h' h
  | unregister j => exact absurd h' h

theorem nodup_step (R : Reg) (op : ROp) (h : R.listed.Nodup) : (R.step op).listed.Nodup := by
  have ins : ∀ (R : Reg) j, R.listed.Nodup → (R.insert j).listed.Nodup := by
    intro R j hi
    unfold Reg.insert
    split
    · exact hi
    · next hj => simp [List.nodup_append, hi]; rintro a ha rfl; exact hj ha
  cases op with
  | loc j o =>
    by_cases h1 : o = .dropRef
    · subst h1
      simp only [Reg.step]
      split <;> exact h
    · by_cases h2 : o = .finish
      · subst h2
        rcases step_finish R j with ⟨r, res, hp, he⟩ | ⟨_, he⟩
        · rw [he]
          simp only [on_listed, Reg.remove]
          split
          · exact h.erase _
          · exact h
        · rw [he]; exact h
      · rw [step_loc R j o h1 h2]; exact h
  | register j =>
    simp only [Reg.step]
    split <;> exact h
  | answer j ok =>
    simp only [Reg.step]
    split
    · split
      · exact ins { R with waiting := _ } j h
      · exact h
    · exact h
  | abandon j =>
    simp only [Reg.step]
    split <;> exact h
  | linkRemote j =>
    simp only [Reg.step]
    split
    · exact ins (R.on j .cloneRef) j h
    · exact h
  | unregister j => exact h

theorem nodup_after (cap : Id → Option Nat) (ops : List ROp) : (regAfter cap ops).listed.Nodup := by
  suffices h : ∀ (R : Reg), R.listed.Nodup → (R.exec ops).listed.Nodup from h _ List.nodup_nil
  induction ops with
  | nil => exact fun _ h => h
  | cons op ops ih => exact fun R h => ih _ (nodup_step R op h)

/-- The references of the registry and of waiting registrations are among those that exist. -/
def Shared (R : Reg) : Prop := ∀ i, R.share i ≤ (R.act i).ext

theorem shared_on {R : Reg} (h : Shared R) (i : Id) (op : Op) (ho : op ≠ .dropRef) : Shared (R.on i op) := by
  intro j
  have := h j
  show R.share j ≤ _
  by_cases hj : j = i
  · subst hj
    have := ext_step (R.act j) op ho
    simp; omega
  · simpa [hj] using this

theorem shared_step {R : Reg} (h : Shared R) (op : ROp) : Shared (R.step op) := by
  have drop : ∀ s : St, (s.step .dropRef).ext = s.ext - 1 := fun _ => rfl
  have clone : ∀ s : St, 0 < s.ext → (s.step .cloneRef).ext = s.ext + 1 := by
    intro s hs; simp [St.step, hs]
  have ins : ∀ (R : Reg) i, (∀ j, R.share j + (if j = i then 1 else 0) ≤ (R.act j).ext) → Shared (R.insert i) := by
    intro R i hR j
    have hj := hR j
    unfold Reg.insert
    split
    · by_cases hi : j = i
      · subst hi; simp [Reg.share, drop] at *; omega
      · simp [Reg.share, hi] at *; omega
    · by_cases hi : j = i
      · subst hi; simp [Reg.share, List.count_append] at *; omega
      · have : List.count j [i] = 0 := by simp [Ne.symm hi]
        simp [Reg.share, List.count_append, hi, this] at *; omega
  have era : ∀ (l : List Id) i j, i ∈ l → (l.erase i).count j + (if j = i then 1 else 0) = l.count j := by
    intro l i j hi
    by_cases hj : j = i
    · subst hj
      have : 0 < l.count j := List.count_pos_iff.mpr hi
      simp [List.count_erase_self]; omega
    · simp [hj, List.count_erase_of_ne hj]
  cases op with
  | loc i o =>
    by_cases h1 : o = .dropRef
    · subst h1
      simp only [Reg.step]
      split
      · next hlt =>
        intro j
        have hj := h j
        by_cases hi : j = i
        · subst hi; simp [Reg.share, drop] at *; omega
        · simpa [Reg.share, hi] using hj
      · exact h
    · by_cases h2 : o = .finish
      · subst h2
        rcases step_finish R i with ⟨r, res, hp, he⟩ | ⟨_, he⟩
        · rw [he]
          refine shared_on ?_ i _ (by simp)
          unfold Reg.remove
          split
          · next hm =>
            intro j
            have hj := h j
            have := era R.listed i j hm
            by_cases hi : j = i
            · subst hi; simp [Reg.share, drop] at *; omega
            · simp [Reg.share, hi] at *; omega
          · exact h
        · rw [he]; exact h
      · rw [step_loc R i o h1 h2]; exact shared_on h i o h1
  | register i =>
    simp only [Reg.step]
    split
    · next hlt =>
      intro j
      have hj := h j
      by_cases hi : j = i
      · subst hi
        simp [Reg.share, clone _ (by omega : 0 < (R.act j).ext), List.count_append] at *; omega
      · have : List.count j [i] = 0 := by simp [Ne.symm hi]
        simpa [Reg.share, hi, List.count_append, this] using hj
    · exact h
  | answer i ok =>
    simp only [Reg.step]
    split
    · next hm =>
      split
      · refine ins _ i ?_
        intro j
        have hj := h j
        have := era R.waiting i j hm
        simp [Reg.share] at *; omega
      · intro j
        have hj := h j
        have := era R.waiting i j hm
        by_cases hi : j = i
        · subst hi; simp [Reg.share, drop] at *; omega
        · simp [Reg.share, hi] at *; omega
    · exact h
  | abandon i =>
    simp only [Reg.step]
    split
    · next hm =>
      intro j
      have hj := h j
      have := era R.waiting i j hm
      by_cases hi : j = i
      · subst hi; simp [Reg.share, drop] at *; omega
      · simp [Reg.share, hi] at *; omega
    · exact h
  | linkRemote i =>
    simp only [Reg.step]
    split
    · next hlt =>
      refine ins _ i ?_
      intro j
      have hj := h j
      by_cases hi : j = i
      · subst hi
        simp [Reg.share, clone _ (by omega : 0 < (R.act j).ext)] at *; omega
      · simpa [Reg.share, hi] using hj
    · exact h
  | unregister i => exact h

theorem shared_after (cap : Id → Option Nat) (ops : List ROp) : Shared (regAfter cap ops) := by
  suffices h : ∀ (R : Reg), Shared R → Shared (R.exec ops) from h _ (fun i => by simp [Reg.fresh, Reg.share])
  induction ops with
  | nil => exact fun _ h => h
  | cons op ops ih => exact fun R h => ih _ (shared_step h op)

/-! ## C66 -/

theorem listed_exec {R : Reg} {i : Id} (h : i ∈ R.listed) (hd : Phase.dead (R.act i).phase = true) (ops : List ROp) :
    i ∈ (R.exec ops).listed := by
  induction ops generalizing R with
  | nil => exact h
  | cons op ops ih =>
    refine ih (R := R.step op) ?_ ?_
    · refine Classical.byContradiction fun hc => ?_
      obtain ⟨_, r, res, hp⟩ := unlisted_step R op i h hc
      rw [hp] at hd; cases hd
    · obtain ⟨l, hl⟩ := act_step R op i
      rw [hl]; exact dead_exec hd l

theorem startupErr_tr {s s' : St} (h : s.phase.ended = true) (ht : Tr s s') : s'.startupErr = s.startupErr := by
  have hl := not_inLoop_of_ended h
  cases ht with
  | teardown h1 h2 => cases hp : s.phase <;> simp_all
  | delegSend t r hd => simp [St.reply, St.ev]; split <;> rfl
  | _ => first | (simp_all; done) | (simp only [St.step]; done) | (simp only [St.step]; split <;> rfl) | rfl

theorem startupErr_exec {s : St} (h : s.phase.ended = true) (l : List Op) : (s.exec l).startupErr = s.startupErr := by
  induction l generalizing s with
  | nil => rfl
  | cons op l ih =>
    have h1 := ended_tr h (step_tr s op)
    show ((s.step op).exec l).startupErr = s.startupErr
    rw [ih (by rw [h1]; exact h), startupErr_tr h (step_tr s op)]

/-- After its notifications a task returns only by its last step. -/
theorem notifying_step {s : St} {r : Reason} {p : List Id} {x : Option Err} (h : s.phase = .notifying r p x) (op : Op)
    (ho : op ≠ .finish) (r' : Reason) : (s.step op).phase ≠ .stopped r' := by
  cases op with
  | finish => exact absurd rfl ho
  | delegSend t r =>
    simp only [St.step]; split <;> simp [h]
  | notifyEnd id =>
    simp only [St.step, h]; split <;> simp [h]
  | _ =>
    simp only [St.step, h, Phase.inLoop]
    repeat' split
    all_goals simp_all

theorem stopped_by_finish {s : St} (hst : Start s) (op : Op) (he : s.phase.ended = false) (r : Reason)
    (hp : (s.step op).phase = .stopped r) (hs : (s.step op).startupErr = some none) : op = .finish := by
  refine Classical.byContradiction fun hne => ?_
  have ht := step_tr s op
  generalize hs' : s.step op = s' at ht hp hs
  have hl : s.phase.inLoop = true → ∀ t, s.phase ≠ .stopped t := by
    intro h t hc; rw [hc] at h; cases h
  cases ht with
  | finish r2 res h => exact notifying_step h op hne r (by rw [hs']; exact hp)
  | stopFinish r2 p o res h ho =>
    obtain ⟨e, h1⟩ := hst.stf r2 p h
    have : (((s.ev (.sEnd r2 o)).finishAll r2 res)).startupErr = s.startupErr := rfl
    rw [this, h1] at hs; cases hs
  | teardown h1 h2 => simp at hp
  | delegSend t r2 hd => simp_all
  | startOk h => simp [St.startOk] at hp; split at hp <;> simp_all
  | startFail o e h ho => simp [St.startFail] at hp
  | startPanicStop e o r2 h ho => simp [St.stopFailed] at hp
  | abort h ha => simp [St.abortSeen] at hp
  | recvNone h => cases hb : s.buffer <;> simp_all [St.drain]
  | recvStartup h => cases hb : s.buffer <;> simp_all [St.drain]
  | recvStop h => cases hb : s.buffer <;> simp_all [St.drain]
  | handlerReply m rest ts res h => cases rest <;> cases ts <;> simp_all [St.drain]
  | handlerOk m tk rest ts res h => cases rest <;> cases ts <;> simp_all [St.drain]
  | _ =>
    first
    | (simp_all; done)
    | (have hp : s.phase = .stopped r := hp; rw [hp] at he; cases he)

/-- What `ended_unlisted_partial` says, as an invariant. -/
def Clean (i : Id) (R : Reg) : Prop :=
  ∀ r, (R.act i).phase = .stopped r → (R.act i).startupErr = some none → i ∉ R.listed

theorem clean_step {R : Reg} {i : Id} (h : Clean i R) (hst : Start (R.act i)) (hn : R.listed.Nodup) (op : ROp)
    (hb : op.lists i = true → ¬ Ended (R.act i)) : Clean i (R.step op) := by
  intro r hp hs
  by_cases he : (R.act i).phase.ended = true
  · obtain ⟨l, hl⟩ := act_step R op i
    rw [hl] at hp hs
    rw [ended_exec he] at hp
    rw [startupErr_exec he] at hs
    intro hc
    exact hb (listed_step R op i (h r hp hs) hc) ((ended_iff _).mpr he)
  · have he : (R.act i).phase.ended = false := by simpa using he
    have hno : ∀ r, (R.act i).phase ≠ .stopped r := by intro r hc; rw [hc] at he; cases he
    have drop : ∀ s : St, (s.step .dropRef).phase = s.phase := fun _ => rfl
    have clone : ∀ s : St, (s.step .cloneRef).phase = s.phase := by intro s; simp only [St.step]; split <;> rfl
    have on : ∀ (R : Reg) j o, o = .dropRef ∨ o = .cloneRef → ((R.on j o).act i).phase = (R.act i).phase := by
      rintro R j o (rfl | rfl) <;> by_cases hj : i = j <;> simp [hj, drop, clone]
    have ins : ∀ (R : Reg) j, ((R.insert j).act i).phase = (R.act i).phase := by
      intro R j; unfold Reg.insert; split
      · exact on _ _ _ (.inl rfl)
      · rfl
    cases op with
    | loc j o =>
      by_cases hj : j = i
      · subst hj
        by_cases h1 : o = .dropRef
        · subst h1
          simp only [Reg.step] at hp
          split at hp
          · rw [on _ _ _ (.inl rfl)] at hp; exact absurd hp (hno r)
          · exact absurd hp (hno r)
        · by_cases h2 : o = .finish
          · subst h2
            rcases step_finish R j with ⟨r', res, hp', heq⟩ | ⟨_, heq⟩
            · rw [heq]
              simp only [on_listed, Reg.remove]
              split
              · intro hc; exact (List.Nodup.mem_erase_iff hn).mp hc |>.1 rfl
              · next hc => exact hc
            · rw [heq] at hp; exact absurd hp (hno r)
          · rw [step_loc R j o h1 h2] at hp hs
            simp only [on_act, if_true] at hp hs
            exact absurd (stopped_by_finish hst o he r hp hs) h2
      · refine absurd ?_ (hno r)
        by_cases h1 : o = .dropRef
        · subst h1
          simp only [Reg.step] at hp
          split at hp
          · rwa [on _ _ _ (.inl rfl)] at hp
          · exact hp
        · by_cases h2 : o = .finish
          · subst h2
            rcases step_finish R j with ⟨r', res, hp', heq⟩ | ⟨_, heq⟩
            · rw [heq] at hp
              simp only [on_act, if_neg (Ne.symm hj), Reg.remove] at hp
              split at hp
              · rwa [show ({ R.on j .dropRef with listed := R.listed.erase j } : Reg).act i = (R.on j .dropRef).act i from rfl,
                  on _ _ _ (.inl rfl)] at hp
              · exact hp
            · rwa [heq] at hp
          · rw [step_loc R j o h1 h2] at hp
            simpa [Ne.symm hj] using hp
    | register j =>
      simp only [Reg.step] at hp
      split at hp
      · exact absurd ((on R j _ (.inr rfl)).symm.trans hp) (hno r)
      · exact absurd hp (hno r)
    | answer j ok =>
      simp only [Reg.step] at hp
      split at hp
      · split at hp
        · exact absurd ((ins { R with waiting := R.waiting.erase j } j).symm.trans hp) (hno r)
        · exact absurd ((on { R with waiting := R.waiting.erase j } j _ (.inl rfl)).symm.trans hp) (hno r)
      · exact absurd hp (hno r)
    | abandon j =>
      simp only [Reg.step] at hp
      split at hp
      · exact absurd ((on { R with waiting := R.waiting.erase j } j _ (.inl rfl)).symm.trans hp) (hno r)
      · exact absurd hp (hno r)
    | linkRemote j =>
      simp only [Reg.step] at hp
      split at hp
      · exact absurd ((on R j _ (.inr rfl)).symm.trans ((ins _ j).symm.trans hp)) (hno r)
      · exact absurd hp (hno r)
    | unregister j => exact absurd hp (hno r)

theorem clean_after (cap : Id → Option Nat) (i : Id) (pre ops : List ROp) (h : Clean i (regAfter cap pre))
    (hb : ∀ a op b, ops = a ++ op :: b → op.lists i = true → ¬ Ended ((regAfter cap (pre ++ a)).act i)) :
    Clean i (regAfter cap (pre ++ ops)) := by
  induction ops generalizing pre with
  | nil => simpa using h
  | cons op ops ih =>
    rw [List.append_cons]
    refine ih (pre ++ [op]) ?_ ?_
    · obtain ⟨l, hl⟩ := act_after cap pre i
      have := clean_step h (by rw [hl]; exact start_after _ _) (nodup_after cap pre) op
        (by simpa using hb [] op ops rfl)
      simpa [regAfter, exec_append, Reg.exec] using this
    · intro a op' b he hl
      have := hb (op :: a) op' b (by simp [he]) hl
      simpa using this

theorem dead_of_ended {p : Phase} (h : p.ended = true) : Phase.dead p = true := by
  cases p <;> simp_all [Phase.dead]

/-! ## Runs for the concrete cases -/

/-- An actor that starts, is registered, and ends. -/
private def exEnd : List ROp :=
  [.loc 0 .run, .loc 0 (.startEnd .ok), .register 0, .answer 0 true, .loc 0 .kill, .loc 0 .pollBegin,
   .loc 0 (.stopEnd .ok), .loc 0 .finish]

/-- An actor whose `on_start` fails, registered by its starter meanwhile. -/
private def exFail : List ROp :=
  [.loc 0 .run, .register 0, .answer 0 true, .loc 0 (.startEnd (.err 5)), .loc 0 (.panicEnd .cont), .loc 0 (.stopEnd .ok)]

/-- An actor linked to a remote one, whose `on_stop` panics. -/
private def exTorn : List ROp :=
  [.loc 0 .run, .loc 0 (.startEnd .ok), .linkRemote 0, .loc 0 .kill, .loc 0 .pollBegin]

/-- A registration that the swarm confirms too late. -/
private def exLate : List ROp :=
  [.loc 0 .run, .loc 0 (.startEnd .ok), .register 0, .loc 0 .kill, .loc 0 .pollBegin, .loc 0 (.stopEnd .ok), .loc 0 .finish]

/-- An actor that is registered, unregistered and dropped by its users. -/
private def exDrop : List ROp := [.loc 0 .run, .loc 0 (.startEnd .ok), .register 0, .answer 0 true]

private theorem all_splits {α : Type} (l : List α) (p : List α → α → Prop)
    (h : ∀ k : Fin l.length, p (l.take k) l[k]) : ∀ pre x post, l = pre ++ x :: post → p pre x := by
  intro pre x post e
  subst e
  have := h ⟨pre.length, by simp⟩
  simpa using this

/-! ## C66 and C67 -/

/-- **C66** An actor whose task has returned after a successful start is not in the registry, if whatever put it there
did so before its end. -/
theorem ended_unlisted_partial (cap : Id → Option Nat) (ops : List ROp) (i : Id) (r : Reason)
    (hs : ((regAfter cap ops).act i).phase = .stopped r) (hok : .startEnd .ok ∈ ((regAfter cap ops).act i).log)
    (hb : ∀ pre op post, ops = pre ++ op :: post → op.lists i = true → ¬ Ended ((regAfter cap pre).act i)) :
    i ∉ (regAfter cap ops).listed := by
  obtain ⟨l, hl⟩ := act_after cap ops i
  have hst : Start ((regAfter cap ops).act i) := by rw [hl]; exact start_after _ _
  have := clean_after cap i [] ops (by intro r h; simp [regAfter, Reg.exec, Reg.fresh, after, St.exec, St.fresh] at h)
    (by simpa using hb)
  simp only [List.nil_append] at this
  refine this r hs ?_
  cases hx : ((regAfter cap ops).act i).startupErr with
  | none => exact absurd hok ((hst.noRes hx).2.2.1 _)
  | some x => rw [← (hst.res x hx).2.1 _ hok]; rfl

example : ((regAfter (fun _ => none) exEnd).act 0).phase = .stopped .killed ∧
    .startEnd .ok ∈ ((regAfter (fun _ => none) exEnd).act 0).log ∧ (regAfter (fun _ => none) exEnd).listed = [] ∧
    (regAfter (fun _ => none) (exEnd.take 7)).listed = [0] := by decide

example : ∀ pre op post, exEnd = pre ++ op :: post → op.lists 0 = true → ¬ Ended ((regAfter (fun _ => none) pre).act 0) := by
  apply all_splits exEnd (fun pre op => op.lists 0 = true → ¬ Ended ((regAfter (fun _ => none) pre).act 0))
  simp only [ended_iff]
  decide

/-- **C66** Registered is registered until the end: nothing but the end of the actor's own task takes it out of the
registry, whoever does what, so requests and lookups find it until then. -/
theorem listed_until_finish (R : Reg) (i : Id) (h : i ∈ R.listed) (ops : List ROp) (hn : .loc i .finish ∉ ops) :
    i ∈ (R.exec ops).listed := by
  induction ops generalizing R with
  | nil => exact h
  | cons op ops ih =>
    simp only [List.mem_cons, not_or] at hn
    refine ih (R.step op) ?_ hn.2
    refine Classical.byContradiction fun hc => ?_
    exact hn.1 (unlisted_step R op i h hc).1.symm

/-- Registered; then everything but the end happens. -/
example : 0 ∈ (regAfter (fun _ => none) exDrop).listed ∧
    ((regAfter (fun _ => none) exDrop).exec [.unregister 0, .loc 0 .kill, .loc 0 .pollBegin, .loc 0 (.stopEnd .ok)]).listed =
      [0] := by decide

/-- **C66** Unregistering does not give the actor back: as long as its task does not end it stays in the registry after
any number of `unregister` calls, whoever drops what, and the registry's own reference keeps weak references to it
upgradable and its mailbox open to `recv`. -/
theorem unregister_keeps_reference (cap : Id → Option Nat) (ops ops' : List ROp) (i : Id)
    (h : i ∈ (regAfter cap ops).listed) (hn : .loc i .finish ∉ ops') :
    let R := regAfter cap (ops ++ .unregister i :: ops')
    i ∈ R.listed ∧ 0 < (R.act i).ext ∧ (R.act i).noSenders = false := by
  have h1 : i ∈ (regAfter cap (ops ++ .unregister i :: ops')).listed := by
    rw [regAfter, exec_append]
    exact listed_until_finish _ i h _ (by simp [hn])
  have h2 : 0 < ((regAfter cap (ops ++ .unregister i :: ops')).act i).ext := by
    have := shared_after cap (ops ++ .unregister i :: ops') i
    have hc : 0 < (regAfter cap (ops ++ .unregister i :: ops')).listed.count i := List.count_pos_iff.mpr h1
    simp only [Reg.share] at this; omega
  refine ⟨h1, h2, ?_⟩
  have : ((regAfter cap (ops ++ .unregister i :: ops')).act i).ext ≠ 0 := by omega
  simp [St.noSenders, this]

example : 0 ∈ (regAfter (fun _ => none) exDrop).listed ∧
    ((regAfter (fun _ => none) (exDrop ++ [.unregister 0, .loc 0 .dropRef, .loc 0 .dropRef])).act 0).ext = 1 := by decide

/-- **C66** What is in the registry when its task has ended stays there for ever. -/
theorem listed_after_end_for_ever (R : Reg) (i : Id) (h : i ∈ R.listed) (he : Ended (R.act i)) (ops : List ROp) :
    i ∈ (R.exec ops).listed :=
  listed_exec h (dead_of_ended ((ended_iff _).mp he)) ops

example : 0 ∈ (regAfter (fun _ => none) exFail).listed ∧ Ended ((regAfter (fun _ => none) exFail).act 0) :=
  ⟨by decide, .inl ⟨.panicked 5, by decide⟩⟩

/-- **C66** An actor that is in the registry when its `on_start` fails stays there for ever. -/
theorem failed_start_stays_listed (cap : Id → Option Nat) (ops : List ROp) (i : Id) (o : UOut)
    (h : i ∈ (regAfter cap ops).listed) (ho : .startEnd o ∈ ((regAfter cap ops).act i).log) (hf : o ≠ .ok)
    (ops' : List ROp) : i ∈ (regAfter cap (ops ++ ops')).listed := by
  rw [regAfter, exec_append]
  refine listed_exec h ?_ ops'
  obtain ⟨l, hl⟩ := act_after cap ops i
  have hst : Start ((regAfter cap ops).act i) := by rw [hl]; exact start_after _ _
  change Phase.dead ((regAfter cap ops).act i).phase = true
  have hx : ∃ e, ((regAfter cap ops).act i).startupErr = some (some e) := by
    cases hx : ((regAfter cap ops).act i).startupErr with
    | none => exact absurd ho ((hst.noRes hx).2.2.1 _)
    | some x =>
      have := (hst.res x hx).2.1 _ ho
      cases o with
      | ok => exact absurd rfl hf
      | err e => exact ⟨e, by rw [← this]; rfl⟩
      | panic e => exact ⟨e, by rw [← this]; rfl⟩
  obtain ⟨e, hx⟩ := hx
  have h1 := hst.unborn
  have h2 := hst.loop
  have h3 := hst.stt
  have h4 := hst.nott
  rw [hx] at h1 h2 h3 h4
  cases hp : ((regAfter cap ops).act i).phase with
  | stopping r p b => cases b with
    | false => rfl
    | true => simpa using h3 r p hp
  | notifying r p x => simpa using h4 r p x hp
  | prepared => simp [hp] at h1
  | starting => simp [hp] at h1
  | idle => simp [hp] at h2
  | handling => simp [hp] at h2
  | linkDying => simp [hp] at h2
  | panicking => simp [hp] at h2
  | _ => rfl

example : 0 ∈ (regAfter (fun _ => none) exFail).listed ∧ .startEnd (.err 5) ∈ ((regAfter (fun _ => none) exFail).act 0).log ∧
    ((regAfter (fun _ => none) exFail).act 0).phase = .stopped (.panicked 5) := by decide

/-- **C66** An actor that is in the registry when its task is torn down, by a panic of `on_stop` or `on_panic` or from
outside, stays there for ever. -/
theorem torn_down_stays_listed (R : Reg) (i : Id) (op : ROp) (h : i ∈ R.listed)
    (hc : ((R.step op).act i).phase = .crashed) (ops : List ROp) : i ∈ ((R.step op).exec ops).listed := by
  refine listed_exec ?_ (by rw [hc]; rfl) ops
  refine Classical.byContradiction fun hn => ?_
  obtain ⟨rfl, r, res, hp⟩ := unlisted_step R op i h hn
  rcases step_finish R i with ⟨r', res', hp', heq⟩ | ⟨hp', _⟩
  · rw [heq] at hc
    have : ((R.remove i).act i).phase = .notifying r [] res := by
      rw [Reg.remove, if_pos h]
      show ((R.on i .dropRef).act i).phase = _
      rw [on_act, if_pos rfl]; exact hp
    simp [St.step, this] at hc
  · exact hp' r res hp

example : 0 ∈ (regAfter (fun _ => none) exTorn).listed ∧
    (((regAfter (fun _ => none) exTorn).step (.loc 0 (.stopEnd (.panic 1)))).act 0).phase = .crashed := by decide

/-- **C66** A registration that the swarm confirms after the actor's task has ended puts it in the registry for ever. -/
theorem late_registration_stays_listed (R : Reg) (i : Id) (hw : i ∈ R.waiting) (he : Ended (R.act i)) (ops : List ROp) :
    i ∈ (R.exec (.answer i true :: ops)).listed := by
  refine listed_exec (R := R.step (.answer i true)) ?_ ?_ ops
  · simp only [Reg.step, hw, if_true]
    unfold Reg.insert
    split
    · next h => exact h
    · simp
  · obtain ⟨l, hl⟩ := act_step R (.answer i true) i
    rw [hl]
    exact dead_exec (dead_of_ended ((ended_iff _).mp he)) l

example : 0 ∈ (regAfter (fun _ => none) exLate).waiting ∧ Ended ((regAfter (fun _ => none) exLate).act 0) := by
  refine ⟨by decide, .inl ⟨.killed, by decide⟩⟩

end Verif.Listed
