import Verif.System.Unlinked

/-!
C101: the dead are forgotten. When `on_link_died` has returned the dead actor is removed from the links of the actor that
was told (`src/actor/kind.rs` L140), so a link set does not fill up with actors that are gone; and the cases in which
it does.
-/

set_option linter.unusedSimpArgs false

namespace Verif.System

open Verif.Mailbox Verif.Lifecycle

/-! ### Specification -/

/-- Every call of `link` for `i` and `j` in the history came before `i` left its loop. -/
def TimelyLinks (cap : Id → Option Nat) (ops : List SOp) (i j : Id) : Prop :=
  ∀ pre op post, ops = pre ++ op :: post → op.joins i j → ¬ ((sysAfter cap pre).act i).phase.out

/-- The news that `i` died with reason `r` is in the mailbox of `j`, or `on_link_died` of `j` is running for it. -/
def NewsAtHand (S : Sys) (i j : Id) (r : Reason) : Prop :=
  (∃ t, (t, .linkDied i r) ∈ (S.act j).mb.queue) ∨ (S.act j).phase = .linkDying i r

/-! ### Lemmas -/

/-- A link-died signal that has been taken was taken before or is the one now being handled. -/
theorem taken_tr {s s' : St} (ht : Tr s s') {t : Nat} {i : Id} {r : Reason}
    (h : (t, Sig.linkDied i r) ∈ s'.mb.received) :
    (t, Sig.linkDied i r) ∈ s.mb.received ∨ s'.phase = .linkDying i r := by
  cases ht with
  | startOk hp => left; simpa [(startOk_fields s).1] using h
  | startFail => left; simpa [St.startFail] using h
  | startPanicStop => left; simpa [St.stopFailed] using h
  | abort => left; simpa [St.abortSeen] using h
  | teardown => left; simpa [St.crash] using h
  | recvStartup hp _ t q hq => left; simpa [recv_received _ hq] using h
  | recvBuffer hp _ t b q hq => left; simpa [recv_received _ hq] using h
  | recvMsg hp _ t b q hq => left; simpa [recv_received _ hq] using h
  | recvStop hp _ t q hq => left; simpa [recv_received _ hq] using h
  | recvLink hp _ t2 id r2 q hq =>
    simp [recv_received _ hq] at h
    rcases h with h | ⟨rfl, rfl, rfl⟩
    · exact Or.inl h
    · exact Or.inr rfl
  | refl => exact Or.inl h
  | _ => left; simpa [St.step] using h

/-- `on_link_died` is left only by its end, when the dead actor is removed from the links, or with the loop. -/
theorem linkDying_tr {s s' : St} (ht : Tr s s') {i : Id} {r : Reason} (h : s.phase = .linkDying i r) :
    s'.phase = .linkDying i r ∨ s'.phase.out ∨ i ∉ s'.links := by
  have hno : ∀ {p}, s.phase = p → p ≠ .linkDying i r → False := fun e1 e2 => e2 (e1 ▸ h)
  cases ht with
  | run hp => exact (hno hp (by simp)).elim
  | startOk hp => exact (hno hp (by simp)).elim
  | startFail _ _ hp => exact (hno hp (by simp)).elim
  | recvNone hp => exact (hno hp (by simp)).elim
  | recvStartup hp => exact (hno hp (by simp)).elim
  | recvBuffer hp => exact (hno hp (by simp)).elim
  | recvMsg hp => exact (hno hp (by simp)).elim
  | recvLink hp => exact (hno hp (by simp)).elim
  | recvStop hp => exact (hno hp (by simp)).elim
  | takeReply _ _ _ hp => exact (hno hp (by simp)).elim
  | handlerReply _ _ _ _ hp => exact (hno hp (by simp)).elim
  | handlerOk _ _ _ _ _ hp => exact (hno hp (by simp)).elim
  | handlerErr _ _ _ _ _ hp => exact (hno hp (by simp)).elim
  | handlerPanic _ _ _ _ _ hp => exact (hno hp (by simp)).elim
  | linkCont id r2 hp => rw [hp] at h; cases h; right; right; simp
  | linkStop id r2 r3 hp => right; left; simp; exact ⟨rfl, rfl⟩
  | linkPanic id r2 o e hp => rw [hp] at h; cases h; right; right; simp
  | panicCont _ hp => exact (hno hp (by simp)).elim
  | panicStop _ _ _ hp => exact (hno hp (by simp)).elim
  | panicDie _ _ hp => exact (hno hp (by simp)).elim
  | startPanicStop _ _ _ hp => exact (hno hp (by simp)).elim
  | startPanicDie _ _ hp => exact (hno hp (by simp)).elim
  | stopNotify _ _ _ _ hp => exact (hno hp (by simp)).elim
  | stopFinish _ _ _ _ hp => exact (hno hp (by simp)).elim
  | stopDie _ _ _ _ hp => exact (hno hp (by simp)).elim
  | notify _ _ _ _ hp => exact (hno hp (by simp)).elim
  | finish _ _ hp => exact (hno hp (by simp)).elim
  | abort hp => right; left; simp [St.abortSeen]; exact ⟨rfl, rfl⟩
  | teardown => right; left; simp [St.crash]; exact ⟨rfl, rfl⟩
  | refl => exact Or.inl h
  | _ => left; simpa [St.step] using h

theorem parts_links {S : Sys} {op : SOp} {i j : Id} (hij : i ≠ j) (h : op.parts i j) : i ∉ ((S.step op).act j).links := by
  rcases h with rfl | rfl
  · simp [Sys.step, hij, St.step]
  · simp [Sys.step, Ne.symm hij, St.step, hij]

theorem joins_comm {op : SOp} {i j : Id} : op.joins i j ↔ op.joins j i := by unfold SOp.joins; exact or_comm

/-- Whoever is in a link set got there by a `link` after which there was no `unlink`. -/
theorem last_join (cap : Id → Option Nat) (ops : List SOp) {i j : Id} (hij : i ≠ j)
    (h : i ∈ ((sysAfter cap ops).act j).links) :
    ∃ pre op post, ops = pre ++ op :: post ∧ op.joins i j ∧ ∀ o ∈ post, o.keeps i j := by
  refine sys_induct (P := fun ops S => i ∈ (S.act j).links →
    ∃ pre op post, ops = pre ++ op :: post ∧ op.joins i j ∧ ∀ o ∈ post, o.keeps i j) ?_ ?_ ops h
  · intro h
    simp [Sys.fresh, after, St.exec, St.fresh] at h
  · intro ops op ih h
    rcases links_gain h with h1 | h1
    · obtain ⟨pre, o, post, rfl, h2, h3⟩ := ih h1
      refine ⟨pre, o, post ++ [op], by simp, h2, ?_⟩
      intro o' ho'
      rcases List.mem_append.mp ho' with h4 | h4
      · exact h3 o' h4
      · simp at h4
        subst h4
        refine ⟨fun e => parts_links hij (Or.inl e) h, fun e => parts_links hij (Or.inr e) h⟩
    · exact ⟨ops, op, [], rfl, joins_comm.mp h1, by simp⟩

theorem timely_init {cap : Id → Option Nat} {ops : List SOp} {op : SOp} {i j : Id}
    (h : TimelyLinks cap (ops ++ [op]) i j) : TimelyLinks cap ops i j := by
  intro pre o post e hj
  exact h pre o (post ++ [op]) (by rw [e]; simp) hj

/-- Whose death has been heard of is being dealt with, or is in the links no more. -/
theorem heard_or_gone (cap : Id → Option Nat) (ops : List SOp) {i j : Id} {r : Reason} {t : Nat}
    (ht : TimelyLinks cap ops i j) (h : (t, Sig.linkDied i r) ∈ ((sysAfter cap ops).act j).mb.received) :
    ((sysAfter cap ops).act j).phase = .linkDying i r ∨ ((sysAfter cap ops).act j).phase.out ∨
      i ∉ ((sysAfter cap ops).act j).links := by
  refine sys_induct (P := fun ops S => S = sysAfter cap ops → TimelyLinks cap ops i j →
    (t, Sig.linkDied i r) ∈ (S.act j).mb.received →
    (S.act j).phase = .linkDying i r ∨ (S.act j).phase.out ∨ i ∉ (S.act j).links) ?_ ?_ ops rfl ht h
  · intro _ _ h
    simp [Sys.fresh, after, St.exec, St.fresh, Mb.fresh] at h
  · intro ops op ih _ ht h
    have hv := view_tr (view (sysAfter cap ops) op j)
    rcases taken_tr hv h with h1 | h1
    · rcases ih rfl (timely_init ht) h1 with h2 | h2 | h2
      · exact linkDying_tr hv h2
      · exact Or.inr (Or.inl (out_tr h2 hv).1)
      · refine Or.inr (Or.inr fun hm => ?_)
        rcases links_gain hm with h3 | h3
        · exact h2 h3
        · have hd := deaths_received (sys_good cap ops j) h1
          exact ht ops op [] rfl (joins_comm.mp h3) ((rel_after cap ops).src i j r hd).2.out
    · exact Or.inl h1

/-- What is taken from a link set: what was unlinked, everything when the loop ends, and the dead when `on_link_died` ends. -/
theorem links_keep {S : Sys} {op : SOp} {i j : Id} (h : i ∈ (S.act j).links) (hk : op.keeps i j) :
    i ∈ ((S.step op).act j).links ∨ ((S.step op).act j).phase.out ∨ ∃ r, (S.act j).phase = .linkDying i r := by
  by_cases hc : op.calm = true
  · rcases view_calm S op hc j with e | ⟨o, ho, e⟩ | ⟨k, r, p, res, _, _, e⟩ | ⟨k, t, _, _, e⟩
    · left; rwa [e]
    · rcases links_loc (S.act j) o ho with h1 | ⟨_, _, r, p, h1⟩ | ⟨k, r, h1, h2⟩
      · left; rwa [e, h1]
      · right; left; rw [e, h1]; exact ⟨rfl, rfl⟩
      · by_cases hki : i = k
        · subst hki; exact Or.inr (Or.inr ⟨r, h1⟩)
        · left; rw [e, h2]; simp [h, hki]
    · left; rw [e]; exact h
    · left; rw [e, notify_links]; exact h
  · exact Or.inl ((keeps_links hc ⟨hk.2, hk.1⟩).2 h)

theorem out_exec {cap : Id → Option Nat} {ops : List SOp} (ops' : List SOp) {j : Id}
    (h : ((sysAfter cap ops).act j).phase.out) : ((sysAfter cap (ops ++ ops')).act j).phase.out := by
  induction ops' generalizing ops with
  | nil => simpa using h
  | cons o b ih =>
    have := ih (ops := ops ++ [o]) (by rw [sysAfter_snoc]; exact (out_tr h (view_tr (view _ o j))).1)
    simpa using this

/-- Who never hears of the death never forgets. -/
theorem listed_while_untold (cap : Id → Option Nat) (ops ops' : List SOp) {i j : Id}
    (h : i ∈ ((sysAfter cap ops).act j).links) (hk : ∀ o ∈ ops', o.keeps i j)
    (hn : ∀ l, l <+: ops' → toldBy i ((sysAfter cap (ops ++ l)).act j) = []) :
    i ∈ ((sysAfter cap (ops ++ ops')).act j).links ∨ ((sysAfter cap (ops ++ ops')).act j).phase.out := by
  induction ops' generalizing ops with
  | nil => left; simpa using h
  | cons op l ih =>
    rcases links_keep h (hk op (by simp)) with h1 | h1 | ⟨r, h1⟩
    · have := ih (ops ++ [op]) (by rw [sysAfter_snoc]; exact h1) (fun o ho => hk o (List.mem_cons_of_mem _ ho))
        (fun l' hl' => by
          have := hn (op :: l') (List.cons_prefix_cons.mpr ⟨rfl, hl'⟩)
          simpa using this)
      simpa using this
    · right
      have := out_exec (ops := ops ++ [op]) l (by rw [sysAfter_snoc]; exact h1)
      simpa using this
    · exfalso
      have h2 := linkDying_received (sys_good cap ops j) h1
      have h3 := hn [] List.nil_prefix
      rw [List.append_nil] at h3
      have h4 : r ∈ toldBy i ((sysAfter cap ops).act j) :=
        List.mem_map.mpr ⟨(i, r), List.mem_filter.mpr ⟨h2, by simp⟩, rfl⟩
      rw [h3] at h4
      cases h4

/-! ### Theorems -/

/-- **C101** — who has heard of a death has forgotten the dead: let `i` and `j` not be linked any more once `i` has left its
loop. If `on_link_died` of `j` has been called for `i`, and that call is over, and `j` has not left its loop, then `i` is
not in the links of `j`; whatever the hook returned, or if it panicked. -/
theorem heard_is_forgotten (cap : Id → Option Nat) (ops : List SOp) (i j : Id) (r : Reason)
    (ht : TimelyLinks cap ops i j) (h : .lBegin i r ∈ ((sysAfter cap ops).act j).log)
    (hp : ((sysAfter cap ops).act j).phase ≠ .linkDying i r) (ho : ¬ ((sysAfter cap ops).act j).phase.out) :
    i ∉ ((sysAfter cap ops).act j).links := by
  obtain ⟨l, hl⟩ := actor_history cap ops j
  have hm : (i, r) ∈ linkRuns ((sysAfter cap ops).act j).log := List.mem_filterMap.mpr ⟨_, h, rfl⟩
  rw [hl, on_link_died_per_signal, ← hl, List.mem_filterMap] at hm
  obtain ⟨⟨t, sg⟩, h1, h2⟩ := hm
  cases sg <;> simp [linkTaken] at h2
  obtain ⟨rfl, rfl⟩ := h2
  exact ((heard_or_gone cap ops ht h1).resolve_left hp).resolve_left ho

/-- **C101** — the dead are forgotten: let `i` and `j` not be linked any more once `i` has left its loop, and let `i`, whose
`on_start` succeeded, have stopped. As long as `j` does not leave its loop, it has `i` in its links only until it has heard
of the death: the signal is in its mailbox, or its `on_link_died` is running for it.

Missing from the full claim: the cases in which the dead stay listed: `i` had left its loop when it was linked
(`late_link_listed_for_ever`), or its `on_start` failed (`failed_start_listed_for_ever`). -/
theorem dead_forgotten_partial (cap : Id → Option Nat) (ops : List SOp) (i j : Id) (r : Reason)
    (ht : TimelyLinks cap ops i j) (hst : ((sysAfter cap ops).act i).phase = .stopped r)
    (hok : .startEnd .ok ∈ ((sysAfter cap ops).act i).log) (ho : ¬ ((sysAfter cap ops).act j).phase.out)
    (h : i ∈ ((sysAfter cap ops).act j).links) : NewsAtHand (sysAfter cap ops) i j r := by
  have hij : i ≠ j := by
    rintro rfl
    exact ho (by rw [hst]; exact ⟨rfl, rfl⟩)
  obtain ⟨pre, op, post, rfl, h1, h2⟩ := last_join cap ops hij h
  rcases link_honoured_partial cap pre post i j hij op h1 (ht pre op post rfl h1) h2 r hst hok with ⟨_, t, h3⟩ | h3
  · have hm := (sys_good cap (pre ++ op :: post) j).shape.mb
    have hcl : ((sysAfter cap (pre ++ op :: post)).act j).mb.closed = false := by
      rw [(sys_good cap (pre ++ op :: post) j).shape.closed]
      unfold Phase.out at ho
      revert ho
      cases ((sysAfter cap (pre ++ op :: post)).act j).phase <;> simp [Phase.unborn]
    rw [hm.hist, hm.openLost hcl] at h3
    simp only [List.append_nil, List.mem_append] at h3
    rcases h3 with h3 | h3
    · rcases heard_or_gone cap _ ht h3 with h4 | h4 | h4
      · exact Or.inr h4
      · exact absurd h4 ho
      · exact absurd h h4
    · exact Or.inl ⟨t, h3⟩
  · exact absurd h3 ho

/-- 0 is linked to 1 and to 2, and dies; 1 goes on, and when its `on_link_died` is over it has only 2 in its links. -/
def keptDemo : List SOp := spawnDemo 0 ++ spawnDemo 1 ++ spawnDemo 2 ++ [.link 0 1, .link 2 1] ++ dieDemo

/-- The signal is in the mailbox of 1; then the hook runs; then 0 is forgotten. -/
example : ((sysAfter (fun _ => none) keptDemo).act 0).phase = .stopped .killed ∧
    .startEnd .ok ∈ ((sysAfter (fun _ => none) keptDemo).act 0).log ∧
    ¬ ((sysAfter (fun _ => none) keptDemo).act 1).phase.out ∧ 0 ∈ ((sysAfter (fun _ => none) keptDemo).act 1).links ∧
    ((sysAfter (fun _ => none) keptDemo).act 1).mb.queue = [(1, .linkDied 0 .killed)] ∧
    ((sysAfter (fun _ => none) (keptDemo ++ [.loc 1 .recv])).act 1).phase = .linkDying 0 .killed ∧
    ((sysAfter (fun _ => none) (keptDemo ++ [.loc 1 .recv, .loc 1 (.linkEnd .cont)])).act 1).phase = .idle ∧
    ((sysAfter (fun _ => none) (keptDemo ++ [.loc 1 .recv, .loc 1 (.linkEnd .cont)])).act 1).links = [2] := by
  unfold Phase.out; decide

/-- A history with one `link` of the two is one with timely links if that one was in time. -/
theorem timely_of_once {cap : Id → Option Nat} {a b : List SOp} {op : SOp} {i j : Id}
    (ha : ∀ o ∈ a, ¬ o.joins i j) (hb : ∀ o ∈ b, ¬ o.joins i j) (hi : ¬ ((sysAfter cap a).act i).phase.out) :
    TimelyLinks cap (a ++ op :: b) i j := by
  intro pre o post e hj
  rcases List.append_eq_append_iff.mp e with ⟨c, h1, h2⟩ | ⟨c, h1, h2⟩
  · cases c with
    | nil => rw [List.append_nil] at h1; rw [h1]; exact hi
    | cons x c =>
      simp at h2
      exact absurd hj (hb o (by rw [h2.2]; simp))
  · cases c with
    | nil => rw [List.append_nil] at h1; rw [← h1]; exact hi
    | cons x c =>
      simp at h2
      exact absurd hj (ha o (by rw [h1, h2.1]; simp))

/-- In `keptDemo`, and when the hook has run, 0 and 1 are linked once, in time. -/
example : TimelyLinks (fun _ => none) keptDemo 0 1 ∧
    TimelyLinks (fun _ => none) (keptDemo ++ [.loc 1 .recv, .loc 1 (.linkEnd .cont)]) 0 1 ∧
    .lBegin 0 .killed ∈ ((sysAfter (fun _ => none) (keptDemo ++ [.loc 1 .recv, .loc 1 (.linkEnd .cont)])).act 1).log :=
  ⟨timely_of_once (a := keptDemo.take 12) (op := .link 0 1) (b := keptDemo.drop 13)
      (by unfold SOp.joins; decide) (by unfold SOp.joins; decide) (by unfold Phase.out; decide),
    timely_of_once (a := keptDemo.take 12) (op := .link 0 1)
      (b := keptDemo.drop 13 ++ [.loc 1 .recv, .loc 1 (.linkEnd .cont)])
      (by unfold SOp.joins; decide) (by unfold SOp.joins; decide) (by unfold Phase.out; decide),
    by decide⟩

/-- **C101** (liveness, part). In a fair execution in which notifications get through (with unbounded mailboxes they do): if
`i`, whose `on_start` has succeeded, leaves its loop, and nobody links it with `j` after that, then from some point on `i` is
not in the links of `j` any more, unless `j` stops itself or is never started.

Missing from the full claim: as in `dead_forgotten_partial`, and mailboxes so full that notifications never get through. -/
theorem dead_forgotten_live_partial (cap : Id → Option Nat) (ops : Nat → SOp) (hf : SysFair cap ops)
    (hth : Through cap ops) (hcr : ∀ n x, ((sysUpto cap ops n).act x).phase ≠ .crashed) (i j : Id)
    (ht : ∀ n, (ops n).joins i j → ¬ ((sysUpto cap ops n).act i).phase.out) (n : Nat)
    (hi : ((sysUpto cap ops n).act i).phase.out) (hok : .startEnd .ok ∈ ((sysUpto cap ops n).act i).log) :
    (∃ k0, ∀ k, k0 ≤ k → i ∉ ((sysUpto cap ops k).act j).links) ∨
      (∃ k r', ((sysUpto cap ops k).act j).phase = .stopped r') ∨
      ∀ k, ((sysUpto cap ops k).act j).phase = .prepared := by
  have htl : ∀ m, TimelyLinks cap ((List.range m).map ops) i j := by
    intro m pre o post e hj
    have hlen : pre.length < m := by
      have := congrArg List.length e
      simp at this
      omega
    have h1 : pre = (List.range pre.length).map ops := by
      have h2 := congrArg (List.take pre.length) e
      rw [List.take_left, ← List.map_take, List.take_range, Nat.min_eq_left (by omega)] at h2
      exact h2.symm
    have h2 : o = ops pre.length := by
      have h3 := congrArg (fun l => l[pre.length]?) e
      simp [hlen] at h3
      exact h3.symm
    have h3 := ht pre.length (h2 ▸ hj)
    unfold sysUpto at h3
    rwa [← h1] at h3
  have hstep : ∀ {m}, ((sysUpto cap ops m).act i).phase.out → ∀ {k}, m ≤ k → ((sysUpto cap ops k).act i).phase.out := by
    intro m hm k hk
    rw [sysUpto_split cap ops hk]
    exact out_exec _ hm
  have hgone : ∀ m, n ≤ m → i ∉ ((sysUpto cap ops m).act j).links →
      ∃ k0, ∀ k, k0 ≤ k → i ∉ ((sysUpto cap ops k).act j).links := by
    intro m hnm hm
    refine ⟨m, fun k hk => ?_⟩
    induction hk with
    | refl => exact hm
    | @step k hk ih =>
      intro hx
      rw [sysUpto_succ] at hx
      rcases links_gain hx with h1 | h1
      · exact ih h1
      · exact ht k (joins_comm.mp h1) (hstep hi (Nat.le_trans hnm hk))
  have hout : ∀ {m}, ((sysUpto cap ops m).act j).phase.out → ∃ k r', ((sysUpto cap ops k).act j).phase = .stopped r' := by
    intro m hm
    obtain ⟨k2, r2, _, h2⟩ := out_stops hf (hth.by j) hcr hm
    exact ⟨k2, r2, h2⟩
  by_cases hpr : ∀ k, ((sysUpto cap ops k).act j).phase = .prepared
  · exact Or.inr (Or.inr hpr)
  obtain ⟨n0, hn0⟩ : ∃ n0, ((sysUpto cap ops n0).act j).phase ≠ .prepared := by
    apply Classical.byContradiction
    intro hc
    exact hpr fun k => Classical.byContradiction fun hk => hc ⟨k, hk⟩
  have hfj := proj_fair hf (hth.by j) hn0
  obtain ⟨k, r, hnk, hst⟩ := out_stops hf (hth.by i) hcr hi
  by_cases hjo : ((sysUpto cap ops k).act j).phase.out
  · exact Or.inr (Or.inl (hout hjo))
  by_cases hl : i ∈ ((sysUpto cap ops k).act j).links
  · have hnews := dead_forgotten_partial cap _ i j r (htl k) hst (sys_log_mono hnk hok) hjo hl
    have hpush : ∃ t, (t, Sig.linkDied i r) ∈ ((sysUpto cap ops k).act j).mb.pushed := by
      have hg := sysUpto_good cap ops k j
      rcases hnews with ⟨t, h1⟩ | h1
      · exact ⟨t, by rw [hg.shape.mb.hist]; simp only [List.mem_append]; exact Or.inr h1⟩
      · obtain ⟨l, h2, hm⟩ := hg.log
        change ((sysUpto cap ops k).act j).phase = _ at h1
        rw [h1] at hm
        simp only [matchLife] at hm
        subst hm
        obtain ⟨pre, mid, he, _⟩ := run_current h2 (.lBegin i r) rfl
        obtain ⟨t, ht⟩ := hg.facts.lb i r (by rw [he]; simp)
        exact ⟨t, by rw [hg.shape.mb.hist]; simp only [List.mem_append]; exact Or.inl (Or.inl ht)⟩
    obtain ⟨t, hpush⟩ := hpush
    rcases over_or_stays hfj k with ⟨m, _, hm⟩ | ⟨m, hkm, hs⟩
    · rw [proj_upto] at hm
      exact Or.inr (Or.inl (hout (out_of_over hm)))
    · obtain ⟨m2, hm2, h2, _, h4⟩ := catches_up hfj hs
      have h6 := h4 _ ((pushed_mono _ _ hkm).subset (by rw [proj_upto]; exact hpush))
      rw [proj_upto] at h2 h6
      rcases heard_or_gone cap _ (htl m2) h6 with h7 | h7 | h7
      · change ((sysUpto cap ops m2).act j).phase = _ at h7
        rw [h2] at h7; cases h7
      · exact Or.inr (Or.inl (hout (m := m2) h7))
      · exact Or.inl (hgone m2 (by omega) h7)
  · exact Or.inl (hgone k hnk hl)

/-- The chain of `liveDemo`: 0 is linked to 1 before it is killed, and not afterwards. -/
example : SysFair (fun _ => none) (sysQuiet liveDemo) ∧ Through (fun _ => none) (sysQuiet liveDemo) ∧
    (∀ n x, ((sysUpto (fun _ => none) (sysQuiet liveDemo) n).act x).phase ≠ .crashed) ∧
    (∀ n, (sysQuiet liveDemo n).joins 0 1 → ¬ ((sysUpto (fun _ => none) (sysQuiet liveDemo) n).act 0).phase.out) ∧
    ((sysUpto (fun _ => none) (sysQuiet liveDemo) (chainDemo.length + 2)).act 0).phase.out ∧
    .startEnd .ok ∈ ((sysUpto (fun _ => none) (sysQuiet liveDemo) (chainDemo.length + 2)).act 0).log := by
  refine ⟨liveDemo_fair, through_unbounded (fun _ => rfl) _, liveDemo_not_crashed, ?_, ?_, ?_⟩
  · intro n hj
    by_cases hn : n < liveDemo.length
    · have hn2 : n = 12 := by
        have key : ∀ m, m < liveDemo.length → (sysQuiet liveDemo m = .link 0 1 ∨ sysQuiet liveDemo m = .link 1 0) → m = 12 := by
          decide
        exact key n hn hj
      subst hn2
      rw [sysQuiet_take _ _ (by decide)]
      unfold Phase.out; decide
    · rw [show sysQuiet liveDemo n = .loc 0 (.poll 0) by simp [sysQuiet, Nat.le_of_not_lt hn]] at hj
      rcases hj with h | h <;> cases h
  · rw [sysQuiet_take _ _ (by decide)]; constructor <;> decide
  · rw [sysQuiet_take _ _ (by decide)]; decide

/-- **C101**, what the code does not do: an actor that had left its loop when it was linked, and had not taken `j` with it
when it left, stays in the links of `j` for ever, unless somebody unlinks the two or `j` leaves its loop: nothing removes it,
since no news of its death will come. -/
theorem late_link_listed_for_ever (cap : Id → Option Nat) (ops ops' : List SOp) (i j : Id) (hij : i ≠ j) (op : SOp)
    (hop : op.joins i j) (hi : ((sysAfter cap ops).act i).phase.out)
    (hj : j ∉ aboutToTell ((sysAfter cap ops).act i).phase) (hn : toldBy i ((sysAfter cap ops).act j) = [])
    (hk : ∀ o ∈ ops', o.keeps i j) :
    i ∈ ((sysAfter cap (ops ++ op :: ops')).act j).links ∨ ((sysAfter cap (ops ++ op :: ops')).act j).phase.out := by
  have h := listed_while_untold cap (ops ++ [op]) ops' (i := i) (j := j) (by
    rw [sysAfter_snoc]
    rcases hop with rfl | rfl
    · simp only [Sys.step, hij, beq_iff_eq, if_false, set_act, St.step]
      simp only [if_true]
      split
      · next h => simpa using h
      · simp
    · simp only [Sys.step, Ne.symm hij, hij, beq_iff_eq, if_false, set_act, St.step]
      simp only [if_true]
      split
      · next h => simpa [Ne.symm hij] using h
      · simp [Ne.symm hij]) hk (fun l _ => by
    have := link_too_late cap ops (op :: l) i j hi hj hn
    simpa using this)
  simpa using h

/-- 0 is gone when 2 is linked with it; then 2 handles a message, and still lists 0. -/
example : SOp.joins 0 2 (.link 2 0) ∧ ((sysAfter (fun _ => none) keptDemo).act 0).phase.out ∧
    2 ∉ aboutToTell ((sysAfter (fun _ => none) keptDemo).act 0).phase ∧
    toldBy 0 ((sysAfter (fun _ => none) keptDemo).act 2) = [] ∧
    ¬ ((sysAfter (fun _ => none) (keptDemo ++ .link 2 0 :: [.loc 2 (.send (tell 5)), .loc 2 .recv])).act 2).phase.out ∧
    0 ∈ ((sysAfter (fun _ => none) (keptDemo ++ .link 2 0 :: [.loc 2 (.send (tell 5)), .loc 2 .recv])).act 2).links := by
  unfold SOp.joins Phase.out; decide

/-- **C101**, what the code does not do: an actor whose `on_start` fails stays in the links of everybody it was linked to
(with `spawn_link` every new child is linked before its `on_start` runs), unless somebody unlinks the two or the other leaves
its loop. -/
theorem failed_start_listed_for_ever (cap : Id → Option Nat) (ops ops' : List SOp) (i j : Id) (o : UOut) (ho : o ≠ .ok)
    (hf : .startEnd o ∈ ((sysAfter cap ops).act i).log) (h : i ∈ ((sysAfter cap ops).act j).links)
    (hk : ∀ o ∈ ops', o.keeps i j) :
    i ∈ ((sysAfter cap (ops ++ ops')).act j).links ∨ ((sysAfter cap (ops ++ ops')).act j).phase.out := by
  refine listed_while_untold cap ops ops' h hk fun l hl => failed_start_tells_nobody cap _ i j o ho ?_
  clear h hk hl
  induction l generalizing ops with
  | nil => simpa using hf
  | cons op l ih =>
    have := ih (ops ++ [op]) (by
      rw [sysAfter_snoc]
      obtain ⟨y, hy⟩ := tr_log (view_tr (view (sysAfter cap ops) op i))
      rw [hy]
      simp [hf])
    simpa using this

/-- Four children of 1, linked before they start; the start of each of them fails, and all four stay listed. -/
def failedChild (i : Id) : List SOp :=
  [.link 1 i, .loc i .run, .loc i (.startEnd (.err 3)), .loc i (.panicEnd .cont), .loc i (.stopEnd .ok)]

example : .startEnd (.err 3) ∈ ((sysAfter (fun _ => none) (spawnDemo 1 ++ failedChild 2)).act 2).log ∧
    2 ∈ ((sysAfter (fun _ => none) (spawnDemo 1 ++ failedChild 2)).act 1).links ∧
    ((sysAfter (fun _ => none) (spawnDemo 1 ++ failedChild 2 ++ (failedChild 3 ++ failedChild 4 ++ failedChild 5))).act 1).links
      = [2, 3, 4, 5] ∧
    ((sysAfter (fun _ => none) (spawnDemo 1 ++ failedChild 2 ++ (failedChild 3 ++ failedChild 4 ++ failedChild 5))).act 4).phase
      = .stopped (.panicked 3) := by decide

/-- `n` children of actor 1 fail to start, one after the other. -/
def failedChildren : Nat → List SOp
  | 0 => []
  | n + 1 => failedChildren n ++ failedChild (n + 2)

theorem failedChildren_ids (n : Nat) : ∀ op ∈ spawnDemo 1 ++ failedChildren n, ∀ x : Nat, x ∈ op.ids → x < n + 2 := by
  induction n with
  | zero =>
    intro op ho x hx
    have key : ∀ op ∈ spawnDemo 1 ++ failedChildren 0, ∀ x ∈ op.ids, x < 0 + 2 := by decide
    exact key op ho x hx
  | succ n ih =>
    intro op ho x hx
    simp only [failedChildren, ← List.append_assoc] at ho
    rcases List.mem_append.mp ho with ho | ho
    · have := ih op ho x hx; omega
    · simp only [failedChild, List.mem_cons, List.not_mem_nil, or_false] at ho
      rcases ho with rfl | rfl | rfl | rfl | rfl <;> simp only [SOp.ids, List.mem_cons, List.not_mem_nil, or_false] at hx <;> grind

/-- What a child that fails to start does to the system. -/
theorem failedChild_exec (S : Sys) (i : Id) (hi : i ≠ 1) (hf : S.act i = after none []) (hl : i ∉ (S.act 1).links) :
    ((S.exec (failedChild i)).act 1).links = (S.act 1).links ++ [i] ∧
    ((S.exec (failedChild i)).act 1).phase = (S.act 1).phase ∧
    ((S.exec (failedChild i)).act i).phase = .stopped (.panicked 3) ∧
    ∀ x, x ≠ 1 → x ≠ i → (S.exec (failedChild i)).act x = S.act x := by
  simp only [Sys.exec, failedChild, List.foldl_cons, List.foldl_nil, Sys.step, Sys.allowed, isLocal, if_true, set_act,
    Ne.symm hi, hi, if_false, hf]
  refine ⟨?_, ?_, ?_, ?_⟩
  · simp [St.step, hl]
  · simp [St.step]
  · decide
  · intro x h1 h2; simp [h1, h2]

/-- **C101** (refuted): link sets do grow with the dead. For every `n` there is a history in which an actor runs and waits for
messages, nobody else is alive, and the actor has `n` links, all of them to children that are gone. -/
theorem links_grow_with_the_dead (n : Nat) :
    ∃ ops, ((sysAfter (fun _ => none) ops).act 1).phase = .idle ∧
      ((sysAfter (fun _ => none) ops).act 1).links.length = n ∧
      ((sysAfter (fun _ => none) ops).act 1).links.Nodup ∧
      ∀ i ∈ ((sysAfter (fun _ => none) ops).act 1).links,
        ((sysAfter (fun _ => none) ops).act i).phase = .stopped (.panicked 3) := by
  refine ⟨spawnDemo 1 ++ failedChildren n, ?_⟩
  have key : ((sysAfter (fun _ => none) (spawnDemo 1 ++ failedChildren n)).act 1).phase = .idle ∧
      ((sysAfter (fun _ => none) (spawnDemo 1 ++ failedChildren n)).act 1).links = (List.range n).map (· + 2) ∧
      ∀ i ∈ (List.range n).map (· + 2),
        ((sysAfter (fun _ => none) (spawnDemo 1 ++ failedChildren n)).act i).phase = .stopped (.panicked 3) := by
    induction n with
    | zero => exact ⟨by decide, by decide, by simp⟩
    | succ n ih =>
      obtain ⟨h1, h2, h3⟩ := ih
      have hu := untouched (fun _ => none) (spawnDemo 1 ++ failedChildren n) (n + 2)
        (fun op ho hm => Nat.lt_irrefl _ (failedChildren_ids n op ho _ hm))
      obtain ⟨a, b, c, d⟩ := failedChild_exec _ (n + 2) (fun e => by cases e) hu (by rw [h2]; simp)
      rw [failedChildren, ← List.append_assoc, sysAfter_append]
      refine ⟨b.trans h1, ?_, ?_⟩
      · rw [a, h2, List.range_succ]; simp
      · intro i hi
        rw [List.range_succ, List.map_append, List.mem_append] at hi
        rcases hi with hi | hi
        · have h4 := h3 i hi
          simp at hi
          obtain ⟨m, hm, rfl⟩ := hi
          rw [d _ (fun e => by cases e) (fun e => Nat.lt_irrefl m (by cases e; exact hm))]
          exact h4
        · simp at hi; subst hi; exact c
  obtain ⟨h1, h2, h3⟩ := key
  refine ⟨h1, by rw [h2]; simp, ?_, by rw [h2]; exact h3⟩
  rw [h2]
  exact List.Pairwise.map _ (fun a b h => by simpa using h) List.nodup_range

end Verif.System
