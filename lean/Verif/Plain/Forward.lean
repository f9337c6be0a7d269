import Verif.Plain.Tr
import Verif.Lifecycle.Told

/-! Every life of `Verif.Lifecycle` is one of `Verif.Next` with the default `next`. -/

set_option linter.unusedSimpArgs false

namespace Verif.Plain

open Verif.Mailbox
open Verif.Lifecycle (Tr Good Start)

variable {cap : Option Nat} {s : Lifecycle.St} {n : Next.St}

theorem run_append (n : Next.St) (a b : List Next.Op) : run n (a ++ b) = run (run n a) b := by simp [run]

theorem fits_append {a b : List Next.Op} (ha : Fits cap n a) (hb : Fits cap (run n a) b) : Fits cap n (a ++ b) := by
  induction a generalizing n with
  | nil => exact hb
  | cons op a ih => exact ⟨ha.1, ih ha.2 hb⟩

/-- The invariants of `Verif.Lifecycle` that the simulation needs. -/
structure All (cap : Option Nat) (s : Lifecycle.St) : Prop where
  good : Good s
  start : Start s
  clean : Clean s.mb
  unread : Unread s
  quiet : Quiet s
  cap_ : s.mb.cap = cap

theorem all_step (h : All cap s) (op : Lifecycle.Op) : All cap (s.step op) := by
  have ht := Lifecycle.step_tr s op
  refine ⟨Lifecycle.good_tr h.good ht, Lifecycle.start_tr h.good.shape h.start ht, clean_tr h.clean ht, unread_tr h.unread ht,
    quiet_tr h.quiet ht, ?_⟩
  obtain ⟨l, hl⟩ := Lifecycle.step_mb s op
  rw [hl, Mailbox.run_cap]
  exact h.cap_

theorem all_exec (h : All cap s) (ops : List Lifecycle.Op) : All cap (s.exec ops) := by
  induction ops generalizing s with
  | nil => exact h
  | cons op ops ih => exact ih (all_step h op)

theorem all_init (cap : Option Nat) : All cap (Lifecycle.after cap []) :=
  ⟨Lifecycle.good_after cap [], Lifecycle.start_after cap [],
    by intro q hq; simp [Lifecycle.after, Lifecycle.St.exec, Lifecycle.St.fresh, Mb.fresh] at hq,
    fun _ => rfl, fun _ => rfl, rfl⟩

theorem sim_init (cap : Option Nat) : Sim (Lifecycle.after cap []) (Next.after []) := by
  refine ⟨⟨rfl, rfl, rfl, rfl, rfl, rfl, rfl, rfl, rfl, rfl, ?_⟩, rfl⟩
  constructor <;> simp [Lifecycle.after, Lifecycle.St.exec, Lifecycle.St.fresh, Mb.fresh, Next.after, Answers, Later]

theorem sim_exec (ha : All cap s) (h : Sim s n) (ops : List Lifecycle.Op) :
    ∃ l, Default l ∧ Fits cap n l ∧ Sim (s.exec ops) (run n l) := by
  induction ops generalizing s n with
  | nil => exact ⟨[], .nil, trivial, h⟩
  | cons op ops ih =>
    have hb := all_step ha op
    obtain ⟨l, h1, h2, h3⟩ := sim_tr ha.good ha.start ha.clean ha.unread ha.quiet hb.good ha.cap_ hb.cap_ h
      (Lifecycle.step_tr s op)
    obtain ⟨l', h4, h5, h6⟩ := ih hb h3
    exact ⟨l ++ l', h1.append h4, fits_append h2 h5, by rw [run_append]; exact h6⟩

theorem start_seen (l : List Lifecycle.Ev) : .b .start ∈ sees l ↔ .startBegin ∈ l := by
  unfold sees
  rw [List.mem_filterMap]
  constructor
  · rintro ⟨e, h1, h2⟩
    cases e with
    | startBegin => exact h1
    | startEnd o => cases o <;> simp [see] at h2
    | pEnd e o => cases o <;> simp [see] at h2
    | sEnd r o => cases o <;> simp [see] at h2
    | _ => simp [see] at h2
  · intro h; exact ⟨_, h, rfl⟩

theorem life_of_sim (h : Sim s n) : Life s n := by
  have hl := h.log
  have ha := h.at_
  unfold At at ha
  refine ⟨fun hb => ?_, fun hb => ?_, h.started, h.queue, h.buffer, fun q => ?_, ?_, h.closed, h.talk.later, h.talk.answers⟩
  · rw [hl, whole, if_pos ((start_seen _).mpr hb)]
  · rw [hl, whole, if_neg (fun x => hb ((start_seen _).mp x))]
  · cases hp : s.phase with
    | idle => rw [hp] at ha; rcases ha with ha | ⟨ha, -⟩ <;> simp [ha]
    | handling m taken rest ts => rw [hp] at ha; obtain ⟨it, l, ha, -⟩ := ha; simp [ha]
    | _ => rw [hp] at ha; simp only [AtP] at ha; simp [ha]
  · cases hp : s.phase with
    | idle => rw [hp] at ha; rcases ha with ha | ⟨ha, -⟩ <;> simp [ha]
    | handling m taken rest ts => rw [hp] at ha; obtain ⟨it, l, ha, -⟩ := ha; simp [ha]
    | _ => rw [hp] at ha; simp only [AtP] at ha; simp [ha]

end Verif.Plain
