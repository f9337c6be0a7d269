import Verif.Pool.Lemmas

namespace Verif.Pool

/-- The messages of request `no` that some worker accepted. -/
def copies (del : List (Job × Nat)) (no : Nat) : List (Job × Nat) := del.filter (fun e => e.1.no == no)

theorem copies_other {del : List (Job × Nat)} {j : Job} {id no : Nat} (h : j.no ≠ no) :
    copies (del ++ [(j, id)]) no = copies del no := by
  simp [copies, h]

theorem copies_same {del : List (Job × Nat)} {j : Job} {id no : Nat} (h : j.no = no) :
    copies (del ++ [(j, id)]) no = copies del no ++ [(j, id)] := by
  simp [copies, h]

/-- What a broadcast has done. -/
structure CastOk (del : List (Job × Nat)) (no m : Nat) (ids : List Nat) (res : List (Option Bool)) : Prop where
  job : ∀ e ∈ copies del no, e.1 = ⟨no, m, false⟩
  num : (copies del no).length = res.count (some true)
  each : ∀ (i id : Nat), ids[i]? = some id →
    (copies del no).countP (fun e => e.2 == id) = if res[i]? = some (some true) then 1 else 0

/-- The requests before this number are finished. -/
def openNo (s : St) : Nat :=
  match s.phase with
  | .idle => s.reqs
  | .stopped => s.reqs
  | _ => s.reqs - 1

structure Req (n : Nat) (s : St) : Prop where
  dno : ∀ e ∈ s.delivered, e.1.no < s.reqs
  trying : ∀ j l, s.phase = .trying j l → j.no + 1 = s.reqs ∧ copies s.delivered j.no = []
  sending : ∀ j l i, s.phase = .sending j l i → j.no + 1 = s.reqs ∧ copies s.delivered j.no = []
  casting : ∀ no m res, s.phase = .casting no m res →
    no + 1 = s.reqs ∧ CastOk s.delivered no m (s.workers.map (·.id)) res
  outs : ∀ e ∈ s.outs, e.1.no < openNo s ∧ (e.2 = .forwarded → ∃ id, copies s.delivered e.1.no = [(e.1, id)]) ∧
    (e.2 ≠ .forwarded → copies s.delivered e.1.no = []) ∧ (∀ m, e.2 = .notRunning m → m = e.1.m)
  casts : ∀ e ∈ s.casts, e.1 < openNo s ∧ e.2.2.1.length = n ∧ e.2.2.2.length = n ∧
    CastOk s.delivered e.1 e.2.1 e.2.2.1 (e.2.2.2.map some)

theorem CastOk.other {del : List (Job × Nat)} {no m : Nat} {ids : List Nat} {res : List (Option Bool)} {j : Job}
    {id : Nat} (h : CastOk del no m ids res) (hne : j.no ≠ no) : CastOk (del ++ [(j, id)]) no m ids res := by
  refine ⟨?_, ?_, ?_⟩
  · rw [copies_other hne]; exact h.job
  · rw [copies_other hne]; exact h.num
  · rw [copies_other hne]; exact h.each

/-- A step that leaves requests, deliveries and logs alone, and whose phase is unchanged. -/
theorem Req.keep {n : Nat} {s s' : St} (h : Req n s) (hd : s'.delivered = s.delivered) (hp : s'.phase = s.phase)
    (hr : s'.reqs = s.reqs) (ho : s'.outs = s.outs) (hc : s'.casts = s.casts)
    (hi : s'.workers.map (·.id) = s.workers.map (·.id)) : Req n s' := by
  have e : openNo s' = openNo s := by simp [openNo, hp, hr]
  refine ⟨?_, ?_, ?_, ?_, ?_, ?_⟩
  · rw [hd, hr]; exact h.dno
  · rw [hd, hr, hp]; exact h.trying
  · rw [hd, hr, hp]; exact h.sending
  · rw [hd, hr, hp, hi]; exact h.casting
  · rw [ho, e, hd]; exact h.outs
  · rw [hc, e, hd]; exact h.casts

theorem upd_ids (s : St) (i : Nat) (f : Worker → Worker) (hf : ∀ w, (f w).id = w.id) :
    (s.upd i f).workers.map (·.id) = s.workers.map (·.id) := by
  apply List.ext_getElem?
  intro k
  simp only [St.upd, List.getElem?_map, List.getElem?_modify]
  by_cases hk : i = k
  · subst hk
    cases hc : s.workers[i]? with
    | none => simp
    | some w => simp [hf]
  · simp [hk]

theorem openNo_le (s : St) : openNo s ≤ s.reqs := by
  unfold openNo; split <;> omega

/-- A send of a dispatch is polled. -/
theorem Req.poll {n : Nat} {s : St} (h : Req n s) {j : Job} {left i : Nat} {w : Worker}
    (hp : s.phase = .sending j left i) (room : Bool) (hw : s.workers[i]? = some w) :
    Req n (s.poll room j left i w) := by
  obtain ⟨h1, h2⟩ := h.sending j left i hp
  have ho : openNo s = s.reqs - 1 := by simp [openNo, hp]
  unfold St.poll
  split
  · unfold St.refused
    simp only
    split
    · refine ⟨h.dno, by simp, by simp, by simp, ?_, ?_⟩
      · intro e he
        simp only at he
        rcases List.mem_append.mp he with he | he
        · obtain ⟨a, b⟩ := h.outs e he
          refine ⟨?_, b⟩
          simp only [openNo, St.upd]
          omega
        · simp only [List.mem_singleton] at he
          subst he
          simp only [openNo, St.upd]
          exact ⟨by omega, by simp, fun _ => h2, by simp⟩
      · intro e he
        obtain ⟨a, b⟩ := h.casts e he
        refine ⟨?_, b⟩
        simp only [openNo, St.upd]
        omega
    · refine ⟨h.dno, ?_, by simp, by simp, ?_, ?_⟩
      · intro j' l' h'
        simp only [Phase.trying.injEq] at h'
        rw [← h'.1]
        exact ⟨h1, h2⟩
      · intro e he
        obtain ⟨a, b⟩ := h.outs e he
        refine ⟨?_, b⟩
        simp only [openNo, St.upd]
        omega
      · intro e he
        obtain ⟨a, b⟩ := h.casts e he
        refine ⟨?_, b⟩
        simp only [openNo, St.upd]
        omega
  · split
    · rw [deliver_eq hw]
      refine ⟨?_, by simp, by simp, by simp, ?_, ?_⟩
      · intro e he
        rcases List.mem_append.mp he with he | he
        · exact h.dno e he
        · simp only [List.mem_singleton] at he
          subst he
          simp only [St.upd]
          omega
      · intro e he
        simp only at he
        rcases List.mem_append.mp he with he | he
        · obtain ⟨a, b⟩ := h.outs e he
          have hne : j.no ≠ e.1.no := by omega
          simp only [openNo, St.upd]
          rw [copies_other hne]
          exact ⟨by omega, b⟩
        · simp only [List.mem_singleton] at he
          subst he
          simp only [openNo, St.upd]
          rw [copies_same rfl, h2]
          exact ⟨by omega, fun _ => ⟨w.id, rfl⟩, by simp, by simp⟩
      · intro e he
        obtain ⟨a, b, c, d⟩ := h.casts e he
        have hne : j.no ≠ e.1 := by omega
        refine ⟨?_, b, c, d.other hne⟩
        simp only [openNo, St.upd]
        omega
    · exact h.keep rfl hp.symm rfl rfl rfl rfl

theorem count_set {l : List (Option Bool)} {i : Nat} {b : Bool} (h : l[i]? = some none) :
    (l.set i (some b)).count (some true) = l.count (some true) + if b then 1 else 0 := by
  induction l generalizing i with
  | nil => simp at h
  | cons a l ih =>
    cases i with
    | zero =>
      simp only [List.getElem?_cons_zero, Option.some.injEq] at h
      subst h
      cases b <;> simp [List.count_cons]
    | succ i =>
      simp only [List.getElem?_cons_succ] at h
      simp only [List.set_cons_succ, List.count_cons, ih h]
      omega

theorem filterMap_some {l : List (Option Bool)} (h : none ∉ l) : (l.filterMap id).map some = l := by
  induction l with
  | nil => rfl
  | cons a l ih =>
    simp only [List.mem_cons, not_or] at h
    cases a with
    | none => simp at h
    | some b => simp [ih h.2]

theorem req_step {n : Nat} (hn : 0 < n) {s : St} (hi : Inv n s) (h : Req n s) (op : Op) : Req n (s.step op) := by
  cases op with
  | dispatch m ask =>
    simp only [St.step]
    split
    · rename_i hp
      have ho : openNo s = s.reqs := by simp [openNo, hp]
      refine ⟨fun e he => by have := h.dno e he; simp only; omega, ?_, by simp, by simp, ?_, ?_⟩
      · intro j l h'
        simp only [Phase.trying.injEq] at h'
        rw [← h'.1]
        refine ⟨rfl, ?_⟩
        simp only [copies, List.filter_eq_nil_iff, beq_iff_eq]
        intro e he
        have := h.dno e he
        omega
      · intro e he
        obtain ⟨a, b⟩ := h.outs e he
        refine ⟨?_, b⟩
        simp only [openNo]
        omega
      · intro e he
        obtain ⟨a, b⟩ := h.casts e he
        refine ⟨?_, b⟩
        simp only [openNo]
        omega
    · exact h
  | attempt room =>
    cases hp : s.phase with
    | trying j left =>
      obtain ⟨h1, h2⟩ := h.trying j left hp
      have ho : openNo s = s.reqs - 1 := by simp [openNo, hp]
      cases left with
      | zero =>
        simp only [St.step, hp]
        refine ⟨h.dno, by simp, by simp, by simp, ?_, ?_⟩
        · intro e he
          simp only at he
          rcases List.mem_append.mp he with he | he
          · obtain ⟨a, b⟩ := h.outs e he
            refine ⟨?_, b⟩
            simp only [openNo]
            omega
          · simp only [List.mem_singleton] at he
            subst he
            simp only [openNo]
            exact ⟨by omega, by simp, fun _ => h2, by simp⟩
        · intro e he
          obtain ⟨a, b⟩ := h.casts e he
          refine ⟨?_, b⟩
          simp only [openNo]
          omega
      | succ left =>
        have hlt := hi.nextWorker_lt hn
        obtain ⟨w, hw⟩ : ∃ w, s.workers[nextWorker s.workers]? = some w :=
          ⟨_, List.getElem?_eq_getElem (by rw [hi.len]; exact hlt)⟩
        rw [step_attempt hp room hw]
        refine Req.poll ?_ rfl room (by simp [St.upd, hw])
        refine ⟨h.dno, by simp, ?_, by simp, ?_, ?_⟩
        · intro j' l' i' h'
          simp only [Phase.sending.injEq] at h'
          rw [← h'.1]
          exact ⟨h1, h2⟩
        · intro e he
          obtain ⟨a, b⟩ := h.outs e he
          refine ⟨?_, b⟩
          simp only [openNo, St.upd]
          omega
        · intro e he
          obtain ⟨a, b⟩ := h.casts e he
          refine ⟨?_, b⟩
          simp only [openNo, St.upd]
          omega
    | _ => simp only [St.step, hp]; exact h
  | pollSend room =>
    cases hp : s.phase with
    | sending j left i =>
      have hlt := hi.idx j left i hp
      obtain ⟨w, hw⟩ : ∃ w, s.workers[i]? = some w := ⟨_, List.getElem?_eq_getElem (by rw [hi.len]; exact hlt)⟩
      rw [step_pollSend hp room hw]
      exact h.poll hp room hw
    | _ => simp only [St.step, hp]; exact h
  | broadcast m =>
    simp only [St.step]
    split
    · rename_i hp
      have ho : openNo s = s.reqs := by simp [openNo, hp]
      refine ⟨fun e he => by have := h.dno e he; simp only; omega, by simp, by simp, ?_, ?_, ?_⟩
      · intro no m' res h'
        simp only [Phase.casting.injEq] at h'
        obtain ⟨rfl, rfl, rfl⟩ := h'
        have hnil : copies s.delivered s.reqs = [] := by
          simp only [copies, List.filter_eq_nil_iff, beq_iff_eq]
          intro e he
          have := h.dno e he
          omega
        refine ⟨rfl, ⟨by simp [hnil], ?_, ?_⟩⟩
        · simp only [hnil, List.length_nil]
          exact (List.count_eq_zero.mpr (by simp)).symm
        · intro i id _
          simp only [hnil, List.countP_nil, List.getElem?_map]
          cases s.workers[i]? <;> simp
      · intro e he
        obtain ⟨a, b⟩ := h.outs e he
        refine ⟨?_, b⟩
        simp only [openNo]
        omega
      · intro e he
        obtain ⟨a, b⟩ := h.casts e he
        refine ⟨?_, b⟩
        simp only [openNo]
        omega
    · exact h
  | pollCopy i room =>
    simp only [St.step]
    split
    · rename_i no m res hp
      obtain ⟨h1, h2⟩ := h.casting no m res hp
      have ho : openNo s = s.reqs - 1 := by simp [openNo, hp]
      split
      · rename_i w hres hw
        have hil : i < res.length := (List.getElem?_eq_some_iff.mp hres).1
        split
        · refine ⟨h.dno, by simp, by simp, ?_, ?_, ?_⟩
          · intro no' m' res' h'
            simp only [Phase.casting.injEq] at h'
            obtain ⟨rfl, rfl, rfl⟩ := h'
            refine ⟨h1, h2.job, ?_, ?_⟩
            · rw [count_set hres]; exact h2.num
            · intro k id hk
              rw [upd_ids _ _ _ (by intro w; rfl)] at hk
              simp only [St.upd]
              rw [h2.each k id hk, List.getElem?_set]
              by_cases hik : i = k
              · subst hik; simp only [hres, hil, if_true]; simp
              · simp [hik]
          · intro e he
            obtain ⟨a, b⟩ := h.outs e he
            refine ⟨?_, b⟩
            simp only [openNo, St.upd]
            omega
          · intro e he
            obtain ⟨a, b⟩ := h.casts e he
            refine ⟨?_, b⟩
            simp only [openNo, St.upd]
            omega
        · split
          · rw [deliver_eq hw]
            refine ⟨?_, by simp, by simp, ?_, ?_, ?_⟩
            · intro e he
              rcases List.mem_append.mp he with he | he
              · exact h.dno e he
              · simp only [List.mem_singleton] at he
                subst he
                simp only [St.upd]
                omega
            · intro no' m' res' h'
              simp only [Phase.casting.injEq] at h'
              obtain ⟨rfl, rfl, rfl⟩ := h'
              refine ⟨h1, ?_, ?_, ?_⟩
              · simp only
                rw [copies_same rfl]
                intro e he
                rcases List.mem_append.mp he with he | he
                · exact h2.job e he
                · simp only [List.mem_singleton] at he
                  rw [he]
              · simp only
                rw [copies_same rfl, List.length_append, count_set hres, h2.num]
                rfl
              · intro k id hk
                rw [upd_ids _ _ _ (by intro w; rfl)] at hk
                simp only
                rw [copies_same rfl, List.countP_append, h2.each k id hk, List.getElem?_set]
                have hwi : (s.workers.map (·.id))[i]? = some w.id := by simp [hw]
                by_cases hik : i = k
                · subst hik
                  rw [hwi] at hk
                  cases hk
                  simp only [hres, hil, if_true]
                  simp
                · have hne : w.id ≠ id := by
                    intro he
                    subst he
                    obtain ⟨v, hv, hvi⟩ : ∃ v, s.workers[k]? = some v ∧ v.id = w.id := by
                      simpa [List.getElem?_map] using hk
                    exact ids_ne hi.ids hw hv hik hvi.symm
                  simp [hik, hne]
            · intro e he
              obtain ⟨a, b⟩ := h.outs e he
              have hne : no ≠ e.1.no := by omega
              simp only [openNo, St.upd]
              rw [copies_other hne]
              exact ⟨by omega, b⟩
            · intro e he
              obtain ⟨a, b, c, d⟩ := h.casts e he
              have hne : no ≠ e.1 := by omega
              refine ⟨?_, b, c, d.other hne⟩
              simp only [openNo, St.upd]
              omega
          · exact h
      · exact h
    · exact h
  | broadcastEnd =>
    simp only [St.step]
    split
    · rename_i no m res hp
      obtain ⟨h1, h2⟩ := h.casting no m res hp
      have ho : openNo s = s.reqs - 1 := by simp [openNo, hp]
      split
      · exact h
      · rename_i hres
        refine ⟨h.dno, by simp, by simp, by simp, ?_, ?_⟩
        · intro e he
          obtain ⟨a, b⟩ := h.outs e he
          refine ⟨?_, b⟩
          simp only [openNo]
          omega
        · intro e he
          simp only at he
          rcases List.mem_append.mp he with he | he
          · obtain ⟨a, b⟩ := h.casts e he
            refine ⟨?_, b⟩
            simp only [openNo]
            omega
          · simp only [List.mem_singleton] at he
            subst he
            simp only [openNo]
            refine ⟨by omega, by simpa using hi.len, ?_, ?_⟩
            · have := congrArg List.length (filterMap_some hres)
              rw [List.length_map] at this
              rw [this]
              exact hi.clen no m res hp
            · rw [filterMap_some hres]
              exact h2
    · exact h
  | linkDied id up zc =>
    simp only [St.step]
    split
    · rename_i hp
      split
      · exact h
      · split
        · exact h
        · rename_i i hix
          split
          · have e : openNo { s with phase := .stopped } = openNo s := by simp [openNo, hp]
            exact ⟨h.dno, by simp, by simp, by simp, by rw [e]; exact h.outs, by rw [e]; exact h.casts⟩
          · exact ⟨h.dno, by simp [hp], by simp [hp], by simp [hp], h.outs, h.casts⟩
    · exact h
  | take i =>
    simp only [St.step]
    split
    · split
      · exact h.keep rfl rfl rfl rfl rfl (upd_ids _ _ _ (by intro w; rfl))
      · exact h
    · exact h
  | done i ok =>
    simp only [St.step]
    split
    · split
      · split
        · exact h
        · split
          · exact h.keep rfl rfl rfl rfl rfl (upd_ids _ _ _ (by intro w; rfl))
          · split
            · exact h.keep rfl rfl rfl rfl rfl
                ((upd_ids _ _ _ (by intro w; rfl)).trans (upd_ids _ _ _ (by intro w; rfl)))
            · exact h.keep rfl rfl rfl rfl rfl (upd_ids _ _ _ (by intro w; rfl))
      · exact h
    · exact h
  | die i => exact h.keep rfl rfl rfl rfl rfl (upd_ids _ _ _ (by intro w; rfl))
  | innerDie i => exact h.keep rfl rfl rfl rfl rfl (upd_ids _ _ _ (by intro w; rfl))

theorem req_after {zero : List Bool} {ops : List Op} {s : St} (h : after zero ops = some s) : Req zero.length s := by
  have hall : (0 < zero.length ∧ Inv zero.length s) ∧ Req zero.length s := by
    refine after_induct (P := fun s => (0 < zero.length ∧ Inv zero.length s) ∧ Req zero.length s) h ?_
      (fun s op hi => ⟨⟨hi.1.1, inv_step hi.1.1 hi.1.2 op⟩, req_step hi.1.1 hi.1.2 hi.2 op⟩)
    intro s0 h0
    refine ⟨inv_after (ops := []) (by simp [after, h0, run]), ?_⟩
    obtain ⟨_, rfl⟩ := new_some h0
    exact ⟨by simp, by simp, by simp, by simp, by simp, by simp⟩
  exact hall.2

end Verif.Pool
