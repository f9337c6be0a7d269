import Verif.System.Model
import Verif.Lifecycle.PropsResult

/-! Invariants of systems of linked actors. -/

set_option linter.unusedSimpArgs false

namespace Verif.System

open Verif.Mailbox Verif.Lifecycle

@[simp] theorem set_act (S : Sys) (i : Id) (s : St) (x : Id) :
    (S.set i s).act x = if x = i then s else S.act x := rfl
@[simp] theorem set_flight (S : Sys) (i : Id) (s : St) : (S.set i s).flight = S.flight := rfl

/-- A step of the system, as seen by one actor: nothing, or one step of its own. -/
inductive View (S : Sys) (x : Id) : St → Prop where
  | same : View S x (S.act x)
  | loc (op : Op) (h : isLocal op = true) : View S x ((S.act x).step op)
  | link (y : Id) (h : y ≠ x) : View S x ((S.act x).step (.link y))
  | unlink (y : Id) (h : y ≠ x) : View S x ((S.act x).step (.unlink y))
  | died (i : Id) (r : Reason) (p : List Id) (res : Option Err)
      (h : (S.act i).phase = .notifying r p res) (hm : x ∈ p) :
      View S x ((S.act x).step (.sendLinkDied i r))
  | told (j : Id) (t : Nat) (h : (x, j, t) ∈ S.flight) (hp : pendingIn (S.act j) t = false) :
      View S x ((S.act x).step (.notifyEnd j))

theorem allowed_local {S : Sys} {j : Id} {op : Op} (h : S.allowed j op = true) : isLocal op = true := by
  cases op <;> simp_all [Sys.allowed, isLocal]

theorem view (S : Sys) (op : SOp) (x : Id) : View S x ((S.step op).act x) := by
  cases op with
  | loc i op =>
    simp only [Sys.step]
    split
    · next h =>
      simp only [set_act]
      split
      · next hx => subst hx; exact .loc op (allowed_local h)
      · exact .same
    · exact .same
  | link a b =>
    simp only [Sys.step]
    split
    · exact .same
    · next hab =>
      simp only [set_act]
      split
      · next hx => subst hx; exact .link a (fun h => hab h)
      · split
        · next hx => subst hx; exact .link b (fun h => hab h.symm)
        · exact .same
  | unlink a b =>
    simp only [Sys.step]
    split
    · exact .same
    · next hab =>
      simp only [set_act]
      split
      · next hx => subst hx; exact .unlink a (fun h => hab h)
      · split
        · next hx => subst hx; exact .unlink b (fun h => hab h.symm)
        · exact .same
  | notifyStart i j =>
    simp only [Sys.step]
    split
    · next r p res hp =>
      split
      · next h =>
        simp only [set_act]
        split
        · next hx => subst hx; exact .died i r p res hp h.1
        · exact .same
      · exact .same
    · exact .same
  | notifyEnd i j =>
    simp only [Sys.step]
    split
    · next p hf =>
      split
      · exact .same
      · next hp =>
        simp only [set_act]
        split
        · next hx =>
          subst hx
          have h1 := List.mem_of_find?_eq_some hf
          have h2 := List.find?_some hf
          simp at h2
          obtain ⟨p1, p2, p3⟩ := p
          simp at h2
          obtain ⟨rfl, rfl⟩ := h2
          exact .told p2 p3 h1 (by simpa using hp)
        · exact .same
    · exact .same

/-- What `View` says about the single actor: it makes at most one step. -/
theorem View.ops {S : Sys} {x : Id} {s : St} (h : View S x s) :
    s = S.act x ∨ ∃ op, s = (S.act x).step op := by
  cases h with
  | same => exact Or.inl rfl
  | loc op _ => exact Or.inr ⟨_, rfl⟩
  | link y _ => exact Or.inr ⟨_, rfl⟩
  | unlink y _ => exact Or.inr ⟨_, rfl⟩
  | died i r p res _ _ => exact Or.inr ⟨_, rfl⟩
  | told j t _ _ => exact Or.inr ⟨_, rfl⟩

theorem sys_induct {cap : Id → Option Nat} {P : List SOp → Sys → Prop} (h0 : P [] (Sys.fresh cap))
    (hs : ∀ ops op, P ops (sysAfter cap ops) → P (ops ++ [op]) ((sysAfter cap ops).step op))
    (ops : List SOp) : P ops (sysAfter cap ops) := by
  have key : ∀ (l : List SOp) (pre : List SOp), P pre (sysAfter cap pre) →
      P (pre ++ l) (sysAfter cap (pre ++ l)) := by
    intro l
    induction l with
    | nil => intro pre h; simpa using h
    | cons op l ih =>
      intro pre h
      have h1 := hs pre op h
      have e : (sysAfter cap pre).step op = sysAfter cap (pre ++ [op]) := by
        simp [sysAfter, Sys.exec, List.foldl_append]
      rw [e] at h1
      have := ih (pre ++ [op]) h1
      simpa using this
  exact key ops [] h0

theorem sysAfter_append (cap : Id → Option Nat) (a b : List SOp) :
    sysAfter cap (a ++ b) = (sysAfter cap a).exec b := by
  simp [sysAfter, Sys.exec, List.foldl_append]

theorem sysAfter_snoc (cap : Id → Option Nat) (a : List SOp) (op : SOp) :
    sysAfter cap (a ++ [op]) = (sysAfter cap a).step op := by
  simp [sysAfter, Sys.exec, List.foldl_append]

/-- Every actor of the system has a history of its own: everything proved about single actors holds
for it. -/
theorem actor_history (cap : Id → Option Nat) (ops : List SOp) (x : Id) :
    ∃ l, (sysAfter cap ops).act x = after (cap x) l := by
  refine sys_induct (P := fun _ S => ∃ l, S.act x = after (cap x) l) ⟨[], rfl⟩ ?_ ops
  rintro ops op ⟨l, hl⟩
  rcases (view (sysAfter cap ops) op x).ops with h | ⟨o, h⟩
  · exact ⟨l, h.trans hl⟩
  · exact ⟨l ++ [o], by rw [h, hl, after_snoc]⟩

theorem sys_good (cap : Id → Option Nat) (ops : List SOp) (x : Id) : Good ((sysAfter cap ops).act x) := by
  obtain ⟨l, hl⟩ := actor_history cap ops x
  rw [hl]; exact good_after _ _

theorem sys_start (cap : Id → Option Nat) (ops : List SOp) (x : Id) : Start ((sysAfter cap ops).act x) := by
  obtain ⟨l, hl⟩ := actor_history cap ops x
  rw [hl]; exact start_after _ _

/-! ### Link sets -/

/-- What a step does to the link set: it stays, it is emptied when the loop ends, or the dead actor is
removed from it. -/
theorem links_loc (s : St) (op : Op) (h : isLocal op = true) :
    (s.step op).links = s.links ∨
    ((s.step op).links = [] ∧ s.phase.inLoop = true ∧ ∃ r p, (s.step op).phase = .stopping r p true) ∨
    ∃ i r, s.phase = .linkDying i r ∧ (s.step op).links = s.links.filter (· != i) := by
  have hdr : ∀ (a : St) (rest : List Msg) (ts : Bool), a.links = s.links → s.phase.inLoop = true →
      ((a.drain rest ts).links = s.links) ∨ ((a.drain rest ts).links = [] ∧ s.phase.inLoop = true ∧
        ∃ r p, (a.drain rest ts).phase = .stopping r p true) := by
    intro a rest ts hl hp
    cases rest with
    | cons m ms => left; simpa [St.drain] using hl
    | nil => cases ts <;> simp [St.drain, hl, hp]
  have hdr' : ∀ (a : St) (rest : List Msg) (ts : Bool), a.links = s.links → s.phase.inLoop = true →
      ((a.drain rest ts).links = s.links) ∨ ((a.drain rest ts).links = [] ∧ s.phase.inLoop = true ∧
        ∃ r p, (a.drain rest ts).phase = .stopping r p true) ∨
      ∃ i r, s.phase = .linkDying i r ∧ (a.drain rest ts).links = s.links.filter (· != i) := by
    intro a rest ts h1 h2
    rcases hdr a rest ts h1 h2 with h | h
    · exact Or.inl h
    · exact Or.inr (Or.inl h)
  have hon : ∀ (a : St) (x : Reason), s.phase.inLoop = true →
      ((a.onShutdown x).links = a.links) ∨ ((a.onShutdown x).links = [] ∧ s.phase.inLoop = true ∧
        ∃ r p, (a.onShutdown x).phase = .stopping r p true) := by
    intro a x hp
    cases x <;> simp [St.onShutdown, hp]
  cases op with
  | link i => simp [isLocal] at h
  | unlink i => simp [isLocal] at h
  | sendLinkDied i r => simp [isLocal] at h
  | notifyEnd i => simp [isLocal] at h
  | startEnd o =>
    left
    simp only [St.step]
    split
    · cases o with
      | ok => simp only [St.startEnd, St.startOk]; split <;> simp
      | _ => simp [St.startEnd, St.startFail]
    · rfl
  | recv =>
    cases hph : s.phase with
    | idle =>
      have hl : s.phase.inLoop = true := by simp [hph]
      rw [← hph]
      simp only [St.step, hph]
      rw [← hph]
      split
      · simp only [St.recvStep, St.onSignal]
        repeat' split
        all_goals first
          | (exact hdr' _ _ _ (by simp) hl)
          | (left; simp; done)
          | (left; rfl)
      · exact Or.inl rfl
    | _ => left; simp only [St.step, hph]
  | handlerEnd o =>
    cases hph : s.phase with
    | handling m tk rest ts =>
      have hl : s.phase.inLoop = true := by simp [hph]
      rw [← hph]
      simp only [St.step, hph]
      rw [← hph]
      split
      · simp only [St.handlerEnd]
        repeat' split
        all_goals first
          | (exact hdr' _ _ _ (by simp) hl)
          | (left; simp [St.onShutdown]; done)
      · exact Or.inl rfl
    | _ => left; simp only [St.step, hph]
  | linkEnd o =>
    cases hph : s.phase with
    | linkDying i r =>
      have hl : s.phase.inLoop = true := by simp [hph]
      rw [← hph]
      simp only [St.step, hph]
      rw [← hph]
      split
      · simp only [St.linkEnd]
        cases o with
        | cont => exact Or.inr (Or.inr ⟨i, r, hph, rfl⟩)
        | brk x =>
          rcases hon { s with links := s.links.filter (· != i), log := s.log ++ [Ev.lEnd i r (.brk x)] } x hl
            with h | h
          · exact Or.inr (Or.inr ⟨i, r, hph, h⟩)
          · exact Or.inr (Or.inl h)
        | err e => exact Or.inr (Or.inr ⟨i, r, hph, rfl⟩)
        | panic e => exact Or.inr (Or.inr ⟨i, r, hph, rfl⟩)
      · exact Or.inl rfl
    | _ => left; simp only [St.step, hph]
  | panicEnd o =>
    cases hph : s.phase with
    | panicking e =>
      simp only [St.step, hph]
      split
      · simp only [St.panicEnd]
        cases o <;> simp
      · exact Or.inl rfl
    | startPanicking e =>
      left
      simp only [St.step, hph, St.startPanicEnd]
      cases o <;> simp [St.stopFailed]
    | _ => left; simp only [St.step, hph]
  | stopEnd o =>
    left
    simp only [St.step, St.stopEnd, St.stopDone]
    repeat' split
    all_goals simp
  | pollBegin =>
    simp only [St.step]
    repeat' split
    · next h1 h2 => simp at h1; right; left; simp [St.abortSeen, h1]
    all_goals (left; rfl)
  | pollEnd =>
    simp only [St.step]
    repeat' split
    · next h1 h2 => simp at h1; right; left; simp [St.abortSeen, h1]
    all_goals (left; rfl)
  | teardown =>
    left
    simp only [St.step]
    repeat' split
    all_goals simp [St.crash]
  | _ =>
    left
    simp only [St.step]
    repeat' split
    all_goals simp

/-- The link-died signals ever sent to an actor: from whom, with which reason. -/
def deaths (s : St) : List (Id × Reason) :=
  s.mb.sent.filterMap (fun p => match p.2 with
    | .linkDied i r => some (i, r)
    | _ => none)

theorem deaths_died (s : St) (i : Id) (r : Reason) :
    deaths (s.step (.sendLinkDied i r)) = deaths s ++ [(i, r)] := by
  simp [deaths, St.step]

theorem deaths_loc (s : St) (op : Op) (h : ∀ i r, op ≠ .sendLinkDied i r) :
    deaths (s.step op) = deaths s := by
  cases op with
  | sendLinkDied i r => exact (h i r rfl).elim
  | startEnd o =>
    simp only [St.step]
    split
    · cases o with
      | ok => simp only [St.startEnd, deaths]; rw [(startOk_fields s).1]; simp
      | _ => simp [St.startEnd, St.startFail, deaths]
    · rfl
  | recv =>
    simp only [St.step, St.recvStep, St.onSignal]
    repeat' split
    all_goals first
      | rfl
      | simp [deaths]
  | handlerEnd o =>
    simp only [St.step, St.handlerEnd]
    repeat' split
    all_goals first
      | rfl
      | simp [deaths]
  | linkEnd o =>
    simp only [St.step, St.linkEnd]
    repeat' split
    all_goals first
      | rfl
      | simp [deaths]
  | panicEnd o =>
    simp only [St.step, St.panicEnd, St.startPanicEnd, St.stopFailed]
    repeat' split
    all_goals first
      | rfl
      | simp [deaths]
  | stopEnd o =>
    simp only [St.step, St.stopEnd, St.stopDone]
    repeat' split
    all_goals first
      | rfl
      | simp [deaths]
  | pollBegin =>
    simp only [St.step]
    repeat' split
    all_goals first
      | rfl
      | simp [deaths, St.abortSeen]
  | pollEnd =>
    simp only [St.step]
    repeat' split
    all_goals first
      | rfl
      | simp [deaths, St.abortSeen]
  | teardown =>
    simp only [St.step]
    repeat' split
    all_goals first
      | rfl
      | simp [deaths, St.crash]
  | _ =>
    simp only [St.step]
    repeat' split
    all_goals first
      | rfl
      | simp [deaths]

/-! For the examples -/

/-- The actors an operation names. -/
def SOp.ids : SOp → List Id
  | .loc i _ => [i]
  | .link a b => [a, b]
  | .unlink a b => [a, b]
  | .notifyStart i j => [i, j]
  | .notifyEnd i j => [i, j]

/-- An actor no operation names is as it was created. -/
theorem untouched (cap : Id → Option Nat) (ops : List SOp) (x : Id) (h : ∀ op ∈ ops, x ∉ op.ids) :
    (sysAfter cap ops).act x = after (cap x) [] := by
  refine sys_induct (P := fun ops S => (∀ op ∈ ops, x ∉ op.ids) → S.act x = after (cap x) []) ?_ ?_ ops h
  · intro _; rfl
  · intro ops op ih h
    have ih := ih (fun o ho => h o (by simp [ho]))
    have hx := h op (by simp)
    rw [← ih]
    cases op with
    | loc i op =>
      have : x ≠ i := by simpa [SOp.ids] using hx
      simp only [Sys.step]
      split <;> simp [this]
    | link a b =>
      have : x ≠ a ∧ x ≠ b := by simpa [SOp.ids] using hx
      simp only [Sys.step]
      split <;> simp [this]
    | unlink a b =>
      have : x ≠ a ∧ x ≠ b := by simpa [SOp.ids] using hx
      simp only [Sys.step]
      split <;> simp [this]
    | notifyStart a b =>
      have : x ≠ a ∧ x ≠ b := by simpa [SOp.ids] using hx
      simp only [Sys.step]
      split
      · split <;> simp [this]
      · rfl
    | notifyEnd a b =>
      have : x ≠ a ∧ x ≠ b := by simpa [SOp.ids] using hx
      simp only [Sys.step]
      split
      · split <;> simp [this]
      · rfl

/-- Spawn an actor and let it finish its start-up. -/
def spawnDemo (i : Id) : List SOp :=
  [.loc i .run, .loc i (.startEnd .ok), .loc i .pollBegin, .loc i .recv]

/-- Three running actors, linked in a chain 0 - 1 - 2. -/
def chainDemo : List SOp := spawnDemo 0 ++ spawnDemo 1 ++ spawnDemo 2 ++ [.link 0 1, .link 2 1]

/-- Actor 0 is killed, and tells 1. -/
def dieDemo : List SOp := [.loc 0 .kill, .loc 0 .pollEnd, .loc 0 (.stopEnd .ok), .notifyStart 0 1,
  .notifyEnd 0 1, .loc 0 .finish]

/-- Actor 1 takes the signal, stops, and tells 2, which does likewise. -/
def fallDemo : List SOp := [.loc 1 .recv, .loc 1 (.linkEnd (.brk (.linkDied 0 .killed))), .loc 1 (.stopEnd .ok),
  .notifyStart 1 2, .loc 2 .recv, .loc 2 (.linkEnd (.brk (.linkDied 1 (.linkDied 0 .killed)))),
  .notifyEnd 1 2, .loc 1 .finish, .loc 2 (.stopEnd .ok), .loc 2 .finish]

end Verif.System
