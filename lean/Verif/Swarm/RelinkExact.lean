import Verif.Swarm.Relink

/-! Exactly which links with actors of other nodes survive the news of a loss (C80). -/

namespace Verif.Swarm

open Verif.ActorId

variable {P : Type} [DecidableEq P]

/-! ## Helper lemmas -/

theorem apart_of_eq {own : P} {s : Peers P} {a : Nat} {x id : ActorID P} (h : s.apart own a x)
    (he : ActorId.eq (some own) x id = true) : s.apart own a id := by
  intro y hy
  cases hc : ActorId.eq (some own) y id with
  | false => rfl
  | true =>
    have := eq_trans' hc (by rw [eq_comm']; exact he)
    rw [h y hy] at this
    cases this

/-- News, once at hand, is at hand until the link is gone; and then only a new link makes a difference. -/
theorem news_or_apart_step {own : P} {s : Inboxes P} {a : Nat} {id : ActorID P} (hs : PInv own s.base)
    (h : s.News own a id ∨ s.base.apart own a id) (op : IOp P) (hm : ¬ op.makes own a id) :
    (s.step op).News own a id ∨ (s.step op).base.apart own a id := by
  by_cases h2 : op = .node (.stop a)
  · subst h2
    exact .inr (apart_drop hs (.stop a) rfl)
  rcases h with (⟨x, hx, he⟩ | ⟨x, hx, he⟩) | h
  · rcases inbox_kept hx op h2 with h | h
    · exact .inl (.inl ⟨x, h, he⟩)
    · exact .inl (.inr ⟨x, h, he⟩)
  · by_cases h1 : op = .hookEnd a
    · subst h1
      exact .inr (apart_of_eq (hookEnd_apart hs hx) he)
    · exact .inl (.inr ⟨x, hook_kept hx op h1 h2, he⟩)
  · exact .inr (iapart_kept hs h op hm)

theorem news_or_apart_fold {own : P} {a : Nat} {id : ActorID P} (later : List (IOp P)) : ∀ s : Inboxes P, PInv own s.base →
    (s.News own a id ∨ s.base.apart own a id) → (∀ op ∈ later, ¬ op.makes own a id) →
    (later.foldl Inboxes.step s).News own a id ∨ (later.foldl Inboxes.step s).base.apart own a id := by
  induction later with
  | nil => exact fun _ _ h _ => h
  | cons op rest ih =>
    intro s hs h hm
    exact ih _ (iinv_step hs op) (news_or_apart_step hs h op (hm op (List.mem_cons_self ..)))
      (fun o ho => hm o (List.mem_cons_of_mem _ ho))

theorem registered_step {s : Inboxes P} {a : Nat} (h : a ∈ s.base.registry) (op : IOp P) (h2 : op ≠ .node (.stop a)) :
    a ∈ (s.step op).base.registry := by
  have add : ∀ b, a ∈ addActor s.base.registry b := by
    intro b; unfold addActor; split
    · exact h
    · simp [h]
  have key : ∀ o : POp P, o ≠ .stop a → a ∈ (s.base.step o).registry := by
    intro o ho
    cases o with
    | stop b =>
      have hb : a ≠ b := by rintro rfl; exact ho rfl
      simp [Peers.step, Peers.setLinks, h, hb]
    | closed q => simp only [Peers.step]; split <;> exact h
    | task n => simp only [Peers.step]; split <;> exact h
    | linkRequest b x => simp only [Peers.step]; split <;> exact h
    | linkRemote b x => exact add b
    | _ => first | exact h | exact add _
  rcases istep_base s op with e | ⟨o, rfl, e⟩ | ⟨b, y, rfl, _, e⟩ <;> rw [e]
  · exact h
  · exact key o (fun hh => h2 (by rw [hh]))
  · exact key _ (by simp)

theorem tells_news {own p : P} {s : Inboxes P} {a : Nat} {id : ActorID P} (hip : id.peer.get (some own) = some p)
    (h : Calm own s a id) (hr : a ∈ s.base.registry) (op : IOp P) (ht : op.tells own p s a id) :
    (s.step op).News own a id := by
  cases op with
  | node o =>
    cases o with
    | task n =>
      have ht : s.base.tasks[n]? = some p := ht
      obtain ⟨x, hx, he⟩ := h.linked
      refine .inl ⟨x, ?_, he⟩
      simp only [Inboxes.step, if_neg h.live, ht]
      refine List.mem_append_right _ ?_
      simp only [Peers.closedSignals, List.mem_map, List.mem_filter, List.mem_flatMap]
      refine ⟨(p, a, x), ⟨⟨a, hr, x, ⟨hx, ?_⟩, rfl⟩, by simp⟩, rfl⟩
      simp only [ActorId.eq, Bool.and_eq_true, beq_iff_eq] at he
      rw [h.inv.ownEq, he.2, hip]
      simp
    | _ => exact ht.elim
  | died b x =>
    obtain ⟨rfl, he⟩ := ht
    refine .inl ⟨x, ?_, he⟩
    simp [Inboxes.step, hr, h.live]
  | take b => exact ht.elim
  | hookEnd b => exact ht.elim

theorem calm_fold {own p : P} {a : Nat} {id : ActorID P} (hip : id.peer.get (some own) = some p) (later : List (IOp P)) :
    ∀ s : Inboxes P, Calm own s a id → a ∈ s.base.registry →
    (∀ op ∈ later, ¬ op.drops own a id ∧ ¬ op.makes own a id) →
    (Calm own (later.foldl Inboxes.step s) a id ∧
      ∀ l op l', later = l ++ op :: l' → ¬ op.tells own p (l.foldl Inboxes.step s) a id) ∨
    (((later.foldl Inboxes.step s).News own a id ∨ (later.foldl Inboxes.step s).base.apart own a id) ∧
      ∃ l op l', later = l ++ op :: l' ∧ op.tells own p (l.foldl Inboxes.step s) a id) := by
  induction later with
  | nil => intro s h _ _; exact .inl ⟨h, fun l op l' e => by simp at e⟩
  | cons op rest ih =>
    intro s h hr hm
    have h1 := hm op (List.mem_cons_self ..)
    have hm' := fun o ho => hm o (List.mem_cons_of_mem op ho)
    by_cases ht : op.tells own p s a id
    · right
      exact ⟨news_or_apart_fold rest _ (iinv_step h.inv op) (.inl (tells_news hip h hr op ht)) (fun o ho => (hm' o ho).2),
        [], op, rest, rfl, ht⟩
    · have hr' := registered_step hr op (by rintro rfl; exact h1.1 rfl)
      rcases ih _ (calm_step hip h op h1.1 ht) hr' hm' with ⟨hc, hno⟩ | ⟨hb, l, o, l', e, ho⟩
      · refine .inl ⟨hc, fun l o l' e => ?_⟩
        cases l with
        | nil =>
          simp only [List.nil_append, List.cons.injEq] at e
          rw [← e.1]; exact ht
        | cons o' l =>
          simp only [List.cons_append, List.cons.injEq] at e
          obtain ⟨rfl, e⟩ := e
          exact hno l o l' e
      · exact .inr ⟨hb, op :: l, o, l', by simp [e], ho⟩

/-! ## C80 -/

/-- **C80** Exactly which links survive. Let a living actor be linked with `link_remote` to an actor of peer `p`, and nobody
unlink the two or link them again afterwards; and let all news of the other have been dealt with. Then the link is there
if and only if no news of the other was waiting or being handled when it was made, and none has come since: no task for a
closed connection to `p` has run, whenever that connection was closed, and no death has been told. -/
theorem link_survives_iff (own p : P) (ops later : List (IOp P)) (a : Nat) (id : ActorID P)
    (hip : id.peer.get (some own) = some p) (ha : a ∉ (Inboxes.run own ops).base.stopped)
    (hl : ∀ op ∈ later, ¬ op.drops own a id ∧ ¬ op.makes own a id)
    (hq : ¬ (Inboxes.run own (ops ++ .node (.linkRemote a id) :: later)).News own a id) :
    (Inboxes.run own (ops ++ .node (.linkRemote a id) :: later)).Linked own a id ↔
      ¬ (Inboxes.run own ops).News own a id ∧
      ∀ l op l', later = l ++ op :: l' →
        ¬ op.tells own p (Inboxes.run own (ops ++ .node (.linkRemote a id) :: l)) a id := by
  have e : ∀ l, Inboxes.run own (ops ++ .node (.linkRemote a id) :: l) =
      l.foldl Inboxes.step ((Inboxes.run own ops).step (.node (.linkRemote a id))) := fun l => by rw [irun_append]; rfl
  simp only [e] at hq ⊢
  have h := iinv_run own ops
  have hreg : a ∈ ((Inboxes.run own ops).step (.node (.linkRemote a id))).base.registry := by
    show a ∈ addActor (Inboxes.run own ops).base.registry a
    unfold addActor; split
    · next h => exact h
    · simp
  have hbad : ∀ s : Inboxes P, (s.News own a id ∨ s.base.apart own a id) → ¬ s.News own a id → ¬ s.Linked own a id :=
    fun s h1 h2 => not_linked_iff.mpr (h1.resolve_left h2)
  by_cases hn : (Inboxes.run own ops).News own a id
  · have h1 : ((Inboxes.run own ops).step (.node (.linkRemote a id))).News own a id := hn
    have := news_or_apart_fold later _ (iinv_step h _) (.inl h1) (fun o ho => (hl o ho).2)
    exact ⟨fun hh => absurd hh (hbad _ this hq), fun hh => absurd hn hh.1⟩
  · rcases calm_fold hip later _ ⟨iinv_step h _, ha, linkRemote_linked h a id, hn⟩ hreg hl with ⟨hc, hno⟩ | ⟨hb, l, o, l', e1, ho⟩
    · exact ⟨fun _ => ⟨hn, hno⟩, fun _ => hc.linked⟩
    · exact ⟨fun hh => absurd hh (hbad _ hb hq), fun hh => absurd ho (hh.2 l o l' e1)⟩

/-- The link is made before the task for the lost connection runs: it is cut although the connection is back. Made after all
is done, it holds, whatever happens to others. -/
example :
    (Inboxes.run 1 (lostDemo.take 3 ++ .node (.linkRemote 0 ⟨7, .peerId 2⟩) ::
      [.node (.connected 2), .node (.task 0), .take 0, .hookEnd 0])).base.links 0 = [] ∧
    (Inboxes.run 1 (lostDemo.take 3 ++ .node (.linkRemote 0 ⟨7, .peerId 2⟩) ::
      [.node (.connected 2), .node (.task 0), .take 0, .hookEnd 0])).inbox 0 = [] ∧
    (Inboxes.run 1 ((lostDemo ++ [.hookEnd 0]) ++ .node (.linkRemote 0 ⟨7, .peerId 2⟩) ::
      [.node (.connected 3), .node (.closed 3), .node (.task 0), .died 0 ⟨9, .peerId 2⟩, .take 0, .hookEnd 0])).base.links 0 =
        [⟨7, .peerId 2⟩] ∧
    (IOp.node (.task 0)).tells 1 2 (Inboxes.run 1 (lostDemo.take 3 ++ .node (.linkRemote 0 ⟨7, .peerId 2⟩) ::
      [.node (.connected 2)])) 0 ⟨7, .peerId 2⟩ := by
  refine ⟨by decide, by decide, by decide, ?_⟩
  show (Inboxes.run (1 : Byte) _).base.tasks[0]? = some 2
  decide

end Verif.Swarm
