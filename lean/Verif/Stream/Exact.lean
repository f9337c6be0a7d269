import Verif.Stream.Props
import Verif.Lifecycle.OrderExact

/-! C38, exactly: which messages of a stream the actor does not get although its mailbox has accepted them. -/

namespace Verif.Stream

open Verif.Lifecycle Verif.Mailbox

/-- **C38**, exactly. What the actor has handled of a stream is a prefix of what its mailbox accepted of the stream, but for
the messages that have fallen behind another message of the start-up buffer whose handler failed. The mailbox accepts
Started, the items in order, Finished (`accepted_prefix_of_script`). -/
theorem handled_all_but_those_behind (cap : Option Nat) (before : List Lifecycle.Op) (ops : List Op) (hist : List Lifecycle.Op)
    (hh : (after cap before ops).a = Lifecycle.after cap hist) :
    ∃ fallen : List Msg, (∀ m, m ∈ fallen ↔ Fell cap hist m) ∧
      ours (after cap before ops) (after cap before ops).a.handled <+:
        (ours (after cap before ops) (msgsOf (after cap before ops).a.mb.pushed)).filter (fun m => m ∉ fallen) := by
  have h := inv_after cap before ops
  obtain ⟨fallen, h1, h2⟩ := outside_handled_exact cap hist
  refine ⟨fallen, h1, ?_⟩
  rw [← hh] at h2
  have hmem : ∀ m ∈ (after cap before ops).a.handled, (m.1, Sig.msg m.2) ∈ (after cap before ops).a.mb.pushed := by
    rw [hh]
    intro m hm
    have hg := good_after cap hist
    have hr : m ∈ msgsOf (Lifecycle.after cap hist).mb.received := hg.acct.mem_iff.mpr (by simp [hm])
    exact (received_sublist_pushed hg.shape).subset (mem_msgsOf.mp hr)
  generalize after cap before ops = s at *
  rw [ours_outside h _ hmem, ours_outside h (msgsOf s.a.mb.pushed) (fun m hm => mem_msgsOf.mp hm)]
  have h3 : (ours s (outside (msgsOf s.a.mb.pushed))).filter (fun m => m ∉ fallen) =
      ours s ((outside (msgsOf s.a.mb.pushed)).filter (fun m => m ∉ fallen)) := by
    simp only [ours, List.filter_filter]
    congr 1; funext m; exact Bool.and_comm _ _
  rw [h3]
  obtain ⟨y, hy⟩ := h2
  rw [← hy]
  unfold ours
  simp

/-- **C38** (part). If no message of this stream has fallen behind in this way, whatever handlers fail, the actor gets a prefix of: Started, the
items in order, Finished. Missing for the full claim: it is false when one has (`fallen_leaves_gap`). -/
theorem prefix_if_none_behind_partial (cap : Option Nat) (before : List Lifecycle.Op) (ops : List Op) (hist : List Lifecycle.Op)
    (hh : (after cap before ops).a = Lifecycle.after cap hist)
    (hno : ∀ m ∈ ours (after cap before ops) (msgsOf (after cap before ops).a.mb.pushed), ¬ Fell cap hist m) :
    (ours (after cap before ops) (after cap before ops).a.handled).map (·.2) <+:
      (script (after cap before ops).items (after cap before ops).ended).map told := by
  obtain ⟨fallen, h1, h2⟩ := handled_all_but_those_behind cap before ops hist hh
  refine List.IsPrefix.trans ?_ (accepted_prefix_of_script cap before ops)
  have : (ours (after cap before ops) (msgsOf (after cap before ops).a.mb.pushed)).filter (fun m => m ∉ fallen) =
      ours (after cap before ops) (msgsOf (after cap before ops).a.mb.pushed) := by
    rw [List.filter_eq_self]
    intro m hm
    simp only [decide_eq_true_eq]
    exact fun hf => hno m hm ((h1 m).mp hf)
  rw [this] at h2
  obtain ⟨y, hy⟩ := h2
  rw [← hy]
  simp

/-- A handler fails while the start-up buffer is emptied and another message falls behind; the stream is attached later. -/
def apartHist : List Lifecycle.Op :=
  [.send (tell 10), .send (tell 11), .run, .startEnd .ok, .pollBegin, .recv, .recv, .recv, .handlerEnd (.panic 1), .panicEnd .cont]

example : (after none apartHist [.start, .advance, .yield 5, .env .recv]).a =
      Lifecycle.after none (apartHist ++ [.send (SMsg.started).body, .send (SMsg.next 5).body, .recv]) ∧
    (∀ m ∈ ours (after none apartHist [.start, .advance, .yield 5, .env .recv])
        (msgsOf (after none apartHist [.start, .advance, .yield 5, .env .recv]).a.mb.pushed),
      ¬ Fell none (apartHist ++ [.send (SMsg.started).body, .send (SMsg.next 5).body, .recv]) m) ∧
    (Lifecycle.after none apartHist).lost = [(1, tell 11)] := by
  refine ⟨rfl, ?_, by decide⟩
  intro m hm hf
  have h1 : m ∈ [(1, tell 11)] := lost_of_fell hf
  have h2 : ours (after none apartHist [.start, .advance, .yield 5, .env .recv])
      (msgsOf (after none apartHist [.start, .advance, .yield 5, .env .recv]).a.mb.pushed) =
      [(3, (SMsg.started).body), (4, (SMsg.next 5).body)] := by decide
  rw [h2] at hm
  simp at h1 hm
  rcases hm with rfl | rfl <;> simp at h1

/-- **C38 is false** as soon as a message of the stream has fallen behind and a later one is handled: what the actor gets of the stream is
then not a prefix of what its mailbox accepted of it. -/
theorem fallen_leaves_gap (cap : Option Nat) (before : List Lifecycle.Op) (ops : List Op) (hist : List Lifecycle.Op)
    (hh : (after cap before ops).a = Lifecycle.after cap hist) (m x : Msg) (a b : List Msg)
    (hacc : ours (after cap before ops) (msgsOf (after cap before ops).a.mb.pushed) = a ++ m :: b) (hx : x ∈ b)
    (hf : Fell cap hist m) (hhx : x ∈ (after cap before ops).a.handled) :
    ¬ ours (after cap before ops) (after cap before ops).a.handled <+:
      ours (after cap before ops) (msgsOf (after cap before ops).a.mb.pushed) := by
  intro hp
  have hm : m ∉ (after cap before ops).a.handled := by
    rw [hh]
    exact dropped_not_handled cap hist m (lost_of_fell hf)
  have hox : x ∈ ours (after cap before ops) (after cap before ops).a.handled := by
    have : x ∈ ours (after cap before ops) (msgsOf (after cap before ops).a.mb.pushed) := by rw [hacc]; simp [hx]
    exact List.mem_filter.mpr ⟨hhx, (List.mem_filter.mp this).2⟩
  have hom : m ∉ ours (after cap before ops) (after cap before ops).a.handled := fun h => hm (List.mem_filter.mp h).1
  have hnd : (a ++ m :: b).Nodup := by
    rw [← hacc, hh]
    exact (nodup_of_map (pushed_nodup cap hist)).filter _
  rw [hacc] at hp
  obtain ⟨y, hy⟩ := hp
  have hdis := (List.nodup_append.mp hnd).2.2
  rcases List.append_eq_append_iff.mp hy with ⟨c, h, _⟩ | ⟨c, h, hl⟩
  · exact hdis x (by rw [h]; simp [hox]) x (by simp [hx]) rfl
  · cases c with
    | nil => rw [h] at hox; exact hdis x (by simpa using hox) x (by simp [hx]) rfl
    | cons z c => cases hl; rw [h] at hom; simp at hom

/-- The execution of `stream_items_lost`, and the history of the actor in it: the item 5 has fallen behind Started, the item 7 is handled. -/
def gapOps : List Op :=
  [.start, .advance, .yield 5, .advance, .env .run, .env (.startEnd .ok), .env .pollBegin, .env .recv, .env .recv, .env .recv,
   .env (.handlerEnd (.panic 1)), .env (.panicEnd .cont), .yield 7, .advance, .env .recv]

def gapHist : List Lifecycle.Op :=
  [.send (SMsg.started).body, .send (SMsg.next 5).body, .run, .startEnd .ok, .pollBegin, .recv, .recv, .recv,
   .handlerEnd (.panic 1), .panicEnd .cont, .send (SMsg.next 7).body, .recv]

theorem gap_hist : (after none [] gapOps).a = Lifecycle.after none gapHist := rfl

theorem gap_fell : Fell none gapHist (1, (SMsg.next 5).body) :=
  ⟨gapHist.take 8, .handlerEnd (.panic 1), gapHist.drop 9, rfl, (0, (SMsg.started).body), false, [(1, (SMsg.next 5).body)], false,
    .panic 1, 1, by decide⟩

example : (after none [] gapOps).a = Lifecycle.after none gapHist ∧
    ours (after none [] gapOps) (msgsOf (after none [] gapOps).a.mb.pushed) =
      [(0, (SMsg.started).body)] ++ (1, (SMsg.next 5).body) :: [(3, (SMsg.next 7).body)] ∧
    Fell none gapHist (1, (SMsg.next 5).body) ∧ (3, (SMsg.next 7).body) ∈ (after none [] gapOps).a.handled :=
  ⟨gap_hist, by decide, gap_fell, by decide⟩

end Verif.Stream
