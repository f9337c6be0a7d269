import Verif.Plain.Backward
import Verif.Lifecycle.Facts

/-!
The actors of `Verif.Lifecycle` are the actors of `Verif.Next` that do not override `next`. What is proved of every `next` so
holds of them, and what is proved of them is not the result of what `Verif.Lifecycle` leaves out.
-/

namespace Verif.Plain

/-- **C77.** An actor that does not override `next`, with any mailbox and whatever happens to it, lives as an actor with the
same mailbox whose `next` takes one signal from the mailbox and returns it, each time. -/
theorem default_is_special (cap : Option Nat) (ops : List Lifecycle.Op) :
    ∃ ops', Default ops' ∧ Fits cap {} ops' ∧ Life (Lifecycle.after cap ops) (Next.after ops') := by
  obtain ⟨l, h1, h2, h3⟩ := sim_exec (all_init cap) (sim_init cap) ops
  exact ⟨l, h1, h2, life_of_sim h3⟩

/-- A bounded mailbox, a message kept until the start-up is finished, a handler that fails, a graceful stop. -/
example : ∃ ops ops', Default ops' ∧ Fits (some 3) {} ops' ∧
    sees (Lifecycle.after (some 3) ops).log = shows (Next.after ops').log ∧
    shows (Next.after ops').log = [.b .start, .e .start .ok, .b .handle, .e .handle .fail, .b .panic, .e .panic .ok, .b .stop,
      .e .stop .ok] ∧
    (Lifecycle.after (some 3) ops).phase = .stopped .normal ∧ (Next.after ops').phase = .stopped .normal := by
  refine ⟨[.run, .send ⟨5, false, false⟩, .startEnd .ok, .pollBegin, .recv, .recv, .handlerEnd (.panic 7), .panicEnd .cont,
      .sendStop, .recv, .stopEnd .ok, .finish],
    [.send (.msg false) false, .startEnd .ok false, .take 1, .ret 0, .take 1, .ret 0, .handleEnd .panic, .panicEnd .cont,
      .send .stop false, .take 1, .ret 0, .stopEnd .ok], ?_, by simp only [Fits]; decide, by decide, by decide, by decide, by decide⟩
  exact .out rfl (.out rfl (.recv (.recv (.out rfl (.out rfl (.out rfl (.recv (.out rfl .nil))))))))

/-- One ask is answered, the other fails, and both models say so. -/
example : ∃ ops ops', Default ops' ∧ Fits none {} ops' ∧
    (Lifecycle.after none ops).mb.pushed.map (·.1) = [0, 1, 2] ∧
    (Lifecycle.after none ops).slots 1 = .got (.ok 9) ∧ (Next.after ops').slot 1 = some .value ∧
    (Lifecycle.after none ops).slots 2 = .failed .actorStopped ∧ (Next.after ops').slot 2 = some .dropped := by
  refine ⟨[.run, .startEnd .ok, .pollBegin, .recv, .send ⟨5, true, false⟩, .send ⟨6, true, false⟩, .recv,
      .handlerEnd (.ret (.ok 9)), .recv, .kill, .pollEnd],
    [.startEnd .ok false, .take 1, .ret 0, .send (.msg false) true, .send (.msg false) true, .take 1, .ret 0, .handleEnd .ok,
      .take 1, .ret 0, .kill, .abort], ?_, by simp only [Fits]; decide, by decide, by decide, by decide, by decide, by decide⟩
  exact .out rfl (.recv (.out rfl (.out rfl (.recv (.out rfl (.recv (.out rfl (.out rfl .nil))))))))

/-- The mailbox is full when `on_start` is done, one who asked gives up, a handler takes its reply sender, the task is torn
down, and the reply is sent after that. -/
example : ∃ ops ops', Default ops' ∧ Fits (some 2) {} ops' ∧
    (Lifecycle.after (some 2) ops).phase = .crashed ∧ (Next.after ops').phase = .crashed ∧
    sees (Lifecycle.after (some 2) ops).log = shows (Next.after ops').log ∧
    shows (Next.after ops').log = [.b .start, .e .start .ok, .b .handle] ∧
    (Lifecycle.after (some 2) ops).slots 0 = .got (.ok 4) ∧ (Next.after ops').slot 0 = some .value ∧
    (Lifecycle.after (some 2) ops).slots 1 = .gaveUp ∧ (Next.after ops').gaveUp = [1] := by
  refine ⟨[.run, .send ⟨5, true, false⟩, .send ⟨6, true, false⟩, .startEnd .ok, .pollBegin, .recv, .giveUp 1, .takeReply,
      .teardown, .delegSend 0 (.ok 4)],
    [.send (.msg false) true, .send (.msg false) true, .startEnd .ok true, .take 1, .ret 0, .giveUp 1, .takeReply, .teardown,
      .later 0 .value], ?_, by simp only [Fits]; decide, by decide, by decide, by decide, by decide, by decide, by decide, by decide,
    by decide⟩
  exact .out rfl (.out rfl (.out rfl (.recv (.out rfl (.out rfl (.out rfl (.out rfl .nil)))))))

/-- **C77.** Conversely, each life of an actor whose `next` takes one signal and returns it is a life of an actor that does
not override `next`, with the same mailbox. -/
theorem special_is_default (cap : Option Nat) (ops' : List Next.Op) (hd : Default ops') (hf : Fits cap {} ops') :
    ∃ ops, .startBegin ∈ (Lifecycle.after cap ops).log ∧ Life (Lifecycle.after cap ops) (Next.after ops') := by
  have hs : (Lifecycle.after cap []).step .run = Lifecycle.after cap [.run] := rfl
  have hb : Back cap (Lifecycle.after cap [.run]) {} := by
    refine ⟨all_step (all_init cap) .run, ?_, ?_, ?_⟩
    · obtain ⟨⟨h1, h2, h3, h4, h5, h6, h7, h8, h9, -, h10⟩, -⟩ := sim_init cap
      exact ⟨⟨h1, h2, h3, h4, h5, h6, h7, h8, h9, rfl, h10⟩, rfl⟩
    · refine ⟨⟨rfl, rfl, rfl⟩, ?_, ?_, ?_⟩ <;>
        simp [Lifecycle.after, Lifecycle.St.exec, Lifecycle.St.fresh, Lifecycle.St.step]
    · simp [Lifecycle.after, Lifecycle.St.exec, Lifecycle.St.fresh, Lifecycle.St.step, Lifecycle.Phase.inLoop]
  obtain ⟨ops, h2⟩ := back_run hd hb hf
  have he : (Lifecycle.after cap [.run]).exec ops = Lifecycle.after cap (.run :: ops) := by
    simp [Lifecycle.after, Lifecycle.St.exec]
  obtain ⟨x, hx⟩ := Lifecycle.exec_log (Lifecycle.after cap [.run]) ops
  rw [he] at h2 hx
  refine ⟨.run :: ops, ?_, life_of_sim h2.sim⟩
  rw [hx]
  simp [Lifecycle.after, Lifecycle.St.exec, Lifecycle.St.fresh, Lifecycle.St.step]

/-- An actor that is killed while `on_start` runs, with a message waiting for it. -/
example : ∃ ops', Default ops' ∧ Fits (some 1) {} ops' ∧ (Next.after ops').phase = .stopped .killed ∧
    (Next.after ops').slot 0 = some .dropped ∧
    shows (Next.after ops').log = sees (Lifecycle.after (some 1) [.run, .send ⟨5, true, false⟩, .kill, .startEnd .ok,
      .pollBegin, .stopEnd .ok, .finish]).log ∧
    (Lifecycle.after (some 1) [.run, .send ⟨5, true, false⟩, .kill, .startEnd .ok, .pollBegin, .stopEnd .ok, .finish]).phase =
      .stopped .killed := by
  refine ⟨[.send (.msg false) true, .kill, .startEnd .ok true, .abort, .stopEnd .ok], ?_, by simp only [Fits]; decide, by decide,
    by decide, by decide, by decide⟩
  exact .out rfl (.out rfl (.out rfl (.out rfl (.out rfl .nil))))

/-- What the mailbox's size forbids: with room for one, the second message is not accepted. -/
example : ¬ Fits (some 1) {} [.send (.msg false) false, .send (.msg false) false] := by simp only [Fits]; decide

end Verif.Plain
