import Verif.Lifecycle.Model
import Verif.Mailbox.Lemmas

/-! Elementary facts about the primitives of the lifecycle model. -/

set_option linter.unusedSimpArgs false

namespace Verif.Lifecycle

open Verif.Mailbox

attribute [local simp] St.ev St.dropReplies St.failSends St.lose

section fields
variable (s : St) (t : Nat) (r : Reason) (res : Res) (ts : List Nat) (ms : List Msg) (e : Ev)
  (f : Fail)

@[simp] theorem ev_mb : (s.ev e).mb = s.mb := rfl
@[simp] theorem ev_phase : (s.ev e).phase = s.phase := rfl
@[simp] theorem ev_finished : (s.ev e).finished = s.finished := rfl
@[simp] theorem ev_buffer : (s.ev e).buffer = s.buffer := rfl
@[simp] theorem ev_polling : (s.ev e).polling = s.polling := rfl
@[simp] theorem ev_aborted : (s.ev e).aborted = s.aborted := rfl
@[simp] theorem ev_permits : (s.ev e).permits = s.permits := rfl
@[simp] theorem ev_startupErr : (s.ev e).startupErr = s.startupErr := rfl
@[simp] theorem ev_shutdownErr : (s.ev e).shutdownErr = s.shutdownErr := rfl
@[simp] theorem ev_links : (s.ev e).links = s.links := rfl
@[simp] theorem ev_ext : (s.ev e).ext = s.ext := rfl
@[simp] theorem ev_own : (s.ev e).own = s.own := rfl
@[simp] theorem ev_slots : (s.ev e).slots = s.slots := rfl
@[simp] theorem ev_handled : (s.ev e).handled = s.handled := rfl
@[simp] theorem ev_lost : (s.ev e).lost = s.lost := rfl
@[simp] theorem ev_cut : (s.ev e).cut = s.cut := rfl
@[simp] theorem ev_delegated : (s.ev e).delegated = s.delegated := rfl
@[simp] theorem ev_log : (s.ev e).log = s.log ++ [e] := rfl

@[simp] theorem reply_mb : (s.reply t res).mb = s.mb := by unfold St.reply; split <;> rfl
@[simp] theorem reply_phase : (s.reply t res).phase = s.phase := by unfold St.reply; split <;> rfl
@[simp] theorem reply_finished : (s.reply t res).finished = s.finished := by
  unfold St.reply; split <;> rfl
@[simp] theorem reply_buffer : (s.reply t res).buffer = s.buffer := by
  unfold St.reply; split <;> rfl
@[simp] theorem reply_polling : (s.reply t res).polling = s.polling := by
  unfold St.reply; split <;> rfl
@[simp] theorem reply_aborted : (s.reply t res).aborted = s.aborted := by
  unfold St.reply; split <;> rfl
@[simp] theorem reply_permits : (s.reply t res).permits = s.permits := by
  unfold St.reply; split <;> rfl
@[simp] theorem reply_startupErr : (s.reply t res).startupErr = s.startupErr := by
  unfold St.reply; split <;> rfl
@[simp] theorem reply_shutdownErr : (s.reply t res).shutdownErr = s.shutdownErr := by
  unfold St.reply; split <;> rfl
@[simp] theorem reply_links : (s.reply t res).links = s.links := by
  unfold St.reply; split <;> rfl
@[simp] theorem reply_ext : (s.reply t res).ext = s.ext := by unfold St.reply; split <;> rfl
@[simp] theorem reply_own : (s.reply t res).own = s.own := by unfold St.reply; split <;> rfl
@[simp] theorem reply_handled : (s.reply t res).handled = s.handled := by
  unfold St.reply; split <;> rfl
@[simp] theorem reply_lost : (s.reply t res).lost = s.lost := by unfold St.reply; split <;> rfl
@[simp] theorem reply_cut : (s.reply t res).cut = s.cut := by unfold St.reply; split <;> rfl
@[simp] theorem reply_delegated : (s.reply t res).delegated = s.delegated := by
  unfold St.reply; split <;> rfl
@[simp] theorem reply_log : (s.reply t res).log = s.log := by unfold St.reply; split <;> rfl

@[simp] theorem dropReplies_mb : (s.dropReplies ts).mb = s.mb := rfl
@[simp] theorem dropReplies_phase : (s.dropReplies ts).phase = s.phase := rfl
@[simp] theorem dropReplies_finished : (s.dropReplies ts).finished = s.finished := rfl
@[simp] theorem dropReplies_buffer : (s.dropReplies ts).buffer = s.buffer := rfl
@[simp] theorem dropReplies_polling : (s.dropReplies ts).polling = s.polling := rfl
@[simp] theorem dropReplies_aborted : (s.dropReplies ts).aborted = s.aborted := rfl
@[simp] theorem dropReplies_permits : (s.dropReplies ts).permits = s.permits := rfl
@[simp] theorem dropReplies_startupErr : (s.dropReplies ts).startupErr = s.startupErr := rfl
@[simp] theorem dropReplies_shutdownErr : (s.dropReplies ts).shutdownErr = s.shutdownErr := rfl
@[simp] theorem dropReplies_links : (s.dropReplies ts).links = s.links := rfl
@[simp] theorem dropReplies_ext : (s.dropReplies ts).ext = s.ext := rfl
@[simp] theorem dropReplies_own : (s.dropReplies ts).own = s.own := rfl
@[simp] theorem dropReplies_handled : (s.dropReplies ts).handled = s.handled := rfl
@[simp] theorem dropReplies_lost : (s.dropReplies ts).lost = s.lost := rfl
@[simp] theorem dropReplies_cut : (s.dropReplies ts).cut = s.cut := rfl
@[simp] theorem dropReplies_delegated : (s.dropReplies ts).delegated = s.delegated := rfl
@[simp] theorem dropReplies_log : (s.dropReplies ts).log = s.log := rfl

@[simp] theorem failSends_mb : (s.failSends ts f).mb = s.mb := rfl
@[simp] theorem failSends_phase : (s.failSends ts f).phase = s.phase := rfl
@[simp] theorem failSends_finished : (s.failSends ts f).finished = s.finished := rfl
@[simp] theorem failSends_buffer : (s.failSends ts f).buffer = s.buffer := rfl
@[simp] theorem failSends_polling : (s.failSends ts f).polling = s.polling := rfl
@[simp] theorem failSends_aborted : (s.failSends ts f).aborted = s.aborted := rfl
@[simp] theorem failSends_permits : (s.failSends ts f).permits = s.permits := rfl
@[simp] theorem failSends_startupErr : (s.failSends ts f).startupErr = s.startupErr := rfl
@[simp] theorem failSends_shutdownErr : (s.failSends ts f).shutdownErr = s.shutdownErr := rfl
@[simp] theorem failSends_links : (s.failSends ts f).links = s.links := rfl
@[simp] theorem failSends_ext : (s.failSends ts f).ext = s.ext := rfl
@[simp] theorem failSends_own : (s.failSends ts f).own = s.own := rfl
@[simp] theorem failSends_handled : (s.failSends ts f).handled = s.handled := rfl
@[simp] theorem failSends_lost : (s.failSends ts f).lost = s.lost := rfl
@[simp] theorem failSends_cut : (s.failSends ts f).cut = s.cut := rfl
@[simp] theorem failSends_delegated : (s.failSends ts f).delegated = s.delegated := rfl
@[simp] theorem failSends_log : (s.failSends ts f).log = s.log := rfl

@[simp] theorem lose_mb : (s.lose ms).mb = s.mb := rfl
@[simp] theorem lose_phase : (s.lose ms).phase = s.phase := rfl
@[simp] theorem lose_finished : (s.lose ms).finished = s.finished := rfl
@[simp] theorem lose_buffer : (s.lose ms).buffer = s.buffer := rfl
@[simp] theorem lose_polling : (s.lose ms).polling = s.polling := rfl
@[simp] theorem lose_aborted : (s.lose ms).aborted = s.aborted := rfl
@[simp] theorem lose_permits : (s.lose ms).permits = s.permits := rfl
@[simp] theorem lose_startupErr : (s.lose ms).startupErr = s.startupErr := rfl
@[simp] theorem lose_shutdownErr : (s.lose ms).shutdownErr = s.shutdownErr := rfl
@[simp] theorem lose_links : (s.lose ms).links = s.links := rfl
@[simp] theorem lose_ext : (s.lose ms).ext = s.ext := rfl
@[simp] theorem lose_own : (s.lose ms).own = s.own := rfl
@[simp] theorem lose_handled : (s.lose ms).handled = s.handled := rfl
@[simp] theorem lose_lost : (s.lose ms).lost = s.lost ++ ms := rfl
@[simp] theorem lose_cut : (s.lose ms).cut = s.cut := rfl
@[simp] theorem lose_delegated : (s.lose ms).delegated = s.delegated := rfl
@[simp] theorem lose_log : (s.lose ms).log = s.log := rfl
@[simp] theorem lose_slots : (s.lose ms).slots = (s.dropReplies (ms.map (·.1))).slots := rfl

@[simp] theorem closeMb_mb : s.closeMb.mb = s.mb.close := rfl
@[simp] theorem closeMb_phase : s.closeMb.phase = s.phase := rfl
@[simp] theorem closeMb_finished : s.closeMb.finished = s.finished := rfl
@[simp] theorem closeMb_buffer : s.closeMb.buffer = s.buffer := rfl
@[simp] theorem closeMb_polling : s.closeMb.polling = s.polling := rfl
@[simp] theorem closeMb_aborted : s.closeMb.aborted = s.aborted := rfl
@[simp] theorem closeMb_permits : s.closeMb.permits = s.permits := rfl
@[simp] theorem closeMb_startupErr : s.closeMb.startupErr = s.startupErr := rfl
@[simp] theorem closeMb_shutdownErr : s.closeMb.shutdownErr = s.shutdownErr := rfl
@[simp] theorem closeMb_links : s.closeMb.links = s.links := rfl
@[simp] theorem closeMb_ext : s.closeMb.ext = s.ext := rfl
@[simp] theorem closeMb_own : s.closeMb.own = false := rfl
@[simp] theorem closeMb_handled : s.closeMb.handled = s.handled := rfl
@[simp] theorem closeMb_lost : s.closeMb.lost = s.lost := rfl
@[simp] theorem closeMb_cut : s.closeMb.cut = s.cut := rfl
@[simp] theorem closeMb_delegated : s.closeMb.delegated = s.delegated := rfl
@[simp] theorem closeMb_log : s.closeMb.log = s.log := rfl

end fields

section prims
variable (s : St) (r : Reason) (m : Msg) (rest : List Msg) (ts : Bool) (e : Err) (o : Option Err)

@[simp] theorem leave_mb : (s.leave r).mb = s.mb := rfl
@[simp] theorem leave_finished : (s.leave r).finished = s.finished := rfl
@[simp] theorem leave_aborted : (s.leave r).aborted = s.aborted := rfl
@[simp] theorem leave_permits : (s.leave r).permits = s.permits := rfl
@[simp] theorem leave_startupErr : (s.leave r).startupErr = s.startupErr := rfl
@[simp] theorem leave_shutdownErr : (s.leave r).shutdownErr = s.shutdownErr := rfl
@[simp] theorem leave_ext : (s.leave r).ext = s.ext := rfl
@[simp] theorem leave_own : (s.leave r).own = s.own := rfl
@[simp] theorem leave_handled : (s.leave r).handled = s.handled := rfl
@[simp] theorem leave_cut : (s.leave r).cut = s.cut := rfl
@[simp] theorem leave_delegated : (s.leave r).delegated = s.delegated := rfl
@[simp] theorem leave_phase : (s.leave r).phase = .stopping r s.links true := rfl
@[simp] theorem leave_buffer : (s.leave r).buffer = [] := rfl
@[simp] theorem leave_polling : (s.leave r).polling = false := rfl
@[simp] theorem leave_links : (s.leave r).links = [] := rfl
@[simp] theorem leave_log : (s.leave r).log = s.log ++ [.sBegin r] := rfl
@[simp] theorem leave_lost : (s.leave r).lost = s.lost ++ s.buffer := rfl
@[simp] theorem leave_slots : (s.leave r).slots = (s.dropReplies (s.buffer.map (·.1))).slots := rfl

@[simp] theorem onShutdown_mb : (s.onShutdown r).mb = s.mb := by
  unfold St.onShutdown; split <;> rfl
@[simp] theorem onShutdown_finished : (s.onShutdown r).finished = s.finished := by
  unfold St.onShutdown; split <;> rfl
@[simp] theorem onShutdown_aborted : (s.onShutdown r).aborted = s.aborted := by
  unfold St.onShutdown; split <;> rfl
@[simp] theorem onShutdown_permits : (s.onShutdown r).permits = s.permits := by
  unfold St.onShutdown; split <;> rfl
@[simp] theorem onShutdown_startupErr : (s.onShutdown r).startupErr = s.startupErr := by
  unfold St.onShutdown; split <;> rfl
@[simp] theorem onShutdown_shutdownErr : (s.onShutdown r).shutdownErr = s.shutdownErr := by
  unfold St.onShutdown; split <;> rfl
@[simp] theorem onShutdown_ext : (s.onShutdown r).ext = s.ext := by
  unfold St.onShutdown; split <;> rfl
@[simp] theorem onShutdown_own : (s.onShutdown r).own = s.own := by
  unfold St.onShutdown; split <;> rfl
@[simp] theorem onShutdown_handled : (s.onShutdown r).handled = s.handled := by
  unfold St.onShutdown; split <;> rfl
@[simp] theorem onShutdown_cut : (s.onShutdown r).cut = s.cut := by
  unfold St.onShutdown; split <;> rfl
@[simp] theorem onShutdown_delegated : (s.onShutdown r).delegated = s.delegated := by
  unfold St.onShutdown; split <;> rfl
@[simp] theorem onShutdown_panicked : s.onShutdown (.panicked e) =
    { s with phase := .panicking e, log := s.log ++ [.pBegin e] } := rfl
theorem onShutdown_other (h : ∀ e, r ≠ .panicked e) : s.onShutdown r = s.leave r := by
  unfold St.onShutdown; split
  · next e => exact absurd rfl (h e)
  · rfl
@[simp] theorem onShutdown_normal : s.onShutdown .normal = s.leave .normal := rfl

@[simp] theorem beginHandle_mb : (s.beginHandle m rest ts).mb = s.mb := rfl
@[simp] theorem beginHandle_finished : (s.beginHandle m rest ts).finished = s.finished := rfl
@[simp] theorem beginHandle_aborted : (s.beginHandle m rest ts).aborted = s.aborted := rfl
@[simp] theorem beginHandle_permits : (s.beginHandle m rest ts).permits = s.permits := rfl
@[simp] theorem beginHandle_startupErr : (s.beginHandle m rest ts).startupErr = s.startupErr := rfl
@[simp] theorem beginHandle_shutdownErr : (s.beginHandle m rest ts).shutdownErr = s.shutdownErr := rfl
@[simp] theorem beginHandle_ext : (s.beginHandle m rest ts).ext = s.ext := rfl
@[simp] theorem beginHandle_own : (s.beginHandle m rest ts).own = s.own := rfl
@[simp] theorem beginHandle_cut : (s.beginHandle m rest ts).cut = s.cut := rfl
@[simp] theorem beginHandle_delegated : (s.beginHandle m rest ts).delegated = s.delegated := rfl
@[simp] theorem beginHandle_buffer : (s.beginHandle m rest ts).buffer = s.buffer := rfl
@[simp] theorem beginHandle_polling : (s.beginHandle m rest ts).polling = s.polling := rfl
@[simp] theorem beginHandle_links : (s.beginHandle m rest ts).links = s.links := rfl
@[simp] theorem beginHandle_slots : (s.beginHandle m rest ts).slots = s.slots := rfl
@[simp] theorem beginHandle_lost : (s.beginHandle m rest ts).lost = s.lost := rfl
@[simp] theorem beginHandle_handled : (s.beginHandle m rest ts).handled = s.handled ++ [m] := rfl
@[simp] theorem beginHandle_phase :
    (s.beginHandle m rest ts).phase = .handling m false rest ts := rfl
@[simp] theorem beginHandle_log :
    (s.beginHandle m rest ts).log = s.log ++ [.hBegin m] := rfl

@[simp] theorem drain_mb : (s.drain rest ts).mb = s.mb := by
  unfold St.drain; (repeat' split) <;> rfl
@[simp] theorem drain_finished : (s.drain rest ts).finished = s.finished := by
  unfold St.drain; (repeat' split) <;> rfl
@[simp] theorem drain_aborted : (s.drain rest ts).aborted = s.aborted := by
  unfold St.drain; (repeat' split) <;> rfl
@[simp] theorem drain_permits : (s.drain rest ts).permits = s.permits := by
  unfold St.drain; (repeat' split) <;> rfl
@[simp] theorem drain_startupErr : (s.drain rest ts).startupErr = s.startupErr := by
  unfold St.drain; (repeat' split) <;> rfl
@[simp] theorem drain_shutdownErr : (s.drain rest ts).shutdownErr = s.shutdownErr := by
  unfold St.drain; (repeat' split) <;> rfl
@[simp] theorem drain_ext : (s.drain rest ts).ext = s.ext := by
  unfold St.drain; (repeat' split) <;> rfl
@[simp] theorem drain_own : (s.drain rest ts).own = s.own := by
  unfold St.drain; (repeat' split) <;> rfl
@[simp] theorem drain_cut : (s.drain rest ts).cut = s.cut := by
  unfold St.drain; (repeat' split) <;> rfl
@[simp] theorem drain_delegated : (s.drain rest ts).delegated = s.delegated := by
  unfold St.drain; (repeat' split) <;> rfl
@[simp] theorem finishStartup_mb : s.finishStartup.mb = s.mb := rfl
@[simp] theorem finishStartup_aborted : s.finishStartup.aborted = s.aborted := rfl
@[simp] theorem finishStartup_permits : s.finishStartup.permits = s.permits := rfl
@[simp] theorem finishStartup_startupErr : s.finishStartup.startupErr = s.startupErr := rfl
@[simp] theorem finishStartup_shutdownErr : s.finishStartup.shutdownErr = s.shutdownErr := rfl
@[simp] theorem finishStartup_ext : s.finishStartup.ext = s.ext := rfl
@[simp] theorem finishStartup_own : s.finishStartup.own = s.own := rfl
@[simp] theorem finishStartup_handled : s.finishStartup.handled = s.handled := rfl
@[simp] theorem finishStartup_delegated : s.finishStartup.delegated = s.delegated := rfl
@[simp] theorem finishStartup_polling : s.finishStartup.polling = s.polling := rfl
@[simp] theorem finishStartup_links : s.finishStartup.links = s.links := rfl
@[simp] theorem finishStartup_slots : s.finishStartup.slots = s.slots := rfl
@[simp] theorem finishStartup_lost : s.finishStartup.lost = s.lost := rfl
@[simp] theorem finishStartup_log : s.finishStartup.log = s.log := rfl
@[simp] theorem finishStartup_phase : s.finishStartup.phase = s.phase := rfl
@[simp] theorem finishStartup_finished : s.finishStartup.finished = true := rfl
@[simp] theorem finishStartup_buffer : s.finishStartup.buffer = [] := rfl













































@[simp] theorem cancelRunning_mb : s.cancelRunning.mb = s.mb := by
  unfold St.cancelRunning; split <;> rfl
@[simp] theorem cancelRunning_phase : s.cancelRunning.phase = s.phase := by
  unfold St.cancelRunning; split <;> rfl
@[simp] theorem cancelRunning_finished : s.cancelRunning.finished = s.finished := by
  unfold St.cancelRunning; split <;> rfl
@[simp] theorem cancelRunning_buffer : s.cancelRunning.buffer = s.buffer := by
  unfold St.cancelRunning; split <;> rfl
@[simp] theorem cancelRunning_polling : s.cancelRunning.polling = s.polling := by
  unfold St.cancelRunning; split <;> rfl
@[simp] theorem cancelRunning_aborted : s.cancelRunning.aborted = s.aborted := by
  unfold St.cancelRunning; split <;> rfl
@[simp] theorem cancelRunning_permits : s.cancelRunning.permits = s.permits := by
  unfold St.cancelRunning; split <;> rfl
@[simp] theorem cancelRunning_startupErr : s.cancelRunning.startupErr = s.startupErr := by
  unfold St.cancelRunning; split <;> rfl
@[simp] theorem cancelRunning_shutdownErr : s.cancelRunning.shutdownErr = s.shutdownErr := by
  unfold St.cancelRunning; split <;> rfl
@[simp] theorem cancelRunning_links : s.cancelRunning.links = s.links := by
  unfold St.cancelRunning; split <;> rfl
@[simp] theorem cancelRunning_ext : s.cancelRunning.ext = s.ext := by
  unfold St.cancelRunning; split <;> rfl
@[simp] theorem cancelRunning_own : s.cancelRunning.own = s.own := by
  unfold St.cancelRunning; split <;> rfl
@[simp] theorem cancelRunning_handled : s.cancelRunning.handled = s.handled := by
  unfold St.cancelRunning; split <;> rfl
@[simp] theorem cancelRunning_cut : s.cancelRunning.cut = s.cut := by
  unfold St.cancelRunning; split <;> rfl
@[simp] theorem cancelRunning_delegated : s.cancelRunning.delegated = s.delegated := by
  unfold St.cancelRunning; split <;> rfl
@[simp] theorem die_finished : s.die.finished = s.finished := by
  simp [St.die, St.crash]
@[simp] theorem die_aborted : s.die.aborted = s.aborted := by
  simp [St.die, St.crash]
@[simp] theorem die_permits : s.die.permits = s.permits := by
  simp [St.die, St.crash]
@[simp] theorem die_startupErr : s.die.startupErr = s.startupErr := by
  simp [St.die, St.crash]
@[simp] theorem die_shutdownErr : s.die.shutdownErr = s.shutdownErr := by
  simp [St.die, St.crash]
@[simp] theorem die_ext : s.die.ext = s.ext := by
  simp [St.die, St.crash]
@[simp] theorem die_handled : s.die.handled = s.handled := by
  simp [St.die, St.crash]
@[simp] theorem die_cut : s.die.cut = s.cut := by
  simp [St.die, St.crash]
@[simp] theorem die_delegated : s.die.delegated = s.delegated := by
  simp [St.die, St.crash]
@[simp] theorem die_links : s.die.links = s.links := by
  simp [St.die, St.crash]
@[simp] theorem die_mb : s.die.mb = s.mb.close := by
  simp [St.die, St.crash]
@[simp] theorem die_own : s.die.own = false := rfl
@[simp] theorem die_phase : s.die.phase = .crashed := rfl
@[simp] theorem die_buffer : s.die.buffer = [] := rfl
@[simp] theorem die_polling : s.die.polling = false := rfl
@[simp] theorem crash_finished : s.crash.finished = s.finished := by
  simp [St.die, St.crash]
@[simp] theorem crash_aborted : s.crash.aborted = s.aborted := by
  simp [St.die, St.crash]
@[simp] theorem crash_permits : s.crash.permits = s.permits := by
  simp [St.die, St.crash]
@[simp] theorem crash_startupErr : s.crash.startupErr = s.startupErr := by
  simp [St.die, St.crash]
@[simp] theorem crash_shutdownErr : s.crash.shutdownErr = s.shutdownErr := by
  simp [St.die, St.crash]
@[simp] theorem crash_ext : s.crash.ext = s.ext := by
  simp [St.die, St.crash]
@[simp] theorem crash_handled : s.crash.handled = s.handled := by
  simp [St.die, St.crash]
@[simp] theorem crash_cut : s.crash.cut = s.cut := by
  simp [St.die, St.crash]
@[simp] theorem crash_delegated : s.crash.delegated = s.delegated := by
  simp [St.die, St.crash]
@[simp] theorem crash_links : s.crash.links = s.links := by
  simp [St.die, St.crash]
@[simp] theorem crash_mb : s.crash.mb = s.mb.close := by
  simp [St.die, St.crash]
@[simp] theorem crash_own : s.crash.own = false := rfl
@[simp] theorem crash_phase : s.crash.phase = .crashed := rfl
@[simp] theorem crash_buffer : s.crash.buffer = [] := rfl
@[simp] theorem crash_polling : s.crash.polling = false := rfl
@[simp] theorem die_log : s.die.log = s.log := rfl
@[simp] theorem die_lost : s.die.lost = s.lost ++ s.buffer := rfl
@[simp] theorem finishAll_finished : (s.finishAll r o).finished = s.finished := rfl
@[simp] theorem finishAll_aborted : (s.finishAll r o).aborted = s.aborted := rfl
@[simp] theorem finishAll_permits : (s.finishAll r o).permits = s.permits := rfl
@[simp] theorem finishAll_startupErr : (s.finishAll r o).startupErr = s.startupErr := rfl
@[simp] theorem finishAll_ext : (s.finishAll r o).ext = s.ext := rfl
@[simp] theorem finishAll_handled : (s.finishAll r o).handled = s.handled := rfl
@[simp] theorem finishAll_cut : (s.finishAll r o).cut = s.cut := rfl
@[simp] theorem finishAll_delegated : (s.finishAll r o).delegated = s.delegated := rfl
@[simp] theorem finishAll_links : (s.finishAll r o).links = s.links := rfl
@[simp] theorem finishAll_buffer : (s.finishAll r o).buffer = s.buffer := rfl
@[simp] theorem finishAll_polling : (s.finishAll r o).polling = s.polling := rfl
@[simp] theorem finishAll_lost : (s.finishAll r o).lost = s.lost := rfl
@[simp] theorem finishAll_mb : (s.finishAll r o).mb = s.mb.close := rfl
@[simp] theorem finishAll_own : (s.finishAll r o).own = false := rfl
@[simp] theorem finishAll_phase : (s.finishAll r o).phase = .stopped r := rfl
@[simp] theorem finishAll_log : (s.finishAll r o).log = s.log ++ [.returned r] := rfl
@[simp] theorem finishAll_slots : (s.finishAll r o).slots = s.closeMb.slots := rfl
@[simp] theorem abortSeen_mb : s.abortSeen.mb = s.mb := by
  simp [St.abortSeen]
@[simp] theorem abortSeen_finished : s.abortSeen.finished = s.finished := by
  simp [St.abortSeen]
@[simp] theorem abortSeen_aborted : s.abortSeen.aborted = s.aborted := by
  simp [St.abortSeen]
@[simp] theorem abortSeen_permits : s.abortSeen.permits = s.permits := by
  simp [St.abortSeen]
@[simp] theorem abortSeen_startupErr : s.abortSeen.startupErr = s.startupErr := by
  simp [St.abortSeen]
@[simp] theorem abortSeen_shutdownErr : s.abortSeen.shutdownErr = s.shutdownErr := by
  simp [St.abortSeen]
@[simp] theorem abortSeen_ext : s.abortSeen.ext = s.ext := by
  simp [St.abortSeen]
@[simp] theorem abortSeen_own : s.abortSeen.own = s.own := by
  simp [St.abortSeen]
@[simp] theorem abortSeen_handled : s.abortSeen.handled = s.handled := by
  simp [St.abortSeen]
@[simp] theorem abortSeen_cut : s.abortSeen.cut = s.cut := by
  simp [St.abortSeen]
@[simp] theorem abortSeen_delegated : s.abortSeen.delegated = s.delegated := by
  simp [St.abortSeen]

end prims

/-- The mailbox of an actor evolves only by mailbox operations. -/
theorem step_mb (s : St) (op : Op) : ∃ mops, (s.step op).mb = s.mb.run mops := by
  have h0 : ∃ mops, s.mb = s.mb.run mops := ⟨[], rfl⟩
  have hr : ∃ mops, s.mb.recv = s.mb.run mops := ⟨[.recv], rfl⟩
  have hc : ∃ mops, s.mb.close = s.mb.run mops := ⟨[.close], rfl⟩
  have ht : ∃ mops, s.mb.trySend .startup = s.mb.run mops := ⟨[.trySend .startup], rfl⟩
  cases op <;> simp only [St.step]
  case send b => exact ⟨[.send (.msg b)], rfl⟩
  case trySend b => exact ⟨[.trySend (.msg b)], rfl⟩
  case poll t => exact ⟨[.poll t], rfl⟩
  case cancel t => exact ⟨[.cancel t], rfl⟩
  case sendStop => exact ⟨[.send .stop], rfl⟩
  case sendLinkDied id r => exact ⟨[.send (.linkDied id r)], rfl⟩
  case recv =>
    split
    · split
      · unfold St.recvStep
        split
        · split <;> simp [h0]
        · unfold St.onSignal
          (repeat' split) <;> simp [hr]
      · exact h0
    · exact h0
  case handlerEnd o =>
    split
    · split
      · unfold St.handlerEnd
        (repeat' split) <;> simp [h0]
      · exact h0
    · exact h0
  case linkEnd o =>
    split
    · split
      · unfold St.linkEnd
        (repeat' split) <;> simp [h0]
      · exact h0
    · exact h0
  case panicEnd o =>
    split
    · split
      · unfold St.panicEnd
        (repeat' split) <;> simp [h0, hc]
      · exact h0
    · unfold St.startPanicEnd
      (repeat' split) <;> simp [h0, hc, St.stopFailed]
    · exact h0
  case startEnd o =>
    split
    · unfold St.startEnd
      split
      · simp only [St.startOk]
        split <;> simp [ht]
      · simp [St.startFail, ht]
      · simp [St.startFail, ht]
    · exact h0
  case stopEnd o =>
    split
    · unfold St.stopEnd St.stopDone
      (repeat' split) <;> simp [h0, hc]
    · exact h0
  all_goals (repeat' split) <;> simp [h0, hc]

theorem exec_append (s : St) (a b : List Op) : s.exec (a ++ b) = (s.exec a).exec b := by
  simp [St.exec, List.foldl_append]

end Verif.Lifecycle
