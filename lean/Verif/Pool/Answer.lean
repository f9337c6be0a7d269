import Verif.Request.Model

/-
What the asker of a pool gets, with the types: `actors/src/pool.rs` L243-300 and L312-361. The types are those of
`Verif.Request`.
-/

namespace Verif.Pool

open Verif.Request
open Verif.Mailbox (Why)

/-- What the handler of a `Worker<A>` puts in the reply channel for a message of type `m`: its reply is what
`self.actor_ref.ask(msg).await` returned, of type `Result<R::Ok, SendError<M, R::Error>>` where `R` is the reply type of the
actor (`actors/src/pool.rs` L243-260), and goes through `ReplySender::send` (`src/message.rs` L297-299). -/
def workerPacket (m : Ty) (r : RTy) (a : Except (SendError m.Sem r.err.Sem) r.ok.Sem) : Packet :=
  packet r.ok (.sendError m r.err) a

/-- What the asker of the pool makes of it: the reply type of `Dispatch<M>` is `WorkerReply<A, M>`, with `Ok = R::Ok` and
`Error = R::Error`, which takes `downcast_ok` and `downcast_err` as they are (`actors/src/pool.rs` L275-300, L302-311,
`src/reply.rs` L103-110): that is what a `Result<R::Ok, R::Error>` does. The reply channel is handed on unchanged
(`forward`, `src/request/ask.rs` L249-283). `n` is the type of the asker's message. -/
def poolAnswer (n m : Ty) (r : RTy) (a : Except (SendError m.Sem r.err.Sem) r.ok.Sem) :
    Out (Except (SendError n.Sem r.err.Sem) r.ok.Sem) :=
  decode n (.plain r.ok r.err) (workerPacket m r a)

/-- What `Broadcast` makes of the result of a copy: the tell to the worker has a `WorkerMsgWrapper`, a pair of the message
and the counter, which `map_msg` takes off; an error of a handler would panic, and a tell has none
(`actors/src/pool.rs` L385-401). `c` is the type of the counter. -/
def copyError {m c e : Ty} (x : SendError (Ty.tuple m c).Sem Empty) : SendError m.Sem e.Sem :=
  ((x.mapMsg (fun p => p.1)).mapErr (F := SendError m.Sem e.Sem) nofun).flatten

/-- One result of a broadcast. `why` is what the mailbox of the worker said (`none`: accepted). `actors/src/pool.rs`
L385-401. -/
def copyResult (m c e : Ty) (x : m.Sem) (k : c.Sem) (why : Option Why) : Out (Except (SendError m.Sem e.Sem) Unit) :=
  (tell (.tuple m c) (x, k) why).map (fun r => match r with
    | .ok () => .ok ()
    | .error err => .error (copyError err))

end Verif.Pool
