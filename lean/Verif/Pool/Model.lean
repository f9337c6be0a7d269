/-
Model of the actor pool, `actors/src/pool.rs`.

The pool is an actor, so it does one thing at a time; its workers and the actors behind them run on their
own. A worker is the wrapper actor `Worker<A>` (L227-260); behind each worker is an actor made by the factory,
the inner actor. Nobody but the pool has references to the workers.
-/

namespace Verif.Pool

/-- A message on its way through the pool: `WorkerMsgWrapper` (`actors/src/pool.rs` L238-241). -/
structure Job where
  /-- ghost: the number of the pool's request this message belongs to. -/
  no : Nat
  m : Nat
  /-- there is a reply sender. -/
  ask : Bool
  deriving DecidableEq, Repr

/-- A worker, with the pool's load counter for it (`Arc<()>`, `actors/src/pool.rs` L71). -/
structure Worker where
  id : Nat
  /-- its mailbox takes messages: it has not stopped. -/
  isOpen : Bool := true
  /-- the inner actor is running. -/
  inner : Bool := true
  /-- messages in its mailbox. -/
  queue : List Job := []
  /-- the message its handler is working on. -/
  cur : Option Job := none
  /-- `Arc::weak_count` of the load counter. -/
  weak : Nat := 0
  /-- ghost: messages its handler is done with. -/
  fin : List Job := []
  /-- ghost: messages it had when it stopped. -/
  lost : List Job := []
  deriving DecidableEq, Repr

/-- What the pool is doing. The suspension points of `Message<Dispatch<M>>::handle`,
`Message<Broadcast<M>>::handle` and `on_link_died`, `actors/src/pool.rs` L183-224, L312-361,
L375-405. -/
inductive Phase where
  | idle
  /-- at the head of the loop of `Dispatch`, `actors/src/pool.rs` L318, with `left` rounds to go. -/
  | trying (j : Job) (left : Nat)
  /-- waiting for room in the mailbox of worker `i`, `actors/src/pool.rs` L322-325 or L343. -/
  | sending (j : Job) (left : Nat) (i : Nat)
  /-- in the `join_all` of `Broadcast`, `actors/src/pool.rs` L380-404; `res` has the results so far. -/
  | casting (no m : Nat) (res : List (Option Bool))
  /-- the pool has stopped. -/
  | stopped
  deriving DecidableEq, Repr

/-- How a dispatch ended. `WorkerReply`, `actors/src/pool.rs` L264-273. -/
inductive Outcome where
  /-- `WorkerReply::Forwarded`. -/
  | forwarded
  /-- `WorkerReply::Err(SendError::ActorNotRunning(m))`. -/
  | notRunning (m : Nat)
  /-- the handler panicked. -/
  | panicked
  deriving DecidableEq, Repr

/-- `ActorPool`, `actors/src/pool.rs` L70-74, with the workers' mailboxes and ghost history. -/
structure St where
  workers : List Worker
  phase : Phase := .idle
  /-- ids for new workers. -/
  next : Nat
  /-- ghost: the number of requests so far. -/
  reqs : Nat := 0
  /-- ghost: every message a worker's mailbox accepted, with the id of the worker. -/
  delivered : List (Job × Nat) := []
  /-- ghost: the finished dispatches. -/
  outs : List (Job × Outcome) := []
  /-- ghost: the finished broadcasts: number, message, ids of the workers, results. -/
  casts : List (Nat × Nat × List Nat × List Bool) := []
  /-- ghost: the answers to the asks that a worker finished. `false` is an error. -/
  answers : List (Nat × Bool) := []
  deriving DecidableEq, Repr

/-- `ActorPool::new`, `actors/src/pool.rs` L94-121 (`new_async`, L126-154, does the same): panics if the size is zero, or if a
worker's mailbox would get capacity zero (`mailbox::bounded(tx.capacity())`, where `capacity` of the inner
actor's channel is the room it has left). `zero` has an entry per worker which says whether it would. The
link of the workers to the pool, L175-181, is in `Verif/System`. -/
def new (zero : List Bool) : Option St :=
  if zero = [] ∨ true ∈ zero then none
  else some { workers := (List.range zero.length).map (fun i => { id := i }), next := zero.length }

/-- The loop of `Iterator::min_by_key`: the first of the smallest. `best` is the index and key of
the best so far, `i` the index of the head of the list. `actors/src/pool.rs` L157-159. -/
def minFrom (best key i : Nat) : List Nat → Nat
  | [] => best
  | x :: xs => if x < key then minFrom i x (i + 1) xs else minFrom best key (i + 1) xs

/-- `next_worker`, `actors/src/pool.rs` L156-162, as an index. The pool has workers, so the `expect` does not fail. -/
def nextWorker (ws : List Worker) : Nat :=
  match ws.map (·.weak) with
  | [] => 0
  | x :: xs => minFrom 0 x 1 xs

/-- A worker's mailbox accepts a message. The send at `actors/src/pool.rs` L322-325, L342,
L387-392. -/
def Worker.push (w : Worker) (j : Job) : Worker := { w with queue := w.queue ++ [j] }

/-- A worker stops: its mailbox closes and what it had is dropped, and with it the weak counters.
`counter` is in the message, `actors/src/pool.rs` L238-241. -/
def Worker.close (w : Worker) : Worker :=
  { w with
    isOpen := false
    queue := []
    cur := none
    weak := w.weak - (w.queue.length + w.cur.toList.length)
    lost := w.lost ++ w.cur.toList ++ w.queue }

/-- `List.modify` at `i`. Bookkeeping for `self.workers[i]`, `actors/src/pool.rs` L201. -/
def St.upd (s : St) (i : Nat) (f : Worker → Worker) : St := { s with workers := s.workers.modify i f }

/-- The mailbox of worker `i` accepts `j`; `delivered` notes it. `actors/src/pool.rs` L322-325,
L342. -/
def St.deliver (s : St) (i : Nat) (j : Job) : St :=
  match s.workers[i]? with
  | some w => { s.upd i (·.push j) with delivered := s.delivered ++ [(j, w.id)] }
  | none => s

/-- The send to worker `i` failed because its mailbox is closed: the counter is dropped with the message. For
an ask (`actors/src/pool.rs` L320-338) `forward` panics, see `Verif/Request/Props.lean` `forward_panics`, and the pool, which
does not override `on_panic`, stops. For a tell (L341-353) the message comes back and the loop goes on. -/
def St.refused (s : St) (j : Job) (left i : Nat) : St :=
  let s := s.upd i (fun w => { w with weak := w.weak - 1 })
  if j.ask then { s with phase := .stopped, outs := s.outs ++ [(j, .panicked)] }
  else { s with phase := .trying j left }

/-- The messages of the pool (`actors/src/pool.rs` L302-405), steps of its handlers, of its
workers (L243-260) and of the actors behind them. -/
inductive Op where
  /-- the pool takes a `Dispatch` from its mailbox. -/
  | dispatch (m : Nat) (ask : Bool)
  /-- one round of the loop, up to the first suspension; `room`: the mailbox of the worker has room now.
  Simplification: the capacity of the mailbox is left out, whether it has room is up to the environment. -/
  | attempt (room : Bool)
  /-- the pending send is polled. -/
  | pollSend (room : Bool)
  /-- the pool takes a `Broadcast` from its mailbox. -/
  | broadcast (m : Nat)
  /-- the send to worker `i` is polled. -/
  | pollCopy (i : Nat) (room : Bool)
  /-- the `join_all` returns. -/
  | broadcastEnd
  /-- the pool is told that an actor linked to it died. `upgraded`: its own reference could be upgraded;
  `zeroCap`: the new inner actor's mailbox is bounded and full. -/
  | linkDied (id : Nat) (upgraded zeroCap : Bool)
  /-- worker `i` starts to handle the next message. -/
  | take (i : Nat)
  /-- the handler of worker `i` returns `Ok` or `Err`. -/
  | done (i : Nat) (ok : Bool)
  /-- worker `i` stops for another reason. -/
  | die (i : Nat)
  /-- the inner actor of worker `i` stops. -/
  | innerDie (i : Nat)
  deriving DecidableEq, Repr

/-- `actors/src/pool.rs` L175-405. -/
def St.step (s : St) : Op → St
  | .dispatch m ask =>
    match s.phase with
    | .idle =>
      -- L318: one round per worker
      { s with phase := .trying ⟨s.reqs, m, ask⟩ s.workers.length, reqs := s.reqs + 1 }
    | _ => s
  | .attempt room =>
    match s.phase with
    | .trying j 0 =>
      -- L360: the reply is an error. Nobody gets it: on a tell there is no reply sender, so the error counts
      -- as a failure of the handler (`src/message.rs` L300-304), and the pool stops.
      { s with phase := .stopped, outs := s.outs ++ [(j, .notRunning j.m)] }
    | .trying j (left + 1) =>
      let i := nextWorker s.workers
      -- L161: the counter is downgraded
      let s := s.upd i (fun w => { w with weak := w.weak + 1 })
      match s.workers[i]? with
      | none => s
      | some w =>
        if !w.isOpen then s.refused j left i
        else if room then { s.deliver i j with phase := .idle, outs := s.outs ++ [(j, .forwarded)] }
        else { s with phase := .sending j left i }
    | _ => s
  | .pollSend room =>
    match s.phase with
    | .sending j left i =>
      match s.workers[i]? with
      | none => s
      | some w =>
        if !w.isOpen then s.refused j left i
        else if room then { s.deliver i j with phase := .idle, outs := s.outs ++ [(j, .forwarded)] }
        else s
    | _ => s
  | .broadcast m =>
    match s.phase with
    | .idle =>
      -- L380-391: all the counters are downgraded while the futures are made
      { s with
        phase := .casting s.reqs m (s.workers.map (fun _ => none))
        workers := s.workers.map (fun w => { w with weak := w.weak + 1 })
        reqs := s.reqs + 1 }
    | _ => s
  | .pollCopy i room =>
    match s.phase with
    | .casting no m res =>
      match res[i]?, s.workers[i]? with
      | some none, some w =>
        if !w.isOpen then
          { s.upd i (fun w => { w with weak := w.weak - 1 }) with phase := .casting no m (res.set i (some false)) }
        else if room then
          { s.deliver i ⟨no, m, false⟩ with phase := .casting no m (res.set i (some true)) }
        else s
      | _, _ => s
    | _ => s
  | .broadcastEnd =>
    match s.phase with
    | .casting no m res =>
      if none ∈ res then s
      else { s with phase := .idle, casts := s.casts ++ [(no, m, s.workers.map (·.id), res.filterMap id)] }
    | _ => s
  | .linkDied id upgraded zeroCap =>
    -- `on_link_died`, L183-224
    match s.phase with
    | .idle =>
      if !upgraded then s
      else
        match s.workers.findIdx? (fun w => w.id == id) with
        | none => s
        | some i =>
          -- the panic of `mailbox::bounded(0)` is caught in `src/actor/kind.rs` L133-149, the pool stops
          if zeroCap then { s with phase := .stopped }
          else { s with workers := s.workers.set i { id := s.next }, next := s.next + 1 }
    | _ => s
  | .take i =>
    match s.workers[i]? with
    | some w =>
      match w.cur, w.queue with
      | none, j :: q => s.upd i (fun w => { w with cur := some j, queue := q })
      | _, _ => s
    | none => s
  | .done i ok =>
    match s.workers[i]? with
    | some w =>
      match w.cur with
      | some j =>
        if ok && !w.inner then s
        else
          let s := s.upd i (fun w => { w with cur := none, weak := w.weak - 1, fin := w.fin ++ [j] })
          if j.ask then { s with answers := s.answers ++ [(j.no, ok)] }
          -- on a tell an error is a failure of the handler: the worker, which does not override `on_panic`, stops
          else if !ok then s.upd i Worker.close
          else s
      | none => s
    | none => s
  | .die i => s.upd i Worker.close
  | .innerDie i => s.upd i (fun w => { w with inner := false })

/-- `St.step` along a list (`actors/src/pool.rs` L175-405). -/
def run (s : St) (ops : List Op) : St := ops.foldl St.step s

/-- The pool after `ops`; `none` if `new` panicked. `actors/src/pool.rs` L94-121. -/
def after (zero : List Bool) (ops : List Op) : Option St := (new zero).map (run · ops)

end Verif.Pool
