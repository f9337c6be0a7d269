# Formal model of kameo: design

The model is in Lean 4 under `lean/Verif/`. The code is read as text only; it is never
built or run. This file says what is modelled, how each property of
`properties.jsonl` is proved, where code and property disagree, and what is trusted.

## Trusted base

* Lean's kernel, and the axioms `propext`, `Classical.choice`, `Quot.sound` (each
  property theorem depends on a subset of these; `AXIOMS.txt` lists, for every theorem of
  `MANIFEST.json`, what Lean's `#print axioms` prints). No axiom is added; no `sorry`,
  `native_decide` or `bv_decide`.
* The reading of the code: each definition cites the lines of `/repo` it models.
* Library behaviour assumed, and written down as model definitions:
  * tokio `mpsc` (bounded / unbounded): FIFO queue, fair semaphore for capacity, a freed
    slot is handed to the first waiter, a closed channel fails all waiters
    (`Verif/Mailbox/Model.lean`);
  * tokio `oneshot`: at most one value; dropping the sender makes the receiver fail;
  * `futures::Abortable`: after `abort` the wrapped future is not polled again, it is
    dropped (`Verif/Lifecycle/Model.lean`);
  * `catch_unwind` catches a panic of the future it wraps; a panic outside it unwinds the
    actor's task, dropping what the task owns;
  * `tokio::sync::Mutex`: mutual exclusion, no re-entrance, first come, first served (link sets). tokio's budget may make
    a task yield before a `lock()` has been requested: the theorems for one thread (`Locks/Props.lean`,
    `Locks/OneThread.lean`) suppose that it does not do so between the two requests of one `join!`;
  * `std::sync::Mutex`: mutual exclusion; a panic that passes a guard releases and poisons the lock; locking a
    mutex one holds oneself waits (`Verif/PanicLock/Model.lean`);
  * tokio's places (`Verif/Blocking/Model.lean`): `blocking_send`, `blocking_recv`, `blocking_lock` and
    `block_on` panic in a thread that polls futures of a runtime; `tokio::spawn`, `spawn_blocking` and
    `Handle::current` panic without a runtime; `block_in_place` needs the multi-threaded one;
  * `HashMap` = finite map, iteration in an unspecified order;
  * `OnceLock` = write-once cell; `AtomicUsize::fetch_add` is atomic; `OnceCell::try_insert` sets the cell or finds
    it set, in one step;
  * `FuturesUnordered` polls its futures in the order in which they were pushed or woken (`Verif/Boot/Ending.lean`);
  * `libp2p`: request ids and query ids are fresh; a response event carries the id of the request it
    answers; a request arrives at most once; there is one response channel per inbound request; `PeerId` bytes decode to the same
    peer and are not empty; `kad::Behaviour::put_record` stores the record locally with this node as
    publisher before it starts the query; `remove_record` removes only records this node published;
    `Record::new` sets no publisher; records of other nodes are stored unfiltered; `MemoryStore::put`
    may refuse. Everything else (which events happen, when, with which contents) is arbitrary;
  * serde and its formats: what the derived code makes of a value is a tree of variants, strings and
    bytes, which CBOR carries faithfully (`Verif/Wire/Model.lean`). Of `rmp_serde` (payloads) nothing
    is assumed, except where a theorem says that a codec round-trips;
  * the text of a `libp2p::PeerId`: letters and digits without `l`, different for different ids (base 58,
    `Verif/Wire/Text.lean`);
  * `{:?}` of a `str` (standard library): begins with a quote and shows where it ends (hypothesis `StrDebug` in `Wire/TextDebug.lean`,
    instance `plainQuotes`);
  * `glob::Pattern::matches_with`: any relation between patterns and topics
    (`Verif/Router/Model.lean`). The matching itself is not modelled;
  * `syn` parses Rust; `heck`'s upper camel case is any function (`Verif/Macros/Model.lean`); Rust rejects
    undeclared, repeated and unused generic parameters;
  * `Any::downcast` compares types; a `Box<dyn Any>` is a value with the code of its type
    (`Verif/Request/Model.lean`).
* Rust semantics used: drop of the unmoved fields of a partially moved variable at the end
  of its scope; `?` on `ControlFlow`; `unwrap`/`expect`/`todo!` panic.

User code (handlers, hooks, factories, filters) is not restricted: its outcome is carried
by the operation (schedule event) which completes it, so a theorem quantified over all
operation lists covers every user program and every schedule.

## Not modelled

Memory safety, performance, wall-clock time (a time-out is an event which may happen at
any moment while waiting; only `Verif/Timed` has a clock), the tokio scheduler (liveness is proved as "once no step is
enabled", "after enough actor steps", or over infinite executions under the hypothesis
`Fair` of `Verif/Lifecycle/Live.lean`, `Verif/System`, `Verif/Swarm/Live.lean` or `Verif/Calls/Live.lean`, never as real time), tracing, the
tokens, spans, bounds and `where` clauses in the macros, libp2p internals and transport security.

## Modules

Each directory has a `Model.lean` (definitions that cite `/repo`), files of lemmas, and files whose
names begin with `Props` (or are listed here) with the property theorems. Beside each property theorem
stands an `example`: a concrete history that meets its hypotheses.

| module | models | properties |
|---|---|---|
| `Verif/Map`, `Verif/Util` | finite maps (`HashMap`) and list lemmas | |
| `Verif/Mailbox` | `src/mailbox.rs` over tokio mpsc | C01, C16–C19 |
| `Verif/Lifecycle` | `src/actor/spawn.rs`, `src/actor/kind.rs`, hooks of `src/actor.rs`, reply slots of `src/message.rs` and `src/request/ask.rs`; `Outcome.lean`: `PanicError`, result observers, error hook; `Turn.lean`, `Barrier.lean`: order of messages and news of deaths; `CrashExact.lean`: what makes a task die, the result observers panic and the error hook miss an error; `WaitExact.lean`: `wait_for_stop`, `stop_gracefully`; `Told.lean`, `ToldExact.lean`: what askers are told | C01–C16, C18, C19, C23, C28–C31, C39, C54, C60, C61, C63–C65, C74, C82–C84 |
| `Verif/System` | many actors with links: `link`/`unlink`, death notifications, default `on_link_died`; `Live.lean`, `PropsLive.lean`, `LiveEx.lean`, `PropsCircle.lean`: infinite fair executions (`SysFair`, `Through`), circles of stopping actors; `Honoured.lean`: links from the call of `link` on; `ComponentStart.lean`: what a failure takes down when links are older than the actors; `LastWords.lean`: messages of a dying actor and the news of its death; `Unlinked.lean`: from the call of `unlink` on; `TellExact.lean`: exactly who is told of an end; `Forgotten.lean`, `ForgottenExact.lean`: how long the dead stay in link sets, and which of them exactly | C22–C25, C27, C71, C87, C99, C101 |
| `Verif/Locks` | order in which `link`/`unlink` take the locks; `Circle`: calls that do not complete wait in a circle, links along a tree complete; `Ring`: links around a ring can deadlock | C26 |
| `Verif/Request` | `SendError` and conversions, `ask`/`tell`/`enqueue`/`forward` result mapping, reply decoding; `Forward.lean`: the reply methods of `Context`, `handle_dyn`, chains of forwards; `HandleExact.lean`: exactly what makes kameo panic | C12, C15, C16, C20, C21, C36, C37, C62 |
| `Verif/Registry` | `src/registry.rs` | C32 |
| `Verif/ActorId` | `src/actor/id.rs`; `StableExact.lean`: exactly what bootstrapping changes | C33–C35 |
| `Verif/Stream` | `ActorRef::attach_stream`; `Outcome.lean`: what its task returns; `Exact.lean`: which messages of a stream the actor does not get; `BackExact.lean`: when the stream comes back | C38, C94 |
| `Verif/Current` | `CURRENT_ACTOR_ID`, `is_current`, ways to start an actor | C55 |
| `Verif/Hook` | way from mailbox to user code, `on_message` | C56 |
| `Verif/Pool` | `actors/src/pool.rs`; `Upgrade.lean`: the upgrade in its `on_link_died`; `Answer.lean`: the types of its replies | C40–C43, C96 |
| `Verif/PubSub` | `actors/src/pubsub.rs`; the same step by step, with the subscribers' mailboxes, dropped publishes and filters that panic (`Slow`) | C44, C81, C103 |
| `Verif/Router` | `actors/src/broker.rs`, `actors/src/message_bus.rs`; the order of deliveries (`Order`) | C45–C47, C103 |
| `Verif/Wire` | serde of `ActorStopReason`, `PanicError`, `RemoteSendError`; `Text.lean`, `PropsText.lean`: what errors, reasons and ids print (`src/error.rs` L240-268, L393-407, L574-621, L647-678, L746-751, `src/actor/id.rs` L161-187); `TextDebug.lean`: `Debug` of `RemoteSendError`, `RegistryError`, `PanicError`, texts of `BootstrapError` and `ActorIDFromBytesError` (L328-407, L411-466, L753-773, L797-821) | C53, C91 |
| `Verif/Remote` | `src/remote.rs`, `src/remote/_internal.rs`, remote `ask`/`tell`, remote links; `Order.lean`: many remote tells under way; `Flight.lean`, `PropsFlight.lean`: many links, unlinks and deaths under way (`src/actor/actor_ref.rs` L589-618, L708-725, `src/remote/_internal.rs` L225-300, `src/actor/spawn.rs` L515-567); `Asks.lean`, `AsksInv.lean`, `PropsAsks.lean`, `AsksTold.lean`: many remote asks to one actor under way (`src/request/ask.rs` L785-833, `src/remote/swarm.rs` L611-649, L868-891, L962-993, with the actor of Lifecycle) | C48, C52, C57, C85, C90, C95 |
| `Verif/Locks/Registry` | the lock of `REMOTE_REGISTRY` together with those of link sets: sweeps for closed connections, requests, ends, links; `OneThread`: the same where no poll is interrupted; `Guards`: whoever works has the locks | C67 |
| `Verif/Listed` | `REMOTE_REGISTRY` over the lifetime of actors: `register`, `link_remote`, the end of a task | C66 |
| `Verif/Boot` | bootstrapping, `src/remote/swarm.rs` L33, L66-183, L227-229, L999-1019 (`Model`, `Inv`, `Order`, `Props`, `PropsSolo`); the end of an actor's task and the swarm, `src/actor/spawn.rs` L517-590 (`Ending`, `PropsEnding`, `EndingExact`) | C92, C93 |
| `Verif/Swarm` | `src/remote/swarm.rs`: registration records (`Record`), the swarm task (`Model`), lost connections (`Peers`; the task for one step by step, `Sweep`), link-died signals in mailboxes and `on_link_died` (`Relink`), names (`PropsNames`, `NamesExact`, `DeadExact`), several nodes (`Network`), what a node does with a request (`Serve`), requests to the node itself (`OwnNode`), infinite executions (`Live`) | C49–C52, C57–C59, C80, C86, C100 |
| `Verif/Reply` | The implementations of the trait `Reply` (`src/reply.rs`: `Result`, `impl_infallible_reply!`, `DelegatedReply`, `ForwardedReply`; `#[derive(Reply)]`), their associated types and the way of a reply to the asker or to `on_panic`. Not modelled: the bounds `Send` and `'static` | C79 |
| `Verif/Macros` | `#[messages]` (`macros/src/messages.rs`) as a function on syntax trees; the attributes of `derive(Actor)` and `derive(RemoteActor)`; what `#[remote_message]` and `derive(RemoteActor)` generate, and what of a program ends up in the tables of a node | C68–C70, C78 |
| `Verif/Handles` | `ActorRef`, `WeakActorRef`, `Recipient`, `WeakRecipient`, mailbox senders, and the counts of senders | C72 |
| `Verif/Timed` | the request builders (`src/request.rs`, `ask.rs`, `tell.rs`) and their time-outs, with a clock over the mailbox | C73 |
| `Verif/Calls` | requests between actors: handlers as programs that tell and ask (`src/request/ask.rs`, `src/request/tell.rs`, `src/actor/kind.rs`), fair infinite executions, deadlocks and the warnings of them; `Causal.lean`: causal order | C75, C102 |
| `Verif/Next` | an actor that overrides `Actor::next` (`src/actor.rs` L253-265): the loop around it (`src/actor/spawn.rs` L412-658, `src/actor/kind.rs`) and the `MailboxReceiver` it is given, reply senders that handlers take, asks given up, kills before the loop, torn down tasks; what `next` does is carried by the operations | C76 |
| `Verif/Plain` | nothing new: the two models of an actor, `Verif/Lifecycle` (default `next`) and `Verif/Next` (any `next`), show the same lives if `next` takes one signal and returns it (`src/actor.rs` L259-265); simulations in both directions, for every mailbox capacity and every history | C77 |
| `Verif/Blocking` | the blocking methods of requests and links and the spawn functions, by the place they are called in (`src/request/ask.rs` L453-574, `src/request/tell.rs` L124-140, `src/message.rs` L227-257, `src/actor/actor_ref.rs` L553-565, L675-684, `src/actor/spawn.rs` L380-411) | C88 |
| `Verif/PanicLock` | the mutex in `PanicError` and the closures run under it, by any number of threads (`src/error.rs` L679-751, `src/actor/actor_ref.rs` L307-317, L396-406); `Exact.lean`: exactly which looks can return | C89 |
| `Verif/GiveUp` | the futures of the `async` functions, dropped where they wait: requests, `stop_gracefully`, `link`, `unlink`, `spawn_link`, `link_remote`, `unlink_remote`, `register`, `unregister` (`src/actor/actor_ref.rs` L112-120, L210-212, L514-725, `src/actor/spawn.rs` L126-140, `src/remote/swarm.rs` L351-456, `src/request/tell.rs` L78-98, L368-409, `src/request/ask.rs` L107-157, L785-833) | C97 |
| `Verif/Atomic` | all calls that touch link sets, action by action under their locks (`src/actor/actor_ref.rs` L514-565, L610-613, L637-684, L720, L839-853, L1292-1306, `src/actor/spawn.rs` L518-561, `src/actor/kind.rs` L140, `src/remote/_internal.rs` L243-247, L271, `src/remote/swarm.rs` L800-813); `System`: the model of many actors makes the same calls at one moment | C98 |

## Plan per property

Shapes: **I** invariant by induction over all operation lists, **R** refinement to a small
specification, **A** algebraic law, **D** decision logic, **N** negation with a concrete
witness because the code violates the property (then a `_partial` theorem states what
does hold).

* C01 (I, Lifecycle): handled lists are sublists of the accepted list, per origin; after
  start-up overall.
* C02 (I, Lifecycle): the event log is well bracketed.
* C03 (I, Lifecycle+Mailbox): handled has no duplicates and is contained in accepted.
* C04 (I, Lifecycle): event log starts with the on_start bracket and has one.
* C05 (I + N, Lifecycle): holds when the start-up signal fits in the mailbox; negation for
  a full mailbox.
* C06 (I + N): conservation accepted = handled + dropped + pending; dropped empty unless a
  failure/kill; negation for the start-up buffer.
* C07 (I): handled never grows after the loop is left.
* C08 (I + N): proved when nothing is buffered; negation with a forgiving on_panic.
* C09 (I/D): after kill the next actor step leaves the loop with Killed.
* C10 (I): event log has at most one on_stop, last, with the reason that is returned.
* C11 (I): provenance against the event log.
* C12 (D + I): transition of a completed handler.
* C13 (I + N): conservation outside a start-up drain; negation in the drain.
* C14 (I): when stopped, each ask slot is resolved or delegated.
* C15 (I): slots change at most once and agree with the handler log.
* C16 (I + D): Request/Mailbox.
* C17, C18 (I): Mailbox.
* C19 (I): Mailbox and Lifecycle.
* C20, C21 (N + D): Request.
* C22 (I): System. C23 (I + N for failed start). C24, C25 (I + closure); C24 also with links made before the start: `System/ComponentStart.lean` (spec: `Reach`).
* C26 (N + partial): Locks. C27 (N + partial): System.
* C28 (I + N). C29, C30 (I): Lifecycle. C31 (I + N): Lifecycle.
* C32 (R): Registry. C33–C35 (A/I + N): ActorId.
* C36 (A): Request. C37 (A + N): Request. C38 (I), C94 (I + N): Stream. C39 (I/D): Lifecycle.
* C40–C43 (I/D, N for C42): Pool. C44: PubSub. C45, C46: Router. C47: delivery
  strategies. All refinement to a relation "who is subscribed".
* C48 (D): Remote. C49 (A + N), C50 (I), C51 (D + N): Swarm. C52 (N + partial): Remote.
* C53 (A + N): Wire. C54 (N + partial): Lifecycle. C55 (I): Current. C56 (N): Hook.
* C57 (I): Remote. C58 (I + N): Swarm. C59 (I): Swarm.
* C62 (A + N): Request. C63, C64 (I + N), C65 (A + N): Lifecycle, `Outcome.lean`.
* C66 (I + N): Listed, and Listed/Exact (who is listed after the end, exactly).
* C67 (I + N): Locks/Registry.
* C68 (I), C69 (I + N), C70 (D), C78 (I + N): Macros.
* C79 (I + N): Reply.
* C80 (I + N): Swarm, `Relink`; which links survive exactly, `RelinkExact`.
* C81 (I, also for infinite executions, + N; R to the one-step model of C44): PubSub, `Slow.lean`.
* C82 (I + N): Lifecycle, `Turn.lean`, `Barrier.lean`.
* C83, C84 (I + N): Lifecycle, `Told.lean`; `ToldExact.lean`: exactly what each asker is told.
* C85 (I + N): Remote, `Order.lean`.
* C86 (D + N): Swarm, `OwnNode.lean`.
* C87 (I + N): System, `Unlinked.lean`.
* C88 (D + N): Blocking.
* C89 (D + N): PanicLock; each thread's looks are compared with those of its program alone; termination by the order of nested locks.
* C90 (I + N): Remote/Flight; invariant: all calls of a pair under way are of the kind of the last one, and what they have written says so.
* C91 (D + N): Wire, `Text.lean`; texts as lists of characters, taken apart at a character that cannot occur before it.
* C92 (I + N): Boot, `Model.lean`; the cell, the calls under way and a history; invariants of the state and of the order of the history.
* C93 (I + N): Boot, `Ending.lean`; the futures of the links as a queue, counted; the shape of the queue while the swarm is gone.
* C95 (I + N): Remote/Asks; the actor is that of Lifecycle run on the history the requests and everything else make; invariant: each request's only send and where its answer came from.
* C96 (D + N): Pool/Answer; what the worker puts in the reply channel and what the asker makes of it, with the types of Request.
* C97 (D + N): GiveUp; a call is a list of segments between waits. Histories with and without the steps of a call are compared by simulation; what a call has done is an invariant of where it is. That the world is exactly what was done, in that order, is the journal (`GiveUp/Journal.lean`).
* C98 (D): Atomic; the order is that in which the calls begin to work. Invariant: every link set, with what its holder has still to do with it, is what the calls that have begun make of it one at a time.
* C99 (I + N): System, `LastWords.lean`. Invariant: news of a death was only ever sent by an actor whose `on_stop` is over; accepted signals stay where they are.
* C100 (I over infinite executions): Swarm, `Live.lean`. Its `Fair`: libp2p ends each query and request, spawned tasks end, a living swarm task takes commands. A step ends nothing but what it is about (`step_kept`); with `Inv.exactly_one` everybody moves on.
* C101 (I, + infinite executions, + N): System, `Forgotten.lean`. Whoever is in a link set got there by a last `link` (`last_join`), to which `link_honoured_partial` applies.
* C102 (I, infinite executions): Calls, `Causal.lean`. Lamport's relation on the steps of an execution goes forward in it; a request that came back is in the mailbox; mailboxes are first in, first out.
* C103 (I + N): PubSub and Router, `Order.lean`. What a subscriber handled is a sublist of what was requested; with strategies that wait, outcomes are sorted by publish and parted by every moment without a publish under way; spawned tasks are done in any order.
* C71 (I + N, also for infinite executions): System, `Honoured.lean`. C72 (I + N): Handles.
* C73 (D for the builders, I for requests in time, N for a sentence of the documentation): Timed. C74 (I + N): Lifecycle,
  `PropsWait.lean`. C75 (I over infinite executions, N for the warnings): Calls, with its own `Fair` (`Calls/Live.lean`). C76 (I + N; the
  order of calls is an automaton that reads the log, `Next/Log.lean`): Next. C77 (R, both ways): Plain.
* C60 (I + N), C61 (I), and the liveness parts of C08, C09, C14, C18: Lifecycle, over infinite
  executions. `Fair` (`Live.lean`) assumes that a task with something to do takes its next step
  (user code returns, notifications of links get through), that an abort wakes the task, and that
  a sender given a slot of the mailbox runs. `LiveEx.lean` has a test for fairness of executions
  that come to rest, used for the examples.
* C23, C24, C27 also for infinite executions of whole systems: `SysFair` (`System/Live.lean`) is the same
  assumption for every task of the system, except that one which was prepared need never be spawned; each actor
  of such an execution has a fair execution of its own (`proj_fair`) if its notifications get through.

## Disagreements between code and property

In each of these the code at the pinned commit does not do what the English statement says. The
theorem named proves the failure in the model (for a concrete history, or for all states, as its
statement says); what does hold is in the theorems ending in `_partial`.

| property | what the code does | theorem |
|---|---|---|
| C05 | with a full mailbox at the end of `on_start`, or a stop request ahead, messages from outside overtake self-sent ones | `self_sent_overtaken_when_full`, `self_sent_overtaken_after_stop`; in every such case: `full_start_no_precedence`, `full_start_overtakes`, `stop_between_no_precedence`; exactly when: `self_sent_first_iff` |
| C06, C13, C38, C60 | a handler failing while the start-up buffer is drained loses the rest of the buffer | `startup_buffer_lost_on_graceful_stop`, `startup_buffer_lost_on_continue`, `accepted_message_never_handled`, `stream_items_lost`; exactly these messages: `only_those_behind_are_lost`, `accepted_message_handled_or_behind`, `behind_never_handled`, `graceful_stop_leaves_only_those_behind`, `outside_handled_exact`, `handled_all_but_those_behind`, `fallen_leaves_gap`; in every such case: `failure_in_drain_loses_rest`, `failure_loses_items` |
| C08 | a stop request is forgotten if the drain it starts fails and `on_panic` continues | `stop_request_forgotten`, `accepted_stop_never_ends`; in every such case: `stop_forgotten_on_continue`; in no other: `accepted_stop_ends_or_forgotten` |
| C20 | `enqueue` and `forward` panic if the mailbox refuses the message | `enqueue_panics`, `forward_panics`; exactly: `enqueue_panics_iff`, `forward_panics_iff` |
| C21 | `stop_gracefully` on a stopped actor panics | `stop_gracefully_on_stopped_actor_panics`; exactly: `stop_gracefully_panics_iff` |
| C23, C24 | an actor whose `on_start` fails does not notify its links | `failed_start_notifies_nobody`; in every such case: `failed_start_never_notifies`; exactly what goes down: `failure_takes_down_exactly_what_it_reaches_partial` |
| C26 | concurrent `link` calls deadlock | `opposite_links_deadlock`, `opposite_blocking_links_deadlock`, `ascending_links_deadlock`, `ring_deadlocks` (every ring), `can_deadlock_iff_ring` (exactly the rings) |
| C27 | two linked actors stopping at once with full mailboxes wait for each other for ever, also in a fair execution | `full_mailboxes_deadlock`, `stopping_actors_deadlock`, `fair_deadlock` |
| C28 | `wait_for_startup` hangs if the start-up signal is never received | `startup_wait_hangs_when_full`, `startup_wait_hangs_when_killed`, `startup_wait_hangs_when_stopped`; in every such case: `full_start_hangs`, `killed_start_hangs`; exactly: `startup_wait_iff` |
| C31 | dropping the last reference does not stop the actor | `unreferenced_actor_never_stops` |
| C34 | `ActorID::from_bytes` panics on fewer than 8 bytes | `from_bytes_panics_iff_short` |
| C35 | bootstrapping changes hash and equality of local ids | `bootstrap_changes_hash_and_equality`, `key_not_found_after_bootstrap`; exactly: `hash_changes_iff`, `equality_changes_iff` |
| C37 | a handler error forwarded over two hops panics the asker | `two_hops_error_panics`; exactly when: `asker_panics_iff` |
| C40 | the pool stops if the inner actor's mailbox is full when a worker is replaced | `full_inner_actor_stops_pool` |
| C42 | retries pick the same stopped worker | `stopped_worker_fails_dispatch`; a worker whose inner actor is gone gets and fails every ask: `asks_beside_dead_inner`; exactly when a dispatch gets through: `dispatch_gets_through_iff` |
| C45 | a subscriber found stopped stays under patterns that did not match, and is tried again by every publish that comes upon them (nothing is accepted: `broker_stopped_accepts_nothing`) | `stopped_kept_under_other_pattern` (every history) |
| C47 | a full recipient blocks the others under `Guaranteed` | `guaranteed_blocks`, `guaranteed_prevents` |
| C103 | with `Spawned` and `SpawnedWithTimeout` a later publish can overtake an earlier one to the same recipient, after any history | `broker_spawned_overtakes`, `bus_spawned_overtakes`, `broker_spawned_any_order` |
| C48 | mailbox and reply time-outs are conflated; a reply that cannot be decoded blames the message; without peers an actor of another node is `ActorNotRunning` | `timeouts_conflated`, `reply_decode_error_blames_message`, `no_peers_misreported` |
| C49 | a malformed, removed or refused record kills the swarm task | `malformed_record_panics`, `bad_record_kills_swarm`, `refused_record_kills_swarm`; exactly: `swarm_dead_iff` |
| C51 | a disconnection is signalled while other connections to the peer are open | `disconnect_signalled_while_connected`; in every such state: `signalled_while_connected` |
| C52 | a failed `link_remote` leaves one or both sides linked, a failed `unlink_remote` one side | `link_remote_error_own_side_linked`, `link_both_error_one_sided`, `unlink_remote_error_own_side_unlinked`, `unlink_both_error_one_side` |
| C53 | each hop puts another "panicked: " before a panic message; `Io` errors cannot be sent | `panic_message_grows`, `panic_message_never_survives`, `io_never_arrives` |
| C54 | panics of `on_panic` and `on_stop` escape | `panic_in_on_panic_escapes`, `panic_in_on_stop_escapes`; in every such case: `on_panic_panic_silences`, `on_stop_panic_silences`; these and the task being dropped are exactly the causes: `task_dies_iff` |
| C55 | code of an actor started with `run`, or polled inside another actor's scope, is not recognised | `self_send_not_recognised`, `other_actor_counts_as_self`, `local_task_counts_as_self`; in every such place: `inner_counts_as_outer` |
| C56 | `on_message` is never called | `hook_ignored` |
| C57 | without a swarm a stopping actor tells none of its remote links; a death signal that the network loses, or that arrives where the actor is not registered, is not sent again (`src/actor/spawn.rs` L538-556) | `no_swarm_no_death_signals`, `Flight.lost_notice_never_told` (every history) |
| C58 | `unregister` without peers does nothing; `register` takes over a name silently | `unregister_without_peers_does_nothing`, `register_takes_over`; exactly when unregistering works: `unregister_works_iff` |
| C59 | against a peer running other code a wrong-kind response panics the caller | `wrong_kind_panics`; in every state: `wrong_kind_always_panics` |
| C62 | a `DelegatedReply` (which is `Copy`) returned without taking the reply sender panics | `stale_marker_panics`; exactly: `handle_panics_iff` |
| C63 | `wait_for_startup_result` panics when `on_start` panicked, `wait_for_shutdown_result` when `on_stop` or `on_panic` panicked | `startup_result_panics`, `shutdown_result_panics`; exactly when: `startup_result_panics_iff`, `shutdown_result_panics_iff` |
| C64 | the hook hears of an error of `on_stop` only after all links have taken their notification, perhaps never | `hook_waits_for_links` (every history), `hook_missed_iff` (exactly) |
| C65 | a panic payload that is no string cannot be got back by its type | `panic_payload_hidden`; exactly: `panic_payload_iff` |
| C66 | an actor whose `on_start` fails, whose task is torn down, or whose registration is confirmed after its end stays in the remote registry for ever; `unregister` leaves the registry's reference in place; exactly which ended actors are still listed is `listed_after_end_iff` | `failed_start_stays_listed`, `torn_down_stays_listed`, `late_registration_stays_listed`, `unregister_keeps_reference` |
| C67 | the task for a closed connection waits for the locks of link sets while it holds the registry's lock (`src/remote/swarm.rs` L791-818); if two opposite `link` calls wait for each other (C26), it never ends, and no remote request, lookup, registration or end of an actor completes any more | `lost_connection_blocks_node` |
| C69 | `#[messages]` does not declare generic parameters mentioned inside path arguments (`Vec<T>`) nor constants, uses a parameter it does not declare if only the return type mentions it, declares one twice if another is in between, panics on a lifetime together with a type (no comma in `parse_quote!`), and implements for the last path segment with the block's parameters, whatever the arguments of the self type | `nested_generic_undeclared`, `const_generic_undeclared`, `returned_generic_mismatch`, `repeated_generic_declared_twice`, `lifetime_and_type_panics`, `implemented_for_other_type`; exactly: `implemented_for_block_iff` |
| C71 | `link` with an actor that has left its loop or is long gone succeeds silently and has no effect, ever; an actor whose `on_start` fails tells nobody | `link_too_late`, `failed_start_tells_nobody` |
| C72 | `Recipient::downgrade` is `todo!()` (`src/actor/actor_ref.rs` L1414-1416) and always panics, so there is never a `WeakRecipient`; `strong_count` counts recipients, `weak_count` counts links | `no_weak_recipient`, `counts_not_as_documented` |
| C73 | the documentation of `enqueue` and `PendingReply` (`src/request/ask.rs` L159-163, L593-597) says that the actor will not progress until the pending reply has been awaited or dropped; it does. The reply time-out of such a request does not run before it is awaited | `actor_goes_on_without_await`, `enqueue_time_out_runs_late` |
| C73 | `docs/core-concepts/requests.mdx` L18 says the mailbox time-out bounds the time a request waits in the queue; it bounds the wait for a free place only, and a message the mailbox has taken waits for any time | `mailbox_time_out_ends_with_acceptance` |
| C74 | the deprecated `ActorRef::wait_for_stop` ("renamed to `wait_for_shutdown`", `src/actor/actor_ref.rs` L346-353) calls `wait_for_startup`: it returns while the actor runs, and never returns if the actor stopped before it took its start-up signal | `wait_for_stop_returns_early`, `wait_for_stop_hangs`; exactly: `wait_for_stop_iff` |
| C75 | the deadlock warnings (`src/request/ask.rs` L115, L836-846; `src/request/tell.rs` L410-425) cover an actor's `send` to itself only: `ask(..).try_send()` to itself and two actors that ask each other hang for ever unwarned; the advice to use a `tell` instead of an ask hangs too if there are more tells than room | `hang_by_try_send_unwarned`, `hang_by_others_unwarned`, `self_tells_hang` (every history); exactly: `blocking_warned_iff` |
| C76 | a panic in an overridden `next` is caught by nobody (`src/actor/kind.rs` L70-72, `src/actor/spawn.rs` L628): neither `on_panic` nor `on_stop` is called, the links are not notified | `next_panic_no_hooks` |
| C76 | a `next` that returns `StartupFinished` a second time panics the task (`Semaphore::add_permits` beyond `MAX_PERMITS`, `src/actor/spawn.rs` L630) | `second_startup_crashes` |
| C76 | a `next` that calls `MailboxReceiver::close` makes `is_alive` false and `wait_for_shutdown` return while the actor still runs | `closed_while_running`, `alive_until_over_partial` |
| C76 | signals that `next` keeps in the actor's fields survive in the value returned by `PreparedActor::run`; their askers wait until it is dropped | `kept_ask_hangs`, `asks_settled` |
| C78 | `#[remote_message]` and `derive(RemoteActor)` on anything generic produce code that cannot compile (`A<T><T>`; parameters mentioned in a `static`); `#[remote_message]` does not look at which trait is implemented; a `RemoteActor` written by hand, as in the documentation, is not registered and answers every link, unlink and notice of a death with `UnknownActor` | `generic_remote_message_fails`, `derive_generic_fails`, `any_trait_is_accepted`, `manual_actor_not_linkable` |
| C79 | The documentation of `Reply` says it is implemented for all types of the standard library. `Duration` and `Weak` are not covered, nor are tuples with more than 26 components. `Reply::Value` may have other `Ok` and `Error` types than the reply itself; nothing checks it, and then every asker panics while the actor goes on | `not_all_of_std`, `tuple_replies`, `handwritten_can_panic` |
| C80 | `handle_link_died` removes the link after `on_link_died` has returned (`src/actor/kind.rs` L133-140). A link that is renewed while the hook runs, also by the hook itself, is lost; so is one renewed while a signal of the earlier loss waits in the mailbox. The call that renewed it returned `Ok`, and the other side stays linked Exactly which links survive: `link_survives_iff`. | `relink_in_hook_lost`, `old_news_cuts_new_link` |
| C81 | `publish` awaits the `tell`s to all subscribers together and without a time-out (`actors/src/pubsub.rs` L98-112), and the pubsub does nothing else meanwhile. One subscriber with a full mailbox that it does not empty keeps all others from every later message, and new subscribers out, for ever | `slow_subscriber_blocks_all` |
| C81 | "Actors can subscribe and unsubscribe dynamically" (`actors/src/pubsub.rs` L14): there is no way to unsubscribe, short of ending the actor | `nobody_can_leave` |
| C82 | While the actor starts, messages from outside are put aside (`src/actor/kind.rs` L104-113) and the news that a linked actor died is not. It overtakes messages accepted before it, and if `on_link_died` stops the actor, as the default does, they are all dropped, although they were ahead of the news | `news_overtakes_all`, `news_overtakes_message`, `news_drops_messages`, `early_end_drops_all` |
| C83 | `ActorStopped` is documented as "The actor panicked or was stopped before a reply could be received" (`src/error.rs` L92-93). A running actor causes it too: the handler of another message fails while the start-up buffer is worked off, which drops the rest of the buffer (`src/actor/kind.rs` L76-94); or a handler takes the reply sender and drops it, e.g. in a task that ends early | `buffered_told_stopped`, `dropped_told_stopped`, `told_stopped_of_running` |
| C84 | An error returned by the handler of an ask is the reply (`src/message.rs` L286-308); if the asker has given up, `let _ = self.tx.send(..)` (`src/reply.rs` L168-178) swallows it, and `on_panic` is not called either | `error_unheard` |
| C85 | Each incoming request is served by a `tokio::spawn`ed task (`src/remote/swarm.rs` L892-911), so remote tells that arrive in order can be handled in the other order; an `OutboundFailure` (L976-993) is reported while the request stays under way, so a failed remote tell can still be handled, even after a later one that returned `Ok` | `spawned_tasks_reorder`, `spawned_tasks_any_order`, `network_failure_says_nothing`, `retried_tell_overtakes` |
| C86 | Who serves a request depends only on `num_peers() == 0` (`src/remote/swarm.rs` L622, L660, L699, L729, L753), not on the peer it is for: with any peer connected, a request to an actor of the node itself goes to the network, addressed to the node, and no task serves it | `own_actor_out_of_reach`, `own_actor_not_always_served`; exactly: `own_actor_kept_iff` |
| C87 | An actor that leaves its loop drains its link set at once (`src/actor/spawn.rs` L517-560) and tells those in it after `on_stop` (L565); `handle_link_died` (`src/actor/kind.rs` L128-150) does not look at the link set. An `unlink` in between returns, both link sets are free of the other, and still the unlinked actor is told and, with the default `on_link_died`, stopped | `unlink_too_late`, `hook_ignores_links`, `unlinked_actor_dies_with_other` |
| C88 | tokio lets no thread block that polls futures. Every handler is run by such a thread, also with `spawn_in_thread` (`src/actor/spawn.rs` L408), so there the blocking methods panic: before the message is sent (bounded mailbox), after it (unbounded, `ask`). `Context::blocking_forward` is for handlers only. The examples of `spawn_in_thread` and `spawn_in_thread_with_mailbox` (L204-208, L256-259, `no_run`) need a current runtime for L399 and a thread that may block for `blocking_send` | `handlers_may_not_block`, `bounded_blocking_panics`, `ask_sent_then_panics`, `blocking_forward_loses_asker`, `doc_example_panics` |
| C89 | All clones of a `PanicError` share one mutex, and `with`, `with_str`, `with_downcast_ref` hold it while they run the closure (`src/error.rs` L724-743). A closure that looks at the error again (`err.with(\|_\| println!("{err}"))`) never returns, and blocks everybody with a clone for good; two errors looked at in different orders can block two threads | `nested_look_hangs`, `hang_spreads`, `crossed_looks_hang`; exactly: `all_can_return_iff` |
| C90 | `link_remote` and `unlink_remote` write to the own links and then ask the other node to (`src/actor/actor_ref.rs` L610-617, L720-724), where each request is served in its own task (`src/remote/swarm.rs` L921, L937) and nothing tells which call is newer: a link and an unlink that cross both return `Ok` and leave one side linked for good; a request that outlives its caller's timeout undoes a later call; a link request that comes when the actor has drained its links but not yet left the registry (`src/actor/spawn.rs` L517-567) returns `Ok` and brings no news; a notice under way is delivered after an unlink (`src/remote/_internal.rs` L276-300 asks no links) | `crossed_calls`, `late_request`, `linked_and_never_told`, `unlinked_and_told` |
| C91 | A handler's error prints its own text, also if that is `timeout` (`src/error.rs` L264, L596); ids in `UnknownMessage` are put between quotes that are not escaped (L586-592); `Display` of `LinkDied` leaves out the reason (L670-672), `Debug` of `Panicked` the message (L652); the text of a local id depends on whether the swarm has been bootstrapped (`src/actor/id.rs` L167-170); `BootstrapError` prints only what it carries (L350-369). | `bootstrap_text_ambiguous`, `handler_error_looks_like`, `unknown_message_ambiguous`, `cause_not_printed`, `reason_debug_iff`, `reason_text_on_the_wire`, `id_text_changes`; what is left: `send_text_partial`, `remote_text_partial`, `reason_text_iff` |
| C92 | `bootstrap_with_swarm` sets `ACTOR_SWARM` before it spawns the handler (`src/remote/swarm.rs` L146-157): outside a runtime it panics and leaves the node bootstrapped without a handler. The cell cannot be set again, and `SwarmSender::send` expects a receiver (L1003-1007): once the handler is gone every command panics in its sender, for good. `bootstrap_with_behaviour` drops the behaviour when it finds the cell set (L115-117). | `gone_for_good`, `gone_what_happens`, `behaviour_not_handed_back`, `late_call_told` |
| C93 | The futures that tell the links are polled in the actor's task with nothing to catch a panic (`src/actor/spawn.rs` L565); that of a link to another node panics when the swarm is gone (`src/remote/swarm.rs` L1003-1007, L1728-1733). The actor's local links behind it are not told, it stays in `REMOTE_REGISTRY` (L567 is not reached) and its `shutdown_error` is never set. | `swarm_gone_never_ends` (exactly: `can_end_iff`), `crashed_for_good` |
| C94 | the task of an attached stream returns the error of a failed send with `?` and drops the stream (`src/actor/actor_ref.rs` L784-808); `select!` polls its branches in random order, so an item may be taken although the actor is gone | `given_back_by_chance`, `waiting_stream_lost` (exactly: `can_come_back_iff`, `sure_to_come_back_iff`) |
| C95 | `From<SendError>` maps both time-outs of the serving task to `ReplyTimeout` (`src/error.rs` L562-572), so a caller cannot know whether its message is handled; `DeserializeMessage` is what is told for a message the actor's node could not read (`src/remote/_internal.rs` L106) and for a reply the caller could not read (`src/request/ask.rs` L818-827); a failure of the network is told for a request never sent, being handled and answered alike; the error of a handler whose remote caller is gone goes to the serving task and from there nowhere, and `on_panic` is not called | `timeout_ambiguous`, `deserialize_ambiguous`, `network_failure_ambiguous`, `error_unheard_remote` |
| C96 | A `Worker<A>` replies `Result<Ok, SendError<M, Error>>` (`actors/src/pool.rs` L243-260), while the reply type of `Dispatch<M>` has `Error = <A::Reply as Reply>::Error` and casts with the default `downcast_err` (L275-300, `src/reply.rs` L108-110). Whatever error the actor behind a worker answers with, whatever the types, the asker of the pool panics. | `pool_error_panics`, `pool_panics_iff`, `dead_inner_actor_panics_asker` |
| C97 | `link_remote` inserts its actor in `REMOTE_REGISTRY` (`src/actor/actor_ref.rs` L601-608), then waits for the actor's own link set (L610): dropped there, the actor is listed (with a reference that stays until it ends) and neither side is linked. `register` lists the actor only after the swarm has answered (`src/remote/swarm.rs` L373-382): dropped while it waits, the name gets into the network all the same, and whoever finds it does not find the actor. | `link_remote_left_half`, `register_left_half`, `half_done_iff`, `not_all_or_nothing` |
| C99 | An actor that is still starting puts the messages of the dying one aside (`src/actor/kind.rs` L104-113) and handles the news of its death at once: `on_link_died` runs before anything the dead actor said, and with the default hook nothing of it is ever handled | `last_words_handled_iff` (exactly when), `last_words_overtaken` (every history); in the mailbox the order is right (`last_words_ahead`), and after the start-up the messages have been handled (`last_words_handled_partial`) |
| C101 | A dead actor is removed from a link set only when `on_link_died` has returned for it (`src/actor/kind.rs` L140). An actor whose `on_start` fails tells nobody (`src/actor/spawn.rs` L466-499), and one that has left its loop does not look at links made afterwards (L517-560): both stay in the link sets of the others, with their mailbox senders, until those unlink or stop. A supervisor that uses `spawn_link` collects an entry for each child that fails to start. Exactly which: `dead_listed_iff` | `late_link_listed_for_ever`, `failed_start_listed_for_ever`, `links_grow_with_the_dead` |

## Tests against wrong programs

`seeded/LOG.jsonl` has a line per edit of the model that imitates a realistic bug (or repairs one of the
bugs above, in which case the theorem that proves the failure must break). Each edit was made in a copy
outside `/verif`; failing theorems were replaced by `sorry` until the rest built, and `#print axioms`
then told which theorems of the manifest rest on a failed one. A line lists the theorems whose proofs
broke and the theorems that were tightened because they survived.
