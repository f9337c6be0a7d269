{"id": "C01", "title": "Messages are handled in the order the mailbox accepted them", "statement": "For one actor, if two messages sent from outside the actor were both accepted by its mailbox and both are handled, the one accepted first is handled first; the same holds between two messages the actor sent to itself. Once the actor has finished starting up there is no reordering at all: the sequence of handled messages is a subsequence of the sequence of accepted messages.", "quantifier": "every mailbox kind and capacity, every interleaving of senders, waiters, cancellations, kills, link signals and actor steps, every handler/hook outcome", "why_tests_cant": "A test fixes a handful of senders and one interleaving; ordering must survive every interleaving of accepts, back-pressure wake-ups, the start-up buffer and failures.", "anchors": ["src/mailbox.rs MailboxSender::send", "src/actor/spawn.rs recv_mailbox_loop", "src/actor/kind.rs handle_message, handle_startup_finished"]}
{"id": "C02", "title": "One handler or hook at a time, and one completion per start", "statement": "An actor never runs two handlers or lifecycle hooks at the same time: between the start of a handler/hook and its completion (or its cancellation by kill) no other handler/hook of the same actor starts, and each start is closed at most once.", "quantifier": "every schedule and history of one actor", "why_tests_cant": "Absence of overlap is a statement about all schedules.", "anchors": ["src/actor/spawn.rs run_actor_lifecycle, abortable_actor_loop, recv_mailbox_loop", "src/actor/kind.rs handle_message"]}
{"id": "C03", "title": "No duplicate and no invented message", "statement": "Every handler invocation is for a message some caller sent to this actor and whose send was accepted by the mailbox, and no message is ever given to a handler twice.", "quantifier": "every history of sends, cancellations, timeouts, kills and stops", "why_tests_cant": "Duplicates appear only in rare interleavings (buffering, hand-over of a freed slot, cancellation).", "anchors": ["src/mailbox.rs", "src/actor/kind.rs handle_message, handle_startup_finished", "src/actor/spawn.rs"]}
{"id": "C04", "title": "on_start comes first, exactly once", "statement": "No message handler, on_link_died, on_panic or on_stop of an actor runs before on_start has completed, and on_start runs exactly once for an actor that is run.", "quantifier": "every schedule, including messages, link deaths, stop and kill issued before the actor starts", "why_tests_cant": "Depends on the relative timing of pre-start sends and start-up for all interleavings.", "anchors": ["src/actor/spawn.rs run_actor_lifecycle L415-451", "src/actor.rs on_start"]}
{"id": "C05", "title": "Messages the actor sends to itself while starting are handled before outside messages", "statement": "A message an actor sends to itself during on_start is handled before any message sent from outside the actor that was accepted before the start-up was finished.", "quantifier": "every mailbox capacity, every number of outside and self-sent messages and every interleaving during on_start", "why_tests_cant": "Depends on the mailbox being full at the exact end of on_start; a finite test does not cover capacities and interleavings.", "anchors": ["src/actor/kind.rs handle_message, handle_startup_finished", "src/actor/spawn.rs L453-458", "src/actor/actor_ref.rs is_current"]}
{"id": "C06", "title": "Graceful stop: everything ahead of the stop is handled first", "statement": "If an actor stops with reason Normal because of stop_gracefully, then every message whose send was accepted before the stop request has been handled (or at least been started) before the actor leaves its loop; nothing accepted ahead of the stop is silently dropped.", "quantifier": "every history of sends and handler outcomes ending in a graceful stop", "why_tests_cant": "Number and kind of queued messages, and failures in between, are unbounded.", "anchors": ["src/actor/actor_ref.rs stop_gracefully", "src/actor/kind.rs handle_stop, handle_startup_finished", "src/actor/spawn.rs recv_mailbox_loop"]}
{"id": "C07", "title": "Nothing behind the stop is handled", "statement": "No message accepted after a stop request which ended the actor is ever handled, and a message accepted while the actor is executing on_stop is never handled.", "quantifier": "every history", "why_tests_cant": "Race between late senders and the stopping actor for all interleavings.", "anchors": ["src/actor/spawn.rs recv_mailbox_loop L652-656, run_actor_lifecycle", "src/actor/kind.rs handle_stop"]}
{"id": "C08", "title": "An accepted stop request ends the actor", "statement": "Once a stop request has been taken out of the mailbox by the actor, the actor leaves its message loop: it never goes back to waiting for a message.", "quantifier": "every history, every handler and on_panic outcome", "why_tests_cant": "The failing case needs a pre-start-up stop, a buffered message whose handler fails and a forgiving on_panic.", "anchors": ["src/actor/kind.rs handle_stop, on_shutdown", "src/actor/spawn.rs abortable_actor_loop"]}
{"id": "C09", "title": "kill takes effect without any further handler", "statement": "After kill() has been called on a running actor, the next time the actor is scheduled it stops with reason Killed: it starts no further handler or on_panic, the running handler is cancelled, and on_stop receives Killed.", "quantifier": "every phase of the running loop and every later schedule", "why_tests_cant": "kill may land between any two steps of the loop.", "anchors": ["src/actor/actor_ref.rs kill", "src/actor/spawn.rs L503-513"]}
{"id": "C10", "title": "on_stop runs exactly once, last, and with the reason everybody else sees", "statement": "For an actor whose task is not itself torn down by a panic in on_panic/on_stop or by aborting its task, on_stop is called exactly once, no handler or other hook of the actor starts afterwards, and the reason given to on_stop equals the reason returned by PreparedActor::run/spawn and the reason sent to linked actors.", "quantifier": "every history", "why_tests_cant": "Covers every way to stop and every crash point.", "anchors": ["src/actor/spawn.rs L466-590", "src/actor.rs on_stop"]}
{"id": "C11", "title": "The stop reason tells the truth", "statement": "If an actor's stop reason is Killed then kill was called (or on_panic/on_link_died chose it); if it is Normal then a stop was requested or hook chose it or no reference is left; if it is Panicked(e) then e is an error or panic produced by one of its handlers/hooks; if it is LinkDied{id,reason} or PeerDisconnected then it was produced by on_link_died/on_panic, which with the default hooks means that a linked actor `id` really died with `reason`.", "quantifier": "every history and every user hook outcome", "why_tests_cant": "A provenance statement over unbounded histories.", "anchors": ["src/actor/kind.rs on_shutdown, handle_link_died", "src/actor/spawn.rs run_actor_lifecycle", "src/actor.rs on_panic, on_link_died"]}
{"id": "C12", "title": "Errors of tell and ask are routed correctly", "statement": "A handler that returns an error for a message sent with tell leads to on_panic with exactly that error; for a message sent with ask the error is delivered to the asker as HandlerError and the actor continues with the next message without on_panic. A panic in a handler always leads to on_panic.", "quantifier": "every message, handler outcome and state of the loop, including messages handled from the start-up buffer", "why_tests_cant": "Needs all combinations of message kind, outcome and loop state.", "anchors": ["src/message.rs handle_dyn", "src/actor/kind.rs handle_message", "src/reply.rs into_any_err"]}
{"id": "C13", "title": "A failing handler does not take the queue with it when on_panic says Continue", "statement": "If on_panic returns Continue the actor keeps running, and every other message accepted so far and not yet handled stays deliverable in its original order.", "quantifier": "every queue content, every failing message, every hook outcome", "why_tests_cant": "Message loss only shows for specific buffer contents at the time of failure.", "anchors": ["src/actor/kind.rs handle_startup_finished, on_shutdown", "src/actor/spawn.rs abortable_actor_loop"]}
{"id": "C14", "title": "Every ask gets an outcome once the actor is gone", "statement": "When the actor has stopped (for whatever reason), each ask ever sent to it has been answered by the handler, or has failed (send error, timeout, or ActorStopped because its reply sender was dropped), except those whose reply sender the handler explicitly took out for a delegated reply. No asker waits for ever on a stopped actor.", "quantifier": "every history and every kind of stop, including kill in the middle of a handler, failed start, and a task torn down by a panic", "why_tests_cant": "A lost reply sender shows only at specific crash points.", "anchors": ["src/request/ask.rs send", "src/message.rs handle_dyn", "src/error.rs From<RecvError>", "src/actor/spawn.rs"]}
{"id": "C15", "title": "At most one reply, and it is the reply to that very message", "statement": "An asker receives at most one reply; if it receives Ok(v)/HandlerError(e) then v/e was produced by the handler run for exactly that message (or sent through the delegated reply sender of that message). Replies never cross between askers.", "quantifier": "every set of concurrent asks and every schedule", "why_tests_cant": "Crossing/duplication needs arbitrary interleavings.", "anchors": ["src/message.rs handle_dyn, Context::reply", "src/reply.rs ReplySender::send", "src/request/ask.rs"]}
{"id": "C16", "title": "A failed send hands back the very message and has no effect", "statement": "If tell/ask send, try_send or blocking_send returns ActorNotRunning(m), MailboxFull(m) or Timeout(Some(m)), then m is exactly the message passed in and that message is never handled.", "quantifier": "every message, mailbox state and interleaving with closing and time-outs", "why_tests_cant": "Race between time-out/close and acceptance for all interleavings.", "anchors": ["src/request/ask.rs", "src/request/tell.rs", "src/error.rs From<mpsc::error::SendError>, From<TrySendError>, From<SendTimeoutError>"]}
{"id": "C17", "title": "A bounded mailbox never holds more than its capacity", "statement": "At every moment the number of accepted and not yet received signals in a bounded mailbox plus the slots promised to waiting senders is at most the capacity; try_send fails with MailboxFull exactly when no slot is free.", "quantifier": "every capacity and every sequence of sends, tries, cancellations and receives", "why_tests_cant": "Unbounded capacities and interleavings.", "anchors": ["src/mailbox.rs bounded", "src/actor/spawn.rs DEFAULT_MAILBOX_CAPACITY", "src/request/tell.rs try_send"]}
{"id": "C18", "title": "Back-pressure is fair and loses nobody", "statement": "Senders waiting for capacity are admitted in the order they started waiting; while someone is waiting no later try_send overtakes them; every waiting sender is eventually either admitted, cancelled, or told that the actor is not running when the mailbox closes.", "quantifier": "every number of waiters and every interleaving", "why_tests_cant": "Unbounded number of waiters.", "anchors": ["src/mailbox.rs MailboxSender::send", "src/request/ask.rs", "src/request/tell.rs"]}
{"id": "C19", "title": "Timeouts: mailbox timeout means not delivered, reply timeout means no late surprise", "statement": "If an ask/tell fails with a mailbox time-out the message was not and will not be handled. If an ask fails with a reply time-out, a later reply is discarded, the actor is not disturbed by it, and no other asker receives it.", "quantifier": "every timing of accept, handle, reply and time-out", "why_tests_cant": "Timing races.", "anchors": ["src/request/ask.rs send", "src/request.rs", "src/reply.rs ReplySender::send"]}
{"id": "C20", "title": "enqueue and forward report send failures as errors", "statement": "ask(..).enqueue/try_enqueue/blocking_enqueue and Context::forward/try_forward/blocking_forward return Err (never panic) when the target is not running or its mailbox is full or timed out, and a failed forward returns the reply sender so that the original asker gets the error.", "quantifier": "every message type, mailbox state and request kind", "why_tests_cant": "Depends on the dynamic type carried by the failed signal for all message types.", "anchors": ["src/request/ask.rs enqueue, try_enqueue, blocking_enqueue, forward, try_forward, blocking_forward", "src/error.rs From impls", "src/mailbox.rs downcast_message", "src/message.rs Context::forward"]}
{"id": "C21", "title": "stop_gracefully on a stopped actor returns an error", "statement": "Calling stop_gracefully() on an actor which has already stopped returns Err(ActorNotRunning), it does not panic.", "quantifier": "every mailbox kind and every history that stopped the actor", "why_tests_cant": "Race between stop and the actor stopping on its own.", "anchors": ["src/actor/actor_ref.rs stop_gracefully", "src/mailbox.rs signal_stop, downcast_message"]}
{"id": "C22", "title": "Links are symmetric, irreflexive and idempotent", "statement": "After any sequence of link/unlink calls between live actors, a is linked to b iff b is linked to a; an actor is never linked to itself; linking twice is the same as once; unlink undoes link.", "quantifier": "every set of actors and every sequence of link/unlink calls", "why_tests_cant": "Unbounded histories.", "anchors": ["src/actor/actor_ref.rs link, blocking_link, unlink, blocking_unlink"]}
{"id": "C23", "title": "A dying actor notifies exactly the actors it is linked to, once each, with the true reason", "statement": "When an actor stops, each actor in its link set at that moment receives exactly one link-died signal carrying the dead actor's id and its stop reason (if it is still running and has room); actors that are not linked (never linked, or unlinked before) receive none.", "quantifier": "every link graph and every way to stop, including a failed on_start", "why_tests_cant": "All link graphs and all stop paths.", "anchors": ["src/actor/spawn.rs L517-565, L466-499", "src/mailbox.rs signal_link_died"]}
{"id": "C24", "title": "Default link policy: abnormal deaths propagate to everybody linked, normal ones to nobody", "statement": "With the default on_link_died, when a linked actor dies abnormally the receiving actor stops with LinkDied naming that actor (or PeerDisconnected), and if it dies with Normal the receiving actor continues. Hence a crash takes down exactly the connected component of the link graph, and a Normal stop takes down nobody.", "quantifier": "every finite link graph, every root of the failure, every delivery order", "why_tests_cant": "Arbitrary graphs and delivery orders.", "anchors": ["src/actor.rs on_link_died L212-235", "src/actor/kind.rs handle_link_died", "src/actor/spawn.rs L517-565"]}
{"id": "C25", "title": "The root cause survives propagation", "statement": "In a propagated failure every stop reason is a chain of LinkDied entries, each naming an actor which really died with the nested reason and which was linked to the next, ending in the original cause at the actor where the failure began.", "quantifier": "every link graph and delivery order", "why_tests_cant": "Arbitrary chain lengths.", "anchors": ["src/actor.rs on_link_died", "src/error.rs ActorStopReason"]}
{"id": "C26", "title": "Linking never deadlocks", "statement": "Concurrent link/unlink calls (async or blocking) on any pairs of actors always complete.", "quantifier": "every set of concurrent calls and every interleaving of their lock operations", "why_tests_cant": "Deadlock needs a particular interleaving.", "anchors": ["src/actor/actor_ref.rs link, unlink, blocking_link, blocking_unlink"]}
{"id": "C27", "title": "Linked actors can always finish stopping", "statement": "Actors that stop at the same time finish stopping: waiting to deliver the link-died signal to another stopping actor cannot block for ever.", "quantifier": "every mailbox capacity and content, every link graph", "why_tests_cant": "Needs full mailboxes on both sides at the time of stopping.", "anchors": ["src/actor/spawn.rs L517-565", "src/mailbox.rs signal_link_died"]}
{"id": "C28", "title": "wait_for_startup returns once start-up is over", "statement": "wait_for_startup() does not return before on_start has completed, and it returns after on_start has completed, whatever happens to the actor afterwards.", "quantifier": "every mailbox capacity and content, every schedule including kill and stop around start-up", "why_tests_cant": "The blocking cases need a full mailbox or a stop/kill at a particular moment.", "anchors": ["src/actor/actor_ref.rs wait_for_startup, wait_for_startup_result", "src/actor/spawn.rs L453-468, L616-632"]}
{"id": "C29", "title": "wait_for_shutdown returns only after the actor is completely stopped", "statement": "wait_for_shutdown() returns only when the actor will run no more handler or hook: on_stop has finished and all link notifications have been sent (or the actor's task has been torn down); and it does return in that state. is_alive() is true exactly until then.", "quantifier": "every history", "why_tests_cant": "All histories and all crash points.", "anchors": ["src/actor/actor_ref.rs wait_for_shutdown, is_alive", "src/actor/spawn.rs run_actor_lifecycle"]}
{"id": "C30", "title": "Start-up and shut-down results are set once and are true", "statement": "The result observable by wait_for_startup_result / wait_for_shutdown_result is written at most once, never changes, and equals the outcome of on_start / on_stop.", "quantifier": "every history and every number of observers", "why_tests_cant": "Write-once over all schedules.", "anchors": ["src/actor/spawn.rs L437-451, L479-496, L569-588", "src/actor/actor_ref.rs wait_for_startup_result, wait_for_shutdown_result"]}
{"id": "C31", "title": "References keep an actor alive and dropping the last one stops it", "statement": "A weak reference can be upgraded exactly while a strong reference exists; an actor is not stopped for lack of references while one exists; and when the last ActorRef (outside the actor) is dropped and the mailbox is drained the actor stops with Normal.", "quantifier": "every sequence of clone, drop, downgrade, upgrade and message traffic", "why_tests_cant": "Reference counting over unbounded histories.", "anchors": ["src/actor/actor_ref.rs ActorRef, WeakActorRef::upgrade, downgrade", "src/mailbox.rs WeakMailboxSender::upgrade", "src/actor/spawn.rs L460-464"]}
{"id": "C32", "title": "The registry is a map from names to actors", "statement": "After any sequence of insert/remove/clear, get(name) returns the actor most recently registered under that name and not removed since, with BadActorType exactly if it was registered with a different actor type; the results of insert/remove/contains_name/names/len agree with that map, and operations on one name do not affect other names.", "quantifier": "every sequence of operations, names and actor types", "why_tests_cant": "Unbounded histories and names.", "anchors": ["src/registry.rs ActorRegistry", "src/actor/actor_ref.rs register, lookup"]}
{"id": "C33", "title": "Actor ids are unique", "statement": "Two actors created in the same process never have equal ActorIDs, no matter how many threads create actors concurrently, and a process never creates an id equal to one of another peer.", "quantifier": "every number of actors (below the width of the counter) and every interleaving", "why_tests_cant": "All interleavings of generate().", "anchors": ["src/actor/id.rs generate, new, PartialEq"]}
{"id": "C34", "title": "ActorID bytes round-trip", "statement": "from_bytes(to_bytes(id)) = id for each id, in any bootstrap state of the writer, to_bytes is injective on distinct ids, and from_bytes of arbitrary bytes returns an error rather than panicking.", "quantifier": "every sequence number, peer id and byte string", "why_tests_cant": "All byte strings.", "anchors": ["src/actor/id.rs to_bytes, from_bytes, Serialize, Deserialize"]}
{"id": "C35", "title": "ActorID equality and hash are consistent and stable", "statement": "Equality of ids is an equivalence, equal ids hash equally, and neither equality nor hash of ids changes over time, so that ids used as keys stay findable.", "quantifier": "every pair of ids and every moment of bootstrapping", "why_tests_cant": "Holds for all ids and both bootstrap states.", "anchors": ["src/actor/id.rs PeerIdKind PartialEq/Hash"]}
{"id": "C36", "title": "SendError conversions lose nothing", "statement": "map_msg/map_err only touch the message/error; boxing an error and downcasting it to the original types gives back the same error; downcasting to a different type is reported rather than producing a wrong value; flatten never drops a message or handler error and unwrap_msg returns the message exactly for variants which carry one.", "quantifier": "every error value, every message/handler error type", "why_tests_cant": "All types and values.", "anchors": ["src/error.rs SendError"]}
{"id": "C37", "title": "A forwarded request is answered as if it had been asked directly", "statement": "When an actor forwards an ask, the original asker receives the reply of the final handler: Ok values as such and errors as HandlerError; this holds for any number of forwarding hops.", "quantifier": "every chain of forwarding actors and every final outcome", "why_tests_cant": "Arbitrary number of hops.", "anchors": ["src/message.rs Context::forward", "src/reply.rs ForwardedReply::downcast_err, downcast_ok", "src/error.rs try_downcast"]}
{"id": "C38", "title": "attach_stream delivers Started, then every item in order, then Finished", "statement": "For a stream attached to an actor, the actor receives exactly one Started first, then each stream item exactly once in stream order, then exactly one Finished if the stream ended; if the actor stops or the task is cancelled it receives a prefix of that sequence.", "quantifier": "every stream (finite or infinite), every interleaving with other traffic and with stopping", "why_tests_cant": "Unbounded streams.", "anchors": ["src/actor/actor_ref.rs attach_stream"]}
{"id": "C39", "title": "Delegated replies are sent at most once and only by their owner", "statement": "After reply_sender() or reply() the handler's own return value is not sent to the asker, later reply()/reply_sender() calls of the same handler give no second sender, and the asker gets exactly what is sent through the taken sender, or ActorStopped if it is dropped.", "quantifier": "every sequence of context calls in a handler and every later use of the sender", "why_tests_cant": "All sequences of calls.", "anchors": ["src/message.rs Context::reply_sender, Context::reply, handle_dyn", "src/reply.rs ReplySender, DelegatedReply"]}
{"id": "C40", "title": "An actor pool always has its configured number of workers", "statement": "A pool of size n > 0 has exactly n workers at all times; a worker whose link dies is replaced by a fresh one in the same place; deaths of unknown actors change nothing, and the pool itself never stops because of a worker death.", "quantifier": "every sequence of dispatches, broadcasts and worker deaths", "why_tests_cant": "Unbounded histories.", "anchors": ["actors/src/pool.rs ActorPool::new, on_link_died"]}
{"id": "C41", "title": "Pool dispatch picks a least-loaded worker", "statement": "A dispatched message goes to a worker with the minimum number of messages in progress, the first such one, and is given to exactly one worker.", "quantifier": "every pool size and load distribution", "why_tests_cant": "All load distributions.", "anchors": ["actors/src/pool.rs next_worker, Dispatch"]}
{"id": "C42", "title": "Pool dispatch survives dead workers", "statement": "If at least one worker is running, dispatching a message hands it to some running worker even if others have stopped and have not been replaced yet; only if every worker is stopped does dispatch report ActorNotRunning with the message.", "quantifier": "every pool size, load and set of dead workers", "why_tests_cant": "All combinations of load and liveness.", "anchors": ["actors/src/pool.rs Dispatch::handle L304-362"]}
{"id": "C43", "title": "Pool broadcast reaches each worker once", "statement": "Broadcast sends one copy of the message to each worker and returns one result per worker in worker order.", "quantifier": "every pool size and worker state", "why_tests_cant": "All sizes/states.", "anchors": ["actors/src/pool.rs Broadcast"]}
{"id": "C44", "title": "PubSub delivers exactly one copy to each matching live subscriber", "statement": "publish sends exactly one copy of the message to each subscriber whose filter accepts it and none to the others; subscribers found stopped are removed, all others stay; subscribing again replaces the filter instead of duplicating delivery.", "quantifier": "every history of subscribe/subscribe_filter/publish and subscriber deaths", "why_tests_cant": "Unbounded histories.", "anchors": ["actors/src/pubsub.rs publish, subscribe, subscribe_filter"]}
{"id": "C45", "title": "The message broker routes by pattern", "statement": "A publish delivers the message once per current subscription whose pattern matches the topic and to no one else; unsubscribe removes exactly the named subscriptions; subscribers found stopped are dropped from every later delivery; no other subscription changes.", "quantifier": "every history of subscribe/unsubscribe/publish, every matching relation, every delivery strategy", "why_tests_cant": "Unbounded histories and patterns.", "anchors": ["actors/src/broker.rs Subscribe, Unsubscribe, Publish, unsubscribe"]}
{"id": "C46", "title": "The message bus routes by type and never mis-delivers", "statement": "A value published on the bus is delivered once per current registration for exactly its type and to no other; the internal downcast never fails; unregister removes exactly the registrations of that actor for that type; stopped receivers are removed.", "quantifier": "every history of register/unregister/publish over any set of message types", "why_tests_cant": "Unbounded histories and type sets.", "anchors": ["actors/src/message_bus.rs Register, Unregister, Publish, unsubscribe"]}
{"id": "C47", "title": "Delivery strategies do what they say", "statement": "Guaranteed waits and reaches every live recipient; BestEffort never waits and drops exactly for full mailboxes; TimedDelivery gives up only on recipients without room within the time; no strategy lets one slow or dead recipient prevent delivery to the others, and only recipients that are not running are unsubscribed.", "quantifier": "every set of recipients and mailbox states, each strategy", "why_tests_cant": "All recipient states.", "anchors": ["actors/src/lib.rs DeliveryStrategy", "actors/src/broker.rs Publish", "actors/src/message_bus.rs Publish"]}
{"id": "C48", "title": "A remote request runs the right handler or none", "statement": "A remote ask/tell runs the handler of the actor with the given id for the message with the given remote id, exactly once, iff the actor is registered, has the requested type, the message is known and the payload decodes; otherwise nothing runs and the error says which of these failed, and the error the remote caller sees is the one produced at the callee.", "quantifier": "every request, registry content, payload and handler outcome", "why_tests_cant": "All combinations of registry, types and payload.", "anchors": ["src/remote.rs ask, tell", "src/remote/_internal.rs ask, try_ask, tell, try_tell", "src/request/ask.rs remote_ask", "src/error.rs RemoteSendError"]}
{"id": "C49", "title": "Registration records round-trip", "statement": "The record stored in the DHT for a registered actor decodes to the same actor id and remote type id, for each id and type name; decoding never mistakes a removed registration for an actor and never brings the node down.", "quantifier": "every actor id, peer id and remote id string, every stored record", "why_tests_cant": "All byte strings.", "anchors": ["src/remote/swarm.rs ActorRegistration::into_bytes, from_bytes, handle_command LookupLocal", "src/remote/swarm.rs lookup, lookup_local"]}
{"id": "C50", "title": "Each swarm request gets its own answer, at most once", "statement": "The answer delivered for a request/query sent to the swarm is the one produced for that request; each waiting caller gets at most one answer; a response or failure for an unknown request changes nothing; after the answer the bookkeeping entry is gone.", "quantifier": "every interleaving of commands, responses, failures and query results", "why_tests_cant": "Arbitrary interleavings of outstanding requests.", "anchors": ["src/remote/swarm.rs handle_command, handle_event"]}
{"id": "C51", "title": "Peer disconnection is reported exactly to the actors linked to that peer", "statement": "When the last connection to a peer closes, every local registered actor receives one link-died(PeerDisconnected) per link to an actor of that peer, and no signal for links to other peers; no such signal is sent while the peer is still connected.", "quantifier": "every link table, every set of peers and connections", "why_tests_cant": "Arbitrary link tables and connection counts.", "anchors": ["src/remote/swarm.rs handle_event ConnectionClosed L791-818"]}
{"id": "C52", "title": "Remote links are symmetric or not made at all", "statement": "link_remote either returns Ok with both sides linked, or returns an error leaving neither side linked.", "quantifier": "every outcome of the remote half of the operation", "why_tests_cant": "Failure points of the network.", "anchors": ["src/actor/actor_ref.rs link_remote, unlink_remote", "src/remote/_internal.rs link, unlink"]}
{"id": "C53", "title": "Errors and stop reasons survive the wire", "statement": "A stop reason or remote send error sent to another node and decoded there says the same thing: same variant, ids and panic message, over any number of hops.", "quantifier": "every error/reason value and number of hops", "why_tests_cant": "All values, all hop counts.", "anchors": ["src/error.rs PanicError Serialize/Deserialize/Display, ActorStopReason, RemoteSendError map_err/flatten"]}
{"id": "C54", "title": "A panic inside on_panic or on_stop does not escape the actor", "statement": "Whatever user hook panics, the actor still stops in an orderly way: on_stop is run or has run, linked actors are notified, results are set.", "quantifier": "every hook outcome and phase", "why_tests_cant": "All crash points.", "anchors": ["src/actor/kind.rs on_shutdown", "src/actor/spawn.rs L473-499, L562-588"]}
{"id": "C55", "title": "Self-sent messages are recognised as such", "statement": "A message counts as sent from within the actor iff it is sent by code running in the actor's own task; sends from other tasks or other actors never do.", "quantifier": "every nesting of actors/tasks and every sender", "why_tests_cant": "All task structures.", "anchors": ["src/actor/actor_ref.rs is_current, CURRENT_ACTOR_ID", "src/actor/spawn.rs PreparedActor::run, spawn, spawn_in_thread"]}
{"id": "C56", "title": "The on_message hook sees every message", "statement": "Every message handled by an actor passes through Actor::on_message, so that a custom implementation can observe or replace handling.", "quantifier": "every message and actor", "why_tests_cant": "All messages.", "anchors": ["src/actor.rs on_message L169-176", "src/actor/kind.rs handle_message"]}
{"id": "C57", "title": "The death of an actor reaches its remote links", "statement": "When an actor stops, each actor it is remotely linked to gets exactly one link-died signal with the dead actor's id and stop reason, provided it is still registered on its node with the linked type; no other actor gets a signal.", "quantifier": "every link table, registry content and stop reason", "why_tests_cant": "All link tables and registry contents.", "anchors": ["src/actor/spawn.rs run_actor_lifecycle L517-560 (Link::Remote)", "src/remote.rs signal_link_died", "src/remote/_internal.rs signal_link_died"]}
{"id": "C58", "title": "Names registered in the swarm", "statement": "After an actor has been registered under a name, a lookup of that name on the same node finds that actor until the name is unregistered or registered again; after a successful unregister the name no longer finds an actor; a name that is taken is not silently taken over by another actor.", "quantifier": "every name, every actor, every sequence of commands, events and lookups, with and without connected peers", "why_tests_cant": "All interleavings of registrations, lookups, incoming records and peers coming and going.", "anchors": ["src/remote/swarm.rs ActorSwarm::register L357-392, unregister L398-415", "src/remote/swarm.rs handle_command Register, Unregister, LookupLocal L574-610"]}
{"id": "C59", "title": "Answers of the swarm fit the commands", "statement": "What a caller of the swarm is given fits the command it sent, so its `unexpected response` panics are never reached; a node answers each request of a peer in kind; so in a network of nodes running this code no caller ever sees an answer of the wrong kind.", "quantifier": "every interleaving of commands, events and tasks on any number of nodes, every pattern of delay, loss and repetition in the network", "why_tests_cant": "All interleavings over all nodes.", "anchors": ["src/remote/swarm.rs link, unlink, signal_link_died L417-484", "src/remote/swarm.rs handle_command L545-781, handle_event L785-996", "src/request/ask.rs remote_ask L784-833", "src/request/tell.rs remote_tell L367-407"]}
{"id": "C60", "title": "Accepted messages are handled", "statement": "Every message the mailbox of an actor has accepted is eventually given to its handler, unless the actor ends before that; failures that on_panic answers with Continue do not matter.", "quantifier": "every infinite execution in which the actor's task is scheduled and user code returns, every capacity of the mailbox, every message, any activity of senders in between", "why_tests_cant": "Infinite executions: a test sees a finite prefix of some of them.", "anchors": ["src/actor/spawn.rs abortable_actor_loop L515-560", "src/actor/kind.rs L76-124", "src/mailbox.rs L59-64, L261-300"]}
{"id": "C61", "title": "Stopping comes to an end", "statement": "An actor that has left its message loop, or whose on_start has failed, comes to its end: its task ends and its mailbox is closed, so that everybody waiting for it learns about it.", "quantifier": "every infinite execution in which the actor's task is scheduled, user code returns and the notifications of links get through; every reason for stopping; any number of links", "why_tests_cant": "Infinite executions, any number of links.", "anchors": ["src/actor/spawn.rs L431-500, L561-658"]}
{"id": "C62", "title": "Any reply a handler can return is safe to return", "statement": "Whatever calls of its context a handler makes and whatever value of its reply type it then returns, kameo's own code for handling the message does not panic, and the asker is answered, delegated or forwarded.", "quantifier": "every reply type, every sequence of calls of the context, every return value", "why_tests_cant": "All reply types and all handler programs; the markers are Copy so any of them can be returned at any time.", "anchors": ["src/message.rs Context L137-257, DynMessage::handle_dyn L285-306", "src/reply.rs DelegatedReply L212-243, ForwardedReply L251-307"]}
{"id": "C63", "title": "The result observers tell the truth", "statement": "wait_for_startup_result returns what on_start returned and wait_for_shutdown_result returns what on_stop returned; neither of them panics, however the hook ended.", "quantifier": "every history of the actor, every error type, every value returned or thrown by the hooks, every moment of calling", "why_tests_cant": "All histories and all error types, including hooks that panic at any moment.", "anchors": ["src/actor/actor_ref.rs wait_for_startup_result L302-318, wait_for_shutdown_result L391-407", "src/error.rs PanicError L682-743", "src/actor/spawn.rs L431-451, L475-499, L569-590"]}
{"id": "C64", "title": "The error hook hears of every lifecycle error", "statement": "The error hook is called exactly once for every error or panic of on_start and every error of on_stop, in order, at once, and for nothing else.", "quantifier": "every history of an actor", "why_tests_cant": "All interleavings of failures, links and tear-down.", "anchors": ["src/error.rs set_actor_error_hook L36-80", "src/actor/spawn.rs L444-451, L485-494, L579-588"]}
{"id": "C65", "title": "PanicError keeps what was thrown", "statement": "The error a hook returned, and the payload of a panic, can be got back from the PanicError by their type; a string also as text.", "quantifier": "every type and value of an error or panic payload", "why_tests_cant": "All types.", "anchors": ["src/error.rs PanicError L682-743"]}
{"id": "C66", "title": "The remote registry lists an actor only as long as it should", "statement": "An actor that has been registered in the swarm or linked to a remote actor is found in the remote registry until it is unregistered or its task ends; from then on the registry neither lists it nor holds a reference to it.", "quantifier": "every history of any number of actors, registrations, remote links and answers of the swarm in any order", "why_tests_cant": "Races between the answer of the swarm and the end of the actor, and every way a task can end.", "anchors": ["src/remote.rs REMOTE_REGISTRY L76-83", "src/remote/swarm.rs register L351-393, unregister L395-413", "src/actor/actor_ref.rs link_remote L589-618", "src/actor/spawn.rs L466-499, L565-567"]}
{"id": "C67", "title": "A lost connection does not stop the node", "statement": "When the connection to a peer closes, the task that looks for the links to that peer comes to an end, and calls that need the remote registry (requests of other nodes, lookups, registrations, the end of actors) complete, whatever links are being made on this node at that time.", "quantifier": "any number of calls of every kind, any actors in the registry, every interleaving", "why_tests_cant": "It needs a particular interleaving of lock requests on several threads together with a network event.", "anchors": ["src/remote/swarm.rs handle_event ConnectionClosed L791-818", "src/actor/actor_ref.rs link L514-526, unlink L637-646, blocking_link L553-565, link_remote L601-613", "src/actor/spawn.rs L517-567", "src/remote/_internal.rs L95-104, L233-274"]}
{"id": "C68", "title": "The messages macro renders each marked method as a message", "statement": "For every impl block, #[messages] turns exactly the methods marked #[message] that can be messages into a message type each, in order, with the parameters as fields; sending the message, with its fields written in any order, calls that method with these values, awaits it if it is async and replies with what it returns. A marked method that cannot be a message is a compile error, never left out silently. The methods themselves stay as they were.", "quantifier": "every impl block: any items, methods, parameters, types (nested to any depth), attributes", "why_tests_cant": "There are infinitely many signatures; UI tests try a handful.", "anchors": ["macros/src/messages.rs extract_messages L85-267, try_from L41-81, expand_msgs L269-300, expand_msg_impls L302-371, validate_param L422-440"]}
{"id": "C69", "title": "The generics of generated messages fit", "statement": "The message types and implementations #[messages] generates are well-scoped: each message type declares exactly the generic parameters its fields mention, once each; the implementation uses it with the arguments it declares and is for the type of the block; the macro never panics.", "quantifier": "every impl block with any generic parameters and every method signature", "why_tests_cant": "The failures need particular combinations of generic parameters and positions in types.", "anchors": ["macros/src/messages.rs L145-191, L281-293, L302-371, L395-410, contains_generic_in_param L442-544"]}
{"id": "C70", "title": "Derived actor names and remote ids", "statement": "derive(Actor) names the actor as its only #[actor(name = ..)] says, or after its type, and rejects every other form of the attribute; derive(RemoteActor) likewise with #[remote_actor(id = ..)], and the default ids of types with different names or in different modules differ.", "quantifier": "every type with any attributes, any names and module paths", "why_tests_cant": "Quantifies over all attribute lists and all pairs of names.", "anchors": ["macros/src/derive_actor.rs L16-107", "macros/src/derive_remote_actor.rs L14-34, L94-148"]}
{"id": "C71", "title": "A link, once made, is honoured", "statement": "Once link has returned, and until unlink is called for the pair, the end of either actor is signalled to the other, exactly once and with its reason, unless that one has itself ended; also for actors linked before they start (spawn_link). In fair executions the other's on_link_died then runs.", "quantifier": "every system of actors, every schedule before and after the link, links and unlinks of other pairs, any mailbox capacities", "why_tests_cant": "Quantifies over all interleavings of link with the lifecycles of both actors; tests link two idle actors.", "anchors": ["src/actor/actor_ref.rs L514-526, L553-565", "src/actor/spawn.rs L466-499, L515-566", "src/actor.rs L390-440"]}
{"id": "C72", "title": "Handles to an actor", "statement": "Every handle obtained from another (clone, downgrade, upgrade, recipient) is to the same actor in all respects; strong_count and weak_count are the numbers of ActorRef and WeakActorRef handles; a weak handle can be upgraded exactly while a strong one exists, and never again afterwards; a Recipient can be downgraded like an ActorRef.", "quantifier": "every program: any sequence of prepare, clone, drop, downgrade, upgrade, recipient, link, unlink over any number of actors", "why_tests_cant": "Quantifies over all sequences of handle operations; no test calls Recipient::downgrade or counts with links present.", "anchors": ["src/actor/actor_ref.rs L156-192, L820-837, L858-966, L1233-1350, L1398-1511", "src/mailbox.rs L118-233", "src/actor/spawn.rs L306-326"]}
{"id": "C73", "title": "The time-outs of requests are kept and true", "statement": "Whatever chain of mailbox_timeout and reply_timeout calls a request is built with, every way of sending it that the types allow uses the last of each and no other; the same holds through a Recipient and through a RemoteActorRef on the actor's node. A mailbox time-out error comes only from a full bounded mailbox, not before its time, and the message is never taken; a reply time-out error comes only after the message was taken and not before the time has passed since the caller began to wait. If timers are on time the time-outs bound the wait. try_ methods and unbounded mailboxes never wait for room. A reply given while the request waits is never lost to the clock. A PendingReply that is not awaited neither runs its time-out nor holds up the actor.", "quantifier": "all chains of builder calls, all mailbox capacities, all numbers of concurrent requests, all interleavings of polls, clock ticks, replies and actor steps", "why_tests_cant": "the races between clock, capacity, reply and drop are unbounded in number; a test fixes one schedule and one combination of options", "anchors": ["src/request.rs:18-79", "src/request/ask.rs:39-640", "src/request/tell.rs:35-350", "src/actor/actor_ref.rs:1453-1478", "src/remote/_internal.rs:83-223"]}
{"id": "C74", "title": "The waiting methods wait for what they name", "statement": "Each method that waits for an actor - wait_for_startup, wait_startup, wait_for_shutdown, wait_for_stop, and those of Recipient - returns only when what it names has happened: the former two kinds after on_start has completed, the latter exactly when the actor has stopped.", "quantifier": "every mailbox capacity, every execution of the actor, every moment and every one of the methods", "why_tests_cant": "A test fixes one schedule; the deprecated wait_for_stop is called by no test. Early return and waiting for ever depend on the point at which the wait begins.", "anchors": ["src/actor/actor_ref.rs:226-353", "src/actor/actor_ref.rs:929-944", "src/actor/actor_ref.rs:1442-1450"]}
{"id": "C75", "title": "Handlers that make requests come to an end, unless they wait in a circle", "statement": "Any number of actors handle messages by programs that tell and ask one another. If the requests that can block for ever (an ask without a reply time-out, a send without a mailbox time-out to a bounded mailbox) only go down some ranking of the actors, then in every fair execution every handler comes to an end, every request taken by a mailbox is answered or its reply sender dropped, and every ask made outside of the actors comes back. Conversely, if finitely many actors are asked and a handler never ends, there is a circle of actors each of which waits for the next for ever by such a request. Actors in such a circle, and an actor that asks itself, stay there until killed; an actor that asks itself never gets a reply. Whoever waits for an actor that is gone goes on. The code warns of every request by which an actor can deadlock.", "quantifier": "any number of actors, all mailbox capacities, all handler programs, all fair infinite executions, all histories", "why_tests_cant": "A deadlock needs a schedule and a set of handlers; that there is none for all handlers below a ranking, and that a hanging handler always means a circle, are statements about all infinite executions.", "anchors": ["src/request/ask.rs:107-157", "src/request/ask.rs:327-365", "src/request/ask.rs:836-846", "src/request/tell.rs:81-121", "src/request/tell.rs:410-425", "src/actor/kind.rs:97-156", "src/mailbox.rs:42-70"]}
{"id": "C76", "title": "Whatever `next` an actor has", "statement": "An actor may override Actor::next: it can take signals from the mailbox in any order, keep them in its fields, drop them, make signals of its own, close the receiver, and return any of these, or None, or panic, or not return. Whatever it does: the functions of the actor run one at a time, on_start first and once, on_stop at most once, last, and exactly once if the actor stopped, and nothing after the end; a message is handled at most once and only if it was sent or made; messages from outside are handled in the order next returned them, and so are the actor's own; everything next returned is handled unless on_panic or on_stop was called; an ask gets what its handler came to, no ask has an outcome while its signal waits, and once the actor is over every ask has an outcome unless a handler took its reply sender; such an ask gets what is sent with that sender and nothing else, and an error of that handler goes to on_panic; an asker who gives up waiting makes no difference to the actor or to other askers; an actor killed while on_start runs never calls next or a handler; kill ends an actor whose next does not return; is_alive is true until the actor is over; a panic in next is treated like one in a handler.", "quantifier": "all behaviours of next and of the other functions, all interleavings with senders, kills, reply senders used later, asks given up and torn down tasks, all histories", "why_tests_cant": "next is arbitrary user code; a test runs one next.", "anchors": ["src/actor.rs:253-265", "src/actor/spawn.rs:412-658", "src/actor/kind.rs:50-182", "src/mailbox.rs:244-400"]}
{"id": "C77", "title": "The default `next` is nothing special", "statement": "An actor that does not override Actor::next behaves as one whose next takes one signal from the mailbox and returns it each time: for every history of the one there is a history of the other in which the functions of the actor are called in the same order and end alike, the same messages are handled and the same are still waiting, the actor stops for the same reason or is alive or fell in both, and everyone who asks gets the same outcome; and conversely. So what holds of every next holds of the default one.", "quantifier": "all mailbox capacities, all histories of senders, references, links, kill, torn down tasks and outcomes of the user's functions; conversely all histories of an actor with that next", "why_tests_cant": "It relates all histories of two actors, with all interleavings.", "anchors": ["src/actor.rs:253-265", "src/actor/spawn.rs:412-658", "src/actor/kind.rs:50-182", "src/mailbox.rs:244-310"]}
{"id": "C78", "title": "Every remote message is registered under its ids with its own functions", "statement": "For an implementation of Message, #[remote_message(id)] implements RemoteMessage for the same actor type and message with that id, and registers, under the remote id of the actor type and that id, the four functions (ask, try_ask, tell, try_tell) for exactly this actor and message; derive(RemoteActor) registers the type's link functions under its remote id; anything that is not an implementation of Message with an id is refused. A node that receives a request with a pair of ids finds the functions of the actor and message declared with these ids, nothing that was not declared, and panics exactly if a pair was declared twice; every type implementing RemoteActor can be linked to remotely.", "quantifier": "all implementation blocks (types, traits, generic parameters), all programs (any number of actors and messages, derived or handwritten), all ids", "why_tests_cant": "It speaks about every program that uses the macros; a test is one program.", "anchors": ["macros/src/remote_message.rs:16-164", "macros/src/derive_remote_actor.rs:14-92", "macros/src/lib.rs:161-166", "src/remote.rs:85-137"]}
{"id": "C79", "title": "A reply means the same to the asker, to on_panic and to the handler", "statement": "Whatever reply type a handler has - a Result, a type of the standard library, a type with derive(Reply), a DelegatedReply or ForwardedReply of any of these - an asker receives exactly the value or the error the handler returned, without a failing downcast; after a tell on_panic hears of an error exactly if the returned value is one, where an error is an Err at the outermost level or a refused forward and never something further inside; converting a reply panics only for the markers that say that somebody else answers. Every type of the standard library is a reply type.", "quantifier": "all types built from the listed constructors to any depth, all returned values including ones with errors inside, asks and tells", "why_tests_cant": "The implementations are generated for dozens of type constructors with arbitrary arguments; the agreement of the associated types is an induction over the type.", "anchors": ["src/reply.rs:81-111", "src/reply.rs:212-501", "macros/src/derive_reply.rs:13-49", "src/message.rs:285-306"]}
{"id": "C80", "title": "A link renewed after a lost connection is a link", "statement": "An actor that is told that a linked actor of another node is gone (the connection closed, or its death was signalled) runs on_link_died and then no longer has that link. If it is linked with that actor again - by on_link_died itself, by another task, or at the request of the other node - the new link holds until the two are unlinked, the actor ends, or there is new news of a loss; news from before the new link does not end it.", "quantifier": "every node, every order of connections, closures, link calls, signals in mailboxes and running hooks", "why_tests_cant": "Quantifies over all interleavings of reconnecting and re-linking with the signals of the previous loss that are still queued or being handled.", "anchors": ["src/actor/kind.rs:128-150", "src/remote/swarm.rs:791-818", "src/actor/actor_ref.rs:589-618", "src/remote/_internal.rs:225-300"]}
{"id": "C81", "title": "Subscribers of a PubSub do not hold each other up, and can leave", "statement": "A message published to a PubSub reaches the mailbox of every subscriber whose filter accepts it, whatever the other subscribers do: a subscriber that is slow or has stopped handling messages delays none but its own copy, later messages are still published, and new subscribers are still taken. A subscriber that no longer wants the messages can unsubscribe while it goes on running.", "quantifier": "every set of subscribers with any mailbox capacities, every order of publishes, subscriptions, deliveries, handled messages, endings and dropped publishes, without bound", "why_tests_cant": "Quantifies over infinite executions (a subscriber that never again makes room) and over every interleaving of the concurrent tells with the subscribers' own progress.", "anchors": ["actors/src/pubsub.rs:14", "actors/src/pubsub.rs:98-122", "actors/src/pubsub.rs:155-207", "src/request/tell.rs:60-100"]}
{"id": "C82", "title": "Messages and the news of deaths are processed in the order of acceptance", "statement": "Messages and the news that a linked actor has died are processed in the order in which the mailbox accepted them: when on_link_died is called, the handlers of all messages accepted before the news have been started, and of none accepted after it; so a message that is ahead of the news of a death is not dropped because of it, even if on_link_died stops the actor.", "quantifier": "every mailbox capacity, every history of sends, deaths of linked actors, outcomes of handlers and hooks, and every interleaving with the start-up", "why_tests_cant": "Quantifies over all interleavings of a link's death with the start-up of the actor; the tests kill linked actors only long after both have started.", "anchors": ["docs/core-concepts/messages.mdx L35", "src/actor/kind.rs L76-150", "src/actor/spawn.rs L616-658", "src/mailbox.rs L441-454"]}
{"id": "C83", "title": "What an asker is told is true", "statement": "The error an ask returns says what happened: ActorNotRunning only if the actor's task is over, MailboxFull only if it was tried without waiting on a full bounded mailbox, Timeout with the message handed back only if the send was given up before it got into the mailbox, and ActorStopped only if the actor panicked or was stopped before a reply could be received.", "quantifier": "every mailbox capacity, every history of sends, kills, stops, deaths of linked actors, delegated replies, outcomes of handlers and hooks, and every interleaving", "why_tests_cant": "Quantifies over all ways in which a reply sender can be lost in all interleavings; the tests look at one stopped actor and one full mailbox.", "anchors": ["src/error.rs L88-101", "src/error.rs L270-318", "src/request/ask.rs L107-157", "src/reply.rs L130-178", "src/actor/kind.rs L76-125"]}
{"id": "C84", "title": "No error of a handler goes unheard", "statement": "An error with which a message handler ends, by panicking or by returning it, is heard by somebody: it is the reply the asker receives, or on_panic is called with it.", "quantifier": "every mailbox capacity, every history of sends, asks given up, outcomes of handlers and hooks, and every interleaving", "why_tests_cant": "Quantifies over the moment at which an asker gives up relative to the end of the handler; the tests await every ask they send.", "anchors": ["src/message.rs L286-308", "src/reply.rs L168-178", "src/actor/kind.rs L115-124", "src/actor/kind.rs L161-182"]}
{"id": "C85", "title": "Remote tells: effect and order", "statement": "A remote tell that returns Ok has put its message in the actor's mailbox exactly once; a remote tell that returns an error has not put it there and never will; and the messages of remote tells are handled in the order in which the actor's node received them, so that a caller who makes one tell after the other has them handled in that order.", "quantifier": "every mailbox capacity, every number of remote tells under way at once, every order in which requests, responses, failures of the network, the tasks serving requests, other senders and the actor take their steps", "why_tests_cant": "Quantifies over all interleavings of the network with the tasks that serve requests; the repository has no test with more than one remote request under way, and a failure of the network cannot be timed in one.", "anchors": ["src/request/tell.rs L367-406", "src/remote/swarm.rs L651-688", "src/remote/swarm.rs L892-913", "src/remote/swarm.rs L962-1000", "src/remote/_internal.rs L167-223", "src/remote.rs L14-15", "docs/core-concepts/messages.mdx L35"]}
{"id": "C86", "title": "A remote reference to an actor of the caller's own node", "statement": "A RemoteActorRef may refer to an actor that runs on the caller's own node; a request made through it (an ask, a tell, a link, an unlink, a notice of a death) is then served by that node and the caller gets the actor's answer, whichever other nodes are connected.", "quantifier": "every sequence of commands, events, ends of tasks and connections of peers before and after, every actor id that names the node itself (with or without its peer id), every kind of request", "why_tests_cant": "Whether a request is served depends on whether some other node happens to be connected when the swarm task takes the command; the repository's tests start no swarm with a peer.", "anchors": ["src/remote/swarm.rs L611-649", "src/remote/swarm.rs L650-685", "src/remote/swarm.rs L692-773", "src/remote/swarm.rs L1535-1634", "src/request/ask.rs L783-817", "src/request/tell.rs L367-406", "docs/distributed-actors/registering-looking-up-actors.mdx L23", "docs/distributed-actors/registering-looking-up-actors.mdx L38"]}
{"id": "C87", "title": "Only a linked actor's death is news", "statement": "on_link_died is called when a linked actor dies, and only then: an actor hears of the death of another only if the two are linked when the other ends, and once unlink has returned (and they are not linked again) neither of the two is told of the death of the other or stopped by it.", "quantifier": "every number of actors, every link graph, every mailbox capacity, every interleaving of link, unlink, deaths, notifications and message processing", "why_tests_cant": "The moment of an unlink relative to the steps of a dying actor cannot be placed by a test; the claim is about all of them, and about all that may follow.", "anchors": ["src/actor.rs L203-209", "src/actor/actor_ref.rs L620-646", "src/actor/spawn.rs L515-565", "src/actor/kind.rs L128-150", "docs/core-concepts/supervision.mdx L22-38"]}
{"id": "C88", "title": "The blocking methods work wherever they are called", "statement": "blocking_send, blocking_enqueue, the recv of a BlockingPendingReply, blocking_forward, blocking_link and blocking_unlink do what their async counterparts do, wherever they are called: in a thread of the program, in the handlers of an actor (Context::blocking_forward can be called nowhere else), and in the place from which an actor was spawned in a thread, as in the documentation of spawn_in_thread.", "quantifier": "every place of a call that can be reached by threads, tasks, block_on, spawn_blocking, block_in_place and Runtime::enter in any nesting; every message, mailbox kind, answer of the mailbox and reply", "why_tests_cant": "The examples in the documentation are compiled but not run (no_run); a test runs in one place, the claim is about all nestings of places.", "anchors": ["src/actor/spawn.rs L173-221", "src/actor/spawn.rs L224-270", "src/actor/spawn.rs L395-411", "src/request/ask.rs L453-574", "src/request/tell.rs L123-140", "src/message.rs L224-257", "src/actor/actor_ref.rs L528-565"]}
{"id": "C89", "title": "An error can be looked at by everybody who was told of it", "statement": "with, with_str, with_downcast_ref, downcast and the printing of a PanicError show each caller the error that the actor died of and return, however many actors, observers and threads have clones of it, even if a closure that looked at it before panicked; no two closures look at it at once.", "quantifier": "every number of threads and errors, every nesting of looks and panics in the closures of the program, every schedule", "why_tests_cant": "Whether a look returns depends on which other threads are in which closures at that moment; the claim is about all schedules and all programs.", "anchors": ["src/error.rs L679-743", "src/error.rs L745-772", "src/actor/actor_ref.rs L302-318", "src/actor/actor_ref.rs L391-407", "src/actor.rs L180-190"]}
{"id": "C90", "title": "Links between nodes follow the last call and bring the news of each death", "statement": "However many link_remote and unlink_remote calls on two actors are under way at once, from both sides, once they have returned Ok both actors have each other among their links if the last call was to link them, and neither has if it was to unlink them; and each of two linked actors is told of the death of the other, once, while an actor that was unlinked is not told.", "quantifier": "every number of actors and calls, every interleaving of their steps at home and of their requests on the other node, of lost requests and notices, timeouts, deaths and notices of deaths", "why_tests_cant": "Each request is served in a task of its own, in any order; which of two requests gets to the link map first, and whether before or after the actor has sent its notices, cannot be placed by a test, and the claim is about all orders.", "anchors": ["src/actor/actor_ref.rs L589-618", "src/actor/actor_ref.rs L708-725", "src/remote/_internal.rs L225-300", "src/remote/swarm.rs L914-960", "src/actor/spawn.rs L515-567", "src/actor/kind.rs L128-140"]}
{"id": "C91", "title": "What an error prints says what went wrong", "statement": "Two errors print the same (SendError, RemoteSendError, RegistryError, ActorStopReason) only if they are the same kind of error with the same details and the same cause; two ActorIDs print the same exactly if they are equal; and converting an error (flatten, map, boxed, downcast, into RemoteSendError) or sending it to another node does not change what it prints.", "quantifier": "all errors with all payloads and all texts of the user's errors, all chains of link deaths of any length, all ids, all sequences of nodes an error is sent along", "why_tests_cant": "A test prints a few errors; that no two of them are taken for each other is a claim about all pairs, all texts an id or a user's error can have and chains of any length.", "anchors": ["src/error.rs L240-268", "src/error.rs L393-407", "src/error.rs L574-621", "src/error.rs L647-678", "src/error.rs L746-751", "src/actor/id.rs L161-187"]}
{"id": "C92", "title": "A node is bootstrapped once", "statement": "Of all calls that bootstrap a node (bootstrap, bootstrap_with_identity, bootstrap_with_behaviour, bootstrap_with_swarm, bootstrap_manual), from whatever threads at whatever times, exactly one succeeds. Every other is told that the node is bootstrapped already and by whom, and gets back what it passed. ActorSwarm::get returns the same swarm ever after. Commands are taken by the handler of the call that succeeded, in the order sent, and none is lost. If that call fails, or the handler ends, senders get an error and the node can be bootstrapped again.", "quantifier": "any number of calls of every kind, every interleaving of their steps with each other and with users of the swarm, every moment at which the handler ends", "why_tests_cant": "ACTOR_SWARM is set once per process, so a test sees one interleaving of one race; the claim is about all of them, and about everything that happens afterwards.", "anchors": ["src/remote/swarm.rs L33", "src/remote/swarm.rs L80-183", "src/remote/swarm.rs L227-229", "src/remote/swarm.rs L999-1019", "src/error.rs L330-340"]}
{"id": "C93", "title": "An actor ends properly whatever becomes of the swarm", "statement": "Whatever the state of the swarm, an actor that ends tells every actor of its own node that is linked to it (if its mailbox is open), leaves the remote registry, and publishes what on_stop returned.", "quantifier": "all link tables and all orders of draining them, every moment at which the swarm ends, all orders in which mailboxes get room and answers come", "why_tests_cant": "It takes a swarm that has ended, which in a test process is for good, and the order in which a HashMap is drained.", "anchors": ["src/actor/spawn.rs L517-590", "src/remote/swarm.rs L460-484", "src/remote/swarm.rs L1003-1007", "src/remote/swarm.rs L1725-1734"]}
{"id": "C94", "title": "An attached stream is given back when its actor stops", "statement": "When the actor an attached stream belongs to stops, the task of the stream ends. Whatever was taken from the stream was accepted by the actor's mailbox or is handed back in the error of the task; once the actor is gone at most one more item is taken. The task returns the stream, so that who attached it can go on with what is left of it.", "quantifier": "every stream, every interleaving of the task, the actor, other senders and the actor's end, every mailbox", "why_tests_cant": "The outcome depends on which branch of select! is polled first and on where the actor's end falls.", "anchors": ["src/actor/actor_ref.rs attach_stream L769-812", "src/actor/actor_ref.rs wait_for_shutdown"]}
{"id": "C95", "title": "What a remote ask's outcome says about its message", "statement": "Any number of remote asks to one actor are under way at once, over a network that loses requests and responses and reports failures at any time, while the actor is sent to, linked, stopped, killed or torn down. Every ask is handled at most once, and a message is not handled more often than it was asked. A caller told a reply or a handler's error: its message was handled, once, and that is what the handler returned. A caller told that the actor is not running, is stopping, has a full mailbox, does not know the message, or timed out: its message was not handled and will not be. A caller is told one outcome, its leaving or failing is noticed by nobody, an ask made after another was answered is handled after it, and when the actor has ended every request still known at its node is answered.", "quantifier": "every number of callers and requests, every interleaving of the network, the serving tasks, the actor and the callers, every mailbox, every outcome of user code", "why_tests_cant": "The answer depends on which of the message, the time-out, the loss of a response and the actor's end comes first; a test sees one order, and a message that is handled after its caller was told otherwise leaves no trace at the caller.", "anchors": ["src/request/ask.rs remote_ask L785-833", "src/remote/swarm.rs L611-649, L868-891, L962-993", "src/remote/_internal.rs ask, try_ask", "src/error.rs From<SendError> L562-572"]}
{"id": "C96", "title": "A pool answers as its actors would", "statement": "Whoever asks a pool gets what they would have got from the actor behind the worker that was chosen: its reply, its handler's error, or that it is not running or has stopped, never a panic of their own. A broadcast reports for each worker whether its mailbox took the message, and for one that did not the error of that kind with the message.", "quantifier": "every reply type, error type and message type, every answer of the actor behind the worker, every run of the pool", "why_tests_cant": "The reply travels as Box<dyn Any> through three type parameters; whether the cast at the end is the right one depends on types the compiler no longer relates, and a test covers the types and the answers it was written for.", "anchors": ["actors/src/pool.rs Message<WorkerMsgWrapper> L243-260", "actors/src/pool.rs WorkerReply L262-300", "actors/src/pool.rs Broadcast L369-405", "src/reply.rs downcast_ok, downcast_err L103-110", "src/error.rs try_downcast L203-237"]}
{"id": "C97", "title": "A call may be given up", "statement": "The future of a call may be dropped wherever it waits (a time-out around it, the other branch of a select!, an aborted task, a killed actor). The call has then had its whole effect or none: a tell, stop request, link, unlink or spawn_link that has not returned has had none, ever, and for everybody else it is as if it had never been made; an ask, a request to another node, an unlink_remote or an unregister had all of its effect or none, and dropping it once it only waits for the answer changes nothing for anybody else. Links between actors of one node are never on one side only. The same holds of link_remote and register.", "quantifier": "every history of any number of such calls, each dropped at any of its waits or never, with any outcomes of waits, answers of the swarm and closed mailboxes", "why_tests_cant": "Tests let their futures complete. A drop at a given wait needs a schedule in which the lock, the mailbox or the answer is late at that very point, and that nothing differs for anybody else afterwards is a statement about all continuations.", "anchors": ["src/actor/actor_ref.rs link, unlink L514-526, L637-646", "src/actor/actor_ref.rs link_remote L589-618", "src/actor/actor_ref.rs unlink_remote L708-725", "src/remote/swarm.rs register L351-387", "src/remote/swarm.rs unregister L393-412", "src/actor/spawn.rs spawn_link_with_mailbox L126-140", "src/request/tell.rs send L78-98", "src/request/ask.rs send L107-157"]}
{"id": "C98", "title": "Link sets change one call at a time", "statement": "Any number of link, unlink, blocking_link, blocking_unlink, link_remote and unlink_remote calls, link requests of other nodes, ends of actors, ends of on_link_died, looks by the task for a lost connection and debug printouts run at once on any threads, and futures among them are dropped while they wait. The outcome is as if the calls had been made one after the other, each at one moment between its beginning and its return: a call that returned before another began comes before it, a dropped one was never made, the link sets are what the calls in this order make of them, and whoever looks at a link set sees what the calls before it have made of it. So two actors that were only linked and unlinked never disagree about their link, and an actor that ends tells everybody a link with whom was made, by the last call that concerned it, before it began to take its links.", "quantifier": "every assignment of calls to any number of callers, every interleaving of their single actions (request, wait, insertion, removal, release) and of drops", "why_tests_cant": "Races between two insertions under two locks are a matter of nanoseconds; that some sequential order explains an interleaving is a statement about all interleavings of unboundedly many calls.", "anchors": ["src/actor/actor_ref.rs link L514-526, blocking_link L553-565, unlink L637-646, blocking_unlink L675-684", "src/actor/actor_ref.rs link_remote L610-613, unlink_remote L720", "src/actor/actor_ref.rs Debug L839-853, L1292-1306", "src/actor/spawn.rs L518-561", "src/actor/kind.rs handle_link_died L140", "src/remote/_internal.rs L243-247, L271", "src/remote/swarm.rs L800-813"]}
{"id": "C99", "title": "An actor's last words come before the news of its death", "statement": "Whatever a dying actor still tells a linked actor, in its last handler or in on_stop, reaches that actor before the news of the death: every message accepted by an actor while user code of the dying one could still run is ahead of the link-died signal in the mailbox, and has been handled when on_link_died is called, whether the actor was stopped, killed, failed or panicked.", "quantifier": "every system of actors and links, every history of calls, every interleaving, every mailbox capacity, every message accepted before the notifications are sent", "why_tests_cant": "The notifications are futures made before on_stop runs and polled after it; whether one could be polled early, or a waiting signal overtake a waiting message, depends on the schedule. That it never happens, and that it does happen to an actor that is still starting, is a statement about all histories.", "anchors": ["src/actor/spawn.rs L518-565 (link_notification_futures made before on_stop, polled after it)", "src/mailbox.rs signal_link_died L498-516", "src/actor/kind.rs handle_message L97-126, handle_link_died L128-160"]}
{"id": "C100", "title": "Nobody waits for the swarm for ever", "statement": "Every call of the swarm - listening, dialling, a lookup, a registration, a remote ask, tell, link, unlink or death signal - comes back: from some time on the caller has exactly one answer, always the same, or its reply sender has been dropped and it panics; while the swarm task lives and no task panics, it is always an answer. Every request a node takes in from a peer is answered with what the task handling it has found, unless that task panics.", "quantifier": "every infinite interleaving of commands, events, spawned tasks, peers coming and going and deaths of the swarm task in which libp2p reports the end of each query and request, the spawned tasks end and a living swarm task takes commands", "why_tests_cant": "A statement about infinite executions: no finite test shows that a caller does not wait for ever.", "anchors": ["src/remote/swarm.rs run L517-544", "src/remote/swarm.rs handle_command L551-780", "src/remote/swarm.rs handle_event L826-993", "src/remote/swarm.rs SwarmSender L1000-1019, SwarmFuture L1718-1734"]}
{"id": "C101", "title": "The dead are forgotten", "statement": "When an actor has ended, the actors it was linked to do not keep it among their links: as soon as an actor's on_link_died for the dead one is over, in whatever way, the dead one is out of its link set, so a link set does not grow with actors that are gone.", "quantifier": "every interleaving of starts, messages, links, unlinks, kills, panics and notifications of any number of actors with any mailboxes; every infinite fair execution for the liveness part", "why_tests_cant": "Depends on when link is called relative to the other's death and on how its start-up goes; growth of link sets shows only over long histories.", "anchors": ["src/actor/kind.rs handle_link_died L128-150", "src/actor/spawn.rs L466-499, L517-565", "src/actor/actor_ref.rs link, unlink L514-684"]}
{"id": "C102", "title": "Requests arrive in causal order", "statement": "If a request to an actor has come back with success (a tell that was taken by the mailbox, an ask with its reply), and another request to the same actor is made after it in the causal sense - later by the same actor, by the handler of a message that was sent later, after a reply that was given later, or through any chain of such steps over any number of actors and over callers outside of actors - then the actor takes the first request before the second, and the handler of the first is over when that of the second begins. In particular an actor that tells and then asks sees in the answer what it told, and a message that mentions another one never overtakes it.", "quantifier": "any number of actors that have been started, with any mailbox capacities, any handlers (programs that tell and ask with or without waiting and with time-outs), every infinite execution: kills, stops, failures and requests given up at any moment", "why_tests_cant": "A test sees the chains it sets up, in the schedules it happens to get. That no chain through any number of mailboxes, waits for room and replies ever lets a request overtake its cause is a statement about all executions.", "anchors": ["src/request/tell.rs send L78-98", "src/request/ask.rs send L107-157", "src/mailbox.rs send L59-64, recv L261-266", "src/actor/kind.rs handle_message L97-126"]}
{"id": "C103", "title": "Subscribers get what is published in the order it was published", "statement": "Of two messages published through the same PubSub, message broker or message bus, a subscriber that gets both gets the one published first before the other: with PubSub what a subscriber handles is a subsequence of what was handed over to be published; with the broker and the bus this holds for every actor over all its patterns and types, and when the router begins a publish all deliveries of the publishes before it have been decided, for every recipient.", "quantifier": "every history of subscribing, unsubscribing, publishing, handling, closing of mailboxes, mailboxes that fill up and get room, for any number of subscribers, patterns and types, any (stateful) filters, any capacities, publishes given up or panicking; for the broker and the bus every delivery strategy", "why_tests_cant": "A test publishes a few messages with an idle runtime, in which tasks run in the order they were spawned. Whether any interleaving of waiting sends and tasks lets a later publish overtake an earlier one is a statement about all schedules.", "anchors": ["actors/src/pubsub.rs publish L98-122", "actors/src/broker.rs Publish L193-264", "actors/src/message_bus.rs Publish L180-245", "actors/src/lib.rs DeliveryStrategy L28-60"]}
