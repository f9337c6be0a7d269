{
 "claims": [
  {
   "property": "C01",
   "status": "proved",
   "theorems": [
    "Verif.Lifecycle.outside_handled_exact",
    "Verif.Lifecycle.outside_handled_prefix",
    "Verif.Lifecycle.handled_in_acceptance_order",
    "Verif.Lifecycle.no_reordering_after_startup",
    "Verif.Mailbox.received_prefix_of_accepted",
    "Verif.Mailbox.accepted_eq_received_append_queue"
   ],
   "note": "Order of handling equals order of acceptance, up to the documented priority of self-sent messages during start-up. Gaps: exactly those messages from outside are skipped that wait in the start-up buffer behind a failing handler (outside_handled_exact)."
  },
  {
   "property": "C02",
   "status": "proved",
   "theorems": [
    "Verif.Lifecycle.one_handler_at_a_time",
    "Verif.Lifecycle.one_completion_per_start",
    "Verif.Lifecycle.running_iff_open"
   ],
   "note": "Begin/end events of handlers and hooks alternate in every history."
  },
  {
   "property": "C03",
   "status": "proved",
   "theorems": [
    "Verif.Lifecycle.handled_once_and_accepted"
   ],
   "note": ""
  },
  {
   "property": "C04",
   "status": "proved",
   "theorems": [
    "Verif.Lifecycle.nothing_before_on_start",
    "Verif.Lifecycle.on_start_once"
   ],
   "note": ""
  },
  {
   "property": "C05",
   "status": "partial",
   "theorems": [
    "Verif.Lifecycle.stop_between_no_precedence",
    "Verif.Lifecycle.full_start_no_precedence",
    "Verif.Lifecycle.full_start_overtakes",
    "Verif.Lifecycle.self_sent_first_partial",
    "Verif.Lifecycle.self_sent_overtaken_when_full",
    "Verif.Lifecycle.self_sent_overtaken_after_stop",
    "Verif.Lifecycle.self_sent_first_iff"
   ],
   "note": "Proved when the start-up signal was accepted; false when the mailbox was full at the end of on_start or a stop came first: negations self_sent_overtaken_when_full, self_sent_overtaken_after_stop. In every history with a full mailbox at the end of on_start: full_start_no_precedence, full_start_overtakes. With a stop request accepted in between, in every history: stop_between_no_precedence. Exactly when: self_sent_first_iff."
  },
  {
   "property": "C06",
   "status": "partial",
   "theorems": [
    "Verif.Lifecycle.failure_in_drain_loses_rest",
    "Verif.Lifecycle.graceful_stop_handles_all_ahead_partial",
    "Verif.Lifecycle.startup_buffer_lost_on_graceful_stop",
    "Verif.Lifecycle.graceful_stop_leaves_only_those_behind"
   ],
   "note": "Proved when draining the start-up buffer does not fail; false otherwise: negation startup_buffer_lost_on_graceful_stop. In every history of this kind: failure_in_drain_loses_rest. Exactly the messages behind such a handler are left unhandled: graceful_stop_leaves_only_those_behind."
  },
  {
   "property": "C07",
   "status": "proved",
   "theorems": [
    "Verif.Lifecycle.barrier_parts_calls",
    "Verif.Lifecycle.nothing_behind_stop_handled",
    "Verif.Lifecycle.nothing_handled_after_loop"
   ],
   "note": ""
  },
  {
   "property": "C08",
   "status": "partial",
   "theorems": [
    "Verif.Lifecycle.stop_forgotten_on_continue",
    "Verif.Lifecycle.accepted_stop_ends_partial",
    "Verif.Lifecycle.accepted_stop_never_ends",
    "Verif.Lifecycle.stop_taken_never_waits_again_partial",
    "Verif.Lifecycle.stop_taken_leaves_at_once",
    "Verif.Lifecycle.stop_drain_leaves",
    "Verif.Lifecycle.stop_request_forgotten",
    "Verif.Lifecycle.accepted_stop_ends_or_forgotten"
   ],
   "note": "Proved unless a handler of the start-up buffer drain fails and on_panic answers Continue: negation stop_request_forgotten. Liveness over fair infinite executions: accepted_stop_ends_partial, negation accepted_stop_never_ends. In every history of this kind: stop_forgotten_on_continue. Exactly: in a fair execution an accepted request ends the actor unless it is forgotten in this way (accepted_stop_ends_or_forgotten)."
  },
  {
   "property": "C09",
   "status": "proved",
   "theorems": [
    "Verif.Lifecycle.killed_actor_ends",
    "Verif.Lifecycle.kill_takes_effect_at_next_poll",
    "Verif.Lifecycle.kill_takes_effect_at_end_of_poll",
    "Verif.Lifecycle.nothing_but_on_stop_after_kill"
   ],
   "note": "Kill takes effect at the next poll boundary of the message loop; phases outside the loop (on_start, on_stop) are stated. Liveness over fair infinite executions: killed_actor_ends."
  },
  {
   "property": "C10",
   "status": "proved",
   "theorems": [
    "Verif.Lifecycle.on_stop_once_and_last",
    "Verif.Lifecycle.stopped_after_on_stop"
   ],
   "note": ""
  },
  {
   "property": "C11",
   "status": "proved",
   "theorems": [
    "Verif.Lifecycle.stop_reason_true",
    "Verif.Lifecycle.default_stop_reason_true"
   ],
   "note": ""
  },
  {
   "property": "C12",
   "status": "proved",
   "theorems": [
    "Verif.Lifecycle.failure_leads_to_on_panic",
    "Verif.Lifecycle.ask_error_goes_to_asker",
    "Verif.Request.error_to_on_panic"
   ],
   "note": ""
  },
  {
   "property": "C13",
   "status": "partial",
   "theorems": [
    "Verif.Lifecycle.only_those_behind_are_lost",
    "Verif.Lifecycle.failure_in_drain_loses_rest",
    "Verif.Lifecycle.continue_keeps_running",
    "Verif.Lifecycle.continue_loses_nothing_partial",
    "Verif.Lifecycle.startup_buffer_lost_on_continue"
   ],
   "note": "Proved when the failing handler was not draining the start-up buffer; false otherwise: negation startup_buffer_lost_on_continue. In every history of this kind: failure_in_drain_loses_rest. Exactly the messages behind such a handler are lost: only_those_behind_are_lost."
  },
  {
   "property": "C14",
   "status": "proved",
   "theorems": [
    "Verif.Lifecycle.accepted_ask_answered",
    "Verif.Lifecycle.every_ask_resolved"
   ],
   "note": " Liveness over fair infinite executions: accepted_ask_answered."
  },
  {
   "property": "C15",
   "status": "proved",
   "theorems": [
    "Verif.Lifecycle.reply_is_to_that_message",
    "Verif.Lifecycle.outcome_never_changes",
    "Verif.Request.one_reply_channel_one_place"
   ],
   "note": ""
  },
  {
   "property": "C16",
   "status": "proved",
   "theorems": [
    "Verif.Lifecycle.failed_send_never_handled",
    "Verif.Lifecycle.ask_failure_true",
    "Verif.Mailbox.failed_send_returns_value_and_never_delivers",
    "Verif.Mailbox.failure_reason_true",
    "Verif.Request.failed_request_hands_back_message"
   ],
   "note": ""
  },
  {
   "property": "C17",
   "status": "proved",
   "theorems": [
    "Verif.Mailbox.capacity_never_exceeded",
    "Verif.Mailbox.trySend_full_iff",
    "Verif.Mailbox.trySend_refused_no_effect"
   ],
   "note": ""
  },
  {
   "property": "C18",
   "status": "proved",
   "theorems": [
    "Verif.Lifecycle.send_resolved",
    "Verif.Mailbox.waiting_not_overtaken",
    "Verif.Mailbox.every_send_accounted_once",
    "Verif.Mailbox.closed_resolves_every_send",
    "Verif.Mailbox.waiting_not_stuck",
    "Verif.Mailbox.waiter_can_be_admitted"
   ],
   "note": " Liveness over fair infinite executions: send_resolved."
  },
  {
   "property": "C19",
   "status": "proved",
   "theorems": [
    "Verif.Lifecycle.giving_up_changes_nothing_else",
    "Verif.Lifecycle.no_reply_after_giving_up",
    "Verif.Lifecycle.mailbox_timeout_not_delivered",
    "Verif.System.message_send_can_be_given_up"
   ],
   "note": ""
  },
  {
   "property": "C20",
   "status": "partial",
   "theorems": [
    "Verif.Request.enqueue_panics_iff",
    "Verif.Request.forward_panics_iff",
    "Verif.Request.enqueue_panics",
    "Verif.Request.forward_panics",
    "Verif.Request.enqueue_forward_report_partial",
    "Verif.Request.enqueue_forward_on_closed_mailbox_panic"
   ],
   "note": "The code panics: the conversion of a refused signal downcasts the message to the type of the error, which is () for enqueue and (M, ReplySender) for forward (enqueue_panics for every message type but (); forward_panics for every type). Proved: what is reported correctly. Exactly: enqueue panics iff refused and not of type () (enqueue_panics_iff); forward iff refused while the context holds the reply channel (forward_panics_iff)."
  },
  {
   "property": "C21",
   "status": "partial",
   "theorems": [
    "Verif.Lifecycle.stop_gracefully_panics_iff",
    "Verif.Request.stop_gracefully_on_stopped_actor_panics",
    "Verif.Request.refused_stop_gracefully_panics",
    "Verif.Request.stop_gracefully_reports_partial"
   ],
   "note": "The code panics: stop_gracefully on an actor that has ended unwraps the downcast of Signal::Stop (stop_gracefully_on_stopped_actor_panics, for every history). Proved: it returns Ok while the actor runs, and signal_stop reports ActorNotRunning. Exactly: it panics at once iff the actor has ended (stop_gracefully_panics_iff)."
  },
  {
   "property": "C22",
   "status": "proved",
   "theorems": [
    "Verif.System.never_linked_to_itself",
    "Verif.System.links_symmetric",
    "Verif.System.link_unlink_effect",
    "Verif.System.link_idempotent"
   ],
   "note": "Atomic link/unlink (both locks held while writing); local links. The lock acquisition is C26."
  },
  {
   "property": "C23",
   "status": "partial",
   "theorems": [
    "Verif.Lifecycle.on_link_died_per_signal",
    "Verif.Lifecycle.failed_start_never_notifies",
    "Verif.Lifecycle.links_taken_when_loop_ends",
    "Verif.Lifecycle.linked_actors_notified",
    "Verif.Lifecycle.failed_start_notifies_nobody",
    "Verif.System.linked_actors_told_exactly_once_partial",
    "Verif.System.told_at_most_once",
    "Verif.System.linked_actors_react_partial",
    "Verif.System.told_iff_left_linked"
   ],
   "note": "Proved for an actor that left its message loop, for every link graph, schedule and mailbox; in fair executions in which notifications get through everybody linked reacts exactly once (linked_actors_react_partial). False for a failed on_start: negation failed_start_notifies_nobody. For every failed start: failed_start_never_notifies. Exactly who is told, whenever linked: told_iff_left_linked."
  },
  {
   "property": "C24",
   "status": "partial",
   "theorems": [
    "Verif.System.failure_takes_down_exactly_the_component_partial",
    "Verif.System.normal_stop_takes_down_nobody",
    "Verif.System.failure_takes_down_exactly_what_it_reaches_partial",
    "Verif.System.failure_takes_down_the_component_if_started_partial",
    "Verif.System.failure_takes_down_what_it_reaches_live_partial",
    "Verif.System.abnormal_death_stops",
    "Verif.System.failure_takes_down_component_live_partial"
   ],
   "note": "Exact for actors linked at any time, also before they start: a failure takes down exactly what it reaches through links of actors that started well (failure_takes_down_exactly_what_it_reaches_partial, failure_takes_down_what_it_reaches_live_partial for infinite fair executions); the whole component if no on_start fails (failure_takes_down_the_component_if_started_partial). Fails in the code: one whose on_start fails tells nobody (failed_start_notifies_nobody)."
  },
  {
   "property": "C25",
   "status": "proved",
   "theorems": [
    "Verif.System.root_cause_preserved"
   ],
   "note": "With the default hooks, systems of local actors."
  },
  {
   "property": "C26",
   "status": "partial",
   "theorems": [
    "Verif.Locks.complete_or_circle",
    "Verif.Locks.tree_links_complete_partial",
    "Verif.Locks.Registry.works_under_locks",
    "Verif.Locks.Registry.link_made_under_both",
    "Verif.Locks.circle_never_completes",
    "Verif.Locks.opposite_links_deadlock",
    "Verif.Locks.opposite_blocking_links_deadlock",
    "Verif.Locks.ascending_links_deadlock",
    "Verif.Locks.dropped_call_leaves_nothing",
    "Verif.Locks.calls_take_finitely_many_steps",
    "Verif.Locks.ordered_blocking_calls_complete_partial",
    "Verif.Locks.async_calls_on_one_thread_complete_partial",
    "Verif.Locks.ring_deadlocks",
    "Verif.Locks.can_deadlock_iff_ring"
   ],
   "note": "Proved: calls fail to complete only by waiting in a circle (complete_or_circle). Complete: blocking calls in a common order, async calls whose first poll is not interleaved, and calls along a tree of actors, such as links with supervisors, in any direction and any number of threads (tree_links_complete_partial). False in general: negations opposite_links_deadlock, opposite_blocking_links_deadlock, ascending_links_deadlock. Every ring of calls about links, in any directions, even two equal ones, can deadlock on several threads (ring_deadlocks); along trees none can. Exactly: a set of calls can fail to complete if and only if there is a ring among them (can_deadlock_iff_ring)."
  },
  {
   "property": "C27",
   "status": "partial",
   "theorems": [
    "Verif.System.fair_deadlock",
    "Verif.System.stops_or_circle_partial",
    "Verif.System.stops_if_bounded_run",
    "Verif.System.stopping_ends_unbounded",
    "Verif.System.waits_only_for_waiting_partial",
    "Verif.System.full_mailboxes_deadlock",
    "Verif.System.stopping_actors_deadlock",
    "Verif.System.stopping_completes_partial",
    "Verif.System.unbounded_stopping_completes"
   ],
   "note": "Proved for unbounded mailboxes, in fair executions (stopping_ends_unbounded). With bounded ones a stopping actor finishes or waits for one that waits in the same way or was never started (waits_only_for_waiting_partial); with finitely many actors that is a chain into a circle or to an actor that was never started (stops_or_circle_partial), so it finishes if those with bounded mailboxes run (stops_if_bounded_run). The second case does happen: negations stopping_actors_deadlock, fair_deadlock."
  },
  {
   "property": "C28",
   "status": "partial",
   "theorems": [
    "Verif.Lifecycle.startup_wait_iff",
    "Verif.Lifecycle.full_start_hangs",
    "Verif.Lifecycle.killed_start_hangs",
    "Verif.Lifecycle.startup_wait_not_early",
    "Verif.Lifecycle.startup_wait_returns_on_failure_partial",
    "Verif.Lifecycle.startup_wait_returns_partial",
    "Verif.Lifecycle.startup_wait_hangs_when_full",
    "Verif.Lifecycle.startup_wait_hangs_when_killed",
    "Verif.Lifecycle.startup_wait_hangs_when_stopped"
   ],
   "note": "Never early: proved. Returns after completion: proved for failures and when the start-up signal is received; false otherwise: negations startup_wait_hangs_when_full / _killed / _stopped. Exact condition: startup_wait_iff; hangs in every history of this kind: full_start_hangs, killed_start_hangs."
  },
  {
   "property": "C29",
   "status": "proved",
   "theorems": [
    "Verif.Lifecycle.alive_until_ended",
    "Verif.Lifecycle.nothing_happens_after_shutdown",
    "Verif.Lifecycle.shutdown_complete",
    "Verif.Lifecycle.linked_actors_notified"
   ],
   "note": ""
  },
  {
   "property": "C30",
   "status": "proved",
   "theorems": [
    "Verif.Lifecycle.results_set_once",
    "Verif.Lifecycle.results_true"
   ],
   "note": ""
  },
  {
   "property": "C31",
   "status": "partial",
   "theorems": [
    "Verif.Lifecycle.never_stopped_for_lack_of_references",
    "Verif.Lifecycle.unreferenced_actor_never_stops"
   ],
   "note": "Upgrade and no stop for lack of references: proved. Stop at the last drop is false: unreferenced_actor_never_stops."
  },
  {
   "property": "C32",
   "status": "proved",
   "theorems": [
    "Verif.Registry.get_returns_current",
    "Verif.Registry.names_are_current",
    "Verif.Registry.results_are_current",
    "Verif.Registry.names_are_independent",
    "Verif.Registry.register_then_lookup"
   ],
   "note": "For every history of insert, remove and clear, against the history itself as specification."
  },
  {
   "property": "C33",
   "status": "proved",
   "theorems": [
    "Verif.ActorId.generated_ids_distinct",
    "Verif.ActorId.never_equal_to_other_peers",
    "Verif.ActorId.ids_repeat_after_wraparound"
   ],
   "note": "For every interleaving of generate and every width of the counter; the bound is exact (ids_repeat_after_wraparound)."
  },
  {
   "property": "C34",
   "status": "partial",
   "theorems": [
    "Verif.ActorId.bytes_roundtrip",
    "Verif.ActorId.bytes_injective",
    "Verif.ActorId.bytes_name_the_writer",
    "Verif.ActorId.bytes_before_bootstrap_name_the_reader",
    "Verif.ActorId.from_bytes_panics_iff_short",
    "Verif.ActorId.from_bytes_total_partial"
   ],
   "note": "Round trip and injectivity hold; from_bytes panics on fewer than 8 bytes (from_bytes_panics_iff_short)."
  },
  {
   "property": "C35",
   "status": "partial",
   "theorems": [
    "Verif.ActorId.eq_equivalence_hash",
    "Verif.ActorId.bootstrap_changes_hash_and_equality",
    "Verif.ActorId.key_not_found_after_bootstrap",
    "Verif.ActorId.eq_hash_stable_partial",
    "Verif.ActorId.hash_changes_iff",
    "Verif.ActorId.equality_changes_iff"
   ],
   "note": "At any moment equality is an equivalence and agrees with the hash; bootstrapping the swarm changes hash and equality of local ids (bootstrap_changes_hash_and_equality, key_not_found_after_bootstrap). Exactly which ids: hash_changes_iff, equality_changes_iff."
  },
  {
   "property": "C36",
   "status": "proved",
   "theorems": [
    "Verif.Request.map_msg_only_message",
    "Verif.Request.map_err_only_error",
    "Verif.Request.boxed_downcast_roundtrip",
    "Verif.Request.downcast_exact",
    "Verif.Request.flatten_keeps_all",
    "Verif.Request.unwrap_exactly"
   ],
   "note": "For all messages, errors and type codes."
  },
  {
   "property": "C37",
   "status": "partial",
   "theorems": [
    "Verif.Request.one_reply_channel_one_place",
    "Verif.Request.forwarded_answered_once",
    "Verif.Request.forwarded_tell",
    "Verif.Request.forwarded_tell_refused",
    "Verif.Request.forwarded_value_any_hops",
    "Verif.Request.forwarded_error_one_hop_partial",
    "Verif.Request.two_hops_error_panics",
    "Verif.Request.asker_panics_iff",
    "Verif.Request.infallible_any_hops",
    "Verif.Request.forward_failure_decoded"
   ],
   "note": "Values arrive for any number of hops; errors after one hop; with two or more hops and an error the asker panics (two_hops_error_panics). Whole chains of forwards: forwarded_answered_once, forwarded_tell, forwarded_tell_refused. Exactly when: asker_panics_iff; never for replies that cannot be errors: infallible_any_hops."
  },
  {
   "property": "C38",
   "status": "partial",
   "theorems": [
    "Verif.Stream.handled_all_but_those_behind",
    "Verif.Stream.prefix_if_none_behind_partial",
    "Verif.Stream.fallen_leaves_gap",
    "Verif.Stream.accepted_prefix_of_script",
    "Verif.Stream.all_accepted",
    "Verif.Stream.whole_unless_stopped",
    "Verif.Stream.handled_in_script_order",
    "Verif.Stream.handled_prefix_of_script_partial",
    "Verif.Stream.stream_items_lost",
    "Verif.Stream.failure_loses_items"
   ],
   "note": "Acceptance by the mailbox is always a prefix of the script, complete when the task ended normally; handling is always in script order without repetition; handling is a prefix unless a handler fails while the start-up buffer is emptied (stream_items_lost shows the loss). In every history of this kind: failure_loses_items. Exactly: handled_all_but_those_behind, prefix_if_none_behind_partial, and a gap in every history in which a later message of the stream is handled: fallen_leaves_gap."
  },
  {
   "property": "C39",
   "status": "proved",
   "theorems": [
    "Verif.Lifecycle.taken_reply_only_from_sender",
    "Verif.Lifecycle.taken_handler_silent",
    "Verif.Lifecycle.delegated_reply_delivered",
    "Verif.Lifecycle.delegated_reply_dropped",
    "Verif.Lifecycle.delegated_survives_actor"
   ],
   "note": ""
  },
  {
   "property": "C40",
   "status": "partial",
   "theorems": [
    "Verif.Pool.pool_size",
    "Verif.Pool.worker_replaced_partial",
    "Verif.Pool.unknown_death",
    "Verif.Pool.full_inner_actor_stops_pool",
    "Verif.Pool.stopped_worker_fails_dispatch",
    "Verif.Pool.pool_can_upgrade",
    "Verif.Pool.unreferenced_pool_keeps_dead_worker"
   ],
   "note": "The pool always has exactly the configured number of workers, and a reported death replaces that worker in place if the inner actor's mailbox has room. With no free slot the factory's mailbox::bounded(0) panics and the pool stops (full_inner_actor_stops_pool). The pool does not miss a death for lack of references: pool_can_upgrade."
  },
  {
   "property": "C41",
   "status": "proved",
   "theorems": [
    "Verif.Pool.dispatch_least_loaded",
    "Verif.Pool.waiting_dispatch",
    "Verif.Pool.dispatched_once",
    "Verif.Pool.worker_history"
   ],
   "note": "The least-loaded worker, first of those, is picked; the load of a worker is the number of messages given to it and not finished; every dispatched message goes to one worker."
  },
  {
   "property": "C42",
   "status": "partial",
   "theorems": [
    "Verif.Pool.dispatch_gets_through_iff",
    "Verif.Pool.dispatch_succeeds_partial",
    "Verif.Pool.delivered_to_running",
    "Verif.Pool.stopped_worker_fails_dispatch",
    "Verif.Pool.all_stopped_reported",
    "Verif.Pool.dispatch_does_not_survive",
    "Verif.Pool.asks_beside_dead_inner"
   ],
   "note": "False in the code: the retries pick the same stopped least-loaded worker again, so one stopped worker fails the dispatch (stopped_worker_fails_dispatch, for all states) and can stop the pool. Proved: dispatch succeeds if a picked worker runs; messages are only delivered to running workers; failure is reported. For every sequence of asks beside a worker whose inner actor is gone: asks_beside_dead_inner. Exactly when a dispatch gets through: every stopped worker comes behind a running one that has nothing to do (dispatch_gets_through_iff)."
  },
  {
   "property": "C43",
   "status": "proved",
   "theorems": [
    "Verif.Pool.broadcast_once_each",
    "Verif.Pool.copy_fails_only_if_stopped"
   ],
   "note": "Every worker gets one copy, in any order of completion; a copy fails only if that worker is stopped."
  },
  {
   "property": "C44",
   "status": "proved",
   "theorems": [
    "Verif.PubSub.publish_exact",
    "Verif.PubSub.publish_removes",
    "Verif.PubSub.resubscribe_replaces",
    "Verif.PubSub.publish_step_by_step",
    "Verif.PubSub.at_most_one_copy"
   ],
   "note": "Against a specification computed from the history of subscribes, unsubscribes and failed sends."
  },
  {
   "property": "C45",
   "status": "partial",
   "theorems": [
    "Verif.Router.broker_stopped_accepts_nothing",
    "Verif.Router.stopped_kept_under_other_pattern",
    "Verif.Router.broker_publish_exact",
    "Verif.Router.broker_subscribe",
    "Verif.Router.broker_unsubscribe",
    "Verif.Router.broker_keeps",
    "Verif.Router.broker_drops_stopped_partial",
    "Verif.Router.broker_task_unsubscribe",
    "Verif.Router.broker_finish_exact"
   ],
   "note": "For every history, every matching relation and every strategy, including tasks of earlier publishes running meanwhile. Missing: `dropped from every later delivery' is proved per pattern (broker_drops_stopped_partial), and for what is accepted (broker_stopped_accepts_nothing); the broker does try a subscriber it found stopped again, under patterns that had not matched (stopped_kept_under_other_pattern, for every such history)."
  },
  {
   "property": "C46",
   "status": "proved",
   "theorems": [
    "Verif.Router.bus_stopped_accepts_nothing",
    "Verif.Router.bus_kept_under_other_type",
    "Verif.Router.bus_never_panics",
    "Verif.Router.bus_types",
    "Verif.Router.bus_publish_exact",
    "Verif.Router.bus_delivers_own_type",
    "Verif.Router.bus_register",
    "Verif.Router.bus_unregister",
    "Verif.Router.bus_keeps",
    "Verif.Router.bus_drops_stopped",
    "Verif.Router.bus_task_unregister"
   ],
   "note": "For every history over any set of types and every strategy. `Stopped receivers are removed' is read per registration: a publish of its type removes it (bus_drops_stopped); registrations for other types stay until one of those is published (bus_kept_under_other_type), but nothing is accepted for them (bus_stopped_accepts_nothing)."
  },
  {
   "property": "C47",
   "status": "partial",
   "theorems": [
    "Verif.Router.broker_keeps",
    "Verif.Router.bus_keeps",
    "Verif.Router.guaranteed_never_drops",
    "Verif.Router.guaranteed_reaches_live",
    "Verif.Router.best_effort_exact",
    "Verif.Router.timed_exact",
    "Verif.Router.guaranteed_waits",
    "Verif.Router.task_ruling",
    "Verif.Router.broker_spawned_delivers",
    "Verif.Router.bus_spawned_delivers",
    "Verif.Router.others_reached",
    "Verif.Router.not_prevented_partial",
    "Verif.Router.guaranteed_blocks",
    "Verif.Router.guaranteed_prevents"
   ],
   "note": "All clauses proved, except that one slow recipient does prevent delivery to the others under Guaranteed: guaranteed_blocks (for every state and every continuation) and guaranteed_prevents. not_prevented_partial proves the clause for the other four strategies."
  },
  {
   "property": "C48",
   "status": "partial",
   "theorems": [
    "Verif.Remote.ask_runs_handler",
    "Verif.Remote.ask_runs_nothing",
    "Verif.Remote.ask_runs_iff",
    "Verif.Remote.tell_runs_handler",
    "Verif.Remote.tell_runs_nothing",
    "Verif.Remote.tell_reports",
    "Verif.Remote.caller_gets_callee_result_partial",
    "Verif.Remote.caller_told_which_failed",
    "Verif.Remote.timeouts_conflated",
    "Verif.Remote.reply_decode_error_blames_message",
    "Verif.Remote.no_peers_misreported",
    "Verif.Remote.lost_on_the_way",
    "Verif.Remote.teller_gets_callee_result",
    "Verif.Remote.teller_told_which_failed",
    "Verif.Remote.tell_lost_on_the_way",
    "Verif.Remote.unserialisable_not_sent",
    "Verif.Remote.panic_at_callee_is_closed",
    "Verif.Remote.served_alone",
    "Verif.Remote.duplicates_serve_nothing",
    "Verif.Swarm.ask_command_runs_handler",
    "Verif.Swarm.tell_command_runs_handler"
   ],
   "note": "Dispatch at the callee is proved exactly (ask_runs_handler, ask_runs_nothing, ask_runs_iff, tell_*), and that the caller sees the callee's error. Three clauses are false of the code and disproved: a mailbox timeout and a reply timeout are both ReplyTimeout (timeouts_conflated), a reply the caller cannot decode is reported as DeserializeMessage though the handler ran (reply_decode_error_blames_message), and without peers an actor of another node is reported as not running (no_peers_misreported)."
  },
  {
   "property": "C49",
   "status": "partial",
   "theorems": [
    "Verif.Swarm.swarm_dead_iff",
    "Verif.Swarm.bad_record_kills_swarm",
    "Verif.Swarm.refused_record_kills_swarm",
    "Verif.Swarm.swarm_survives_partial",
    "Verif.Swarm.record_roundtrip",
    "Verif.Swarm.record_injective",
    "Verif.Swarm.lookup_of_record",
    "Verif.Swarm.lookup_says",
    "Verif.Swarm.local_lookup_of_record",
    "Verif.Swarm.local_lookup_type_checked",
    "Verif.Swarm.malformed_record_panics"
   ],
   "note": "Round trip and injectivity of registration records are proved for all ids and names of the sizes the format allows. The last part of the statement is false: a removed (empty) or malformed record brings the swarm task down (malformed_record_panics, bad_record_kills_swarm), as does a record refused by the store (refused_record_kills_swarm); swarm_survives_partial gives the condition under which the swarm survives. Exactly what kills the swarm task: swarm_dead_iff."
  },
  {
   "property": "C50",
   "status": "proved",
   "theorems": [
    "Verif.Swarm.at_most_one_response",
    "Verif.Swarm.request_gets_its_answer",
    "Verif.Swarm.lookup_gets_its_answer",
    "Verif.Swarm.put_gets_its_answer",
    "Verif.Swarm.nobody_forgotten",
    "Verif.Swarm.unknown_ids_change_nothing",
    "Verif.Swarm.local_request_gets_its_answer",
    "Verif.Swarm.no_caller_panics"
   ],
   "note": "For all interleavings of commands, events, spawned tasks and peer changes. Assumes of libp2p that request and query ids are fresh and that response events carry the id of the request they answer."
  },
  {
   "property": "C51",
   "status": "partial",
   "theorems": [
    "Verif.Swarm.disconnect_signals_exact",
    "Verif.Swarm.signals_bounded_by_closures",
    "Verif.Swarm.each_closure_signalled_partial",
    "Verif.Swarm.dropped_link_not_signalled",
    "Verif.Swarm.connections_counted",
    "Verif.Swarm.closure_is_last_partial",
    "Verif.Swarm.disconnect_signalled_while_connected",
    "Verif.Swarm.signalled_while_connected",
    "Verif.Swarm.Sweep.pass_tells",
    "Verif.Swarm.Sweep.pass_ends",
    "Verif.Swarm.Sweep.signals_bounded_stepwise",
    "Verif.Swarm.Sweep.each_closure_signalled_stepwise_partial"
   ],
   "note": "Exactly one signal for each link of each live actor per closed connection, none for other peers, none without a closed connection. The code ignores num_established, so the signal also comes while other connections to the peer remain (disconnect_signalled_while_connected); closure_is_last_partial states the property when there is one connection at a time. pass_tells, pass_ends, signals_bounded_stepwise and each_closure_signalled_stepwise_partial say the same of the task as it goes through the registry and the links step by step while everything else goes on. In every state with a second connection: signalled_while_connected."
  },
  {
   "property": "C52",
   "status": "partial",
   "theorems": [
    "Verif.Remote.link_remote_ok_both_linked",
    "Verif.Remote.link_remote_error_own_side_linked",
    "Verif.Remote.link_remote_error_sibling_untouched_partial",
    "Verif.Remote.link_remote_lost_response_links_both",
    "Verif.Remote.link_remote_error_true",
    "Verif.Remote.link_both_result",
    "Verif.Remote.link_both_ok",
    "Verif.Remote.link_both_error_one_sided",
    "Verif.Remote.unlink_remote_ok_neither_linked",
    "Verif.Remote.unlink_remote_error_own_side_unlinked",
    "Verif.Remote.no_swarm_says_so",
    "Verif.Remote.unlink_both_ok",
    "Verif.Remote.unlink_both_error_one_side",
    "Verif.Remote.self_link_remote_nothing",
    "Verif.Remote.no_other_link_changes",
    "Verif.Swarm.link_command_links_sibling",
    "Verif.Swarm.unlink_command_unlinks_sibling"
   ],
   "note": "Ok implies both sides linked (link_remote_ok_both_linked, link_both_ok). The error half is false: every failed link_remote leaves the caller's side linked (link_remote_error_own_side_linked), a lost response leaves both linked, and linking two remote actors may link one side only (link_both_error_one_sided). What holds of the sibling's side is link_remote_error_sibling_untouched_partial. The error itself is true (link_remote_error_true)."
  },
  {
   "property": "C53",
   "status": "partial",
   "theorems": [
    "Verif.Wire.reason_survives_partial",
    "Verif.Wire.reason_without_panic_exact_partial",
    "Verif.Wire.panic_message_grows",
    "Verif.Wire.panic_other_becomes_string",
    "Verif.Wire.panic_message_never_survives",
    "Verif.Wire.error_survives_partial",
    "Verif.Wire.io_never_arrives",
    "Verif.Wire.mapErr_spec",
    "Verif.Wire.flatten_spec"
   ],
   "note": "Variants and ids survive any number of hops (reason_survives_partial), reasons without a panic exactly, errors except Io exactly (error_survives_partial). Panic messages never survive: each hop prefixes 'panicked: ' (panic_message_grows, panic_message_never_survives); Io errors cannot be sent (io_never_arrives)."
  },
  {
   "property": "C54",
   "status": "partial",
   "theorems": [
    "Verif.Lifecycle.task_dies_iff",
    "Verif.Lifecycle.on_panic_panic_silences",
    "Verif.Lifecycle.on_stop_panic_silences",
    "Verif.Lifecycle.other_panics_contained_partial",
    "Verif.Lifecycle.panic_in_on_panic_escapes",
    "Verif.Lifecycle.panic_in_on_stop_escapes"
   ],
   "note": "Proved for panics in all other user code; false for on_panic and on_stop: negations panic_in_on_panic_escapes, panic_in_on_stop_escapes. In every history: on_panic_panic_silences, on_stop_panic_silences. Exactly when a task dies without an orderly end: task_dies_iff."
  },
  {
   "property": "C55",
   "status": "partial",
   "theorems": [
    "Verif.Current.current_is_enclosing",
    "Verif.Current.current_iff_owner_partial",
    "Verif.Current.spawned_actor_recognises_itself",
    "Verif.Current.new_id_fresh",
    "Verif.Current.self_send_not_recognised",
    "Verif.Current.other_actor_counts_as_self",
    "Verif.Current.local_task_counts_as_self",
    "Verif.Current.current_iff_enclosing",
    "Verif.Current.inner_counts_as_outer",
    "Verif.Current.recognition_fails"
   ],
   "note": "False for PreparedActor::run, for actors run inside another actor's handler, and for LocalSet tasks polled inside a scope (self_send_not_recognised, other_actor_counts_as_self, local_task_counts_as_self). Proved: exact for actors that are spawned; in general the innermost enclosing scope decides. What is recognised, exactly: current_iff_enclosing; wherever an actor is run in place or a local task is polled: inner_counts_as_outer."
  },
  {
   "property": "C56",
   "status": "partial",
   "theorems": [
    "Verif.Hook.default_hook_partial",
    "Verif.Hook.hook_over_arrivals_partial",
    "Verif.Hook.kept_back_until_error",
    "Verif.Hook.hook_ignored",
    "Verif.Hook.hook_sees_all_iff",
    "Verif.Hook.counting_not_called"
   ],
   "note": "False: on_message is never called (hook_ignored: behaviour does not depend on it). Proved for actors that keep the default hook, and exactly when the claim holds (hook_sees_all_iff)."
  },
  {
   "property": "C57",
   "status": "partial",
   "theorems": [
    "Verif.Remote.death_signals_exact_partial",
    "Verif.Remote.death_signal_dispatch",
    "Verif.Remote.no_swarm_no_death_signals",
    "Verif.Remote.linked_then_dead",
    "Verif.Remote.Flight.lost_notice_never_told",
    "Verif.Swarm.death_command_signals_notified"
   ],
   "note": "Proved on a node with a swarm for every signal that arrives: one per link, to that actor and nobody else, with the right id and reason. Missing, and false: on a node without a swarm no signal is sent though the links are recorded (no_swarm_no_death_signals); a signal that the network loses is not sent again, and its actor is never told (lost_notice_never_told)."
  },
  {
   "property": "C58",
   "status": "partial",
   "theorems": [
    "Verif.Swarm.unregister_works_iff",
    "Verif.Swarm.registered_name_is_found",
    "Verif.Swarm.unregistered_name_is_gone_partial",
    "Verif.Swarm.unregister_without_peers_does_nothing",
    "Verif.Swarm.register_takes_over"
   ],
   "note": "Registered names are found until a step touches them. Unregistering holds only with peers connected (unregister_without_peers_does_nothing), and a taken name is taken over silently (register_takes_over). Exactly: an unregistered name is no longer found on the node iff it had peers at that moment, or there was no record, or the record was one published by this node (unregister_works_iff)."
  },
  {
   "property": "C59",
   "status": "proved",
   "theorems": [
    "Verif.Swarm.answers_fit",
    "Verif.Swarm.ask_never_unexpected",
    "Verif.Swarm.tell_never_unexpected",
    "Verif.Swarm.responses_in_kind",
    "Verif.Swarm.network_honest",
    "Verif.Swarm.network_genuine",
    "Verif.Swarm.wrong_kind_panics",
    "Verif.Swarm.wrong_kind_always_panics"
   ],
   "note": "For all interleavings on all nodes of a network whose nodes run this code. Against a peer that runs other code the panic is reachable: wrong_kind_panics. In every state: wrong_kind_always_panics."
  },
  {
   "property": "C60",
   "status": "partial",
   "theorems": [
    "Verif.Lifecycle.accepted_message_handled_or_behind",
    "Verif.Lifecycle.behind_never_handled",
    "Verif.Lifecycle.accepted_message_handled_partial",
    "Verif.Lifecycle.accepted_message_never_handled"
   ],
   "note": "In every fair infinite execution accepted messages are handled unless the actor ends (accepted_message_handled_partial), if no handler fails for an outside message received before start-up was over. Without that condition false: accepted_message_never_handled. Exactly: a message is handled, or the actor ends, or it waits in the start-up buffer behind a message whose handler fails (accepted_message_handled_or_behind), and then it never is (behind_never_handled)."
  },
  {
   "property": "C61",
   "status": "proved",
   "theorems": [
    "Verif.Lifecycle.stopping_comes_to_end"
   ],
   "note": "Fairness (that user code returns, that notifications get through, that the task is scheduled) is the hypothesis Fair; when notifications do not get through is C27."
  },
  {
   "property": "C62",
   "status": "partial",
   "theorems": [
    "Verif.Request.handle_panics_iff_partial",
    "Verif.Request.stale_marker_panics",
    "Verif.Request.handle_panics_iff"
   ],
   "note": "Exact condition for a panic (handle_panics_iff_partial); negation stale_marker_panics; refused forwards panic too (forward_panics under C20). Exactly, refused forwards included: handle_panics_iff."
  },
  {
   "property": "C63",
   "status": "partial",
   "theorems": [
    "Verif.Lifecycle.startup_result_panics_iff",
    "Verif.Lifecycle.shutdown_result_panics_iff",
    "Verif.Lifecycle.startup_result_true_partial",
    "Verif.Lifecycle.startup_result_panics",
    "Verif.Lifecycle.shutdown_result_true_partial",
    "Verif.Lifecycle.shutdown_result_waits",
    "Verif.Lifecycle.shutdown_result_panics"
   ],
   "note": "True results when on_start did not panic and the task returned; negations startup_result_panics (on_start panicked) and shutdown_result_panics (task torn down, e.g. on_stop panicked). That wait_for_startup_result returns at all is C28. Exactly when they panic: startup_result_panics_iff, shutdown_result_panics_iff."
  },
  {
   "property": "C64",
   "status": "partial",
   "theorems": [
    "Verif.Lifecycle.hook_missed_iff",
    "Verif.Lifecycle.hook_heard_all_iff",
    "Verif.Lifecycle.hook_only_for_failures",
    "Verif.Lifecycle.hook_told_all",
    "Verif.Lifecycle.hook_at_once_partial",
    "Verif.Lifecycle.hook_waits_for_links"
   ],
   "note": "Exactly once, in order, for nothing else (hook_only_for_failures, hook_told_all); at once except for an error of on_stop, which waits for the links: hook_waits_for_links. Exactly: the hook has not heard of an error iff it is that of an on_stop after which links are still being notified, or the task was dropped by the runtime while they were (hook_missed_iff, hook_heard_all_iff)."
  },
  {
   "property": "C65",
   "status": "partial",
   "theorems": [
    "Verif.Lifecycle.panic_payload_iff",
    "Verif.Lifecycle.error_downcasts",
    "Verif.Lifecycle.downcast_by_type",
    "Verif.Lifecycle.panic_text",
    "Verif.Lifecycle.panic_payload_partial",
    "Verif.Lifecycle.panic_payload_hidden"
   ],
   "note": "Errors and string payloads are got back; negation panic_payload_hidden: any other payload stays inside a box. Exactly which payloads are got back: panic_payload_iff."
  },
  {
   "property": "C66",
   "status": "partial",
   "theorems": [
    "Verif.Listed.listed_after_end_iff",
    "Verif.Listed.ended_unlisted_partial",
    "Verif.Listed.listed_until_finish",
    "Verif.Listed.unregister_keeps_reference",
    "Verif.Listed.listed_after_end_for_ever",
    "Verif.Listed.failed_start_stays_listed",
    "Verif.Listed.torn_down_stays_listed",
    "Verif.Listed.late_registration_stays_listed"
   ],
   "note": "Listed until the task ends (listed_until_finish); not listed after a task that started and returned, if everything that listed it came before (ended_unlisted_partial). Exactly which ended actors the registry still lists: listed_after_end_iff. False otherwise: failed_start_stays_listed, torn_down_stays_listed, late_registration_stays_listed, for ever in each case (listed_after_end_for_ever); unregister removes nothing (unregister_keeps_reference)."
  },
  {
   "property": "C67",
   "status": "partial",
   "theorems": [
    "Verif.Locks.Registry.works_under_locks",
    "Verif.Locks.Registry.link_made_under_both",
    "Verif.Locks.Registry.lost_connection_one_thread_partial",
    "Verif.Locks.Registry.lost_connection_blocks_node",
    "Verif.Locks.Registry.blocking_links_block_node",
    "Verif.Locks.Registry.lost_connection_never_blocks_partial"
   ],
   "note": "False with asynchronous links between actors of the same node: two opposite links that wait for each other stop the sweep, which holds the registry's lock for ever, and with it everything remote and the end of every actor (lost_connection_blocks_node). Proved for all other calls, with blocking links made in one order of the actors. Proved as well for asynchronous links in any directions where the two requests of a link are not interrupted (one thread): lost_connection_one_thread_partial. Whatever happens, calls work under the locks they need and keep none (works_under_locks, link_made_under_both)."
  },
  {
   "property": "C68",
   "status": "proved",
   "theorems": [
    "Verif.Macros.messages_render_methods",
    "Verif.Macros.invalid_message_is_error",
    "Verif.Macros.self_type_error_iff",
    "Verif.Macros.block_is_kept"
   ],
   "note": "Blocks on which the macro panics, and self types that are not a path (an error by itself), are excluded. Tokens and spans are not modelled; upper camel case is an arbitrary function."
  },
  {
   "property": "C69",
   "status": "partial",
   "theorems": [
    "Verif.Macros.message_generics_fit_partial",
    "Verif.Macros.nested_generic_undeclared",
    "Verif.Macros.returned_generic_mismatch",
    "Verif.Macros.repeated_generic_declared_twice",
    "Verif.Macros.const_generic_undeclared",
    "Verif.Macros.lifetime_and_type_panics",
    "Verif.Macros.implemented_for_other_type",
    "Verif.Macros.implemented_for_block_partial",
    "Verif.Macros.implemented_for_block_iff"
   ],
   "note": "Proved for blocks with at most one generic parameter (a type) mentioned only at positions the search visits (message_generics_fit_partial) and for self types written with the block's own parameters (implemented_for_block_partial). False otherwise: parameters inside of path arguments are not declared, parameters only returned are used but not declared, repeated ones are declared twice, constants never, a lifetime together with a type makes the macro panic, and impl Store<u32> or impl m::Store is implemented for another type. Exactly: an implementation is for the type of the block iff that is one name with the block's own parameters (implemented_for_block_iff)."
  },
  {
   "property": "C70",
   "status": "proved",
   "theorems": [
    "Verif.Macros.Derive.actor_name",
    "Verif.Macros.Derive.remote_id",
    "Verif.Macros.Derive.default_remote_ids_differ"
   ],
   "note": "The grammar of attributes is reduced to lists of key = literal items; identifiers are assumed to contain no colon."
  },
  {
   "property": "C71",
   "status": "partial",
   "theorems": [
    "Verif.System.link_honoured_partial",
    "Verif.System.link_honoured_live_partial",
    "Verif.System.link_too_late",
    "Verif.System.failed_start_tells_nobody",
    "Verif.System.told_iff_left_linked"
   ],
   "note": "Proved for every link made before the actor that ends has left its loop (link_honoured_partial, link_honoured_live_partial). False in the code otherwise: link succeeds on an actor that has left its loop or is long gone and has no effect ever (link_too_late), and an actor whose on_start fails tells nobody (failed_start_tells_nobody). Exactly who is told: told_iff_left_linked."
  },
  {
   "property": "C72",
   "status": "partial",
   "theorems": [
    "Verif.Handles.handle_is_one_actor",
    "Verif.Handles.strong_count_exact",
    "Verif.Handles.weak_count_exact",
    "Verif.Handles.links_counted",
    "Verif.Handles.handles_counted",
    "Verif.Handles.counts_not_as_documented",
    "Verif.Handles.counts_as_documented_iff",
    "Verif.Handles.upgrade_iff",
    "Verif.Handles.gone_for_good",
    "Verif.Handles.no_weak_recipient"
   ],
   "note": "Identity (handle_is_one_actor), exact meaning of the counts (strong_count_exact, weak_count_exact), upgrade (upgrade_iff, gone_for_good) are proved for all programs. Not as documented: the counts include recipients, mailbox senders and link entries (counts_not_as_documented; exactly when: counts_as_documented_iff), and Recipient::downgrade is todo!(), so it always panics and no WeakRecipient exists (no_weak_recipient)."
  },
  {
   "property": "C73",
   "status": "proved",
   "theorems": [
    "Verif.Timed.methods_there",
    "Verif.Timed.no_time_out_forgotten",
    "Verif.Timed.methods_keep_their_meaning",
    "Verif.Timed.tell_time_out_kept",
    "Verif.Timed.tell_waits",
    "Verif.Timed.remote_ask_time_outs_kept",
    "Verif.Timed.remote_tell_time_outs_kept",
    "Verif.Timed.maybe_keeps",
    "Verif.Timed.mailbox_time_out_true",
    "Verif.Timed.mailbox_time_out_ends_with_acceptance",
    "Verif.Timed.reply_time_out_true",
    "Verif.Timed.never_waits_for_room",
    "Verif.Timed.time_outs_bound_the_wait",
    "Verif.Timed.overdue_poll_ends",
    "Verif.Timed.room_beats_clock",
    "Verif.Timed.reply_beats_clock",
    "Verif.Timed.pending_reply_waits",
    "Verif.Timed.enqueue_time_out_runs_late",
    "Verif.Timed.actor_goes_on_without_await",
    "Verif.Timed.answer_was_given"
   ],
   "note": "Model with a clock over the mailbox model. Disagreement with the documentation of enqueue/PendingReply (\"the actor will not progress until the pending reply has been awaited or dropped\"): actor_goes_on_without_await. The reply time-out of an enqueued request runs only from the await: enqueue_time_out_runs_late. A timer is looked at when the request is polled; tokio's cooperative budget is not modelled."
  },
  {
   "property": "C74",
   "status": "partial",
   "theorems": [
    "Verif.Lifecycle.waits_true_partial",
    "Verif.Lifecycle.wait_for_stop_returns_early",
    "Verif.Lifecycle.wait_for_stop_hangs",
    "Verif.Lifecycle.wait_for_stop_of_the_gone",
    "Verif.Lifecycle.wait_for_stop_iff"
   ],
   "note": "Proved for all methods but wait_for_stop, which waits for the start-up instead: proved to return while the actor runs, and to wait for ever after an early stop. Exactly: wait_for_stop returns iff on_start failed or the start-up signal was taken (wait_for_stop_iff)."
  },
  {
   "property": "C75",
   "status": "partial",
   "theorems": [
    "Verif.Calls.handlers_end",
    "Verif.Calls.requests_answered",
    "Verif.Calls.asks_come_back",
    "Verif.Calls.circle_if_never_ends",
    "Verif.Calls.reply_heard",
    "Verif.Calls.circle_stays",
    "Verif.Calls.ended_frees",
    "Verif.Calls.self_ask_hangs",
    "Verif.Calls.self_ask_only_times_out",
    "Verif.Calls.self_send_warned_partial",
    "Verif.Calls.blocking_warned_iff",
    "Verif.Calls.hang_by_try_send_unwarned",
    "Verif.Calls.hang_by_others_unwarned",
    "Verif.Calls.self_tells_hang",
    "Verif.Calls.self_tells_pass"
   ],
   "note": "All but the last sentence proved. The warnings cover an actor's own send to itself only (self_send_warned_partial); ask(..).try_send() to itself and two actors asking each other hang unwarned, and the advice to tell instead can hang too. Exactly: of the requests that can block for ever, those made by an actor to itself by send are warned of (blocking_warned_iff)."
  },
  {
   "property": "C76",
   "status": "partial",
   "theorems": [
    "Verif.Next.calls_in_order",
    "Verif.Next.start_once",
    "Verif.Next.over_is_over",
    "Verif.Next.handled_once",
    "Verif.Next.handled_in_order",
    "Verif.Next.returned_handled",
    "Verif.Next.held_back",
    "Verif.Next.asks_settled",
    "Verif.Next.no_outcome_yet",
    "Verif.Next.reply_from_handler",
    "Verif.Next.handler_answers",
    "Verif.Next.kill_ends",
    "Verif.Next.abort_needs_kill",
    "Verif.Next.stays_in_next",
    "Verif.Next.next_panic_no_hooks",
    "Verif.Next.second_startup_crashes",
    "Verif.Next.crash_causes",
    "Verif.Next.alive_until_over_partial",
    "Verif.Next.closed_while_running",
    "Verif.Next.closed_for_good",
    "Verif.Next.kept_ask_hangs",
    "Verif.Next.taken_reply_waits",
    "Verif.Next.taken_error_panics",
    "Verif.Next.killed_before_start",
    "Verif.Next.give_up_harmless"
   ],
   "note": "All but the last two clauses and one exception proved. A panic in next is caught by nobody: neither on_panic nor on_stop is called and the links hear nothing (next_panic_no_hooks); returning StartupFinished twice panics the task (second_startup_crashes); a next that closes the receiver makes is_alive false while the actor runs (closed_while_running, alive_until_over_partial); an ask whose signal is in the actor's fields hangs until the actor returned by run is dropped (kept_ask_hangs)."
  },
  {
   "property": "C77",
   "status": "proved",
   "theorems": [
    "Verif.Plain.default_is_special",
    "Verif.Plain.special_is_default"
   ],
   "note": "Two simulations between Verif.Lifecycle and Verif.Next, in both directions, for every mailbox capacity and every history: with kills before, during and after on_start, mailboxes that are full when on_start ends, reply senders that handlers take, asks that are given up and tasks that are torn down. Fits says which histories of Verif.Next, which has no capacity of its own, are those of a mailbox of that capacity; what senders that wait for room do is in Verif.Lifecycle only."
  },
  {
   "property": "C78",
   "status": "partial",
   "theorems": [
    "Verif.Macros.Remote.remote_message_accepts",
    "Verif.Macros.Remote.any_trait_is_accepted",
    "Verif.Macros.Remote.remote_message_registers_partial",
    "Verif.Macros.Remote.generic_remote_message_fails",
    "Verif.Macros.Remote.derive_registers_partial",
    "Verif.Macros.Remote.derive_generic_fails",
    "Verif.Macros.Remote.remote_message_found",
    "Verif.Macros.Remote.duplicate_message_panics",
    "Verif.Macros.Remote.remote_actor_found",
    "Verif.Macros.Remote.manual_actor_not_linkable"
   ],
   "note": "Proved without generic parameters. False with any: the parameters are put behind the actor type once more and are mentioned in a static where they are not in scope (generic_remote_message_fails, derive_generic_fails). False as to which trait: it is not looked at (any_trait_is_accepted). False for a handwritten RemoteActor: it is not registered and cannot be linked to (manual_actor_not_linkable)."
  },
  {
   "property": "C79",
   "status": "partial",
   "theorems": [
    "Verif.Reply.value_types_fit",
    "Verif.Reply.asker_types",
    "Verif.Reply.asker_gets_reply",
    "Verif.Reply.conversion_panics_iff",
    "Verif.Reply.to_result_says",
    "Verif.Reply.told_error_iff",
    "Verif.Reply.errors_inside_are_data",
    "Verif.Reply.tuple_replies",
    "Verif.Reply.library_replies",
    "Verif.Reply.derived_replies",
    "Verif.Reply.no_replies",
    "Verif.Reply.not_all_of_std",
    "Verif.Reply.handwritten_can_panic"
   ],
   "note": "All but the last sentence proved. Not every type of the standard library is a reply (not_all_of_std), tuples only up to 26 components (tuple_replies), and nothing stops a handwritten implementation whose types do not fit, with which the asker panics (handwritten_can_panic)."
  },
  {
   "property": "C80",
   "status": "partial",
   "theorems": [
    "Verif.Swarm.relink_in_hook_lost",
    "Verif.Swarm.old_news_cuts_new_link",
    "Verif.Swarm.renewed_link_holds_partial",
    "Verif.Swarm.news_heard_and_forgotten",
    "Verif.Swarm.told_death_heard",
    "Verif.Swarm.lost_peer_is_news",
    "Verif.Swarm.no_news_for_stopped",
    "Verif.Swarm.link_survives_iff"
   ],
   "note": "Proved: news is handled and the link forgotten, no other link changes (news_heard_and_forgotten); a link made when no old news is about holds (renewed_link_holds_partial). False in the code otherwise: handle_link_died removes the link after the hook has returned, so a link made while on_link_died runs is always lost (relink_in_hook_lost), and a signal still in the mailbox cuts the link made after it was sent (old_news_cuts_new_link). Exactly which links survive: link_survives_iff."
  },
  {
   "property": "C81",
   "status": "partial",
   "theorems": [
    "Verif.PubSub.slow_subscriber_blocks_all",
    "Verif.PubSub.own_copy_arrives_partial",
    "Verif.PubSub.publish_ends_partial",
    "Verif.PubSub.every_message_published_partial",
    "Verif.PubSub.nobody_can_leave",
    "Verif.PubSub.given_up_publish",
    "Verif.PubSub.panicking_filter",
    "Verif.PubSub.only_subscribers_panic",
    "Verif.PubSub.mailboxes_bounded"
   ],
   "note": "Proved: within one publish a slow subscriber delays nobody else's copy (own_copy_arrives_partial); a publish ends, and all messages are published, if every subscriber still to be reached makes room again and again (publish_ends_partial, every_message_published_partial); what a dropped publish leaves (given_up_publish). False in the code: publish awaits all tells together, without time-out, so one subscriber with a full mailbox that it does not empty blocks the pubsub for all, for ever (slow_subscriber_blocks_all); there is no unsubscribe although the module documentation claims one (nobody_can_leave)."
  },
  {
   "property": "C82",
   "status": "partial",
   "theorems": [
    "Verif.Lifecycle.barrier_parts_calls",
    "Verif.Lifecycle.news_overtakes_all",
    "Verif.Lifecycle.calls_exact",
    "Verif.Lifecycle.news_in_turn_partial",
    "Verif.Lifecycle.news_overtakes_message",
    "Verif.Lifecycle.news_drops_messages",
    "Verif.Lifecycle.early_end_drops_all"
   ],
   "note": "Proved: the exact order of all calls of handlers and of on_link_died, for every history (calls_exact); once the start-up is finished and the messages put aside are handled, everything has its turn in the order of acceptance and nothing is skipped (news_in_turn_partial). False in the code while the actor starts: messages from outside are put aside, the news of deaths are not, so the news overtakes them (news_overtakes_message); if on_link_died then stops the actor they are all dropped (news_drops_messages), as they are whatever ends the loop before the start-up is finished (early_end_drops_all). Stop requests and the end of the start-up part the calls in two: barrier_parts_calls. In every state before: news_overtakes_all."
  },
  {
   "property": "C83",
   "status": "partial",
   "theorems": [
    "Verif.Lifecycle.told_stopped_partial",
    "Verif.Lifecycle.told_not_running",
    "Verif.Lifecycle.told_full",
    "Verif.Lifecycle.told_timeout",
    "Verif.Lifecycle.buffered_told_stopped",
    "Verif.Lifecycle.dropped_told_stopped",
    "Verif.Lifecycle.told_stopped_of_running",
    "Verif.Lifecycle.told_iff"
   ],
   "note": "Proved: ActorNotRunning, MailboxFull and the mailbox time-out are true and the message is never handled (told_not_running, told_full, told_timeout). For ActorStopped the possible causes are proved exhaustive (told_stopped_partial). False in the code: ActorStopped is also returned by a running actor, when the handler of another message fails while messages are still to be handled from the start-up buffer (buffered_told_stopped), and when a handler takes the reply sender and it is dropped (dropped_told_stopped, told_stopped_of_running). told_iff says exactly what an asker is told: ActorStopped iff its message was accepted by the mailbox and not answered, whether or not the actor has stopped; a reply iff it was answered with it; the other failures iff the send failed for that reason."
  },
  {
   "property": "C84",
   "status": "partial",
   "theorems": [
    "Verif.Lifecycle.error_heard_partial",
    "Verif.Lifecycle.error_unheard",
    "Verif.Lifecycle.error_unheard_iff"
   ],
   "note": "Proved: on_panic is called next with the error, or it was the reply to an ask and the asker has it or has given up (error_heard_partial). False in the code: when the asker has given up (reply time-out, dropped future) the error is swallowed by `let _ = tx.send(..)`; the actor is left in the same state as after a success (error_unheard). error_unheard_iff: these are exactly the errors nobody hears of."
  },
  {
   "property": "C85",
   "status": "partial",
   "theorems": [
    "Verif.Remote.Order.spawned_tasks_any_order",
    "Verif.Remote.Order.at_most_once",
    "Verif.Remote.Order.ok_is_accepted",
    "Verif.Remote.Order.refused_never_accepted_partial",
    "Verif.Remote.Order.refused_for_a_reason",
    "Verif.Remote.Order.ok_then_next_in_order_partial",
    "Verif.Remote.Order.network_failure_says_nothing",
    "Verif.Remote.Order.spawned_tasks_reorder",
    "Verif.Remote.Order.retried_tell_overtakes"
   ],
   "note": "Proved: at most once always (at_most_once), Ok means accepted once (ok_is_accepted), an error answered by the actor's node means never (refused_never_accepted_partial) and has a reason (refused_for_a_reason), and a tell begun after another returned Ok is handled after it (ok_then_next_in_order_partial). False in the code: after a network failure the message may still be handled (network_failure_says_nothing), also after a later successful tell (retried_tell_overtakes); requests that arrive in order are each served by a spawned task and may be handled in the other order (spawned_tasks_reorder), any number of them in every order (spawned_tasks_any_order)."
  },
  {
   "property": "C86",
   "status": "partial",
   "theorems": [
    "Verif.Swarm.own_actor_served_without_peers_partial",
    "Verif.Swarm.own_actor_out_of_reach",
    "Verif.Swarm.own_actor_not_always_served",
    "Verif.Swarm.own_actor_kept_iff"
   ],
   "note": "Proved for a node without peers (own_actor_served_without_peers_partial). False in the code for a node with a peer: the request is handed to the network addressed to the node itself and no task serves it (own_actor_out_of_reach, own_actor_not_always_served); if libp2p carries nothing from a node to itself, a hypothesis of the theorem because libp2p is not in the repository, the caller can only get a failure of the network. Exactly: the request stays on the node iff no peer is connected (own_actor_kept_iff)."
  },
  {
   "property": "C87",
   "status": "partial",
   "theorems": [
    "Verif.System.told_iff_left_linked",
    "Verif.System.news_only_of_linked",
    "Verif.System.unlink_in_time_partial",
    "Verif.System.unlink_too_late",
    "Verif.System.hook_ignores_links",
    "Verif.System.unlinked_actor_dies_with_other"
   ],
   "note": "Proved: news comes only from an actor that had the receiver in its link set at the moment it left its loop (news_only_of_linked); an unlink before that moment is in time (unlink_in_time_partial). False in the code for an unlink after that moment, while on_stop or the notifications run or the news waits in the mailbox: the links were drained at L517-560 and handle_link_died does not look at the link set, so the unlinked actor is told (unlink_too_late, hook_ignores_links) and by default stops (unlinked_actor_dies_with_other). Exactly who is told: told_iff_left_linked."
  },
  {
   "property": "C88",
   "status": "partial",
   "theorems": [
    "Verif.Blocking.blocking_is_async_partial",
    "Verif.Blocking.handlers_may_not_block",
    "Verif.Blocking.bounded_blocking_panics",
    "Verif.Blocking.unbounded_blocking_anywhere",
    "Verif.Blocking.forward_gives_reply_away",
    "Verif.Blocking.ask_sent_then_panics",
    "Verif.Blocking.tell_blocking_panics_iff",
    "Verif.Blocking.blocking_forward_loses_asker",
    "Verif.Blocking.blocking_link_panics",
    "Verif.Blocking.blocking_link_links",
    "Verif.Blocking.doc_example_iff",
    "Verif.Blocking.doc_example_panics",
    "Verif.Blocking.may_block_after",
    "Verif.Blocking.ways_out_of_handler"
   ],
   "note": "Proved where a thread may be blocked (blocking_is_async_partial), and everywhere for unbounded mailboxes except for the wait for a reply (unbounded_blocking_anywhere). False in handlers, however the actor was spawned (handlers_may_not_block): with a bounded mailbox the call panics and the message is lost (bounded_blocking_panics), with an unbounded one blocking_send of an ask panics after the message was sent (ask_sent_then_panics). The example in the documentation of spawn_in_thread panics in async code and in plain threads (doc_example_panics) and runs just with an entered but not running multi-threaded runtime (doc_example_iff). The rules for places are those tokio documents."
  },
  {
   "property": "C89",
   "status": "partial",
   "theorems": [
    "Verif.PanicLock.all_can_return_iff",
    "Verif.PanicLock.looks_true",
    "Verif.PanicLock.printed",
    "Verif.PanicLock.one_at_a_time",
    "Verif.PanicLock.nested_look_hangs",
    "Verif.PanicLock.hang_spreads",
    "Verif.PanicLock.crossed_looks_hang",
    "Verif.PanicLock.looks_return_partial",
    "Verif.PanicLock.flat_looks_return_partial"
   ],
   "note": "Proved of what is seen: every look shows the error itself, poisoned or not, and a thread that ends has seen what it would have seen alone (looks_true); one closure at a time (one_at_a_time). That looks return is proved for programs whose looks within looks go one way, in particular for those with none (looks_return_partial, flat_looks_return_partial). False otherwise: a look within a look at the same error, as by printing it, never returns (nested_look_hangs), from then on nobody can look at any clone (hang_spreads), and two errors looked at in different orders can hang two threads (crossed_looks_hang). A mutex whose holder locks it again is taken to wait. Exactly: all threads can come to their ends, on some schedule, iff no closure run alone looks at an error it is within a look at (all_can_return_iff)."
  },
  {
   "property": "C90",
   "status": "partial",
   "theorems": [
    "Verif.Remote.Flight.both_sides_agree_partial",
    "Verif.Remote.Flight.crossed_calls",
    "Verif.Remote.Flight.late_request",
    "Verif.Remote.Flight.told_once_if_linked",
    "Verif.Remote.Flight.linked_death_told_partial",
    "Verif.Remote.Flight.lost_notice_never_told",
    "Verif.Remote.Flight.linked_and_never_told",
    "Verif.Remote.Flight.unlinked_and_told"
   ],
   "note": "Proved: if links and unlinks of the two actors are never under way together, all calls returned Ok and neither actor has ended, both sides are as the last call said (both_sides_agree_partial); nobody is told twice, nor of the death of an actor that did not have it among its links when it ended (told_once_if_linked); a registered actor among the links of one that ends is told before that one leaves the registry, if no notice is lost (linked_death_told_partial). False: a link and an unlink that cross both return Ok and leave the two linked on one side for good (crossed_calls); a request whose caller ran into a timeout can undo a later call (late_request); a link to an actor that is ending returns Ok and brings no news (linked_and_never_told); after an unlink that returned Ok the news can still come (unlinked_and_told)."
  },
  {
   "property": "C91",
   "status": "partial",
   "theorems": [
    "Verif.Wire.id_text_iff_eq",
    "Verif.Wire.id_text_changes",
    "Verif.Wire.send_text_partial",
    "Verif.Wire.handler_error_looks_like",
    "Verif.Wire.send_debug_partial",
    "Verif.Wire.remote_text_partial",
    "Verif.Wire.unknown_message_ambiguous",
    "Verif.Wire.send_conversions_keep_text",
    "Verif.Wire.boxed_keeps_text",
    "Verif.Wire.remote_conversions_keep_text",
    "Verif.Wire.error_text_survives",
    "Verif.Wire.reason_text_iff",
    "Verif.Wire.cause_not_printed",
    "Verif.Wire.reason_debug_iff",
    "Verif.Wire.reason_text_on_the_wire",
    "Verif.Wire.registry_text_inj",
    "Verif.Wire.remote_debug_iff",
    "Verif.Wire.registry_debug_inj",
    "Verif.Wire.panic_debug_iff",
    "Verif.Wire.panic_debug_says_more",
    "Verif.Wire.bootstrap_text_ambiguous",
    "Verif.Wire.bootstrap_text_partial",
    "Verif.Wire.id_error_text_iff"
   ],
   "note": "Proved: ids print the same exactly if they are equal (id_text_iff_eq); SendErrors print the same only if they are of the same kind, where no handler's error prints what another kind prints (send_text_partial, send_debug_partial); RemoteSendErrors without handler's errors and Io errors and without quotes in message ids print the same only if they are the same (remote_text_partial); RegistryErrors likewise (registry_text_inj); conversions and the wire keep the text (send_conversions_keep_text, boxed_keeps_text, remote_conversions_keep_text, error_text_survives); exactly when two reasons print the same, for Display and Debug (reason_text_iff, reason_debug_iff); with {:?} RemoteSendErrors and RegistryErrors are never ambiguous (remote_debug_iff, registry_debug_inj), and PanicErrors show their payload (panic_debug_iff); ActorIDFromBytesError: id_error_text_iff. False: handler's errors print what they like (handler_error_looks_like); with quotes in the ids UnknownMessage is ambiguous (unknown_message_ambiguous); Display of LinkDied leaves out the cause (cause_not_printed) and Debug of Panicked the message; a panic's text grows with each node (reason_text_on_the_wire); the text of a local id changes when the swarm is bootstrapped (id_text_changes). BootstrapErrors print just what they carry, so each kind can look like another (bootstrap_text_ambiguous, bootstrap_text_partial). Debug of str is a hypothesis (StrDebug)."
  },
  {
   "property": "C92",
   "status": "partial",
   "theorems": [
    "Verif.Boot.one_winner",
    "Verif.Boot.exactly_one_partial",
    "Verif.Boot.returns_once",
    "Verif.Boot.loser_told",
    "Verif.Boot.loser_gets_back_partial",
    "Verif.Boot.behaviour_not_handed_back",
    "Verif.Boot.get_stable",
    "Verif.Boot.commands_in_order",
    "Verif.Boot.sent_not_lost",
    "Verif.Boot.gone_for_good",
    "Verif.Boot.gone_what_happens",
    "Verif.Boot.first_call_succeeds",
    "Verif.Boot.winner_can_end",
    "Verif.Boot.late_call_told"
   ],
   "note": "Proved: no two calls succeed and a call returns once (one_winner, returns_once); when all calls are over exactly one has set the cell unless all failed to make a behaviour (exactly_one_partial: it succeeded or panicked); a call that nobody gets ahead of succeeds if it can, and one that fails leaves the node as it was (first_call_succeeds); losers are told of the winner (loser_told) and get their swarm back (loser_gets_back_partial); get is stable (get_stable); commands go to the winner's handler in order and none is lost while it is there (commands_in_order, sent_not_lost); that handler can end once, no other (winner_can_end). False: a behaviour passed to a node that is bootstrapped is not handed back (behaviour_not_handed_back; in every history: late_call_told). A call outside a runtime panics behind try_insert and leaves the node bootstrapped without a handler; whenever the handler is gone, it is gone for good: every command panics in its sender, every attempt at bootstrapping is told that the node is bootstrapped (gone_for_good, gone_what_happens)."
  },
  {
   "property": "C93",
   "status": "partial",
   "theorems": [
    "Verif.Boot.Ending.can_end_iff",
    "Verif.Boot.Ending.crash_cause",
    "Verif.Boot.Ending.ends_properly_partial",
    "Verif.Boot.Ending.can_end_partial",
    "Verif.Boot.Ending.swarm_gone_never_ends",
    "Verif.Boot.Ending.crashed_for_good",
    "Verif.Boot.Ending.unanswered_never_ends"
   ],
   "note": "Proved where the swarm stays, the node was never bootstrapped, or the actor has no links to other nodes: the task does not panic, when it is over everybody has been told and the registry entry and result are as they should be (ends_properly_partial), and it can always get there (can_end_partial). False otherwise: a task panics only in that case (crash_cause), and on a node whose swarm is gone an actor with one link to another node always does; links of its own node that come behind that link in the drained table are never told, the actor stays in the registry, and the result is never published, so that wait_for_shutdown_result panics (swarm_gone_never_ends, crashed_for_good); the same when the swarm ends before it has answered (unanswered_never_ends). A node gets into that state when another node stores a bad record on it (C49, bad_record_kills_swarm). Exactly which tasks can still get to their end: can_end_iff."
  },
  {
   "property": "C94",
   "status": "partial",
   "theorems": [
    "Verif.Stream.can_come_back_iff",
    "Verif.Stream.sure_to_come_back_iff",
    "Verif.Stream.task_ends",
    "Verif.Stream.error_is_what_is_missing",
    "Verif.Stream.given_back_complete",
    "Verif.Stream.one_more_at_most",
    "Verif.Stream.given_back_by_chance",
    "Verif.Stream.waiting_stream_lost"
   ],
   "note": "Proved: the task ends soon after the actor's mailbox is gone (task_ends); an error carries the one message that was not accepted, all before it were (error_is_what_is_missing); if the stream is given back everything taken was accepted (given_back_complete); at most one more item is taken (one_more_at_most). False: that the stream is given back. If the task waits for the next item it depends on which branch of select! is polled first (given_back_by_chance), and if it waits for room in the mailbox the stream is always dropped (waiting_stream_lost). Exactly: with the actor gone the stream can still come back iff it has, the task waits in select!, or the send it is in was accepted (can_come_back_iff); it is sure to come back iff it has, or the task only has to see that the finish message was accepted (sure_to_come_back_iff)."
  },
  {
   "property": "C95",
   "status": "partial",
   "theorems": [
    "Verif.Remote.Asks.answered_as_returned",
    "Verif.Remote.Asks.failed_as_reported",
    "Verif.Remote.Asks.not_found_as_reported",
    "Verif.Remote.Asks.ends_as_reported",
    "Verif.Remote.Asks.ends_when_reported",
    "Verif.Remote.Asks.handled_at_most_once",
    "Verif.Remote.Asks.effects_at_most_asked",
    "Verif.Remote.Asks.told_ok",
    "Verif.Remote.Asks.told_handler_error",
    "Verif.Remote.Asks.told_lost_reply",
    "Verif.Remote.Asks.told_refused",
    "Verif.Remote.Asks.told_stopped_remote_partial",
    "Verif.Remote.Asks.told_timeout_partial",
    "Verif.Remote.Asks.timeout_ambiguous",
    "Verif.Remote.Asks.told_deserialize_partial",
    "Verif.Remote.Asks.deserialize_ambiguous",
    "Verif.Remote.Asks.network_failure_ambiguous",
    "Verif.Remote.Asks.one_answer",
    "Verif.Remote.Asks.caller_unnoticed",
    "Verif.Remote.Asks.error_unheard_remote",
    "Verif.Remote.Asks.asked_after_answered",
    "Verif.Remote.Asks.ended_answers",
    "Verif.Remote.Asks.lost_waits"
   ],
   "note": "Proved: handled_at_most_once, effects_at_most_asked; a told reply or handler error is what the handler returned, once (told_ok, told_handler_error), also when it could not be serialised or deserialised (told_lost_reply); told NotRunning, MailboxFull or UnknownMessage the message is never handled, ever after (told_refused); one_answer; caller_unnoticed; the other way round, what a waiting caller is told is what its handler returned, or how its ask failed, or that it was not found or readable (answered_as_returned, failed_as_reported, not_found_as_reported), and a failure of the network or nothing exactly when reported or dropped (ends_as_reported, ends_when_reported); asked_after_answered; ended_answers; lost_waits. False: a time-out does not say whether the message is handled, the mailbox time-out and the reply time-out being the same error (timeout_ambiguous; told_timeout_partial: with a mailbox time-out alone it never is); ActorStopped is also told to callers whose handler panicked (told_stopped_remote_partial says what it does say); DeserializeMessage is told both for a message that was never handled and for a reply that could not be read (deserialize_ambiguous, told_deserialize_partial); a failure of the network says nothing (network_failure_ambiguous); a handler's error whose caller got a failure of the network is told to no one (error_unheard_remote)."
  },
  {
   "property": "C96",
   "status": "partial",
   "theorems": [
    "Verif.Pool.pool_reply_arrives_partial",
    "Verif.Pool.pool_error_panics",
    "Verif.Pool.pool_panics_iff",
    "Verif.Pool.pool_answer_cases",
    "Verif.Pool.dead_inner_actor_panics_asker",
    "Verif.Pool.copy_error_true",
    "Verif.Pool.copy_accepted",
    "Verif.Pool.worker_stops_exactly"
   ],
   "note": "Proved: a reply arrives unchanged (pool_reply_arrives_partial), and the results of a broadcast are true (copy_error_true, copy_accepted). Refuted for errors, for all types: the worker's reply wraps the error in a SendError, which the asker casts to the actor's error type, so every error makes the asker panic (pool_error_panics, pool_panics_iff); in runs, every ask that reaches a worker whose actor has stopped (dead_inner_actor_panics_asker)."
  },
  {
   "property": "C97",
   "status": "partial",
   "theorems": [
    "Verif.GiveUp.world_is_what_was_done",
    "Verif.GiveUp.every_act_was_called_for",
    "Verif.GiveUp.mailbox_decides",
    "Verif.GiveUp.calls_go_on",
    "Verif.GiveUp.done_in_order",
    "Verif.GiveUp.dropped_never_was",
    "Verif.GiveUp.clean_dropped_never_was",
    "Verif.GiveUp.late_drop_unnoticed",
    "Verif.GiveUp.all_or_nothing_partial",
    "Verif.GiveUp.half_done_iff",
    "Verif.GiveUp.not_all_or_nothing",
    "Verif.GiveUp.link_remote_left_half",
    "Verif.GiveUp.register_left_half",
    "Verif.GiveUp.command_stays",
    "Verif.GiveUp.local_links_whole"
   ],
   "note": "Proved: what a call has done is always a first part of what it is to do (done_in_order); a call dropped at its first wait never was, for everybody else and all continuations (dropped_never_was, clean_dropped_never_was); a drop after the last effect is unnoticed (late_drop_unnoticed); all or nothing for all calls but two (all_or_nothing_partial); local links are on both sides or neither (local_links_whole); commands are not taken back (command_stays). Refuted for link_remote, which leaves its actor in the registry with no link (link_remote_left_half), and register, which leaves a name in the network whose actor is not to be found (register_left_half); exactly where: half_done_iff, not_all_or_nothing."
  },
  {
   "property": "C98",
   "status": "proved",
   "theorems": [
    "Verif.Atomic.one_at_a_time",
    "Verif.Atomic.last_call_counts",
    "Verif.Atomic.look_sees_last_call",
    "Verif.Atomic.never_half_linked",
    "Verif.Atomic.drop_gives_up",
    "Verif.Atomic.blocking_not_dropped",
    "Verif.Atomic.actors_step_alone",
    "Verif.Atomic.actors_one_at_a_time"
   ],
   "note": "one_at_a_time is the claim; last_call_counts, look_sees_last_call and never_half_linked follow. actors_step_alone and actors_one_at_a_time say that the model of many actors, where a link is one step, changes link sets by the same calls made alone."
  },
  {
   "property": "C99",
   "status": "partial",
   "theorems": [
    "Verif.System.last_words_ahead",
    "Verif.System.last_words_handled_partial",
    "Verif.System.last_words_overtaken",
    "Verif.System.last_words_handled_iff"
   ],
   "note": "The order in the mailbox is proved in full (last_words_ahead), what on_link_died finds handled for an actor whose start-up is finished (last_words_handled_partial). False before that: the messages wait in the start-up buffer while on_link_died runs (last_words_overtaken, for all histories). Exactly when: last_words_handled_iff."
  },
  {
   "property": "C100",
   "status": "proved",
   "theorems": [
    "Verif.Swarm.every_call_comes_back",
    "Verif.Swarm.every_call_answered",
    "Verif.Swarm.every_request_answered"
   ],
   "note": "Fairness (structure Fair) is assumed of what is not in /repo: libp2p ends each query and request with a result or an error, user code run by the spawned tasks ends, tokio gives the swarm task turns. every_call_comes_back needs no assumption that the swarm task lives."
  },
  {
   "property": "C101",
   "status": "partial",
   "theorems": [
    "Verif.System.heard_is_forgotten",
    "Verif.System.dead_forgotten_partial",
    "Verif.System.dead_forgotten_live_partial",
    "Verif.System.late_link_listed_for_ever",
    "Verif.System.failed_start_listed_for_ever",
    "Verif.System.links_grow_with_the_dead",
    "Verif.System.dead_listed_iff"
   ],
   "note": "Holds for links made before the other left its loop, if its on_start succeeded: dead_forgotten_partial, heard_is_forgotten, dead_forgotten_live_partial. Fails otherwise: late_link_listed_for_ever, failed_start_listed_for_ever (both for every history), links_grow_with_the_dead (for every n, a living actor with n links to children that are gone). Exactly which of the dead a running actor still lists: dead_listed_iff."
  },
  {
   "property": "C102",
   "status": "proved",
   "theorems": [
    "Verif.Calls.causal_order",
    "Verif.Calls.answers_see_what_went_before"
   ],
   "note": "causal_order and answers_see_what_went_before, for Lamport's relation (Before), in which the clock of the execution is only used for steps of one actor; before_lt and comes_pushed carry it. Messages that an actor sends itself while it starts come first by design, which is C05."
  },
  {
   "property": "C103",
   "status": "partial",
   "theorems": [
    "Verif.PubSub.pubsub_in_order",
    "Verif.PubSub.pubsub_one_at_a_time",
    "Verif.Router.broker_in_order_partial",
    "Verif.Router.broker_spawned_overtakes",
    "Verif.Router.broker_spawned_any_order",
    "Verif.Router.bus_in_order_partial",
    "Verif.Router.bus_spawned_overtakes"
   ],
   "note": "Proved for PubSub (pubsub_in_order, pubsub_one_at_a_time) and for the strategies Guaranteed, BestEffort and TimedDelivery of broker and bus (broker_in_order_partial, bus_in_order_partial). False for Spawned and SpawnedWithTimeout, whose tasks run in any order: whatever the history, the second of two publishes can be handed to a recipient first (broker_spawned_overtakes, bus_spawned_overtakes), and deliveries under way can be made in every order (broker_spawned_any_order)."
  }
 ]
}