'Verif.ActorId.bootstrap_changes_hash_and_equality' depends on axioms: [propext, Classical.choice, Quot.sound]
'Verif.ActorId.bytes_before_bootstrap_name_the_reader' depends on axioms: [propext, Classical.choice, Quot.sound]
'Verif.ActorId.bytes_injective' depends on axioms: [propext, Classical.choice, Quot.sound]
'Verif.ActorId.bytes_name_the_writer' depends on axioms: [propext, Quot.sound]
'Verif.ActorId.bytes_roundtrip' depends on axioms: [propext, Classical.choice, Quot.sound]
'Verif.ActorId.eq_equivalence_hash' depends on axioms: [propext, Classical.choice, Quot.sound]
'Verif.ActorId.eq_hash_stable_partial' depends on axioms: [propext]
'Verif.ActorId.equality_changes_iff' depends on axioms: [propext, Classical.choice, Quot.sound]
'Verif.ActorId.from_bytes_panics_iff_short' depends on axioms: [propext]
'Verif.ActorId.from_bytes_total_partial' depends on axioms: [propext, Quot.sound]
'Verif.ActorId.generated_ids_distinct' depends on axioms: [propext, Quot.sound]
'Verif.ActorId.hash_changes_iff' depends on axioms: [propext]
'Verif.ActorId.ids_repeat_after_wraparound' depends on axioms: [propext, Classical.choice, Quot.sound]
'Verif.ActorId.key_not_found_after_bootstrap' depends on axioms: [propext, Classical.choice, Quot.sound]
'Verif.ActorId.never_equal_to_other_peers' depends on axioms: [propext, Quot.sound]
'Verif.Atomic.actors_one_at_a_time' depends on axioms: [propext, Classical.choice, Quot.sound]
'Verif.Atomic.actors_step_alone' depends on axioms: [propext, Classical.choice, Quot.sound]
'Verif.Atomic.blocking_not_dropped' depends on axioms: [propext, Quot.sound]
'Verif.Atomic.drop_gives_up' depends on axioms: [propext, Quot.sound]
'Verif.Atomic.last_call_counts' depends on axioms: [propext, Classical.choice, Quot.sound]
'Verif.Atomic.look_sees_last_call' depends on axioms: [propext, Classical.choice, Quot.sound]
'Verif.Atomic.never_half_linked' depends on axioms: [propext, Classical.choice, Quot.sound]
'Verif.Atomic.one_at_a_time' depends on axioms: [propext, Quot.sound]
'Verif.Blocking.ask_sent_then_panics' depends on axioms: [propext, Quot.sound]
'Verif.Blocking.blocking_forward_loses_asker' depends on axioms: [propext]
'Verif.Blocking.blocking_is_async_partial' depends on axioms: [propext]
'Verif.Blocking.blocking_link_links' depends on axioms: [propext, Classical.choice, Quot.sound]
'Verif.Blocking.blocking_link_panics' depends on axioms: [propext]
'Verif.Blocking.bounded_blocking_panics' depends on axioms: [propext]
'Verif.Blocking.doc_example_iff' depends on axioms: [propext, Quot.sound]
'Verif.Blocking.doc_example_panics' depends on axioms: [propext, Classical.choice, Quot.sound]
'Verif.Blocking.forward_gives_reply_away' depends on axioms: [propext, Quot.sound]
'Verif.Blocking.handlers_may_not_block' depends on axioms: [propext]
'Verif.Blocking.may_block_after' depends on axioms: [propext, Quot.sound]
'Verif.Blocking.tell_blocking_panics_iff' depends on axioms: [propext, Quot.sound]
'Verif.Blocking.unbounded_blocking_anywhere' depends on axioms: [propext]
'Verif.Blocking.ways_out_of_handler' depends on axioms: [propext]
'Verif.Boot.Ending.can_end_iff' depends on axioms: [propext, Classical.choice, Quot.sound]
'Verif.Boot.Ending.can_end_partial' depends on axioms: [propext, Classical.choice, Quot.sound]
'Verif.Boot.Ending.crash_cause' depends on axioms: [propext, Classical.choice, Quot.sound]
'Verif.Boot.Ending.crashed_for_good' depends on axioms: [propext, Classical.choice, Quot.sound]
'Verif.Boot.Ending.ends_properly_partial' depends on axioms: [propext, Classical.choice, Quot.sound]
'Verif.Boot.Ending.swarm_gone_never_ends' depends on axioms: [propext, Classical.choice, Quot.sound]
'Verif.Boot.Ending.unanswered_never_ends' depends on axioms: [propext, Classical.choice, Quot.sound]
'Verif.Boot.behaviour_not_handed_back' depends on axioms: [propext]
'Verif.Boot.commands_in_order' depends on axioms: [propext, Classical.choice, Quot.sound]
'Verif.Boot.exactly_one_partial' depends on axioms: [propext, Classical.choice, Quot.sound]
'Verif.Boot.first_call_succeeds' depends on axioms: [propext, Quot.sound]
'Verif.Boot.get_stable' depends on axioms: [propext, Classical.choice, Quot.sound]
'Verif.Boot.gone_for_good' depends on axioms: [propext, Classical.choice, Quot.sound]
'Verif.Boot.gone_what_happens' depends on axioms: [propext, Classical.choice, Quot.sound]
'Verif.Boot.late_call_told' depends on axioms: [propext, Classical.choice, Quot.sound]
'Verif.Boot.loser_gets_back_partial' depends on axioms: [propext, Classical.choice, Quot.sound]
'Verif.Boot.loser_told' depends on axioms: [propext, Classical.choice, Quot.sound]
'Verif.Boot.one_winner' depends on axioms: [propext, Classical.choice, Quot.sound]
'Verif.Boot.returns_once' depends on axioms: [propext, Classical.choice, Quot.sound]
'Verif.Boot.sent_not_lost' depends on axioms: [propext, Classical.choice, Quot.sound]
'Verif.Boot.winner_can_end' depends on axioms: [propext, Classical.choice, Quot.sound]
'Verif.Calls.answers_see_what_went_before' depends on axioms: [propext, Classical.choice, Quot.sound]
'Verif.Calls.asks_come_back' depends on axioms: [propext, Classical.choice, Quot.sound]
'Verif.Calls.blocking_warned_iff' depends on axioms: [propext, Classical.choice, Quot.sound]
'Verif.Calls.causal_order' depends on axioms: [propext, Classical.choice, Quot.sound]
'Verif.Calls.circle_if_never_ends' depends on axioms: [propext, Classical.choice, Quot.sound]
'Verif.Calls.circle_stays' depends on axioms: [propext, Classical.choice, Quot.sound]
'Verif.Calls.ended_frees' depends on axioms: [propext, Classical.choice, Quot.sound]
'Verif.Calls.handlers_end' depends on axioms: [propext, Classical.choice, Quot.sound]
'Verif.Calls.hang_by_others_unwarned' depends on axioms: [propext, Classical.choice, Quot.sound]
'Verif.Calls.hang_by_try_send_unwarned' depends on axioms: [propext, Classical.choice, Quot.sound]
'Verif.Calls.reply_heard' depends on axioms: [propext, Quot.sound]
'Verif.Calls.requests_answered' depends on axioms: [propext, Classical.choice, Quot.sound]
'Verif.Calls.self_ask_hangs' depends on axioms: [propext, Classical.choice, Quot.sound]
'Verif.Calls.self_ask_only_times_out' depends on axioms: [propext, Classical.choice, Quot.sound]
'Verif.Calls.self_send_warned_partial' depends on axioms: [propext, Classical.choice, Quot.sound]
'Verif.Calls.self_tells_hang' depends on axioms: [propext, Classical.choice, Quot.sound]
'Verif.Calls.self_tells_pass' depends on axioms: [propext, Classical.choice, Quot.sound]
'Verif.Current.current_iff_enclosing' depends on axioms: [propext, Classical.choice, Quot.sound]
'Verif.Current.current_iff_owner_partial' depends on axioms: [propext, Quot.sound]
'Verif.Current.current_is_enclosing' depends on axioms: [propext, Quot.sound]
'Verif.Current.inner_counts_as_outer' depends on axioms: [propext, Quot.sound]
'Verif.Current.local_task_counts_as_self' depends on axioms: [propext]
'Verif.Current.new_id_fresh' depends on axioms: [propext, Quot.sound]
'Verif.Current.other_actor_counts_as_self' depends on axioms: [propext]
'Verif.Current.recognition_fails' depends on axioms: [propext]
'Verif.Current.self_send_not_recognised' depends on axioms: [propext, Quot.sound]
'Verif.Current.spawned_actor_recognises_itself' depends on axioms: [propext, Classical.choice, Quot.sound]
'Verif.GiveUp.all_or_nothing_partial' depends on axioms: [propext, Quot.sound]
'Verif.GiveUp.calls_go_on' depends on axioms: [propext, Quot.sound]
'Verif.GiveUp.clean_dropped_never_was' depends on axioms: [propext, Classical.choice, Quot.sound]
'Verif.GiveUp.command_stays' depends on axioms: [propext, Classical.choice, Quot.sound]
'Verif.GiveUp.done_in_order' depends on axioms: [propext, Classical.choice, Quot.sound]
'Verif.GiveUp.dropped_never_was' depends on axioms: [propext, Classical.choice, Quot.sound]
'Verif.GiveUp.every_act_was_called_for' depends on axioms: [propext, Classical.choice, Quot.sound]
'Verif.GiveUp.half_done_iff' depends on axioms: [propext, Quot.sound]
'Verif.GiveUp.late_drop_unnoticed' depends on axioms: [propext, Classical.choice, Quot.sound]
'Verif.GiveUp.link_remote_left_half' depends on axioms: [propext, Classical.choice, Quot.sound]
'Verif.GiveUp.local_links_whole' depends on axioms: [propext, Classical.choice, Quot.sound]
'Verif.GiveUp.mailbox_decides' depends on axioms: [propext, Quot.sound]
'Verif.GiveUp.not_all_or_nothing' depends on axioms: [propext]
'Verif.GiveUp.register_left_half' depends on axioms: [propext, Classical.choice, Quot.sound]
'Verif.GiveUp.world_is_what_was_done' depends on axioms: [propext, Classical.choice, Quot.sound]
'Verif.Handles.counts_as_documented_iff' depends on axioms: [propext, Classical.choice, Quot.sound]
'Verif.Handles.counts_not_as_documented' depends on axioms: [propext]
'Verif.Handles.gone_for_good' depends on axioms: [propext, Classical.choice, Quot.sound]
'Verif.Handles.handle_is_one_actor' depends on axioms: [propext, Quot.sound]
'Verif.Handles.handles_counted' depends on axioms: [propext, Classical.choice, Quot.sound]
'Verif.Handles.links_counted' depends on axioms: [propext, Classical.choice, Quot.sound]
'Verif.Handles.no_weak_recipient' depends on axioms: [propext, Quot.sound]
'Verif.Handles.strong_count_exact' depends on axioms: [propext, Classical.choice, Quot.sound]
'Verif.Handles.upgrade_iff' depends on axioms: [propext, Classical.choice, Quot.sound]
'Verif.Handles.weak_count_exact' depends on axioms: [propext, Classical.choice, Quot.sound]
'Verif.Hook.counting_not_called' depends on axioms: [propext, Quot.sound]
'Verif.Hook.default_hook_partial' depends on axioms: [propext, Quot.sound]
'Verif.Hook.hook_ignored' depends on axioms: [propext]
'Verif.Hook.hook_over_arrivals_partial' depends on axioms: [propext, Quot.sound]
'Verif.Hook.hook_sees_all_iff' depends on axioms: [propext, Quot.sound]
'Verif.Hook.kept_back_until_error' depends on axioms: [propext, Quot.sound]
'Verif.Lifecycle.accepted_ask_answered' depends on axioms: [propext, Classical.choice, Quot.sound]
'Verif.Lifecycle.accepted_message_handled_or_behind' depends on axioms: [propext, Classical.choice, Quot.sound]
'Verif.Lifecycle.accepted_message_handled_partial' depends on axioms: [propext, Classical.choice, Quot.sound]
'Verif.Lifecycle.accepted_message_never_handled' depends on axioms: [propext, Classical.choice, Quot.sound]
'Verif.Lifecycle.accepted_stop_ends_or_forgotten' depends on axioms: [propext, Classical.choice, Quot.sound]
'Verif.Lifecycle.accepted_stop_ends_partial' depends on axioms: [propext, Classical.choice, Quot.sound]
'Verif.Lifecycle.accepted_stop_never_ends' depends on axioms: [propext, Classical.choice, Quot.sound]
'Verif.Lifecycle.alive_until_ended' depends on axioms: [propext, Classical.choice, Quot.sound]
'Verif.Lifecycle.ask_error_goes_to_asker' depends on axioms: [propext, Classical.choice, Quot.sound]
'Verif.Lifecycle.ask_failure_true' depends on axioms: [propext, Classical.choice, Quot.sound]
'Verif.Lifecycle.barrier_parts_calls' depends on axioms: [propext, Classical.choice, Quot.sound]
'Verif.Lifecycle.behind_never_handled' depends on axioms: [propext, Classical.choice, Quot.sound]
'Verif.Lifecycle.buffered_told_stopped' depends on axioms: [propext, Classical.choice, Quot.sound]
'Verif.Lifecycle.calls_exact' depends on axioms: [propext, Classical.choice, Quot.sound]
'Verif.Lifecycle.continue_keeps_running' depends on axioms: [propext, Quot.sound]
'Verif.Lifecycle.continue_loses_nothing_partial' depends on axioms: [propext, Classical.choice, Quot.sound]
'Verif.Lifecycle.default_stop_reason_true' depends on axioms: [propext, Classical.choice, Quot.sound]
'Verif.Lifecycle.delegated_reply_delivered' depends on axioms: [propext, Classical.choice, Quot.sound]
'Verif.Lifecycle.delegated_reply_dropped' depends on axioms: [propext, Classical.choice, Quot.sound]
'Verif.Lifecycle.delegated_survives_actor' depends on axioms: [propext, Classical.choice, Quot.sound]
'Verif.Lifecycle.downcast_by_type' depends on axioms: [propext, Quot.sound]
'Verif.Lifecycle.dropped_told_stopped' depends on axioms: [propext, Quot.sound]
'Verif.Lifecycle.early_end_drops_all' depends on axioms: [propext, Classical.choice, Quot.sound]
'Verif.Lifecycle.error_downcasts' depends on axioms: [propext]
'Verif.Lifecycle.error_heard_partial' depends on axioms: [propext, Classical.choice, Quot.sound]
'Verif.Lifecycle.error_unheard' depends on axioms: [propext, Quot.sound]
'Verif.Lifecycle.error_unheard_iff' depends on axioms: [propext, Classical.choice, Quot.sound]
'Verif.Lifecycle.every_ask_resolved' depends on axioms: [propext, Classical.choice, Quot.sound]
'Verif.Lifecycle.failed_send_never_handled' depends on axioms: [propext, Classical.choice, Quot.sound]
'Verif.Lifecycle.failed_start_never_notifies' depends on axioms: [propext, Classical.choice, Quot.sound]
'Verif.Lifecycle.failed_start_notifies_nobody' depends on axioms: [propext, Classical.choice, Quot.sound]
'Verif.Lifecycle.failure_in_drain_loses_rest' depends on axioms: [propext, Classical.choice, Quot.sound]
'Verif.Lifecycle.failure_leads_to_on_panic' depends on axioms: [propext, Classical.choice, Quot.sound]
'Verif.Lifecycle.full_start_hangs' depends on axioms: [propext, Classical.choice, Quot.sound]
'Verif.Lifecycle.full_start_no_precedence' depends on axioms: [propext, Classical.choice, Quot.sound]
'Verif.Lifecycle.full_start_overtakes' depends on axioms: [propext, Classical.choice, Quot.sound]
'Verif.Lifecycle.giving_up_changes_nothing_else' depends on axioms: [propext, Classical.choice, Quot.sound]
'Verif.Lifecycle.graceful_stop_handles_all_ahead_partial' depends on axioms: [propext, Classical.choice, Quot.sound]
'Verif.Lifecycle.graceful_stop_leaves_only_those_behind' depends on axioms: [propext, Classical.choice, Quot.sound]
'Verif.Lifecycle.handled_in_acceptance_order' depends on axioms: [propext, Classical.choice, Quot.sound]
'Verif.Lifecycle.handled_once_and_accepted' depends on axioms: [propext, Classical.choice, Quot.sound]
'Verif.Lifecycle.hook_at_once_partial' depends on axioms: [propext, Classical.choice, Quot.sound]
'Verif.Lifecycle.hook_heard_all_iff' depends on axioms: [propext, Classical.choice, Quot.sound]
'Verif.Lifecycle.hook_missed_iff' depends on axioms: [propext, Classical.choice, Quot.sound]
'Verif.Lifecycle.hook_only_for_failures' depends on axioms: [propext, Classical.choice, Quot.sound]
'Verif.Lifecycle.hook_told_all' depends on axioms: [propext, Classical.choice, Quot.sound]
'Verif.Lifecycle.hook_waits_for_links' depends on axioms: [propext, Classical.choice, Quot.sound]
'Verif.Lifecycle.kill_takes_effect_at_end_of_poll' depends on axioms: [propext, Classical.choice, Quot.sound]
'Verif.Lifecycle.kill_takes_effect_at_next_poll' depends on axioms: [propext, Classical.choice, Quot.sound]
'Verif.Lifecycle.killed_actor_ends' depends on axioms: [propext, Classical.choice, Quot.sound]
'Verif.Lifecycle.killed_start_hangs' depends on axioms: [propext, Classical.choice, Quot.sound]
'Verif.Lifecycle.linked_actors_notified' depends on axioms: [propext, Classical.choice, Quot.sound]
'Verif.Lifecycle.links_taken_when_loop_ends' depends on axioms: [propext, Quot.sound]
'Verif.Lifecycle.mailbox_timeout_not_delivered' depends on axioms: [propext, Classical.choice, Quot.sound]
'Verif.Lifecycle.never_stopped_for_lack_of_references' depends on axioms: [propext, Classical.choice, Quot.sound]
'Verif.Lifecycle.news_drops_messages' depends on axioms: [propext, Classical.choice, Quot.sound]
'Verif.Lifecycle.news_in_turn_partial' depends on axioms: [propext, Classical.choice, Quot.sound]
'Verif.Lifecycle.news_overtakes_all' depends on axioms: [propext, Classical.choice, Quot.sound]
'Verif.Lifecycle.news_overtakes_message' depends on axioms: [propext, Quot.sound]
'Verif.Lifecycle.no_reordering_after_startup' depends on axioms: [propext, Classical.choice, Quot.sound]
'Verif.Lifecycle.no_reply_after_giving_up' depends on axioms: [propext, Classical.choice, Quot.sound]
'Verif.Lifecycle.nothing_before_on_start' depends on axioms: [propext, Classical.choice, Quot.sound]
'Verif.Lifecycle.nothing_behind_stop_handled' depends on axioms: [propext, Classical.choice, Quot.sound]
'Verif.Lifecycle.nothing_but_on_stop_after_kill' depends on axioms: [propext, Classical.choice, Quot.sound]
'Verif.Lifecycle.nothing_handled_after_loop' depends on axioms: [propext, Classical.choice, Quot.sound]
'Verif.Lifecycle.nothing_happens_after_shutdown' depends on axioms: [propext, Classical.choice, Quot.sound]
'Verif.Lifecycle.on_link_died_per_signal' depends on axioms: [propext, Classical.choice, Quot.sound]
'Verif.Lifecycle.on_panic_panic_silences' depends on axioms: [propext, Classical.choice, Quot.sound]
'Verif.Lifecycle.on_start_once' depends on axioms: [propext, Classical.choice, Quot.sound]
'Verif.Lifecycle.on_stop_once_and_last' depends on axioms: [propext, Classical.choice, Quot.sound]
'Verif.Lifecycle.on_stop_panic_silences' depends on axioms: [propext, Classical.choice, Quot.sound]
'Verif.Lifecycle.one_completion_per_start' depends on axioms: [propext, Classical.choice, Quot.sound]
'Verif.Lifecycle.one_handler_at_a_time' depends on axioms: [propext, Classical.choice, Quot.sound]
'Verif.Lifecycle.only_those_behind_are_lost' depends on axioms: [propext, Classical.choice, Quot.sound]
'Verif.Lifecycle.other_panics_contained_partial' depends on axioms: [propext, Classical.choice, Quot.sound]
'Verif.Lifecycle.outcome_never_changes' depends on axioms: [propext, Classical.choice, Quot.sound]
'Verif.Lifecycle.outside_handled_exact' depends on axioms: [propext, Classical.choice, Quot.sound]
'Verif.Lifecycle.outside_handled_prefix' depends on axioms: [propext, Classical.choice, Quot.sound]
'Verif.Lifecycle.panic_in_on_panic_escapes' depends on axioms: [propext, Classical.choice, Quot.sound]
'Verif.Lifecycle.panic_in_on_stop_escapes' depends on axioms: [propext, Classical.choice, Quot.sound]
'Verif.Lifecycle.panic_payload_hidden' depends on axioms: [propext]
'Verif.Lifecycle.panic_payload_iff' depends on axioms: [propext, Classical.choice, Quot.sound]
'Verif.Lifecycle.panic_payload_partial' depends on axioms: [propext]
'Verif.Lifecycle.panic_text' depends on axioms: [propext]
'Verif.Lifecycle.reply_is_to_that_message' depends on axioms: [propext, Classical.choice, Quot.sound]
'Verif.Lifecycle.results_set_once' depends on axioms: [propext, Classical.choice, Quot.sound]
'Verif.Lifecycle.results_true' depends on axioms: [propext, Classical.choice, Quot.sound]
'Verif.Lifecycle.running_iff_open' depends on axioms: [propext, Classical.choice, Quot.sound]
'Verif.Lifecycle.self_sent_first_iff' depends on axioms: [propext, Classical.choice, Quot.sound]
'Verif.Lifecycle.self_sent_first_partial' depends on axioms: [propext, Classical.choice, Quot.sound]
'Verif.Lifecycle.self_sent_overtaken_after_stop' depends on axioms: [propext, Quot.sound]
'Verif.Lifecycle.self_sent_overtaken_when_full' depends on axioms: [propext, Quot.sound]
'Verif.Lifecycle.send_resolved' depends on axioms: [propext, Classical.choice, Quot.sound]
'Verif.Lifecycle.shutdown_complete' depends on axioms: [propext, Classical.choice, Quot.sound]
'Verif.Lifecycle.shutdown_result_panics' depends on axioms: [propext, Classical.choice, Quot.sound]
'Verif.Lifecycle.shutdown_result_panics_iff' depends on axioms: [propext, Classical.choice, Quot.sound]
'Verif.Lifecycle.shutdown_result_true_partial' depends on axioms: [propext, Classical.choice, Quot.sound]
'Verif.Lifecycle.shutdown_result_waits' depends on axioms: [propext, Classical.choice, Quot.sound]
'Verif.Lifecycle.startup_buffer_lost_on_continue' depends on axioms: [propext, Quot.sound]
'Verif.Lifecycle.startup_buffer_lost_on_graceful_stop' depends on axioms: [propext, Quot.sound]
'Verif.Lifecycle.startup_result_panics' depends on axioms: [propext, Classical.choice, Quot.sound]
'Verif.Lifecycle.startup_result_panics_iff' depends on axioms: [propext, Classical.choice, Quot.sound]
'Verif.Lifecycle.startup_result_true_partial' depends on axioms: [propext, Classical.choice, Quot.sound]
'Verif.Lifecycle.startup_wait_hangs_when_full' depends on axioms: [propext, Classical.choice, Quot.sound]
'Verif.Lifecycle.startup_wait_hangs_when_killed' depends on axioms: [propext, Classical.choice, Quot.sound]
'Verif.Lifecycle.startup_wait_hangs_when_stopped' depends on axioms: [propext, Classical.choice, Quot.sound]
'Verif.Lifecycle.startup_wait_iff' depends on axioms: [propext, Classical.choice, Quot.sound]
'Verif.Lifecycle.startup_wait_not_early' depends on axioms: [propext, Classical.choice, Quot.sound]
'Verif.Lifecycle.startup_wait_returns_on_failure_partial' depends on axioms: [propext, Classical.choice, Quot.sound]
'Verif.Lifecycle.startup_wait_returns_partial' depends on axioms: [propext, Classical.choice, Quot.sound]
'Verif.Lifecycle.stop_between_no_precedence' depends on axioms: [propext, Classical.choice, Quot.sound]
'Verif.Lifecycle.stop_drain_leaves' depends on axioms: [propext, Classical.choice, Quot.sound]
'Verif.Lifecycle.stop_forgotten_on_continue' depends on axioms: [propext, Classical.choice, Quot.sound]
'Verif.Lifecycle.stop_gracefully_panics_iff' depends on axioms: [propext, Classical.choice, Quot.sound]
'Verif.Lifecycle.stop_reason_true' depends on axioms: [propext, Classical.choice, Quot.sound]
'Verif.Lifecycle.stop_request_forgotten' depends on axioms: [propext, Quot.sound]
'Verif.Lifecycle.stop_taken_leaves_at_once' depends on axioms: [propext, Quot.sound]
'Verif.Lifecycle.stop_taken_never_waits_again_partial' depends on axioms: [propext, Classical.choice, Quot.sound]
'Verif.Lifecycle.stopped_after_on_stop' depends on axioms: [propext, Classical.choice, Quot.sound]
'Verif.Lifecycle.stopping_comes_to_end' depends on axioms: [propext, Classical.choice, Quot.sound]
'Verif.Lifecycle.taken_handler_silent' depends on axioms: [propext, Classical.choice, Quot.sound]
'Verif.Lifecycle.taken_reply_only_from_sender' depends on axioms: [propext, Classical.choice, Quot.sound]
'Verif.Lifecycle.task_dies_iff' depends on axioms: [propext, Classical.choice, Quot.sound]
'Verif.Lifecycle.told_full' depends on axioms: [propext, Classical.choice, Quot.sound]
'Verif.Lifecycle.told_iff' depends on axioms: [propext, Classical.choice, Quot.sound]
'Verif.Lifecycle.told_not_running' depends on axioms: [propext, Classical.choice, Quot.sound]
'Verif.Lifecycle.told_stopped_of_running' depends on axioms: [propext, Quot.sound]
'Verif.Lifecycle.told_stopped_partial' depends on axioms: [propext, Classical.choice, Quot.sound]
'Verif.Lifecycle.told_timeout' depends on axioms: [propext, Classical.choice, Quot.sound]
'Verif.Lifecycle.unreferenced_actor_never_stops' depends on axioms: [propext, Classical.choice, Quot.sound]
'Verif.Lifecycle.wait_for_stop_hangs' depends on axioms: [propext, Classical.choice, Quot.sound]
'Verif.Lifecycle.wait_for_stop_iff' depends on axioms: [propext, Classical.choice, Quot.sound]
'Verif.Lifecycle.wait_for_stop_of_the_gone' depends on axioms: [propext, Classical.choice, Quot.sound]
'Verif.Lifecycle.wait_for_stop_returns_early' depends on axioms: [propext, Classical.choice, Quot.sound]
'Verif.Lifecycle.waits_true_partial' depends on axioms: [propext, Classical.choice, Quot.sound]
'Verif.Listed.ended_unlisted_partial' depends on axioms: [propext, Classical.choice, Quot.sound]
'Verif.Listed.failed_start_stays_listed' depends on axioms: [propext, Classical.choice, Quot.sound]
'Verif.Listed.late_registration_stays_listed' depends on axioms: [propext, Classical.choice, Quot.sound]
'Verif.Listed.listed_after_end_for_ever' depends on axioms: [propext, Classical.choice, Quot.sound]
'Verif.Listed.listed_after_end_iff' depends on axioms: [propext, Classical.choice, Quot.sound]
'Verif.Listed.listed_until_finish' depends on axioms: [propext, Classical.choice, Quot.sound]
'Verif.Listed.torn_down_stays_listed' depends on axioms: [propext, Classical.choice, Quot.sound]
'Verif.Listed.unregister_keeps_reference' depends on axioms: [propext, Classical.choice, Quot.sound]
'Verif.Locks.Registry.blocking_links_block_node' depends on axioms: [propext, Quot.sound]
'Verif.Locks.Registry.link_made_under_both' depends on axioms: [propext, Quot.sound]
'Verif.Locks.Registry.lost_connection_blocks_node' depends on axioms: [propext, Quot.sound]
'Verif.Locks.Registry.lost_connection_never_blocks_partial' depends on axioms: [propext, Classical.choice, Quot.sound]
'Verif.Locks.Registry.lost_connection_one_thread_partial' depends on axioms: [propext, Classical.choice, Quot.sound]
'Verif.Locks.Registry.works_under_locks' depends on axioms: [propext, Quot.sound]
'Verif.Locks.ascending_links_deadlock' depends on axioms: [propext, Quot.sound]
'Verif.Locks.async_calls_on_one_thread_complete_partial' depends on axioms: [propext, Classical.choice, Quot.sound]
'Verif.Locks.calls_take_finitely_many_steps' depends on axioms: [propext, Quot.sound]
'Verif.Locks.can_deadlock_iff_ring' depends on axioms: [propext, Classical.choice, Quot.sound]
'Verif.Locks.circle_never_completes' depends on axioms: [propext, Quot.sound]
'Verif.Locks.complete_or_circle' depends on axioms: [propext, Classical.choice, Quot.sound]
'Verif.Locks.dropped_call_leaves_nothing' depends on axioms: [propext, Quot.sound]
'Verif.Locks.opposite_blocking_links_deadlock' depends on axioms: [propext, Classical.choice, Quot.sound]
'Verif.Locks.opposite_links_deadlock' depends on axioms: [propext, Classical.choice, Quot.sound]
'Verif.Locks.ordered_blocking_calls_complete_partial' depends on axioms: [propext, Classical.choice, Quot.sound]
'Verif.Locks.ring_deadlocks' depends on axioms: [propext, Classical.choice, Quot.sound]
'Verif.Locks.tree_links_complete_partial' depends on axioms: [propext, Classical.choice, Quot.sound]
'Verif.Macros.Derive.actor_name' depends on axioms: [propext, Classical.choice, Quot.sound]
'Verif.Macros.Derive.default_remote_ids_differ' depends on axioms: [propext, Classical.choice, Quot.sound]
'Verif.Macros.Derive.remote_id' depends on axioms: [propext, Classical.choice, Quot.sound]
'Verif.Macros.Remote.any_trait_is_accepted' depends on axioms: [propext]
'Verif.Macros.Remote.derive_generic_fails' depends on axioms: [propext, Classical.choice, Quot.sound]
'Verif.Macros.Remote.derive_registers_partial' depends on axioms: [propext, Classical.choice, Quot.sound]
'Verif.Macros.Remote.duplicate_message_panics' depends on axioms: [propext, Classical.choice, Quot.sound]
'Verif.Macros.Remote.generic_remote_message_fails' depends on axioms: [propext, Classical.choice, Quot.sound]
'Verif.Macros.Remote.manual_actor_not_linkable' depends on axioms: [propext, Classical.choice, Quot.sound]
'Verif.Macros.Remote.remote_actor_found' depends on axioms: [propext, Classical.choice, Quot.sound]
'Verif.Macros.Remote.remote_message_accepts' depends on axioms: [propext, Quot.sound]
'Verif.Macros.Remote.remote_message_found' depends on axioms: [propext, Classical.choice, Quot.sound]
'Verif.Macros.Remote.remote_message_registers_partial' depends on axioms: [propext, Classical.choice, Quot.sound]
'Verif.Macros.block_is_kept' depends on axioms: [propext, Quot.sound]
'Verif.Macros.const_generic_undeclared' depends on axioms: [propext, Quot.sound]
'Verif.Macros.implemented_for_block_iff' depends on axioms: [propext, Quot.sound]
'Verif.Macros.implemented_for_block_partial' depends on axioms: [propext, Quot.sound]
'Verif.Macros.implemented_for_other_type' depends on axioms: [propext, Quot.sound]
'Verif.Macros.invalid_message_is_error' depends on axioms: [propext, Classical.choice, Quot.sound]
'Verif.Macros.lifetime_and_type_panics' depends on axioms: [propext, Classical.choice, Quot.sound]
'Verif.Macros.message_generics_fit_partial' depends on axioms: [propext, Classical.choice, Quot.sound]
'Verif.Macros.messages_render_methods' depends on axioms: [propext, Classical.choice, Quot.sound]
'Verif.Macros.nested_generic_undeclared' depends on axioms: [propext, Quot.sound]
'Verif.Macros.repeated_generic_declared_twice' depends on axioms: [propext, Classical.choice, Quot.sound]
'Verif.Macros.returned_generic_mismatch' depends on axioms: [propext, Classical.choice, Quot.sound]
'Verif.Macros.self_type_error_iff' depends on axioms: [propext, Classical.choice, Quot.sound]
'Verif.Mailbox.accepted_eq_received_append_queue' depends on axioms: [propext, Classical.choice, Quot.sound]
'Verif.Mailbox.capacity_never_exceeded' depends on axioms: [propext, Classical.choice, Quot.sound]
'Verif.Mailbox.closed_resolves_every_send' depends on axioms: [propext, Classical.choice, Quot.sound]
'Verif.Mailbox.every_send_accounted_once' depends on axioms: [propext, Classical.choice, Quot.sound]
'Verif.Mailbox.failed_send_returns_value_and_never_delivers' depends on axioms: [propext, Classical.choice, Quot.sound]
'Verif.Mailbox.failure_reason_true' depends on axioms: [propext, Classical.choice, Quot.sound]
'Verif.Mailbox.received_prefix_of_accepted' depends on axioms: [propext, Classical.choice, Quot.sound]
'Verif.Mailbox.trySend_full_iff' depends on axioms: [propext, Classical.choice, Quot.sound]
'Verif.Mailbox.trySend_refused_no_effect' depends on axioms: [propext]
'Verif.Mailbox.waiter_can_be_admitted' depends on axioms: [propext, Classical.choice, Quot.sound]
'Verif.Mailbox.waiting_not_overtaken' depends on axioms: [propext, Classical.choice, Quot.sound]
'Verif.Mailbox.waiting_not_stuck' depends on axioms: [propext, Classical.choice, Quot.sound]
'Verif.Next.abort_needs_kill' depends on axioms: [propext, Classical.choice, Quot.sound]
'Verif.Next.alive_until_over_partial' depends on axioms: [propext, Quot.sound]
'Verif.Next.asks_settled' depends on axioms: [propext, Quot.sound]
'Verif.Next.calls_in_order' depends on axioms: [propext, Quot.sound]
'Verif.Next.closed_for_good' depends on axioms: [propext, Quot.sound]
'Verif.Next.closed_while_running' depends on axioms: [propext, Quot.sound]
'Verif.Next.crash_causes' depends on axioms: [propext, Quot.sound]
'Verif.Next.give_up_harmless' depends on axioms: [propext, Classical.choice, Quot.sound]
'Verif.Next.handled_in_order' depends on axioms: [propext, Quot.sound]
'Verif.Next.handled_once' depends on axioms: [propext, Quot.sound]
'Verif.Next.handler_answers' depends on axioms: [propext, Quot.sound]
'Verif.Next.held_back' depends on axioms: [propext, Classical.choice, Quot.sound]
'Verif.Next.kept_ask_hangs' depends on axioms: [propext, Quot.sound]
'Verif.Next.kill_ends' depends on axioms: [propext, Quot.sound]
'Verif.Next.killed_before_start' depends on axioms: [propext, Quot.sound]
'Verif.Next.next_panic_no_hooks' depends on axioms: [propext, Quot.sound]
'Verif.Next.no_outcome_yet' depends on axioms: [propext, Quot.sound]
'Verif.Next.over_is_over' depends on axioms: [propext, Quot.sound]
'Verif.Next.reply_from_handler' depends on axioms: [propext, Quot.sound]
'Verif.Next.returned_handled' depends on axioms: [propext, Quot.sound]
'Verif.Next.second_startup_crashes' depends on axioms: [propext, Quot.sound]
'Verif.Next.start_once' depends on axioms: [propext, Quot.sound]
'Verif.Next.stays_in_next' depends on axioms: [propext, Quot.sound]
'Verif.Next.taken_error_panics' depends on axioms: [propext, Quot.sound]
'Verif.Next.taken_reply_waits' depends on axioms: [propext, Classical.choice, Quot.sound]
'Verif.PanicLock.all_can_return_iff' depends on axioms: [propext, Classical.choice, Quot.sound]
'Verif.PanicLock.crossed_looks_hang' depends on axioms: [propext, Quot.sound]
'Verif.PanicLock.flat_looks_return_partial' depends on axioms: [propext, Quot.sound]
'Verif.PanicLock.hang_spreads' depends on axioms: [propext, Quot.sound]
'Verif.PanicLock.looks_return_partial' depends on axioms: [propext, Quot.sound]
'Verif.PanicLock.looks_true' depends on axioms: [propext, Quot.sound]
'Verif.PanicLock.nested_look_hangs' depends on axioms: [propext, Quot.sound]
'Verif.PanicLock.one_at_a_time' depends on axioms: [propext, Quot.sound]
'Verif.PanicLock.printed' depends on axioms: [propext, Classical.choice, Quot.sound]
'Verif.Plain.default_is_special' depends on axioms: [propext, Classical.choice, Quot.sound]
'Verif.Plain.special_is_default' depends on axioms: [propext, Classical.choice, Quot.sound]
'Verif.Pool.all_stopped_reported' depends on axioms: [propext, Classical.choice, Quot.sound]
'Verif.Pool.asks_beside_dead_inner' depends on axioms: [propext, Classical.choice, Quot.sound]
'Verif.Pool.broadcast_once_each' depends on axioms: [propext, Classical.choice, Quot.sound]
'Verif.Pool.copy_accepted' depends on axioms: [propext, Quot.sound]
'Verif.Pool.copy_error_true' depends on axioms: [propext, Quot.sound]
'Verif.Pool.copy_fails_only_if_stopped' depends on axioms: [propext]
'Verif.Pool.dead_inner_actor_panics_asker' depends on axioms: [propext, Quot.sound]
'Verif.Pool.delivered_to_running' depends on axioms: [propext, Classical.choice, Quot.sound]
'Verif.Pool.dispatch_does_not_survive' depends on axioms: [propext]
'Verif.Pool.dispatch_gets_through_iff' depends on axioms: [propext, Classical.choice, Quot.sound]
'Verif.Pool.dispatch_least_loaded' depends on axioms: [propext, Classical.choice, Quot.sound]
'Verif.Pool.dispatch_succeeds_partial' depends on axioms: [propext, Classical.choice, Quot.sound]
'Verif.Pool.dispatched_once' depends on axioms: [propext, Classical.choice, Quot.sound]
'Verif.Pool.full_inner_actor_stops_pool' depends on axioms: [propext, Classical.choice, Quot.sound]
'Verif.Pool.pool_answer_cases' depends on axioms: [propext, Quot.sound]
'Verif.Pool.pool_can_upgrade' depends on axioms: [propext, Classical.choice, Quot.sound]
'Verif.Pool.pool_error_panics' depends on axioms: [propext, Quot.sound]
'Verif.Pool.pool_panics_iff' depends on axioms: [propext, Quot.sound]
'Verif.Pool.pool_reply_arrives_partial' depends on axioms: [propext]
'Verif.Pool.pool_size' depends on axioms: [propext, Classical.choice, Quot.sound]
'Verif.Pool.stopped_worker_fails_dispatch' depends on axioms: [propext, Classical.choice, Quot.sound]
'Verif.Pool.unknown_death' depends on axioms: [propext, Quot.sound]
'Verif.Pool.unreferenced_pool_keeps_dead_worker' depends on axioms: [propext, Classical.choice, Quot.sound]
'Verif.Pool.waiting_dispatch' depends on axioms: [propext, Classical.choice, Quot.sound]
'Verif.Pool.worker_history' depends on axioms: [propext, Classical.choice, Quot.sound]
'Verif.Pool.worker_replaced_partial' depends on axioms: [propext, Classical.choice, Quot.sound]
'Verif.Pool.worker_stops_exactly' depends on axioms: [propext, Classical.choice, Quot.sound]
'Verif.PubSub.at_most_one_copy' depends on axioms: [propext, Classical.choice, Quot.sound]
'Verif.PubSub.every_message_published_partial' depends on axioms: [propext, Classical.choice, Quot.sound]
'Verif.PubSub.given_up_publish' depends on axioms: [propext, Classical.choice, Quot.sound]
'Verif.PubSub.mailboxes_bounded' depends on axioms: [propext, Quot.sound]
'Verif.PubSub.nobody_can_leave' depends on axioms: [propext, Classical.choice, Quot.sound]
'Verif.PubSub.only_subscribers_panic' depends on axioms: [propext, Quot.sound]
'Verif.PubSub.own_copy_arrives_partial' depends on axioms: [propext, Classical.choice, Quot.sound]
'Verif.PubSub.panicking_filter' depends on axioms: [propext, Classical.choice, Quot.sound]
'Verif.PubSub.publish_ends_partial' depends on axioms: [propext, Classical.choice, Quot.sound]
'Verif.PubSub.publish_exact' depends on axioms: [propext, Classical.choice, Quot.sound]
'Verif.PubSub.publish_removes' depends on axioms: [propext, Classical.choice, Quot.sound]
'Verif.PubSub.publish_step_by_step' depends on axioms: [propext, Classical.choice, Quot.sound]
'Verif.PubSub.pubsub_in_order' depends on axioms: [propext, Quot.sound]
'Verif.PubSub.pubsub_one_at_a_time' depends on axioms: [propext, Classical.choice, Quot.sound]
'Verif.PubSub.resubscribe_replaces' depends on axioms: [propext, Classical.choice, Quot.sound]
'Verif.PubSub.slow_subscriber_blocks_all' depends on axioms: [propext, Classical.choice, Quot.sound]
'Verif.Registry.get_returns_current' depends on axioms: [propext, Quot.sound]
'Verif.Registry.names_are_current' depends on axioms: [propext, Classical.choice, Quot.sound]
'Verif.Registry.names_are_independent' depends on axioms: [propext, Quot.sound]
'Verif.Registry.register_then_lookup' depends on axioms: [propext, Quot.sound]
'Verif.Registry.results_are_current' depends on axioms: [propext, Quot.sound]
'Verif.Remote.Asks.answered_as_returned' depends on axioms: [propext, Classical.choice, Quot.sound]
'Verif.Remote.Asks.asked_after_answered' depends on axioms: [propext, Classical.choice, Quot.sound]
'Verif.Remote.Asks.caller_unnoticed' depends on axioms: [propext, Classical.choice, Quot.sound]
'Verif.Remote.Asks.deserialize_ambiguous' depends on axioms: [propext, Quot.sound]
'Verif.Remote.Asks.effects_at_most_asked' depends on axioms: [propext, Classical.choice, Quot.sound]
'Verif.Remote.Asks.ended_answers' depends on axioms: [propext, Classical.choice, Quot.sound]
'Verif.Remote.Asks.ends_as_reported' depends on axioms: [propext, Classical.choice, Quot.sound]
'Verif.Remote.Asks.ends_when_reported' depends on axioms: [propext, Quot.sound]
'Verif.Remote.Asks.error_unheard_remote' depends on axioms: [propext, Classical.choice, Quot.sound]
'Verif.Remote.Asks.failed_as_reported' depends on axioms: [propext, Classical.choice, Quot.sound]
'Verif.Remote.Asks.handled_at_most_once' depends on axioms: [propext, Classical.choice, Quot.sound]
'Verif.Remote.Asks.lost_waits' depends on axioms: [propext, Classical.choice, Quot.sound]
'Verif.Remote.Asks.network_failure_ambiguous' depends on axioms: [propext, Quot.sound]
'Verif.Remote.Asks.not_found_as_reported' depends on axioms: [propext, Classical.choice, Quot.sound]
'Verif.Remote.Asks.one_answer' depends on axioms: [propext, Classical.choice, Quot.sound]
'Verif.Remote.Asks.timeout_ambiguous' depends on axioms: [propext, Classical.choice, Quot.sound]
'Verif.Remote.Asks.told_deserialize_partial' depends on axioms: [propext, Classical.choice, Quot.sound]
'Verif.Remote.Asks.told_handler_error' depends on axioms: [propext, Classical.choice, Quot.sound]
'Verif.Remote.Asks.told_lost_reply' depends on axioms: [propext, Classical.choice, Quot.sound]
'Verif.Remote.Asks.told_ok' depends on axioms: [propext, Classical.choice, Quot.sound]
'Verif.Remote.Asks.told_refused' depends on axioms: [propext, Classical.choice, Quot.sound]
'Verif.Remote.Asks.told_stopped_remote_partial' depends on axioms: [propext, Classical.choice, Quot.sound]
'Verif.Remote.Asks.told_timeout_partial' depends on axioms: [propext, Classical.choice, Quot.sound]
'Verif.Remote.Flight.both_sides_agree_partial' depends on axioms: [propext, Classical.choice, Quot.sound]
'Verif.Remote.Flight.crossed_calls' depends on axioms: [propext, Classical.choice, Quot.sound]
'Verif.Remote.Flight.late_request' depends on axioms: [propext, Classical.choice, Quot.sound]
'Verif.Remote.Flight.linked_and_never_told' depends on axioms: [propext, Classical.choice, Quot.sound]
'Verif.Remote.Flight.linked_death_told_partial' depends on axioms: [propext, Classical.choice, Quot.sound]
'Verif.Remote.Flight.lost_notice_never_told' depends on axioms: [propext, Classical.choice, Quot.sound]
'Verif.Remote.Flight.told_once_if_linked' depends on axioms: [propext, Classical.choice, Quot.sound]
'Verif.Remote.Flight.unlinked_and_told' depends on axioms: [propext, Quot.sound]
'Verif.Remote.Order.at_most_once' depends on axioms: [propext, Classical.choice, Quot.sound]
'Verif.Remote.Order.network_failure_says_nothing' depends on axioms: [propext, Classical.choice, Quot.sound]
'Verif.Remote.Order.ok_is_accepted' depends on axioms: [propext, Classical.choice, Quot.sound]
'Verif.Remote.Order.ok_then_next_in_order_partial' depends on axioms: [propext, Classical.choice, Quot.sound]
'Verif.Remote.Order.refused_for_a_reason' depends on axioms: [propext, Classical.choice, Quot.sound]
'Verif.Remote.Order.refused_never_accepted_partial' depends on axioms: [propext, Classical.choice, Quot.sound]
'Verif.Remote.Order.retried_tell_overtakes' depends on axioms: [propext, Classical.choice, Quot.sound]
'Verif.Remote.Order.spawned_tasks_any_order' depends on axioms: [propext, Classical.choice, Quot.sound]
'Verif.Remote.Order.spawned_tasks_reorder' depends on axioms: [propext, Classical.choice, Quot.sound]
'Verif.Remote.ask_runs_handler' depends on axioms: [propext, Quot.sound]
'Verif.Remote.ask_runs_iff' depends on axioms: [propext, Classical.choice, Quot.sound]
'Verif.Remote.ask_runs_nothing' depends on axioms: [propext, Quot.sound]
'Verif.Remote.caller_gets_callee_result_partial' depends on axioms: [propext, Quot.sound]
'Verif.Remote.caller_told_which_failed' depends on axioms: [propext, Quot.sound]
'Verif.Remote.death_signal_dispatch' depends on axioms: [propext, Quot.sound]
'Verif.Remote.death_signals_exact_partial' depends on axioms: [propext, Quot.sound]
'Verif.Remote.duplicates_serve_nothing' depends on axioms: [propext]
'Verif.Remote.link_both_error_one_sided' depends on axioms: [propext, Quot.sound]
'Verif.Remote.link_both_ok' depends on axioms: [propext, Quot.sound]
'Verif.Remote.link_both_result' depends on axioms: [propext, Quot.sound]
'Verif.Remote.link_remote_error_own_side_linked' depends on axioms: [propext, Quot.sound]
'Verif.Remote.link_remote_error_sibling_untouched_partial' depends on axioms: [propext]
'Verif.Remote.link_remote_error_true' depends on axioms: [propext, Quot.sound]
'Verif.Remote.link_remote_lost_response_links_both' depends on axioms: [propext, Quot.sound]
'Verif.Remote.link_remote_ok_both_linked' depends on axioms: [propext, Quot.sound]
'Verif.Remote.linked_then_dead' depends on axioms: [propext, Classical.choice, Quot.sound]
'Verif.Remote.lost_on_the_way' depends on axioms: [propext, Quot.sound]
'Verif.Remote.no_other_link_changes' depends on axioms: [propext, Classical.choice, Quot.sound]
'Verif.Remote.no_peers_misreported' depends on axioms: [propext, Quot.sound]
'Verif.Remote.no_swarm_no_death_signals' depends on axioms: [propext]
'Verif.Remote.no_swarm_says_so' depends on axioms: [propext, Quot.sound]
'Verif.Remote.panic_at_callee_is_closed' depends on axioms: [propext]
'Verif.Remote.reply_decode_error_blames_message' depends on axioms: [propext, Quot.sound]
'Verif.Remote.self_link_remote_nothing' depends on axioms: [propext]
'Verif.Remote.served_alone' depends on axioms: [propext, Quot.sound]
'Verif.Remote.tell_lost_on_the_way' depends on axioms: [propext, Quot.sound]
'Verif.Remote.tell_reports' depends on axioms: [propext]
'Verif.Remote.tell_runs_handler' depends on axioms: [propext, Quot.sound]
'Verif.Remote.tell_runs_nothing' depends on axioms: [propext, Quot.sound]
'Verif.Remote.teller_gets_callee_result' depends on axioms: [propext, Quot.sound]
'Verif.Remote.teller_told_which_failed' depends on axioms: [propext, Quot.sound]
'Verif.Remote.timeouts_conflated' depends on axioms: [propext, Quot.sound]
'Verif.Remote.unlink_both_error_one_side' depends on axioms: [propext, Classical.choice, Quot.sound]
'Verif.Remote.unlink_both_ok' depends on axioms: [propext, Classical.choice, Quot.sound]
'Verif.Remote.unlink_remote_error_own_side_unlinked' depends on axioms: [propext, Quot.sound]
'Verif.Remote.unlink_remote_ok_neither_linked' depends on axioms: [propext, Quot.sound]
'Verif.Remote.unserialisable_not_sent' depends on axioms: [propext]
'Verif.Reply.asker_gets_reply' depends on axioms: [propext, Quot.sound]
'Verif.Reply.asker_types' depends on axioms: [propext, Quot.sound]
'Verif.Reply.conversion_panics_iff' depends on axioms: [propext, Quot.sound]
'Verif.Reply.derived_replies' depends on axioms: [propext]
'Verif.Reply.errors_inside_are_data' depends on axioms: [propext, Quot.sound]
'Verif.Reply.handwritten_can_panic' depends on axioms: [propext]
'Verif.Reply.library_replies' depends on axioms: [propext, Quot.sound]
'Verif.Reply.no_replies' depends on axioms: [propext]
'Verif.Reply.not_all_of_std' depends on axioms: [propext]
'Verif.Reply.to_result_says' depends on axioms: [propext, Quot.sound]
'Verif.Reply.told_error_iff' depends on axioms: [propext, Quot.sound]
'Verif.Reply.tuple_replies' depends on axioms: [propext, Classical.choice, Quot.sound]
'Verif.Reply.value_types_fit' depends on axioms: [propext, Quot.sound]
'Verif.Request.asker_panics_iff' depends on axioms: [propext, Quot.sound]
'Verif.Request.boxed_downcast_roundtrip' depends on axioms: [propext]
'Verif.Request.downcast_exact' depends on axioms: [propext, Quot.sound]
'Verif.Request.enqueue_forward_on_closed_mailbox_panic' depends on axioms: [propext, Quot.sound]
'Verif.Request.enqueue_forward_report_partial' depends on axioms: [propext, Quot.sound]
'Verif.Request.enqueue_panics' depends on axioms: [propext]
'Verif.Request.enqueue_panics_iff' depends on axioms: [propext, Quot.sound]
'Verif.Request.error_to_on_panic' depends on axioms: [propext]
'Verif.Request.failed_request_hands_back_message' depends on axioms: [propext, Quot.sound]
'Verif.Request.flatten_keeps_all' depends on axioms: [propext, Quot.sound]
'Verif.Request.forward_failure_decoded' depends on axioms: [propext, Quot.sound]
'Verif.Request.forward_panics' depends on axioms: [propext, Quot.sound]
'Verif.Request.forward_panics_iff' depends on axioms: [propext, Quot.sound]
'Verif.Request.forwarded_answered_once' depends on axioms: [propext]
'Verif.Request.forwarded_error_one_hop_partial' depends on axioms: [propext]
'Verif.Request.forwarded_tell' depends on axioms: [propext]
'Verif.Request.forwarded_tell_refused' depends on axioms: [propext]
'Verif.Request.forwarded_value_any_hops' depends on axioms: [propext]
'Verif.Request.handle_panics_iff' depends on axioms: [propext, Classical.choice, Quot.sound]
'Verif.Request.handle_panics_iff_partial' depends on axioms: [propext, Quot.sound]
'Verif.Request.infallible_any_hops' depends on axioms: [propext]
'Verif.Request.map_err_only_error' depends on axioms: [propext]
'Verif.Request.map_msg_only_message' depends on axioms: [propext]
'Verif.Request.one_reply_channel_one_place' depends on axioms: [propext, Quot.sound]
'Verif.Request.refused_stop_gracefully_panics' depends on axioms: [propext, Quot.sound]
'Verif.Request.stale_marker_panics' depends on axioms: [propext]
'Verif.Request.stop_gracefully_on_stopped_actor_panics' depends on axioms: [propext, Classical.choice, Quot.sound]
'Verif.Request.stop_gracefully_reports_partial' depends on axioms: [propext, Classical.choice, Quot.sound]
'Verif.Request.two_hops_error_panics' depends on axioms: [propext, Quot.sound]
'Verif.Request.unwrap_exactly' depends on axioms: [propext, Quot.sound]
'Verif.Router.best_effort_exact' depends on axioms: [propext]
'Verif.Router.broker_drops_stopped_partial' depends on axioms: [propext, Classical.choice, Quot.sound]
'Verif.Router.broker_finish_exact' depends on axioms: [propext, Quot.sound]
'Verif.Router.broker_in_order_partial' depends on axioms: [propext, Quot.sound]
'Verif.Router.broker_keeps' depends on axioms: [propext, Classical.choice, Quot.sound]
'Verif.Router.broker_publish_exact' depends on axioms: [propext, Quot.sound]
'Verif.Router.broker_spawned_any_order' depends on axioms: [propext, Quot.sound]
'Verif.Router.broker_spawned_delivers' depends on axioms: [propext, Quot.sound]
'Verif.Router.broker_spawned_overtakes' depends on axioms: [propext, Classical.choice, Quot.sound]
'Verif.Router.broker_stopped_accepts_nothing' depends on axioms: [propext, Quot.sound]
'Verif.Router.broker_subscribe' depends on axioms: [propext, Quot.sound]
'Verif.Router.broker_task_unsubscribe' depends on axioms: [propext, Quot.sound]
'Verif.Router.broker_unsubscribe' depends on axioms: [propext, Quot.sound]
'Verif.Router.bus_delivers_own_type' depends on axioms: [propext, Classical.choice, Quot.sound]
'Verif.Router.bus_drops_stopped' depends on axioms: [propext, Classical.choice, Quot.sound]
'Verif.Router.bus_in_order_partial' depends on axioms: [propext, Quot.sound]
'Verif.Router.bus_keeps' depends on axioms: [propext, Classical.choice, Quot.sound]
'Verif.Router.bus_kept_under_other_type' depends on axioms: [propext, Quot.sound]
'Verif.Router.bus_never_panics' depends on axioms: [propext, Classical.choice, Quot.sound]
'Verif.Router.bus_publish_exact' depends on axioms: [propext, Classical.choice, Quot.sound]
'Verif.Router.bus_register' depends on axioms: [propext, Quot.sound]
'Verif.Router.bus_spawned_delivers' depends on axioms: [propext, Classical.choice, Quot.sound]
'Verif.Router.bus_spawned_overtakes' depends on axioms: [propext, Classical.choice, Quot.sound]
'Verif.Router.bus_stopped_accepts_nothing' depends on axioms: [propext, Quot.sound]
'Verif.Router.bus_task_unregister' depends on axioms: [propext, Quot.sound]
'Verif.Router.bus_types' depends on axioms: [propext, Classical.choice, Quot.sound]
'Verif.Router.bus_unregister' depends on axioms: [propext, Quot.sound]
'Verif.Router.guaranteed_blocks' depends on axioms: [propext]
'Verif.Router.guaranteed_never_drops' depends on axioms: [propext, Quot.sound]
'Verif.Router.guaranteed_prevents' depends on axioms: [propext]
'Verif.Router.guaranteed_reaches_live' depends on axioms: [propext, Quot.sound]
'Verif.Router.guaranteed_waits' depends on axioms: [propext]
'Verif.Router.not_prevented_partial' depends on axioms: [propext, Quot.sound]
'Verif.Router.others_reached' depends on axioms: [propext, Quot.sound]
'Verif.Router.stopped_kept_under_other_pattern' depends on axioms: [propext, Quot.sound]
'Verif.Router.task_ruling' depends on axioms: [propext, Quot.sound]
'Verif.Router.timed_exact' depends on axioms: [propext]
'Verif.Stream.accepted_prefix_of_script' depends on axioms: [propext, Classical.choice, Quot.sound]
'Verif.Stream.all_accepted' depends on axioms: [propext, Classical.choice, Quot.sound]
'Verif.Stream.can_come_back_iff' depends on axioms: [propext, Classical.choice, Quot.sound]
'Verif.Stream.error_is_what_is_missing' depends on axioms: [propext, Classical.choice, Quot.sound]
'Verif.Stream.failure_loses_items' depends on axioms: [propext, Classical.choice, Quot.sound]
'Verif.Stream.fallen_leaves_gap' depends on axioms: [propext, Classical.choice, Quot.sound]
'Verif.Stream.given_back_by_chance' depends on axioms: [propext, Classical.choice, Quot.sound]
'Verif.Stream.given_back_complete' depends on axioms: [propext, Classical.choice, Quot.sound]
'Verif.Stream.handled_all_but_those_behind' depends on axioms: [propext, Classical.choice, Quot.sound]
'Verif.Stream.handled_in_script_order' depends on axioms: [propext, Classical.choice, Quot.sound]
'Verif.Stream.handled_prefix_of_script_partial' depends on axioms: [propext, Classical.choice, Quot.sound]
'Verif.Stream.one_more_at_most' depends on axioms: [propext, Classical.choice, Quot.sound]
'Verif.Stream.prefix_if_none_behind_partial' depends on axioms: [propext, Classical.choice, Quot.sound]
'Verif.Stream.stream_items_lost' depends on axioms: [propext, Quot.sound]
'Verif.Stream.sure_to_come_back_iff' depends on axioms: [propext, Classical.choice, Quot.sound]
'Verif.Stream.task_ends' depends on axioms: [propext, Classical.choice, Quot.sound]
'Verif.Stream.waiting_stream_lost' depends on axioms: [propext, Classical.choice, Quot.sound]
'Verif.Stream.whole_unless_stopped' depends on axioms: [propext, Classical.choice, Quot.sound]
'Verif.Swarm.Sweep.each_closure_signalled_stepwise_partial' depends on axioms: [propext, Classical.choice, Quot.sound]
'Verif.Swarm.Sweep.pass_ends' depends on axioms: [propext, Classical.choice, Quot.sound]
'Verif.Swarm.Sweep.pass_tells' depends on axioms: [propext, Classical.choice, Quot.sound]
'Verif.Swarm.Sweep.signals_bounded_stepwise' depends on axioms: [propext, Classical.choice, Quot.sound]
'Verif.Swarm.answers_fit' depends on axioms: [propext, Classical.choice, Quot.sound]
'Verif.Swarm.ask_command_runs_handler' depends on axioms: [propext, Classical.choice, Quot.sound]
'Verif.Swarm.ask_never_unexpected' depends on axioms: [propext, Classical.choice, Quot.sound]
'Verif.Swarm.at_most_one_response' depends on axioms: [propext, Classical.choice, Quot.sound]
'Verif.Swarm.bad_record_kills_swarm' depends on axioms: [propext, Classical.choice, Quot.sound]
'Verif.Swarm.closure_is_last_partial' depends on axioms: [propext, Classical.choice, Quot.sound]
'Verif.Swarm.connections_counted' depends on axioms: [propext, Quot.sound]
'Verif.Swarm.death_command_signals_notified' depends on axioms: [propext, Classical.choice, Quot.sound]
'Verif.Swarm.disconnect_signalled_while_connected' depends on axioms: [propext, Quot.sound]
'Verif.Swarm.disconnect_signals_exact' depends on axioms: [propext, Classical.choice, Quot.sound]
'Verif.Swarm.dropped_link_not_signalled' depends on axioms: [propext, Classical.choice, Quot.sound]
'Verif.Swarm.each_closure_signalled_partial' depends on axioms: [propext, Classical.choice, Quot.sound]
'Verif.Swarm.every_call_answered' depends on axioms: [propext, Classical.choice, Quot.sound]
'Verif.Swarm.every_call_comes_back' depends on axioms: [propext, Classical.choice, Quot.sound]
'Verif.Swarm.every_request_answered' depends on axioms: [propext, Classical.choice, Quot.sound]
'Verif.Swarm.link_command_links_sibling' depends on axioms: [propext, Classical.choice, Quot.sound]
'Verif.Swarm.link_survives_iff' depends on axioms: [propext, Classical.choice, Quot.sound]
'Verif.Swarm.local_lookup_of_record' depends on axioms: [propext, Classical.choice, Quot.sound]
'Verif.Swarm.local_lookup_type_checked' depends on axioms: [propext]
'Verif.Swarm.local_request_gets_its_answer' depends on axioms: [propext, Classical.choice, Quot.sound]
'Verif.Swarm.lookup_gets_its_answer' depends on axioms: [propext, Classical.choice, Quot.sound]
'Verif.Swarm.lookup_of_record' depends on axioms: [propext, Classical.choice, Quot.sound]
'Verif.Swarm.lookup_says' depends on axioms: [propext, Classical.choice, Quot.sound]
'Verif.Swarm.lost_peer_is_news' depends on axioms: [propext, Classical.choice, Quot.sound]
'Verif.Swarm.malformed_record_panics' depends on axioms: [propext, Classical.choice, Quot.sound]
'Verif.Swarm.network_genuine' depends on axioms: [propext, Classical.choice, Quot.sound]
'Verif.Swarm.network_honest' depends on axioms: [propext, Classical.choice, Quot.sound]
'Verif.Swarm.news_heard_and_forgotten' depends on axioms: [propext, Classical.choice, Quot.sound]
'Verif.Swarm.no_caller_panics' depends on axioms: [propext, Classical.choice, Quot.sound]
'Verif.Swarm.no_news_for_stopped' depends on axioms: [propext, Quot.sound]
'Verif.Swarm.nobody_forgotten' depends on axioms: [propext, Classical.choice, Quot.sound]
'Verif.Swarm.old_news_cuts_new_link' depends on axioms: [propext, Classical.choice, Quot.sound]
'Verif.Swarm.own_actor_kept_iff' depends on axioms: [propext, Classical.choice, Quot.sound]
'Verif.Swarm.own_actor_not_always_served' depends on axioms: [propext, Classical.choice, Quot.sound]
'Verif.Swarm.own_actor_out_of_reach' depends on axioms: [propext, Classical.choice, Quot.sound]
'Verif.Swarm.own_actor_served_without_peers_partial' depends on axioms: [propext, Classical.choice, Quot.sound]
'Verif.Swarm.put_gets_its_answer' depends on axioms: [propext, Classical.choice, Quot.sound]
'Verif.Swarm.record_injective' depends on axioms: [propext, Classical.choice, Quot.sound]
'Verif.Swarm.record_roundtrip' depends on axioms: [propext, Classical.choice, Quot.sound]
'Verif.Swarm.refused_record_kills_swarm' depends on axioms: [propext, Classical.choice, Quot.sound]
'Verif.Swarm.register_takes_over' depends on axioms: [propext, Classical.choice, Quot.sound]
'Verif.Swarm.registered_name_is_found' depends on axioms: [propext, Classical.choice, Quot.sound]
'Verif.Swarm.relink_in_hook_lost' depends on axioms: [propext, Classical.choice, Quot.sound]
'Verif.Swarm.renewed_link_holds_partial' depends on axioms: [propext, Classical.choice, Quot.sound]
'Verif.Swarm.request_gets_its_answer' depends on axioms: [propext, Classical.choice, Quot.sound]
'Verif.Swarm.responses_in_kind' depends on axioms: [propext, Classical.choice, Quot.sound]
'Verif.Swarm.signalled_while_connected' depends on axioms: [propext, Classical.choice, Quot.sound]
'Verif.Swarm.signals_bounded_by_closures' depends on axioms: [propext, Classical.choice, Quot.sound]
'Verif.Swarm.swarm_dead_iff' depends on axioms: [propext, Classical.choice, Quot.sound]
'Verif.Swarm.swarm_survives_partial' depends on axioms: [propext, Classical.choice, Quot.sound]
'Verif.Swarm.tell_command_runs_handler' depends on axioms: [propext, Classical.choice, Quot.sound]
'Verif.Swarm.tell_never_unexpected' depends on axioms: [propext, Classical.choice, Quot.sound]
'Verif.Swarm.told_death_heard' depends on axioms: [propext, Quot.sound]
'Verif.Swarm.unknown_ids_change_nothing' depends on axioms: [propext, Classical.choice, Quot.sound]
'Verif.Swarm.unlink_command_unlinks_sibling' depends on axioms: [propext, Classical.choice, Quot.sound]
'Verif.Swarm.unregister_without_peers_does_nothing' depends on axioms: [propext, Classical.choice, Quot.sound]
'Verif.Swarm.unregister_works_iff' depends on axioms: [propext, Classical.choice, Quot.sound]
'Verif.Swarm.unregistered_name_is_gone_partial' depends on axioms: [propext, Classical.choice, Quot.sound]
'Verif.Swarm.wrong_kind_always_panics' depends on axioms: [propext, Classical.choice, Quot.sound]
'Verif.Swarm.wrong_kind_panics' depends on axioms: [propext, Classical.choice, Quot.sound]
'Verif.System.abnormal_death_stops' depends on axioms: [propext, Classical.choice, Quot.sound]
'Verif.System.dead_forgotten_live_partial' depends on axioms: [propext, Classical.choice, Quot.sound]
'Verif.System.dead_forgotten_partial' depends on axioms: [propext, Classical.choice, Quot.sound]
'Verif.System.dead_listed_iff' depends on axioms: [propext, Classical.choice, Quot.sound]
'Verif.System.failed_start_listed_for_ever' depends on axioms: [propext, Classical.choice, Quot.sound]
'Verif.System.failed_start_tells_nobody' depends on axioms: [propext, Classical.choice, Quot.sound]
'Verif.System.failure_takes_down_component_live_partial' depends on axioms: [propext, Classical.choice, Quot.sound]
'Verif.System.failure_takes_down_exactly_the_component_partial' depends on axioms: [propext,
 Classical.choice,
 Quot.sound]
'Verif.System.failure_takes_down_exactly_what_it_reaches_partial' depends on axioms: [propext,
 Classical.choice,
 Quot.sound]
'Verif.System.failure_takes_down_the_component_if_started_partial' depends on axioms: [propext,
 Classical.choice,
 Quot.sound]
'Verif.System.failure_takes_down_what_it_reaches_live_partial' depends on axioms: [propext,
 Classical.choice,
 Quot.sound]
'Verif.System.fair_deadlock' depends on axioms: [propext, Classical.choice, Quot.sound]
'Verif.System.full_mailboxes_deadlock' depends on axioms: [propext, Classical.choice, Quot.sound]
'Verif.System.heard_is_forgotten' depends on axioms: [propext, Classical.choice, Quot.sound]
'Verif.System.hook_ignores_links' depends on axioms: [propext, Quot.sound]
'Verif.System.last_words_ahead' depends on axioms: [propext, Classical.choice, Quot.sound]
'Verif.System.last_words_handled_iff' depends on axioms: [propext, Classical.choice, Quot.sound]
'Verif.System.last_words_handled_partial' depends on axioms: [propext, Classical.choice, Quot.sound]
'Verif.System.last_words_overtaken' depends on axioms: [propext, Classical.choice, Quot.sound]
'Verif.System.late_link_listed_for_ever' depends on axioms: [propext, Classical.choice, Quot.sound]
'Verif.System.link_honoured_live_partial' depends on axioms: [propext, Classical.choice, Quot.sound]
'Verif.System.link_honoured_partial' depends on axioms: [propext, Classical.choice, Quot.sound]
'Verif.System.link_idempotent' depends on axioms: [propext, Classical.choice, Quot.sound]
'Verif.System.link_too_late' depends on axioms: [propext, Classical.choice, Quot.sound]
'Verif.System.link_unlink_effect' depends on axioms: [propext, Classical.choice, Quot.sound]
'Verif.System.linked_actors_react_partial' depends on axioms: [propext, Classical.choice, Quot.sound]
'Verif.System.linked_actors_told_exactly_once_partial' depends on axioms: [propext, Classical.choice, Quot.sound]
'Verif.System.links_grow_with_the_dead' depends on axioms: [propext, Classical.choice, Quot.sound]
'Verif.System.links_symmetric' depends on axioms: [propext, Classical.choice, Quot.sound]
'Verif.System.message_send_can_be_given_up' depends on axioms: [propext, Classical.choice, Quot.sound]
'Verif.System.never_linked_to_itself' depends on axioms: [propext, Classical.choice, Quot.sound]
'Verif.System.news_only_of_linked' depends on axioms: [propext, Classical.choice, Quot.sound]
'Verif.System.normal_stop_takes_down_nobody' depends on axioms: [propext, Classical.choice, Quot.sound]
'Verif.System.root_cause_preserved' depends on axioms: [propext, Classical.choice, Quot.sound]
'Verif.System.stopping_actors_deadlock' depends on axioms: [propext, Classical.choice, Quot.sound]
'Verif.System.stopping_completes_partial' depends on axioms: [propext, Classical.choice, Quot.sound]
'Verif.System.stopping_ends_unbounded' depends on axioms: [propext, Classical.choice, Quot.sound]
'Verif.System.stops_if_bounded_run' depends on axioms: [propext, Classical.choice, Quot.sound]
'Verif.System.stops_or_circle_partial' depends on axioms: [propext, Classical.choice, Quot.sound]
'Verif.System.told_at_most_once' depends on axioms: [propext, Classical.choice, Quot.sound]
'Verif.System.told_iff_left_linked' depends on axioms: [propext, Classical.choice, Quot.sound]
'Verif.System.unbounded_stopping_completes' depends on axioms: [propext, Classical.choice, Quot.sound]
'Verif.System.unlink_in_time_partial' depends on axioms: [propext, Classical.choice, Quot.sound]
'Verif.System.unlink_too_late' depends on axioms: [propext, Classical.choice, Quot.sound]
'Verif.System.unlinked_actor_dies_with_other' depends on axioms: [propext, Quot.sound]
'Verif.System.waits_only_for_waiting_partial' depends on axioms: [propext, Classical.choice, Quot.sound]
'Verif.Timed.actor_goes_on_without_await' depends on axioms: [propext, Classical.choice, Quot.sound]
'Verif.Timed.answer_was_given' depends on axioms: [propext, Classical.choice, Quot.sound]
'Verif.Timed.enqueue_time_out_runs_late' depends on axioms: [propext, Quot.sound]
'Verif.Timed.mailbox_time_out_ends_with_acceptance' depends on axioms: [propext, Classical.choice, Quot.sound]
'Verif.Timed.mailbox_time_out_true' depends on axioms: [propext, Classical.choice, Quot.sound]
'Verif.Timed.maybe_keeps' does not depend on any axioms
'Verif.Timed.methods_keep_their_meaning' depends on axioms: [propext, Quot.sound]
'Verif.Timed.methods_there' depends on axioms: [propext, Quot.sound]
'Verif.Timed.never_waits_for_room' depends on axioms: [propext, Classical.choice, Quot.sound]
'Verif.Timed.no_time_out_forgotten' depends on axioms: [propext, Quot.sound]
'Verif.Timed.overdue_poll_ends' depends on axioms: [propext, Quot.sound]
'Verif.Timed.pending_reply_waits' depends on axioms: [propext, Classical.choice, Quot.sound]
'Verif.Timed.remote_ask_time_outs_kept' depends on axioms: [propext, Quot.sound]
'Verif.Timed.remote_tell_time_outs_kept' depends on axioms: [propext]
'Verif.Timed.reply_beats_clock' depends on axioms: [propext, Classical.choice, Quot.sound]
'Verif.Timed.reply_time_out_true' depends on axioms: [propext, Classical.choice, Quot.sound]
'Verif.Timed.room_beats_clock' depends on axioms: [propext, Classical.choice, Quot.sound]
'Verif.Timed.tell_time_out_kept' depends on axioms: [propext, Quot.sound]
'Verif.Timed.tell_waits' depends on axioms: [propext]
'Verif.Timed.time_outs_bound_the_wait' depends on axioms: [propext, Classical.choice, Quot.sound]
'Verif.Wire.bootstrap_text_ambiguous' does not depend on any axioms
'Verif.Wire.bootstrap_text_partial' depends on axioms: [propext, Quot.sound]
'Verif.Wire.boxed_keeps_text' does not depend on any axioms
'Verif.Wire.cause_not_printed' depends on axioms: [propext, Classical.choice, Quot.sound]
'Verif.Wire.error_survives_partial' depends on axioms: [propext]
'Verif.Wire.error_text_survives' depends on axioms: [propext]
'Verif.Wire.flatten_spec' does not depend on any axioms
'Verif.Wire.handler_error_looks_like' depends on axioms: [propext]
'Verif.Wire.id_error_text_iff' depends on axioms: [propext]
'Verif.Wire.id_text_changes' depends on axioms: [propext, Classical.choice, Quot.sound]
'Verif.Wire.id_text_iff_eq' depends on axioms: [propext, Classical.choice, Quot.sound]
'Verif.Wire.io_never_arrives' depends on axioms: [propext]
'Verif.Wire.mapErr_spec' depends on axioms: [propext, Quot.sound]
'Verif.Wire.panic_debug_iff' depends on axioms: [propext, Classical.choice, Quot.sound]
'Verif.Wire.panic_debug_says_more' depends on axioms: [propext, Classical.choice, Quot.sound]
'Verif.Wire.panic_message_grows' depends on axioms: [propext, Quot.sound]
'Verif.Wire.panic_message_never_survives' depends on axioms: [propext, Classical.choice, Quot.sound]
'Verif.Wire.panic_other_becomes_string' depends on axioms: [propext, Quot.sound]
'Verif.Wire.reason_debug_iff' depends on axioms: [propext, Classical.choice, Quot.sound]
'Verif.Wire.reason_survives_partial' depends on axioms: [propext, Quot.sound]
'Verif.Wire.reason_text_iff' depends on axioms: [propext, Classical.choice, Quot.sound]
'Verif.Wire.reason_text_on_the_wire' depends on axioms: [propext, Classical.choice, Quot.sound]
'Verif.Wire.reason_without_panic_exact_partial' depends on axioms: [propext, Quot.sound]
'Verif.Wire.registry_debug_inj' depends on axioms: [propext, Classical.choice, Quot.sound]
'Verif.Wire.registry_text_inj' depends on axioms: [propext, Classical.choice, Quot.sound]
'Verif.Wire.remote_conversions_keep_text' depends on axioms: [propext]
'Verif.Wire.remote_debug_iff' depends on axioms: [propext, Classical.choice, Quot.sound]
'Verif.Wire.remote_text_partial' depends on axioms: [propext, Classical.choice, Quot.sound]
'Verif.Wire.send_conversions_keep_text' does not depend on any axioms
'Verif.Wire.send_debug_partial' depends on axioms: [propext, Classical.choice, Quot.sound]
'Verif.Wire.send_text_partial' depends on axioms: [propext, Classical.choice, Quot.sound]
'Verif.Wire.unknown_message_ambiguous' depends on axioms: [propext, Classical.choice, Quot.sound]
