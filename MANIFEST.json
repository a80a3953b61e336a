{
 "claims": [
  {
   "property": "C01",
   "status": "proved",
   "theorems": [
    "Verif.C01_time_monotone",
    "Verif.C01_time_monotone_raising",
    "Verif.C01_negative_delay_false"
   ],
   "note": "TimedActivation, arbitrary user code, shuffles and histories, with and without exceptions; the last theorem shows the non-negative-delay premise is needed"
  },
  {
   "property": "C02",
   "status": "proved",
   "theorems": [
    "Verif.C02_exact_wakeups",
    "Verif.C02_next_activation",
    "Verif.C02_first_activation",
    "Verif.C02_only_when_asked"
   ],
   "note": "refinement of the activation log to an event calendar, projected to one agent; the last theorem covers histories with exceptions"
  },
  {
   "property": "C03",
   "status": "proved",
   "theorems": [
    "Verif.C03_conservation",
    "Verif.C03_no_spurious_activation"
   ],
   "note": "queue contents = calendar implied by the log, after every history without unexpected exceptions"
  },
  {
   "property": "C04",
   "status": "proved",
   "theorems": [
    "Verif.C04_step_runs_due"
   ],
   "note": ""
  },
  {
   "property": "C05",
   "status": "proved",
   "theorems": [
    "Verif.C05_ordered_fifo",
    "Verif.C05_deterministic"
   ],
   "note": ""
  },
  {
   "property": "C06",
   "status": "proved",
   "theorems": [
    "Verif.C06_no_double_activation"
   ],
   "note": ""
  },
  {
   "property": "C07",
   "status": "proved",
   "theorems": [
    "Verif.C07_exhausted_quiescent"
   ],
   "note": ""
  },
  {
   "property": "C08",
   "status": "partial",
   "theorems": [
    "Verif.C08_add_when_partial",
    "Verif.C08_add_when_false",
    "Verif.C08_when_ignored"
   ],
   "note": "the code violates the claim (argument passed in the wrong position); proved: negation, exact extent, and the case when=None/now"
  },
  {
   "property": "C09",
   "status": "proved",
   "theorems": [
    "Verif.C09_added_midstep_runs_next",
    "Verif.C09_added_between_steps"
   ],
   "note": ""
  },
  {
   "property": "C10",
   "status": "partial",
   "theorems": [
    "Verif.C10_exception_partial",
    "Verif.C10_kept_partial",
    "Verif.C10_exception_loses_others_false"
   ],
   "note": "the code violates the claim; proved: negation, and that over any history with any number of exceptions only agents of the instant of an exception are lost"
  },
  {
   "property": "C11",
   "status": "proved",
   "theorems": [
    "Verif.C11_pqueue_exact_wakeups",
    "Verif.C11_pqueue_step"
   ],
   "note": "queue manipulated with the algorithms of CPython's heapq; arbitrary keys (ties of (when, key), on which Python compares agents and raises, are not raised in the model); population added at time 0, no later additions; every step is shown to end"
  },
  {
   "property": "C12",
   "status": "partial",
   "theorems": [
    "Verif.C12_add_evicts_false",
    "Verif.C12_witness_false",
    "Verif.C12_add_raises_false",
    "Verif.C12_add_partial"
   ],
   "note": "violated whenever the clock is not 0 (general eviction theorem, IndexError theorem, reachable witness); holds at time 0"
  },
  {
   "property": "C13",
   "status": "proved",
   "theorems": [
    "Verif.C13_same_timeline"
   ],
   "note": "replies given by a policy over the agent's own history; compared up to any time both clocks have reached"
  },
  {
   "property": "C14",
   "status": "proved",
   "theorems": [
    "Verif.C14_lockstep_interval",
    "Verif.C14_lockstep_clock",
    "Verif.C14_lockstep_hangs_when_empty"
   ],
   "note": "for steps that return, also many of them; last theorem: with an empty wrapped queue the step never returns"
  },
  {
   "property": "C15",
   "status": "partial",
   "theorems": [
    "Verif.C15_at_exact",
    "Verif.C15_at_lockstep",
    "Verif.C15_at_lockstep_false"
   ],
   "note": "holds for the default scheduler; violated under Lockstepper (exact shift and witness)"
  },
  {
   "property": "C16",
   "status": "proved",
   "theorems": [
    "Verif.C16_max_time_open"
   ],
   "note": "default scheduler, arbitrary user code without unexpected exceptions or negative delays"
  },
  {
   "property": "C17",
   "status": "proved",
   "theorems": [
    "Verif.C17_max_steps_exact",
    "Verif.C17_steps_counted",
    "Verif.C17_pqueue_counted",
    "Verif.C17_pqueue_max_steps",
    "Verif.C17_simulation_max_steps"
   ],
   "note": "both schedulers, any limit (also fractional); the counter is tied to the calls of step that run agents"
  },
  {
   "property": "C18",
   "status": "proved",
   "theorems": [
    "Verif.C18_terminates",
    "Verif.C18_terminates_host",
    "Verif.C18_terminates_adds"
   ],
   "note": "first in terms of the activation log of the run, second in terms of the agents' behaviour, third with a bounded number of additions"
  },
  {
   "property": "C19",
   "status": "partial",
   "theorems": [
    "Verif.C19_exhausted_diverges_false",
    "Verif.C19_witness_false",
    "Verif.C19_exhausted_partial",
    "Verif.C19_pqueue_stops"
   ],
   "note": "violated by TimedActivation without max_time: general divergence theorem and witness; holds when max_time is set, and for PQueueActivation with any bounds"
  },
  {
   "property": "C20",
   "status": "partial",
   "theorems": [
    "Verif.C20_cli_drops_limits_false",
    "Verif.C20_witness_false",
    "Verif.C20_cli_limits_partial"
   ],
   "note": "violated: without options the configured limits are replaced by None and every model that does not stop by itself runs for ever; holds for a limit whose option is given or that is not configured"
  },
  {
   "property": "C21",
   "status": "proved",
   "theorems": [
    "Verif.C21_generator_resume"
   ],
   "note": ""
  },
  {
   "property": "C22",
   "status": "partial",
   "theorems": [
    "Verif.C22_swallowed_activation_false",
    "Verif.C22_coroutine_stuck_false",
    "Verif.C22_restart_partial"
   ],
   "note": "Violated: after an exception in a generator step the next activation is swallowed; an async step never runs again. Proved: a generator step restarts at the second activation after the failure."
  },
  {
   "property": "C23",
   "status": "partial",
   "theorems": [
    "Verif.C23_documented_partial",
    "Verif.C23_two_char_id_false",
    "Verif.C23_witness_false",
    "Verif.C23_two_char_id_moves_false",
    "Verif.C23_errors_partial",
    "Verif.C23_bad_delay_false"
   ],
   "note": "Violated for state ids of exactly two characters (the string is unpacked as a pair) and for bad delays (state changes before the error). Proved for all other returned values."
  },
  {
   "property": "C24",
   "status": "partial",
   "theorems": [
    "Verif.C24_declared_partial",
    "Verif.C24_foreign_state_false"
   ],
   "note": "Violated by returned State objects of other classes; proved over all histories for user code that returns only State objects of its own class."
  },
  {
   "property": "C25",
   "status": "partial",
   "theorems": [
    "Verif.C25_set_state_late",
    "Verif.C25_set_state_zero_partial",
    "Verif.C25_foreign_state_false"
   ],
   "note": "A foreign State object is accepted without error."
  },
  {
   "property": "C26",
   "status": "partial",
   "theorems": [
    "Verif.C26_fsm_silent_partial",
    "Verif.C26_dead_forever_partial",
    "Verif.C26_plain_killed_false",
    "Verif.C26_suspended_false"
   ],
   "note": "Violated for plain agents killed while scheduled and for FSM agents killed while suspended in a generator state; proved for FSM agents otherwise, over all histories."
  },
  {
   "property": "C27",
   "status": "partial",
   "theorems": [
    "Verif.C27_every_second_false",
    "Verif.C27_plain_false",
    "Verif.C27_first_call_partial"
   ],
   "note": "Violated: DeadAgent is raised only by every second call for FSM agents, never for plain ones."
  },
  {
   "property": "C28",
   "status": "partial",
   "theorems": [
    "Verif.C28_states_inherited",
    "Verif.C28_redefinition",
    "Verif.C28_last_base",
    "Verif.C28_own_default",
    "Verif.C28_inherited_default_partial",
    "Verif.C28_redefined_default_false",
    "Verif.C28_grandchild_false"
   ],
   "note": "The initial state is inherited wrongly when a default state is redefined as non-default, and when a grandchild sees an overridden default again."
  },
  {
   "property": "C29",
   "status": "partial",
   "theorems": [
    "Verif.C29_precedence_partial",
    "Verif.C29_constructs",
    "Verif.C29_single_inheritance_partial",
    "Verif.C29_method_name_false",
    "Verif.C29_builtin_name_false",
    "Verif.C29_diamond_false",
    "Verif.C29_readonly"
   ],
   "note": "Proved for attributes whose name is not that of a built-in attribute, method or property, and single inheritance; violated for those names (class default ignored) and with multiple inheritance (a base's default overrides the redefinition in another base that derives from it)."
  },
  {
   "property": "C30",
   "status": "proved",
   "theorems": [
    "Verif.C30_disjoint",
    "Verif.C30_isolation",
    "Verif.C30_fresh_values"
   ],
   "note": "deepcopy is modelled as copying the whole heap; agents may mutate anything reachable from their own attributes"
  },
  {
   "property": "C31",
   "status": "proved",
   "theorems": [
    "Verif.C31_auto_ids_distinct",
    "Verif.C31_auto_ids_from_zero",
    "Verif.C31_explicit_id_collides"
   ],
   "note": "third theorem: ids given explicitly are not protected"
  },
  {
   "property": "C32",
   "status": "partial",
   "theorems": [
    "Verif.C32_dictionary",
    "Verif.C32_agent_keys",
    "Verif.C32_agent_get",
    "Verif.C32_env_get",
    "Verif.C32_class_attribute_false",
    "Verif.C32_delete_absent_false",
    "Verif.C32_env_keys_false",
    "Verif.C32_iteration_false"
   ],
   "note": "Violated for names of class attributes, for deletion of absent names (AttributeError), logger is a key of environments, iteration over an agent yields pairs; proved otherwise for all sequences of operations."
  },
  {
   "property": "C33",
   "status": "proved",
   "theorems": [
    "Verif.C33_prob"
   ],
   "note": ""
  },
  {
   "property": "C34",
   "status": "partial",
   "theorems": [
    "Verif.C34_returned",
    "Verif.C34_in_order",
    "Verif.C34_returns_partial",
    "Verif.C34_self_message_false"
   ],
   "note": "Proved for every handler whenever process_messages returns; it returns if the handler neither raises nor touches its own inbox. Violated when a handler sends a message to its own agent: RuntimeError, nothing is cleared."
  },
  {
   "property": "C35",
   "status": "partial",
   "theorems": [
    "Verif.C35_reprocessed_false",
    "Verif.C35_nothing_lost_partial"
   ],
   "note": "Violated at every crash point: the inbox is only cleared at the end, so messages already handled are handled again. What holds: no message is lost."
  },
  {
   "property": "C36",
   "status": "partial",
   "theorems": [
    "Verif.C36_broadcast",
    "Verif.C36_ttl",
    "Verif.C36_equal_agents_false"
   ],
   "note": "Proved when no other agent has the id of the sender; violated for an agent with the same public attributes as the sender (== is equality of dictionaries)."
  },
  {
   "property": "C37",
   "status": "partial",
   "theorems": [
    "Verif.C37_empty_result_false",
    "Verif.C37_unprocessed_partial",
    "Verif.C37_late_poll_false"
   ],
   "note": "Violated: by default the caller always gets an empty list; messages that arrive between the last poll before the deadline and the deadline lead to TimedOut. Exact characterisation for process=False."
  },
  {
   "property": "C38",
   "status": "partial",
   "theorems": [
    "Verif.C38_sender_false",
    "Verif.C38_falsy_reply_false",
    "Verif.C38_waits_forever_false",
    "Verif.C38_expiration_ignored_false",
    "Verif.C38_truthy_partial",
    "Verif.C38_reply_stored_partial"
   ],
   "note": "Violated: the sender is the target, replies that count as false are never returned, expiration is ignored. Proved for replies that count as true."
  },
  {
   "property": "C39",
   "status": "partial",
   "theorems": [
    "Verif.C39_linked_partial",
    "Verif.C39_growing_partial",
    "Verif.C39_no_sharing",
    "Verif.C39_displaced_false"
   ],
   "note": "Violated: the fallback node len(G) may hold a living agent (after deaths, or with such node names), which is then displaced. Proved for every history in which this does not happen, and, without condition on the random choices, for graphs that only grow."
  },
  {
   "property": "C40",
   "status": "partial",
   "theorems": [
    "Verif.C40_choice_partial",
    "Verif.C40_full_partial",
    "Verif.C40_missed_false",
    "Verif.C40_add_node"
   ],
   "note": "Violated: only random candidates (drawn with replacement) are looked at, so free nodes are missed; the fallback len(G) is not necessarily fresh. Exact characterisation of the choice proved."
  },
  {
   "property": "C41",
   "status": "partial",
   "theorems": [
    "Verif.C41_populate_partial",
    "Verif.C41_reserved_false"
   ],
   "note": "Violated for nodes whose attribute agent is None. Proved for graphs without such nodes and constructors that succeed."
  },
  {
   "property": "C42",
   "status": "proved",
   "theorems": [
    "Verif.C42_find_unassigned",
    "Verif.C42_add_node"
   ],
   "note": ""
  },
  {
   "property": "C43",
   "status": "proved",
   "theorems": [
    "Verif.C43_neighbors",
    "Verif.C43_symmetric",
    "Verif.C43_count",
    "Verif.C43_ids_unique"
   ],
   "note": "For states that satisfy the invariant NInv (preserved by every history, NWorld.run_inv) and unique ids; ids are unique in every history without explicit ids (C43_ids_unique)."
  },
  {
   "property": "C44",
   "status": "partial",
   "theorems": [
    "Verif.C44_gone",
    "Verif.C44_returns",
    "Verif.C44_die_in_init_false"
   ],
   "note": "Proved for agents that die after their creation, right away and after any further history. Violated for an agent that dies in init: it is scheduled afterwards."
  },
  {
   "property": "C45",
   "status": "partial",
   "theorems": [
    "Verif.C45_add_edge",
    "Verif.C45_raises",
    "Verif.C45_neighbors",
    "Verif.C45_directed_false"
   ],
   "note": "Proved for undirected graphs; on directed graphs only one of the two gets a neighbour."
  },
  {
   "property": "C46",
   "status": "partial",
   "theorems": [
    "Verif.C46_plain_partial",
    "Verif.C46_network_false",
    "Verif.C46_network_ids_false"
   ],
   "note": "Violated for network agents: NetworkAgent.iter_agents never uses unique_id."
  },
  {
   "property": "C47",
   "status": "partial",
   "theorems": [
    "Verif.C47_conjunction_partial",
    "Verif.C47_nothing_missing",
    "Verif.C47_only_last_false",
    "Verif.C47_empty_ids_false",
    "Verif.C47_model_state_false",
    "Verif.C47_neighbors_partial"
   ],
   "note": "Violated: with several criteria on attributes only the last one is applied (late binding of the loop variables); an empty list of ids does not restrict; agents without a state are found by an attribute state_id of the model. Proved for at most one criterion on attributes."
  },
  {
   "property": "C48",
   "status": "proved",
   "theorems": [
    "Verif.C48_limit"
   ],
   "note": ""
  },
  {
   "property": "C49",
   "status": "proved",
   "theorems": [
    "Verif.C49_matrix_product",
    "Verif.C49_empty_axis"
   ],
   "note": "no fixed parameters; a parameter with an empty list of values makes the code run once without parameters (second theorem)"
  },
  {
   "property": "C50",
   "status": "partial",
   "theorems": [
    "Verif.C50_fixed_false",
    "Verif.C50_missing_false",
    "Verif.C50_witness_false",
    "Verif.C50_fixed_partial"
   ],
   "note": "violated: the fixed parameters are a combination of their own and no matrix combination contains them; holds without matrix"
  },
  {
   "property": "C51",
   "status": "proved",
   "theorems": [
    "Verif.C51_seeds_distinct",
    "Verif.C51_run_seeds"
   ],
   "note": "injectivity over all strings and iteration numbers; every environment of every run gets the seed of its iteration"
  },
  {
   "property": "C52",
   "status": "proved",
   "theorems": [
    "Verif.C52_results",
    "Verif.C52_results_count"
   ],
   "note": "runs in which no environment raises; sequential branch of run_parallel"
  },
  {
   "property": "C53",
   "status": "proved",
   "theorems": [
    "Verif.C53_exporter_protocol",
    "Verif.C53_exception"
   ],
   "note": "second theorem: what exporters see when an environment raises (no sim_end)"
  },
  {
   "property": "C54",
   "status": "partial",
   "theorems": [
    "Verif.C54_deferred_exact",
    "Verif.C54_count_false",
    "Verif.C54_bound_twice_false",
    "Verif.C54_deferred_partial"
   ],
   "note": "violated with a matrix (n combinations become n*(n+1)) and when the simulation is bound to a name (everything twice); holds for unnamed simulations without matrix"
  },
  {
   "property": "C55",
   "status": "partial",
   "theorems": [
    "Verif.C55_broken_file_false",
    "Verif.C55_witness_false",
    "Verif.C55_no_calls_partial",
    "Verif.C55_successful_load_partial"
   ],
   "note": "violated: simulations queued before the failure come back with the next file"
  },
  {
   "property": "C56",
   "status": "partial",
   "theorems": [
    "Verif.C56_reporters_leak_false",
    "Verif.C56_reporters_partial"
   ],
   "note": "violated: reporters accumulate in the simulation's dictionaries; holds when no combination brings reporters"
  },
  {
   "property": "C57",
   "status": "proved",
   "theorems": [
    "Verif.C57_rows",
    "Verif.C57_builtin",
    "Verif.C57_time_column",
    "Verif.C57_failed_step"
   ],
   "note": ""
  },
  {
   "property": "C58",
   "status": "partial",
   "theorems": [
    "Verif.C58_recursion_false",
    "Verif.C58_step_fails_false",
    "Verif.C58_others_partial",
    "Verif.C58_untyped_partial"
   ],
   "note": "Violated: with agent_type and a callable reporter the wrapper calls itself, so every step with an agent of that type raises RecursionError. Proved for agents of other types and for reporters without a type."
  },
  {
   "property": "C59",
   "status": "proved",
   "theorems": [
    "Verif.C59_round_trip",
    "Verif.C59_conditions_needed"
   ],
   "note": ""
  },
  {
   "property": "C60",
   "status": "proved",
   "theorems": [
    "Verif.C60_restored",
    "Verif.C60_available",
    "Verif.C60_same_file_false",
    "Verif.C60_unnested_false"
   ],
   "note": "The _false theorems show that both conditions of the property (different files, proper nesting) are needed."
  },
  {
   "property": "C61",
   "status": "partial",
   "theorems": [
    "Verif.C61_round_trip_partial",
    "Verif.C61_builtin_false",
    "Verif.C61_shadowed_false",
    "Verif.C61_main_false",
    "Verif.C61_deserialize_false"
   ],
   "note": "Violated by classes named like a builtin, classes shadowed by an attribute of a known module, classes of __main__, and classes with an attribute deserialize. Proved for all the others."
  },
  {
   "property": "C62",
   "status": "proved",
   "theorems": [
    "Verif.C62_count",
    "Verif.C62_values",
    "Verif.C62_expand"
   ],
   "note": ""
  },
  {
   "property": "C63",
   "status": "partial",
   "theorems": [
    "Verif.C63_previous_kept",
    "Verif.C63_history_partial",
    "Verif.C63_same_second_false",
    "Verif.C63_exporters",
    "Verif.C63_exporter_call"
   ],
   "note": "Violated when a file is replaced in the second it was written: the backup name is the modification time in seconds, so an earlier backup is overwritten. Proved for one operation, for one call of any exporter, and for whole histories whose operations are in different seconds."
  },
  {
   "property": "C64",
   "status": "proved",
   "theorems": [
    "Verif.C64_no_files"
   ],
   "note": ""
  },
  {
   "property": "C65",
   "status": "partial",
   "theorems": [
    "Verif.C65_thresholds_partial",
    "Verif.C65_partition_partial",
    "Verif.C65_ids_false"
   ],
   "note": "Violated with items with ids: their weights count in the total but they have no interval. Proved without such items."
  },
  {
   "property": "C66",
   "status": "partial",
   "theorems": [
    "Verif.C66_count_partial",
    "Verif.C66_no_total_false",
    "Verif.C66_zero_weight_false",
    "Verif.C66_no_weight_false"
   ],
   "note": "Violated without n (TypeError), with a smallest weight 0 (ZeroDivisionError), and for weights not given when the numbers do not work out. Proved with positive weights given for all kinds."
  },
  {
   "property": "C67",
   "status": "partial",
   "theorems": [
    "Verif.C67_set_partial",
    "Verif.C67_shared_false",
    "Verif.C67_attribute_false",
    "Verif.C67_split",
    "Verif.C67_all_options"
   ],
   "note": "Violated: a dictionary shared by two parameters changes in both; a parameter below a key such as items or values (an attribute name of dictionaries) cannot be set. Proved when the dictionaries on the path are not shared."
  },
  {
   "property": "C68",
   "status": "proved",
   "theorems": [
    "Verif.C68_add_agents",
    "Verif.C68_succeeds",
    "Verif.C68_choice_interval"
   ],
   "note": "random.choices with its binary search is modelled and verified"
  },
  {
   "property": "C69",
   "status": "partial",
   "theorems": [
    "Verif.C69_neutral_false",
    "Verif.C69_content_false",
    "Verif.C69_never_false",
    "Verif.C69_content_spreads_partial",
    "Verif.C69_begin_false",
    "Verif.C69_states"
   ],
   "note": "Violated: neutral agents compare state ids with a State object, content agents lack a return, so discontent never spreads. Proved: content spreads as documented."
  },
  {
   "property": "C70",
   "status": "partial",
   "theorems": [
    "Verif.C70_never_false",
    "Verif.C70_innovation_partial",
    "Verif.C70_begin_false"
   ],
   "note": "Violated: state_id=1 never matches, so an agent never leaves imitate. Proved: the change from outside to imitate."
  },
  {
   "property": "C71",
   "status": "partial",
   "theorems": [
    "Verif.C71_state_polluted_false",
    "Verif.C71_state_unchanged_partial"
   ],
   "note": "Violated: filter_agents updates the caller's state dictionary."
  },
  {
   "property": "C72",
   "status": "partial",
   "theorems": [
    "Verif.C72_overwritten_false",
    "Verif.C72_exhausted_false",
    "Verif.C72_increasing_partial",
    "Verif.C72_scheduler_partial"
   ],
   "note": "Violated when a step does not advance schedule.steps (nothing is scheduled any more): the previous records are overwritten. Proved for steps that advance it."
  },
  {
   "property": "C73",
   "status": "partial",
   "theorems": [
    "Verif.C73_method_false",
    "Verif.C73_others_partial"
   ],
   "note": "Violated: sampler_config.pop takes the method out of the caller's configuration."
  },
  {
   "property": "C74",
   "status": "partial",
   "theorems": [
    "Verif.C74_gexf_overwritten_false",
    "Verif.C74_dummy_false",
    "Verif.C74_single_partial",
    "Verif.C74_csv_partial",
    "Verif.C74_sqlite_partial"
   ],
   "note": "Violated: gexf files are named after the iteration id, which repeats for every combination of parameters; dummy keeps the last iteration only. Proved for one combination, and for csv and sqlite, which append."
  },
  {
   "property": "C75",
   "status": "partial",
   "theorems": [
    "Verif.C75_replaced_false",
    "Verif.C75_others_partial"
   ],
   "note": "Violated: AttributeError and TypeError of the block become RuntimeError (generator yields twice). Proved for all other exceptions."
  },
  {
   "property": "C76",
   "status": "partial",
   "theorems": [
    "Verif.C76_graphdrawing_false",
    "Verif.C76_sqlite_false",
    "Verif.C76_others_partial"
   ],
   "note": "Violated: graphdrawing always raises, SQLite alone raises when its directory does not exist. Proved for the others."
  },
  {
   "property": "C77",
   "status": "partial",
   "theorems": [
    "Verif.C77_default_wins_false",
    "Verif.C77_others_partial",
    "Verif.C77_fixed_partial"
   ],
   "note": "Violated for distributions: the default state overwrites the state of the kind. Proved for keys not in the default and for fixed agents."
  },
  {
   "property": "C78",
   "status": "partial",
   "theorems": [
    "Verif.C78_leak_false",
    "Verif.C78_explicit_partial"
   ],
   "note": "Violated: topology of one item leaks to the following items that do not set it. Proved for kinds that set it."
  },
  {
   "property": "C79",
   "status": "partial",
   "theorems": [
    "Verif.C79_no_step_false",
    "Verif.C79_supplied_partial"
   ],
   "note": "Violated: step calls self.behaviour(), which does not exist. Proved: it works with a behaviour passed by hand."
  },
  {
   "property": "C80",
   "status": "proved",
   "theorems": [
    "Verif.C80_ticker",
    "Verif.C80_counter",
    "Verif.C80_aggregated"
   ],
   "note": ""
  },
  {
   "property": "C81",
   "status": "partial",
   "theorems": [
    "Verif.C81_equal_false",
    "Verif.C81_content_neutral_false",
    "Verif.C81_unseeded_partial"
   ],
   "note": "Violated: every agent seeds its own generator with the seed of the model, so all agents have equal parameters; content_neutral is ignored. Proved: models without seed, the other settings."
  },
  {
   "property": "C82",
   "status": "proved",
   "theorems": [
    "Verif.C82_agents_were_added",
    "Verif.C82_added_agents_stay",
    "Verif.C82_removed_agents_go"
   ],
   "note": "holds with exceptions too"
  },
  {
   "property": "C83",
   "status": "proved",
   "theorems": [
    "Verif.C83_stop_ends_run",
    "Verif.C83_without_limits",
    "Verif.C83_called"
   ],
   "note": "any environment (Stepper)"
  },
  {
   "property": "C84",
   "status": "proved",
   "theorems": [
    "Verif.C84_plain_step"
   ],
   "note": ""
  },
  {
   "property": "C85",
   "status": "proved",
   "theorems": [
    "Verif.C85_initial_state"
   ],
   "note": ""
  },
  {
   "property": "C86",
   "status": "proved",
   "theorems": [
    "Verif.C86_spawn",
    "Verif.C86_die"
   ],
   "note": "any order of operations; a later operation of the same code may undo it"
  },
  {
   "property": "C87",
   "status": "proved",
   "theorems": [
    "Verif.C87_head_is_least",
    "Verif.C87_contents"
   ],
   "note": "CPython's heapq modelled operation by operation"
  },
  {
   "property": "C88",
   "status": "proved",
   "theorems": [
    "Verif.C88_ordered_by_id"
   ],
   "note": "population added at time 0, no later additions, no exceptions"
  },
  {
   "property": "C89",
   "status": "proved",
   "theorems": [
    "Verif.C89_added_exactly",
    "Verif.C89_history",
    "Verif.C89_explicit_id"
   ],
   "note": ""
  },
  {
   "property": "C90",
   "status": "partial",
   "theorems": [
    "Verif.C90_received_timeout",
    "Verif.C90_received_default_timeout",
    "Verif.C90_ask_timeout",
    "Verif.C90_received_expiration_partial",
    "Verif.C90_zero_expiration_false"
   ],
   "note": "violated by received(expiration=0), which counts as no expiration"
  },
  {
   "property": "C91",
   "status": "partial",
   "theorems": [
    "Verif.C91_passed_partial",
    "Verif.C91_taken_false",
    "Verif.C91_num_processes_false",
    "Verif.C91_agrees"
   ],
   "note": "violated: parameters named like arguments of the intermediate calls make the run fail, and num_processes is swallowed"
  },
  {
   "property": "C92",
   "status": "partial",
   "theorems": [
    "Verif.C92_sequential",
    "Verif.C92_parallel_same_partial",
    "Verif.C92_failures_hidden_false"
   ],
   "note": "violated: with several processes failures never reach the caller"
  },
  {
   "property": "C93",
   "status": "partial",
   "theorems": [
    "Verif.C93_all_processors_false",
    "Verif.C93_exact_partial",
    "Verif.C93_field_ignored_false"
   ],
   "note": "violated: the field num_processes has no effect, and less than 1 never means all processors"
  },
  {
   "property": "C94",
   "status": "partial",
   "theorems": [
    "Verif.C94_rerun_false",
    "Verif.C94_witness_false",
    "Verif.C94_rerun_partial"
   ],
   "note": "violated: reporters of a combination stay in the simulation"
  },
  {
   "property": "C95",
   "status": "partial",
   "theorems": [
    "Verif.C95_labels_partial",
    "Verif.C95_shift_false",
    "Verif.C95_same_time_false",
    "Verif.C95_spawn_false"
   ],
   "note": "violated when the first collections find no agents and when there are two collections at one time"
  },
  {
   "property": "C96",
   "status": "proved",
   "theorems": [
    "Verif.C96_python",
    "Verif.C96_config",
    "Verif.C96_files",
    "Verif.C96_files_error"
   ],
   "note": "__post_init__ is not modelled"
  },
  {
   "property": "C97",
   "status": "partial",
   "theorems": [
    "Verif.C97_file_partial",
    "Verif.C97_dict_false"
   ],
   "note": "violated for dictionaries: the parent of the working directory is used"
  },
  {
   "property": "C98",
   "status": "partial",
   "theorems": [
    "Verif.C98_not_deferred",
    "Verif.C98_python_partial",
    "Verif.C98_config_false",
    "Verif.C98_raising_false",
    "Verif.C98_nothing_false",
    "Verif.C98_generator_false"
   ],
   "note": "violated by every configuration file, every Python file that fails and every network generator; deferral always ends"
  },
  {
   "property": "C99",
   "status": "partial",
   "theorems": [
    "Verif.C99_missing_false",
    "Verif.C99_value_error_false",
    "Verif.C99_reported_partial",
    "Verif.C99_exactly_one",
    "Verif.C99_unknown_fields"
   ],
   "note": "violated: missing configuration files are ignored, a ValueError of a Python file is replaced"
  },
  {
   "property": "C100",
   "status": "partial",
   "theorems": [
    "Verif.C100_run_from_file_false"
   ],
   "note": "violated: the method run_simulation does not exist"
  },
  {
   "property": "C101",
   "status": "partial",
   "theorems": [
    "Verif.C101_kept_partial",
    "Verif.C101_overwritten_false",
    "Verif.C101_witness_false"
   ],
   "note": "violated for eight settings that the command line always overwrites"
  },
  {
   "property": "C102",
   "status": "partial",
   "theorems": [
    "Verif.C102_given_partial",
    "Verif.C102_output_false",
    "Verif.C102_output_partial"
   ],
   "note": "violated: --output is ignored unless main is called with output=None"
  },
  {
   "property": "C103",
   "status": "partial",
   "theorems": [
    "Verif.C103_exporters_partial",
    "Verif.C103_twice_false",
    "Verif.C103_caller_list_false"
   ],
   "note": "violated: --csv and --graph repeat exporters that are already there, and the caller's list is changed"
  },
  {
   "property": "C104",
   "status": "partial",
   "theorems": [
    "Verif.C104_kept_partial",
    "Verif.C104_conflict",
    "Verif.C104_lost_false"
   ],
   "note": "Violated when a key is followed by one of its prefixes ({'a.b': 1, 'a': 2}): the first value disappears. Otherwise every value is kept, and a key below an earlier value is an error."
  },
  {
   "property": "C105",
   "status": "partial",
   "theorems": [
    "Verif.C105_first_partial",
    "Verif.C105_consistent",
    "Verif.C105_wrong_agent_false"
   ],
   "note": "agent(...) is always the first of get_agents(...); violated with several criteria on attributes, since get_agents(...) is wrong then."
  },
  {
   "property": "C106",
   "status": "partial",
   "theorems": [
    "Verif.C106_mapping_false",
    "Verif.C106_collection_partial"
   ],
   "note": "Violated: no agent can be looked up by its id, no id is in the collection, and iterating raises (values() of a list). The length and the membership of agents are right."
  },
  {
   "property": "C107",
   "status": "partial",
   "theorems": [
    "Verif.C107_graph_partial",
    "Verif.C107_path_partial",
    "Verif.C107_generator_partial",
    "Verif.C107_no_source",
    "Verif.C107_empty_graph_false",
    "Verif.C107_seed_false",
    "Verif.C107_reserved_false",
    "Verif.C107_extension_partial"
   ],
   "note": "Violated: a graph object without nodes is replaced by another graph; parameters called seed, dir_path, topology or generator never reach the generator; a generator that raises TypeError is called twice. Proved for the other cases."
  },
  {
   "property": "C108",
   "status": "partial",
   "theorems": [
    "Verif.C108_checked",
    "Verif.C108_populated_partial",
    "Verif.C110_agent_id_false"
   ],
   "note": "C108_checked holds for every graph and agents told apart by ==. C108_populated_partial leaves out graphs with attributes agent or agent_id (see C41, C110) and init methods that raise or die. With an attribute agent_id the constructor never returns (C110_agent_id_false)."
  },
  {
   "property": "C109",
   "status": "partial",
   "theorems": [
    "Verif.C109_shared_graph_false",
    "Verif.C109_deaths_false",
    "Verif.C109_fresh_partial"
   ],
   "note": "Violated when the topology is a graph object: the environments share it, the nodes keep the agents of the first iteration, and the second iteration ends with 'No agents in model'. Holds if the graph is read or generated for each environment."
  },
  {
   "property": "C110",
   "status": "partial",
   "theorems": [
    "Verif.C110_agent_id_false",
    "Verif.C110_node_id_partial"
   ],
   "note": "Violated: get_agents(id) is a list, so the constructor always raises. Agents with an attribute node_id are linked."
  },
  {
   "property": "C111",
   "status": "partial",
   "theorems": [
    "Verif.C111_property_partial",
    "Verif.C111_method_false",
    "Verif.C111_others",
    "Verif.C111_unmarked",
    "Verif.C111_raising",
    "Verif.C111_constructed",
    "Verif.C111_hidden"
   ],
   "note": "Violated by marked methods (as in examples/torvalds_sim.py): the reporter is the name of the member, so the bound method is recorded in every row and never called. Proved for properties, for members that are not marked and for other reporters."
  },
  {
   "property": "C112",
   "status": "partial",
   "theorems": [
    "Verif.C112_code_partial",
    "Verif.C112_silent_partial",
    "Verif.C112_kwargs_false",
    "Verif.C112_steps_partial",
    "Verif.C112_quiet",
    "Verif.C112_step_false"
   ],
   "note": "Violated in two ways: a message with a keyword argument raises when the logger is enabled for it, and a step raises under DEBUG when the last value of a reporter cannot be formatted with a width (None, for example). Proved for messages without keyword arguments and for reporters with formattable values."
  },
  {
   "property": "C113",
   "status": "partial",
   "theorems": [
    "Verif.C113_accepted_partial",
    "Verif.C113_quiet_partial",
    "Verif.C113_ignored_false",
    "Verif.C113_kwargs_false",
    "Verif.C113_base_partial"
   ],
   "note": "Violated when something has to be left out: the message uses an undefined name. Attributes that the constructor takes as keyword arguments are left out as well. Proved for named parameters and without the message."
  },
  {
   "property": "C114",
   "status": "partial",
   "theorems": [
    "Verif.C114_equal_iff",
    "Verif.C114_equivalence",
    "Verif.C114_hash",
    "Verif.C114_ids_partial",
    "Verif.C114_twins_false"
   ],
   "note": "Violated by agents of different environments with the same id and state, which are equal. Proved: equality is sameness of public attributes, an equivalence, compatible with hashes, and agents with different ids are different."
  },
  {
   "property": "C115",
   "status": "partial",
   "theorems": [
    "Verif.C115_base_partial",
    "Verif.C115_network_partial",
    "Verif.C115_readonly_false"
   ],
   "note": "Violated by parameters with the name of a read-only property (now, get_agents, network_agents, agent_types): the constructor raises. Proved for all the others."
  },
  {
   "property": "C116",
   "status": "partial",
   "theorems": [
    "Verif.C116_body_false",
    "Verif.C116_inherited_partial"
   ],
   "note": "Violated by every level in the body of an agent class: it becomes a default, which is set after the level is looked up. Proved for a level inherited from a class that is not an agent class."
  },
  {
   "property": "C117",
   "status": "proved",
   "theorems": [
    "Verif.C117_times",
    "Verif.C117_only_fibonacci",
    "Verif.C117_every_fibonacci"
   ],
   "note": "For agents that nobody else stops, reschedules or changes (Isolated, Untouched)."
  },
  {
   "property": "C118",
   "status": "partial",
   "theorems": [
    "Verif.C118_times_partial",
    "Verif.C118_odd_partial",
    "Verif.C118_odd_false"
   ],
   "note": "Violated: the agent acts at time 0, the time of its first activation, which is even. Proved: afterwards it acts at the odd numbers exactly; and added at an odd time it acts at odd times only."
  },
  {
   "property": "C119",
   "status": "proved",
   "theorems": [
    "Verif.C119_pongs"
   ],
   "note": "For agents that nobody else stops, reschedules or changes; delays drawn are arbitrary positive numbers."
  },
  {
   "property": "C120",
   "status": "proved",
   "theorems": [
    "Verif.C120_capacity"
   ],
   "note": "Patrons, pubs and police as in the example; any capacities and networks."
  },
  {
   "property": "C121",
   "status": "partial",
   "theorems": [
    "Verif.C121_occupancy_false",
    "Verif.C121_counted_partial"
   ],
   "note": "Violated: befriending gives patrons an edge to themselves, so they are members of their own group and counted twice when they enter. Proved: nobody is inside without being counted."
  },
  {
   "property": "C122",
   "status": "partial",
   "theorems": [
    "Verif.C122_friends_false",
    "Verif.C122_accepted_partial"
   ],
   "note": "Violated: self.add_edge(self, other) connects the patron with itself; two different patrons never become neighbors. Proved: a patron only goes on after somebody accepted."
  },
  {
   "property": "C123",
   "status": "proved",
   "theorems": [
    "Verif.C123_life",
    "Verif.C123_never_alone"
   ],
   "note": "Patrons, pubs and police as in the example."
  },
  {
   "property": "C124",
   "status": "partial",
   "theorems": [
    "Verif.C124_leaves_false",
    "Verif.C124_exit_false",
    "Verif.C124_stays_full_false",
    "Verif.C124_home_partial"
   ],
   "note": "Violated: nobody calls exit, which would raise for every patron; the occupancy of a pub never decreases. Proved: the police gets drunk patrons home."
  },
  {
   "property": "C125",
   "status": "proved",
   "theorems": [
    "Verif.C125_conserved",
    "Verif.C125_step",
    "Verif.C125_on_grid"
   ],
   "note": "The grid is given by its neighborhood function, the network by the relation of friends."
  },
  {
   "property": "C126",
   "status": "proved",
   "theorems": [
    "Verif.C126_compute_gini",
    "Verif.C126_gini",
    "Verif.C126_bounds",
    "Verif.C126_invariant",
    "Verif.C126_reported"
   ],
   "note": "Rational instead of floating-point numbers."
  },
  {
   "property": "C127",
   "status": "proved",
   "theorems": [
    "Verif.C127_activation",
    "Verif.C127_total",
    "Verif.C127_resistant",
    "Verif.C127_spread",
    "Verif.C127_chances",
    "Verif.C127_states"
   ],
   "note": "The random numbers and the schedule are arbitrary inputs; statuses instead of agents."
  },
  {
   "property": "C128",
   "status": "partial",
   "theorems": [
    "Verif.C128_step_partial",
    "Verif.C128_resistant_idle",
    "Verif.C128_states_false",
    "Verif.C128_fate_partial"
   ],
   "note": "soil_step.py and mesa_basic.py agree for all runs; violated by soil_states.py, where an infection is reported only after the next activation of the infected agent."
  },
  {
   "property": "C129",
   "status": "proved",
   "theorems": [
    "Verif.C129_litters"
   ],
   "note": ""
  },
  {
   "property": "C130",
   "status": "partial",
   "theorems": [
    "Verif.C130_basic_partial",
    "Verif.C130_basic_false",
    "Verif.C130_improved_partial",
    "Verif.C130_improved_false",
    "Verif.C130_due_partial"
   ],
   "note": "Basic version: violated whenever the father is alive (TypeError after the first baby), proved if he is dead. Improved version: violated if the father is dead (ValueError), proved if he is alive."
  },
  {
   "property": "C131",
   "status": "partial",
   "theorems": [
    "Verif.C131_basic_partial",
    "Verif.C131_improved_false",
    "Verif.C131_mating_partial"
   ],
   "note": "Proved for the basic version; violated by the improved version, where conception is never reset."
  },
  {
   "property": "C132",
   "status": "proved",
   "theorems": [
    "Verif.C132_age"
   ],
   "note": "Basic version, life expectancy at least 1."
  },
  {
   "property": "C133",
   "status": "proved",
   "theorems": [
    "Verif.C133_network"
   ],
   "note": "Basic version."
  },
  {
   "property": "C134",
   "status": "proved",
   "theorems": [
    "Verif.C134_few",
    "Verif.C134_exact",
    "Verif.C134_length"
   ],
   "note": "Basic version."
  },
  {
   "property": "C135",
   "status": "partial",
   "theorems": [
    "Verif.C135_graph_partial",
    "Verif.C135_every_graph",
    "Verif.C135_exact_false",
    "Verif.C135_many_false",
    "Verif.C135_small"
   ],
   "note": "Nodes and absence of loops proved; violated in the number of edges: an edge drawn twice counts once."
  },
  {
   "property": "C136",
   "status": "proved",
   "theorems": [
    "Verif.C136_closed",
    "Verif.C136_no_tv",
    "Verif.C136_order",
    "Verif.C136_stays",
    "Verif.C136_neutral",
    "Verif.C136_infect",
    "Verif.C136_spread"
   ],
   "note": "Random numbers and schedule are arbitrary inputs."
  },
  {
   "property": "C137",
   "status": "partial",
   "theorems": [
    "Verif.C137_cured_false",
    "Verif.C137_cure_partial"
   ],
   "note": "Violated: has_been_cured is not defined, so every activation of an infected wise viewer raises AttributeError."
  },
  {
   "property": "C138",
   "status": "partial",
   "theorems": [
    "Verif.C138_defaults_false",
    "Verif.C138_given_partial"
   ],
   "note": "Violated: the defaults end with commas and are tuples (TypeError); proved if the probabilities are given."
  },
  {
   "property": "C139",
   "status": "partial",
   "theorems": [
    "Verif.C139_subgraph_partial",
    "Verif.C139_exact_partial",
    "Verif.C139_other_agents_false",
    "Verif.C139_no_position_false",
    "Verif.C139_symmetric",
    "Verif.C139_monotone"
   ],
   "note": "Proved if all matching agents are network agents and the own node has a position; otherwise it raises (AttributeError, KeyError). Exact squared distances instead of floating point."
  },
  {
   "property": "C140",
   "status": "proved",
   "theorems": [
    "Verif.C140_bounds"
   ],
   "note": "Rational numbers; powers are arbitrary with x <= x**e <= 1."
  },
  {
   "property": "C141",
   "status": "proved",
   "theorems": [
    "Verif.C141_no_spontaneous",
    "Verif.C141_for_ever"
   ],
   "note": "As C140."
  },
  {
   "property": "C142",
   "status": "partial",
   "theorems": [
    "Verif.C142_no_interaction_false",
    "Verif.C142_alone_partial"
   ],
   "note": "Violated if the civilian has neighbours: the mean of no beliefs counts as 0; proved without neighbours."
  },
  {
   "property": "C143",
   "status": "partial",
   "theorems": [
    "Verif.C143_influence_false",
    "Verif.C143_group_partial"
   ],
   "note": "Violated always: the mean is computed and thrown away; only whether there is a group matters."
  },
  {
   "property": "C144",
   "status": "partial",
   "theorems": [
    "Verif.C144_network_false",
    "Verif.C144_network_partial",
    "Verif.C144_exact_partial"
   ],
   "note": "Violated always: super().terrorist() calls a state, which raises; proved for runs in which no terrorist or leader acts. update_relationships is not modelled."
  },
  {
   "property": "C145",
   "status": "partial",
   "theorems": [
    "Verif.C145_stale_false",
    "Verif.C145_degree_partial",
    "Verif.C145_stale_degree_false"
   ],
   "note": "Violated: both caches share _last_step; proved if only one of the functions is used."
  },
  {
   "property": "C146",
   "status": "proved",
   "theorems": [
    "Verif.C146_occupation",
    "Verif.C146_bounds",
    "Verif.C146_directions"
   ],
   "note": "For all multigraphs, directed or not, fleets, schedules and random numbers, up to the first exception."
  },
  {
   "property": "C147",
   "status": "proved",
   "theorems": [
    "Verif.C147_cells",
    "Verif.C147_total"
   ],
   "note": "For all multigraphs, fleets, schedules and random numbers."
  },
  {
   "property": "C148",
   "status": "proved",
   "theorems": [
    "Verif.C148_start",
    "Verif.C148_streets",
    "Verif.C148_fastest",
    "Verif.C148_instant"
   ],
   "note": "For all multigraphs, fleets, schedules and random numbers."
  },
  {
   "property": "C149",
   "status": "partial",
   "theorems": [
    "Verif.C149_zero_false",
    "Verif.C149_lazy_partial"
   ],
   "note": "Violated with a travel time 0 (ZeroDivisionError); proved for positive travel times, in exact arithmetic."
  },
  {
   "property": "C150",
   "status": "partial",
   "theorems": [
    "Verif.C150_square_false",
    "Verif.C150_simple_false",
    "Verif.C150_square_partial"
   ],
   "note": "Violated: self.max_weight is read before it is set, and grid_graph is no multigraph, so that travel_time raises; proved for at most one intersection, without drivers acting."
  },
  {
   "property": "C151",
   "status": "partial",
   "theorems": [
    "Verif.C151_move_to_false",
    "Verif.C151_move_to_partial"
   ],
   "note": "Violated with gradual_move: delay is unbound, and the occupation of the edge is already increased; proved without gradual_move."
  },
  {
   "property": "C152",
   "status": "proved",
   "theorems": [
    "Verif.C152_driver_kept",
    "Verif.C152_one_driver"
   ],
   "note": "For all grids, fleets, schedules and random results, up to the first exception."
  },
  {
   "property": "C153",
   "status": "proved",
   "theorems": [
    "Verif.C153_earnings",
    "Verif.C153_end"
   ],
   "note": "For all grids, fleets, schedules and random results."
  },
  {
   "property": "C154",
   "status": "proved",
   "theorems": [
    "Verif.C154_never_times_out"
   ],
   "note": "Questions are answered at least 45 time units before they expire; for all schedules that activate agents at the time they asked for."
  },
  {
   "property": "C155",
   "status": "proved",
   "theorems": [
    "Verif.C155_step",
    "Verif.C155_delivery"
   ],
   "note": "For all grids, fleets, schedules and random results."
  },
  {
   "property": "C156",
   "status": "proved",
   "theorems": [
    "Verif.C156_positions"
   ],
   "note": "For all grids, fleets, schedules and random results."
  },
  {
   "property": "C157",
   "status": "partial",
   "theorems": [
    "Verif.C157_reachable_false",
    "Verif.C157_square_partial"
   ],
   "note": "Violated on every grid that is not square: the destination is drawn as (below height, below width), so it may be outside, and its passenger is never delivered; proved for square grids with at least two cells per side."
  },
  {
   "property": "C158",
   "status": "partial",
   "theorems": [
    "Verif.C158_passengers_false",
    "Verif.C158_drivers_partial"
   ],
   "note": "Violated for passengers: their pos is assigned without grid.move_agent, so the grid keeps them where they started; proved for drivers and for passengers that were not picked up."
  },
  {
   "property": "C159",
   "status": "proved",
   "theorems": [
    "Verif.C159_drivers_stop_last",
    "Verif.C159_drivers_stop"
   ],
   "note": "For all grids, fleets, schedules and random results."
  },
  {
   "property": "C160",
   "status": "proved",
   "theorems": [
    "Verif.C160_placed",
    "Verif.C160_too_many"
   ],
   "note": "For all sizes, numbers of agents and draws; mesa's MultiGrid as the list of empty cells."
  },
  {
   "property": "C161",
   "status": "proved",
   "theorems": [
    "Verif.C161_passenger_stops"
   ],
   "note": "For all schedules that activate agents at the time they asked for."
  },
  {
   "property": "C162",
   "status": "proved",
   "theorems": [
    "Verif.C162_timed",
    "Verif.C162_pqueue",
    "Verif.C162_mesa",
    "Verif.C162_none"
   ],
   "note": "For one iteration; with PQueueActivation the bound on the loop of a step is at least the number of agents."
  },
  {
   "property": "C163",
   "status": "partial",
   "theorems": [
    "Verif.C163_declared_false",
    "Verif.C163_any_false",
    "Verif.C163_second_false",
    "Verif.C163_missing_false",
    "Verif.C163_plain_partial",
    "Verif.C163_continue_partial",
    "Verif.C163_machines_partial"
   ],
   "note": "Violated for every state declared with @state (AttributeError, since a state has no __code__); violated for a second command at the same line; proved for plain functions without a breakpoint."
  },
  {
   "property": "C164",
   "status": "partial",
   "theorems": [
    "Verif.C164_between_false",
    "Verif.C164_agent_false",
    "Verif.C164_stale_false",
    "Verif.C164_within_partial"
   ],
   "note": "Violated between two steps (also where --debug stops: the first step is skipped), inside agents (KeyError), and with a model left by an earlier command; proved in the middle of a step if the variable model is the current model."
  },
  {
   "property": "C165",
   "status": "partial",
   "theorems": [
    "Verif.C165_stale_false",
    "Verif.C165_none_false",
    "Verif.C165_keys",
    "Verif.C165_current",
    "Verif.C165_variable"
   ],
   "note": "Proved in methods of models and agents; elsewhere violated, because the commands overwrite the global variables of the module."
  },
  {
   "property": "C166",
   "status": "partial",
   "theorems": [
    "Verif.C166_hidden_false",
    "Verif.C166_self_partial"
   ],
   "note": "Violated for declared states and for classes that the frame does not know by name; proved for plain functions otherwise."
  },
  {
   "property": "C167",
   "status": "partial",
   "theorems": [
    "Verif.C167_elsewhere_false",
    "Verif.C167_default_partial"
   ],
   "note": "Proved for the default output directory and simulations without a group; otherwise always another file."
  },
  {
   "property": "C168",
   "status": "partial",
   "theorems": [
    "Verif.C168_url_false",
    "Verif.C168_arguments"
   ],
   "note": "The check of the arguments is proved; URLs are never recognised, because os.path.abspath has removed the double slash."
  },
  {
   "property": "C169",
   "status": "partial",
   "theorems": [
    "Verif.C169_no_agents_false",
    "Verif.C169_no_params_false",
    "Verif.C169_twice_false",
    "Verif.C169_read_back_partial"
   ],
   "note": "Violated without agent reporters, without parameters, and (as to the parameters) if an iteration occurs twice; proved otherwise."
  },
  {
   "property": "C170",
   "status": "partial",
   "theorems": [
    "Verif.C170_step_false",
    "Verif.C170_overwritten_false",
    "Verif.C170_env_false",
    "Verif.C170_written_partial"
   ],
   "note": "Violated for reporters called step, params_id, simulation_id or iteration_id and tables called env; with other names, that are the same in all iterations, everything can be written."
  },
  {
   "property": "C171",
   "status": "partial",
   "theorems": [
    "Verif.C171_lost_false",
    "Verif.C171_soil_partial"
   ],
   "note": "No record reaches the page, except for simulations called soil (or soil.soil, …): the handler is added to the logger with the name of the simulation, but the simulation logs to soil.<name>."
  },
  {
   "property": "C172",
   "status": "partial",
   "theorems": [
    "Verif.C172_garbled_false",
    "Verif.C172_order_partial"
   ],
   "note": "Violated if something is logged between truncate(0) and seek(0); proved for all other interleavings."
  },
  {
   "property": "C173",
   "status": "partial",
   "theorems": [
    "Verif.C173_end_false",
    "Verif.C173_race_false",
    "Verif.C173_complete_partial"
   ],
   "note": "Lines logged during an update, or after the last one, are lost; proved between two updates if nothing is logged during an update."
  },
  {
   "property": "C174",
   "status": "partial",
   "theorems": [
    "Verif.C174_overlap_false",
    "Verif.C174_own_buffer_partial",
    "Verif.C174_handlers"
   ],
   "note": "The end of a run closes the buffer in use, which is that of the latest run; proved until a run begins or ends."
  },
  {
   "property": "C175",
   "status": "partial",
   "theorems": [
    "Verif.C175_results_false",
    "Verif.C175_accepted_partial"
   ],
   "note": "No results are ever sent: the page insists on environment_params, which Simulation does not accept. Configurations are accepted and started."
  },
  {
   "property": "C176",
   "status": "proved",
   "theorems": [
    "Verif.C176_settings"
   ],
   "note": ""
  },
  {
   "property": "C177",
   "status": "partial",
   "theorems": [
    "Verif.C177_closed_false",
    "Verif.C177_several_partial"
   ],
   "note": "Exceptions in on_message close the connection; only several configurations get an error as an answer."
  },
  {
   "property": "C178",
   "status": "partial",
   "theorems": [
    "Verif.C178_ignored_false",
    "Verif.C178_name_false",
    "Verif.C178_defaults_partial"
   ],
   "note": "--port and --dump are ignored, --name is shown as a list."
  },
  {
   "property": "C179",
   "status": "partial",
   "theorems": [
    "Verif.C179_steps_false",
    "Verif.C179_builtin_false",
    "Verif.C179_step_false",
    "Verif.C179_drawn_partial",
    "Verif.C179_model_df_partial"
   ],
   "note": "steps=True always raises, and so do models without reporters of their own or with one called step; proved otherwise."
  },
  {
   "property": "C180",
   "status": "partial",
   "theorems": [
    "Verif.C180_mixed_false",
    "Verif.C180_counts_partial"
   ],
   "note": "Proved for one agent reporter; the values of several reporters are counted together."
  },
  {
   "property": "C181",
   "status": "proved",
   "theorems": [
    "Verif.C181_current",
    "Verif.C181_new_model"
   ],
   "note": ""
  },
  {
   "property": "C182",
   "status": "partial",
   "theorems": [
    "Verif.C182_default_false",
    "Verif.C182_drawn_partial"
   ],
   "note": "Without measures (the default) the page raises; proved for a list of measures."
  },
  {
   "property": "C183",
   "status": "partial",
   "theorems": [
    "Verif.C183_exactly_partial",
    "Verif.C183_numbers_false",
    "Verif.C183_pairs_false",
    "Verif.C183_classes_false"
   ],
   "note": "Lists of numbers become lists of texts, lists of pairs become dictionaries, classes in parameters become texts; the configurations that survive are characterised exactly."
  },
  {
   "property": "C184",
   "status": "partial",
   "theorems": [
    "Verif.C184_objects_partial",
    "Verif.C184_source_false",
    "Verif.C184_builtin_false"
   ],
   "note": "Proved for classes that can be found by module and name; exporters defined in a source that is not a module are lost."
  },
  {
   "property": "C185",
   "status": "proved",
   "theorems": [
    "Verif.C185_unchanged",
    "Verif.C185_serialize_false",
    "Verif.C185_fields"
   ],
   "note": "serialize_dict itself changes the lists that it is given; to_dict gives it a deep copy."
  },
  {
   "property": "C186",
   "status": "partial",
   "theorems": [
    "Verif.C186_decorators_partial",
    "Verif.C186_order_false",
    "Verif.C186_names_partial",
    "Verif.C186_twice_false"
   ],
   "note": "Proved with state as the innermost decorator; if default_state is below state, it is silently ignored."
  },
  {
   "property": "C187",
   "status": "partial",
   "theorems": [
    "Verif.C187_declare_partial",
    "Verif.C187_default_state_false"
   ],
   "note": "Proved for class bodies whose states are made of functions; default_state(Base.x) marks the state of the base, which changes all classes that have it."
  },
  {
   "property": "C188",
   "status": "partial",
   "theorems": [
    "Verif.C188_others",
    "Verif.C188_given_partial",
    "Verif.C188_ignored_false",
    "Verif.C188_methods",
    "Verif.C188_readonly"
   ],
   "note": "What is given for the attributes of every agent (name, ...) or for names of methods is ignored."
  },
  {
   "property": "C189",
   "status": "partial",
   "theorems": [
    "Verif.C189_states",
    "Verif.C189_initial_partial",
    "Verif.C189_several_false",
    "Verif.C189_lost_false"
   ],
   "note": "The states are the same; the initial state is if there is at most one default state in the hierarchy."
  },
  {
   "property": "C190",
   "status": "partial",
   "theorems": [
    "Verif.C190_assigned_partial",
    "Verif.C190_never_false",
    "Verif.C190_template_false",
    "Verif.C190_unknown_false"
   ],
   "note": "The module of a customised class is abc, so its name stands for the template or for nothing, unless it is assigned to a variable of a known module."
  },
  {
   "property": "C191",
   "status": "partial",
   "theorems": [
    "Verif.C191_no_starvation_partial",
    "Verif.C191_host_partial",
    "Verif.C191_zeno_false",
    "Verif.C191_additions_false",
    "Verif.C191_pqueue_partial",
    "Verif.C191_pqueue_host_partial"
   ],
   "note": "Proved if all activations wait at least some fixed delay and finitely many agents are added; agents that wait less and less, or that keep adding agents, starve others for ever. The theorems about PQueueActivation are about populations added at time 0 (see C12)."
  },
  {
   "property": "C192",
   "status": "partial",
   "theorems": [
    "Verif.C192_subgraph_partial",
    "Verif.C192_neighbors",
    "Verif.C192_others_false"
   ],
   "note": "Proved for criteria that select network agents, and with limit_neighbors without exception; one selected agent without node_id makes subgraph raise."
  },
  {
   "property": "C193",
   "status": "partial",
   "theorems": [
    "Verif.C193_other_edges_partial",
    "Verif.C193_attributes_false",
    "Verif.C193_positional_false"
   ],
   "note": "The attributes given are never set: the dictionary becomes the value of an attribute edge_attr_dict."
  },
  {
   "property": "C194",
   "status": "partial",
   "theorems": [
    "Verif.C194_added_partial",
    "Verif.C194_empty",
    "Verif.C194_topology_false",
    "Verif.C194_nodes_false",
    "Verif.C194_raised_false"
   ],
   "note": "The number and the classes are right; free nodes may be missed, and with a topology there is a KeyError after the first agent."
  },
  {
   "property": "C195",
   "status": "partial",
   "theorems": [
    "Verif.C195_nodes_partial",
    "Verif.C195_elsewhere_false",
    "Verif.C195_empty"
   ],
   "note": "For constructors that do not pass on node_id (social wealth example) the nodes know their agents, but the agents take themselves to be elsewhere."
  },
  {
   "property": "C196",
   "status": "partial",
   "theorems": [
    "Verif.C196_reported_partial",
    "Verif.C196_object_partial",
    "Verif.C196_counts",
    "Verif.C196_exception_false",
    "Verif.C196_object_false"
   ],
   "note": "Holds for code that raises no exception; a block that raises is never reported as finished, and objects that count as false are not told the times."
  },
  {
   "property": "C197",
   "status": "partial",
   "theorems": [
    "Verif.C197_plain_partial",
    "Verif.C197_with_false"
   ],
   "note": "easy is decorated as a context manager but does not yield: the block of a with statement is never executed. A plain call runs the simulation."
  },
  {
   "property": "C198",
   "status": "partial",
   "theorems": [
    "Verif.C198_skipped_partial",
    "Verif.C198_first_options",
    "Verif.C198_shown",
    "Verif.C198_skip_false",
    "Verif.C198_later_false",
    "Verif.C198_traceback_false"
   ],
   "note": "The debugger is made once, with the options of the first call; skip raises TypeError; the traceback given to post_mortem is ignored."
  },
  {
   "property": "C199",
   "status": "partial",
   "theorems": [
    "Verif.C199_written_partial",
    "Verif.C199_again",
    "Verif.C199_twice",
    "Verif.C199_changed_false"
   ],
   "note": "What is written is right; the graph loses the positions of its nodes."
  },
  {
   "property": "C200",
   "status": "partial",
   "theorems": [
    "Verif.C200_content_partial",
    "Verif.C200_copied",
    "Verif.C200_mode_false",
    "Verif.C200_copy_false"
   ],
   "note": "The content is right for writes that suit the mode; others are accepted although the real file would raise, and copies contain the name of the file before every piece."
  },
  {
   "property": "C201",
   "status": "partial",
   "theorems": [
    "Verif.C201_distinct_partial",
    "Verif.C201_value",
    "Verif.C201_nul_false"
   ],
   "note": "Proved for seeds that do not end in NUL."
  },
  {
   "property": "C202",
   "status": "partial",
   "theorems": [
    "Verif.C202_one_poll_partial",
    "Verif.C202_polling_ends",
    "Verif.C202_two_polls_false",
    "Verif.C202_overlap_false"
   ],
   "note": "Holds for the first run of a connection. A run that begins within half a second after another one is polled twice for ever; of overlapping runs the polling ends with the first that ends."
  },
  {
   "property": "C203",
   "status": "partial",
   "theorems": [
    "Verif.C203_time_monotone_partial",
    "Verif.C203_next_activation_partial",
    "Verif.C203_conservation_partial",
    "Verif.C203_step_runs_due_partial",
    "Verif.C203_no_delay_lost_partial",
    "Verif.C203_dyadic_exact_partial",
    "Verif.C203_drift_false",
    "Verif.C203_stall_false",
    "Verif.C203_mixed_false",
    "Verif.C203_at_false"
   ],
   "note": "The positive theorems hold as long as no delay is lost by rounding, which is so while the time stays below 2**k and delays are at least 2**(k-53). The next activation is at the rounded sum, and at the exact one for multiples of 2**-j below 2**(53-j). Violations: three delays of 0.1 are not 0.3; a delay of 1.0 at 2**53 is lost and time stands still for ever; an integer clock beyond 2**53 goes backwards with a float delay; at(0.9) at 0.3 wakes up later than 0.9."
  },
  {
   "property": "C204",
   "status": "partial",
   "theorems": [
    "Verif.C204_numbers_partial",
    "Verif.C204_draws_partial",
    "Verif.C204_kept",
    "Verif.C204_tie_false",
    "Verif.C204_raises"
   ],
   "note": "Holds without shuffling if no two agents have the same unique_id, and with shuffling if the generator never gives the same number twice. Violation: entries are (key, agent), so a tie of keys compares the agents; agents cannot be compared, the addition raises TypeError, the agent is not among the agents but in the queue, acts in the next step and makes that step raise too. In any case no entry of the heap is lost (C204_kept)."
  },
  {
   "property": "C205",
   "status": "partial",
   "theorems": [
    "Verif.C205_agents_partial",
    "Verif.C205_rejects",
    "Verif.C205_missing_false",
    "Verif.C205_warning_false",
    "Verif.C205_overfull_false",
    "Verif.C205_zero_false"
   ],
   "note": "Violations: soil.config has no AgentConfig, so every call raises AttributeError. If the classes are assumed to be there, the agents are as asked for (with positive weights and enough room), but nodes that are left over raise NameError (the name assigned does not exist) and agents for the total go to the topology by default although all nodes are taken."
  },
  {
   "property": "C206",
   "status": "partial",
   "theorems": [
    "Verif.C206_interval_partial",
    "Verif.C206_integers_partial",
    "Verif.C206_dyadic_partial",
    "Verif.C206_drift_partial",
    "Verif.C206_advances_partial",
    "Verif.C206_early_false",
    "Verif.C206_stall_false"
   ],
   "note": "Violations: with the interval 0.1 three steps run an agent that is due at 0.3; with the interval 1.0 the clock stands still from 2**53 on. It holds for integers and for multiples of powers of two; in general the drift is bounded."
  },
  {
   "property": "C207",
   "status": "partial",
   "theorems": [
    "Verif.C207_get_partial",
    "Verif.C207_iter_partial",
    "Verif.C207_removed_false",
    "Verif.C207_first_false",
    "Verif.C207_late_false"
   ],
   "note": "Violations: a loop over iter_agents whose body kills or adds an agent raises RuntimeError and leaves the others out; and it looks at the criteria late, so the body can change who is visited. Loops over get_agents are not affected."
  },
  {
   "property": "C208",
   "status": "proved",
   "theorems": [
    "Verif.C208_life"
   ],
   "note": ""
  },
  {
   "property": "C209",
   "status": "partial",
   "theorems": [
    "Verif.C209_mating",
    "Verif.C209_litter",
    "Verif.C209_children",
    "Verif.C209_once_false"
   ],
   "note": "Violation: conception is never reset, so after one mating a female has a litter again and again, without a father. Everything else holds: every litter is preceded by a mating at least one gestation before."
  },
  {
   "property": "C210",
   "status": "proved",
   "theorems": [
    "Verif.C210_network",
    "Verif.C210_family"
   ],
   "note": ""
  },
  {
   "property": "C211",
   "status": "partial",
   "theorems": [
    "Verif.C211_exact_partial",
    "Verif.C211_frozen_false",
    "Verif.C211_few"
   ],
   "note": "Violation: RuntimeError escapes as soon as an accident kills a rabbit, in versions of Python in which the agents cannot be removed while they are iterated; it holds in the others."
  },
  {
   "property": "C212",
   "status": "partial",
   "theorems": [
    "Verif.C212_only_partial",
    "Verif.C212_orphan_false",
    "Verif.C212_accident_false"
   ],
   "note": "Violations: add_edge raises ValueError when the father of a litter has died before the birth; RuntimeError in accidents. These are the only exceptions."
  },
  {
   "property": "C213",
   "status": "proved",
   "theorems": [
    "Verif.C213_terrorist",
    "Verif.C213_leader",
    "Verif.C213_apart"
   ],
   "note": ""
  },
  {
   "property": "C214",
   "status": "partial",
   "theorems": [
    "Verif.C214_dictionary_partial",
    "Verif.C214_popitem_false",
    "Verif.C214_update_false",
    "Verif.C214_class_false"
   ],
   "note": "Violated: popitem, clear and values raise TypeError because __iter__ gives pairs, update with another agent raises TypeError, and pop/setdefault see the attributes of the class. Proved: refinement for get/set/del/in/len/pop/setdefault/update on names that the class does not have."
  },
  {
   "property": "C215",
   "status": "partial",
   "theorems": [
    "Verif.C215_conserved_partial",
    "Verif.C215_never_lost",
    "Verif.C215_expiration",
    "Verif.C215_order",
    "Verif.C215_once_partial",
    "Verif.C215_replies",
    "Verif.C215_twice_false",
    "Verif.C215_sent",
    "Verif.C215_pqueue",
    "Verif.C215_pqueue_conserved_partial",
    "Verif.C215_pqueue_twice_false",
    "Verif.C215_pqueue_times"
   ],
   "note": "Violated when an exception escapes from process_messages: the inbox is kept and the messages before it are handed out again. Proved for every run without such an exception, and at-least-once, order and expiration for every run."
  },
  {
   "property": "C216",
   "status": "partial",
   "theorems": [
    "Verif.C216_round_trip_partial",
    "Verif.C216_injective_partial",
    "Verif.C216_inf_false",
    "Verif.C216_type_false"
   ],
   "note": "Violated: infinity is written as inf, which literal_eval refuses, and the type name is not looked at. Proved: the round trip for all other nested values."
  },
  {
   "property": "C217",
   "status": "partial",
   "theorems": [
    "Verif.C217_names",
    "Verif.C217_grows_false",
    "Verif.C217_round_trip_partial"
   ],
   "note": "Violated: every call appends soil.agents to the list of known modules, be it the caller's or the mutable default. Proved: the names are the same after every sequence of calls, and the round trip for classes that can be found by module and name."
  },
  {
   "property": "C218",
   "status": "partial",
   "theorems": [
    "Verif.C218_looks",
    "Verif.C218_noticed",
    "Verif.C218_gave_up_partial",
    "Verif.C218_answered_partial",
    "Verif.C218_late_false",
    "Verif.C218_falsy_false"
   ],
   "note": "Violated: an answer in the last delay before the deadline is lost because the asker looks only once per delay, and an answer that is false (0, None, empty) is never noticed. Proved: the looks are one delay apart, a reply that is taken is the answer to this question and at most one delay old, and every true answer given more than one delay before the deadline is noticed."
  },
  {
   "property": "C219",
   "status": "partial",
   "theorems": [
    "Verif.C219_next_activation_partial",
    "Verif.C219_step_partial",
    "Verif.C219_no_delay_lost_partial",
    "Verif.C219_endless_false"
   ],
   "note": "Violated: a delay that is lost by rounding (1.0 at 2**53) leaves the agent at the head of the queue, and the step never ends. Proved for every execution in which no delay is lost: every step ends and runs exactly the due agents, and the next activation is at the rounded sum. Below 2**k no delay of at least 2**(k-53) is lost, k <= 53."
  },
  {
   "property": "C220",
   "status": "proved",
   "theorems": [
    "Verif.C220_served",
    "Verif.C220_yields",
    "Verif.C220_timeout",
    "Verif.C220_round_trip"
   ],
   "note": "received in a loop inside whole simulations, with arbitrary other agents. C220_round_trip composes it with the polling loop of ask (C218)."
  },
  {
   "property": "C221",
   "status": "partial",
   "theorems": [
    "Verif.C221_one_partial",
    "Verif.C221_super",
    "Verif.C221_nested_false",
    "Verif.C221_two_false"
   ],
   "note": "Proved if at most one of the classes has a generator or coroutine; a generator that calls the step of another generator always raises, and of two generators called in turn the second call resumes the first."
  },
  {
   "property": "C222",
   "status": "partial",
   "theorems": [
    "Verif.C222_undeclared",
    "Verif.C222_declared_partial",
    "Verif.C222_raises_false",
    "Verif.C222_other_false",
    "Verif.C222_param_false"
   ],
   "note": "model.interval is read instead of model.default_interval: an environment whose class declares default_interval cannot be made, and the parameter has no effect."
  },
  {
   "property": "C223",
   "status": "partial",
   "theorems": [
    "Verif.C223_activations",
    "Verif.C223_total",
    "Verif.C223_mesa",
    "Verif.C223_steps_partial",
    "Verif.C223_hangs_false",
    "Verif.C223_states",
    "Verif.C223_states_hangs_false"
   ],
   "note": "If everybody is resistant before MAX_STEPS, nobody is left in the scheduler, steps are no longer counted and the benchmark loops for ever."
  },
  {
   "property": "C224",
   "status": "partial",
   "theorems": [
    "Verif.C224_others_partial",
    "Verif.C224_clock_partial",
    "Verif.C224_lost_false",
    "Verif.C224_lost_acts_false",
    "Verif.C224_newborn_false",
    "Verif.C224_never_false",
    "Verif.C224_endless_false",
    "Verif.C224_heap_false",
    "Verif.C224_heap_late_false",
    "Verif.C224_heap_clock_partial",
    "Verif.C224_numbers_partial"
   ],
   "note": "Violated: with TimedActivation an agent that asks for NaN, and every agent added while the clock is NaN, acts from then on only while the clock is NaN; a delay of inf is not the end then; a run with max_time never ends if only such agents remain. With PQueueActivation the step itself never ends, or other agents are woken late. Proved for TimedActivation: agents that have nothing to do with NaN are woken exactly when they asked for, and the readings of the clock that are numbers are in order, as long as no exception escapes and no delay is negative."
  },
  {
   "property": "C225",
   "status": "partial",
   "theorems": [
    "Verif.C225_order",
    "Verif.C225_text_partial",
    "Verif.C225_many_false",
    "Verif.C225_collision_false",
    "Verif.C225_told_apart_partial",
    "Verif.C225_repeated_false",
    "Verif.C225_read_back_partial",
    "Verif.C225_nested_false"
   ],
   "note": "Violated: only seven hexadecimal digits are kept, so among more than 16^7 combinations two share an identifier, whatever the hash function; `parameters` that are also a combination of the matrix are written twice with the same identifiers; for dictionaries as values the order of their items matters. Proved: order of the parameters does not matter; the text before hashing is different for different literal values; without repetitions and without a collision of the digits every iteration has identifiers of its own and is found again by read_sql."
  },
  {
   "property": "C226",
   "status": "partial",
   "theorems": [
    "Verif.C226_ratios_partial",
    "Verif.C226_negative_false",
    "Verif.C226_pairs_false"
   ],
   "note": "Violated: in three of the nine pairs of the example the third ratio is negative; no exception is raised, and the share of the second kind is not the one given. Proved when no ratio is negative."
  },
  {
   "property": "C227",
   "status": "partial",
   "theorems": [
    "Verif.C227_history_partial",
    "Verif.C227_unreadable_false"
   ],
   "note": "Violated by every simulation whose models have no reporters of agents (the default): read_sql raises. Proved for simulations with parameters, reporters of agents and distinct identifiers; for the agents as long as the step number increases."
  },
  {
   "property": "C228",
   "status": "partial",
   "theorems": [
    "Verif.C228_runs",
    "Verif.C228_convert",
    "Verif.C228_errors_partial",
    "Verif.C228_swallowed_false",
    "Verif.C228_missing_false",
    "Verif.C228_pdb_argument_false",
    "Verif.C228_leak_false",
    "Verif.C228_independent_partial",
    "Verif.C228_debug_leak_false",
    "Verif.C228_easy"
   ],
   "note": "Violated: with --pdb the exception is swallowed; a missing file is only logged; the argument pdb is ignored; SOIL_POSTMORTEM and SOIL_DEBUG stay set for later calls. The rest is proved."
  },
  {
   "property": "C229",
   "status": "partial",
   "theorems": [
    "Verif.C229_runs_partial",
    "Verif.C229_set_partial",
    "Verif.C229_set_false"
   ],
   "note": "Seed and iterations reach every environment. Violated by --set for simulations with a matrix: the combinations do not get the values, and one more combination is run instead."
  },
  {
   "property": "C230",
   "status": "partial",
   "theorems": [
    "Verif.C230_rounds_partial",
    "Verif.C230_counts_partial",
    "Verif.C230_mesa_partial",
    "Verif.C230_ordered_partial",
    "Verif.C230_ends_partial",
    "Verif.C230_removed_false",
    "Verif.C230_added_false",
    "Verif.C230_pqueue_partial",
    "Verif.C230_agree_partial",
    "Verif.C230_pqueue_ends_partial"
   ],
   "note": "Proved for all programs that do not change the schedule. Violated when an agent is removed with mesa's schedule.remove (it goes on being activated) and when agents are added in a step (the next step activates only them, at the same time)."
  },
  {
   "property": "C231",
   "status": "proved",
   "theorems": [
    "Verif.C231_init",
    "Verif.C231_counters",
    "Verif.C231_run"
   ],
   "note": ""
  },
  {
   "property": "C232",
   "status": "proved",
   "theorems": [
    "Verif.C232_counts",
    "Verif.C232_ends",
    "Verif.C232_average"
   ],
   "note": ""
  },
  {
   "property": "C233",
   "status": "partial",
   "theorems": [
    "Verif.C233_states_partial",
    "Verif.C233_front_partial",
    "Verif.C233_along_partial",
    "Verif.C233_shrinks_false",
    "Verif.C233_pqueue_partial",
    "Verif.C233_pqueue_false"
   ],
   "note": "Contentment spreads as described; discontent never does (the filter compares a State with the name of a state, and the state content ignores it)."
  },
  {
   "property": "C234",
   "status": "partial",
   "theorems": [
    "Verif.C234_aware_partial",
    "Verif.C234_exact_partial",
    "Verif.C234_network_false",
    "Verif.C234_pqueue_partial"
   ],
   "note": "States and times as described; neighbours have no influence: the simulation is the same on every network (state_id=1 matches nobody)."
  },
  {
   "property": "C235",
   "status": "partial",
   "theorems": [
    "Verif.C235_exact_partial",
    "Verif.C235_earliest_partial",
    "Verif.C235_zero_false",
    "Verif.C235_starves_false"
   ],
   "note": "Holds for all delays except those that lead to the time 0: `when or self.time` takes 0 for missing and the agent is activated at the present time again. Obeying the calendar means that agents that go back can keep the others waiting for ever; the run never ends."
  },
  {
   "property": "C236",
   "status": "partial",
   "theorems": [
    "Verif.C236_clock",
    "Verif.C236_wakeups",
    "Verif.C236_exact_false",
    "Verif.C236_endless_false"
   ],
   "note": "The clock and the wake-ups are as described; an agent that always asks for the past makes a single step endless, and wake-ups in the past are late (unlike with TimedActivation, C235)."
  },
  {
   "property": "C237",
   "status": "partial",
   "theorems": [
    "Verif.C237_run_partial",
    "Verif.C237_links_partial",
    "Verif.C237_frames_false",
    "Verif.C237_sink_false",
    "Verif.C237_single_false"
   ],
   "note": "Holds from the first step on for grids with more than one cell. The model replaces soil's collector after the constructor has collected, so the row of the start is lost, and without a column `time` model_df() and agent_df() raise. The class of agents does not pass on its node, so agents take themselves to be elsewhere; if the first one does, it never gives anything to the others."
  },
  {
   "property": "C238",
   "status": "partial",
   "theorems": [
    "Verif.C238_journeys_partial",
    "Verif.C238_lockstep_partial",
    "Verif.C238_occupation",
    "Verif.C238_rest_false",
    "Verif.C238_empty_false",
    "Verif.C238_agents"
   ],
   "note": "A delay of 0 is a whole default interval for the scheduler: a driver rests for an interval at every intersection, and a street that takes no time takes an interval. Without drivers and with lockstep=True the first step never ends. The rest holds for all cities in which one can drive; that the steps with lockstep end, for those with a shortest travel time."
  },
  {
   "property": "C239",
   "status": "partial",
   "theorems": [
    "Verif.C239_home",
    "Verif.C239_room",
    "Verif.C239_open",
    "Verif.C239_alone_false",
    "Verif.C239_places_false",
    "Verif.C239_pqueue",
    "Verif.C239_pqueue_open",
    "Verif.C239_pqueue_false"
   ],
   "note": "The last patron who looks for friends never finds any, since those who have found some do not look any more; and each pub only ever admits half as many patrons as it has places, since everybody is counted twice and nobody leaves. The times, and that nobody waits while there is room, hold; for patrons that refuse nobody the outcome is determined."
  },
  {
   "property": "C240",
   "status": "partial",
   "theorems": [
    "Verif.C240_runs_partial",
    "Verif.C240_reach_partial",
    "Verif.C240_speed_partial",
    "Verif.C240_wise_false",
    "Verif.C240_silent_false"
   ],
   "note": "A wise viewer that hears the news raises at its next activation (has_been_cured is not defined), so with one wise viewer with a TV set and probability 1 no simulation gets beyond the second step; and the example never sets has_tv, so in its own simulations nothing ever happens. Without wise viewers, and with the probabilities given, the run, the speed and (dumb viewers) the arrival of the news hold for both schedulers."
  },
  {
   "property": "C241",
   "status": "partial",
   "theorems": [
    "Verif.C241_link_partial",
    "Verif.C241_raises_false",
    "Verif.C241_far_false",
    "Verif.C241_refines"
   ],
   "note": "get_agents ignores the ids it is given, so agents at any distance are considered, in the order of their ids, and the loop either links with an agent of smaller id or divides by zero when it reaches the agent itself. What holds: nothing is done with a civilian neighbour; a new link is with a civilian who was no neighbour, drawn with the computed probability, and only this edge is added."
  },
  {
   "property": "C242",
   "status": "partial",
   "theorems": [
    "Verif.C242_radical_false",
    "Verif.C242_spread_partial",
    "Verif.C242_history",
    "Verif.C242_peace_partial"
   ],
   "note": "super().terrorist() and super().leader() raise, so with either scheduler every simulation in which somebody is a leader or terrorist ends with an exception in the next step. The rest holds for persons of the base class TerroristSpreadModel, and for the example's class if nobody is radical in the beginning."
  },
  {
   "property": "C243",
   "status": "proved",
   "theorems": [
    "Verif.C243_outbreak",
    "Verif.C243_rejected",
    "Verif.C243_reports",
    "Verif.C243_whole"
   ],
   "note": "The nodes drawn are inputs: as many as asked for, all different, all in the network."
  },
  {
   "property": "C244",
   "status": "partial",
   "theorems": [
    "Verif.C244_run_partial",
    "Verif.C244_degenerate_false",
    "Verif.C244_last_false",
    "Verif.C244_self_false"
   ],
   "note": "Violated: step collects before the agents act, so the state at the end is not recorded; a coin may be given to oneself; with a single cell or without agents the first step raises. mesa's grid, scheduler and collector are a specification, not part of the repository."
  },
  {
   "property": "C245",
   "status": "proved",
   "theorems": [
    "Verif.C245_home",
    "Verif.C245_ends",
    "Verif.C245_complete",
    "Verif.C245_default",
    "Verif.C245_alone"
   ],
   "note": "Square grids only; on others passengers may draw unreachable destinations (C157)."
  },
  {
   "property": "C246",
   "status": "proved",
   "theorems": [
    "Verif.C246_run",
    "Verif.C246_safe",
    "Verif.C246_home",
    "Verif.C246_ends",
    "Verif.C246_default",
    "Verif.C246_scheduled_false",
    "Verif.C246_draws"
   ],
   "note": "The statement includes the exception that C246_scheduled_false shows to be needed: a passenger that got home is scheduled once more, because its last state does not return what die gives. C246_safe, C246_home and C246_ends are for square grids; on others passengers may draw unreachable destinations (C157)."
  },
  {
   "property": "C247",
   "status": "proved",
   "theorems": [
    "Verif.C247_refines",
    "Verif.C247_transfer",
    "Verif.C247_safe",
    "Verif.C247_outcome",
    "Verif.C247_endless_false"
   ],
   "note": "The statement includes the difference that C247_endless_false shows: without max_time a simulation in which everybody has died ends with PQueueActivation only."
  },
  {
   "property": "C248",
   "status": "proved",
   "theorems": [
    "Verif.C248_run",
    "Verif.C248_safe",
    "Verif.C248_ends",
    "Verif.C248_stops"
   ],
   "note": "C248_safe, C248_ends and C248_stops are for square grids, as in C246."
  },
  {
   "property": "C249",
   "status": "proved",
   "theorems": [
    "Verif.C249_refines",
    "Verif.C249_transfer",
    "Verif.C249_same_runs",
    "Verif.C249_ordered_false"
   ],
   "note": "The statement includes the difference without shuffling that C249_ordered_false shows."
  },
  {
   "property": "C250",
   "status": "proved",
   "theorems": [
    "Verif.C250_same",
    "Verif.C250_converse",
    "Verif.C250_lockstep",
    "Verif.C250_lockstep_converse",
    "Verif.C250_lock_clock",
    "Verif.C250_lock_clock_pqueue",
    "Verif.C250_adds_false",
    "Verif.C250_empty_false",
    "Verif.C250_end",
    "Verif.C250_lock_code"
   ],
   "note": "The statement includes the differences that C250_adds_false and C250_empty_false show."
  },
  {
   "property": "C251",
   "status": "partial",
   "theorems": [
    "Verif.C251_construct",
    "Verif.C251_name",
    "Verif.C251_launch",
    "Verif.C251_compose",
    "Verif.C251_class_partial",
    "Verif.C251_run_partial",
    "Verif.C251_empty_name_false",
    "Verif.C251_test_name_false",
    "Verif.C251_other_model_false",
    "Verif.C251_pubcrawl_false",
    "Verif.C251_source"
   ],
   "note": "Violated: a simulation run with another model keeps the name of the first (C251_other_model_false); soil.simulation.run calls every simulation 'test' unless told otherwise (C251_test_name_false); an empty name is replaced by Model.run only (C251_empty_name_false); the pub crawl example is launched with a setting that does not exist and raises TypeError (C251_pubcrawl_false). C251_class_partial and C251_run_partial exclude the names concerned."
  },
  {
   "property": "C252",
   "status": "partial",
   "theorems": [
    "Verif.C252_grows_false",
    "Verif.C252_returns_false",
    "Verif.C252_run_partial",
    "Verif.C252_pair",
    "Verif.C252_raises",
    "Verif.C252_due",
    "Verif.C252_events",
    "Verif.C252_numbers"
   ],
   "note": "Violated: births raise (self.model.agents[self.mate] in examples/rabbits/rabbits_basic_sim.py:121). C252_grows_false and C252_returns_false: for all parameters, random numbers, orders and limits a simulation in which nothing was raised has exactly the two rabbits of the beginning. What holds: C252_pair (ages, network and schedule up to the life expectancy), C252_due (in which step the birth happens, and raises), C252_raises (what a raise leaves behind, and when at the earliest), C252_run_partial (the simulation ends at its limit or with that raise), C252_events (every simulation is a series of the events of C129 to C134)."
  },
  {
   "property": "C253",
   "status": "proved",
   "theorems": [
    "Verif.C253_steps",
    "Verif.C253_max_steps",
    "Verif.C253_max_time",
    "Verif.C253_pqueue",
    "Verif.C253_pqueue_max_time",
    "Verif.C253_pongs",
    "Verif.C253_pongs_max_time",
    "Verif.C253_pongs_pqueue",
    "Verif.C253_pongs_endless"
   ],
   "note": "C253_steps, C253_max_steps, C253_max_time: TimeoutsEnv with TimedActivation, for all orders; C253_pqueue, C253_pqueue_max_time: the same with PQueueActivation, for all keys, by the refinement of C247. C253_pongs, C253_pongs_max_time, C253_pongs_pqueue: RandomEnv for all delays and every max_pongs. C253_pongs_endless: without max_time, and with max_steps above max_pongs + 1, the latter never ends with TimedActivation (C19)."
  },
  {
   "property": "C254",
   "status": "partial",
   "theorems": [
    "Verif.C254_init",
    "Verif.C254_run_partial",
    "Verif.C254_nodes_false",
    "Verif.C254_start",
    "Verif.C254_full_partial"
   ],
   "note": "Violated for networks of every size: the constructor of a network agent looks for a free node among nodes drawn with repetition (random.choices), so counters can be put on new nodes although there are free ones; in the extreme only one node gets a counter and no counter finds a neighbour (C254_nodes_false). What holds: exactly when init raises, where the counters are, as many new nodes as nodes left free (C254_init); the simulation returns, every counter runs in every step, and the neighbours counted are exactly twice the edges between occupied nodes (C254_run_partial)."
  },
  {
   "property": "C255",
   "status": "proved",
   "theorems": [
    "Verif.C255_timed",
    "Verif.C255_pqueue",
    "Verif.C255_agree",
    "Verif.C255_counters",
    "Verif.C255_raises",
    "Verif.C255_praises"
   ],
   "note": "For code that does not raise on attributes of its kind (Safe), which is proved for the counters. C255_timed and C255_pqueue: each scheduler against the agent alone; C255_agree: all orders and both schedulers give the same agents; C255_counters: the three classes of counters together."
  },
  {
   "property": "C256",
   "status": "proved",
   "theorems": [
    "Verif.C256_clock",
    "Verif.C256_ends",
    "Verif.C256_returns",
    "Verif.C256_extinct",
    "Verif.C256_unlimited"
   ],
   "note": "C256_clock: the clock after n steps is at least (n-1)/(2d). C256_ends: with max_time the loop of _run_model ends within 2*d*max_time+1 steps. C256_returns: when it returns, no exception has escaped and the clock is at max_time or later for the first time. C256_extinct: an infinite clock means that all rabbits are dead. C256_unlimited: without limits it never returns."
  },
  {
   "property": "C257",
   "status": "proved",
   "theorems": [
    "Verif.C257_terminates",
    "Verif.C257_rushed",
    "Verif.C257_rabbits"
   ],
   "note": "C257_terminates: under the conditions (structure Fertile, with an invariant of the world) the loop of _run_model ends. C257_rushed: without the condition on the newborn it need not end. C257_rabbits: the improved rabbits satisfy the conditions (positive sexual_maturity)."
  },
  {
   "property": "C258",
   "status": "proved",
   "theorems": [
    "Verif.C258_exists",
    "Verif.C258_history",
    "Verif.C258_simulation",
    "Verif.C258_pexists",
    "Verif.C258_phistory",
    "Verif.C258_psimulation",
    "Verif.C258_interval"
   ],
   "note": "Times are exact; with floats rescaling by a power of two is exact, other units round."
  },
  {
   "property": "C259",
   "status": "partial",
   "theorems": [
    "Verif.C259_exists",
    "Verif.C259_timed_partial",
    "Verif.C259_simulation_partial",
    "Verif.C259_past_false",
    "Verif.C259_pqueue_partial",
    "Verif.C259_pqueue_false",
    "Verif.C259_psimulation_partial"
   ],
   "note": "Violated: TimedActivation._schedule takes the time 0 for no time (delays into the past), and PQueueActivation.add passes the time as the flag replace (agents added at a time other than 0)."
  },
  {
   "property": "C260",
   "status": "proved",
   "theorems": [
    "Verif.C260_exists",
    "Verif.C260_history",
    "Verif.C260_simulation",
    "Verif.C260_pexists",
    "Verif.C260_phistory",
    "Verif.C260_injective",
    "Verif.C260_ids",
    "Verif.C260_psimulation"
   ],
   "note": ""
  },
  {
   "property": "C261",
   "status": "proved",
   "theorems": [
    "Verif.C261_history",
    "Verif.C261_simulation",
    "Verif.C261_phistory",
    "Verif.C261_notes",
    "Verif.C261_psimulation"
   ],
   "note": ""
  },
  {
   "property": "C262",
   "status": "proved",
   "theorems": [
    "Verif.C262_continue",
    "Verif.C262_raised",
    "Verif.C262_returns",
    "Verif.C262_prefix",
    "Verif.C262_pprefix"
   ],
   "note": ""
  },
  {
   "property": "C263",
   "status": "proved",
   "theorems": [
    "Verif.C263_idle",
    "Verif.C263_shuffled"
   ],
   "note": ""
  }
 ]
}