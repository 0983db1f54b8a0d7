{
 "claims": [
  {
   "property": "C01",
   "status": "proved",
   "theorems": [
    "Verif.Props.Node.C01_destination_in_diagram",
    "Verif.Props.Node.C01_every_edge_possible",
    "Verif.Props.Exec.C01_history",
    "Verif.Props.Exec.C01_states"
   ],
   "note": "One decision: every type, state and valuation. Histories: every reported transition of every execution follows the diagram, and no node is ever in a state its type does not have; no internal queue error."
  },
  {
   "property": "C02",
   "status": "proved",
   "theorems": [
    "Verif.Props.Node.C02_stop_precedence",
    "Verif.Props.Node.C02_executing_normal_end",
    "Verif.Props.Node.C02_finishing_normal_end",
    "Verif.Props.Node.C02_waiting",
    "Verif.Props.Node.C02_iteration_ended",
    "Verif.Props.Node.C02_inactive_finished",
    "Verif.Props.Node.C02_failing",
    "Verif.Props.Node.C02_unknown",
    "Verif.Props.Conditions.C02_decision_is_rule",
    "Verif.Props.Conditions.C02_history"
   ],
   "note": "Node level: all node types and all values (absent, unknown, true, false) of all conditions. Executive level: the decision equals the rule stated in terms of plan conditions of the node and its ancestors (Verif.Exec.Rule), and every reported transition follows it."
  },
  {
   "property": "C03",
   "status": "proved",
   "theorems": [
    "Verif.Props.Exec.C03_consistent",
    "Verif.Props.Exec.C03_spelled_out"
   ],
   "note": "All reachable states of all executions."
  },
  {
   "property": "C04",
   "status": "proved",
   "theorems": [
    "Verif.Props.Exec.C04_clean_slate"
   ],
   "note": "All reachable states of all executions."
  },
  {
   "property": "C05",
   "status": "proved",
   "theorems": [
    "Verif.Props.Node.C05_parent_gates_child",
    "Verif.Props.Node.C05_list_waits_for_children",
    "Verif.Props.Exec.C05_history"
   ],
   "note": "One decision and all executions: the parent/child condition holds in the situation in which the micro step was decided."
  },
  {
   "property": "C06",
   "status": "partial",
   "theorems": [
    "Verif.Props.Sync.C06_no_active_children_partial",
    "Verif.Props.Sync.C06_child_left_running"
   ],
   "note": "False of the code: proved counterexample C06_child_left_running (list FINISHED, child EXECUTING, all notifications delivered). Proved when the children are told to stop by an ancestor condition that still holds at the start of the micro step."
  },
  {
   "property": "C07",
   "status": "proved",
   "theorems": [
    "Verif.Props.Sync.C07_synchronous",
    "Verif.Props.Sync.C07_synchronous_resources",
    "Verif.Props.Sync.C07_order_independent",
    "Verif.Props.Sync.C07_history",
    "Verif.Props.SyncRun.C07_refines_synchronous",
    "Verif.Props.SyncRun.C07_transition_synchronous"
   ],
   "note": "Provided every change of a condition notifies the node (Notifies, ReachN). Nodes competing for mutexes or variables: they take the synchronous step or stay. Whole executions refine synchronous executions (SyncRun)."
  },
  {
   "property": "C08",
   "status": "proved",
   "theorems": [
    "Verif.Props.Quiet.C08_quiescence",
    "Verif.Props.Quiet.C08_quiescence_resources"
   ],
   "note": "Executions in which every change of a condition notifies the node (as the English says)."
  },
  {
   "property": "C09",
   "status": "partial",
   "theorems": [
    "Verif.Props.Quiet.C09_lost_node",
    "Verif.Props.Quiet.C09_skipped_node",
    "Verif.Props.Sync.C09_release_wakes_partial",
    "Verif.Props.Sync.C09_served_partial"
   ],
   "note": "False of the code, two proved counterexamples (lost forever; skipped). Proved: release wakes every waiter; waiters are served when no condition of a waiting node has changed."
  },
  {
   "property": "C10",
   "status": "proved",
   "theorems": [
    "Verif.Props.Exec.C10_mutual_exclusion",
    "Verif.Props.Exec.C10_holds",
    "Verif.Props.Exec.C10_no_stealing"
   ],
   "note": "All reachable states."
  },
  {
   "property": "C100",
   "status": "partial",
   "theorems": [
    "Verif.Ipc.Rendezvous.c100_answers_partial",
    "Verif.Ipc.Rendezvous.c100_progress_partial",
    "Verif.Ipc.Rendezvous.c100_example",
    "Verif.Ipc.Rendezvous.c100_polite_example",
    "Verif.Ipc.Rendezvous.c100_early_reply_hangs",
    "Verif.Ipc.Rendezvous.c100_second_answer_unknown",
    "Verif.Ipc.Rendezvous.c100_second_answer_wrong",
    "Verif.Ipc.Rendezvous.c100_no_answer_hangs"
   ],
   "note": "Proved if each question is answered at most once, by a reply handled after the executive has noted the number of its question, and there is no telemetry about the state. Without: a fast reply is dropped and the executive blocks for ever; a second answer makes the next lookup return unknown, or the value of the other state; without an answer the executive blocks for ever."
  },
  {
   "property": "C101",
   "status": "partial",
   "theorems": [
    "Verif.Ipc.c101_same_value_partial",
    "Verif.Ipc.c101_example",
    "Verif.Ipc.c101_lost",
    "Verif.Ipc.c101_changed"
   ],
   "note": "The theorem says exactly which values do: Booleans, numbers, strings without zero bytes, arrays of such without unknown elements, untyped unknown. Others are lost (command handles, states, outcomes, failures, arrays with unknown elements) or changed (strings cut at a zero byte; unknown values lose their type)."
  },
  {
   "property": "C102",
   "status": "partial",
   "theorems": [
    "Verif.Ipc.c102_label",
    "Verif.Ipc.c102_label_unique",
    "Verif.Ipc.c102_names_partial",
    "Verif.Ipc.c102_example",
    "Verif.Ipc.c102_message_as_command"
   ],
   "note": "Labels are proved; names except that a plain message whose text is the internal name of a queue is taken for the command."
  },
  {
   "property": "C103",
   "status": "partial",
   "theorems": [
    "Verif.Decl.c103_lookup",
    "Verif.Decl.c103_lookup_constant",
    "Verif.Decl.c103_command_partial",
    "Verif.Decl.c103_undeclared",
    "Verif.Decl.c103_example",
    "Verif.Decl.c103_no_arguments_unchecked",
    "Verif.Decl.c103_no_return_unchecked"
   ],
   "note": "Lookups: exactly as stated. Commands: if the call has an Arguments element; without one the call is accepted whatever is declared (commandXmlParser.cc:385-400), and a result variable of any type is accepted for a command declared without a return value. Declarations of library nodes are never compared with anything."
  },
  {
   "property": "C104",
   "status": "partial",
   "theorems": [
    "Verif.Decl.c104_declarations",
    "Verif.Decl.c104_order",
    "Verif.Decl.c104_example",
    "Verif.Decl.c104_trailing_unchecked",
    "Verif.Decl.c104_malformed"
   ],
   "note": "Proved for declarations in the form of the schema. Others may be accepted: what follows AnyParameters in a command declaration is used but not checked."
  },
  {
   "property": "C105",
   "status": "proved",
   "theorems": [
    "Verif.Decl.c105_scope",
    "Verif.Decl.c105_example"
   ],
   "note": "Refinement of the stack by an environment."
  },
  {
   "property": "C106",
   "status": "partial",
   "theorems": [
    "Verif.Decl.c106_resources_partial",
    "Verif.Decl.c106_accepts",
    "Verif.Decl.c106_two_bounds",
    "Verif.Decl.c106_real_priority",
    "Verif.Decl.c106_types"
   ],
   "note": "Proved but for the bound: two upper bounds (or releases) in one resource are accepted. Names that are computed may of course coincide. A real priority passes the check and is refused later."
  },
  {
   "property": "C107",
   "status": "partial",
   "theorems": [
    "Verif.Launcher.c107_start_partial",
    "Verif.Launcher.c107_ids",
    "Verif.Launcher.c107_example",
    "Verif.Launcher.c107_ids_example",
    "Verif.Launcher.c107_arrays_refused",
    "Verif.Launcher.c107_zero_byte",
    "Verif.Launcher.c107_ids_again"
   ],
   "note": "Exact characterisation for strings without zero bytes. Arrays are always refused, since the launcher writes an element type the parser does not know; three command handles cannot be passed; reals arrive as written and read again (15 digits). Identifiers differ for 2^32 starts. Proved about a wrapper plan that is written and read by the model of the parser."
  },
  {
   "property": "C108",
   "status": "partial",
   "theorems": [
    "Verif.Launcher.c108_exit_partial",
    "Verif.Launcher.c108_known",
    "Verif.Launcher.c108_effect",
    "Verif.Launcher.c108_example",
    "Verif.Launcher.c108_not_started",
    "Verif.Launcher.c108_ambiguous"
   ],
   "note": "For plans started by the launcher. For other root plans the command succeeds too, without any effect; another root plan of the same name makes it fail."
  },
  {
   "property": "C109",
   "status": "partial",
   "theorems": [
    "Verif.Launcher.c109_state",
    "Verif.Launcher.c109_outcome_partial",
    "Verif.Launcher.c109_example",
    "Verif.Launcher.c109_once_example",
    "Verif.Launcher.c109_stale"
   ],
   "note": "PlanState: always. PlanOutcome and PlanFailureType: for plans that do not repeat and whose identifier is unique (as those of the launcher); for a repeating plan they can be left over from an earlier iteration, or never be published."
  },
  {
   "property": "C11",
   "status": "proved",
   "theorems": [
    "Verif.Props.Exec.C11_all_or_nothing"
   ],
   "note": "Any state, any node."
  },
  {
   "property": "C110",
   "status": "proved",
   "theorems": [
    "Verif.Library.c110_map",
    "Verif.Library.c110_strings",
    "Verif.Library.c110_example"
   ],
   "note": "For every comparator that is a strict total order; those for strings are."
  },
  {
   "property": "C111",
   "status": "partial",
   "theorems": [
    "Verif.Library.c111_get_partial",
    "Verif.Library.c111_reachable",
    "Verif.Library.c111_names",
    "Verif.Library.c111_hidden",
    "Verif.Library.c111_by_path",
    "Verif.Library.c111_paths"
   ],
   "note": "Exact characterisation. Missing from what a user expects: a file of the right name with a wrong root hides the right one further on the path (c111_hidden); a library called with its directory is read again at every call (c111_by_path)."
  },
  {
   "property": "C112",
   "status": "partial",
   "theorems": [
    "Verif.Library.c112_documents_partial",
    "Verif.Library.c112_latest",
    "Verif.Library.c112_example",
    "Verif.Library.c112_again",
    "Verif.Library.c112_stale_success"
   ],
   "note": "As long as no document is handed over twice: then it is deleted but stays in the table (c112_again). handleLoadLibrary reports success for an invalid new version if an old one is there (c112_stale_success)."
  },
  {
   "property": "C113",
   "status": "partial",
   "theorems": [
    "Verif.Sockets.c113_delivery_partial",
    "Verif.Sockets.c113_all_read",
    "Verif.Sockets.c113_sockets",
    "Verif.Sockets.c113_closed",
    "Verif.Sockets.c113_example",
    "Verif.Sockets.c113_example_proper",
    "Verif.Sockets.c113_reopen",
    "Verif.Sockets.c113_reopen_hangs"
   ],
   "note": "For proper use: no port opened twice, no error on a socket. Missing: a port opened twice (which UdpAdapter does at every second ReceiveCommand) loses datagrams (c113_reopen) and hangs (c113_reopen_hangs); an error on a socket stops all (c114_error); empty datagrams are dropped and the sender of the first one is lost (c113_example)."
  },
  {
   "property": "C114",
   "status": "partial",
   "theorems": [
    "Verif.Sockets.c114_returns_partial",
    "Verif.Sockets.c114_no_restart",
    "Verif.Sockets.c114_stop_twice",
    "Verif.Sockets.c114_close_unknown",
    "Verif.Sockets.c114_error"
   ],
   "note": "For proper use. Missing, as the code does not: restart (c114_no_restart reports success without a thread), stop twice (c114_stop_twice), closing a port not open (c114_close_unknown), errors on a socket (c114_error)."
  },
  {
   "property": "C115",
   "status": "partial",
   "theorems": [
    "Verif.Props.Exit.C115_no_start",
    "Verif.Props.Exit.C115_bounded",
    "Verif.Props.Exit.C115_bounded_by_parent",
    "Verif.Props.Exit.C115_children_active",
    "Verif.Props.Exit.C115_at_rest_partial",
    "Verif.Props.Exit.C115_all_finished_partial",
    "Verif.Props.Exit.C115_repeat_unknown_refuted"
   ],
   "note": "No start and termination are proved in full. At rest, missing because the code does not: the root stays in ITERATION_ENDED if its Repeat condition is unknown (C115_repeat_unknown_refuted), and nodes that wait for a mutex or variable can be forgotten (C09)."
  },
  {
   "property": "C116",
   "status": "proved",
   "theorems": [
    "Verif.Props.Epx.C116_finished",
    "Verif.Props.Epx.C116_postcondition_failed",
    "Verif.Props.Epx.C116_known",
    "Verif.Props.Epx.C116_told",
    "Verif.Props.Epx.C116_not_told",
    "Verif.Props.Epx.C116_succeeded"
   ],
   "note": "In every reachable state of every plan."
  },
  {
   "property": "C117",
   "status": "partial",
   "theorems": [
    "Verif.Props.Epx.C117_after_predecessor",
    "Verif.Props.Epx.C117_in_order_partial",
    "Verif.Props.Epx.C117_one_at_a_time_partial",
    "Verif.Props.Epx.C117_progress",
    "Verif.Props.Epx.C117_exit_refuted"
   ],
   "note": "Proved when no transition is made while a child's ExitCondition is true. False otherwise (C117_exit_refuted): a child still WAITING is skipped by its ExitCondition, and the child after it starts although the child before it is EXECUTING."
  },
  {
   "property": "C118",
   "status": "proved",
   "theorems": [
    "Verif.Props.Epx.C118_no_start",
    "Verif.Props.Epx.C118_success",
    "Verif.Props.Epx.C118_fails"
   ],
   "note": "C118_success for sequences without an EndCondition of their own."
  },
  {
   "property": "C119",
   "status": "partial",
   "theorems": [
    "Verif.Props.Epx.C119_condition",
    "Verif.Props.Epx.C119_never_both",
    "Verif.Props.Epx.C119_exactly_one",
    "Verif.Props.Epx.C119_waits_for_unknown",
    "Verif.Props.Epx.C119_own_start_refuted"
   ],
   "note": "Exactly one: proved for parts without Start, Skip, Exit condition of their own that wait for no resource. With a StartCondition of its own a part may be skipped after the other was: neither runs (C119_own_start_refuted)."
  },
  {
   "property": "C12",
   "status": "partial",
   "theorems": [
    "Verif.Props.Exec.C12_released_partial",
    "Verif.Props.Exec.C12_variable_released",
    "Verif.Props.Exec.C12_only_own",
    "Verif.Props.Exec.C12_mutex_leaks"
   ],
   "note": "False of the code for mutexes when a node goes directly from a running state to FINISHED (proved counterexample C12_mutex_leaks; NodeImpl.cc:1377-1384 releases only when coming from WAITING). Proved for nodes never cut off that way, and without exception for the variables of Assignment nodes."
  },
  {
   "property": "C120",
   "status": "proved",
   "theorems": [
    "Verif.Props.Epx.C120_first_true",
    "Verif.Props.Epx.C120_at_most_one",
    "Verif.Props.Epx.C120_some_clause"
   ],
   "note": "C120_some_clause for parts without ExitCondition, while not told to stop."
  },
  {
   "property": "C121",
   "status": "partial",
   "theorems": [
    "Verif.Props.Epx.C121_action",
    "Verif.Props.Epx.C121_repeats",
    "Verif.Props.Epx.C121_ends",
    "Verif.Props.Epx.C121_invariant_refuted"
   ],
   "note": "False for the invariant (C121_invariant_refuted): the RepeatCondition looks only at the test, so after a failed InvariantCondition the loop starts another iteration and may end with SUCCESS."
  },
  {
   "property": "C122",
   "status": "proved",
   "theorems": [
    "Verif.Props.Epx.C122_until_success",
    "Verif.Props.Epx.C122_success",
    "Verif.Props.Epx.C122_progress"
   ],
   "note": "For a Try without End and Post condition of its own (with one the translation is malformed, try.xsl:70-145)."
  },
  {
   "property": "C123",
   "status": "partial",
   "theorems": [
    "Verif.Props.Epx.C123_for",
    "Verif.Props.Epx.C123_do",
    "Verif.Props.Epx.C123_unknown_refuted"
   ],
   "note": "An iteration of a For starts also when the condition is unknown (C123_unknown_refuted); proved is: not when it is false."
  },
  {
   "property": "C124",
   "status": "partial",
   "theorems": [
    "Verif.Props.Epx.C124_waits",
    "Verif.Props.Epx.C124_ends",
    "Verif.Props.Epx.C124_checked",
    "Verif.Props.Epx.C124_result",
    "Verif.Props.Epx.C124_failed_stuck",
    "Verif.Props.Epx.C124_timeout_stuck",
    "Verif.Props.Epx.C124_denied_aborted"
   ],
   "note": "With a result and not Checked, it waits for ever when the command fails (C124_failed_stuck) or the time is over (C124_timeout_stuck): only the Command node ends, nothing starts or ends the assignment. Checked with a result, a denied command is aborted although it was never sent (C124_denied_aborted)."
  },
  {
   "property": "C125",
   "status": "partial",
   "theorems": [
    "Verif.Props.Epx.C125_order",
    "Verif.Props.Epx.C125_success",
    "Verif.Props.Epx.C125_query",
    "Verif.Props.Epx.C125_progress",
    "Verif.Props.Epx.C125_early_refuted"
   ],
   "note": "The last clause is false (C125_early_refuted): if the executive looks at the plan after the value came and before success was reported, the OnCommand Fails. The rest is proved; C125_progress leaves open a parameter node that was called off (its ancestor ends)."
  },
  {
   "property": "C126",
   "status": "partial",
   "theorems": [
    "Verif.Script.c126_ack",
    "Verif.Script.c126_result",
    "Verif.Script.c126_abort",
    "Verif.Script.c126_update",
    "Verif.Script.c126_value",
    "Verif.Script.c126_at_once",
    "Verif.Script.c126_reason",
    "Verif.Script.c126_shadowed"
   ],
   "note": "The last clause is false: when two commands with the same name and parameters are active the first can no longer be answered (c126_shadowed). The rest is proved."
  },
  {
   "property": "C127",
   "status": "partial",
   "theorems": [
    "Verif.Script.c127_order",
    "Verif.Script.c127_over",
    "Verif.Script.c127_contents",
    "Verif.Script.c127_failed",
    "Verif.Script.c127_sendPlan_refuted",
    "Verif.Script.c127_unsettled_refuted"
   ],
   "note": "Two clauses are false: SendPlan never adds a plan (c127_sendPlan_refuted); the next element may be read while the executive still needs a step (c127_unsettled_refuted). The rest is proved. Termination of the final loop is not claimed (a plan may need steps for ever)."
  },
  {
   "property": "C128",
   "status": "partial",
   "theorems": [
    "Verif.Script.c128_int",
    "Verif.Script.c128_round_trip",
    "Verif.Script.c128_bool",
    "Verif.Script.c128_string",
    "Verif.Script.c128_unknown",
    "Verif.Script.c128_array",
    "Verif.Script.c128_array_refuted",
    "Verif.Script.c128_no_number_refuted",
    "Verif.Script.c128_param_bool_refuted",
    "Verif.Script.c128_empty_result_refuted"
   ],
   "note": "False and shown so: a text that is no number is 0, an empty one indeterminate, too large a number is clamped and what follows a number is ignored (c128_int, c128_no_number_refuted); a Boolean parameter `true` is false (c128_param_bool_refuted); parameters after an array result become elements (c128_array_refuted); the result cannot be the empty string (c128_empty_result_refuted). Reals are not modelled."
  },
  {
   "property": "C129",
   "status": "partial",
   "theorems": [
    "Verif.Finalize.c129_lifo",
    "Verif.Finalize.c129_once",
    "Verif.Finalize.c129_late_refuted",
    "Verif.Finalize.c129_displaced_refuted",
    "Verif.Finalize.c129_displaced_two_refuted",
    "Verif.Finalize.c129_not_called_refuted"
   ],
   "note": "Proved if no function registers another one while being run. The last clause is false: what such a function registers is never called (c129_late_refuted), or takes the place of another one which is then never called (c129_displaced_refuted)."
  },
  {
   "property": "C13",
   "status": "proved",
   "theorems": [
    "Verif.Props.Queue.C13_priority_fifo",
    "Verif.Props.Order.C13_waiting_order",
    "Verif.Props.Order.C13_served_in_order",
    "Verif.Props.Queue.C13_front_count"
   ],
   "note": "C13_priority_fifo is about runs of the pointer-level PriorityQueue code; the other two about the executive: in every reachable state the waiting queue is sorted, changes only by inserting behind all equally or more urgent nodes, and a node is tried only after the ones before it."
  },
  {
   "property": "C130",
   "status": "partial",
   "theorems": [
    "Verif.Debug.c130_enabled",
    "Verif.Debug.c130_line",
    "Verif.Debug.c130_colon_refuted"
   ],
   "note": "The last clause is false of a line with only a colon: it gives the empty pattern and enables all messages (c130_colon_refuted). The rest is proved."
  },
  {
   "property": "C131",
   "status": "partial",
   "theorems": [
    "Verif.Luv.c131_readable",
    "Verif.Luv.c131_markup_refuted",
    "Verif.Luv.c131_once",
    "Verif.Luv.c131_says",
    "Verif.Luv.c131_late_refuted",
    "Verif.Luv.c131_plan_info"
   ],
   "note": "Proved for texts without `<` and the end-of-message character (c131_readable), for the sequence of transitions with node and new state (c131_once), and, of outcome and conditions, for nodes that change no more in the step (c131_says). False otherwise: nothing is escaped, so one assignment can look like two (c131_markup_refuted); messages are written at the end of the step with the outcome and conditions of that moment (c131_late_refuted). XML of plans is an opaque text."
  },
  {
   "property": "C132",
   "status": "partial",
   "theorems": [
    "Verif.Luv.c132_no_viewer",
    "Verif.Luv.c132_reported",
    "Verif.Luv.c132_gone_refuted",
    "Verif.Luv.c132_blocking",
    "Verif.Luv.c132_blocking_refuted"
   ],
   "note": "The last clause is false: when the viewer has gone, the next notification throws SocketException, which is no std::exception and which nobody catches (c132_gone_refuted); and an answer with anything before the end-of-message character is never recognised (c132_blocking_refuted). The rest is proved."
  },
  {
   "property": "C133",
   "status": "partial",
   "theorems": [
    "Verif.Props.Epx.C133_not_early",
    "Verif.Props.Epx.C133_ends",
    "Verif.Props.Epx.C133_report",
    "Verif.Props.Epx.C133_doubled_refuted"
   ],
   "note": "Not early is proved. The second half is false: a report of the time within the margin of rounding (Lookup.cc:691-695) before the end makes the lookup change without ending the Wait, and it then changes again only after another tolerance, which by default is the units (C133_doubled_refuted). Proved: it ends before start + units + tolerance has passed (C133_ends), since the lookup lags behind by less than the tolerance (C133_report)."
  },
  {
   "property": "C134",
   "status": "partial",
   "theorems": [
    "Verif.Scope.c134_variable",
    "Verif.Scope.c134_element",
    "Verif.Scope.c134_array_partial",
    "Verif.Scope.c134_undeclared_refuted",
    "Verif.Scope.c134_date_refuted"
   ],
   "note": "Proved for variables and elements of arrays. For whole arrays the check that the document declares the name is missing: a library can use an array passed under a name it does not declare (c134_undeclared_refuted). Variables of type Date or Duration can be declared but no reference to them is accepted (c134_date_refuted)."
  },
  {
   "property": "C135",
   "status": "proved",
   "theorems": [
    "Verif.Bits.c135_one",
    "Verif.Bits.c135_zero",
    "Verif.Bits.c135_set_one",
    "Verif.Bits.c135_set_zero"
   ],
   "note": "Words and bit sets of every size, including sizes that are no multiple of 64."
  },
  {
   "property": "C136",
   "status": "partial",
   "theorems": [
    "Verif.Analyze.c136_right_partial",
    "Verif.Analyze.c136_leaf_refuted"
   ],
   "note": "Proved for plans whose root has children. False for a single node without children: the vector of numbers of children is incremented out of bounds (analyzePlan.cc:79-84,108; c136_leaf_refuted). The printing is not modelled."
  },
  {
   "property": "C137",
   "status": "partial",
   "theorems": [
    "Verif.Props.Epx.C137_order",
    "Verif.Props.Epx.C137_receive",
    "Verif.Props.Epx.C137_success",
    "Verif.Props.Epx.C137_parent",
    "Verif.Props.Epx.C137_progress",
    "Verif.Props.Epx.C137_conditions_refuted",
    "Verif.Props.Epx.C137_early_refuted"
   ],
   "note": "Order, waiting, failure, the parent and progress are proved. False: the translator drops the author's conditions and variables (on-message.xsl:69-82; C137_conditions_refuted: starts although its StartCondition is never true), and a message that is seen before the report of success makes it Fail (C137_early_refuted)."
  },
  {
   "property": "C138",
   "status": "partial",
   "theorems": [
    "Verif.Assign.c138_exact",
    "Verif.Assign.c138_element_exact",
    "Verif.Assign.c138_element_unknown",
    "Verif.Assign.c138_stored",
    "Verif.Assign.c138_element_stored",
    "Verif.Assign.c138_typed_partial",
    "Verif.Assign.c138_perform_partial",
    "Verif.Assign.c138_untyped_refuted",
    "Verif.Assign.c138_size_refuted"
   ],
   "note": "Exactly when storing fails is proved, what is stored, and that a cycle of assignments is performed if all right-hand sides have types known when the plan is read and deliver values of that type, not larger than declared. False otherwise: an undeclared lookup is accepted for a variable of any type, and a value of another type is a plan error, which ends the process (Value.cc:742-894, PlanError.cc:70-77; c138_untyped_refuted); so does an array larger than declared (c138_size_refuted)."
  },
  {
   "property": "C139",
   "status": "partial",
   "theorems": [
    "Verif.Main.c139_goes_on",
    "Verif.Main.c139_help",
    "Verif.Main.c139_rejected",
    "Verif.Main.c139_order_refuted"
   ],
   "note": "For every list of arguments exactly when the program goes on and with which settings, when it prints its usage and when it is rejected. False: the order matters, since a host given before -v is taken as a request for help: the plan is not run and the exit code is 0 (UniversalExec.cc:140-145; c139_order_refuted). The number after -n is a function of its text (a text that is no number silently gives 0)."
  },
  {
   "property": "C14",
   "status": "proved",
   "theorems": [
    "Verif.Props.Exec.C14_commits_start_value"
   ],
   "note": "All executions."
  },
  {
   "property": "C140",
   "status": "partial",
   "theorems": [
    "Verif.Main.c140_main",
    "Verif.Main.c140_code",
    "Verif.Main.c140_script",
    "Verif.Main.c140_prefix",
    "Verif.Main.c140_stopped",
    "Verif.Main.c140_config",
    "Verif.Main.c140_viewer_partial",
    "Verif.Main.c140_finalizers",
    "Verif.Main.c140_stop_refuted",
    "Verif.Main.c140_config_refuted",
    "Verif.Main.c140_viewer_refuted"
   ],
   "note": "Proved: the exit code, the steps and their order, that they are a first part of all steps, that the application is stopped if there is a plan. False: if the executive cannot be started the interfaces already started are not stopped (317-320; c140_stop_refuted); of a configuration file that is not well-formed the part read before the error is used although the message says it is not (226-238; c140_config_refuted, given that the XML library keeps that part); of two viewers in the file only one is replaced (259-264; c140_viewer_refuted). The exit code says nothing about the plan's outcome."
  },
  {
   "property": "C141",
   "status": "partial",
   "theorems": [
    "Verif.SimScript.c141_reads_partial",
    "Verif.SimScript.c141_wrong",
    "Verif.SimScript.c141_comments",
    "Verif.SimScript.c141_text",
    "Verif.SimScript.c141_negative_refuted",
    "Verif.SimScript.c141_error_refuted",
    "Verif.SimScript.c141_comment_refuted",
    "Verif.SimScript.c141_last_refuted",
    "Verif.SimScript.c141_words",
    "Verif.SimScript.c141_ignored"
   ],
   "note": "Proved for all files ending with a newline whose lines that begin with a letter or digit are a script (with declarations, or in the old way); that other lines never matter; and that a wrong line (declared twice, a name not declared, a type without Lookup or Command) after a part of a script rejects it, after exactly what the part says was scheduled. False: a value beginning with a minus sign (or point, or quote) is taken as a comment, so the next entry is taken for the value (LineInStream.cc:74-77; c141_negative_refuted); an entry whose numbers cannot be read silently ends the script, which is accepted (SimulatorScriptReader.cc:147-152; c141_error_refuted); a comment without newline at the end is taken as a line (c141_comment_refuted); the last response without a newline is dropped (c141_last_refuted); the simulator ignores whether the script was accepted (PlexilSimulator.cc:135). Reading of numbers and values is abstract."
  },
  {
   "property": "C142",
   "status": "partial",
   "theorems": [
    "Verif.Factory.c142_registered",
    "Verif.Factory.c142_visible",
    "Verif.Factory.c142_somewhere",
    "Verif.Factory.c142_no_library",
    "Verif.Factory.c142_library",
    "Verif.Factory.c142_result",
    "Verif.Factory.c142_found",
    "Verif.Factory.c142_again",
    "Verif.Factory.c142_kept",
    "Verif.Factory.c142_other_refuted",
    "Verif.Factory.c142_collision_refuted"
   ],
   "note": "Proved for every world of libraries. False in two cases: if the first file that can be opened has no function for the module the others are not tried (DynamicLoader.cc:98-121; c142_other_refuted); and any function of the process with the name init<type>, e.g. initstate of the C library for type \"state\", is called as if it were the module's (DynamicLoader.cc:162, 210; c142_collision_refuted). What a library runs when it is opened, and making the component itself, are left out."
  },
  {
   "property": "C143",
   "status": "partial",
   "theorems": [
    "Verif.Factory.c143_one",
    "Verif.Factory.c143_alive",
    "Verif.Factory.c143_destroyed",
    "Verif.Factory.c143_constructors_partial",
    "Verif.Factory.c143_twice_refuted"
   ],
   "note": "Proved for all sequences. False: a listener or filter factory made for a type that has one is deleted inside the constructor of its base class, and the constructor of the class goes on with the destroyed object (ExecListenerFactory.cc:142-147, ExecListenerFactory.hh:108-112); exactly when this happens is c143_constructors_partial; a configuration with an InterfaceLibrary element naming LuvListener does it (c143_twice_refuted)."
  },
  {
   "property": "C144",
   "status": "partial",
   "theorems": [
    "Verif.Factory.c144_table",
    "Verif.Factory.c144_named",
    "Verif.Factory.c144_best_partial",
    "Verif.Factory.c144_least_refuted"
   ],
   "note": "Proved for all tables over any linearly ordered names. False only if all priorities are the least int: then there is said to be no timebase (TimebaseFactory.cc:83-86; c144_least_refuted). Destruction of a replaced timebase factory is not modelled."
  },
  {
   "property": "C145",
   "status": "partial",
   "theorems": [
    "Verif.Runner.c145_goes_on",
    "Verif.Runner.c145_rejected",
    "Verif.Runner.c145_error_refuted"
   ],
   "note": "Proved for all command lines. False for files named `error`: the word marks a plan or script that was not given, so such a file is refused (exec-test-runner.cc:76-77, 249-257; c145_error_refuted). How the number after -n is read is left out."
  },
  {
   "property": "C146",
   "status": "partial",
   "theorems": [
    "Verif.Runner.c146_file",
    "Verif.Runner.c146_code_partial",
    "Verif.Runner.c146_order",
    "Verif.Runner.c146_script",
    "Verif.Runner.c146_library",
    "Verif.Runner.c146_deleted",
    "Verif.Runner.c146_main",
    "Verif.Runner.c146_malformed_refuted",
    "Verif.Runner.c146_throws_refuted"
   ],
   "note": "Proved for all files and settings when the files of plan and script are well-formed XML or absent and the script throws nothing. False otherwise: after the error message for a malformed file the pointer to the document, which was never set, is used (exec-test-runner.cc:358-369, 411-421; c146_malformed_refuted), and an exception of the script is caught by nobody (c146_throws_refuted)."
  },
  {
   "property": "C147",
   "status": "partial",
   "theorems": [
    "Verif.Ipc.Adapter.c147_queue",
    "Verif.Ipc.Adapter.c147_own",
    "Verif.Ipc.Adapter.c147_kept_partial",
    "Verif.Ipc.Adapter.c147_sent_first_partial",
    "Verif.Ipc.Adapter.c147_destroyed",
    "Verif.Ipc.Adapter.c147_early_refuted",
    "Verif.Ipc.Adapter.c147_sent_last_refuted",
    "Verif.Ipc.Adapter.c147_again_refuted",
    "Verif.Ipc.Adapter.c147_destroyed_refuted"
   ],
   "note": "The queue of the executive is characterised for every schedule with fewer than 2^32 messages. False in four ways: an answer heard before the number is recorded is lost, since it is recorded after sending (IpcAdapter.cc:644-660; c147_early_refuted); one heard before the announcement is followed by COMMAND_SENT_TO_SYSTEM, which is then the last handle (662; c147_sent_last_refuted); commands are never forgotten, so a late answer counts for the next execution (c147_again_refuted) or uses a command deleted with its plan (c147_destroyed_refuted). The counter of numbers is atomic in the model."
  },
  {
   "property": "C148",
   "status": "partial",
   "theorems": [
    "Verif.Ipc.Adapter.c148_asked",
    "Verif.Ipc.Adapter.c148_lookup_partial",
    "Verif.Ipc.Adapter.c148_told",
    "Verif.Ipc.Adapter.c148_default_refuted"
   ],
   "note": "Proved but for the plan's own lookups of a declared state with parameters that were never set: others get the default, but the plan's own lookup is sent to the others (IpcAdapter.cc:708-718 has no such case; c148_default_refuted), who need not answer (C100). Commands and questions are one after the other: UpdateLookup holds another mutex than the readers (602 against 709, 1021), a data race in the code. States are compared without NaN."
  },
  {
   "property": "C149",
   "status": "partial",
   "theorems": [
    "Verif.UpdateXml.c149_accepted",
    "Verif.UpdateXml.c149_values",
    "Verif.UpdateXml.c149_sent_partial",
    "Verif.UpdateXml.c149_empty_refuted"
   ],
   "note": "Proved for updates with a pair. An update without pairs is accepted, but IPC neither sends nor acknowledges it, so its node waits for ever (IpcAdapter.cc:776-779; c149_empty_refuted). Anything after the expression in a Pair is ignored. How values are put into packets is not modelled for updates."
  },
  {
   "property": "C15",
   "status": "proved",
   "theorems": [
    "Verif.Props.Exec.C15_retract_restores"
   ],
   "note": "All executions, values abstract (known/unknown is part of the value; see C34 for how the code treats a saved unknown value)."
  },
  {
   "property": "C150",
   "status": "partial",
   "theorems": [
    "Verif.Config.c150_routes_partial",
    "Verif.Config.c150_goes",
    "Verif.Config.c150_command",
    "Verif.Config.c150_accepted",
    "Verif.Config.c150_default_refuted",
    "Verif.Config.c150_blank_refuted"
   ],
   "note": "Proved for lists that are names separated by commas, for the IPC and printing adapters, with any other adapters registering what they like. False in two ways: the lists of an adapter that is also the default are ignored, so the command goes to another adapter that lists it, even one before (Configuration.cc:75-79; c150_default_refuted); a blank in front of a comma becomes part of the name, and the command is acknowledged as successful by nobody (InterfaceSchema.cc:58-61; c150_blank_refuted)."
  },
  {
   "property": "C151",
   "status": "proved",
   "theorems": [
    "Verif.Print.c151_commands",
    "Verif.Print.c151_output",
    "Verif.Print.c151_line_readable"
   ],
   "note": "How a single value is written is a parameter (C72)."
  },
  {
   "property": "C152",
   "status": "proved",
   "theorems": [
    "Verif.Follow.c152_told",
    "Verif.Follow.c152_states",
    "Verif.Follow.c152_filtered",
    "Verif.Follow.c152_variables",
    "Verif.Follow.c152_names",
    "Verif.Follow.c152_example"
   ],
   "note": "C01, C16, C35 and C89 put together: the calls of the hub are those of an execution of the model of the executive."
  },
  {
   "property": "C153",
   "status": "partial",
   "theorems": [
    "Verif.Ipc.Plans.c153_plans_partial",
    "Verif.Ipc.Plans.c153_libraries",
    "Verif.Ipc.Plans.c153_errors",
    "Verif.Ipc.Plans.c153_same",
    "Verif.Ipc.Plans.c153_file_refuted",
    "Verif.Ipc.Plans.c153_file_example",
    "Verif.Ipc.Plans.c153_blank_refuted",
    "Verif.Ipc.Plans.c153_example"
   ],
   "note": "Proved for plans sent as texts and libraries sent either way. False of plans sent as names of files: the handler compares the type with the wrong constant (IpcAdapter.cc:813), so the plan becomes a library, may replace one, and is never run (c153_file_refuted). A text and a file with the same contents differ if an element contains only white space: as a text the string of a blank becomes the empty string (c153_blank_refuted; IpcAdapter.cc:831 against parsePlan.cc:52)."
  },
  {
   "property": "C154",
   "status": "proved",
   "theorems": [
    "Verif.Sema.c154_count",
    "Verif.Sema.c154_signals",
    "Verif.Sema.c154_served",
    "Verif.Sema.c154_returns",
    "Verif.Sema.c154_example"
   ],
   "note": "The semaphore of the operating system is modelled by its POSIX description; the variant for Mach and the order of service are not modelled."
  },
  {
   "property": "C155",
   "status": "partial",
   "theorems": [
    "Verif.Logging.c155_printed",
    "Verif.Logging.c155_logged",
    "Verif.Logging.c155_session",
    "Verif.Logging.c155_decides_partial",
    "Verif.Logging.c155_decides_refuted",
    "Verif.Logging.c155_no_terminal",
    "Verif.Logging.c155_exit",
    "Verif.Logging.c155_example",
    "Verif.Logging.c155_session_example"
   ],
   "note": "Printing, logging and names are proved in full. The user's decision is proved for lines of at most 6 characters; false of longer ones: the rest of a long line is taken for another answer (c155_decides_refuted; buffer of 8 in Logging.cc:213). Without a terminal a message that asks ends the process (c155_no_terminal), with exit code 0."
  },
  {
   "property": "C156",
   "status": "partial",
   "theorems": [
    "Verif.Init.c156_start",
    "Verif.Init.c156_unique",
    "Verif.Init.c156_order",
    "Verif.Init.c156_balanced",
    "Verif.Init.c156_end",
    "Verif.Init.c156_again",
    "Verif.Init.c156_cycle_refuted",
    "Verif.Init.c156_example",
    "Verif.Init.c156_example_hyps"
   ],
   "note": "Proved when no variable is initialized from itself, directly or through others. False otherwise, though the parser accepts it: the variable is never released and keeps the value of the last iteration (c156_cycle_refuted). One type of values; conversion of integers to reals and arrays are not in this model."
  },
  {
   "property": "C157",
   "status": "partial",
   "theorems": [
    "Verif.NodeType.c157_parse",
    "Verif.NodeType.c157_round",
    "Verif.NodeType.c157_node",
    "Verif.NodeType.c157_finalized_refuted",
    "Verif.NodeType.c157_example"
   ],
   "note": "Proved until the finalizers run. Afterwards a node would be made with a deleted factory: the array is not cleared (c157_finalized_refuted; NodeFactory.cc:91-97). A node is modelled by its class."
  },
  {
   "property": "C16",
   "status": "proved",
   "theorems": [
    "Verif.Props.Exec.C16_macro_steps",
    "Verif.Props.Exec.C16_command_once",
    "Verif.Props.Exec.C16_update_once",
    "Verif.Props.Exec.C16_abort_once"
   ],
   "note": "All executions."
  },
  {
   "property": "C17",
   "status": "partial",
   "theorems": [
    "Verif.Props.Arbiter.C17_batch_within_capacity",
    "Verif.Props.Arbiter.C17_history_within_capacity_partial",
    "Verif.Props.Arbiter.C17_history_with_producer_overallocates"
   ],
   "note": "One batch: full. Histories: when no amount is negative; false with producers (counterexample). Exact arithmetic instead of double rounding."
  },
  {
   "property": "C18",
   "status": "proved",
   "theorems": [
    "Verif.Props.Arbiter.C18_each_decided_once"
   ],
   "note": ""
  },
  {
   "property": "C19",
   "status": "proved",
   "theorems": [
    "Verif.Props.Arbiter.C19_greedy"
   ],
   "note": "std::stable_sort trusted; exact arithmetic."
  },
  {
   "property": "C20",
   "status": "proved",
   "theorems": [
    "Verif.Props.Arbiter.C20_conservation",
    "Verif.Props.Arbiter.C20_all_released_all_free",
    "Verif.Props.Arbiter.C20_release_unknown_noop",
    "Verif.Props.Arbiter.C20_release_twice"
   ],
   "note": "Histories in which a command is not resubmitted while outstanding."
  },
  {
   "property": "C21",
   "status": "proved",
   "theorems": [
    "Verif.Props.Queue.C21_refinement",
    "Verif.Props.Queue.C21_double_push_cycles"
   ],
   "note": "Any number of queues sharing items. The client obligation (an item is added only while in no queue) is shown necessary."
  },
  {
   "property": "C22",
   "status": "partial",
   "theorems": [
    "Verif.Props.Queue.C22_insert_after_partial",
    "Verif.Props.Queue.C22_insert_after_null_partial",
    "Verif.Props.Queue.C22_insert_after_tail_breaks",
    "Verif.Props.Queue.C22_insert_after_last_refuted"
   ],
   "note": "Missing: insertion behind the last item, proved to break the queue (finding)."
  },
  {
   "property": "C23",
   "status": "proved",
   "theorems": [
    "Verif.Props.Value.C23_scalar_round_trip",
    "Verif.Props.Value.C23_message_round_trip"
   ],
   "note": "All scalar kinds that have a serial form, either signedness of char, any trailing bytes. An unknown value comes back as the untyped unknown (the type is not transmitted)."
  },
  {
   "property": "C24",
   "status": "partial",
   "theorems": [
    "Verif.Props.Value.C24_array_round_trip_unsigned_char",
    "Verif.Props.Value.C24_array_round_trip_signed_char_partial",
    "Verif.Props.Value.C24_array_round_trip_fails_signed_char"
   ],
   "note": "Full on unsigned-char platforms. On signed-char platforms proved exactly for sizes whose three bytes are all below 128, and proved false for every other size (finding)."
  },
  {
   "property": "C25",
   "status": "proved",
   "theorems": [
    "Verif.Props.Value.C25_serialSize_exact",
    "Verif.Props.Value.C25_refused_iff"
   ],
   "note": "Exact size and exact refusal condition."
  },
  {
   "property": "C26",
   "status": "partial",
   "theorems": [
    "Verif.Props.Value.C26_strict_weak_order",
    "Verif.Props.Value.C26_equals_equivalence",
    "Verif.Props.Value.C26_equal_not_less_partial",
    "Verif.Props.Value.C26_incomparable_equal_partial",
    "Verif.Props.Value.C26_unknown_int_real_inconsistent",
    "Verif.Props.Value.C26_stale_contents_inconsistent",
    "Verif.Props.Value.C26_nan_inconsistent"
   ],
   "note": "Strict weak order and equivalence for all NaN-free values; consistency between the two except for the three cases proved to be counterexamples."
  },
  {
   "property": "C27",
   "status": "partial",
   "theorems": [
    "Verif.Expr.c27_and",
    "Verif.Expr.c27_not",
    "Verif.Expr.c27_or_partial",
    "Verif.Expr.c27_or_nary_exact",
    "Verif.Expr.c27_or_nary_value",
    "Verif.Expr.c27_xor_partial",
    "Verif.Expr.c27_xor_nary_never",
    "Verif.Expr.c27_and_perm",
    "Verif.Expr.c27_and_monotone",
    "Verif.Expr.c27_de_morgan",
    "Verif.Expr.c27_or_counterexample",
    "Verif.Expr.c27_or_not_monotone",
    "Verif.Expr.c27_xor_counterexample"
   ],
   "note": "AND (any arity) and NOT are Kleene. OR and XOR only for one or two operands: OR of three or more operands is false when it should be unknown (exact characterisation proved), XOR of three or more never gives a truth value. Both are bugs of the code, shown by counterexamples."
  },
  {
   "property": "C28",
   "status": "proved",
   "theorems": [
    "Verif.Props.Value.C28_set_get",
    "Verif.Props.Value.C28_unknown_get",
    "Verif.Props.Value.C28_resize_get",
    "Verif.Props.Value.C28_fresh_reset_list",
    "Verif.Props.Value.C28_invariant",
    "Verif.Props.Value.C28_setValue_get"
   ],
   "note": "Element-level laws and preservation of the class invariant."
  },
  {
   "property": "C29",
   "status": "partial",
   "theorems": [
    "Verif.Props.Hierarchy.C29_charged_resources",
    "Verif.Props.Hierarchy.C29_explicit_amount_partial",
    "Verif.Props.Hierarchy.C29_explicit_amount_ignored"
   ],
   "note": "Set of charged resources: full. Precedence of explicit amounts is false of the code (std::set::insert does not overwrite): counterexample, and the case that holds."
  },
  {
   "property": "C30",
   "status": "proved",
   "theorems": [
    "Verif.Props.Hierarchy.C30_acyclic_terminates",
    "Verif.Props.Hierarchy.C30_cyclic_diverges"
   ],
   "note": ""
  },
  {
   "property": "C31",
   "status": "partial",
   "theorems": [
    "Verif.Props.Node.C31_activations_balanced_partial",
    "Verif.Props.Node.C31_command_balanced_but_exit",
    "Verif.Props.Node.C31_reads_active_and_no_underflow",
    "Verif.Props.Node.C31_command_exit_leaks"
   ],
   "note": "Proved for all node types but the Exit condition of Command nodes, for which the property is false in the code (CommandNode.cc:205 activates it a second time): proved as C31_command_exit_leaks."
  },
  {
   "property": "C32",
   "status": "partial",
   "theorems": [
    "Verif.Props.Sync.C32_assertion_fails",
    "Verif.Props.Sync.C32_queue_protocol_partial"
   ],
   "note": "False of the code for one assertion (counterexample); all others proved unreachable."
  },
  {
   "property": "C33",
   "status": "partial",
   "theorems": [
    "Verif.Props.Sync.C33_root_unqueued_partial",
    "Verif.Props.Sync.C33_root_stays_finished",
    "Verif.Props.Sync.C33_dangling"
   ],
   "note": "False of the code for descendants of the root (counterexample); proved for the root itself."
  },
  {
   "property": "C34",
   "status": "partial",
   "theorems": [
    "Verif.Var.c34_saved_reported_partial",
    "Verif.Var.c34_unknown_reported_known"
   ],
   "note": "Proved for values known when saved. c34_unknown_reported_known: for an unknown one getSavedValue reports as known whatever was in memory (UserVariable.cc:393-402)."
  },
  {
   "property": "C35",
   "status": "proved",
   "theorems": [
    "Verif.Props.Exec.C35_variables_change_only_as_reported"
   ],
   "note": "All executions; values abstract."
  },
  {
   "property": "C36",
   "status": "proved",
   "theorems": [
    "Verif.Props.Conditions.C36_waits_for_assignment",
    "Verif.Props.Conditions.C36_waits_for_retraction"
   ],
   "note": "Over all reachable histories of the executive model."
  },
  {
   "property": "C37",
   "status": "proved",
   "theorems": [
    "Verif.Expr.c37_add",
    "Verif.Expr.c37_add_in_range",
    "Verif.Expr.c37_mul",
    "Verif.Expr.c37_sub",
    "Verif.Expr.c37_min",
    "Verif.Expr.c37_max",
    "Verif.Expr.c37_div",
    "Verif.Expr.c37_mod",
    "Verif.Expr.c37_div_mod_unknown",
    "Verif.Expr.c37_abs",
    "Verif.Expr.c37_integer_range",
    "Verif.Expr.c37_real_add",
    "Verif.Expr.c37_real_mul",
    "Verif.Expr.c37_real_sub",
    "Verif.Expr.c37_real_div_mod",
    "Verif.Expr.c37_real_min_max",
    "Verif.Expr.c37_real_sqrt_abs"
   ],
   "note": "Double rounding is a parameter of the model; only the structure of Real computations is proved."
  },
  {
   "property": "C38",
   "status": "proved",
   "theorems": [
    "Verif.Expr.c38_to_integer",
    "Verif.Expr.c38_to_real",
    "Verif.Expr.c38_unique",
    "Verif.Expr.c38_real_to_int",
    "Verif.Expr.c38_special",
    "Verif.Expr.c38_roundtrip"
   ],
   "note": ""
  },
  {
   "property": "C39",
   "status": "proved",
   "theorems": [
    "Verif.Expr.c39_numeric",
    "Verif.Expr.c39_strings",
    "Verif.Expr.c39_equal_numbers",
    "Verif.Expr.c39_equal_booleans_strings",
    "Verif.Expr.c39_not_equal",
    "Verif.Expr.c39_trichotomy",
    "Verif.Expr.c39_comparison_type"
   ],
   "note": ""
  },
  {
   "property": "C40",
   "status": "proved",
   "theorems": [
    "Verif.Expr.c40_concat",
    "Verif.Expr.c40_strlen",
    "Verif.Expr.c40_strlen_concat",
    "Verif.Expr.c40_arrays"
   ],
   "note": ""
  },
  {
   "property": "C41",
   "status": "partial",
   "theorems": [
    "Verif.Expr.c41_accepted_partial",
    "Verif.Expr.c41_div_counterexample",
    "Verif.Expr.c41_strlen_counterexample",
    "Verif.Expr.c41_arraysize_counterexample",
    "Verif.Expr.c41_untyped_counterexample",
    "Verif.Expr.c41_arithmetic_type"
   ],
   "note": "The code violates it in three ways, each shown by a counterexample; proved for all expressions free of these three."
  },
  {
   "property": "C42",
   "status": "partial",
   "theorems": [
    "Verif.Lookup.c42_plain",
    "Verif.Lookup.c42_nothing",
    "Verif.Lookup.c42_general",
    "Verif.Lookup.c42_real",
    "Verif.Lookup.c42_integer_partial",
    "Verif.Lookup.c42_integer_false"
   ],
   "note": "Proved for lookups without tolerance and for Real states. False of Integer states: after known, unknown, known-near-the-old-value a lookup keeps reporting unknown (c42_integer_false); the rest of the claim is proved for Integers too. Reals are exact numbers in the model."
  },
  {
   "property": "C43",
   "status": "partial",
   "theorems": [
    "Verif.Lookup.c43_published",
    "Verif.Lookup.c43_quiet",
    "Verif.Lookup.c43_tolerance_unknown_false"
   ],
   "note": "Proved for all events but one: when the tolerance of the lookup itself becomes unknown the reported value may change and nobody is told (c43_tolerance_unknown_false)."
  },
  {
   "property": "C44",
   "status": "partial",
   "theorems": [
    "Verif.Lookup.c44_thresholds_partial",
    "Verif.Lookup.c44_plain_false",
    "Verif.Lookup.c44_shrunk_false",
    "Verif.Lookup.c44_unknown_false",
    "Verif.Lookup.c44_stale_false"
   ],
   "note": "Proved for every lookup with a tolerance that reports a known value, in histories where no tolerance shrinks. The code violates the rest in four ways, each shown by a counterexample: lookups without tolerance are ignored, a shrunk tolerance does not update the thresholds, an unknown value leaves them in place, and removing the last lookup does not tell the interface."
  },
  {
   "property": "C45",
   "status": "proved",
   "theorems": [
    "Verif.Lookup.c45_registered",
    "Verif.Lookup.c45_give_told"
   ],
   "note": ""
  },
  {
   "property": "C46",
   "status": "proved",
   "theorems": [
    "Verif.Lookup.c46_value",
    "Verif.Lookup.c46_fresh",
    "Verif.Lookup.stamp_le",
    "Verif.Lookup.c46_asked_once",
    "Verif.Lookup.c46_asked_twice"
   ],
   "note": "c46_asked_twice shows the limit: an answer equal to the cached value does not refresh the time stamp, so the interface is asked again in the same cycle."
  },
  {
   "property": "C47",
   "status": "proved",
   "theorems": [
    "Verif.Notify.c47_told"
   ],
   "note": "Model Verif/Notify/Model.lean; exact characterisation by the inductive relation Affects (Verif/Notify/Spec.lean). Whether a lookup publishes is a parameter (its own behaviour: C42-C46)."
  },
  {
   "property": "C48",
   "status": "partial",
   "theorems": [
    "Verif.Notify.c48_torn_down_partial",
    "Verif.Notify.c48_listeners_used_partial",
    "Verif.Notify.c48_five_parameters"
   ],
   "note": "Proved for graphs whose lookups have at most four parameters. c48_five_parameters: with more, GeneralExprVec::removeListener adds instead of removing (ExprVec.cc:260-266), and the lookup stays registered with every parameter."
  },
  {
   "property": "C49",
   "status": "proved",
   "theorems": [
    "Verif.Notify.c49_activation",
    "Verif.Notify.c49_released"
   ],
   "note": "The overflow check of the counter is not modelled."
  },
  {
   "property": "C50",
   "status": "partial",
   "theorems": [
    "Verif.Notify.c50_operands_partial",
    "Verif.Notify.c50_alias"
   ],
   "note": "Proved where no aliases occur. c50_alias: an Alias passes changes on but does not activate its target (no handleActivate), so a lookup passed to a library node by alias is not active and its changes are not heard."
  },
  {
   "property": "C51",
   "status": "proved",
   "theorems": [
    "Verif.Var.c51_scalar",
    "Verif.Var.c51_change_published",
    "Verif.Var.c51_published_change"
   ],
   "note": "Deactivation tells no one, by design; restoring an unknown value over an unknown one may tell listeners although nothing changed (stated in c51_published_change)."
  },
  {
   "property": "C52",
   "status": "partial",
   "theorems": [
    "Verif.Var.c52_size_partial",
    "Verif.Var.c52_size_shrinks",
    "Verif.Var.c52_activated",
    "Verif.Var.c52_set",
    "Verif.Var.c52_set_element",
    "Verif.Var.c52_change_published_partial",
    "Verif.Var.c52_element_unknown_silent",
    "Verif.Var.c52_restore_partial",
    "Verif.Var.c52_round_trip",
    "Verif.Var.c52_restore_wrong"
   ],
   "note": "The parts that fail in the code are stated: c52_size_shrinks (reactivation with a smaller size), c52_element_unknown_silent (setElementUnknown tells no one), c52_restore_wrong (a write followed by setUnknown is not undone)."
  },
  {
   "property": "C53",
   "status": "partial",
   "theorems": [
    "Verif.Var.c53_write",
    "Verif.Var.c53_round_trip_partial",
    "Verif.Var.c53_index_moved",
    "Verif.Var.c53_nothing_kept"
   ],
   "note": "Retraction proved if the index has not changed. c53_index_moved: the index is evaluated again at the retraction, so if it has changed another element is overwritten and the assigned one stays."
  },
  {
   "property": "C54",
   "status": "partial",
   "theorems": [
    "Verif.Var.c54_designated_element_partial",
    "Verif.Var.c54_index_assigned_first"
   ],
   "note": "Proved if no other assignment of the step writes the index variable or the array. c54_index_assigned_first: otherwise the index is read when the assignment is executed."
  },
  {
   "property": "C55",
   "status": "partial",
   "theorems": [
    "Verif.Input.c55_refines",
    "Verif.Input.c55_fifo_partial",
    "Verif.Input.c55_private",
    "Verif.Input.c55_accept_crashes",
    "Verif.Input.c55_flush_deadlock"
   ],
   "note": "Refinement of a FIFO queue for every history, at the level of the linked lists. It fails for accepted messages (QueueEntry.cc:127-131 drops the handle, so the assertion at InterfaceManager.cc:557 fails: c55_accept_crashes), and SerializedInputQueue::flush deadlocks unless empty (c55_flush_deadlock)."
  },
  {
   "property": "C56",
   "status": "proved",
   "theorems": [
    "Verif.App.c56_no_lost_wakeup",
    "Verif.App.c56_in_order",
    "Verif.App.c56_drains",
    "Verif.App.c56_suspended"
   ],
   "note": "Background mode (the default). Each step is one access to shared memory."
  },
  {
   "property": "C57",
   "status": "partial",
   "theorems": [
    "Verif.App.c57_processed",
    "Verif.App.c57_first_call_partial",
    "Verif.App.c57_later_call",
    "Verif.App.c57_wakes_partial",
    "Verif.App.c57_overlapping_calls"
   ],
   "note": "c57_processed holds for every schedule. That the executive has been stepped is proved for the first call only: c57_later_call shows later calls may return before the step, since the semaphore stays up. Return is proved if marks are numbered and queued one call after the other; c57_overlapping_calls shows a call that hangs otherwise."
  },
  {
   "property": "C58",
   "status": "partial",
   "theorems": [
    "Verif.App.c58_not_early_partial",
    "Verif.App.c58_announced",
    "Verif.App.c58_race",
    "Verif.App.c58_second_plan"
   ],
   "note": "Not too early: proved if plans are added while the worker is blocked and no earlier report is outstanding; c58_race and c58_second_plan show it returns too early otherwise. That completion is announced is proved for every schedule."
  },
  {
   "property": "C59",
   "status": "partial",
   "theorems": [
    "Verif.App.c59_background_partial",
    "Verif.App.c59_enqueue_partial",
    "Verif.App.c59_opportunistic_deadlock"
   ],
   "note": "Background mode: never blocks (the queue's own short mutex is not modelled). Opportunistic mode: the calling thread locks the non-recursive exec mutex twice (ExecApplication.cc:662, 490) and blocks for ever, with everyone else."
  },
  {
   "property": "C60",
   "status": "proved",
   "theorems": [
    "Verif.Time.c60_add_sub",
    "Verif.Time.c60_order"
   ],
   "note": "c60_order_needs_normal shows that normal form is needed. time_t overflow is not modelled."
  },
  {
   "property": "C61",
   "status": "partial",
   "theorems": [
    "Verif.Time.c61_within_a_fraction",
    "Verif.Time.c61_monotone",
    "Verif.Time.c61_out_of_range",
    "Verif.Time.c61_round_trip_loses"
   ],
   "note": "Fails out of range (the result is not set) and for going back and forth (the fraction is cut off: 1.000001 becomes 1 s 0 us)."
  },
  {
   "property": "C62",
   "status": "partial",
   "theorems": [
    "Verif.Time.c62_wakeup_partial",
    "Verif.Time.c62_itimer_lost"
   ],
   "note": "Fails for the interval timer when the request is for the present microsecond: setitimer gets zero, which switches it off. DispatchTimebase is not modelled."
  },
  {
   "property": "C63",
   "status": "partial",
   "theorems": [
    "Verif.Time.c63_itimer_period",
    "Verif.Time.c63_posix_period_partial",
    "Verif.Time.c63_posix_period_wraps",
    "Verif.Time.c63_restart"
   ],
   "note": "Fails for the Posix timer above 2^32 ns (32-bit product) and for restarting (m_started is never cleared)."
  },
  {
   "property": "C64",
   "status": "partial",
   "theorems": [
    "Verif.Scope.c64_lexical_partial",
    "Verif.Scope.c64_library_closed_partial",
    "Verif.Scope.c64_own_variable",
    "Verif.Scope.c64_lexical_example",
    "Verif.Scope.c64_bare_root",
    "Verif.Scope.c64_bare_root_open"
   ],
   "note": "Proved for every path, under the hypothesis that the root of a called library, if a list, declares a variable. Without it the property is false of the code (c64_bare_root): ListNode.cc:224-231 looks for the nearest ancestor with its own variable map and so passes over the call's alias map; names in the library then designate the caller's variables."
  },
  {
   "property": "C65",
   "status": "partial",
   "theorems": [
    "Verif.Scope.c65_in_not_assignable_partial",
    "Verif.Scope.c65_in_below_partial",
    "Verif.Scope.c65_inout_writes_outer",
    "Verif.Scope.c65_inout_example",
    "Verif.Scope.c65_element_written"
   ],
   "note": "Proved for assignments to whole variables. False for elements of arrays (c65_element_written): the error for a read-only array is caught and dropped (ArrayReferenceFactory.cc:184-189) and the element assignment writes the caller's array."
  },
  {
   "property": "C66",
   "status": "partial",
   "theorems": [
    "Verif.Scope.c66_mutex_partial",
    "Verif.Scope.c66_example",
    "Verif.Scope.c66_captured"
   ],
   "note": "Proved when the mutex is declared in the document or no node above the library call declares a mutex of that name. False otherwise (c66_captured): the search continues in the caller's nodes, so a library's global mutex is captured by a local mutex of the caller (NodeImpl.cc:1647-1679)."
  },
  {
   "property": "C67",
   "status": "proved",
   "theorems": [
    "Verif.Scope.c67_node_id",
    "Verif.Scope.c67_node_ref",
    "Verif.Scope.c67_child_unique",
    "Verif.Scope.c67_example"
   ],
   "note": "The id of a called node is taken to be the text of the call (planLibrary.cc:111-138; a call by path, dir/Foo.plx, differs: its child reference is accepted as dir/Foo.plx and then not found)."
  },
  {
   "property": "C68",
   "status": "proved",
   "theorems": [
    "Verif.Scope.c68_ends",
    "Verif.Scope.c68_loaded",
    "Verif.Scope.c68_ends_iff",
    "Verif.Scope.c68_cycle",
    "Verif.Scope.c68_example"
   ],
   "note": "Finding: there is no check for cycles, so a plan whose libraries call each other in a circle never finishes loading (c68_cycle)."
  },
  {
   "property": "C69",
   "status": "partial",
   "theorems": [
    "Verif.Udp.c69_layout",
    "Verif.Udp.c69_sent_partial",
    "Verif.Udp.c69_exact",
    "Verif.Udp.c69_any_datagram",
    "Verif.Udp.c69_example",
    "Verif.Udp.c69_first_string",
    "Verif.Udp.c69_float2",
    "Verif.Udp.c69_short_datagram"
   ],
   "note": "The layout and the round trip are proved for every declaration and all values. The full property is false: a message whose first parameter is not a string, or that has none, can never be sent (c69_first_string, UdpAdapter.cc:244-256); 2-byte reals are accepted in declarations but never sent or read (c69_float2); a datagram that is too short delivers bytes of an earlier one (c69_short_datagram). The status of sendto is ignored by the code and the network is not modelled."
  },
  {
   "property": "C70",
   "status": "partial",
   "theorems": [
    "Verif.Udp.c70_in_order_partial",
    "Verif.Udp.c70_latest",
    "Verif.Udp.c70_example",
    "Verif.Udp.c70_aborted",
    "Verif.Udp.c70_not_removed"
   ],
   "note": "Proved for every history, except that an aborted command keeps its place and takes a message (c70_aborted, UdpAdapter.cc:532-575), so the last part of the property is false of the code. Also setAllowDuplicateMessages(false) does not remove older messages as its documentation says (c70_not_removed)."
  },
  {
   "property": "C71",
   "status": "proved",
   "theorems": [
    "Verif.Udp.c71_names",
    "Verif.Udp.c71_parameter",
    "Verif.Udp.c71_unknown_label",
    "Verif.Udp.c71_example"
   ],
   "note": "The message counter is unbounded in the model; in the code it is a machine integer."
  },
  {
   "property": "C72",
   "status": "proved",
   "theorems": [
    "Verif.Text.c72_integer",
    "Verif.Text.c72_integer_unique",
    "Verif.Text.c72_round_trip",
    "Verif.Text.c72_boolean",
    "Verif.Text.c72_example"
   ],
   "note": "Integers and Booleans. Reals are outside the statement (strtod and the stream printing are the C++ library's). A leading zero makes a literal octal: 010 is eight, 08 is refused."
  },
  {
   "property": "C73",
   "status": "partial",
   "theorems": [
    "Verif.Text.c73_names",
    "Verif.Text.c73_types",
    "Verif.Text.c73_constants_partial",
    "Verif.Text.c73_handles_not_writable"
   ],
   "note": "Names are proved unambiguous for all texts. The last part is false: a plan cannot write COMMAND_ABORTED, COMMAND_ABORT_FAILED and COMMAND_INTERFACE_ERROR (ConstantFactory.cc:391-404)."
  },
  {
   "property": "C74",
   "status": "partial",
   "theorems": [
    "Verif.Text.c74_literal",
    "Verif.Text.c74_string_literal",
    "Verif.Text.c74_literal_example",
    "Verif.Text.c74_short_tag",
    "Verif.Text.c74_size_partial",
    "Verif.Text.c74_size_example",
    "Verif.Text.c74_size_bases",
    "Verif.Text.c74_capacity_wraps"
   ],
   "note": "Literals are proved; sizes are proved when written in decimal without a leading zero. Otherwise the property is false: the size is checked in base 0 but allocated in base 10 (ArrayVariableFactory.cc:77, 189), so 0x10 allocates 0 elements."
  },
  {
   "property": "C75",
   "status": "proved",
   "theorems": [
    "Verif.Timepoint.c75_value",
    "Verif.Timepoint.c75_shared",
    "Verif.Timepoint.c75_published",
    "Verif.Timepoint.c75_order",
    "Verif.Timepoint.c75_start_time",
    "Verif.Timepoint.c75_example"
   ],
   "note": "On a reset to INACTIVE the END of the state left is set after everything was reset; INACTIVE.START is unknown until the first reset."
  },
  {
   "property": "C76",
   "status": "partial",
   "theorems": [
    "Verif.Keys.c76_order",
    "Verif.Keys.c76_entries",
    "Verif.Keys.c76_example",
    "Verif.Keys.c76_nan"
   ],
   "note": "Proved for states without NaN parameters; false with them (c76_nan: a NaN parameter is served by the entry of another state)."
  },
  {
   "property": "C77",
   "status": "partial",
   "theorems": [
    "Verif.Keys.c77_round_trip",
    "Verif.Keys.c77_refused",
    "Verif.Keys.c77_count",
    "Verif.Keys.c77_example"
   ],
   "note": "Proved below 2^24 parameters (with the condition on signed char of C24). False beyond: the count is truncated, and a name of 2^24 bytes crashes the writer instead of being refused (State.cc:221-224). The functions are not used outside tests in this tree."
  },
  {
   "property": "C78",
   "status": "proved",
   "theorems": [
    "Verif.Keys.c78_map",
    "Verif.Keys.c78_cString",
    "Verif.Keys.c78_set",
    "Verif.Keys.c78_variables",
    "Verif.Keys.c78_example"
   ],
   "note": ""
  },
  {
   "property": "C79",
   "status": "proved",
   "theorems": [
    "Verif.Props.Links.C79_nodes",
    "Verif.Props.Links.C79_bodies",
    "Verif.Props.Links.C79_example"
   ],
   "note": "Together with C21 (a queue behaves as a list as long as no element is inserted twice)."
  },
  {
   "property": "C80",
   "status": "proved",
   "theorems": [
    "Verif.Command.c80_sent",
    "Verif.Command.c80_start",
    "Verif.Command.c80_example",
    "Verif.Command.c80_unknown_name"
   ],
   "note": ""
  },
  {
   "property": "C81",
   "status": "partial",
   "theorems": [
    "Verif.Command.c81_running",
    "Verif.Command.c81_over",
    "Verif.Command.c81_returned",
    "Verif.Command.c81_announced_partial",
    "Verif.Command.c81_queue",
    "Verif.Command.c81_no_error",
    "Verif.Command.c81_errors",
    "Verif.Command.c81_restart_silent",
    "Verif.Command.c81_late_response",
    "Verif.Command.c81_abort_order",
    "Verif.Command.c81_names"
   ],
   "note": "Values proved in full. Announcements are false at a restart (c81_restart_silent: the handle becomes unknown without notice, CommandImpl.cc:436). A response to an earlier execution that is processed during a later one counts for the later (c81_late_response), and abort acknowledgements count even before the abort (c81_abort_order)."
  },
  {
   "property": "C82",
   "status": "proved",
   "theorems": [
    "Verif.Command.c82_handlers",
    "Verif.Command.c82_example"
   ],
   "note": ""
  },
  {
   "property": "C83",
   "status": "partial",
   "theorems": [
    "Verif.Command.c83_in_use_partial",
    "Verif.Command.c83_all_free",
    "Verif.Command.c83_example",
    "Verif.Command.c83_denied_leaks"
   ],
   "note": "Proved if adapters do not respond COMMAND_DENIED themselves; false otherwise (c83_denied_leaks, CommandImpl.cc:498): the resources of the command are never released."
  },
  {
   "property": "C84",
   "status": "proved",
   "theorems": [
    "Verif.Command.c84_update",
    "Verif.Command.c84_example"
   ],
   "note": "As for commands, an acknowledgement of an earlier execution processed during a later one counts for the later (c84_example)."
  },
  {
   "property": "C85",
   "status": "partial",
   "theorems": [
    "Verif.Cache.c85_value_partial",
    "Verif.Cache.c85_last_answer",
    "Verif.Cache.c85_notified",
    "Verif.Cache.c85_error",
    "Verif.Cache.c85_not_heard",
    "Verif.Cache.c85_example",
    "Verif.Cache.c85_lookups"
   ],
   "note": "Proved with 'last answer that was heard'; equal to the last answer if all answers for a state have the type of the first (or are Integers for a Real, or untyped unknowns). False otherwise (c85_not_heard): an answer of another type is dropped and the old value stays."
  },
  {
   "property": "C86",
   "status": "proved",
   "theorems": [
    "Verif.Message.c86_head_of_queue",
    "Verif.Message.c86_at_first",
    "Verif.Message.c86_example"
   ],
   "note": "Before the first message HaveMessage is unknown, not false (c86_at_first)."
  },
  {
   "property": "C87",
   "status": "partial",
   "theorems": [
    "Verif.Message.c87_handles_partial",
    "Verif.Message.c87_example",
    "Verif.Message.c87_never_readable",
    "Verif.Message.c87_accept_fails",
    "Verif.Message.c87_release_crash",
    "Verif.Message.c87_crash_example"
   ],
   "note": "Proved of the state cache when its interface is used as intended. False of the whole program: the adapter's handles are always empty and the queue entry drops the handle, so no message data are ever readable (c87_never_readable), and a ReleaseMessageHandle command can crash the exec (c87_crash_example)."
  },
  {
   "property": "C88",
   "status": "partial",
   "theorems": [
    "Verif.Message.c88_one_answer_partial",
    "Verif.Message.c88_always_success",
    "Verif.Message.c88_handle",
    "Verif.Message.c88_example",
    "Verif.Message.c88_processed"
   ],
   "note": "Proved for commands with arguments in order. False for all others (c88_always_success, c88_handle): the error paths do not return, so the command is answered again, and ends with COMMAND_SUCCESS."
  },
  {
   "property": "C89",
   "status": "proved",
   "theorems": [
    "Verif.Listen.c89_told",
    "Verif.Listen.c89_each_kind",
    "Verif.Listen.c89_example"
   ],
   "note": "c89_each_kind: for any order of calls whatsoever, per kind of report."
  },
  {
   "property": "C90",
   "status": "partial",
   "theorems": [
    "Verif.Listen.c90_names_partial",
    "Verif.Listen.c90_states_partial",
    "Verif.Listen.c90_ignored_partial",
    "Verif.Listen.c90_others",
    "Verif.Listen.c90_blank_before_comma",
    "Verif.Listen.c90_no_such_state",
    "Verif.Listen.c90_example"
   ],
   "note": "Proved for lists with blanks only in front of names or at the end. False for a blank in front of a comma: the name is not recognised and silently ignored (c90_blank_before_comma, InterfaceSchema.cc:57-61); names that are no states are not refused (c90_no_such_state)."
  },
  {
   "property": "C91",
   "status": "partial",
   "theorems": [
    "Verif.Sim.c91_sent",
    "Verif.Sim.c91_order_partial",
    "Verif.Sim.c91_tie",
    "Verif.Sim.c91_race",
    "Verif.Sim.c91_race_crash"
   ],
   "note": "Proved: nothing lost, doubled, invented or early; order of times (no negative delays). False: responses due at the same time are sent in reverse (c91_tie, Agenda.cc:119); if a command is handled while the simulator's own thread wakes up, a response may be sent early or the program stops (c91_race, c91_race_crash)."
  },
  {
   "property": "C92",
   "status": "partial",
   "theorems": [
    "Verif.Sim.c92_sent_partial",
    "Verif.Sim.c92_forgotten",
    "Verif.Sim.c92_forgotten_now"
   ],
   "note": "Proved for histories in which no response is due at a full second or in the very microsecond in which the clock is read. False otherwise: c92_forgotten (`tv_sec != 0 && tv_usec != 0`, Simulator.cc:344), c92_forgotten_now (a timer set to zero is off, TimingService.cc:190)."
  },
  {
   "property": "C93",
   "status": "proved",
   "theorems": [
    "Verif.Sim.c93_kth",
    "Verif.Sim.c93_example"
   ],
   "note": "With neither a response for k nor a default the simulator stops with a failed assertion (part of c93_kth)."
  },
  {
   "property": "C94",
   "status": "proved",
   "theorems": [
    "Verif.Props.Wiring.C94_told",
    "Verif.Props.Wiring.C94_outside",
    "Verif.Props.Wiring.C94_quiescence",
    "Verif.Props.Wiring.C94_example"
   ],
   "note": "Puts together C08 (rest), C31 (what a decision reads is active) and C47, C50 (the network tells every listener). The hypotheses of Wiring: a condition is a function of the sources that occur in it; the conditions looked at are active and listened to (this is C31); a source publishes when it changes. Networks with aliases are excluded: false for them, see C50."
  },
  {
   "property": "C95",
   "status": "partial",
   "theorems": [
    "Verif.Life.c95_initialized_before_start_partial",
    "Verif.Life.c95_running_before_stop_partial",
    "Verif.Life.c95_started_once_partial",
    "Verif.Life.c95_initialized_once_partial",
    "Verif.Life.c95_answers",
    "Verif.Life.c95_example",
    "Verif.Life.c95_not_initialized",
    "Verif.Life.c95_left_running",
    "Verif.Life.c95_started_twice",
    "Verif.Life.c95_doubled",
    "Verif.Life.c95_again"
   ],
   "note": "False in general; each part is proved under the weakest assumption found, with a counterexample without it: components added after initialize are started uninitialized; after a failed start those started before are left running, stop does nothing, and a retry starts them twice; initializing again after stop creates every component a second time."
  },
  {
   "property": "C96",
   "status": "proved",
   "theorems": [
    "Verif.Route.c96_reaches_latest",
    "Verif.Route.c96_abort_same_handler",
    "Verif.Route.c96_abort_other_handler",
    "Verif.Route.c96_example",
    "Verif.Route.c96_log"
   ],
   "note": "c96_abort_other_handler shows that the condition of the second part is needed."
  },
  {
   "property": "C97",
   "status": "partial",
   "theorems": [
    "Verif.Route.c97_answers",
    "Verif.Route.c97_all_made_partial",
    "Verif.Route.c97_example",
    "Verif.Route.example_tame",
    "Verif.Route.c97_update_escapes",
    "Verif.Route.c97_thresholds_escape"
   ],
   "note": "An InterfaceError of an update handler or of setThresholds/clearThresholds is not caught: the exception leaves the executive in the middle of a step. The second part is proved without these, and without other exceptions and empty functions."
  },
  {
   "property": "C98",
   "status": "partial",
   "theorems": [
    "Verif.Ipc.c98_whole_partial",
    "Verif.Ipc.c98_example",
    "Verif.Ipc.c98_count_overflows",
    "Verif.Ipc.c98_count_overflows_example",
    "Verif.Ipc.c98_restarted_sender_fails",
    "Verif.Ipc.c98_restarted_sender_example",
    "Verif.Ipc.c98_invalid_fails"
   ],
   "note": "Proved for messages of at most 65535 parameters with different identifiers (sender, serial). Both limits are needed: 65536 parameters are announced as none and lost; a sender that starts counting again while one of its messages is incomplete makes an assertion fail in the receiver."
  },
  {
   "property": "C99",
   "status": "partial",
   "theorems": [
    "Verif.Ipc.c99_subscribers_partial",
    "Verif.Ipc.c99_only_delivered",
    "Verif.Ipc.c99_example",
    "Verif.Ipc.c99_unsubscribe_type_no_effect",
    "Verif.Ipc.c99_unsubscribe_last_no_effect",
    "Verif.Ipc.c99_unsubscribe_duplicates",
    "Verif.Ipc.c99_unsubscribe_calls",
    "Verif.Ipc.c99_types"
   ],
   "note": "Proved as long as no single listener is removed. unsubscribe is wrong (std::remove without erase, on copies for the listeners by type): it never reduces the number of calls, has no effect on listeners by type or on the last listener to all, and otherwise makes the last listener hear everything twice."
  }
 ]
}