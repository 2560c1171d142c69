# Formal model of ScazLab/task-models in Lean 4

The code is the python package in `/repo` (`task_models/` and `samples/`) and the pages that display its results (`visualization/`).  It was read as text; it was neither built nor run.

## Layout

| where | what |
|---|---|
| `lean/Verif/Py.lean`, `Monad.lean`, `Num.lean` | Python exceptions as values, sets, dictionaries, a state-and-exception monad, sums |
| `lean/Verif/Model/*.lean` | the model, function by function; every definition cites file and lines of `/repo` |
| `lean/Verif/Spec/*.lean` | declarative definitions used to state the properties, independent of the helpers of the model |
| `lean/Verif/Proof/*.lean` | lemmas |
| `lean/Verif/Props/*.lean` | the theorems `Cxx_...`, with a concrete instance that meets their hypotheses beside them |
| `lean/Verif/Tests/*.lean` | the repository's own deterministic tests, evaluated on the model; tests of the model, not proofs of properties |
| `properties.jsonl` | the properties |
| `MANIFEST.json` | property -> status and theorems |
| `seeded/LOG.jsonl` | wrong programs the theorems were tested against |

In the log, `first_errors` has the declarations that no longer compile after the edit, and `failed` the theorems that are among them or whose
proofs use them (the uses are computed from the unedited proofs).  The build of a wrong program stops once each claim that it
should break has a failed theorem, so other theorems may fail too.  Where an edit survived, `tightened` has the theorem that was
added, and the comment says whether the edit was tested again with it.

## Trusted base

* The kernel of Lean 4.33.0.
* The axioms `propext`, `Classical.choice` and `Quot.sound` of Lean and Mathlib, and no others.  The last section lists, for each
  theorem of the manifest, which of them it depends on (output of `#print axioms`).  There is no `sorry`, `native_decide` or `bv_decide`.
* The definitions of Lean core and Mathlib that occur in the statements.
* The reading of Python recorded in the comments of `lean/Verif/Model`, that is: that every definition there does what the cited
  lines do, up to the simplifications named in the comments and below.  This is the part no tool checks.  As evidence for it, the
  assertions of `tests/*.py` and `task_models/utils/tests/*.py` are transcribed in `lean/Verif/Tests`, with the values of the test
  files as expected results, and evaluated on the model by the kernel.  Tests that draw random inputs or run the external solver
  are left out; the header of each module names them.

## Modelling decisions

* **Exceptions** are values, `Py α = Except PyErr α`.  A function of the model raises the same class of exception as the code; the
  text of messages is not modelled.
* **Floats** are rationals.  Every statement on numbers is about exact arithmetic: rounding, NaN, infinities, signed zeros and
  overflow are not modelled.  `exp`, `log` and `sqrt` are arbitrary functions (parameters).  Where the code compares with a
  tolerance (`np.allclose`) or prints with five decimals, the tolerance and the rounding are modelled on rationals.
  The exception is `FloatBelief` (C104), where each operation of a belief update is rounded, in particular to double precision.
* **JavaScript** (`visualization/`): a call or an access that does not exist is a `TypeError`; the functions of d3 are read as documented (order of
  the nodes and links of a tree, data joined by key, `max` without `null`).  Layout, transitions, dragging and zooming are not modelled.
* **Integers** are `Nat` or `Int`.  Where numpy or a list would accept a negative index this is modelled or excluded by a comment.  That numpy takes the index `None` for a new axis and refuses an array of objects as an index is assumed (C122).
* **Randomness** is nondeterminism: each random draw is an argument of the function (a number, a record of draws, a script, or a state
  `σ` with arbitrary functions), and the theorems quantify over all of them.  Nothing is said about probabilities of runs, except
  where the code itself computes with probabilities (beliefs, transition matrices).
* **Iteration over sets and `set.pop`** is nondeterminism as well: a set is a duplicate-free list, and a function that iterates over one
  takes the order as an argument.  C65 depends on the order itself, and `Model/Snap.lean` has the hash tables of CPython 3.8 and later.
* **Dictionaries** are association lists with unique keys in order of insertion.
* **Arrays** with assignments are functions of the indices with point updates (the shape is carried separately), or lists.
* **Objects with identity** (nodes of search trees) are numbers, and the heap is a map from numbers to attributes.
* **Threads and processes** are interleaving state machines; the theorems quantify over all schedules.
* **Loops** are structural recursions where the code iterates over a list.  A `while` loop is a small-step machine, or a function with a
  bound on the number of iterations, beyond which the pseudo exception `unfinished` is returned; termination is a theorem where it
  holds.  The recursion limit is a parameter beyond which `RuntimeError` is raised.
* `json.dumps` and `json.loads` are taken to be inverse on the dictionaries the code writes.
* Not modelled anywhere: memory limits, time-outs and interrupts, failures of the file system, logging, printing, the contents of
  messages, `__repr__`, modification of attributes from outside the methods of a class (unless said otherwise).

## What is modelled

| file | lines | model | properties |
|---|---|---|---|
| `task.py` | 33-57, 91-264 graphs | `TaskGraph` | C01-C08 |
| `task.py` | 266-310 `get_max_chains` | `Chains` | C09, C10 |
| `task.py` | 60-88, 312-324 cliques | `Cliques` | C11, C12 |
| `task.py` | 326-608, `json_to_htm.py` trees | `Htm` | C13-C20, C22 |
| `action.py`, `task.py` 218-231, 329-365 | actions, conditions | `Actions` | C20, C21, C64 |
| `supportive.py` | 9-45 trees to graphs | `Dag` | C22, C86 |
| `supportive.py` | 117-228 states | `SupState` | C23, C24 |
| `supportive.py` | 48-114, 231-548 | `Supportive` | C25-C30, C69, C70, C75, C76, C86, C92, C97 |
| `task_to_pomdp.py` | all | `NodeTree`, `HtmPomdp` | C31-C34, C83, C99, C105 |
| `stool_scenarios.py` | all | `Stool` | C99 |
| `bring_next_to_pomdp.py` | all | `NodeTree`, `BringNext` | C35, C36, C72, C83 |
| `lib/pomdp.py` | 59-379 `POMDP` | `Pomdp`, `Text` | C37-C43, C71, C85 |
| `lib/pomdp.py` | 259-264 with rounding | `FloatBelief` | C104 |
| `lib/pomdp.py` | 24-56, 366-579 graph policies | `GraphPolicy`, `Text` | C44-C49, C68, C98 |
| `lib/pomdp.py` | 290-294, 307-327, 335-379, 420-439 solver and files, `lib/py23.py` 4-20 | `Solve`, `SolverFile` | C96, C100 |
| `lib/belief.py` | 38-116 | `Belief` | C50, C51, C85, C97 |
| `lib/pomcp.py` | 13-517 search, runner | `Pomcp` | C52-C58, C77, C87, C88, C90, C93 |
| `lib/pomcp.py` | 58-61, 175-183, 258-290, 326-402, 596-639 exports | `Export` | C78, C79 |
| `lib/pomcp.py` | 175-176, 210-212, 258-263, 325-338, 366-402, 489-490 export of the whole tree | `ExportFull` | C91 |
| `lib/pomcp.py` | 492-517 trajectories, `lib/belief.py` 119-125, `supportive.py` 128-138, 351-354 texts | `Trajectory` | C89 |
| `lib/pomcp.py` | 520-593 threads | `Async` | C59 |
| `samples/pomcp.py` | 13-85 enumeration and texts, `lib/pomcp.py` 286-288 | `NodeSearch` | C101 |
| `evaluation.py` | 19-102, `supportive.py` 527-548 | `Evaluation` | C60, C69, C73, C84, C94 |
| `utils/multiprocess.py` | 10-76 | `RepeatPool` | C61, C119 |
| `lib/pomdp.py` | 454-480, 520-579 runs of visited policies | `VisitRun` | C107 |
| `visualization/policy` | `policy.js` without layout, dragging and zooming, the controls of `policy.html`, colors of `style.css` | `PolicyPage` | C108 |
| `visualization/trajectories/trajectories.js` | 45-172 (layout, zoom, animation and the definitions of markers not) | `TrajPage` | C109 |
| `visualization/pomcp/pomcp.js`, `pomcp.html` | 51-246, 278-333; html 38-63, 92-100 (layout, zoom, animation and the definitions of markers not) | `PomcpPage` | C110 |
| `visualization/htm` (htm.js 1-4, 82-281, 299-307, 331-343; htm.html), `visualization/htm-ros-subscriber` | texts, classes, links, clicks; not the layout, the legend and the connection | `HtmPage` | C111 |
| `plot.py`, `utils/plot.py` 39-53, 151-215; `plot_values` in `samples/htm2pomdp.py` 93-99 and `samples/icra_scenario2pomdp.py` 38-44 | cells, labels, limits, spines and ticks; not the styles | `HeatMap` | C112 |
| `state.py` | 10-42, with `task.py` 104-126, 174-194 for these states, `lib/belief.py` 6-12 | `VecState` | C113 |
| `samples/supportive_evaluation_preference_job.py` | 17-20 the probability of the preference, with `supportive.py` 437-520 | `Supportive`, `Experiment` | C114 |
| `hold_and_release.py` | 6-33, the costs of its policies | `HoldRelease` | C115 |
| `samples/htm2pomdp.py` (1-108), `samples/icra_scenario2pomdp.py` (1-60), `samples/tower_scenario.py` (1-45), `lib/pomdp.py` (515-518) | all but the titles and bars of colors of the plots and the printing of the orders; what follows the failing import of `tower_scenario.py` is modelled as if line 4 imported `HTMToPOMDP` | `Script`, `TowerScript`, `ScriptPlots` | C116 |
| `samples/pomcp.py` | 1-10, 88-138 | `SearchScript` | C117 |
| `lib/pomcp.py`, `evaluation.py` | 110-132, 141-173, 223-231, 297-318; 71-82, with rounding | `FloatValue` | C118 |
| `samples/plot_exploration_term.py` | 10-18 | `TermPlot` | C120 |
| `samples/supportive_evaluation_{pomcp,preference,multitask}.py` | `action_plot`; `evaluation.py` 231-244, 264-266 | `PlotAction` | C121 |
| `lib/pomdp.py` | 442-460 runners after an unexpected observation | `LostRunner` | C122 |
| `json_to_htm.py` | 9-33 files with missing keys | `JsonTask` | C123, C14 |
| `utils/multiprocess.py` | 79-88 elapsed time | `GraphPolicy` | C68 |
| `utils/term.py` | all but colors | `Term` | C95 |
| `policy.py` | all | `PolicySeq` | C62 |
| `samples/supportive_evaluation_multitask_job.py` | 13-51 (tasks and `PolicySupportiveAlternatives`) | `ClosedLoop` | C74 |
| `evaluation.py` | 104-226 but the log; the three jobs `samples/supportive_evaluation_*_job.py` | `SupExperiment` | C81, C84 |
| `samples/supportive_evaluation_*.py` | the jobs, their names and the lookups of the plots | `Launchers` | C82 |
| `samples/test_hierarchies.py` | all but the output | `Hierarchy` | C80 |
| `evaluation.py` | 166-167, 194-203, 248-262; `lib/utils.py` 12-22; `samples/supportive_evaluation_multitask.py` 38-46; `utils/plot.py` 93 | `ResultFiles` | C103 |
| `utils/plot.py` | 81-148; `samples/supportive_evaluation_{pomcp,preference,multitask}.py`: `plot_results` | `Figures` | C106, C119 |
| `snap_circuit.py` | all | `Snap`, `SnapDemo` | C63, C65, C102 |
| `samples/snap_circuit_scenarii.py` | all but the writing of the file | `SnapDemo` | C102 |
| `hold_and_release.py` | all | `HoldRelease` | C66 |
| `tower_problem.py` | all | `Tower` | C67 |

(The exact correspondence is in the comments; the table of properties is `properties.jsonl`.)

## What is not modelled

* `utils/plot.py`, `plot.py`: drawing with matplotlib, but what the curves, boxes and labels of the launchers are (`Figures`), and the cells and labels of heat maps (`HeatMap`).
* `lib/py23.py`: choice of imports.
* `lib/pomdp.py`: the external solver itself, and the search of its executable.
* `lib/pomcp.py`: the default logger and `__str__`.
* `samples/pomcp.py` after line 85, and the other scripts of `samples` that only call the library.
* `expjobs`, the parser of the command line, the text of JSON (a file has a value of JSON).
* Overriding `_stop` of `threading.Thread`, and `isAlive`, which newer versions of Python do not have (C59).
* Messages that are partially written to a pipe by a process that is killed (C61).
* `_name_radix` beyond ASCII (C67, C99, C100; a parameter in C31-C36).

## Properties that are false of the code

Several properties in `properties.jsonl` do not hold of the unchanged code (the statement says so).  For these the negation is proved on
a witness, or for all inputs (`Cxx_false_...`), together with theorems for the part that holds (`_partial`); their status is `partial`.
They are: C08, C10, C12, C14, C18, C19, C20, C21, C24, C30, C31, C40, C41, C45, C48, C53, C59, C60, C65, C71, C75, C79, C82, C83, C86, C87, C88, C95, C96, C99, C100, C101, C103, C104, C106, C107, C108, C109, C110, C111, C112, C113, C116, C117, C120, C121, C122.

## Axioms of each theorem

Axioms `propext`, `Classical.choice`, `Quot.sound` (536 theorems):

`C01_checkPath`, `C02_errors`, `C02_hasPath`, `C02_added`, `C03_order_independent`, `C04_has`, `C04_all`, `C05_asDictionary`,
`C06_compact`, `C07_valueError`, `C07_keyError`, `C07_transitions`, `C07_addPath`, `C08_forward_partial`,
`C08_backward_partial`, `C09_sound`, `C09_maximal`, `C09_no_error`, `C10_terminates_partial`, `C10_loops_partial`,
`C10_complete_partial`, `C10_false_termination`, `C11_maxCliques`, `C11_selfLoops`, `C11_terminates`, `C12_loopless_partial`,
`C12_partial`, `C12_terminates`, `C14_false`, `C14_describes_partial`, `C14_exact`, `C16_findByName`, `C16_upper`,
`C17_toAlternative`, `C17_distinct`, `C18_proba_partial`, `C18_raises_partial`, `C18_deepCopy_partial`, `C18_false_proba`,
`C19_proba_partial`, `C19_false_constructor`, `C19_false_length`, `C19_noChildren`, `C20_false`, `C20_construct_partial`,
`C22_language`, `C22_originalNames`, `C22_emptyRaises`, `C24_false`, `C25_transition`, `C25_unknownAction`, `C25_start`,
`C25_counter`, `C26_names`, `C26_path`, `C26_absorbing`, `C26_paid`, `C26_once`, `C27_names`, `C27_objects`, `C27_bring`,
`C27_clear`, `C27_inverse`, `C28_names`, `C28_object`, `C28_deterministic`, `C28_ask`, `C28_htm`, `C29_quotient`,
`C30_reversed_partial`, `C30_single_partial`, `C30_false`, `C31_accepted`, `C31_well_formed_partial`, `C31_false_structured`,
`C31_rows_rejected`, `C31_false_loop`, `C31_false_loop_reward`, `C32_trajectories`, `C33_transitions`, `C33_observations`,
`C34_costs`, `C35_bring_next`, `C36_trajectories`, `C37_impossible`, `C37_posterior`, `C38_posterior`, `C39_accepts`,
`C39_stored`, `C39_negative_accepted`, `C40_dump`, `C40_roundtrip`, `C40_dump_partial`, `C40_stable`, `C40_no_action`,
`C40_false_dump`, `C41_nonneg_lengths`, `C41_row`, `C41_sum`, `C41_nonneg_partial`, `C41_false_nonneg`, `C41_defined`,
`C42_positive`, `C42_zero`, `C43_vf_ok`, `C43_vf_trailing`, `C43_pg_ok`, `C43_pg_sequence`, `C43_pg_blank`, `C44_roundtrip`,
`C44_best`, `C44_execution`, `C45_partial`, `C45_false_bound`, `C45_exact`, `C46_step`, `C46_run`, `C46_start`, `C47_tree`,
`C47_unknown_action`, `C48_partial`, `C48_false`, `C48_several_partial`, `C49_visit`, `C50_complete`, `C50_gives_up`,
`C50_passes_on`, `C50_array`, `C51_consistent`, `C51_bounded`, `C51_exact`, `C52_count`, `C52_mean`, `C52_between`,
`C52_mixture`, `C53_counts`, `C53_simulation`, `C53_false_shared`, `C54_posterior`, `C54_never_raises`,
`C54_particles_never_raise`, `C54_particle_start`, `C55_bounds`, `C56_explores`, `C56_greedy`, `C57_history`, `C57_belief`,
`C57_errors`, `C58_htm_unbounded`, `C58_rollout`, `C58_simulation`, `C58_lengths`, `C58_record_harmless`, `C59_exclusion`,
`C59_serial`, `C59_linearizable`, `C59_node`, `C59_use`, `C59_history`, `C59_belief`, `C59_false_step`, `C59_last`,
`C59_stop`, `C59_progress`, `C59_ends`, `C60_record`, `C60_record_harmless`, `C60_calls`, `C60_undiscounted_partial`,
`C60_ends`, `C60_false_return`, `C61_processes`, `C61_returns`, `C61_raises`, `C61_failed`, `C61_killed`, `C61_no_failure`,
`C61_terminates`, `C62_construct`, `C62_plan`, `C62_turn`, `C62_history`, `C62_success`, `C62_unexpected`, `C62_supportive`,
`C63_features`, `C63_construct`, `C63_check_indices`, `C63_check`, `C63_outside`, `C63_equal`, `C64_construct`, `C64_check`,
`C64_equal`, `C64_action`, `C64_action_raises`, `C64_action_equal`, `C65_iteration`, `C65_distinct_partial`, `C66_accepted`,
`C66_names`, `C66_stochastic`, `C66_transition`, `C66_step`, `C66_final`, `C66_absorbing`, `C66_total`, `C66_belief`,
`C66_default`, `C67_orders`, `C67_levels`, `C67_stable`, `C67_task`, `C67_executions`, `C67_accepts_orders`,
`C67_vertical_horizontal`, `C69_independent`, `C70_accepts`, `C71_transition`, `C71_start`, `C71_false_tolerance`,
`C72_discount`, `C72_observations_costs`, `C73_evaluation`, `C73_return`, `C74_plan`, `C74_finishes`, `C74_stuck`,
`C74_choice`, `C74_sequence`, `C75_same_partial`, `C75_false_unsupported`, `C75_false_changes`, `C76_bound`, `C76_final`,
`C77_uct`, `C77_fewer_visits`, `C78_policy`, `C78_unchanged`, `C78_same_choices`, `C78_all_opened`, `C78_opened_once`,
`C78_returns`, `C78_viewed`, `C79_policy_partial`, `C79_returns_partial`, `C79_viewed_partial`, `C79_false_viewed`,
`C79_false_shared`, `C80_returns`, `C80_partition`, `C80_groups`, `C80_quotient`, `C80_irreducible`, `C80_reserved`,
`C80_histories`, `C81_tasks`, `C81_fractions`, `C81_defaults`, `C81_settings`, `C81_arguments`, `C81_multitask`,
`C81_unknownTask`, `C81_scripted`, `C81_alwaysHold`, `C81_search`, `C81_pomcpJob`, `C82_names`, `C82_false_neverHold`,
`C82_multitask`, `C82_preference_partial`, `C82_pomcp_partial`, `C83_htm_even_partial`, `C83_htm_partial`,
`C83_false_probabilities`, `C83_false_deterministic`, `C83_bring_next_even_partial`, `C83_bring_next_partial`,
`C83_false_loop`, `C84_rollout`, `C84_probability`, `C84_evaluation`, `C84_run`, `C84_jobs`, `C85_transition`, `C85_start`,
`C85_count`, `C85_rejection`, `C85_successor`, `C85_particles`, `C86_first_leaves_partial`, `C86_orders_partial`,
`C86_false_nested`, `C86_false_probabilities`, `C87_bonus`, `C87_explores_partial`, `C87_false_relative`, `C88_bonus`,
`C88_exact`, `C88_value_partial`, `C88_action_partial`, `C88_false_alpha`, `C89_number`, `C89_array`, `C89_state`,
`C89_names`, `C89_log`, `C89_search`, `C89_noPreference`, `C90_reached`, `C90_tree`, `C90_shared`, `C90_beliefs`, `C90_kept`,
`C91_tree`, `C91_shared`, `C91_returns`, `C91_graphs`, `C92_changes`, `C92_changes_total`, `C92_wait`, `C92_once`, `C92_ask`,
`C92_bring`, `C92_clear`, `C92_start`, `C93_rollout`, `C93_node`, `C93_supportive`, `C94_evaluation`, `C94_undiscounted`,
`C94_no_transition`, `C94_scripted`, `C95_bar`, `C95_print`, `C95_redraw`, `C95_clear_partial`, `C95_false_clear`,
`C96_call`, `C96_clean`, `C96_failures`, `C96_policy_partial`, `C96_false_no_transition`, `C96_policy_file`,
`C96_model_file`, `C97_actions`, `C97_outcomes`, `C97_successor`, `C97_particles`, `C97_failure`, `C97_total`, `C98_unique`,
`C98_graph`, `C98_start`, `C98_belief`, `C98_bound`, `C98_optimal`, `C99_names`, `C99_accepted`, `C99_distinct_partial`,
`C99_false_unique`, `C99_false_copies`, `C99_stool`, `C100_probabilities_partial`, `C100_task_probabilities_partial`,
`C100_file_partial`, `C100_exact_partial`, `C100_tasks_partial`, `C100_false_blanks`, `C101_order`, `C101_paths`, `C101_all`,
`C101_number`, `C101_breadth`, `C101_false_cycles`, `C101_false_shared`, `C101_format_partial`, `C101_false_format`,
`C102_names`, `C102_texts`, `C102_path`, `C102_random`, `C102_graph`, `C102_dictionary`, `C102_equal`, `C103_written`,
`C103_results`, `C103_missing`, `C103_false_preference`, `C103_multitask`, `C103_curve`, `C104_posterior`, `C104_error`,
`C104_double`, `C104_double_posterior`, `C104_normalised`, `C104_total`, `C104_exact`, `C104_false_underflow`,
`C105_probability`, `C105_plays`, `C105_rewards`, `C105_time`, `C105_robot`, `C105_human`, `C106_complete`,
`C106_pomcp_partial`, `C106_false_titles`, `C106_preference`, `C106_multitask`, `C106_files`, `C107_belief`, `C107_partial`,
`C107_false_near`, `C107_false_limit`, `C107_false_reset`, `C108_shown_partial`, `C108_message`, `C108_fails`,
`C108_follow_partial`, `C108_colors_partial`, `C108_session`, `C108_false_numbers`, `C108_false_initial`,
`C108_false_labels`, `C108_false_colors`, `C108_false_select`, `C109_nodes_partial`, `C109_root_partial`,
`C109_false_labels`, `C109_trees`, `C109_fails`, `C110_tree_partial`, `C110_links`, `C110_headers`, `C110_hover_partial`,
`C110_exported`, `C110_uct_partial`, `C110_false_uct`, `C110_fails`, `C110_false_headers`, `C110_false_blank`,
`C111_nodes_partial`, `C111_first_partial`, `C111_exported`, `C111_false_reload`, `C111_fails`, `C111_false_refresh`,
`C111_false_names`, `C111_false_combination`, `C111_false_select`, `C112_beliefs`, `C112_values`, `C112_row`, `C112_fails`,
`C112_false_compare`, `C112_cmap`, `C112_colors`, `C112_spines`, `C112_false_ticklabels`, `C112_mesh`, `C113_unique`,
`C113_demonstrations`, `C113_errors`, `C113_false_copies`, `C113_false_atomic`, `C113_nodes`, `C114_line`, `C114_ends`,
`C114_convex`, `C114_flat`, `C114_slope`, `C114_leaves`, `C114_decreasing`, `C115_bound`, `C115_solves`, `C115_plan`,
`C115_optimal`, `C115_one_more`, `C115_stop`, `C115_no_ask`, `C115_ask`, `C116_files_partial`, `C116_refused`,
`C116_no_program`, `C116_solver_fails`, `C116_no_directory`, `C116_stool_partial`, `C116_chair_partial`,
`C116_false_interruption`, `C116_inputs`, `C116_plots`, `C116_plots_scripts`, `C116_model_partial`, `C116_tower_partial`,
`C117_runs_partial`, `C117_no_directory`, `C117_false_done`, `C117_false_import`, `C117_false_few`, `C117_stool_partial`,
`C118_value`, `C118_return`, `C118_greedy`, `C118_double`, `C118_exact`, `C118_outside`, `C119_results`, `C119_mean`,
`C119_error`, `C119_variance`, `C119_chebyshev`, `C119_hoeffding`, `C119_range`, `C119_accuracy`, `C120_curves`,
`C120_abscissas`, `C120_false_scale`, `C120_search`, `C120_order`, `C120_shape`, `C120_false_labels`, `C121_preference`,
`C121_multitask`, `C121_false_pomcp`, `C121_missing`, `C121_preference_figure`, `C121_multitask_figure`, `C122_partial`,
`C122_false_silent`, `C122_reset`, `C123_reads`, `C123_refuses`, `C123_determined`, `C123_written`, `C123_copies`

Axioms `propext`, `Quot.sound` (37 theorems):

`C04_remove`, `C10_false_once`, `C12_false_selfLoop`, `C13_asDictionary`, `C15_findParent`, `C15_findNextHuman`,
`C15_smallest`, `C21_equivalence_partial`, `C21_hash_partial`, `C21_false_dtype`, `C23_readBack`, `C23_bijection`,
`C24_features_partial`, `C33_structured`, `C43_integers`, `C62_early`, `C63_states`, `C65_false_lookup`, `C68_minutes`,
`C68_hours`, `C68_days`, `C81_conditions`, `C81_booleans`, `C81_parameters`, `C81_config`, `C89_trajectory`, `C93_horizon`,
`C93_horizon_finished`, `C95_nothing`, `C103_foreign`, `C103_encoder`, `C103_numpy`, `C103_refused`, `C103_config`,
`C113_reachable`, `C113_transition`, `C117_inputs`

Axioms `propext` (13 theorems):

`C06_conj_compact`, `C08_false_forward`, `C08_false_backward`, `C21_false_symmetry`, `C21_false_metaHash`, `C44_stopped`,
`C65_false_hash`, `C69_htm`, `C69_finished`, `C80_histories_empty`, `C81_table`, `C96_no_directory`, `C116_false_tower`

No axioms (4 theorems):

`C57_reset`, `C69_transitions`, `C69_finished_reached`, `C113_base`
