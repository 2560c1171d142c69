{
 "claims": [
  {
   "property": "C01",
   "status": "proved",
   "theorems": [
    "Verif.C01_checkPath"
   ],
   "note": "Model: checkPath.  Action checks are total Boolean predicates."
  },
  {
   "property": "C02",
   "status": "proved",
   "theorems": [
    "Verif.C02_errors",
    "Verif.C02_hasPath",
    "Verif.C02_added"
   ],
   "note": "Model: addPath, hasPath; spec addAll runs any sequence of calls and catches exceptions."
  },
  {
   "property": "C03",
   "status": "proved",
   "theorems": [
    "Verif.C03_order_independent"
   ],
   "note": "Equality is the modelled __eq__ on dictionaries of sets and on the initial/terminal sets."
  },
  {
   "property": "C04",
   "status": "proved",
   "theorems": [
    "Verif.C04_has",
    "Verif.C04_all",
    "Verif.C04_remove"
   ],
   "note": ""
  },
  {
   "property": "C05",
   "status": "proved",
   "theorems": [
    "Verif.C05_asDictionary"
   ],
   "note": "For every iteration order of transitions and of the node set."
  },
  {
   "property": "C06",
   "status": "proved",
   "theorems": [
    "Verif.C06_compact",
    "Verif.C06_conj_compact"
   ],
   "note": "For every snapshot order; labels are abstract with one distinguished empty label."
  },
  {
   "property": "C07",
   "status": "proved",
   "theorems": [
    "Verif.C07_valueError",
    "Verif.C07_keyError",
    "Verif.C07_transitions",
    "Verif.C07_addPath"
   ],
   "note": "For every iteration order."
  },
  {
   "property": "C08",
   "status": "partial",
   "theorems": [
    "Verif.C08_forward_partial",
    "Verif.C08_backward_partial",
    "Verif.C08_false_forward",
    "Verif.C08_false_backward"
   ],
   "note": "The full property is false of the code in both directions (C08_false_forward, C08_false_backward). Proved: paths without intermediate terminal states give walks; walks give paths when each action leads to one state and is neither the initial nor the terminal node."
  },
  {
   "property": "C09",
   "status": "proved",
   "theorems": [
    "Verif.C09_sound",
    "Verif.C09_maximal",
    "Verif.C09_no_error"
   ],
   "note": "Every chain yielded at any point of any execution is linked and maximal; no iteration raises."
  },
  {
   "property": "C10",
   "status": "partial",
   "theorems": [
    "Verif.C10_terminates_partial",
    "Verif.C10_loops_partial",
    "Verif.C10_complete_partial",
    "Verif.C10_false_termination",
    "Verif.C10_false_once"
   ],
   "note": "False of the code: C10_false_termination, C10_false_once. Proved: the exact condition of termination, for every pop order: it never ends if a loop of forced moves can be reached from the initial node (C10_loops_partial) and otherwise ends after a number of iterations cubic in the number of nodes (C10_terminates_partial); completeness of finished executions."
  },
  {
   "property": "C11",
   "status": "proved",
   "theorems": [
    "Verif.C11_maxCliques",
    "Verif.C11_selfLoops",
    "Verif.C11_terminates"
   ],
   "note": "Exact enumeration for every symmetric irreflexive graph and every iteration order; with self-loops (C11_selfLoops) the maximal cliques without a looping member. The recursion limit is a parameter; any limit above the number of nodes suffices."
  },
  {
   "property": "C12",
   "status": "partial",
   "theorems": [
    "Verif.C12_loopless_partial",
    "Verif.C12_partial",
    "Verif.C12_terminates",
    "Verif.C12_false_selfLoop"
   ],
   "note": "False of the code with self transitions (C12_false_selfLoop). Proved: exactness without self transitions (C12_partial), and in general exactly the maximal cliques none of whose members has a self transition (C12_loopless_partial)."
  },
  {
   "property": "C13",
   "status": "proved",
   "theorems": [
    "Verif.C13_asDictionary"
   ],
   "note": "For every tree; node identity is the pair (kind, position), see Spec/Htm."
  },
  {
   "property": "C14",
   "status": "partial",
   "theorems": [
    "Verif.C14_false",
    "Verif.C14_describes_partial",
    "Verif.C14_exact"
   ],
   "note": "False of the code: reading back what as_dictionary wrote raises for every tree that has a leaf or a highlighted node (C14_false, an exact characterisation). Proved: build_htm succeeds exactly on the well-formed descriptions and returns the tree described (C14_exact)."
  },
  {
   "property": "C15",
   "status": "proved",
   "theorems": [
    "Verif.C15_findParent",
    "Verif.C15_findNextHuman",
    "Verif.C15_smallest"
   ],
   "note": ""
  },
  {
   "property": "C16",
   "status": "proved",
   "theorems": [
    "Verif.C16_findByName",
    "Verif.C16_upper"
   ],
   "note": ""
  },
  {
   "property": "C17",
   "status": "proved",
   "theorems": [
    "Verif.C17_toAlternative",
    "Verif.C17_distinct"
   ],
   "note": "Counts and distinctness of the orders, for every children list."
  },
  {
   "property": "C18",
   "status": "partial",
   "theorems": [
    "Verif.C18_proba_partial",
    "Verif.C18_raises_partial",
    "Verif.C18_deepCopy_partial",
    "Verif.C18_false_proba"
   ],
   "note": "False of the code for probabilities: C18_false_proba. Proved: everything else (C18_deepCopy_partial); a copy has the same probabilities exactly if all alternatives of the tree are uniform, and copies of copies always (C18_proba_partial); a tree cannot be copied exactly if one of its actions cannot, with the exception of the first of them (C18_raises_partial)."
  },
  {
   "property": "C19",
   "status": "partial",
   "theorems": [
    "Verif.C19_proba_partial",
    "Verif.C19_false_constructor",
    "Verif.C19_false_length",
    "Verif.C19_noChildren"
   ],
   "note": "False of the code: the constructor and the setter accept lists that are no distribution / too long (C19_false_constructor, C19_false_length). Proved: what an accepted explicit assignment guarantees."
  },
  {
   "property": "C20",
   "status": "partial",
   "theorems": [
    "Verif.C20_false",
    "Verif.C20_construct_partial"
   ],
   "note": "False of the code: to_combination raises KeyError for every meta action that can be constructed (C20_false, for all kinds and actions). C20_construct_partial: what is constructed."
  },
  {
   "property": "C21",
   "status": "partial",
   "theorems": [
    "Verif.C21_equivalence_partial",
    "Verif.C21_hash_partial",
    "Verif.C21_false_symmetry",
    "Verif.C21_false_metaHash",
    "Verif.C21_false_dtype"
   ],
   "note": "False of the code in three ways (C21_false_symmetry, C21_false_metaHash, C21_false_dtype). Proved: the relation \"== returned True\" is an equivalence; equal hashes for abstract/meta actions of any nesting and for condition actions with one element type."
  },
  {
   "property": "C22",
   "status": "proved",
   "theorems": [
    "Verif.C22_language",
    "Verif.C22_originalNames",
    "Verif.C22_emptyRaises"
   ],
   "note": "For every iteration order and every sufficient recursion limit. The copy method of the leaf actions is assumed to succeed and to rename (true of AbstractAction and its subclasses)."
  },
  {
   "property": "C23",
   "status": "proved",
   "theorems": [
    "Verif.C23_readBack",
    "Verif.C23_bijection"
   ],
   "note": "For all sizes; states are natural numbers with the bit layout of the code."
  },
  {
   "property": "C24",
   "status": "partial",
   "theorems": [
    "Verif.C24_features_partial",
    "Verif.C24_false"
   ],
   "note": "False of the code: the copy has one HTM value too many and its is_final is always False for states in range (C24_false, for all sizes). Proved: the features that a copy keeps."
  },
  {
   "property": "C25",
   "status": "proved",
   "theorems": [
    "Verif.C25_transition",
    "Verif.C25_unknownAction",
    "Verif.C25_start",
    "Verif.C25_counter"
   ],
   "note": "Random draws are arbitrary. C25_start assumes no more preference probabilities than preferences (as in the defaults)."
  },
  {
   "property": "C26",
   "status": "proved",
   "theorems": [
    "Verif.C26_names",
    "Verif.C26_path",
    "Verif.C26_absorbing",
    "Verif.C26_paid",
    "Verif.C26_once"
   ],
   "note": "For every episode of any length, arbitrary actions and draws; the final reward is isolated by comparing with the model whose final reward is 0."
  },
  {
   "property": "C27",
   "status": "proved",
   "theorems": [
    "Verif.C27_names",
    "Verif.C27_objects",
    "Verif.C27_bring",
    "Verif.C27_clear",
    "Verif.C27_inverse"
   ],
   "note": ""
  },
  {
   "property": "C28",
   "status": "proved",
   "theorems": [
    "Verif.C28_names",
    "Verif.C28_object",
    "Verif.C28_deterministic",
    "Verif.C28_ask",
    "Verif.C28_htm"
   ],
   "note": "Stated relative to the state after the random changes, which is the given state when there are none."
  },
  {
   "property": "C29",
   "status": "proved",
   "theorems": [
    "Verif.C29_quotient"
   ],
   "note": ""
  },
  {
   "property": "C30",
   "status": "partial",
   "theorems": [
    "Verif.C30_reversed_partial",
    "Verif.C30_single_partial",
    "Verif.C30_false"
   ],
   "note": "False of the code when there are several preferences (C30_false). Proved: the order in which the marginals come out, and the case of one preference."
  },
  {
   "property": "C31",
   "status": "partial",
   "theorems": [
    "Verif.C31_accepted",
    "Verif.C31_well_formed_partial",
    "Verif.C31_false_structured",
    "Verif.C31_rows_rejected",
    "Verif.C31_false_loop",
    "Verif.C31_false_loop_reward"
   ],
   "note": "False of the code for structured (AttributeError), loop with several first leaves, and loop with reward_state (ValueError): C31_false_*. C31_well_formed_partial covers all other flags; C31_accepted is the exact condition under which a conversion succeeds, for all flags, with the exception otherwise."
  },
  {
   "property": "C32",
   "status": "proved",
   "theorems": [
    "Verif.C32_trajectories"
   ],
   "note": "Trees built with the constructors, whose combinations have children; recursion depth within the limit. A failure probability of 1 is excluded."
  },
  {
   "property": "C33",
   "status": "proved",
   "theorems": [
    "Verif.C33_transitions",
    "Verif.C33_structured",
    "Verif.C33_observations"
   ],
   "note": "Two theorems: the rows of T for every state and action, and the observations. exp is an arbitrary function."
  },
  {
   "property": "C34",
   "status": "proved",
   "theorems": [
    "Verif.C34_costs"
   ],
   "note": ""
  },
  {
   "property": "C35",
   "status": "proved",
   "theorems": [
    "Verif.C35_bring_next"
   ],
   "note": "Exact conditions of success. Trees with an empty combination are excluded."
  },
  {
   "property": "C36",
   "status": "proved",
   "theorems": [
    "Verif.C36_trajectories"
   ],
   "note": ""
  },
  {
   "property": "C37",
   "status": "proved",
   "theorems": [
    "Verif.C37_impossible",
    "Verif.C37_posterior"
   ],
   "note": ""
  },
  {
   "property": "C38",
   "status": "proved",
   "theorems": [
    "Verif.C38_posterior"
   ],
   "note": "The posterior is stated as a sum over all sequences of states."
  },
  {
   "property": "C39",
   "status": "proved",
   "theorems": [
    "Verif.C39_accepts",
    "Verif.C39_stored",
    "Verif.C39_negative_accepted"
   ],
   "note": ""
  },
  {
   "property": "C40",
   "status": "partial",
   "theorems": [
    "Verif.C40_dump",
    "Verif.C40_roundtrip",
    "Verif.C40_dump_partial",
    "Verif.C40_stable",
    "Verif.C40_no_action",
    "Verif.C40_false_dump"
   ],
   "note": "Round trip of the arrays, names and belief updates proved for models with an action. The dump is the same exactly when all names are given (C40_dump, C40_dump_partial), hence not always (C40_false_dump). C40_stable: the model read back has the same dictionary, so that from then on everything, dump included, is kept. C40_no_action: the dictionary of a model without actions cannot be read."
  },
  {
   "property": "C41",
   "status": "partial",
   "theorems": [
    "Verif.C41_nonneg_lengths",
    "Verif.C41_row",
    "Verif.C41_sum",
    "Verif.C41_nonneg_partial",
    "Verif.C41_false_nonneg",
    "Verif.C41_defined"
   ],
   "note": "Non-negativity is false of the code for long rows (C41_false_nonneg); proved for rows of up to 449 probabilities, and for no greater length (C41_nonneg_lengths, C41_nonneg_partial). The rest is proved in full."
  },
  {
   "property": "C42",
   "status": "proved",
   "theorems": [
    "Verif.C42_positive",
    "Verif.C42_zero"
   ],
   "note": ""
  },
  {
   "property": "C43",
   "status": "proved",
   "theorems": [
    "Verif.C43_vf_ok",
    "Verif.C43_vf_trailing",
    "Verif.C43_pg_ok",
    "Verif.C43_pg_sequence",
    "Verif.C43_pg_blank",
    "Verif.C43_integers"
   ],
   "note": "np.fromstring is a parameter."
  },
  {
   "property": "C44",
   "status": "proved",
   "theorems": [
    "Verif.C44_roundtrip",
    "Verif.C44_best",
    "Verif.C44_execution",
    "Verif.C44_stopped"
   ],
   "note": ""
  },
  {
   "property": "C45",
   "status": "partial",
   "theorems": [
    "Verif.C45_partial",
    "Verif.C45_false_bound",
    "Verif.C45_exact"
   ],
   "note": "False of the code (C45_false_bound: a transition to node len(pg) is accepted and leads to IndexError). C45_partial: proved for files whose transitions are nodes. C45_exact: for every accepted file, when exactly a run raises IndexError (it gets to the integer after the last node, or to one below minus the number of nodes), and that it otherwise only stops at an unexpected observation."
  },
  {
   "property": "C46",
   "status": "proved",
   "theorems": [
    "Verif.C46_step",
    "Verif.C46_run",
    "Verif.C46_start"
   ],
   "note": ""
  },
  {
   "property": "C47",
   "status": "proved",
   "theorems": [
    "Verif.C47_tree",
    "Verif.C47_unknown_action"
   ],
   "note": ""
  },
  {
   "property": "C48",
   "status": "partial",
   "theorems": [
    "Verif.C48_partial",
    "Verif.C48_false",
    "Verif.C48_several_partial"
   ],
   "note": "False of the code (C48_false: start.nonzero() is iterated as a tuple). Proved: a single start state (C48_partial); and for all models what is returned instead (C48_several_partial): one tree, that of an agent for which all possible start states have the same probability, except that the belief at its root is not normalised."
  },
  {
   "property": "C49",
   "status": "proved",
   "theorems": [
    "Verif.C49_visit"
   ],
   "note": "Distances are compared through their squares."
  },
  {
   "property": "C50",
   "status": "proved",
   "theorems": [
    "Verif.C50_complete",
    "Verif.C50_gives_up",
    "Verif.C50_passes_on",
    "Verif.C50_array"
   ],
   "note": ""
  },
  {
   "property": "C51",
   "status": "proved",
   "theorems": [
    "Verif.C51_consistent",
    "Verif.C51_bounded",
    "Verif.C51_exact"
   ],
   "note": "The number of calls includes the last, unsuccessful one, which samples nothing."
  },
  {
   "property": "C52",
   "status": "proved",
   "theorems": [
    "Verif.C52_count",
    "Verif.C52_mean",
    "Verif.C52_between",
    "Verif.C52_mixture"
   ],
   "note": ""
  },
  {
   "property": "C53",
   "status": "partial",
   "theorems": [
    "Verif.C53_counts",
    "Verif.C53_simulation",
    "Verif.C53_false_shared"
   ],
   "note": "False for trees with shared nodes (a simulation can visit the start node several times; C53_false_shared), proved for plain trees; the conservation of counts is proved for both."
  },
  {
   "property": "C54",
   "status": "proved",
   "theorems": [
    "Verif.C54_posterior",
    "Verif.C54_never_raises",
    "Verif.C54_particles_never_raise",
    "Verif.C54_particle_start"
   ],
   "note": "Also for particle beliefs (the simulation never raises)."
  },
  {
   "property": "C55",
   "status": "proved",
   "theorems": [
    "Verif.C55_bounds"
   ],
   "note": ""
  },
  {
   "property": "C56",
   "status": "proved",
   "theorems": [
    "Verif.C56_explores",
    "Verif.C56_greedy"
   ],
   "note": "With shared nodes, at most that number of actions is left unexplored."
  },
  {
   "property": "C57",
   "status": "proved",
   "theorems": [
    "Verif.C57_history",
    "Verif.C57_belief",
    "Verif.C57_errors",
    "Verif.C57_reset"
   ],
   "note": ""
  },
  {
   "property": "C58",
   "status": "proved",
   "theorems": [
    "Verif.C58_htm_unbounded",
    "Verif.C58_rollout",
    "Verif.C58_simulation",
    "Verif.C58_lengths",
    "Verif.C58_record_harmless"
   ],
   "note": "The infinite run with the HTM horizon is C58_htm_unbounded."
  },
  {
   "property": "C59",
   "status": "partial",
   "theorems": [
    "Verif.C59_exclusion",
    "Verif.C59_serial",
    "Verif.C59_linearizable",
    "Verif.C59_node",
    "Verif.C59_use",
    "Verif.C59_history",
    "Verif.C59_belief",
    "Verif.C59_false_step",
    "Verif.C59_last",
    "Verif.C59_stop",
    "Verif.C59_progress",
    "Verif.C59_ends"
   ],
   "note": "False of the code for step, which uses the tree without the lock (C59_false_step); the rest of the property is proved for every interleaving, and C59_history and C59_belief prove what step keeps."
  },
  {
   "property": "C60",
   "status": "partial",
   "theorems": [
    "Verif.C60_record",
    "Verif.C60_record_harmless",
    "Verif.C60_calls",
    "Verif.C60_undiscounted_partial",
    "Verif.C60_ends",
    "Verif.C60_false_return"
   ],
   "note": "The return is false of the code (C60_false_return); C60_undiscounted_partial proves it without discount, C60_record and C60_ends prove the rest."
  },
  {
   "property": "C61",
   "status": "proved",
   "theorems": [
    "Verif.C61_processes",
    "Verif.C61_returns",
    "Verif.C61_raises",
    "Verif.C61_failed",
    "Verif.C61_killed",
    "Verif.C61_no_failure",
    "Verif.C61_terminates"
   ],
   "note": "Termination is proved for every fair execution on at least one processor."
  },
  {
   "property": "C62",
   "status": "proved",
   "theorems": [
    "Verif.C62_construct",
    "Verif.C62_plan",
    "Verif.C62_turn",
    "Verif.C62_history",
    "Verif.C62_early",
    "Verif.C62_success",
    "Verif.C62_unexpected",
    "Verif.C62_supportive"
   ],
   "note": "For every model with the names the policy looks up, after any uses (get_action, get_action and step, reset), the next action is the one of the plan after the completed actions; step raises exactly the listed exceptions; the history is the list of turns since the last reset. C62_supportive: every SupportivePOMDP whose task uses the three tools and names leg is such a model."
  },
  {
   "property": "C63",
   "status": "proved",
   "theorems": [
    "Verif.C63_features",
    "Verif.C63_construct",
    "Verif.C63_check_indices",
    "Verif.C63_check",
    "Verif.C63_outside",
    "Verif.C63_equal",
    "Verif.C63_states"
   ],
   "note": "Part numbers and locations are integers, with the wrapping of negative indices by numpy (C63_check_indices); C63_check is the property as stated, C63_equal says when two actions are equal, C63_construct and C63_outside which arguments raise IndexError."
  },
  {
   "property": "C64",
   "status": "proved",
   "theorems": [
    "Verif.C64_construct",
    "Verif.C64_check",
    "Verif.C64_equal",
    "Verif.C64_action",
    "Verif.C64_action_raises",
    "Verif.C64_action_equal"
   ],
   "note": "Arrays of equal lengths (no broadcasting), 0/1 masks. C64_action, C64_action_raises and C64_action_equal are about the actions with two conditions."
  },
  {
   "property": "C65",
   "status": "partial",
   "theorems": [
    "Verif.C65_iteration",
    "Verif.C65_distinct_partial",
    "Verif.C65_false_hash",
    "Verif.C65_false_lookup"
   ],
   "note": "False of the code: C65_false_hash is a witness on a model of the sets and tuple hashes of CPython 3.8 and later, C65_false_lookup its consequence for dictionaries. C65_distinct_partial proves the property when the hashes of the parts are distinct modulo the size of the table; C65_iteration proves that iteration ends and gives every part once."
  },
  {
   "property": "C66",
   "status": "proved",
   "theorems": [
    "Verif.C66_accepted",
    "Verif.C66_names",
    "Verif.C66_stochastic",
    "Verif.C66_transition",
    "Verif.C66_step",
    "Verif.C66_final",
    "Verif.C66_absorbing",
    "Verif.C66_total",
    "Verif.C66_belief",
    "Verif.C66_default"
   ],
   "note": "For finish probabilities outside [0,1] C66_stochastic proves that the constructor still accepts the model although its rows are not distributions."
  },
  {
   "property": "C67",
   "status": "proved",
   "theorems": [
    "Verif.C67_orders",
    "Verif.C67_levels",
    "Verif.C67_stable",
    "Verif.C67_task",
    "Verif.C67_executions",
    "Verif.C67_accepts_orders",
    "Verif.C67_vertical_horizontal"
   ],
   "note": "The conversion is proved for every task built from orders of parts (C67_accepts_orders), with the radix of ASCII names; the vertical/horizontal task is an instance for all heights and numbers of towers that are at least 1."
  },
  {
   "property": "C68",
   "status": "proved",
   "theorems": [
    "Verif.C68_minutes",
    "Verif.C68_hours",
    "Verif.C68_days"
   ],
   "note": ""
  },
  {
   "property": "C69",
   "status": "proved",
   "theorems": [
    "Verif.C69_transitions",
    "Verif.C69_htm",
    "Verif.C69_finished",
    "Verif.C69_finished_reached",
    "Verif.C69_independent"
   ],
   "note": ""
  },
  {
   "property": "C70",
   "status": "proved",
   "theorems": [
    "Verif.C70_accepts"
   ],
   "note": "Exact characterisation of the tasks that the constructor accepts."
  },
  {
   "property": "C71",
   "status": "proved",
   "theorems": [
    "Verif.C71_transition",
    "Verif.C71_start",
    "Verif.C71_false_tolerance"
   ],
   "note": "Real arithmetic: the cumulative sums are exact."
  },
  {
   "property": "C72",
   "status": "proved",
   "theorems": [
    "Verif.C72_discount",
    "Verif.C72_observations_costs"
   ],
   "note": ""
  },
  {
   "property": "C73",
   "status": "proved",
   "theorems": [
    "Verif.C73_evaluation",
    "Verif.C73_return"
   ],
   "note": "The loop bounds of the model are at least the horizons. C73_return is about every returned episode."
  },
  {
   "property": "C74",
   "status": "proved",
   "theorems": [
    "Verif.C74_plan",
    "Verif.C74_finishes",
    "Verif.C74_stuck",
    "Verif.C74_choice",
    "Verif.C74_sequence"
   ],
   "note": "C74_plan, C74_finishes and C74_stuck are for every task, horizon and random outcome; C74_choice and C74_sequence are their consequences for the tasks of the multitask experiment, for every number of sequences and every length."
  },
  {
   "property": "C75",
   "status": "partial",
   "theorems": [
    "Verif.C75_same_partial",
    "Verif.C75_false_unsupported",
    "Verif.C75_false_changes"
   ],
   "note": "False of the code: C75_false_unsupported (a leaf without hold gets the correction although the preference cannot be rewarded) and C75_false_changes (preferences that change). C75_same_partial proves it for tasks whose leaves all have a hold, r_preference >= cost_hold, and random numbers for which preferences do not change and unwanted holds fail."
  },
  {
   "property": "C76",
   "status": "proved",
   "theorems": [
    "Verif.C76_bound",
    "Verif.C76_final"
   ],
   "note": "For all runs from an initial state with arbitrary actions and random numbers, of any length."
  },
  {
   "property": "C77",
   "status": "proved",
   "theorems": [
    "Verif.C77_uct",
    "Verif.C77_fewer_visits"
   ],
   "note": "C77_uct covers the whole path of a simulation; C77_fewer_visits is a consequence. sqrt(log(n) / m) is an arbitrary function of n and m."
  },
  {
   "property": "C78",
   "status": "proved",
   "theorems": [
    "Verif.C78_policy",
    "Verif.C78_unchanged",
    "Verif.C78_same_choices",
    "Verif.C78_all_opened",
    "Verif.C78_opened_once",
    "Verif.C78_returns",
    "Verif.C78_viewed"
   ],
   "note": "For every state of the tree (C78_policy, C78_unchanged, C78_same_choices, C78_all_opened, C78_opened_once, C78_viewed), and for the trees built by any sequence of operations if the recursion limit exceeds the number of nodes (C78_returns)."
  },
  {
   "property": "C79",
   "status": "partial",
   "theorems": [
    "Verif.C79_policy_partial",
    "Verif.C79_returns_partial",
    "Verif.C79_viewed_partial",
    "Verif.C79_false_viewed",
    "Verif.C79_false_shared"
   ],
   "note": "False of the code: C79_false_shared (with shared nodes the export follows cycles and ends with RecursionError) and C79_false_viewed (observed is the number in the model, and the viewer takes it for a position). C79_policy_partial and C79_returns_partial prove the rest for trees without shared nodes; C79_viewed_partial says when the viewer is right."
  },
  {
   "property": "C80",
   "status": "proved",
   "theorems": [
    "Verif.C80_returns",
    "Verif.C80_partition",
    "Verif.C80_groups",
    "Verif.C80_quotient",
    "Verif.C80_irreducible",
    "Verif.C80_reserved",
    "Verif.C80_histories",
    "Verif.C80_histories_empty"
   ],
   "note": "C80_returns, C80_partition, C80_groups, C80_quotient, C80_irreducible; C80_reserved shows that the condition on the names is needed: with an action named terminal the loop may never end. C80_histories: histories whose names are neither empty nor reserved meet the hypotheses."
  },
  {
   "property": "C81",
   "status": "proved",
   "theorems": [
    "Verif.C81_tasks",
    "Verif.C81_conditions",
    "Verif.C81_fractions",
    "Verif.C81_table",
    "Verif.C81_defaults",
    "Verif.C81_booleans",
    "Verif.C81_settings",
    "Verif.C81_parameters",
    "Verif.C81_arguments",
    "Verif.C81_multitask",
    "Verif.C81_unknownTask",
    "Verif.C81_scripted",
    "Verif.C81_alwaysHold",
    "Verif.C81_config",
    "Verif.C81_search",
    "Verif.C81_pomcpJob"
   ],
   "note": "The random numbers, the seeds and the events of the processes are arbitrary. C81_search is for horizons that count transitions. C81_tasks describes the tasks of the multitask job independently of the model. C81_conditions states which parameters count as true, C81_fractions that a number of subtasks must be an integer."
  },
  {
   "property": "C82",
   "status": "partial",
   "theorems": [
    "Verif.C82_names",
    "Verif.C82_false_neverHold",
    "Verif.C82_multitask",
    "Verif.C82_preference_partial",
    "Verif.C82_pomcp_partial"
   ],
   "note": "False of the code: C82_false_neverHold (the never-hold jobs of the preference launcher always raise AttributeError, they assign to a property without setter). C82_names and C82_multitask are complete; C82_preference_partial and C82_pomcp_partial prove the other jobs, except those with a horizon of completed tasks, whose rollouts end with probability one only, see C84."
  },
  {
   "property": "C83",
   "status": "partial",
   "theorems": [
    "Verif.C83_htm_even_partial",
    "Verif.C83_htm_partial",
    "Verif.C83_false_probabilities",
    "Verif.C83_false_deterministic",
    "Verif.C83_bring_next_even_partial",
    "Verif.C83_bring_next_partial",
    "Verif.C83_false_loop"
   ],
   "note": "False of the code: C83_false_probabilities (the probabilities of the alternatives are not used), C83_false_deterministic (with the flag deterministic, all next states have the same probability after the human), C83_false_loop (the next repetition does not begin with the probabilities of the first). C83_htm_even_partial and C83_bring_next_even_partial prove for every task that the orders have the probabilities of the task with equally likely alternatives; C83_htm_partial and C83_bring_next_partial state it for tasks whose alternatives are equally likely."
  },
  {
   "property": "C84",
   "status": "proved",
   "theorems": [
    "Verif.C84_rollout",
    "Verif.C84_probability",
    "Verif.C84_evaluation",
    "Verif.C84_run",
    "Verif.C84_jobs"
   ],
   "note": "Rollouts (C84_rollout, C84_probability), evaluations (C84_evaluation), runs of experiments (C84_run) and the jobs of the pomcp launcher (C84_jobs). The random actions are explicit numbers; \"ends\" means that the result is the same for all large enough bounds of the loops."
  },
  {
   "property": "C85",
   "status": "proved",
   "theorems": [
    "Verif.C85_transition",
    "Verif.C85_start",
    "Verif.C85_count",
    "Verif.C85_rejection",
    "Verif.C85_successor",
    "Verif.C85_particles"
   ],
   "note": "Intervals (C85_transition, C85_start), counts over equidistant random numbers (C85_count), rejection sampling in general (C85_rejection), the sampler of particles (C85_successor) and its distribution (C85_particles). The arithmetic is exact."
  },
  {
   "property": "C86",
   "status": "partial",
   "theorems": [
    "Verif.C86_first_leaves_partial",
    "Verif.C86_orders_partial",
    "Verif.C86_false_nested",
    "Verif.C86_false_probabilities"
   ],
   "note": "False of the code: alternatives are not drawn with their probabilities, but in proportion to the number of leaves with which they may start (C86_false_nested, C86_false_probabilities). Proved: the probabilities that the orders have in the simulator, for all tasks (C86_first_leaves_partial), and that they are those of the task when alternatives are all as likely and may start with the same number of leaves (C86_orders_partial)."
  },
  {
   "property": "C87",
   "status": "partial",
   "theorems": [
    "Verif.C87_bonus",
    "Verif.C87_explores_partial",
    "Verif.C87_false_relative"
   ],
   "note": "Proved for an exploration that is not relative (C87_explores_partial); that sqrt(log n / m), computed with a bounded relative error, has the property required of the bonus is C87_bonus (over the reals). False with relative_exploration=True: when the values of all the actions are equal the bonus vanishes and only the first action is tried (C87_false_relative)."
  },
  {
   "property": "C88",
   "status": "partial",
   "theorems": [
    "Verif.C88_bonus",
    "Verif.C88_exact",
    "Verif.C88_value_partial",
    "Verif.C88_action_partial",
    "Verif.C88_false_alpha"
   ],
   "note": "False of the code: nodes average with alpha=.001, and then get_action returns an action that no optimal plan starts with after arbitrarily many simulations, whatever the exploration (C88_false_alpha). Proved for plain averages (alpha 0), trees that are not shared, an exploration that is not relative, horizons that count transitions, and a search from the initial belief (C88_value_partial, C88_action_partial). C88_bonus shows that sqrt(log n / m), computed with a bounded relative error, has the property required of the bonus; C88_exact that models without randomness with exact beliefs meet the hypotheses."
  },
  {
   "property": "C89",
   "status": "proved",
   "theorems": [
    "Verif.C89_number",
    "Verif.C89_array",
    "Verif.C89_state",
    "Verif.C89_names",
    "Verif.C89_log",
    "Verif.C89_trajectory",
    "Verif.C89_search",
    "Verif.C89_noPreference"
   ],
   "note": "C89_log is an equivalence for arbitrary models, policies and beliefs; the relation Plays states the calls that are made. C89_array, C89_number, C89_state and C89_names are about the texts. C89_search: on the supportive model only MaxSamplesReached is raised, and only a trajectory of bound transitions is cut off. C89_noPreference: without a preference (the class has one) a trajectory never ends normally. How Python writes the reward of a transition (repr) is not modelled."
  },
  {
   "property": "C90",
   "status": "proved",
   "theorems": [
    "Verif.C90_reached",
    "Verif.C90_tree",
    "Verif.C90_shared",
    "Verif.C90_beliefs",
    "Verif.C90_kept"
   ],
   "note": "For all searches (Search) over arbitrary models and beliefs and all sequences of calls; the number of nodes of a shared search is bounded by C90_beliefs."
  },
  {
   "property": "C91",
   "status": "proved",
   "theorems": [
    "Verif.C91_tree",
    "Verif.C91_shared",
    "Verif.C91_returns",
    "Verif.C91_graphs"
   ],
   "note": "C91_tree: the result describes the whole tree; C91_shared: with shared nodes every node with actions is exported with them exactly once; C91_returns: the export returns if the recursion limit is larger than twice the number of nodes; C91_graphs: trajectory_trees_from_starts. The entry node, which is always None, is omitted; writing the file is not modelled."
  },
  {
   "property": "C92",
   "status": "proved",
   "theorems": [
    "Verif.C92_changes",
    "Verif.C92_changes_total",
    "Verif.C92_wait",
    "Verif.C92_once",
    "Verif.C92_ask",
    "Verif.C92_bring",
    "Verif.C92_clear",
    "Verif.C92_start"
   ],
   "note": "Probabilities are exact shares of a finite set of random numbers: numbers in [0, 1) are D equidistant ones with all the probabilities of the model multiples of 1/D, and successors are drawn with one of K numbers. The conditions of a leaf are met one after the other (conditionsChance); C92_once gives the product formula for tasks in which no leaf has two conditions on the same object. C92_changes_total: the possible changes have total probability one."
  },
  {
   "property": "C93",
   "status": "proved",
   "theorems": [
    "Verif.C93_rollout",
    "Verif.C93_node",
    "Verif.C93_supportive",
    "Verif.C93_horizon",
    "Verif.C93_horizon_finished"
   ],
   "note": "C93_rollout: one rollout in an explicit model; C93_node: rollout_from_node with belief arrays; C93_supportive: with particle beliefs in the supportive simulator. Means are over a finite set of equally likely sequences of random numbers, of which all probabilities are multiples. The horizon ends after at most k transitions (C93_horizon, C93_horizon_finished for the classes of the code)."
  },
  {
   "property": "C94",
   "status": "proved",
   "theorems": [
    "Verif.C94_evaluation",
    "Verif.C94_undiscounted",
    "Verif.C94_no_transition",
    "Verif.C94_scripted"
   ],
   "note": "For any policy with its own memory (Answers; C94_scripted for the scripted policies); the random numbers of the policy are part of its memory, so that they are fixed. C94_undiscounted is the expected total reward; C94_evaluation shows what is estimated with a discount, where earlier rewards count less (compare C60_false_return)."
  },
  {
   "property": "C95",
   "status": "partial",
   "theorems": [
    "Verif.C95_bar",
    "Verif.C95_nothing",
    "Verif.C95_print",
    "Verif.C95_redraw",
    "Verif.C95_clear_partial",
    "Verif.C95_false_clear"
   ],
   "note": "False part: C95_false_clear (1 of 50). C95_clear_partial is an equivalence: a bar is cleared iff it has no numbers or less than 50 are to do. Colors are omitted and quotients are exact."
  },
  {
   "property": "C96",
   "status": "partial",
   "theorems": [
    "Verif.C96_call",
    "Verif.C96_clean",
    "Verif.C96_failures",
    "Verif.C96_policy_partial",
    "Verif.C96_false_no_transition",
    "Verif.C96_policy_file",
    "Verif.C96_model_file",
    "Verif.C96_no_directory"
   ],
   "note": "False part: C96_false_no_transition (for every policy without transitions). C96_policy_partial: the policy has a transition; its targets are nodes, as C45 shows that they need not be. The external program is an arbitrary function; json is assumed to invert itself; files in the format of the solver are described by the vocabulary of C43."
  },
  {
   "property": "C97",
   "status": "proved",
   "theorems": [
    "Verif.C97_actions",
    "Verif.C97_outcomes",
    "Verif.C97_successor",
    "Verif.C97_particles",
    "Verif.C97_failure",
    "Verif.C97_total"
   ],
   "note": "C97_particles: l ranges over lists of states of the model; C97_outcomes and C97_actions give the probabilities of the outcomes for all the actions (the rewards of C92 are summed out); C97_successor relates the particles found to the result of successor."
  },
  {
   "property": "C98",
   "status": "proved",
   "theorems": [
    "Verif.C98_unique",
    "Verif.C98_graph",
    "Verif.C98_start",
    "Verif.C98_belief",
    "Verif.C98_bound",
    "Verif.C98_optimal"
   ],
   "note": "The equation for the values (Solves) is a hypothesis on the policy, as the solver is external. ExpectedReturn is only defined if no exception is raised on a possible observation; C98_unique: it is a function. Agents are deterministic (memory, action, observe)."
  },
  {
   "property": "C99",
   "status": "partial",
   "theorems": [
    "Verif.C99_names",
    "Verif.C99_accepted",
    "Verif.C99_distinct_partial",
    "Verif.C99_false_unique",
    "Verif.C99_false_copies",
    "Verif.C99_stool"
   ],
   "note": "False parts: C99_false_unique, C99_false_copies. C99_accepted is an equivalence (without structured and loop, which C31 covers). Lower case is that of ASCII letters."
  },
  {
   "property": "C100",
   "status": "partial",
   "theorems": [
    "Verif.C100_probabilities_partial",
    "Verif.C100_task_probabilities_partial",
    "Verif.C100_file_partial",
    "Verif.C100_exact_partial",
    "Verif.C100_tasks_partial",
    "Verif.C100_false_blanks"
   ],
   "note": "False part: C100_false_blanks. C100_file_partial and C100_exact_partial are for all names that are words of the format, C100_probabilities_partial for models with up to 449 states and observations and C100_task_probabilities_partial for tasks with up to 149 leaves (the file then has distributions), C100_tasks_partial for HTMToPOMDP, with the names of the states, actions and observations. The text of the discount (str of a float) is assumed to be a decimal number that reads as the discount; numbers with an exponent are not covered. The reader covers the part of the format that dump uses."
  },
  {
   "property": "C101",
   "status": "partial",
   "theorems": [
    "Verif.C101_order",
    "Verif.C101_paths",
    "Verif.C101_all",
    "Verif.C101_number",
    "Verif.C101_breadth",
    "Verif.C101_false_cycles",
    "Verif.C101_false_shared",
    "Verif.C101_format_partial",
    "Verif.C101_false_format"
   ],
   "note": "False parts: C101_false_cycles (any tree with a cycle), C101_false_shared (such a tree after one simulation), C101_false_format. C101_order determines the list in each order; C101_paths, C101_all, C101_number and C101_breadth are its consequences. heapq is modelled by its contract."
  },
  {
   "property": "C102",
   "status": "proved",
   "theorems": [
    "Verif.C102_names",
    "Verif.C102_texts",
    "Verif.C102_path",
    "Verif.C102_random",
    "Verif.C102_graph",
    "Verif.C102_dictionary",
    "Verif.C102_equal"
   ],
   "note": "C102_path, C102_random, C102_graph, C102_dictionary, C102_equal, C102_names, C102_texts. C102_equal justifies the comparison of states and actions by their contents in the model of the graph."
  },
  {
   "property": "C103",
   "status": "partial",
   "theorems": [
    "Verif.C103_foreign",
    "Verif.C103_encoder",
    "Verif.C103_numpy",
    "Verif.C103_refused",
    "Verif.C103_written",
    "Verif.C103_config",
    "Verif.C103_results",
    "Verif.C103_missing",
    "Verif.C103_false_preference",
    "Verif.C103_multitask",
    "Verif.C103_curve"
   ],
   "note": "False part: C103_false_preference (from C82_false_neverHold). The rest is proved for all launchers whose jobs give results: C103_encoder, C103_numpy, C103_written, C103_config, C103_results, C103_missing, C103_refused, C103_multitask, C103_curve, C103_foreign. The text of JSON is not modelled: a file has a value of JSON; numbers are exact."
  },
  {
   "property": "C104",
   "status": "partial",
   "theorems": [
    "Verif.C104_posterior",
    "Verif.C104_error",
    "Verif.C104_double",
    "Verif.C104_double_posterior",
    "Verif.C104_normalised",
    "Verif.C104_total",
    "Verif.C104_exact",
    "Verif.C104_false_underflow"
   ],
   "note": "False part: C104_false_underflow. Without underflow: C104_posterior, C104_error (any rounding with a relative error), C104_double and C104_double_posterior (double precision). With underflow too: C104_normalised. C104_total: results exist; C104_exact: without rounding this is the model of C37 and C38. Overflow and nan are not modelled."
  },
  {
   "property": "C105",
   "status": "proved",
   "theorems": [
    "Verif.C105_probability",
    "Verif.C105_plays",
    "Verif.C105_rewards",
    "Verif.C105_time",
    "Verif.C105_robot",
    "Verif.C105_human"
   ],
   "note": "C105_plays (unique decomposition), C105_probability, C105_rewards, C105_time, C105_robot, C105_human. The flag deterministic is outside the statement: with it the orders have other probabilities, see C83_false_deterministic."
  },
  {
   "property": "C106",
   "status": "partial",
   "theorems": [
    "Verif.C106_complete",
    "Verif.C106_pomcp_partial",
    "Verif.C106_false_titles",
    "Verif.C106_preference",
    "Verif.C106_multitask",
    "Verif.C106_files"
   ],
   "note": "False part: C106_false_titles (plt.title for the figure replaces the title of the second panel of horizons). The rest is proved: C106_pomcp_partial (all but these titles), C106_preference, C106_multitask, C106_files, C106_complete (a figure needs the results of all the jobs it shows). Means and variances are exact; the drawing itself, positions of ticks and layout are not modelled; C103 shows that one job of the preference launcher never gives results."
  },
  {
   "property": "C107",
   "status": "partial",
   "theorems": [
    "Verif.C107_belief",
    "Verif.C107_partial",
    "Verif.C107_false_near",
    "Verif.C107_false_limit",
    "Verif.C107_false_reset"
   ],
   "note": "False parts: C107_false_near (distinct beliefs nearer than 0.01 are taken for one, so that a possible observation raises Impossible), C107_false_limit (with the limit reached), C107_false_reset (resetting to the belief of a node gives another node). Proved: C107_belief (the runs of the belief runner), C107_partial (the nodes and all the runs, when distinct beliefs are at 0.01 or more and the limit is not reached)."
  },
  {
   "property": "C108",
   "status": "partial",
   "theorems": [
    "Verif.C108_shown_partial",
    "Verif.C108_message",
    "Verif.C108_fails",
    "Verif.C108_follow_partial",
    "Verif.C108_colors_partial",
    "Verif.C108_session",
    "Verif.C108_false_numbers",
    "Verif.C108_false_initial",
    "Verif.C108_false_labels",
    "Verif.C108_false_colors",
    "Verif.C108_false_select"
   ],
   "note": "False parts: C108_false_numbers (numbered actions), C108_false_initial (negative initial node), C108_false_labels (abbreviated actions can collide), C108_false_colors (observations with spaces), C108_false_select (selected files are asked for as C:\\\\fakepath\\\\...). Proved: C108_shown_partial (actions that are strings, transitions between nodes), C108_follow_partial, C108_message and C108_fails (what happens otherwise), C108_colors_partial, C108_session. The reading of JavaScript and d3 is part of the trusted base; positions and animation are not modelled."
  },
  {
   "property": "C109",
   "status": "partial",
   "theorems": [
    "Verif.C109_nodes_partial",
    "Verif.C109_root_partial",
    "Verif.C109_false_labels",
    "Verif.C109_trees",
    "Verif.C109_fails"
   ],
   "note": "The displayed nodes, with their texts, and the targets of the links for all trees and clicks (C109_nodes_partial); the links of the root have the right style (C109_root_partial); every other link always has a wrong one, since the position in the list of all links is used (C109_false_labels); the trees of trajectory_tree are of the kind assumed (C109_trees); numbers as actions make the page fail (C109_fails). Layout and animation are not modelled."
  },
  {
   "property": "C110",
   "status": "partial",
   "theorems": [
    "Verif.C110_tree_partial",
    "Verif.C110_links",
    "Verif.C110_headers",
    "Verif.C110_hover_partial",
    "Verif.C110_exported",
    "Verif.C110_uct_partial",
    "Verif.C110_false_uct",
    "Verif.C110_fails",
    "Verif.C110_false_headers",
    "Verif.C110_false_blank"
   ],
   "note": "Nodes, titles and links for all files and sessions (C110_tree_partial); links have the observation of the search (C110_links); exported files can be displayed (C110_exported); the tables of a node if all the files have the same names (C110_hover_partial); the marks are the choices of UCT and the recommendation if all actions have been tried (C110_uct_partial). False parts: the headers are those of the first file with the column (C110_headers, C110_false_headers), untried actions are chosen but never marked (C110_false_uct), without visits all are marked (C110_false_blank). Numbers as actions and a root without children make the page fail (C110_fails). Layout and animation are not modelled."
  },
  {
   "property": "C111",
   "status": "partial",
   "theorems": [
    "Verif.C111_nodes_partial",
    "Verif.C111_first_partial",
    "Verif.C111_exported",
    "Verif.C111_false_reload",
    "Verif.C111_fails",
    "Verif.C111_false_refresh",
    "Verif.C111_false_names",
    "Verif.C111_false_combination",
    "Verif.C111_false_select"
   ],
   "note": "Nodes and links for all trees and sequences of events (C111_nodes_partial); names, classes and symbols of the first tree that is read, the symbol for nodes that were open from the beginning (C111_first_partial); exported trees meet the hypotheses (C111_exported); which reads raise an exception (C111_fails). False parts: elements whose id was displayed keep the name, attributes and symbol of the earlier tree (C111_false_reload, C111_false_refresh); names are replaced again when a node reappears (C111_false_names); a node that is closed when it appears never gets its symbol (C111_false_combination); after a message the selected file is ignored (C111_false_select). Layout and animation are not modelled."
  },
  {
   "property": "C112",
   "status": "partial",
   "theorems": [
    "Verif.C112_beliefs",
    "Verif.C112_values",
    "Verif.C112_row",
    "Verif.C112_fails",
    "Verif.C112_false_compare",
    "Verif.C112_cmap",
    "Verif.C112_colors",
    "Verif.C112_spines",
    "Verif.C112_false_ticklabels",
    "Verif.C112_mesh"
   ],
   "note": "Maps of beliefs (C112_beliefs), of values (C112_values, with the colors of a row in C112_row, exceptions in C112_fails), pcolormesh (C112_mesh, C112_cmap), the spines and ticks (C112_spines), the colors of curves (C112_colors). False parts: colors of different rows cannot be compared (C112_false_compare, and examples for a node that is better but lighter and for a blank node), labels of ticks are never removed (C112_false_ticklabels). What matplotlib does with the calls is taken from its documentation; the argument grid is not modelled."
  },
  {
   "property": "C113",
   "status": "partial",
   "theorems": [
    "Verif.C113_base",
    "Verif.C113_unique",
    "Verif.C113_demonstrations",
    "Verif.C113_reachable",
    "Verif.C113_errors",
    "Verif.C113_false_copies",
    "Verif.C113_false_atomic",
    "Verif.C113_transition",
    "Verif.C113_nodes"
   ],
   "note": "One object for each vector: C113_unique (the graphs of C01-C04), C113_demonstrations. Any objects: C113_reachable, C113_errors, C113_transition, C113_nodes, C113_base. False parts: a demonstration with new objects raises TypeError (C113_false_copies), add_path is not atomic (C113_false_atomic). The hash of bytes is any function of the vector, and that of a pair any function of the action and the hash of the state; the order in which CPython probes entries with one hash is that of insertion."
  },
  {
   "property": "C114",
   "status": "proved",
   "theorems": [
    "Verif.C114_line",
    "Verif.C114_ends",
    "Verif.C114_convex",
    "Verif.C114_flat",
    "Verif.C114_slope",
    "Verif.C114_leaves",
    "Verif.C114_decreasing"
   ],
   "note": "C114_line (affine), C114_ends, C114_convex, C114_flat, C114_slope, C114_leaves, C114_decreasing. Random numbers are multiples of 1/D and the probability is a multiple of 1/D, as in C94. The policy never-hold of the job itself cannot be built (it assigns to a property without setter); the theorems hold of every policy that never holds and never asks."
  },
  {
   "property": "C115",
   "status": "proved",
   "theorems": [
    "Verif.C115_bound",
    "Verif.C115_solves",
    "Verif.C115_plan",
    "Verif.C115_optimal",
    "Verif.C115_one_more",
    "Verif.C115_stop",
    "Verif.C115_no_ask",
    "Verif.C115_ask"
   ],
   "note": "C115_bound (any agent), C115_solves, C115_plan, C115_optimal, C115_one_more, C115_stop, C115_no_ask, C115_ask. Expected costs are defined by recursion over the transitions and observations of the model that have a positive probability, as in C98."
  },
  {
   "property": "C116",
   "status": "partial",
   "theorems": [
    "Verif.C116_files_partial",
    "Verif.C116_refused",
    "Verif.C116_no_program",
    "Verif.C116_solver_fails",
    "Verif.C116_no_directory",
    "Verif.C116_stool_partial",
    "Verif.C116_chair_partial",
    "Verif.C116_false_interruption",
    "Verif.C116_false_tower",
    "Verif.C116_inputs",
    "Verif.C116_plots",
    "Verif.C116_plots_scripts",
    "Verif.C116_model_partial",
    "Verif.C116_tower_partial"
   ],
   "note": "C116_files_partial (any task and solver), C116_model_partial (any model and options), C116_stool_partial, C116_chair_partial, C116_plots and C116_plots_scripts (the figures at the end), C116_tower_partial (tower_scenario.py as it would be if its import were right), C116_refused, C116_no_program, C116_solver_fails, C116_no_directory, C116_inputs (the tasks and parameters of the scripts). False of the code: C116_false_tower (ImportError whatever follows), C116_false_interruption (costs of htm2pomdp.py)."
  },
  {
   "property": "C117",
   "status": "partial",
   "theorems": [
    "Verif.C117_inputs",
    "Verif.C117_runs_partial",
    "Verif.C117_no_directory",
    "Verif.C117_false_done",
    "Verif.C117_false_import",
    "Verif.C117_false_few",
    "Verif.C117_stool_partial"
   ],
   "note": "C117_runs_partial (any model, search with shared beliefs and number of turns, with at least one iteration per action), C117_stool_partial (the script, with its import corrected), C117_no_directory, C117_inputs. False of the code: C117_false_import (ImportError), C117_false_done (the last line reads \"Exploring... [done](current best: ...\"), C117_false_few (AttributeError with fewer iterations than actions). The functions of lines 12-86 are not called by the script (node_search is C101)."
  },
  {
   "property": "C118",
   "status": "proved",
   "theorems": [
    "Verif.C118_value",
    "Verif.C118_return",
    "Verif.C118_greedy",
    "Verif.C118_double",
    "Verif.C118_exact",
    "Verif.C118_outside"
   ],
   "note": "C118_value, C118_return, C118_greedy (any rounding with small errors), C118_double (doubles, round to nearest even), C118_exact (without rounding: the other model), C118_outside (a value above all the returns, so that C52_between holds only up to rounding). The case in which the horizon is reached in a node with a value other than 0 is not represented; no overflow."
  },
  {
   "property": "C119",
   "status": "proved",
   "theorems": [
    "Verif.C119_results",
    "Verif.C119_mean",
    "Verif.C119_error",
    "Verif.C119_variance",
    "Verif.C119_chebyshev",
    "Verif.C119_hoeffding",
    "Verif.C119_range",
    "Verif.C119_accuracy"
   ],
   "note": "C119_results (what is shown, from the seeds), C119_mean, C119_error, C119_variance, C119_chebyshev, C119_hoeffding, C119_range (the return of an evaluation), C119_accuracy. The runs that are considered finish without failure, and the choices of seeds are equally likely. The expected value is the mean over the evaluations with all the seeds."
  },
  {
   "property": "C120",
   "status": "partial",
   "theorems": [
    "Verif.C120_curves",
    "Verif.C120_abscissas",
    "Verif.C120_false_scale",
    "Verif.C120_search",
    "Verif.C120_order",
    "Verif.C120_shape",
    "Verif.C120_false_labels"
   ],
   "note": "False of the code: C120_false_scale (each curve is a tenth of the term: the percentage is used as a factor), C120_false_labels (\"[1]%\"). C120_search relates the curves to the bonus of the search; C120_curves, C120_abscissas, C120_order and C120_shape prove the rest. The drawing itself is not modelled."
  },
  {
   "property": "C121",
   "status": "partial",
   "theorems": [
    "Verif.C121_preference",
    "Verif.C121_multitask",
    "Verif.C121_false_pomcp",
    "Verif.C121_missing",
    "Verif.C121_preference_figure",
    "Verif.C121_multitask_figure"
   ],
   "note": "False of the pomcp launcher (C121_false_pomcp: for every destination, the figures are shown and no file is written). Proved for the others: C121_preference and C121_multitask with any files, C121_preference_figure and C121_multitask_figure for what is shown or saved, C121_missing. The argument of the destination is read by expjobs, which is not in the repository; the drawing itself is not modelled."
  },
  {
   "property": "C122",
   "status": "partial",
   "theorems": [
    "Verif.C122_partial",
    "Verif.C122_false_silent",
    "Verif.C122_reset"
   ],
   "note": "False of the code (C122_false_silent, for every policy). C122_partial gives the outcome of every step and of get_action after an unexpected observation; C122_reset. What numpy does with the indices None and an array of objects is part of the trusted base."
  },
  {
   "property": "C123",
   "status": "proved",
   "theorems": [
    "Verif.C123_reads",
    "Verif.C123_refuses",
    "Verif.C123_determined",
    "Verif.C123_written",
    "Verif.C123_copies"
   ],
   "note": "C123_reads and C123_refuses characterise the result on every file; C123_determined; C123_written relates it to as_dictionary; C123_copies shows that tasks read from files cannot be copied once they have a leaf. Values that are present are assumed to have the types of the files in the repository."
  }
 ]
}