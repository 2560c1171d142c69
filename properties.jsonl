{"id": "C01", "title": "check_path accepts exactly the well-formed paths", "statement": "check_path(path) returns True iff path is empty, or it alternates state, action, state, ..., starts and ends with a state, and for every consecutive (s, a, s') the action's check(s, s') holds; in every other case it returns False (it never raises).", "quantifier": "all lists of states, actions and foreign objects of any length, and all action check predicates", "why_tests_cant": "recursion over paths of unbounded length; tests try about ten paths", "anchors": ["task_models/task.py: check_path, split_path", "task_models/action.py: PrePostConditionAction.check"]}
{"id": "C02", "title": "has_path recognises exactly the paths stitched from added paths", "statement": "After any sequence of add_path calls on a fresh TaskGraph, has_path(q) for a valid non-empty q is True iff q's first state is the first state of some added path, q's last state is the last state of some added path, and every step (s, a, s') of q is a step of some added path. In particular every added path is recognised for ever after. An invalid path makes both add_path and has_path raise ValueError, and add_path then leaves the graph unchanged.", "quantifier": "all finite sequences of add_path calls (valid or not), all query paths", "why_tests_cant": "quantifies over all call histories and all query paths", "anchors": ["task_models/task.py: TaskGraph.add_path, TaskGraph.has_path, BaseGraph.add_transition, BaseGraph.has_transition"]}
{"id": "C03", "title": "Task graphs do not depend on demonstration order or repetition", "statement": "Two TaskGraphs built by add_path from the same set of valid paths, in any order and with any repetitions, compare equal (==).", "quantifier": "all pairs of path lists with the same elements", "why_tests_cant": "all orders and multiplicities of unboundedly many demonstrations", "anchors": ["task_models/task.py: TaskGraph.__eq__, TaskGraph.add_path"]}
{"id": "C04", "title": "Transitions behave as a mathematical set of triples", "statement": "Under any sequence of add_transition / remove_transition calls, has_transition(s,l,d) is True iff the last add of (s,l,d) is not followed by a removal of it; all_transitions yields each present triple exactly once and nothing else; remove_transition raises KeyError iff the triple is absent and then changes nothing.", "quantifier": "all operation sequences and all triples", "why_tests_cant": "history property over arbitrary operation sequences", "anchors": ["task_models/task.py: BaseGraph.add_transition, remove_transition, has_transition, all_transitions"]}
{"id": "C05", "title": "as_dictionary of a graph is a faithful numbering", "statement": "as_dictionary lists every node that occurs in a transition exactly once with ids 0..n-1, and its links are exactly the graph's transitions with source, destination replaced by their ids: mapping the ids back gives exactly all_transitions, in order.", "quantifier": "all graphs reachable by add/remove, all set iteration orders", "why_tests_cant": "set iteration order and graph size are unbounded", "anchors": ["task_models/task.py: BaseGraph.as_dictionary, all_nodes"]}
{"id": "C06", "title": "compact contracts exactly the selected nodes", "statement": "After compact(nodes, new): the transitions are exactly (1) the old transitions touching no node of nodes and (2) for each old transition with exactly one end in nodes, that transition with this end replaced by new and its label replaced by ''. It never raises, and the result does not depend on the order in which transitions are visited. If new is not in nodes, no node of nodes occurs afterwards. For a ConjugateTaskGraph, initial/terminal are replaced by new iff they were in nodes.", "quantifier": "all graphs, node sets, new nodes (inside or outside nodes, already in the graph or not), iteration orders", "why_tests_cant": "the graph is mutated while a snapshot is traversed, in hash order", "anchors": ["task_models/task.py: BaseGraph.compact, ConjugateTaskGraph.compact"]}
{"id": "C07", "title": "Conjugation has exactly the documented transitions, and fails exactly when it should", "statement": "conjugate() raises ValueError iff some state has two transitions with the same action and different destinations. Otherwise it raises KeyError iff an initial state, or a non-terminal destination of a transition, never had an outgoing transition; for graphs built by add_path only the first can happen (single-state paths). Otherwise it returns the graph whose transitions are exactly initial--s-->a for s initial with (s,a,_), a--s'-->a' for (_,a,s') with s' not terminal and (s',a',_), and a--s'-->terminal for (_,a,s') with s' terminal.", "quantifier": "all task graphs, all iteration orders", "why_tests_cant": "all graph shapes; three nested set iterations with exceptions", "anchors": ["task_models/task.py: ConjugateTaskGraph.from_task_graph, TaskGraph.check_only_deterministic_transitions"]}
{"id": "C08", "title": "Recognised paths are walks of the conjugate graph", "statement": "A path s0 a1 s1 ... an sn (n>=1) recognised by a task graph corresponds to the walk initial -s0-> a1 -s1-> ... an -sn-> terminal of its conjugate, and conversely. (False for the code when a terminal state of one demonstration is an intermediate state of another: the conjugate drops those transitions; and an action with several outcomes or named like the initial or terminal node makes walks that are no path.)", "quantifier": "all task graphs and all paths of any length", "why_tests_cant": "induction over path length; needs all graph shapes", "anchors": ["task_models/task.py: ConjugateTaskGraph.from_task_graph, TaskGraph.has_path"]}
{"id": "C09", "title": "Every chain produced by get_max_chains is a chain that cannot be extended", "statement": "Every list produced by get_max_chains has at least two nodes, each consecutive pair (u,v) is an edge, v is u's only successor and u is v's only predecessor, and the list can be extended neither on the right nor (when the initial node has no incoming edge) on the left; the order in which pending nodes are popped does not matter.", "quantifier": "all graphs, all pop orders of the pending set, every prefix of the generator output", "why_tests_cant": "set.pop order is arbitrary and the generator may be infinite", "anchors": ["task_models/task.py: ConjugateTaskGraph.get_max_chains"]}
{"id": "C10", "title": "get_max_chains terminates and finds each maximal chain once", "statement": "get_max_chains terminates and yields every maximal chain reachable from initial exactly once. (False for the code: it runs for ever as soon as a cycle is closed by an unbranching chain, and may yield the same chain twice depending on set order. Proved: on acyclic graphs it terminates for every pop order and yields every maximal chain reachable from initial at least once.)", "quantifier": "all graphs and pop orders", "why_tests_cant": "termination and completeness over all schedules", "anchors": ["task_models/task.py: ConjugateTaskGraph.get_max_chains"]}
{"id": "C11", "title": "max_cliques yields exactly the non-trivial maximal cliques, once each", "statement": "For a symmetric graph without self-loops, max_cliques terminates and yields each maximal clique with at least two nodes exactly once and nothing else, whatever the set iteration order and pivot tie-breaking.", "quantifier": "all finite symmetric irreflexive graphs, all iteration orders", "why_tests_cant": "Bron-Kerbosch correctness over all graphs and orders", "anchors": ["task_models/task.py: max_cliques, _bron_kerbosch"]}
{"id": "C12", "title": "get_max_cliques finds the maximal groups of mutually reachable-in-one-step actions", "statement": "get_max_cliques yields exactly the maximal sets (of size at least two) of nodes with transitions both ways between any two of them. (False for the code when a node has a transition to itself: cliques through it are lost. Proved when no node has a self transition; termination always.)", "quantifier": "all conjugate graphs, all iteration orders", "why_tests_cant": "all graphs; self-loops are reachable through repeated actions", "anchors": ["task_models/task.py: ConjugateTaskGraph.get_max_cliques"]}
{"id": "C13", "title": "HierarchicalTask.as_dictionary numbers the tree in pre-order", "statement": "as_dictionary gives the nodes of the tree the ids 0,1,2,... in depth-first pre-order, every node's parent field is the id of its parent (None for the root), and names, kinds, highlighted attribute and child order are preserved; leaves have no children key.", "quantifier": "all task trees of any depth and arity", "why_tests_cant": "structural induction over all trees", "anchors": ["task_models/task.py: HierarchicalTask.as_dictionary, Combination.as_dictionary, int_generator"]}
{"id": "C14", "title": "A task written as a dictionary can be read back", "statement": "build_htm(as_dictionary(task)['nodes']) rebuilds the tree. (False for the code: any tree that has a leaf or a highlighted node makes build_htm raise. Proved: that failure for every such tree; and that build_htm on a well-formed description where leaves carry an agent attribute rebuilds exactly the described tree.)", "quantifier": "all task trees; all well-formed JSON descriptions", "why_tests_cant": "induction over all trees", "anchors": ["task_models/json_to_htm.py: build_htm", "task_models/task.py: as_dictionary"]}
{"id": "C15", "title": "Tree searches by index return the right node", "statement": "find_parent_node(root, i) returns a node one of whose children has idx i, and returns None iff no proper descendant of root has idx i (so it is the parent when indices are unique). find_next_human_action(root, i) returns None iff no human leaf below root has idx greater than i; otherwise a human leaf with idx greater than i which is the first one in pre-order, hence the one of smallest idx when indices follow pre-order.", "quantifier": "all trees and indices", "why_tests_cant": "induction over all trees", "anchors": ["task_models/task.py: HierarchicalTask.find_parent_node, find_next_human_action"]}
{"id": "C16", "title": "find_node_by_name returns the first match in pre-order", "statement": "find_node_by_name(root, name) returns the first proper descendant in pre-order whose lower-cased name contains name, None iff there is none; consequently a query containing an upper-case ASCII letter never matches, and the root is never returned.", "quantifier": "all trees and query strings", "why_tests_cant": "induction over all trees", "anchors": ["task_models/task.py: HierarchicalTask.find_node_by_name"]}
{"id": "C17", "title": "to_alternative enumerates each order of the children exactly once", "statement": "ParallelCombination.to_alternative returns an alternative with n! sequences; sequence i is the i-th ordering of the children, each ordering appears exactly once, every child is copied with every name suffixed by ' order-i'; if leaf names were distinct in the parallel node, all leaf names of the result are distinct.", "quantifier": "all parallel nodes with any number of arbitrary subtrees", "why_tests_cant": "n! orders for every n; injectivity of renaming over all names", "anchors": ["task_models/task.py: ParallelCombination.to_alternative, deep_copy"]}
{"id": "C18", "title": "deep_copy preserves the tree", "statement": "deep_copy(fmt) returns a tree with the same shape, kinds, highlighted flags and child order, each name replaced by fmt of the name; and the same alternative probabilities. (Last part false for the code: custom probabilities are replaced by the uniform ones.)", "quantifier": "all trees and rename formats", "why_tests_cant": "structural induction", "anchors": ["task_models/task.py: Combination._deep_copy_children, deep_copy of each class"]}
{"id": "C19", "title": "An alternative always carries a probability distribution over its children", "statement": "After construction and any sequence of proba assignments, accepted or rejected, AlternativeCombination.proba has values in [0,1] summing to 1, rejected assignments raise ValueError and leave it unchanged; probabilities given to the constructor are the ones in force. (Last part false for the code: the constructor overwrites them with the uniform distribution; and the length is not checked.)", "quantifier": "all histories of assignments, all child counts", "why_tests_cant": "history property; all real-valued vectors", "anchors": ["task_models/task.py: AlternativeCombination.__init__, AlternativeCombination.proba"]}
{"id": "C20", "title": "A meta action can be turned into a combination", "statement": "For every MetaAction that can be constructed, to_combination returns a combination of the corresponding kind with one child per action. (False for the code: it always raises KeyError, because the kinds accepted by the constructor are not keys of COMBINATION_CLASSES.)", "quantifier": "all meta actions of any nesting", "why_tests_cant": "all nestings", "anchors": ["task_models/task.py: MetaAction, COMBINATION_CLASSES"]}
{"id": "C21", "title": "Action equality is an equivalence compatible with hashing", "statement": "On AbstractAction, MetaAction and PrePostConditionAction objects, == is reflexive, symmetric and transitive, and equal objects have equal hashes (so dictionaries and sets keyed by them behave as sets of equivalence classes). (False for the code: == is not symmetric between an action and its subclass instances, a meta action can equal an action with another hash, and conditions compare equal across element types with other hashes.)", "quantifier": "all actions of any nesting", "why_tests_cant": "all nestings; Python dispatches == to the subclass first", "anchors": ["task_models/task.py: AbstractAction.__eq__, MetaAction.__eq__, __hash__", "task_models/action.py: Condition.__eq__, PrePostConditionAction.__eq__"]}
{"id": "C22", "title": "The DAG of a task generates exactly the orders the task allows", "statement": "For every task tree without empty combinations, the sequences of leaf names along paths of the DAG used by SupportivePOMDP, from an initial leaf to a leaf without successor, are exactly the linearisations of the tree (sequence = concatenation, alternative = union, parallel = all orders of children), parallel leaves being renamed with their order index.", "quantifier": "all task trees, all set orders", "why_tests_cant": "language equality over all trees", "anchors": ["task_models/supportive.py: _HTMToDAG", "task_models/task.py: ParallelCombination.to_alternative"]}
{"id": "C23", "title": "State integers encode the feature vector bijectively", "statement": "For the supportive state integer: setting the HTM value, an object, a preference or the body feature and reading it back gives the value written and leaves all other features unchanged; two integers with the same features are equal; every combination of feature values is some integer below n_states, and every integer below n_states has an HTM value below n_htm.", "quantifier": "all feature counts, all states, all features", "why_tests_cant": "unbounded bit widths", "anchors": ["task_models/supportive.py: _SupportivePOMDPState"]}
{"id": "C24", "title": "Copying a supportive state preserves it", "statement": "copy() of a state has the same features, the same number of HTM values and the same is_final answer. (False for the code: the copy has one more HTM value, so a final state's copy is not final. Proved: integer and all features preserved; is_final of the copy of an in-range state is always False.)", "quantifier": "all states and feature counts", "why_tests_cant": "all sizes", "anchors": ["task_models/supportive.py: _SupportivePOMDPState.copy"]}
{"id": "C25", "title": "The supportive simulator stays inside its declared spaces", "statement": "For every state below n_states, every action below n_actions and every outcome of the random draws, sample_transition returns a state below n_states and an observation index below n_observations; sample_start returns a state below n_states; actions >= n_actions raise ValueError. The simulator call counter increases by exactly one per call.", "quantifier": "all tasks, states, actions and random outcomes", "why_tests_cant": "all random outcomes and all tasks", "anchors": ["task_models/supportive.py: SupportivePOMDP.sample_transition, sample_start"]}
{"id": "C26", "title": "Supportive episodes follow the task, end once and are paid once", "statement": "Along every simulated episode from sample_start, the sequence of HTM values visited (without repetitions) is an initial segment of: a path of the task DAG from an initial leaf to a last leaf, then clean, then final; final is absorbing; r_final is granted exactly on the clean to final transition, hence at most once.", "quantifier": "all tasks, action sequences and random outcomes", "why_tests_cant": "all episodes of any length", "anchors": ["task_models/supportive.py: SupportivePOMDP.sample_transition"]}
{"id": "C27", "title": "Action indices, names and objects of the supportive model agree", "statement": "actions has n_actions entries without duplicates; the bring (clear) action index of object o is the position of 'bring o' ('clear o') in actions, clear exists iff o is used by some USES or CONSUMES_SOME condition; recovering the object from an action index inverts both and raises ValueError for every other index.", "quantifier": "all tasks (all condition lists)", "why_tests_cant": "all tasks", "anchors": ["task_models/supportive.py: SupportivePOMDP.actions, _init_object_actions_indices, _obj_from_action, _bring, _clear, get_object_id"]}
{"id": "C28", "title": "Bring and clear change only the object they name", "statement": "Without random changes, bring o / clear o changes at most the presence of object o: observation none iff the object was absent/present and is now present/absent; not-found iff nothing needed doing and the state is unchanged; fail leaves the state unchanged; ask changes nothing. HTM value never changes under bring, clear and ask even with random changes.", "quantifier": "all tasks, states, objects, random outcomes", "why_tests_cant": "all states and draws", "anchors": ["task_models/supportive.py: SupportivePOMDP.sample_transition"]}
{"id": "C29", "title": "belief_quotient is the marginal on the HTM value", "statement": "belief_quotient(b)[h] is the sum of b over the states whose htm is h; it preserves the total and non-negativity; it raises AssertionError iff the length is not n_states.", "quantifier": "all arrays and feature counts", "why_tests_cant": "all sizes", "anchors": ["task_models/supportive.py: _SupportivePOMDPState.belief_quotient"]}
{"id": "C30", "title": "belief_preferences(b)[i] is the marginal probability of preference i", "statement": "belief_preferences(b)[i] is the sum of b over states with has_preference(i). (False for the code as soon as there are two preferences: the list is in reverse order. Proved: entry i is the marginal of preference n_preferences-1-i.)", "quantifier": "all arrays and feature counts", "why_tests_cant": "all sizes; numpy axis order against bit order", "anchors": ["task_models/supportive.py: _SupportivePOMDPState.belief_preferences"]}
{"id": "C31", "title": "HTMToPOMDP always yields a well-formed model", "statement": "For every task tree with non-empty combinations, task_to_pomdp produces T and O whose rows all sum to exactly 1 (with entries in [0,1] when the action parameters are probabilities) and a start distribution. (False for the code: with structured=True it always raises AttributeError; with loop=True and several initial states, or loop and reward_state together, rows do not sum to 1 and the POMDP constructor raises ValueError. Proved for all other flag combinations.)", "quantifier": "all task trees, parameters and flags", "why_tests_cant": "all trees; index arithmetic over nested blocks", "anchors": ["task_models/task_to_pomdp.py: HTMToPOMDP.task_to_pomdp, update_T, update_O"]}
{"id": "C32", "title": "HTMToPOMDP trajectories are exactly the linearisations of the task", "statement": "In the generated model (no loop flag), a sequence of leaves is visited along some positive-probability trajectory from a start state to the end state iff it is a linearisation of the task tree (parameters strictly between 0 and 1).", "quantifier": "all task trees, all action sequences, all trajectories of any length", "why_tests_cant": "language equality over unbounded trajectories", "anchors": ["task_models/task_to_pomdp.py: update_T of leaf, sequence, alternatives"]}
{"id": "C33", "title": "HTMToPOMDP leaf semantics: who can advance, what is observed", "statement": "For every leaf of the task and every action: the init state is left only by the leaf's own ask-intention and tell-intention; the robot state only by the leaf's own physical action (with probability 1-fail); the human state only to the leaf's successors; in the leaf states wait observes none, a leaf's physical action observes none exactly in the states following the leaf and error elsewhere, its ask-intention observes yes/no exactly in its human/robot state, its ask-finished observes yes exactly in the states of later leaves (deterministic variant: yes in the states following, no in its human state, error elsewhere); with loop or reward_state every action observes done in the state after the last leaf.", "quantifier": "all trees, leaves, actions", "why_tests_cant": "frame property over all leaves of all trees", "anchors": ["task_models/task_to_pomdp.py: _LeafToPOMDP.update_T, update_O"]}
{"id": "C34", "title": "HTMToPOMDP costs", "statement": "In every leaf state, each action costs its duration plus the intrinsic cost except wait (no intrinsic cost) and the leaf's own physical action in the robot state, which costs the robot duration plus intrinsic; in the state after the last leaf wait pays the end reward and every other action costs the intrinsic cost; with a reward state, wait is free in the final state; the subtask reward is subtracted exactly on transitions leaving the leaf.", "quantifier": "all trees, states, actions, flags without structured", "why_tests_cant": "block index arithmetic over all trees", "anchors": ["task_models/task_to_pomdp.py: update_R, update_R_end"]}
{"id": "C35", "title": "The bring-next model is well formed", "statement": "For every non-empty task whose objects are declared, and both loop settings, all rows of T, O and start sum to 1 and are non-negative; an undeclared object raises KeyError; a parallel node raises AttributeError.", "quantifier": "all trees, object lists and flags", "why_tests_cant": "all trees", "anchors": ["task_models/bring_next_to_pomdp.py: HTMToPOMDP.task_to_pomdp"]}
{"id": "C36", "title": "Bring-next trajectories are exactly the linearisations of the task", "statement": "Without loop, in the bring-next model the sequences of leaves visited from start to end with positive probability are exactly the linearisations of the task, and only get-<object of the current leaf> advances it.", "quantifier": "all parallel-free trees and all trajectories", "why_tests_cant": "language equality over unbounded trajectories", "anchors": ["task_models/bring_next_to_pomdp.py: _LeafToPOMDP.update_T, _SequenceToPOMDP.update_T, _AlternativesToPOMDP.update_T"]}
{"id": "C37", "title": "belief_update is Bayes rule", "statement": "For a model with non-negative rows summing to 1 and a belief that is a distribution, belief_update(a,o,b) raises Impossible iff the probability of observing o is zero, and otherwise returns the distribution b'(s') = O(a,s',o) sum_s b(s)T(a,s,s') / P(o|b,a), which is non-negative, sums to 1 and has support exactly the states reachable with o.", "quantifier": "all models, beliefs, actions, observations", "why_tests_cant": "all sizes and real values", "anchors": ["task_models/lib/pomdp.py: POMDP.belief_update", "task_models/lib/belief.py: ArrayBelief.successor"]}
{"id": "C38", "title": "Iterated belief updates are the posterior of the whole history", "statement": "Starting from belief b and applying belief_update along a1 o1 ... an on gives exactly P(s_n | b, a1 o1 ... an on) computed by summing over all state paths, and some update raises Impossible iff the history has probability zero.", "quantifier": "all models and histories of any length", "why_tests_cant": "induction over history length", "anchors": ["task_models/lib/pomdp.py: POMDP.belief_update, GraphPolicyBeliefRunner.step"]}
{"id": "C39", "title": "The POMDP constructor accepts exactly well-formed models", "statement": "The constructor succeeds iff T, O, R, start have the shapes given by the state, action and observation lists, all rows of start, T and O sum to 1 within tolerance, the names are distinct, values is reward or cost, the discount is in [0,1] and the solver is found; the stored reward is R, negated for cost. (It does not check non-negativity of probabilities.)", "quantifier": "all argument tuples", "why_tests_cant": "all shapes and values", "anchors": ["task_models/lib/pomdp.py: POMDP.__init__, _assert_shapes, _assert_normal, _assert_unique", "task_models/lib/utils.py: assert_normal"]}
{"id": "C40", "title": "POMDP dictionary round trip", "statement": "from_dict(to_dict(p)) has the same arrays, discount and state, action, observation lists, hence the same belief updates, for every constructed p with at least one action; and the same dump (false for the code when names were defaulted: counts become lists; the dump is the same exactly when all names are explicit).", "quantifier": "all models", "why_tests_cant": "all models", "anchors": ["task_models/lib/pomdp.py: POMDP.to_dict, from_dict, dump"]}
{"id": "C41", "title": "The solver file is written with rows that still sum to one", "statement": "Each row written by dump is the row rounded to 5 decimals, except at one maximal entry, and its sum is the rounded sum of the row (exactly 1 for probability rows); entries stay non-negative. (Non-negativity false for the code: a uniform row over 600 states is dumped with a negative entry. True for all the rows of n probabilities exactly when n <= 449.)", "quantifier": "all rows of any length, any rounding to nearest", "why_tests_cant": "all lengths and values", "anchors": ["task_models/lib/pomdp.py: _dump_1d_array"]}
{"id": "C42", "title": "randomize keeps a model and removes impossibility", "statement": "randomize(p) with p > 0 on a model with non-negative rows makes every row of T and O sum to 1 with all entries positive, leaves R, start unchanged; afterwards belief_update never raises Impossible. With p = 0 it changes nothing for normalised rows.", "quantifier": "all models, p > 0", "why_tests_cant": "all sizes and values", "anchors": ["task_models/lib/pomdp.py: POMDP.randomize, belief_update"]}
{"id": "C43", "title": "Solver output parsing inverts the solver file formats", "statement": "parse_value_function returns exactly the (action, vector) pairs of any file made of action line, vector line with any number of blank lines anywhere, and raises ValueFunctionParseError iff a trailing action has no vector; parse_policy_graph returns exactly the nodes of any file with lines 'i a  z1 ... zk', and raises on node numbers out of sequence and on blank lines.", "quantifier": "all line sequences", "why_tests_cant": "all file contents", "anchors": ["task_models/lib/pomdp.py: parse_value_function, parse_policy_graph"]}
{"id": "C44", "title": "Graph policy dictionary round trip and execution", "statement": "For a policy with one value vector per node or a given initial node, from_dict(to_dict(g)) runs exactly as g: for every sequence of observations both runners produce the same actions and raise Impossible at the same point; get_node_from_belief returns the first node maximising the expected value.", "quantifier": "all policies and observation sequences", "why_tests_cant": "bisimulation over all sequences", "anchors": ["task_models/lib/pomdp.py: GraphPolicy, GraphPolicyRunner"]}
{"id": "C45", "title": "A loaded policy never steps outside its nodes", "statement": "For a policy accepted by load_policy_from, following any observation sequence only visits nodes of the policy. (False for the code: a transition to node len(pg) passes the check, and get_action then raises IndexError. Proved for files whose transitions are below len(pg).)", "quantifier": "all accepted files and observation sequences", "why_tests_cant": "invariant over all executions", "anchors": ["task_models/lib/pomdp.py: POMDP.load_policy_from, GraphPolicyRunner.step, GraphPolicy.get_action"]}
{"id": "C46", "title": "GraphPolicyBeliefRunner tracks the posterior and survives impossible observations", "statement": "After any sequence of steps, current_belief is the iterated belief update of the actions actually recommended and observations given, current is the best node for that belief; a step with an impossible observation raises Impossible and changes nothing.", "quantifier": "all models, policies and observation sequences", "why_tests_cant": "invariant over all histories", "anchors": ["task_models/lib/pomdp.py: GraphPolicyBeliefRunner.step, reset"]}
{"id": "C47", "title": "trajectory_tree lists exactly the possible futures and leaves the runner unchanged", "statement": "trajectory_tree(h) contains a node for an observation sequence iff its length is at most h and each observation is possible under the policy; that node shows the posterior belief and the policy's action; afterwards the runner is in the state it was in before.", "quantifier": "all models, policies, horizons", "why_tests_cant": "recursion with mutation and restoration over unbounded depth", "anchors": ["task_models/lib/pomdp.py: GraphPolicyBeliefRunner.trajectory_tree, _rec_trajectory_tree"]}
{"id": "C48", "title": "trajectory_trees_from_starts gives one tree per possible start state", "statement": "trajectory_trees_from_starts returns one tree per start state of positive probability, rooted at the belief certain of that state. (False for the code: it always returns a single tree whose root belief puts weight 1 on every possible start state. Proved for a unique start state.)", "quantifier": "all models", "why_tests_cant": "all start distributions", "anchors": ["task_models/lib/pomdp.py: GraphPolicyBeliefRunner.trajectory_trees_from_starts"]}
{"id": "C49", "title": "visit() builds a bounded, closed and consistent policy graph", "statement": "visit(max_states) terminates with at most max_states + n_observations nodes, whose beliefs are pairwise at distance at least tol; every transition points to an existing node whose belief is within tol of the exact updated belief; entries of explored nodes are None iff the observation is impossible there; each node's action is the policy's action for its belief.", "quantifier": "all models, policies, limits", "why_tests_cant": "termination and invariants over unbounded exploration", "anchors": ["task_models/lib/pomdp.py: GraphPolicyBeliefRunner.visit, _Aux"]}
{"id": "C50", "title": "Particle beliefs are complete or fail loudly", "statement": "Creating a particle belief either yields exactly n_particles particles, each one a value returned by the sampler, or raises MaxSamplesReached, and the latter iff the sampler gave up before producing any particle; array is then a distribution over states for n_particles > 0.", "quantifier": "all samplers and all random outcomes", "why_tests_cant": "all random outcomes, recursion in an exception handler", "anchors": ["task_models/lib/belief.py: ParticleBelief._populate, array"]}
{"id": "C51", "title": "Particle successors are consistent with action and observation, with bounded sampling", "statement": "Every particle of successor(model,a,o) is the end state of a simulated transition of action a from a particle of the old belief that produced observation o; at most 100*n_particles transitions are simulated.", "quantifier": "all models, beliefs, random outcomes", "why_tests_cant": "rejection sampling under all random outcomes", "anchors": ["task_models/lib/belief.py: _SuccessorSampler, ParticleBelief.successor"]}
{"id": "C52", "title": "Node values are weighted averages of the returns", "statement": "After any sequence of updates n_simulations is their number; with alpha=0 value is their arithmetic mean; for any alpha in [0,1] value lies between the smallest and largest return, and is the documented mixture of mean and recency.", "quantifier": "all return sequences and alpha in [0,1]", "why_tests_cant": "all sequences of reals", "anchors": ["task_models/lib/pomcp.py: _ValueAverage"]}
{"id": "C53", "title": "Visit counts of the search tree are conserved", "statement": "In a POMCP search tree, after any number of simulations from any nodes, each observation node's visit count equals the sum of the visit counts of its action children plus its rollout visits, each action node's visit count equals the number of simulations through it, and each simulation with positive horizon adds exactly one visit to the start node.", "quantifier": "all models, random outcomes, simulation sequences", "why_tests_cant": "invariant over all random search histories", "anchors": ["task_models/lib/pomcp.py: _SearchTree._simulate_from_node, rollout_from_node"]}
{"id": "C54", "title": "Beliefs in the search tree are exact posteriors and search never hits an impossible observation", "statement": "With exact beliefs, every observation node of the search tree carries the posterior of its history from the start distribution, and simulating from it never raises Impossible, whatever the random outcomes of positive probability.", "quantifier": "all well-formed models, all random outcomes, any number of simulations", "why_tests_cant": "invariant over all random search histories", "anchors": ["task_models/lib/pomcp.py: _SearchTree._simulate_from_node, get_node", "task_models/lib/belief.py: ArrayBelief.successor"]}
{"id": "C55", "title": "Search values stay in the range of achievable discounted returns", "statement": "If all rewards lie in [lo, hi] with lo <= 0 <= hi and the discount is below 1, every node value in the tree stays in [lo/(1-discount), hi/(1-discount)] for ever.", "quantifier": "all models, random outcomes, simulation sequences", "why_tests_cant": "invariant over all random search histories", "anchors": ["task_models/lib/pomcp.py: _SearchTree._simulate_from_node, _one_rollout_from_node, _ValueAverage"]}
{"id": "C56", "title": "Enough iterations explore every action, and the recommended action is greedy", "statement": "From any node, k simulations with positive horizon leave max(0, u-k) of the u unexplored actions unexplored; hence get_action with iterations >= n_actions returns an explored action whose estimated value is maximal (the first such).", "quantifier": "all models, random outcomes, iteration counts", "why_tests_cant": "counting argument over all random outcomes", "anchors": ["task_models/lib/pomcp.py: _SearchObservationNode.get_best_action, POMCPPolicyRunner.get_action"]}
{"id": "C57", "title": "POMCP runner state is a function of the real history", "statement": "After any interleaving of get_action and step calls, history is the list of (action, observation) pairs since the last reset and belief is the posterior of that history; step before any get_action raises ValueError; a step that raises leaves history, belief and current node unchanged.", "quantifier": "all call sequences, random outcomes", "why_tests_cant": "histories of calls", "anchors": ["task_models/lib/pomcp.py: POMCPPolicyRunner.step, get_action, reset, _SearchTree.get_node"]}
{"id": "C58", "title": "Rollouts and simulations are bounded by their horizon and return discounted sums", "statement": "A rollout under an n-transition horizon performs exactly n transitions and returns sum gamma^k r_k; each simulation performs at most n transitions in the tree and rollouts of the remaining length. (With the HTM horizon the number of transitions is not bounded: proved by an infinite run.)", "quantifier": "all models, horizons, random outcomes", "why_tests_cant": "all random outcomes", "anchors": ["task_models/lib/pomcp.py: NTransitionsHorizon, _one_rollout_from_node", "task_models/supportive.py: NHTMHorizon"]}
{"id": "C59", "title": "Asynchronous exploration is serialised with action selection", "statement": "For every interleaving of the exploration thread and the caller, explorations and get_action bodies never overlap, after stop returns at most one more exploration runs and then the thread ends, and after step no exploration uses the previous node or action. (False for the code as regards step itself: it grows the tree outside the lock, so the caller can end up on a node detached from the tree; proved by a concrete interleaving.)", "quantifier": "all interleavings of lock acquisitions", "why_tests_cant": "thread schedules", "anchors": ["task_models/lib/pomcp.py: AsyncPOMCPPolicyRunner, AsyncPOMCPPolicyRunner._Thread"]}
{"id": "C60", "title": "An evaluation episode is recorded completely and its return is the discounted return", "statement": "simulate_one_evaluation records k actions, observations and rewards and k+1 states with k <= max_horizon, stops exactly at the first final state or the horizon, and its return is sum gamma^t r_t. (The return is false for the code: it computes sum gamma^(k-1-t) r_t; equal when gamma = 1.)", "quantifier": "all models, policies, random outcomes", "why_tests_cant": "all episodes", "anchors": ["task_models/evaluation.py: simulate_one_evaluation, FinishedOrNTransitionsHorizon"]}
{"id": "C61", "title": "repeat returns one result per run", "statement": "For every scheduling of worker processes in which no worker fails, repeat(func, n) starts exactly n runs, never more than the number of processors at a time, and returns exactly the n results; a worker exiting with a positive code makes it raise RuntimeError and never return a shorter list; a worker killed by a signal makes it raise Empty.", "quantifier": "all n, processor counts and schedules", "why_tests_cant": "process schedules and crash points", "anchors": ["task_models/utils/multiprocess.py: RepeatPool"]}
{"id": "C62", "title": "The scripted supportive policy performs its plan", "statement": "Alternating get_action and step, PolicyLongSupportiveSequence brings the three tools, then for each of the n subtasks brings a leg and holds, then clears the three tools, then waits for ever, repeating an action exactly while its observation is fail; it raises UnexpectedObservation exactly on yes/no or on not-found for hold; it never raises otherwise.", "quantifier": "all observation sequences, all n", "why_tests_cant": "all observation histories", "anchors": ["task_models/policy.py: PolicyLongSupportiveSequence"]}
{"id": "C63", "title": "PlaceAction explains exactly the transitions that add its part", "statement": "PlaceAction(board, part, loc).check(before, after) is True iff no part with that id is at loc in before and one is in after, for boards containing loc and states on that board.", "quantifier": "all boards, parts, locations, states", "why_tests_cant": "all board sizes and part sets", "anchors": ["task_models/snap_circuit.py: PlaceAction, PartPresenceCondition, SnapCircuitState.features"]}
{"id": "C64", "title": "Conditions test exactly the masked features", "statement": "Condition(mask, value) raises ValueError iff value is non-zero somewhere outside the mask; otherwise check(s) is True iff the features of s agree with value wherever mask is 1 (0/1 masks); equal conditions accept the same states. An action with a precondition and a postcondition explains a transition iff the state before satisfies the first and the state after the second; the state after is only looked at if the precondition is satisfied; equal actions explain the same transitions.", "quantifier": "all masks, values, states", "why_tests_cant": "all dimensions", "anchors": ["task_models/action.py: Condition", "task_models/action.py:76-94"]}
{"id": "C65", "title": "Equal snap-circuit states have equal hashes", "statement": "Two SnapCircuitState objects that compare equal have the same hash, so a TaskGraph finds them. (False for the code: the hash depends on set iteration order, which depends on insertion order; proved by a witness on a model of the hash table.)", "quantifier": "all pairs of equal states", "why_tests_cant": "depends on hash collisions and insertion history", "anchors": ["task_models/snap_circuit.py: SnapCircuitState.__hash__, __eq__"]}
{"id": "C66", "title": "hold_and_release_pomdp is well formed for every parameter", "statement": "For every cost and finish probability in [0,1] the hold-and-release model has distributions as rows, is accepted by the constructor, and 'final' is reached only by the physical action after the human has finished and is absorbing; a physical action before that costs cost_failure and never reaches final.", "quantifier": "all parameters, all trajectories", "why_tests_cant": "all real parameters", "anchors": ["task_models/hold_and_release.py: hold_and_release_pomdp"]}
{"id": "C67", "title": "Tower tasks place every part once per order", "statement": "v_first and h_first are permutations of all h*n parts; in h_first the parts of level k of all towers precede those of level k+1; the vertical/horizontal task has distinct leaf names, and its bring-next POMDP is accepted.", "quantifier": "all heights and numbers of towers", "why_tests_cant": "all sizes", "anchors": ["task_models/tower_problem.py: TowerProblem"]}
{"id": "C68", "title": "Elapsed time is parsed exactly", "statement": "get_process_elapsed_time maps every ps etime output [[dd-]hh:]mm:ss to dd*86400+hh*3600+mm*60+ss seconds.", "quantifier": "all field values", "why_tests_cant": "all strings of the format", "anchors": ["task_models/utils/multiprocess.py: get_process_elapsed_time"]}
{"id": "C69", "title": "Horizon copies are independent and equivalent", "statement": "For each horizon class, a copy taken while the horizon is not reached behaves exactly like the original on every sequence of transitions, and using one does not affect the other.", "quantifier": "all horizons, all transition sequences", "why_tests_cant": "bisimulation over all sequences", "anchors": ["task_models/lib/pomcp.py: NTransitionsHorizon", "task_models/supportive.py: NHTMHorizon", "task_models/evaluation.py: FinishedOrNTransitionsHorizon"]}
{"id": "C70", "title": "Tasks that the supportive model accepts", "statement": "For every task without empty combinations, SupportivePOMDP(task) succeeds exactly when the task has no parallel combination and all leaves hold SupportedAction objects, and then its HTM nodes are the leaves of the task in order; otherwise it raises AttributeError (the copies of leaves made for the orders of a parallel combination lose their conditions).", "quantifier": "all tasks, iteration orders and sufficient recursion limits", "why_tests_cant": "all trees", "anchors": ["task_models/supportive.py: SupportivePOMDP.__init__, _populate_conditions, SupportedAction", "task_models/task.py: AbstractAction.copy"]}
{"id": "C71", "title": "Sampling returns only possible outcomes, and all of them", "statement": "For a model whose rows are probability distributions, sample_transition(a, s) returns a next state and an observation of positive probability together with the reward of that transition, never raises, and can return every such pair; sample_start likewise. (A model accepted by the constructor may still make them raise ValueError, as its tolerance is wider.)", "quantifier": "all models, states, actions, random numbers in [0,1)", "why_tests_cant": "all distributions and random numbers", "anchors": ["task_models/lib/pomdp.py: POMDP.sample_transition, sample_start"]}
{"id": "C72", "title": "Bring-next observations and costs", "statement": "In the bring-next model, get-<o> is observed as good (0.9 none, 0.1 error) exactly in the states that may follow a leaf with the object o and as an error elsewhere; ask-<o> is answered yes exactly in the states of the leaves with the object o and no elsewhere (with probability 0.1 of no answer under no_answer); getting the right object costs t_get on transitions to a following state, any other get t_err, a question t_com; the end reward is received on reaching the end (without loop) or on leaving it (with loop).", "quantifier": "all parallel-free trees with declared distinct objects, all actions, states and observations", "why_tests_cant": "all trees; several leaves may share an object", "anchors": ["task_models/bring_next_to_pomdp.py: _LeafToPOMDP.update_O, update_R, HTMToPOMDP.init_O, init_R, update_R_end"]}
{"id": "C73", "title": "Evaluations of the search policy on the supportive model end", "statement": "For every task accepted by SupportivePOMDP, every number of particles, every parameter of the search and every earlier use of the policy, simulate_one_evaluation of the POMCP policy with particle beliefs terminates: it returns an episode or raises MaxSamplesReached, and never a KeyError, IndexError, ValueError or numerical error, whatever the random outcomes. The return of the episode weighs its rewards with the discount given to the model (or with 1), the last reward with weight 1.", "quantifier": "all tasks, parameters, random outcomes and earlier calls", "why_tests_cant": "all tasks and random outcomes; the composition of the task, model, belief, search and evaluation code", "anchors": ["task_models/evaluation.py: simulate_one_evaluation", "task_models/lib/pomcp.py: POMCPPolicyRunner", "task_models/lib/belief.py: ParticleBelief", "task_models/supportive.py: SupportivePOMDP"]}
{"id": "C74", "title": "Evaluations of the scripted policies on the supportive model", "statement": "For every task accepted by SupportivePOMDP that uses the three tools and legs, every random outcome and every horizon, an evaluation of a scripted policy never raises, and its actions are those of the plan at the number of actions that did not fail. If all the ways to perform the task have N leaves and the policy performs L <= N subtasks, an evaluation ends in the final state exactly when L + N + 7 actions did not fail and otherwise takes max_horizon actions; if L > N no evaluation ever reaches the final state. So in the multitask experiment the policy 'random' finishes the tasks after 2N + 7 actions that do not fail, while the policy 'repeat' never finishes the tasks 'uniform' and 'alternative' (it takes the number of leaves of all the alternatives for the number of subtasks).", "quantifier": "all tasks, parameters, random outcomes, horizons", "why_tests_cant": "all tasks, horizons and random outcomes; the composition of task, model, policy and evaluation code", "anchors": ["task_models/policy.py: PolicyLongSupportiveSequence", "task_models/evaluation.py: simulate_one_evaluation", "task_models/supportive.py: SupportivePOMDP.sample_transition", "samples/supportive_evaluation_multitask_job.py: PolicySupportiveAlternatives, task_uniform, task_alternative, task_long_sequence"]}
{"id": "C75", "title": "The best reward does not depend on the preference", "statement": "With reward_independent_preference, the best reward that can be expected from a state does not depend on whether the human has the preference ('give the same total reward on subtask whether the preference is there or not').", "quantifier": "all tasks, parameters, horizons, discounts, pairs of states that differ by the preference", "why_tests_cant": "optimal values over all policies and tasks; the correction is added for each subtask, also for those that cannot be held", "anchors": ["task_models/supportive.py: SupportivePOMDP.reward_independent_preference, sample_transition"]}
{"id": "C76", "title": "Upper bound on the reward of an episode", "statement": "For every task all of whose ways have N leaves and non-negative costs, whatever the actions chosen and the random outcomes, the undiscounted reward of an episode is at most r_final + N * (r_subtask + max(0, r_preference - cost_hold)); after the final state no reward is positive.", "quantifier": "all tasks, parameters, action sequences, random outcomes", "why_tests_cant": "all policies and episodes of any length: no reward can be collected twice", "anchors": ["task_models/supportive.py: SupportivePOMDP.sample_transition, _update_for_transition"]}
{"id": "C77", "title": "Simulations choose their actions by UCT", "statement": "In every simulation from a node of the search tree, each action except a given first one is chosen by UCT with respect to the counts and values before the simulation: an action that has not been tried if there is one, otherwise the first of the actions that maximize value + c * sqrt(log(visits of the node) / visits of the action), where c is the exploration parameter, multiplied by the difference between the largest and the smallest value in the node if relative_exploration is set.", "quantifier": "all models, search parameters, search histories, start nodes, random outcomes", "why_tests_cant": "nodes deep in the tree, ties, relative exploration and shared nodes; the tests check single nodes", "anchors": ["task_models/lib/pomcp.py: _SearchObservationNode.augmented_values, get_best_action, _SearchTree._simulate_from_node"]}
{"id": "C78", "title": "The exported policy is that of the tree", "statement": "to_dict(as_policy=True) of a search tree returns, for each node of the policy, an action that has not been tried if there is one and otherwise the first one of largest value, with the counts, values and belief of the node, and one child for each observation seen after this action, in the order of the observations listed, with the position that the viewer uses to find the observation. It changes no count, value or later choice of the search. With shared nodes, where the tree can have cycles, it returns too, and expands each belief exactly once.", "quantifier": "all search histories, models and parameters, shared or separate nodes", "why_tests_cant": "all trees, with cycles; the export creates nodes while it runs", "anchors": ["task_models/lib/pomcp.py: _SearchTree.to_dict, _SearchObservationNode.to_dict, _SearchObservationGraph"]}
{"id": "C79", "title": "The export with a quotient of the beliefs describes the same policy", "statement": "export_pomcp(policy, destination, belief_as_quotient=True) writes, for every search tree, the graph of the policy: the chosen action of each node and its children, the beliefs replaced by their quotients, and entries 'observed' with which the viewer finds the observation that leads to each child.", "quantifier": "all search histories, models, shared or separate nodes", "why_tests_cant": "all trees; needs an order of observations different from that of the model, or shared nodes", "anchors": ["task_models/lib/pomcp.py: export_pomcp, _SearchNode._map", "visualization/pomcp/pomcp.js"]}
{"id": "C80", "title": "Extraction of a hierarchy from histories", "statement": "For every task graph made of paths of plain actions none of which is named 'initial' or 'terminal', and whose conjugate exists: compacting the first maximal chain into a sequence or, without chains, the first maximal clique into a parallel action, again and again, ends after at most as many rounds as there are nodes. Each action occurs exactly once in the resulting nodes; every sequence and every parallel action is justified by the transitions of the conjugate; the result is the quotient of the conjugate by the groups; and nothing is left that could be grouped (except cliques with a node that follows itself).", "quantifier": "all sets of paths, all iteration orders of the sets, all rounds", "why_tests_cant": "all task graphs and set orders; termination of get_max_chains is not guaranteed in general (C10), only for conjugates of paths", "anchors": ["samples/test_hierarchies.py", "task_models/task.py: BaseGraph.compact, ConjugateTaskGraph.get_max_chains, get_max_cliques, MetaAction"]}
{"id": "C81", "title": "The experiments return their evaluations", "statement": "An experiment uses, for each parameter, the value of the debug mode, else the given one, else the default one. The multitask experiment builds the task and the policy that its parameters name (a sequence of legs, all the words of four holds once each in alphabetical order, or four given words; and raises ValueError or NotImplementedError for other names). With a scripted policy a run never raises, as long as no process is killed: it returns one episode for each evaluation asked, and each ends in the final state exactly if as many actions succeed as the task needs (never for the policy 'repeat' on tasks with a choice). With the search policy a run returns all its episodes or raises RuntimeError because no particle could be sampled in the process of some evaluation, and nothing else.", "quantifier": "all parameters, all random outcomes, all schedules of the worker processes", "why_tests_cant": "random outcomes, schedules of processes; the scripts are not tested", "anchors": ["task_models/evaluation.py: SupportiveExperiment", "samples/supportive_evaluation_multitask_job.py", "samples/supportive_evaluation_preference_job.py", "samples/supportive_evaluation_pomcp_job.py"]}
{"id": "C82", "title": "Every job of the launchers gives the results that are plotted", "statement": "In each of the three launchers the names of the jobs are distinct, every result that is looked up is the one of a job, and every job runs all its evaluations (with the search policy it may fail only because no particle can be sampled).", "quantifier": "all jobs of the launchers, all random outcomes and schedules", "why_tests_cant": "the launchers are not tested, and a run takes hours", "anchors": ["samples/supportive_evaluation_multitask.py", "samples/supportive_evaluation_preference.py", "samples/supportive_evaluation_pomcp.py", "task_models/evaluation.py: ExpLauncher"]}
{"id": "C83", "title": "The orders of a converted task have the probabilities of the task", "statement": "In the models made by HTMToPOMDP and by the bring-next conversion, the probability that the leaves of the task are completed in a given order is the probability of this order in the task: the product of the probabilities of the alternatives taken, the orders of a parallel combination being all as likely. This holds whether the leaves are completed by the robot or by the human, and for each repetition of the task with the flag 'loop'.", "quantifier": "all well-built tasks, all parameters and flags", "why_tests_cant": "the tests check the rows of a few small models; here the products along all paths of all tasks", "anchors": ["task_models/task_to_pomdp.py: _LeafToPOMDP.update_T, _SequenceToPOMDP, _AlternativesToPOMDP, _ParallelToPOMDP", "task_models/bring_next_to_pomdp.py"]}
{"id": "C84", "title": "Searches with a horizon of completed subtasks end with probability one", "statement": "On every supportive model, a rollout with NHTMHorizon(model, n) returns at the latest when the random policy has drawn the action 'wait' n times, whatever else happens, so for every e > 0 there is a number of steps within which all but a share e of the sequences of random actions let it return. As long as 'wait' does not stop to be drawn, the warm-up and each evaluation of a POMCP policy with this horizon end, with a result, RecursionError or (for an evaluation) MaxSamplesReached; and the jobs 'horizon-htm-...' of the pomcp launcher run all their evaluations or raise RuntimeError for one of these reasons.", "quantifier": "all supportive models, horizons, states, random outcomes, searches and schedules", "why_tests_cant": "a property of infinitely many random sequences; no test can observe that something ends with probability one", "anchors": ["task_models/supportive.py: NHTMHorizon", "task_models/lib/pomcp.py: _one_rollout_from_node", "task_models/evaluation.py: SupportiveExperiment", "samples/supportive_evaluation_pomcp.py"]}
{"id": "C85", "title": "Samples have the probabilities of the model, and particles are drawn from the posterior", "statement": "The random numbers for which POMDP.sample_transition returns the state s' and the observation o form two intervals of lengths T[a, s, s'] and O[a, s', o]; likewise for sample_start. So if the probabilities are multiples of 1/D, exactly the share T*O of the D*D pairs of equidistant numbers gives (s', o). The particles found by ParticleBelief.successor for a model, an action and an observation are then, over all random numbers of its attempts, independent of each other and of their number, and each is distributed as belief_update says for the empirical distribution of the old particles.", "quantifier": "all models with stochastic rows, all actions, observations, particles, numbers of attempts", "why_tests_cant": "probabilities over all random numbers; a test can only estimate them on an example", "anchors": ["task_models/lib/pomdp.py: POMDP.sample_transition, sample_start, belief_update", "task_models/lib/belief.py: ParticleBelief.successor, _SuccessorSampler"]}
{"id": "C86", "title": "Supportive episodes complete the leaves in the orders of the task with its probabilities", "statement": "In the supportive simulator, the probability that the leaves of a task are completed in a given order is the probability of this order in the task: the product of the probabilities of the alternatives chosen.", "quantifier": "all tasks accepted by the supportive model, all parameters, actions of the robot and other random numbers", "why_tests_cant": "probabilities of all the orders of tasks of any shape", "anchors": ["task_models/supportive.py: _HTMToDAG, SupportivePOMDP.sample_start, _update_for_transition"]}
{"id": "C87", "title": "Searches try every action as often as wanted", "statement": "For every number K there is a number of simulations from a node after which every action of this node has been tried at least K times. This number depends on the configuration, but neither on the random outcomes nor on what has been done before with the tree.", "quantifier": "all models with bounded rewards, all trees, nodes, positive exploration factors and random outcomes", "why_tests_cant": "a statement about arbitrarily many simulations, whatever the random outcomes", "anchors": ["task_models/lib/pomcp.py: _SearchObservationNode.augmented_values, get_best_action", "task_models/lib/pomcp.py: _SearchTree._simulate_from_node"]}
{"id": "C88", "title": "Searches in models without randomness find optimal plans", "statement": "In a model without randomness, the estimated value of the root tends to the largest discounted return of the plans as long as the horizon when the number of simulations grows, and after enough simulations get_action returns the first action of a plan with this return.", "quantifier": "all models without randomness and with bounded rewards, horizons, positive exploration factors, draws of the search and large enough numbers of simulations", "why_tests_cant": "a limit for arbitrarily many simulations and horizons, whatever the draws", "anchors": ["task_models/lib/pomcp.py: _SearchTree._simulate_from_node, _simulate", "task_models/lib/pomcp.py: _ValueAverage.update", "task_models/lib/pomcp.py: POMCPPolicyRunner.get_action"]}
{"id": "C89", "title": "run_trajectory logs exactly the trajectory that it runs", "statement": "run_trajectory returns iff the policy can be reset and transitions made until a final state is reached; its log then has one first line, two lines for each transition and the sum of the rewards: the texts of the states before and after, the names of the action and of the observation and the reward; the probabilities of the HTM values in the belief of the runner, each written with two characters that read as a number within 0.05, and that of the preference, within 0.005. The text of a state has its number and all its features, so that different states have different names. With particle beliefs on the supportive model nothing but MaxSamplesReached is raised.", "quantifier": "all models, policies, beliefs, start states, random outcomes and numbers of transitions; for the last sentence all tasks accepted by the supportive model, with at least one preference, and all search parameters with a bounded horizon", "why_tests_cant": "any number of transitions, arbitrary policies and beliefs; texts of arbitrary probabilities, including ties of the rounding", "anchors": ["task_models/lib/pomcp.py: POMCPPolicyRunner.run_trajectory", "task_models/lib/belief.py: _format_p, format_belief_array", "task_models/supportive.py: _SupportivePOMDPState.__str__, SupportivePOMDP.states"]}
{"id": "C90", "title": "Search nodes correspond to histories, and with sharing to beliefs", "statement": "After any calls of simulate_from_node and get_node, every node of the search is the node of a history. In _SearchTree different histories have different nodes; in _ObservationLookupSearchTree two histories have the same node iff they have the same belief, so that there are at most as many nodes as beliefs. The node of a history and its belief never change.", "quantifier": "all models, random outcomes, search parameters and sequences of calls, including calls that raise", "why_tests_cant": "arbitrary numbers of calls, each of which links new nodes anywhere in a graph that can have cycles", "anchors": ["task_models/lib/pomcp.py: _SearchTree._observation_node_for_belief, get_node, _simulate_from_node", "task_models/lib/pomcp.py: _ObservationLookupSearchTree._observation_node_for_belief"]}
{"id": "C91", "title": "The whole search tree is exported", "statement": "to_dict(as_policy=False), and trajectory_trees_from_starts(qvalue=True), returns a description of the search tree with the values, the numbers of visits, the beliefs, the actions and the observations of all its nodes in their order. With shared nodes, where the graph can have cycles, it returns too, and every node that has actions comes with its actions exactly once. The search is not changed.", "quantifier": "all models, random outcomes, search parameters and sequences of calls; recursion limits larger than twice the number of nodes", "why_tests_cant": "arbitrary trees and graphs with cycles", "anchors": ["task_models/lib/pomcp.py: _SearchTree.to_dict, _ObservationLookupSearchTree.to_dict", "task_models/lib/pomcp.py: _SearchObservationNode.to_dict, _SearchActionNode.to_dict", "task_models/lib/pomcp.py: POMCPPolicyRunner.trajectory_trees_from_starts"]}
{"id": "C92", "title": "The supportive simulator has the declared probabilities", "statement": "Over its random numbers, sample_transition returns each new state, observation and reward with exactly this probability: first every object is moved with probability p_changed_by_human and every preference changes with probability p_change_preference, independently; then the question is answered with probability 0.9 (yes) or 0.95 (no), bring and clear fail with probability p_fail if there is something to do, an unwelcome hold fails with probability 0.98, a completed leaf is followed by each of its successors with the same probability and objects consumed in part are gone with probability p_consume_all. In sample_start the initial leaf is drawn evenly, each preference holds with its probability and each object is there with probability p_changed_by_human.", "quantifier": "all tasks accepted by the supportive model, all parameters, states, actions and outcomes; random numbers are equidistant, as fine as wanted", "why_tests_cant": "exact probabilities of all outcomes for arbitrarily many objects, preferences and leaves", "anchors": ["task_models/supportive.py: SupportivePOMDP.sample_transition, sample_start", "task_models/supportive.py: _update_for_transition, _update_for_condition", "task_models/supportive.py: random_object_changes, random_preference_changes"]}
{"id": "C93", "title": "Rollouts are unbiased estimates of the value of the random policy", "statement": "The mean of the value that rollout_from_node returns, and with which it updates the node, over its random numbers and whatever the other random numbers of the search, is exactly the expected discounted return until the horizon from the belief of the node if all actions are drawn with the same probability: for belief arrays in explicit models, and for particle beliefs (the mean over the particles) in the supportive simulator.", "quantifier": "all stochastic models and all tasks accepted by the supportive model, beliefs, numbers of rollouts, bounded horizons and numbers of transitions; random numbers are equidistant, as fine as wanted", "why_tests_cant": "an exact mean over all outcomes, for any number of rollouts and transitions", "anchors": ["task_models/lib/pomcp.py: _SearchTree.rollout_from_node, _rollout_from_state", "task_models/lib/pomdp.py: POMDP.sample_transition", "task_models/supportive.py: SupportivePOMDP.sample_transition"]}
{"id": "C94", "title": "Evaluations are unbiased estimates of the value of the policy", "statement": "The mean of the return of simulate_one_evaluation over the random numbers of the supportive simulator is the expected sum of the rewards obtained by the policy until a final state or the horizon, if there is no discount (as in all the experiments); otherwise each reward is multiplied by the power of the discount given by the number of transitions after it.", "quantifier": "all tasks accepted by the supportive model, all policies with any memory whose answers are actions of the model and which accept the observations that may follow (such as the scripted policies), all horizons and discounts; random numbers are equidistant, as fine as wanted", "why_tests_cant": "an exact mean over all outcomes, for arbitrary policies and numbers of transitions", "anchors": ["task_models/evaluation.py: simulate_one_evaluation", "task_models/policy.py: PolicyLongSupportiveSequence", "task_models/supportive.py: SupportivePOMDP.sample_transition, sample_start"]}
{"id": "C95", "title": "Progress bars show the progress, replace each other and are cleared", "statement": "progress_bar draws the share that is done, rounded down, as # out of size columns and as a percentage on three columns, and both numbers can be read back; the bar is full and the percentage 100 exactly if all is done. On a terminal (wide enough) where characters replace what is there and carriage return goes to the begin of the line, bars printed with non-decreasing progress replace each other completely, and a new line begins exactly if all is done; clear_progress_bar then leaves nothing of the bar. The last part is false: with numbers and at least 50 to do, something is always left of the bar.", "quantifier": "all numbers done and to do, sizes, prefixes without control characters, and sequences of calls with non-decreasing progress", "why_tests_cant": "unbounded numbers, whose width changes with commas, and unbounded sequences of calls", "anchors": ["task_models/utils/term.py: progress_bar, print_progress_bar, clear_progress_bar"]}
{"id": "C96", "title": "The external solver gets the model and the options, and its policy is returned", "statement": "solve calls the external solver exactly once, in a new directory, with an option for each parameter that is given (the method and the type of grid for the method grid only, any other method being left to the default of the solver) and with a file that contains the dump of the model; if the solver succeeds, the policy that it has written under the name that it was given is returned, with its actions, transitions and values, and the best initial node for the start. Failures are exceptions: a model that cannot be written (the solver is then not called), a solver that cannot be started or that fails, missing files. In every case the directory is removed and the disk is left as it was. Policies and models that are saved in a file are loaded unchanged. False for policies without any transition (such as those of one step): solve raises ValueError.", "quantifier": "all models, parameters, disks, and external solvers (which only change files in their directory, for the last part); JSON libraries that invert themselves", "why_tests_cant": "all behaviours of an external program, including failures, and all contents of files", "anchors": ["task_models/lib/pomdp.py: POMDP.solve, dump_to, load_policy_from, save_as_json, load_from_json", "task_models/lib/pomdp.py: GraphPolicy.save_as_json, load_from_json, to_json, from_json", "task_models/lib/py23.py: TemporaryDirectory"]}
{"id": "C97", "title": "Particle beliefs in the supportive simulator are drawn from the exact posterior", "statement": "If ParticleBelief.successor is used with the supportive simulator, the particles it finds are independent of each other and of their number, and each has exactly the posterior distribution given by the declared probabilities of the model: the probability that a state drawn from the empirical distribution of the old particles is followed by this state and the observation, divided by the probability of the observation. The probabilities of the observations add up to one. The probability that MaxSamplesReached is raised is (1 - P(o)) ** (100 * n_particles), and it is raised for all random numbers exactly if the observation is impossible.", "quantifier": "all tasks accepted by the supportive model, all parameters, lists of particles, actions, observations and numbers of attempts; random numbers are equidistant, as fine as wanted", "why_tests_cant": "exact probabilities of lists of particles, for any number of particles and states", "anchors": ["task_models/lib/belief.py: ParticleBelief.successor", "task_models/supportive.py: SupportivePOMDP.sample_transition"]}
{"id": "C98", "title": "Graph policies earn the values of their nodes, and following the belief is near-optimal", "statement": "If the value of each node of a graph policy is, up to epsilon, the expected reward of its action and the discounted value of the node that follows, then GraphPolicyRunner never fails on a possible observation and its expected discounted reward over k actions differs from the value of its node by at most discount**k * B + epsilon * (1 + discount + ... + discount**(k-1)), where B bounds the values. GraphPolicyBeliefRunner (which chooses the best node for the updated belief after every observation) and a policy started at a belief earn at least the best value at the belief, up to this difference. If moreover no lookahead of one action improves the values by more than delta, then no agent of any kind earns more than the best value, up to the same difference with delta, so that GraphPolicyBeliefRunner is near-optimal.", "quantifier": "all stochastic models with distinct names, graph policies, errors, discounts, beliefs, numbers of actions and agents with any memory", "why_tests_cant": "exact expectations over all histories of any length, compared with all other agents", "anchors": ["task_models/lib/pomdp.py: GraphPolicy, GraphPolicyRunner, GraphPolicyBeliefRunner"]}
{"id": "C99", "title": "Tasks whose actions have unique names are converted", "statement": "In a task converted by HTMToPOMDP, a leaf is copied for each order of the parallel combinations that contain it, with the numbers of these orders in the names of the copies, and nothing else is renamed. The task is accepted, with distinct names of states, actions and observations, exactly if the names of the copies are distinct in lower case and with dashes for blanks; otherwise ValueError is raised. This is so if the names of the leaves are distinct in this sense and do not end in '-order-' and a number. False for names that are only unique, as the documentation of CollaborativeAction asks ('Get legs' and 'get-legs'), and for names that are those of copies. The task of stool_scenarios.py is accepted for all parameters (without structured, and without both loop and reward_state), has three states for each of its nine actions, and all its trajectories do the actions in their order.", "quantifier": "all tasks (of any depth, with any nesting of parallel combinations) and parameters without structured and loop; all parameters for the stool", "why_tests_cant": "all trees and all names", "anchors": ["task_models/task_to_pomdp.py: _name_radix, CollaborativeAction.copy, _LeafToPOMDP.__init__, HTMToPOMDP.task_to_pomdp", "task_models/task.py: ParallelCombination.to_alternative, deep_copy", "task_models/stool_scenarios.py: all", "samples/icra_scenario2pomdp.py: 18-19"]}
{"id": "C100", "title": "The input file of the solver describes the model", "statement": "The text made by dump, read by the rules of the format of the solver (words separated by blanks and newlines, with colons as words; sections for the discount, the kind of values, the states, actions and observations, the start belief, and entries T, O and R with matrices whose rows are start states, end states and end states), is accepted and declares the same states, actions, observations and discount, has one T and one O entry for each action and one R entry for each action and state, in order, and all their numbers are those of the model up to half a unit of the fifth decimal, except one number of each row, which may differ by as many half units as the row has numbers, so that the sum of the row is that of the model up to half a unit, and is 1 if it is 1 in the model. Numbers with five decimals are written exactly. This holds for names that are words of the format, and for all models made by HTMToPOMDP if the names of the actions have no tabs, newlines and colons. False for other names: the constructor accepts names with blanks, and the solver cannot read the file.", "quantifier": "all models accepted by the constructor, with any number of states, actions and observations (also none of the last two) and any names that are words; all tasks", "why_tests_cant": "all shapes of arrays and all numbers; a test compares the text for one model", "anchors": ["task_models/lib/pomdp.py: PREAMBLE_FMT, NUMBER_FORMAT, _dump_list, _dump_list_or_count, _dump_1d_array, _dump_2d_array, _dump_3d_array, _dump_4d_array, POMDP.dump", "task_models/task_to_pomdp.py: _LeafToPOMDP.states, actions, HTMToPOMDP.task_to_pomdp"]}
{"id": "C101", "title": "The enumeration of the search tree lists its histories in the given order", "statement": "node_search lists histories of the search tree with their nodes. Each history (the names of actions and observations in turn) leads from the root to its node, no history is listed twice, and a history comes after the one without its last turn. The next history is always picked among those that are one turn after a listed one (or the root): the first of them in the order breadth, so that shorter histories come first, the last one in the order depth, and in the order q one of the largest value (the first in the order of lists among equal values). The list ends only when it is complete or has max_nodes elements. Without shared nodes every node is listed exactly once, and min(max_nodes, number of nodes) with max_nodes. Other orders raise ValueError. format_history shows every turn by the initials of its action and observation, with the number of elements. False with shared nodes, which the sample uses: without max_nodes the search never ends if a node can be reached from itself. False from Python 3.7 on: format_history raises an exception for every history, as by_two ends with StopIteration.", "quantifier": "all search trees after any calls of the search, with distinct names of actions and of observations, all orders, limits and histories", "why_tests_cant": "trees of any shape; there is no test of the samples", "anchors": ["samples/pomcp.py: push_last, push_heap, pop_first, pop_last, pop_heap, node_search, by_two, short_a, short_o, format_history", "task_models/lib/pomcp.py: _SearchObservationNode.children_dict"]}
{"id": "C102", "title": "The snap circuit demonstrations are recorded as they are", "statement": "path_make_L raises AssertionError exactly for the positions on the last two rows or the last column or beyond, IndexError for the other positions with an index below those of numpy, and else returns a valid path: the empty board, the board with one part, the board with both parts of the L, and between them the actions that add them. The random paths are those of the positions where the L fits, and each is possible. The graph of the paths of any list of such positions recognises exactly these paths and the empty one; its dictionary has one node for the empty board and two nodes and two links for each distinct position, whatever the order of iteration. States and actions of these paths are equal only if they are identical. The name of an action tells the label, the position and the orientation; the text of a state has the text of each part once.", "quantifier": "all positions, lists of positions, random numbers, boards, parts and iteration orders", "why_tests_cant": "any number of positions and every order of iteration of sets; there is no test of the samples, nor of the texts", "anchors": ["samples/snap_circuit_scenarii.py: path_make_L, random_paths_make_L", "task_models/snap_circuit.py: SnapCircuitPart.__repr__, SnapCircuitState.__str__, PlaceAction.__init__", "task_models/task.py: TaskGraph.add_path, TaskGraph.has_path, BaseGraph.as_dictionary"]}
{"id": "C103", "title": "A launcher reads the results of its own jobs", "statement": "NPEncoder writes any value as the encoder of Python writes it with numbers instead of numbers of numpy and lists instead of arrays. So the results of an experiment are written without any exception, as they are, whichever numbers come from numpy. The parameters that action_prepare writes for a job are read back by the job as they were. If the names of the jobs are distinct, and the configuration files too and none is a file of results, then after the jobs have run in any order and all have given results, get_results returns for each name the returns, times and numbers of calls of the job of that name with its own parameters, in their order, whatever was in the files before. The multitask launcher then prints the means of the hundred returns of each job, and a curve goes through the means of the jobs of its list. In a directory without results, if a job was not run or has raised an exception, get_results raises FileNotFoundError. False for the preference launcher: its jobs for never-hold raise an exception, so it can never read its results.", "quantifier": "all values, results, parameters, lists of jobs with distinct names, files, orders of the jobs and runs", "why_tests_cant": "the results of hours of computation on a cluster are read long after; there is no test of the launchers", "anchors": ["task_models/lib/utils.py: NPEncoder.default", "task_models/evaluation.py: SupportiveExperiment.write_result, SupportiveExperiment.run_from_arguments, ExpLauncher.get_results_from_one, ExpLauncher.get_results, ExpLauncher.action_prepare", "samples/supportive_evaluation_multitask.py: print_results", "samples/supportive_evaluation_preference.py: plot_results", "task_models/utils/plot.py: plot_var"]}
{"id": "C104", "title": "Beliefs stored in floating point numbers are the exact posteriors up to rounding", "statement": "When each addition, product and quotient of belief_update is rounded, and the sums are made in any order, an update fails exactly if the observations so far have probability zero; otherwise the belief after any history is the exact posterior of the whole history up to a relative error proportional to the number of roundings, the errors of earlier updates not being amplified by later ones, and it is accepted as a distribution by assert_normal and np.random.choice. With rounding to double precision this holds as long as no product underflows; the part about acceptance holds even then. (It is false with underflow: a model that the constructor accepts has an observation of positive probability that belief_update refuses.)", "quantifier": "for all models with nonnegative arrays, start beliefs, histories, rounding relations with a bounded relative error, and orders of summation", "why_tests_cant": "rounding errors show up in the last digits and after long histories; tests compare with a tolerance after one update", "anchors": ["task_models/lib/pomdp.py: POMDP.belief_update, GraphPolicyBeliefRunner.step", "task_models/lib/belief.py: ArrayBelief.successor, ArrayBelief.sample", "task_models/lib/utils.py: assert_normal"]}
{"id": "C105", "title": "Plays of a converted task: who does each leaf, how long it takes and what it costs", "statement": "In a model of HTMToPOMDP without the flag deterministic, every play from a start to the end consists of visits of the leaves of one order of the task, each uniquely split into actions of no effect, the question or the announcement that decides who does the leaf, actions while it is being done, and the action that completes it. Whatever the actions, the probability of a play is the probability of the order in the task (with alternatives all as likely) times, for each leaf, a probability that depends only on this leaf and the actions of its visit; the sum of rewards is a sum of costs of the visits and does not depend on what is observed. The probability that the human is still busy after some actions depends only on the time they take, exp(-time / t_hum), up to the precision of exp. Repeated attempts of the robot succeed within m attempts with probability 1 - fail^m, at the expected cost of a geometric number of attempts; the same for waits while the human works.", "quantifier": "for all tasks, parameters, plays of any length, sequences of actions and numbers of attempts", "why_tests_cant": "tests compare single entries of T and R for two small tasks; no test plays a converted model or relates entries of several leaves", "anchors": ["task_models/task_to_pomdp.py: _LeafToPOMDP.update_T, _LeafToPOMDP.update_R, _LeafToPOMDP._h_probas_not_finished_from_d, _SequenceToPOMDP, _AlternativesToPOMDP, HTMToPOMDP.task_to_pomdp"]}
{"id": "C106", "title": "The figures of the launchers show what their labels say", "statement": "The figures that the three launchers draw from the results: each point of a curve is the mean, with the variance, over the evaluations of the one job that has the parameters given by the axis, the abscissa and the label of the curve; each box has the returns of the job of the task of its panel and of the policy of its label; the legends name the curves by their colors; the panels have the titles given to them. An exception is raised if the results of a job that is shown are missing.", "quantifier": "For all results (with the same positive number of evaluations for all jobs where curves are drawn), all options.", "why_tests_cant": "The figures are only looked at by people; no test draws one.", "anchors": ["task_models/utils/plot.py:81-148", "samples/supportive_evaluation_pomcp.py:44-111", "samples/supportive_evaluation_preference.py:42-71", "samples/supportive_evaluation_multitask.py:48-73"]}
{"id": "C107", "title": "The policy built by visit() runs like the belief runner", "statement": "The policy graph that visit() builds has exactly the beliefs that can be reached as its nodes, each once; run from its initial node, or reset to the belief of one of its nodes, it gives for every sequence of observations the same actions as the runner that updates the exact belief, and raises the same exceptions at the same observations.", "quantifier": "For all models and policies, all sequences of observations (some of them impossible or unknown), all limits on the number of states.", "why_tests_cant": "Tests visit the policy of one small problem and look at its nodes; no test runs the visited policy against the belief runner, and sequences of observations are unbounded.", "anchors": ["task_models/lib/pomdp.py:454-480 (GraphPolicyBeliefRunner)", "task_models/lib/pomdp.py:520-579 (visit, _Aux)", "task_models/lib/pomdp.py:403-452 (GraphPolicy, GraphPolicyRunner)"]}
{"id": "C108", "title": "The page of policies shows the policy that was saved", "statement": "For a policy graph written by save_as_json, the page visualization/policy draws one circle for each node, labelled by the number and the action of the node, with a mark on the initial one, and one arrow for each transition, in the color of its observation in the legend, so that following arrows is running the policy; the switch hides exactly the arrows of done; files that are selected are displayed.", "quantifier": "For all policy graphs, both positions of the switch, all sequences of observations, all sequences of actions of the user.", "why_tests_cant": "There is no test of the pages; they are only looked at for a few files.", "anchors": ["visualization/policy/policy.js", "visualization/policy/policy.html", "visualization/policy/style.css", "task_models/lib/pomdp.py:382-440 (GraphPolicy)"]}
{"id": "C109", "title": "The page of trajectories shows the tree that was saved", "statement": "For a tree written by save_trajectories_from_starts, the page visualization/trajectories displays, after any sequence of clicks, exactly the nodes whose ancestors have all been opened, each once, with the node of the policy and the action, and links in the style of the observation that leads to their target. (The links from the root have the right style; every other link always has a wrong one.)", "quantifier": "For all trees, all sequences of clicks.", "why_tests_cant": "There is no test of the pages; they are only looked at for a few files.", "anchors": ["visualization/trajectories/trajectories.js", "task_models/lib/pomdp.py:482-518 (trajectory_tree, save_trajectories_from_starts)"]}
{"id": "C110", "title": "The page of search trees shows the policy that was exported", "statement": "For a file written by export_pomcp, the page visualization/pomcp displays, after any sequence of clicks and reloads, exactly the nodes of the policy whose ancestors have all been opened, each once, with links named by the observations; moving the mouse over a node shows its belief, values, values with the bonus of exploration and visits below the headers of its states and actions, and marks the action that the search would choose. (The headers stay those of the first file; an action that has not been tried is chosen but not marked; without visits every action is marked.)", "quantifier": "For all files, all sequences of clicks, reloads and moves of the mouse, all search trees.", "why_tests_cant": "There is no test of the pages; they are only looked at for a few files.", "anchors": ["visualization/pomcp/pomcp.js", "visualization/pomcp/pomcp.html", "task_models/lib/pomcp.py:596-639 (export_pomcp)"]}
{"id": "C111", "title": "The pages of task trees show the tree that was read last", "statement": "The pages visualization/htm and visualization/htm-ros-subscriber display, after any sequence of selections of files, buttons, messages and clicks that raises no exception, exactly the nodes of the tree read last whose ancestors are all open (at first those below the limit of depth), each once, with a link from each to its displayed children; each with its name after the replacements, its attributes, the mark of collapsed nodes exactly when it is closed, and the symbol of its combination. (The elements whose id was already displayed keep the name, the attributes and the symbol of the earlier tree; the replacements are made again each time a node reappears; a node that is closed when it appears never gets its symbol; after a message no file is displayed any more.)", "quantifier": "For all trees, all files and messages, all sequences of events.", "why_tests_cant": "There is no test of the pages; they are only looked at for a few trees, usually right after loading.", "anchors": ["visualization/htm/htm.js", "visualization/htm/htm.html", "visualization/htm-ros-subscriber/ros.js", "visualization/htm-ros-subscriber/htm-ros-subscriber.html", "task_models/task.py:401-416,540-545 (as_dictionary)"]}
{"id": "C112", "title": "Heat maps show every entry under its labels", "statement": "plot_beliefs, plot_values and pcolormesh draw every entry of the array in the square of its row and column, put each label in the middle of its row or column and show nothing around; labels of the wrong number raise AssertionError in the first two. The colors of plot_values are between 0 and 1, increase with the value within a row, and the best state of a row has the darkest. (They cannot be compared between rows although there is one color bar, and a row whose values are all the least of the array is blank.) remove_chartjunk hides exactly the given spines and makes the others thin, and removes exactly the given ticks (but raises TypeError when asked to remove labels of ticks). The colors of get_n_colors are different from each other.", "quantifier": "For all arrays, labels, maps of colors, spines and ticks.", "why_tests_cant": "There is no test of the figures; a map in which colors of different rows are not comparable looks right.", "anchors": ["task_models/plot.py:5-27", "task_models/utils/plot.py:39-53,151-215", "samples/htm2pomdp.py:93-99", "samples/icra_scenario2pomdp.py:38-44"]}
{"id": "C113", "title": "Task graphs of states that are vectors", "statement": "When demonstrations are recorded with one NDimensionalState for each vector, and the vectors have different hashes, the graph has exactly their initial states, terminal states and transitions, and has_path finds each of them. In every graph the initial states, the terminal states and the states with transitions have different hashes. add_path raises ValueError exactly for what is not a path, and otherwise nothing but TypeError. (NDimensionalState has no equality of its own and inherits one that raises: a demonstration that starts in a new object with the vector of a known initial state can be neither added nor looked up, and add_path can raise after it has added an initial state.) all_nodes returns the states of the transitions, or raises TypeError if two of them have the same hash.", "quantifier": "For all hash functions, actions, checks of actions, sequences of demonstrations and states.", "why_tests_cant": "The tests of the graphs use states of a class that defines equality.", "anchors": ["task_models/state.py:10-42", "task_models/task.py:104-126,174-194", "task_models/lib/belief.py:6-12"]}
{"id": "C114", "title": "Expected returns against the probability of the preference", "statement": "In the experiment on preferences the expected return of every policy is an affine function of the probability p_H given to the model: p_H times its value with people who have the preference plus (1 - p_H) times its value with people who do not. Hence the best expected return of any class of policies is convex in p_H. A policy that never holds and never asks has the same expected return for all p_H if the rewards are not made independent of the preference; if they are, and the preference does not change, its undiscounted expected return falls by r_preference - cost_hold per unit of p_H for each leaf completed in expectation, so it is strictly decreasing if the policy begins with wait.", "quantifier": "For all task trees, parameters, policies with memory, horizons, discounts, probabilities and random numbers.", "why_tests_cant": "Tests sample a few starts with p_preferences [0] and [1]; the experiment estimates each point of the curve separately by sampling.", "anchors": ["task_models/supportive.py:437-520", "task_models/evaluation.py:10-70", "samples/supportive_evaluation_preference_job.py:10-40"]}
{"id": "C115", "title": "How long to hold before acting or asking", "statement": "In hold_and_release_pomdp, a plan waits n times and then acts or asks, begins again if the human was still working, and acts when the human is done. Its expected cost is (n wait + X) / (1 - (1 - proba_finish)^(n + 1)), with X = cost_communication for asking and (1 - proba_finish)^n cost_failure for acting; as a policy graph it solves the model without error. No agent, whatever its memory, expects to pay less than the best plan times the probability that it has released, and GraphPolicyRunner with the plan pays no more than its cost and releases almost surely. One more wait pays iff wait (1 - (1-f)^(n+1) (1 + n f)) < X0 (1-f)^n f, and once it does not pay no longer wait does; asking never pays if it costs as much as a failure.", "quantifier": "For all non-negative costs, finish probabilities in (0, 1], agents with memory, plans and numbers of steps.", "why_tests_cant": "hold_and_release.py has no test. Optimality is a statement about all agents and horizons; a solver gives one policy for one set of costs.", "anchors": ["task_models/hold_and_release.py:6-33", "task_models/lib/pomdp.py:380-480"]}
{"id": "C116", "title": "The sample scripts that solve a task", "statement": "samples/htm2pomdp.py, samples/icra_scenario2pomdp.py and samples/tower_scenario.py convert a task, call the solver once (grid method; 500 iterations, in tower_scenario.py 50 with the pairwise grid) on the file of the model, and save three files: the first one loads back as the policy of the solver, the second one as the tree of the beliefs of this policy for ten steps from the start, the third one as a policy whose nodes are beliefs that are reached, with the same actions. Nothing else is changed on the disk; the figures at the end show the values of the nodes and the beliefs of the third file, relatively to the greatest probability of each; a refused task, a missing or failing solver and a missing directory stop the script with the disk unchanged; the costs of the model are the constants of the script. (False for tower_scenario.py, which imports a name that does not exist, and for the costs of htm2pomdp.py, where C_INTR is passed as t_tell.)", "quantifier": "For all accepted tasks and parameters, all solvers that write a policy for the model and stay in their directory, all disks, encoders and machines.", "why_tests_cant": "No sample is run by the tests, and they need an external solver; the claim is about all policies that it may return.", "anchors": ["samples/htm2pomdp.py:1-108", "samples/icra_scenario2pomdp.py:1-60", "samples/tower_scenario.py:1-45", "task_models/lib/pomdp.py:515-518"]}
{"id": "C117", "title": "The sample script of the search", "statement": "samples/pomcp.py converts the task of the stool, explores it with a hundred turns of a hundred iterations and saves the policy that is found. It ends without exception; during the search the line of the cursor shows the percentage, the action with the best estimate at the root and this estimate; at the end the line reads \"Exploring... [done]\", and the number of beliefs that is announced is the number of different beliefs of the tree; the root has been visited at least 10000 times and all its actions have been tried; the file contains the policy of this tree, the actions, the states and the parameters of the exploration, and no other file is changed. (False: line 6 imports a name that does not exist; the end of the last status remains visible behind the last line; with fewer iterations than actions the status raises AttributeError.)", "quantifier": "For all models with probabilities, start beliefs, random numbers, numbers of turns and of iterations (at least one per action), horizons, exploration bonuses, formats of numbers, encoders and disks.", "why_tests_cant": "No sample is run by the tests; the claim is about all sequences of random numbers and about what is seen on the terminal.", "anchors": ["samples/pomcp.py:1-10", "samples/pomcp.py:88-138", "task_models/lib/pomcp.py:201-206", "task_models/lib/pomcp.py:463-473", "task_models/lib/pomcp.py:489-490"]}
{"id": "C118", "title": "Returns and values in floating point arithmetic", "statement": "In floating point arithmetic the return of a simulation, the value of a node of the search and the return of an evaluation are those of exact arithmetic up to rounding: with doubles the error of a value after n simulations with at most H transitions and J rollouts, whose rewards are at most R, is at most (n + H + J + 2) 2^-48 (H + 1) R. The action that is best for the rounded values is best for the exact ones up to twice this error. Without rounding this is the arithmetic of the other claims. Rounding does change a result: after three simulations with the return 0.1 the value is larger than 0.1.", "quantifier": "For all lists of simulations, rewards, discounts and alpha between 0 and 1, and all roundings with a relative error of at most 1/100 and an absolute error that is small compared to the rewards; then for doubles with gradual underflow, for n + H + J + 3 up to 2^48.", "why_tests_cant": "Tests compare a few values with a tolerance; the bound is about all lists of simulations of all lengths.", "anchors": ["task_models/lib/pomcp.py:110-132", "task_models/lib/pomcp.py:141-173", "task_models/lib/pomcp.py:223-231", "task_models/lib/pomcp.py:297-318", "task_models/evaluation.py:71-82"]}
{"id": "C119", "title": "How near the means of the figures are to the expected values", "statement": "The mean that a figure shows for a job with n evaluations is on average, over the seeds that its workers get, the mean over the evaluations with all the seeds; its mean squared error is the variance of an evaluation divided by n, while the variance that is shown is on average too small by the factor 1 - 1/n. For an experiment on the supportive model with N subtasks the return of each evaluation is between minus the most that can be lost in max_horizon transitions and r_final plus N times the reward of a subtask, and so the mean return that is shown is at a distance of eps or more from the expected one for at most a proportion 2 exp(-2 n eps^2 / w^2) of the seeds, where w is the width of this interval.", "quantifier": "For all the experiments on the supportive model (scripted and search policies), numbers of evaluations and of seeds, random numbers that follow from a seed, orders in which the processes take their steps, quantities that are shown, and eps > 0; the choices of seeds are counted as equally likely.", "why_tests_cant": "Tests run an experiment for a few seeds; the property is about all the choices of seeds together, which are 2^(32 n).", "anchors": ["task_models/utils/multiprocess.py:22-25", "task_models/utils/multiprocess.py:45-54", "task_models/evaluation.py:71-102", "task_models/evaluation.py:145-167", "task_models/utils/plot.py:80-110"]}
{"id": "C120", "title": "The figure of the exploration term", "statement": "The figure of samples/plot_exploration_term.py has one curve for each of the seven percentages; at a number n of simulations the curve of p percent should show the exploration term sqrt(log n / m) of an action that has m = p n / 100 of them, and its label should be the percentage. (It shows a tenth of this term, and the labels have brackets.) The curves start from 0, rise until three simulations and never rise after; those of larger percentages are below. There are values for all n below 100 and for the multiples of 100 from 200 to 99900.", "quantifier": "For all percentages and numbers of simulations of the figure, in exact arithmetic; the comparison with the search for any exploration term computed with a relative error r.", "why_tests_cant": "A test could compare a few points of the curves; nothing tests the figure.", "anchors": ["samples/plot_exploration_term.py:10-18", "task_models/lib/pomcp.py:297-307", "task_models/lib/pomcp.py:343-350"]}
{"id": "C121", "title": "The action plot of the launchers shows or saves", "statement": "The action plot of a launcher shows the figure if no destination is given; if one is given it writes the figure to its file in that directory, with the settings of matplotlib for print (the settings of other names staying as they were), and shows nothing. The data of the figure are the same in both cases; the deviations of the preference launcher are drawn only if it is shown. If a result is missing an exception is raised, nothing is shown and no file is written. (False of the pomcp launcher, which ignores the destination.)", "quantifier": "For all files, destinations, settings and states of the drawing.", "why_tests_cant": "Nothing tests the launchers, which need matplotlib and the results of many jobs.", "anchors": ["samples/supportive_evaluation_pomcp.py:107-109", "samples/supportive_evaluation_preference.py:71-81", "samples/supportive_evaluation_multitask.py:72-82", "task_models/evaluation.py:231-266"]}
{"id": "C122", "title": "A runner of a policy after an unexpected observation", "statement": "After an observation that a policy does not expect (step raises Impossible) the runner has no current node: until it is reset, get_action raises an exception, and step refuses every observation with an exception. (False of the code for every policy: the current node None is an index of numpy for a new axis, and a further observation is taken silently. Proved: get_action raises TypeError; every step raises but for the first observation whose position is less than the number of nodes.) A reset brings the runner back to its first node, or to the best node for a belief, whatever happened before.", "quantifier": "For all policies accepted by the constructor, all runs and all sequences of observations.", "why_tests_cant": "Nothing tests the runners of graph policies.", "anchors": ["task_models/lib/pomdp.py:406-410", "task_models/lib/pomdp.py:442-460"]}
{"id": "C123", "title": "Reading task files", "statement": "json_to_htm returns a task exactly for the files that describe a tree: every node that is read has the keys name, combination, id, parent and attributes; a node with attributes is a leaf whose agent is the first attribute other than highlighted; a node without attributes has children, which are read in order, and the name of a combination class (an alternative has at least one child). The task is then the tree described. Every other file is refused: OSError if it does not exist, ValueError if it is not JSON, KeyError without nodes, TypeError if nodes is null (the file of an empty task), and otherwise with the error of the first node, children before their parent, that has one. The actions of a task that is read have no copy method: copying the task, or making the orders of its root when that is parallel, raises AttributeError as soon as it has a leaf; copying succeeds otherwise.", "quantifier": "For all files in which any key may be missing at any depth, and all trees.", "why_tests_cant": "There is no test of json_to_htm; the example files of the repository all fall in the same case (a leaf without attributes, KeyError).", "anchors": ["task_models/json_to_htm.py:9-33", "task_models/task.py:534-545", "task_models/action.py:53-66"]}
