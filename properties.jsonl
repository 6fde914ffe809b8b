{"id": "C01", "title": "State IDs and grid coordinates are a row-major bijection", "statement": "For every grid shape (W,H), state s of a grid MDP has coordinates (s div H, s mod H); state_to_idx and idx_to_state are mutually inverse on the grid, and both raise ValueError for an ID or coordinate outside it.", "quantifier": "all grid shapes, all state IDs and coordinate pairs", "why_tests_cant": "The claim ranges over every shape and every ID; tests fix one 15x10 grid.", "anchors": ["maMDP/grid_utils.py:grid_coords", "maMDP/mdp.py:GridMDP.get_state_coords", "maMDP/mdp.py:GridMDP.state_to_idx", "maMDP/mdp.py:GridMDP.idx_to_state"]}
{"id": "C02", "title": "Square grid transitions are exactly the four compass moves", "statement": "For every shape with at least one cell and every self_transitions flag, building a SquareGridMDP succeeds and its transition array has sas[s,a,s']=1 exactly when s' is the in-grid cell one step from s in direction a (0:+y, 1:+x, 2:-y, 3:-x), or a is the extra last action and s'=s; every other entry is 0.", "quantifier": "all grid shapes, flags and (s,a,s') triples", "why_tests_cant": "Tests compare one 2x2 table; the claim is for grids of every size.", "anchors": ["maMDP/mdp.py:SquareGridMDP._get_sas", "maMDP/grid_utils.py:square_adjacency", "maMDP/grid_utils.py:get_action_from_states_square"]}
{"id": "C03", "title": "Hex grid transitions are exactly the six hexagon moves", "statement": "For every shape with at least one cell and every self_transitions flag, building a HexGridMDP succeeds and sas[s,a,s']=1 exactly when s' is the in-grid cell obtained from s by the a-th hexagon direction of the even-q layout (which depends on the parity of the column), or a is the extra last action and s'=s; every other entry is 0.", "quantifier": "all grid shapes, flags and (s,a,s') triples", "why_tests_cant": "Tests compare one 2x2 table; parity cases and boundaries are unbounded.", "anchors": ["maMDP/mdp.py:HexGridMDP._get_sas", "maMDP/grid_utils.py:hex_adjacency", "maMDP/grid_utils.py:get_action_from_states_hex"]}
{"id": "C04", "title": "Grid MDPs are deterministic", "statement": "In every grid MDP, with any walls, each (state, action) has at most one successor, every entry of sas is 0 or 1, and the MDP is flagged deterministic.", "quantifier": "all shapes, kinds, flags, wall layouts", "why_tests_cant": "Ranges over every shape and all 2^n wall layouts.", "anchors": ["maMDP/mdp.py:GridMDP", "maMDP/mdp.py:MDP.sas", "maMDP/mdp.py:MDP.walls"]}
{"id": "C05", "title": "Moves on a grid are reversible", "statement": "If action a (not the self action) takes s to s' in a square (hex) grid with any walls, then action a+2 mod 4 (a+3 mod 6) takes s' to s.", "quantifier": "all shapes, wall layouts, states and actions", "why_tests_cant": "Universal over shapes and wall layouts.", "anchors": ["maMDP/mdp.py:SquareGridMDP._get_sas", "maMDP/mdp.py:HexGridMDP._get_sas", "maMDP/mdp.py:MDP.walls"]}
{"id": "C06", "title": "Hex distance is the shortest-path distance", "statement": "offset_distance is a metric on all integer offset coordinates (zero only for equal cells, symmetric, triangle inequality), is always a whole number, and equals the least number of hexagon moves between the two cells. hex_dist gives the matrix of these distances between two lists of cells.", "quantifier": "all pairs/triples of integer coordinates", "why_tests_cant": "Infinite domain; the triangle inequality and minimality cannot be sampled.", "anchors": ["maMDP/grid_utils.py:offset_distance", "maMDP/grid_utils.py:cube_distance", "maMDP/grid_utils.py:offset_to_cube", "maMDP/grid_utils.py:hex_dist"]}
{"id": "C07", "title": "The action recovered from a pair of adjacent cells is the one that performs the move", "statement": "For adjacent states A,B of a wall-free grid, get_action_from_states_* always returns an action (never falls through its branches), it is the unique action with sas[A,a,B]=1, and for non-adjacent states it raises ValueError.", "quantifier": "all shapes and state pairs", "why_tests_cant": "Universal over shapes and pairs; a missing branch would be an unbound variable on some pair only.", "anchors": ["maMDP/grid_utils.py:get_action_from_states_hex", "maMDP/grid_utils.py:get_action_from_states_square"]}
{"id": "C08", "title": "Every cell of a wall-free grid is reachable from every other", "statement": "On a wall-free grid of any shape every state can be reached from every other by valid moves; on the square grid the least number of moves is the Manhattan distance.", "quantifier": "all shapes and state pairs", "why_tests_cant": "Unbounded path lengths.", "anchors": ["maMDP/mdp.py:SquareGridMDP._get_sas", "maMDP/mdp.py:HexGridMDP._get_sas"]}
{"id": "C09", "title": "A wall is a state that can be neither entered nor left", "statement": "After assigning walls, no action has positive probability of entering or leaving a walled state, and every transition between two non-walled states is exactly what it was in the original transition array.", "quantifier": "all MDPs, wall arrays, states and actions", "why_tests_cant": "All 2^n layouts.", "anchors": ["maMDP/mdp.py:MDP.walls"]}
{"id": "C10", "title": "Wall assignment is history independent and reversible", "statement": "After any sequence of wall assignments, add_wall_xy calls, reset_walls calls and direct sas assignments of the MDP's own shape, the transition array after a successful walls assignment depends only on the original transition array and the last walls; reset_walls restores the original transitions.", "quantifier": "all operation histories", "why_tests_cant": "Quantifies over arbitrary histories of mutations.", "anchors": ["maMDP/mdp.py:MDP.walls", "maMDP/mdp.py:GridMDP.add_wall_xy", "maMDP/mdp.py:GridMDP.reset_walls", "maMDP/mdp.py:MDP.sas"]}
{"id": "C11", "title": "An invalid wall array is rejected without side effects", "statement": "Assigning a wall array of the wrong length raises AttributeError and one with an entry other than 0/1 raises ValueError; in both cases walls, transitions and everything else about the MDP are unchanged.", "quantifier": "all MDP states and wall arrays", "why_tests_cant": "All invalid inputs from all states.", "anchors": ["maMDP/mdp.py:MDP.walls"]}
{"id": "C12", "title": "add_wall_xy adds exactly the requested rectangle", "statement": "add_wall_xy(x,y) turns exactly the cells of the half-open rectangle (single coordinate or start..end) into walls, keeps all earlier walls, and raises without change when any cell is outside the grid.", "quantifier": "all MDP states, coordinate arguments", "why_tests_cant": "All rectangles, all prior walls.", "anchors": ["maMDP/mdp.py:GridMDP.add_wall_xy"]}
{"id": "C13", "title": "The adjacency attribute agrees with the transitions", "statement": "mdp.adjacency[s,s']=1 exactly when some action takes s to s' in mdp.sas.", "quantifier": "all reachable MDP states", "why_tests_cant": "Must hold after every history of wall changes.", "anchors": ["maMDP/mdp.py:MDP.sas", "maMDP/mdp.py:MDP.walls", "maMDP/mdp.py:MDP.adjacency"]}
{"id": "C14", "title": "Adjacency queries, valid actions and action lookup agree", "statement": "is_adjacent(s1,s2) is true iff _state_pair_to_action(s1,s2) succeeds; the action it returns has maximal transition probability and is the first such; with return_max=False it returns exactly the actions with positive probability; state_valid_actions(s) lists exactly the actions leading somewhere from s.", "quantifier": "all MDPs and state pairs", "why_tests_cant": "Universal over MDPs.", "anchors": ["maMDP/mdp.py:MDP.is_adjacent", "maMDP/mdp.py:MDP._state_pair_to_action", "maMDP/mdp.py:MDP.state_valid_actions"]}
{"id": "C15", "title": "get_next_state follows the transition array", "statement": "In a deterministic MDP, get_next_state(s,a) for a valid action returns the successor of (s,a).", "quantifier": "all grid MDPs with walls, all states and valid actions", "why_tests_cant": "Universal over MDPs.", "anchors": ["maMDP/mdp.py:MDP.get_next_state"]}
{"id": "C16", "title": "get_next_state never moves an agent along an impossible action", "statement": "get_next_state(s,a) never returns a state s' with sas[s,a,s']=0.", "quantifier": "all grid MDPs, states, actions", "why_tests_cant": "The failing case needs an action with no successor.", "anchors": ["maMDP/mdp.py:MDP.get_next_state"]}
{"id": "C17", "title": "Trajectories convert to state-action pairs that replay them", "statement": "For any trajectory of pairwise adjacent states of a grid MDP, _trajectory_to_state_action returns one pair per move whose states are the trajectory and whose actions, applied with get_next_state, reproduce the trajectory; a trajectory with a non-adjacent pair raises AttributeError.", "quantifier": "all grid MDPs with walls, all trajectories of any length", "why_tests_cant": "Unbounded trajectory lengths.", "anchors": ["maMDP/mdp.py:MDP._trajectory_to_state_action", "maMDP/mdp.py:MDP._state_pair_to_action", "maMDP/mdp.py:MDP.get_next_state"]}
{"id": "C18", "title": "Consuming features is exact and idempotent", "statement": "consume_features(idx, s) sets to zero exactly the listed features that were positive in state s, leaves every other cell unchanged, returns 1 for exactly the features removed and 0 elsewhere; repeating the call changes nothing and returns all zeros.", "quantifier": "all MDPs, feature lists (with duplicates, negative indices), states", "why_tests_cant": "All lists and feature arrays.", "anchors": ["maMDP/mdp.py:MDP.consume_features"]}
{"id": "C19", "title": "Agent features can be added, moved and removed without disturbing the MDP's own features", "statement": "Adding k agent features appends k one-hot rows; update_agent_feature(i,p) makes row i one-hot at p and touches no other row; removing agent features restores exactly the original rows.", "quantifier": "all MDPs, all sequences of additions and updates", "why_tests_cant": "Histories of any length.", "anchors": ["maMDP/mdp.py:MDP.add_agent_feature", "maMDP/mdp.py:MDP.update_agent_feature", "maMDP/mdp.py:MDP.remove_agent_features"]}
{"id": "C20", "title": "Removing agent features when there are none changes nothing", "statement": "remove_agent_features on an MDP with no agent features leaves its features unchanged.", "quantifier": "all MDPs with n_agents = 0", "why_tests_cant": "All MDPs.", "anchors": ["maMDP/mdp.py:MDP.remove_agent_features"]}
{"id": "C21", "title": "Resetting the MDP restores its features", "statement": "After any sequence of consume_features and update_agent_feature calls, reset() restores the feature array to what it was when features were last assigned (or agents last added/removed), and can be repeated any number of times.", "quantifier": "all histories", "why_tests_cant": "Histories of any length; aliasing between the live and saved array would break the second reset.", "anchors": ["maMDP/mdp.py:MDP.reset", "maMDP/mdp.py:MDP.features"]}
{"id": "C22", "title": "An MDP can be built from features and a transition array", "statement": "MDP(features, sas) with a valid (n,a,n) transition array and matching features builds an MDP.", "quantifier": "all valid inputs", "why_tests_cant": "All inputs.", "anchors": ["maMDP/mdp.py:MDP.__init__", "maMDP/mdp.py:MDP.walls"]}
{"id": "C23", "title": "The greedy policy is a probability distribution over best actions", "statement": "MaxActionSelector.get_pi_p gives, for every state with at least one estimated Q value, a distribution that is uniform over the actions with maximal Q value and zero elsewhere; states with no estimate get NaN; all-NaN input raises ValueError.", "quantifier": "all Q tables of any shape with finite, -inf and NaN entries", "why_tests_cant": "All Q tables.", "anchors": ["maMDP/algorithms/action_selection.py:MaxActionSelector._get_pi_p", "maMDP/algorithms/action_selection.py:ActionSelector.get_pi_p"]}
{"id": "C24", "title": "The greedy action is always a best action", "statement": "Whatever the random generator returns, MaxActionSelector.get_pi gives for every state with an estimate an action whose Q value is maximal (never an unavailable or unestimated one if another has a finite value), and -1 for states with no estimate; every best action can be returned.", "quantifier": "all Q tables, all random draws", "why_tests_cant": "All random outcomes.", "anchors": ["maMDP/algorithms/action_selection.py:MaxActionSelector._get_pi", "maMDP/algorithms/action_selection.py:random_max", "maMDP/algorithms/action_selection.py:ActionSelector.get_pi"]}
{"id": "C25", "title": "The softmax policy is a probability distribution ordered by Q value", "statement": "SoftmaxActionSelector.get_pi_p gives, for each state with an estimate, non-negative probabilities summing to 1, zero for unavailable (-inf or NaN) actions unless all are unavailable (then uniform); higher Q means higher probability and the odds of two available actions are exp of their Q difference over the temperature; adding a constant to all Q values changes nothing.", "quantifier": "all Q tables, all positive temperatures", "why_tests_cant": "Real-valued domain.", "anchors": ["maMDP/algorithms/action_selection.py:softmax", "maMDP/algorithms/action_selection.py:SoftmaxActionSelector._get_pi_p"]}
{"id": "C26", "title": "Softmax sampling picks each action with exactly its probability", "statement": "Given a uniform draw u in [0,1), the sampled action is i exactly when u lies in an interval of length p_i, so an action of probability zero is never chosen and every draw chooses some action; this holds for SoftmaxActionSelector.get_pi and for rand_choice_nb.", "quantifier": "all distributions, all draws", "why_tests_cant": "All real draws.", "anchors": ["maMDP/algorithms/action_selection.py:SoftmaxActionSelector._get_pi", "maMDP/algorithms/mcts.py:rand_choice_nb"]}
{"id": "C27", "title": "Value iteration converges", "statement": "For every MDP whose transition rows sum to at most 1, every reward and every discount in (0,1), each sweep is a contraction with factor the discount, so for any tolerance there is a number of sweeps after which the convergence test succeeds, and the values tend to the unique fixed point of the Bellman equation the code iterates.", "quantifier": "all MDPs, rewards, discounts, tolerances", "why_tests_cant": "Limit statement over all MDPs.", "anchors": ["maMDP/algorithms/dynamic_programming.py:state_value_iterator", "maMDP/algorithms/dynamic_programming.py:solve_value_iteration", "maMDP/algorithms/dynamic_programming.py:get_state_action_values", "maMDP/algorithms/dynamic_programming.py:delta_update"]}
{"id": "C28", "title": "Value iteration's answer is within tolerance of the true values", "statement": "If value iteration stops by its tolerance test, every state value is within tol*discount/(1-discount) of the fixed point and every Q value of a valid action is within tol*discount/(1-discount) of the exact Q value.", "quantifier": "all MDPs, rewards, discounts, tolerances, iteration limits", "why_tests_cant": "Error bound for all MDPs.", "anchors": ["maMDP/algorithms/dynamic_programming.py:solve_value_iteration"]}
{"id": "C29", "title": "Q values mark impossible actions with -inf and only those", "statement": "In the Q table returned by value iteration, an entry is -inf exactly when the action has no successor; all other entries are finite.", "quantifier": "all MDPs, rewards, iteration limits >= 1", "why_tests_cant": "All MDPs.", "anchors": ["maMDP/algorithms/dynamic_programming.py:solve_value_iteration"]}
{"id": "C30", "title": "State values are the best Q values", "statement": "After value iteration, the value of each state equals the maximum of its returned Q values.", "quantifier": "all MDPs and rewards", "why_tests_cant": "All rewards including negative ones.", "anchors": ["maMDP/algorithms/dynamic_programming.py:state_value_iterator", "maMDP/algorithms/dynamic_programming.py:solve_value_iteration"]}
{"id": "C31", "title": "Values are bounded by the largest reward", "statement": "If every state reward is within [-R,R], all values and finite Q values returned by value iteration are within [-R/(1-discount), R/(1-discount)], whatever the iteration limit.", "quantifier": "all MDPs, rewards, iteration limits", "why_tests_cant": "All iteration counts.", "anchors": ["maMDP/algorithms/dynamic_programming.py:solve_value_iteration"]}
{"id": "C32", "title": "Value iteration computes the optimal discounted return", "statement": "In a deterministic MDP with non-negative rewards, the fixed point value of a state is an upper bound on the discounted reward of every valid action sequence from it and is approached by some sequence.", "quantifier": "all deterministic MDPs with non-negative rewards, all action sequences", "why_tests_cant": "Infinite set of action sequences.", "anchors": ["maMDP/algorithms/dynamic_programming.py:state_value_iterator", "maMDP/algorithms/dynamic_programming.py:solve_value_iteration"]}
{"id": "C33", "title": "Invalid value-iteration settings are rejected", "statement": "A discount outside (0,1) raises an assertion error, and an iteration limit of zero raises an error instead of returning Q values.", "quantifier": "all inputs", "why_tests_cant": "All inputs.", "anchors": ["maMDP/algorithms/dynamic_programming.py:solve_value_iteration"]}
{"id": "C34", "title": "Soft value iteration is a contraction and bounds the hard backup", "statement": "The soft (log-sum-exp) backup is at least the max backup and at most max + log(number of actions) (up to the 1e-200 guard), and each soft sweep is a contraction with factor the discount. The soft Bellman equation therefore has exactly one solution V, and with rewards of size at most R the values returned after at most n iterations differ from V by at most the larger of tol*discount/(1-discount) and discount^n*(R + log(number of actions + 1))/(1-discount).", "quantifier": "all MDPs, rewards, values, discounts, tolerances, iteration limits", "why_tests_cant": "Real-valued domain.", "anchors": ["maMDP/algorithms/dynamic_programming.py:state_value_iterator", "maMDP/algorithms/dynamic_programming.py:solve_value_iteration"]}
{"id": "C35", "title": "The successor representation always exists", "statement": "For every transition array and every discount in [0,1) the matrix inverted by get_sa_sr is invertible, and the result has non-negative entries with rows summing to at most 1/(1-discount).", "quantifier": "all transition arrays of any size, all discounts", "why_tests_cant": "Invertibility for all sizes.", "anchors": ["maMDP/algorithms/successor_representation.py:get_sa_sr"]}
{"id": "C36", "title": "Successor-representation Q values satisfy the random-policy Bellman equation", "statement": "get_sr_q_values computed with the matrix from get_sa_sr gives for each valid action Q(s,a) = reward(s) + discount * mean over a' of Q(s',a') (unmasked), s' the successor of (s,a), and -inf exactly for actions with no successor.", "quantifier": "all deterministic MDPs, rewards, discounts", "why_tests_cant": "All sizes.", "anchors": ["maMDP/algorithms/successor_representation.py:get_sr_q_values", "maMDP/algorithms/successor_representation.py:get_sa_sr"]}
{"id": "C37", "title": "Planned moves are the next n moves split by turn", "statement": "get_n_moves_plan(current_move, n_turns, n_moves, total) with current_move < n_moves and n_turns >= 1 returns n_turns numbers; the t-th is the number of the next `total` moves, counted from current_move, that fall in turn t; their sum is min(total, n_turns*n_moves - current_move); current_move >= n_moves raises ValueError.", "quantifier": "all non-negative arguments", "why_tests_cant": "All integers.", "anchors": ["maMDP/environments.py:get_n_moves_plan"]}
{"id": "C38", "title": "Environment construction validates its agents", "statement": "Environment(mdp, agents) succeeds only if every agent's reward function has one entry per MDP feature plus one per agent, its start is a valid state and it consumes no feature beyond the last; then each agent gets its own appended one-hot feature row at its start in the order supplied, and the MDP's own features are untouched.", "quantifier": "all grid MDPs (the only ones whose constructor succeeds, see C22) after any calls, agent lists of any length", "why_tests_cant": "All numbers of agents.", "anchors": ["maMDP/environments.py:Environment.__init__", "maMDP/environments.py:Environment._set_mdp_and_agents", "maMDP/agents.py:Agent._attach", "maMDP/agents.py:AttachedAgent.__init__"]}
{"id": "C39", "title": "Stepping moves an agent along one valid transition", "statement": "If env.step(name) succeeds from a state that has a valid action, with a greedy or softmax selector on Q values that are -inf/NaN exactly for impossible actions, the new position is a successor of the old one.", "quantifier": "all environments, histories, random draws", "why_tests_cant": "All histories and random draws.", "anchors": ["maMDP/environments.py:Environment.step", "maMDP/agents.py:AttachedAgent.step", "maMDP/mdp.py:MDP.get_next_state"]}
{"id": "C40", "title": "Agents always stand on a state of the MDP", "statement": "After any sequence of environment calls (including failing ones), every agent's position indexes a state of the MDP.", "quantifier": "all operation histories", "why_tests_cant": "All histories.", "anchors": ["maMDP/environments.py:Environment", "maMDP/agents.py:AttachedAgent.position"]}
{"id": "C41", "title": "Agent feature rows show agent positions", "statement": "After any sequence of environment calls, agent i's feature row is zero everywhere except possibly at its current position, where it is 1 unless some agent has consumed it there.", "quantifier": "all operation histories", "why_tests_cant": "All histories.", "anchors": ["maMDP/agents.py:AttachedAgent.position", "maMDP/mdp.py:MDP.update_agent_feature", "maMDP/mdp.py:MDP.consume_features"]}
{"id": "C42", "title": "Moving one agent does not move the others", "statement": "fit, step, step_proba, step_multi and set_agent_position for one agent leave every other agent's position, history, consumption record and policy unchanged.", "quantifier": "all environments, operations, agents", "why_tests_cant": "All histories and numbers of agents.", "anchors": ["maMDP/environments.py:Environment.step", "maMDP/environments.py:Environment.step_multi", "maMDP/environments.py:Environment.set_agent_position"]}
{"id": "C43", "title": "Position history records every step in order", "statement": "An agent's position history is its starting position followed by the positions after each of its successful steps since the last reset, in order; set_agent_position does not alter it.", "quantifier": "all operation histories of environments whose consumed-feature lists index existing features", "why_tests_cant": "All histories.", "anchors": ["maMDP/agents.py:AttachedAgent.step", "maMDP/agents.py:AttachedAgent.reset", "maMDP/environments.py:Environment.get_agent_position_history"]}
{"id": "C44", "title": "Environment reset restores the start", "statement": "env.reset() after any history puts every agent back at its starting position with a one-element history and restores the feature array to the one right after construction, including everything consumed.", "quantifier": "all operation histories of environments with at least one agent", "why_tests_cant": "All histories.", "anchors": ["maMDP/environments.py:Environment.reset", "maMDP/agents.py:AttachedAgent.reset", "maMDP/mdp.py:MDP.reset"]}
{"id": "C45", "title": "Environment reset clears consumption and step counters", "statement": "env.reset() also sets every agent's consumed counts and the environment's step count back to zero.", "quantifier": "all operation histories", "why_tests_cant": "All histories.", "anchors": ["maMDP/environments.py:Environment.reset", "maMDP/agents.py:AttachedAgent.reset"]}
{"id": "C46", "title": "Features are conserved: consumed plus remaining equals initial", "statement": "For every non-agent feature, over any sequence of steps by any agents, the number of states still carrying the feature plus the total number consumed by all agents is constant, and consumed counts never decrease.", "quantifier": "all histories without reset of environments whose consumed-feature lists index existing features", "why_tests_cant": "Conservation over unbounded histories.", "anchors": ["maMDP/environments.py:Environment._consume_features", "maMDP/mdp.py:MDP.consume_features"]}
{"id": "C47", "title": "Calls naming an unknown agent fail without effect", "statement": "fit, step, step_proba, step_multi, set_agent_position and the getters raise ValueError for a name that is not in the environment and leave the environment unchanged.", "quantifier": "all environments, names", "why_tests_cant": "All environments and names.", "anchors": ["maMDP/environments.py:Environment._check_agent_name"]}
{"id": "C48", "title": "Stepping before fitting fails without effect", "statement": "env.step for an agent that has never been fitted raises AttributeError and changes nothing.", "quantifier": "all environments", "why_tests_cant": "All environments.", "anchors": ["maMDP/agents.py:AttachedAgent.step"]}
{"id": "C49", "title": "step_multi is repeated stepping", "statement": "step_multi without refit returns the list of positions obtained by stepping that many times, and its effect on the environment is that of the individual step calls; if it stops because of a catch it has performed exactly the steps up to and including the catching one.", "quantifier": "all environments, step counts, random draws", "why_tests_cant": "All step counts.", "anchors": ["maMDP/environments.py:Environment.step_multi"]}
{"id": "C50", "title": "Catching is detected exactly when a predator stands on its prey", "statement": "The caught test for an agent is true exactly when it consumes the feature of some agent that stands at the same position.", "quantifier": "all environments", "why_tests_cant": "All configurations.", "anchors": ["maMDP/environments.py:Environment._check_agents_caught"]}
{"id": "C51", "title": "step_multi with refit makes the requested number of steps", "statement": "step_multi(refit=True, n_steps=k) performs k steps.", "quantifier": "all environments and k", "why_tests_cant": "All k.", "anchors": ["maMDP/environments.py:Environment.step_multi", "maMDP/environments.py:get_n_moves_plan"]}
{"id": "C52", "title": "step_multi_interactive moves the agents", "statement": "step_multi_interactive moves the named agents in order for the given number of turns.", "quantifier": "all environments and arguments", "why_tests_cant": "All arguments.", "anchors": ["maMDP/environments.py:Environment.step_multi_interactive"]}
{"id": "C53", "title": "step_proba returns the one-step distribution", "statement": "step_proba returns, for each state, the probability of being there after one step from the given position distribution under the agent's policy; entries sum to 1.", "quantifier": "all environments, policies, position distributions", "why_tests_cant": "All distributions.", "anchors": ["maMDP/agents.py:AttachedAgent.step_proba", "maMDP/environments.py:Environment.step_proba"]}
{"id": "C54", "title": "Agents never enter walls", "statement": "An agent that starts on a non-wall state from which it is never without a valid action never steps onto a walled state, for any history of steps.", "quantifier": "all environments, histories, random draws", "why_tests_cant": "All histories.", "anchors": ["maMDP/environments.py:Environment.step", "maMDP/mdp.py:MDP.walls"]}
{"id": "C55", "title": "An MCTS iteration follows the planned turn schedule and terminates", "statement": "In interactive mode, when all agents plan the same number of turns, each simulated iteration terminates; agents move in round-robin turn order and unless the primary agent is caught, each agent gets exactly its planned number of moves in each turn.", "quantifier": "all agent counts, turn counts, plans, random draws", "why_tests_cant": "Termination and scheduling for all plans.", "anchors": ["maMDP/algorithms/mcts.py:mcts_iteration"]}
{"id": "C56", "title": "Simulated paths obey the transition array", "statement": "In every MCTS iteration the primary agent's visited states form a path of valid transitions from its current position, and so do each active opponent's; no walled state is visited.", "quantifier": "all MDPs, plans, random draws, opponent policies", "why_tests_cant": "All simulations.", "anchors": ["maMDP/algorithms/mcts.py:mcts_iteration", "maMDP/algorithms/mcts.py:MCTS_next_node", "maMDP/algorithms/mcts.py:get_opponent_next_state", "maMDP/algorithms/mcts.py:get_actions_states"]}
{"id": "C57", "title": "MCTS explores every untried successor before repeating one", "statement": "While expanding, MCTS_next_node returns an unvisited successor whenever there is one and then stops expanding for the rest of the iteration; otherwise it returns a successor maximising the upper confidence bound; it always returns one of the given successors.", "quantifier": "all value/visit tables, successor lists, draws", "why_tests_cant": "All tables.", "anchors": ["maMDP/algorithms/mcts.py:MCTS_next_node", "maMDP/algorithms/mcts.py:UCB"]}
{"id": "C58", "title": "MCTS bookkeeping is exact", "statement": "After run_mcts, N[s] is the number of times s was visited by the primary agent over all iterations and V[s] is the sum of the iterations' returns counted once per visit; unvisited states have V=0.", "quantifier": "all iteration counts", "why_tests_cant": "All histories of iterations.", "anchors": ["maMDP/algorithms/mcts.py:run_mcts"]}
{"id": "C59", "title": "Catching in simulation", "statement": "check_agent_overlap reports the primary agent caught exactly when some agent that consumes it shares its state, and then adds the caught cost; agents eaten in this check are exactly those sharing a state with a consumer (up to the catch) and become inactive; in mcts_iteration an inactive agent stays inactive and stays where it is for the rest of the iteration.", "quantifier": "all consumption relations and positions; all iterations", "why_tests_cant": "All relations.", "anchors": ["maMDP/algorithms/mcts.py:check_agent_overlap", "maMDP/algorithms/mcts.py:mcts_iteration"]}
{"id": "C60", "title": "Eating a prey is rewarded once", "statement": "During one MCTS iteration the primary agent receives an opponent's value at most once, when it first eats it.", "quantifier": "all simulations", "why_tests_cant": "All simulations.", "anchors": ["maMDP/algorithms/mcts.py:check_agent_overlap", "maMDP/algorithms/mcts.py:mcts_iteration"]}
{"id": "C61", "title": "Planning leaves the MDP untouched", "statement": "run_mcts and mcts_iteration do not modify the MDP's feature array or the starting positions: the i-th iteration starts from the same features and positions as the first.", "quantifier": "all simulations", "why_tests_cant": "All simulations.", "anchors": ["maMDP/algorithms/mcts.py:run_mcts", "maMDP/algorithms/mcts.py:mcts_iteration"]}
{"id": "C62", "title": "Opponent Q-value caching is transparent", "statement": "With caching on, the Q values used for an opponent are the ones that solving the MDP at that moment would give.", "quantifier": "all simulations", "why_tests_cant": "All simulations.", "anchors": ["maMDP/algorithms/mcts.py:mcts_iteration"]}
{"id": "C63", "title": "MCTS Q values cover exactly the actions available from the current state", "statement": "After MCTS fit the Q table is NaN except at (position, a) for the actions a valid there, where it is V/(1+N) of the successor; so a following step selects a valid action.", "quantifier": "all MDPs, positions, random draws", "why_tests_cant": "All MDPs.", "anchors": ["maMDP/algorithms/mcts.py:MCTS._fit", "maMDP/algorithms/mcts.py:get_MCTS_action_values"]}
{"id": "C64", "title": "MCTS can be fitted without an explicit plan", "statement": "env.fit(agent) with an MCTS agent and n_moves=None plans using the agents' n_moves.", "quantifier": "all environments", "why_tests_cant": "All environments.", "anchors": ["maMDP/algorithms/mcts.py:run_mcts", "maMDP/algorithms/mcts.py:extract_agent_info", "maMDP/algorithms/mcts.py:mcts_iteration"]}
{"id": "C65", "title": "Agent relations extracted for planning match the reward and consumption settings", "statement": "get_agent_values gives for each opponent the primary agent's reward weight for that opponent's feature and 0 for itself; get_agent_consumes[i,j] is true exactly when agent i consumes agent j's feature.", "quantifier": "all agent sets", "why_tests_cant": "All agent sets.", "anchors": ["maMDP/algorithms/mcts.py:extract_agent_info", "maMDP/algorithms/mcts.py:get_agent_values", "maMDP/algorithms/mcts.py:get_agent_consumes", "maMDP/algorithms/mcts.py:extract_all_agent_info"]}
{"id": "C66", "title": "Expected state visitation has the right total mass", "statement": "state_visitation_iterator with n iterations, a policy whose rows sum to 1 and transitions whose rows sum to 1 returns non-negative frequencies equal to the sum over t<n of the t-step state distribution, summing to n.", "quantifier": "all MDPs, policies, start distributions, n", "why_tests_cant": "All n.", "anchors": ["maMDP/algorithms/irl.py:state_visitation_iterator"]}
{"id": "C67", "title": "Empirical state visitation is an average over trajectories", "statement": "MaxCausalEntIRL uses as empirical visitation the average over trajectories of each trajectory's state frequencies, so it sums to 1.", "quantifier": "all lists of trajectories", "why_tests_cant": "All lists.", "anchors": ["maMDP/algorithms/irl.py:MaxCausalEntIRL._solve_maxcausalent"]}
{"id": "C68", "title": "Max-causal-entropy IRL learns from data with default arguments", "statement": "MaxCausalEntIRL.fit with the default ignore_features moves theta along the difference between observed and expected feature counts.", "quantifier": "all MDPs and trajectories", "why_tests_cant": "All inputs.", "anchors": ["maMDP/algorithms/irl.py:MaxCausalEntIRL._solve_maxcausalent", "maMDP/algorithms/irl.py:MaxCausalEntIRL.fit"]}
{"id": "C69", "title": "The IRL learning rate decays as documented", "statement": "With decay d the step size used at iteration n is learning_rate * n^-d.", "quantifier": "all n, d", "why_tests_cant": "All n.", "anchors": ["maMDP/algorithms/irl.py:MaxCausalEntIRL._solve_maxcausalent", "maMDP/algorithms/policy_learning.py:TDGeneralPolicyLearner._fit_TD_policy"]}
{"id": "C70", "title": "Feature matching counts the chosen states' features", "statement": "MFFeatureMatching.fit returns, per feature, its total over all states of all trajectories except each trajectory's first state, with ignored features zero.", "quantifier": "all MDP lists and trajectories", "why_tests_cant": "All trajectories.", "anchors": ["maMDP/algorithms/irl.py:MFFeatureMatching.fit"]}
{"id": "C71", "title": "Hypothesis-testing IRL works with default settings", "statement": "HyptestIRL().fit(mdp, trajectories) returns reward weights.", "quantifier": "all inputs", "why_tests_cant": "All inputs.", "anchors": ["maMDP/algorithms/irl.py:HyptestIRL"]}
{"id": "C72", "title": "Looking along a direction on a grid ends at the edge", "statement": "On a grid MDP with any walls get_eyeline_features terminates for every state and direction, summing the features of the cells from the state to the last reachable cell in that direction.", "quantifier": "all grids, walls, states, actions", "why_tests_cant": "Termination for all grids.", "anchors": ["maMDP/algorithms/irl.py:get_eyeline_features", "maMDP/algorithms/irl.py:state_pair_to_action"]}
{"id": "C73", "title": "Eyeline feature counts are normalised", "statement": "With non-negative features, get_trajectory_eyeline_features(normalise=True) returns non-negative weights that sum to 1 unless all are zero; SimpleActionIRL accumulates them across MDPs.", "quantifier": "all grids and trajectories", "why_tests_cant": "All trajectories.", "anchors": ["maMDP/algorithms/irl.py:get_trajectory_eyeline_features", "maMDP/algorithms/irl.py:SimpleActionIRL.fit"]}
{"id": "C74", "title": "TD policy learning accepts trajectories of any length", "statement": "TDGeneralPolicyLearner.fit succeeds on any list of adjacent-state trajectories.", "quantifier": "all trajectory lists", "why_tests_cant": "All lengths.", "anchors": ["maMDP/algorithms/policy_learning.py:TDGeneralPolicyLearner._fit_TD_policy"]}
{"id": "C75", "title": "TD policy learning keeps action preferences bounded", "statement": "Starting from zero with learning rate in (0,1] and no kernel, after any successful fit all learned action values stay within [0,1] and never-observed actions stay at 0, summing to at most 1.", "quantifier": "all trajectory lists", "why_tests_cant": "All histories.", "anchors": ["maMDP/algorithms/policy_learning.py:TDGeneralPolicyLearner._fit_TD_policy"]}
{"id": "C76", "title": "Angular distance is the shortest way round", "statement": "degdist(x,y) is symmetric, between 0 and 180, invariant under adding 360, and equals the least |x-y+360k| over whole k.", "quantifier": "all angles", "why_tests_cant": "Real-valued domain.", "anchors": ["maMDP/algorithms/policy_learning.py:degdist"]}
{"id": "C77", "title": "A longer length scale generalises more", "statement": "deg_sq_exp_kernel(x,y,ls) is non-decreasing in the length scale ls.", "quantifier": "all angles and length scales", "why_tests_cant": "Real-valued domain.", "anchors": ["maMDP/algorithms/policy_learning.py:deg_sq_exp_kernel"]}
{"id": "C78", "title": "Saving and loading a hex environment preserves it", "statement": "hex_environment_from_dict(hex_env_to_dict(env, names), names) gives an environment with the same shape, walls, transitions, feature locations, agent order, positions, move counts, consumption lists and (for whole-number rewards) reward functions.", "quantifier": "all hex environments with value-iteration agents and distinct feature names", "why_tests_cant": "All environments.", "anchors": ["maMDP/env_io.py:hex_env_to_dict", "maMDP/env_io.py:hex_environment_from_dict"]}
{"id": "C79", "title": "Loading from JSON restores features", "statement": "hex_environment_from_json(hex_env_to_json(env, names)) restores the feature locations.", "quantifier": "all hex environments", "why_tests_cant": "All environments.", "anchors": ["maMDP/env_io.py:hex_environment_from_json", "maMDP/env_io.py:hex_environment_from_dict"]}
{"id": "C80", "title": "Hexagons drawn next to each other are exactly the adjacent states", "statement": "In the drawn hex grid, two states' hexagons are at touching distance exactly when the states are adjacent in the MDP.", "quantifier": "all shapes and pairs of states", "why_tests_cant": "All shapes.", "anchors": ["maMDP/plotting.py:draw_hexagons", "maMDP/grid_utils.py:hex_adjacency"]}
{"id": "C81", "title": "Value plots are normalised to [0,1]", "statement": "normalise maps a non-constant array onto values in [0,1] with the minimum at 0 and the maximum at 1, preserving order.", "quantifier": "all arrays", "why_tests_cant": "All arrays.", "anchors": ["maMDP/plotting.py:normalise"]}
{"id": "C82", "title": "Algorithm.fit accepts only well-shaped results", "statement": "Algorithm.fit rejects a reward function whose length differs from the number of MDP features, and marks the algorithm as fitted only when the value and Q arrays have the MDP's shape; the accepted Q table then always has one row per state and one column per action.", "quantifier": "all algorithms, MDPs, rewards", "why_tests_cant": "All algorithms.", "anchors": ["maMDP/algorithms/base.py:Algorithm.fit"]}
{"id": "C83", "title": "Observed and expected feature counts are on the same scale", "statement": "In MaxCausalEntIRL.fit the observed and the expected feature counts are comparable: a feature that is present in every state has the same observed and expected count, so its weight does not move.", "quantifier": "all MDPs without dead ends, all trajectories, all VI_max_iter", "why_tests_cant": "The mismatch grows with a setting and shows only in the learned weights.", "anchors": ["maMDP/algorithms/irl.py:MaxCausalEntIRL._solve_maxcausalent", "maMDP/algorithms/irl.py:MaxCausalEntIRL._maxcausalent_innerloop", "maMDP/algorithms/irl.py:state_visitation_iterator"]}
{"id": "C84", "title": "Resetting a max-causal-entropy learner restores its start", "statement": "After any sequence of fit, reset and reset_learning_rate calls, reset() and reset_learning_rate() restore the weights and learning rate given to the constructor.", "quantifier": "all call sequences", "why_tests_cant": "Needs sequences of calls; aliasing shows only after a second reset.", "anchors": ["maMDP/algorithms/irl.py:MaxCausalEntIRL.reset", "maMDP/algorithms/irl.py:MaxCausalEntIRL.reset_learning_rate", "maMDP/algorithms/irl.py:MaxCausalEntIRL.fit"]}
{"id": "C85", "title": "Action-difference IRL compares the chosen direction with all others", "statement": "On a grid, SimpleActionFeatureDiffIRL weighs, at each step of a trajectory, what is seen in the chosen direction against what is seen in all other directions.", "quantifier": "all grids, walls, features and trajectories of directed steps", "why_tests_cant": "All grids; only one direction is affected.", "anchors": ["maMDP/algorithms/irl.py:get_trajectory_eyeline_features_diff", "maMDP/algorithms/irl.py:SimpleActionFeatureDiffIRL.fit"]}
{"id": "C86", "title": "TD policy learning works with the documented decay", "statement": "TDGeneralPolicyLearner, whose decay argument is documented as an int, can be fitted with every non-negative integer decay.", "quantifier": "all non-negative integer decays, all trajectory lists with a step", "why_tests_cant": "All decays; the failure depends on a NumPy rule about integer powers.", "anchors": ["maMDP/algorithms/policy_learning.py:TDGeneralPolicyLearner.__init__", "maMDP/algorithms/policy_learning.py:TDGeneralPolicyLearner._fit_TD_policy"]}
{"id": "C87", "title": "Resetting a TD policy learner restores its start", "statement": "After any sequence of fit, reset and reset_learning_rate calls, reset() restores the estimates given to the constructor, reset() and reset_learning_rate() restore the learning rate, and the learner can be fitted again.", "quantifier": "all call sequences", "why_tests_cant": "Needs sequences of calls; aliasing shows only after a second reset.", "anchors": ["maMDP/algorithms/policy_learning.py:TDGeneralPolicyLearner.reset", "maMDP/algorithms/policy_learning.py:TDGeneralPolicyLearner.reset_learning_rate", "maMDP/algorithms/policy_learning.py:TDGeneralPolicyLearner.fit"]}
{"id": "C88", "title": "Both save formats can be loaded back", "statement": "A dictionary produced with format='coords' lists exactly the coordinates of features, walls and agents, and hex_environment_from_dict restores the environment from it.", "quantifier": "all hex environments with value-iteration agents, distinct feature names and non-negative positions, after any history of calls", "why_tests_cant": "Whether cell pairs are taken for state numbers only shows on particular cells; all grids and feature layouts are needed.", "anchors": ["maMDP/env_io.py::hex_env_to_dict", "maMDP/env_io.py::hex_environment_from_dict"]}
{"id": "C89", "title": "Markers are drawn where their state is drawn", "statement": "state_to_position, used for agent and trajectory markers, gives the place where plot and plot_state_values draw that state's hexagon, feature colour and value.", "quantifier": "all grids, states, value arrays and lists of hidden cells", "why_tests_cant": "Square test grids hide a transposition; it needs all shapes and values, and a look at pixels.", "anchors": ["maMDP/mdp.py:SquareGridMDP.state_to_position", "maMDP/mdp.py:HexGridMDP.state_to_position", "maMDP/plotting.py:plot_grid_values", "maMDP/plotting.py:plot_grids", "maMDP/plotting.py:draw_hexagons"]}
{"id": "C90", "title": "Plotting a grid shows all of its own features", "statement": "plot() draws every feature of the MDP other than the agents' features.", "quantifier": "all grid MDPs with any number of agents, after any history of calls", "why_tests_cant": "Depends on the number of agents, including none; effects are graphical.", "anchors": ["maMDP/mdp.py:GridMDP.plot"]}
{"id": "C91", "title": "Non-interactive planning simulates only the agent's own planned moves", "statement": "With interactive=False, each simulated iteration of an MCTS agent consists of exactly the moves planned for that agent; the numbers of moves planned for other agents do not matter.", "quantifier": "all MDPs, plans, random draws", "why_tests_cant": "The length of a simulation depends on the plans of all agents; a test with one agent cannot show it.", "anchors": ["maMDP/algorithms/mcts.py:mcts_iteration", "maMDP/environments.py:step_multi"]}
{"id": "C92", "title": "Resetting a hypothesis-testing learner restores its start", "statement": "After any sequence of fit and reset calls on a HyptestIRL object, reset() restores the weights given to the constructor, and the learner can be fitted again.", "quantifier": "all call sequences, MDPs, trajectories and scoring functions", "why_tests_cant": "Needs sequences of calls; aliasing shows only after a second reset.", "anchors": ["maMDP/algorithms/irl.py:HyptestIRL.reset", "maMDP/algorithms/irl.py:HyptestIRL.fit", "maMDP/algorithms/irl.py:HyptestIRL._solve_hyptest"]}
{"id": "C93", "title": "A fit that raises leaves the learner's estimates alone", "statement": "If fit of a HyptestIRL, MaxCausalEntIRL or TDGeneralPolicyLearner object raises, the object's estimates are those it had before the call.", "quantifier": "all learners, MDPs and trajectories for which fit raises", "why_tests_cant": "The error may occur at any point of the data; what is kept depends on whether arrays are changed in place.", "anchors": ["maMDP/algorithms/irl.py:HyptestIRL.fit", "maMDP/algorithms/irl.py:MaxCausalEntIRL.fit", "maMDP/algorithms/policy_learning.py:TDGeneralPolicyLearner.fit"]}
{"id": "C94", "title": "A tree search that fails to fit keeps its earlier results", "statement": "If fit of an MCTS object raises, the values, Q values and fitted flag it had before the call are still there.", "quantifier": "all MCTS objects, environments and arguments for which fit raises", "why_tests_cant": "The failure can come from any of the checks, the agent table, any iteration or the final lookup.", "anchors": ["maMDP/algorithms/mcts.py:MCTS._fit", "maMDP/algorithms/base.py:Algorithm.fit"]}
{"id": "C95", "title": "Planning alone needs nobody else", "statement": "A non-interactive MCTS object can be fit to an MDP on its own, without an environment; and in an environment its result does not depend on the other agents.", "quantifier": "all MDPs, rewards, plans, environments", "why_tests_cant": "Universal over environments and other agents.", "anchors": ["maMDP/algorithms/mcts.py:MCTS._fit", "maMDP/algorithms/mcts.py:MCTS.create_agent_info"]}
{"id": "C96", "title": "Tree searches do not depend on earlier ones", "statement": "Whatever fits, resets and cache clearings an MCTS object has been through, fit gives what a new object with the same settings would give for the same random choices.", "quantifier": "all sequences of calls and all settings, including kept caches", "why_tests_cant": "All histories of an object; stale cache entries matter only for particular sequences.", "anchors": ["maMDP/algorithms/mcts.py:MCTS._fit", "maMDP/algorithms/mcts.py:MCTS.clear_cache", "maMDP/algorithms/mcts.py:run_mcts"]}
{"id": "C97", "title": "Assigned transitions and features are checked, and a refused assignment changes nothing", "statement": "mdp.sas = x succeeds exactly when x has shape (n, a, n) with n, a > 0 and entries in [0, 1]; n_states, n_actions, adjacency and the deterministic flag then describe x and nothing else changes. mdp.features = f succeeds exactly when f has n_states columns; n_features, the default names and what reset goes back to then follow f. A refused assignment raises and leaves the MDP as it was.", "quantifier": "all MDP objects, all arrays", "why_tests_cant": "All arrays, all object states, including the branches that raise.", "anchors": ["maMDP/mdp.py:MDP.sas", "maMDP/mdp.py:MDP.features"]}
{"id": "C98", "title": "A transition array assigned later stays in force and fits the rest of the MDP", "statement": "After mdp.sas = x is accepted, the MDP uses x (apart from walls) until transitions are assigned again, and features and walls still have one entry per state.", "quantifier": "all grid MDPs, all histories, all valid arrays x", "why_tests_cant": "All histories of later calls.", "anchors": ["maMDP/mdp.py:MDP.sas", "maMDP/mdp.py:MDP.walls"]}
{"id": "C99", "title": "A rejected environment can be built again", "statement": "If Environment(mdp, agents) raises, the MDP's own features, transitions and walls are as before, and a later attempt with acceptable agents succeeds as if the first had not been made.", "quantifier": "all grid MDPs, all lists of agents, at every point in the MDP's history", "why_tests_cant": "The failing agent can stand anywhere in the list and the MDP can be in any reachable state; a test tries one bad configuration and rarely retries.", "anchors": ["maMDP/environments.py:Environment._set_mdp_and_agents", "maMDP/mdp.py:MDP.add_agent_feature"]}
{"id": "C100", "title": "An MDP is independent of the arrays it was built from", "statement": "Calls on one MDP do not change another MDP built from the same feature or wall arrays, nor the caller's arrays, and later writes of the caller into those arrays do not change the MDP.", "quantifier": "all programs: any interleaving, of any length, of array creation, array writes, MDP construction and method calls on any number of MDPs", "why_tests_cant": "Whether arrays are shared depends on the whole history of assignments, resets and in-place updates; a test exercises one MDP with fresh arrays.", "anchors": ["maMDP/mdp.py:MDP.features", "maMDP/mdp.py:MDP.walls", "maMDP/mdp.py:MDP.consume_features", "maMDP/mdp.py:GridMDP.reset_walls"]}
{"id": "C101", "title": "Environments are independent of each other", "statement": "Building or using one environment does not change the features, positions, plans or results of another, whether or not they were given the same MDP object.", "quantifier": "all programs: any interleaving, of any length, of environment construction, calls on any number of environments and calls on MDPs", "why_tests_cant": "The interference depends on the interleaving of calls on several environments; tests build one environment at a time.", "anchors": ["maMDP/environments.py:Environment._set_mdp_and_agents", "maMDP/environments.py:Environment.step", "maMDP/mdp.py:MDP.remove_agent_features"]}
{"id": "C102", "title": "An agent in two environments plans separately in each", "statement": "When an Agent object is added to two environments, fitting it in one does not change the plan it follows in the other, and it cannot step in an environment where it was not fitted.", "quantifier": "all environments, all agents, all planning outcomes and all orders of fits and steps", "why_tests_cant": "It takes two environments and an order of fits in which the second overwrites the first; the wrong plan often still gives a valid move.", "anchors": ["maMDP/agents.py:Agent._attach", "maMDP/agents.py:AttachedAgent.fit", "maMDP/agents.py:AttachedAgent.step"]}
{"id": "C103", "title": "Following the plan collects the most reward", "statement": "After an agent with the greedy selector is fitted with value iteration, stepping it n times visits states whose discounted reward is at least that of every other sequence of actions from the same state, up to the discounted tail after n steps and the planner's tolerance, however ties are broken.", "quantifier": "all deterministic MDPs, all environments after any sequence of calls, all reward functions with rewards between 0 and R, all discounts in (0,1), all tolerances, all numbers of steps, all tie breaks and all competing action sequences", "why_tests_cant": "The competing action sequences are unboundedly many; tests look at a few states of one small grid.", "anchors": ["maMDP/algorithms/dynamic_programming.py:ValueIteration", "maMDP/algorithms/action_selection.py:MaxActionSelector", "maMDP/agents.py:AttachedAgent.fit", "maMDP/agents.py:AttachedAgent.step"]}
{"id": "C104", "title": "A single rewarded state is reached by a shortest path", "statement": "If exactly one state is rewarded, an agent with the greedy selector fitted with value iteration stands on it after as many steps as the state is away: the horizontal plus vertical distance on a square grid without walls, offset_distance on a hexagonal one, the shortest path through the transitions with walls.", "quantifier": "all grid sizes, all start and goal states, all wall layouts, all tie breaks, all discounts in (0,1), and all tolerances up to half of discount^distance times (1-discount)^2 times the reward", "why_tests_cant": "Ties between equally short ways are broken at random and goals may be arbitrarily far away; a test follows one walk to one goal.", "anchors": ["maMDP/algorithms/dynamic_programming.py:ValueIteration", "maMDP/algorithms/action_selection.py:MaxActionSelector", "maMDP/environments.py:Environment.step", "maMDP/grid_utils.py:offset_distance"]}
{"id": "C105", "title": "The softmax temperature goes from greedy to uniform", "statement": "The probabilities of the softmax policy are proportional to exp(Q/temperature). Cooling never makes a best action less likely; as the temperature goes to 0 the policy becomes the greedy policy, ties included, and as it grows it becomes uniform over the actions with a finite Q value. An action worse than another by d has probability at most exp(-d/temperature), and the expected Q value is below the best by at most temperature times log(number of choices).", "quantifier": "all Q tables of all sizes (with -inf and NaN entries), all temperatures > 0, all states with a finite and no +inf estimate", "why_tests_cant": "These are statements about limits and all temperatures; tests evaluate the rule at a few.", "anchors": ["maMDP/algorithms/action_selection.py:softmax", "maMDP/algorithms/action_selection.py:SoftmaxActionSelector", "maMDP/algorithms/action_selection.py:MaxActionSelector"]}
{"id": "C106", "title": "The successor representation counts the visits of a random walk", "statement": "Entry ((s,a),(t,b)) of get_sa_sr is the expected number of times, later moves discounted, that a walker who starts with action a in state s and then chooses at random among the available actions takes action b in state t.", "quantifier": "all deterministic MDPs (in particular all grids after any sequence of calls), all discounts in (0,1), all pairs of state-action pairs", "why_tests_cant": "The entry is an infinite sum over walks of every length; tests can compare one matrix with one simulation within sampling error.", "anchors": ["maMDP/algorithms/successor_representation.py:get_sa_sr", "maMDP/algorithms/mcts.py:MCTS._fit"]}
{"id": "C107", "title": "Agents only make possible moves, whatever they were fitted with", "statement": "After a successful fit with any of the planning algorithms an agent that has an available action steps to a state some action leads to.", "quantifier": "all grids, environments after any sequence of calls, agents with the greedy selector in a state with an available action, all algorithms, all outcomes of the generator", "why_tests_cant": "The algorithm Null is a baseline nobody tests on its own; that a wrong move happens depends on the grid, the walls and the generator.", "anchors": ["maMDP/algorithms/base.py:Null._fit", "maMDP/agents.py:Agent.move", "maMDP/mdp.py:MDP.get_next_state"]}
{"id": "C108", "title": "A tree search of one move finds the best next state", "statement": "An agent fitted by MCTS with a plan of a single move steps, once the search had at least as many iterations as there are next states, to a next state whose reward is highest.", "quantifier": "all grids, environments after any sequence of calls, agents that consume nothing and do not stand on their own successor, non-interactive searches, all numbers of iterations not less than the number of next states, all exploration constants, all outcomes of the generator", "why_tests_cant": "Tests run a search with a fixed seed and small numbers; that more iterations make the answer worse is a statement about all numbers of iterations.", "anchors": ["maMDP/algorithms/mcts.py:run_mcts", "maMDP/algorithms/mcts.py:UCB", "maMDP/algorithms/mcts.py:get_next_node", "maMDP/algorithms/mcts.py:MCTS._fit"]}
{"id": "C109", "title": "Plans weigh costs as well as rewards", "statement": "With rewards of either sign, a greedy agent fitted by value iteration collects over n steps at least as much discounted reward as any other sequence of n actions from the same state, but for the discounted tail and the tolerance.", "quantifier": "all grids, walls, features, reward weights of either sign, environments after any sequence of calls, greedy agents that can move, all discounts in (0, 1), tolerances and numbers of steps", "why_tests_cant": "The agents in the tests have rewards that are not negative; how much a plan loses depends on every cost in the grid, and the claim compares with all sequences of actions of all lengths.", "anchors": ["maMDP/algorithms/dynamic_programming.py:state_value_iterator", "maMDP/algorithms/dynamic_programming.py:solve_value_iteration", "maMDP/algorithms/dynamic_programming.py:ValueIteration._fit", "maMDP/agents.py:AttachedAgent.step"]}
{"id": "C110", "title": "The unit of the rewards does not matter", "statement": "Multiplying all reward weights and the tolerance by the same positive number multiplies the values and action values found by value iteration by it and changes no decision: fitting succeeds or fails as before, and the policy and its probabilities are the same, for greedy agents and, with the temperature multiplied too, for softmax agents.", "quantifier": "all MDPs, reward weights, positive factors, discounts, tolerances, iteration limits, agents with the greedy or the softmax selector, outcomes of the generator", "why_tests_cant": "The stopping rule, the ties and the temperature all depend on the size of the rewards; the claim relates two runs for every factor.", "anchors": ["maMDP/algorithms/dynamic_programming.py:state_value_iterator", "maMDP/algorithms/dynamic_programming.py:solve_value_iteration", "maMDP/action_selection.py:MaxActionSelector", "maMDP/action_selection.py:SoftmaxActionSelector", "maMDP/agents.py:AttachedAgent.fit"]}
{"id": "C111", "title": "Small errors in the rewards make small differences", "statement": "If one reward function nowhere exceeds another by more than \u03b5, the values found by value iteration nowhere exceed the other's by more than \u03b5/(1-discount), up to the tolerance; and an agent that plans with rewards that are wrong by at most \u03b5 loses at most 2\u03b5/(1-discount) more of the discounted reward that matters than one that plans with the right ones.", "quantifier": "all MDPs, pairs of reward functions, discounts in (0, 1), tolerances, iteration limits large enough for the tolerance; for walks: deterministic MDPs, planned-with rewards between 0 and R, environments after any sequence of calls, all numbers of steps and outcomes of the generator", "why_tests_cant": "The claim is about all pairs of reward functions and all alternative action sequences; tests look at single reward functions.", "anchors": ["maMDP/algorithms/dynamic_programming.py:state_value_iterator", "maMDP/algorithms/dynamic_programming.py:solve_value_iteration", "maMDP/algorithms/dynamic_programming.py:ValueIteration._fit", "maMDP/agents.py:AttachedAgent.fit", "maMDP/agents.py:AttachedAgent.step"]}
{"id": "C112", "title": "The numbering of states and actions does not matter", "statement": "Two worlds that differ only in the numbers given to their states and actions, for example a grid and its mirror image, get the same values, the same action values and the same choices from value iteration, so that in a world that is its own mirror image mirrored choices are equally likely.", "quantifier": "all MDPs, renumberings of states and actions, rewards, discounts in (0, 1), tolerances, iteration limits; mirror images of square grids in both coordinates and of hexagonal grids with an odd number of columns; square grids with their two coordinates exchanged (W by H against H by W); hexagonal grids with an even number of columns turned by half a turn", "why_tests_cant": "The order in which the planner visits states is their numbering; whether it shows in the result depends on all rewards, the tolerance and the iteration limit.", "anchors": ["maMDP/algorithms/dynamic_programming.py:state_value_iterator", "maMDP/algorithms/dynamic_programming.py:solve_value_iteration", "maMDP/grid_utils.py:square_adjacency", "maMDP/mdp.py:SquareGridMDP", "maMDP/mdp.py:HexGridMDP"]}
{"id": "C113", "title": "Agents that do not care about each other plan independently", "statement": "An agent whose reward gives no weight to the other agents' positions and to the features they consume is planned for by value iteration in the same way whatever the others have done since: fitted, moved, placed elsewhere, with or without success, the outcome, values, action values, policy and probabilities are the same.", "quantifier": "all grids, environments after any sequence of calls, all sequences of fit, step, step_proba, step_multi and set_agent_position calls about other agents, all selectors, discounts, tolerances and generator outcomes", "why_tests_cant": "The others write to the same feature array the planner reads; that nothing leaks is a statement about all sequences of their calls.", "anchors": ["maMDP/environments.py:Environment.step", "maMDP/environments.py:Environment.fit", "maMDP/mdp.py:MDP.update_agent_feature", "maMDP/mdp.py:MDP.consume_features", "maMDP/algorithms/dynamic_programming.py:ValueIteration._fit"]}
{"id": "C114", "title": "What an agent cannot reach does not affect its plan", "statement": "Changing the rewards or transitions of states that cannot be reached from a state (behind walls, for instance) does not change the planned value, action values or choices at that state.", "quantifier": "all transition arrays and reward vectors that agree on everything reachable from the state, discounts, tolerances, iteration limits", "why_tests_cant": "Needs the planner's whole iteration on two worlds at once, for all worlds.", "anchors": ["maMDP/algorithms/dynamic_programming.py:solve_value_iteration", "maMDP/algorithms/dynamic_programming.py:state_value_iterator", "maMDP/mdp.py:MDP.walls"]}
{"id": "C115", "title": "Adding walls never makes a state worth more", "statement": "Adding walls to a grid never raises the planned value of any state: whatever can be collected with more walls could be collected with fewer.", "quantifier": "all grids, wall sets and rewards, discounts, tolerances, iteration limits", "why_tests_cant": "Compares the planner's results in two worlds, for all worlds.", "anchors": ["maMDP/algorithms/dynamic_programming.py:solve_value_iteration", "maMDP/algorithms/dynamic_programming.py:state_value_iterator", "maMDP/mdp.py:MDP.walls"]}
{"id": "C116", "title": "A plan never promises more than can be collected", "statement": "The planned value of a state (or of an action) is never more than what some walk from there (beginning with the action) collects, wherever the iteration stopped.", "quantifier": "all deterministic MDPs, rewards, discounts, tolerances, iteration limits and states with a possible action", "why_tests_cant": "An upper bound by the supremum over infinitely many walks.", "anchors": ["maMDP/algorithms/dynamic_programming.py:solve_value_iteration", "maMDP/algorithms/dynamic_programming.py:state_value_iterator"]}
{"id": "C117", "title": "Looking further ahead never makes a state worth less", "statement": "With rewards that are not negative, a larger discount factor, or a further pass of value iteration, never lowers the value of a state.", "quantifier": "all MDPs, non-negative rewards, pairs of discounts, numbers of passes; plans with any limits and tolerances", "why_tests_cant": "Monotonicity over a continuum of discounts and all MDPs.", "anchors": ["maMDP/algorithms/dynamic_programming.py:solve_value_iteration", "maMDP/algorithms/dynamic_programming.py:state_value_iterator"]}
{"id": "C118", "title": "An action's value in a tree search is what walks beginning with it collect", "statement": "The value a tree search gives an action is no more than what some walk of the planned length beginning with this action can collect.", "quantifier": "all deterministic MDPs, agents, search options, draws, plans, numbers of iterations", "why_tests_cant": "Quantifies over all random outcomes of all searches and over all walks.", "anchors": ["maMDP/algorithms/mcts.py:get_MCTS_action_values", "maMDP/algorithms/mcts.py:run_mcts", "maMDP/algorithms/mcts.py:mcts_iteration"]}
{"id": "C119", "title": "A max-causal-entropy fit that ends without a warning has converged", "statement": "If MaxCausalEntIRL.fit returns without the warning 'Solver did not converge', the mean absolute difference between observed and expected feature counts was below the tolerance at its last iteration; error_history has one entry per iteration, observed minus expected counts with ignored features 0.", "quantifier": "all MDPs, demonstrations, ignored features, initial weights, settings", "why_tests_cant": "Quantifies over all fits; a test sees the warning or its absence for the fits it runs.", "anchors": ["maMDP/algorithms/irl.py:MaxCausalEntIRL._solve_maxcausalent"]}
{"id": "C120", "title": "Learners are independent of each other and of the arrays they were given", "statement": "Calling a method of one learner does not change another learner, nor the array of initial weights it was built from; a learner changes only by calls on itself.", "quantifier": "all programs building learners from arrays, writing arrays and calling methods", "why_tests_cant": "Aliasing shows only in programs that share an array, and quantifies over everything done later.", "anchors": ["maMDP/algorithms/irl.py:MaxCausalEntIRL.__init__", "maMDP/algorithms/irl.py:HyptestIRL.__init__", "maMDP/algorithms/policy_learning.py:TDGeneralPolicyLearner.__init__"]}
{"id": "C121", "title": "An estimate that was returned does not change later", "statement": "The weights returned by fit, and the Q values returned by get_q_values, keep their contents whatever is done with the learner afterwards.", "quantifier": "all programs building learners from arrays, writing arrays and calling methods", "why_tests_cant": "Quantifies over everything a program may do after the call.", "anchors": ["maMDP/algorithms/irl.py:MaxCausalEntIRL.fit", "maMDP/algorithms/irl.py:HyptestIRL.fit", "maMDP/algorithms/irl.py:MFFeatureMatching.fit", "maMDP/algorithms/irl.py:SimpleActionIRL.fit", "maMDP/algorithms/policy_learning.py:TDGeneralPolicyLearner.get_q_values"]}
{"id": "C122", "title": "Learners accept exactly the settings their messages describe", "statement": "Creating a MaxCausalEntIRL, HyptestIRL or TDGeneralPolicyLearner succeeds exactly if the learning rate is positive, the decay is not negative and, for HyptestIRL, the asymmetry is 1 or greater; otherwise an AssertionError is raised, and the object created has the given settings.", "quantifier": "all learning rates, decays, asymmetries and initial estimates", "why_tests_cant": "All numbers; the boundary is what tests tend to miss.", "anchors": ["maMDP/algorithms/irl.py:MaxCausalEntIRL.__init__", "maMDP/algorithms/irl.py:HyptestIRL.__init__", "maMDP/algorithms/policy_learning.py:TDGeneralPolicyLearner.__init__"]}
{"id": "C123", "title": "Simulated hunters chase their prey", "statement": "In an interactive tree search, an opponent assumed to plan its moves and rewarded only for being where another agent is moves, each time, one step closer to where that agent is.", "quantifier": "all deterministic transition arrays, positions, iterations and draws", "why_tests_cant": "Quantifies over all simulated positions and moves; simulated moves of opponents are not even returned by default.", "anchors": ["maMDP/algorithms/mcts.py:mcts_iteration", "maMDP/algorithms/mcts.py:get_opponent_next_state"]}
{"id": "C124", "title": "Rounding does not spoil value iteration", "statement": "If every elementary operation of value iteration returns its exact result up to a relative error delta, with 20 (n + 1) delta <= 1 - discount for n states, the values and the action values of possible actions differ from the exact solution of the Bellman equation by at most (discount tol + (1 + discount) eps) / (1 - discount) after stopping by the tolerance, or discount^max_iter R / (1 - discount) + eps / (1 - discount) after max_iter iterations, where rewards are at most R and eps = 20 (n + 1) delta R / (1 - discount). In double precision (with gradual underflow, overflow left out) the same holds with eps = 22 (n + 1) 2^-53 R / (1 - discount), if 22 (n + 1) 2^-53 <= 1 - discount and R >= 2^-900. It does stop by the tolerance within N + 1 iterations if 2 discount^N R / (1 - discount) + 3 eps / (1 - discount) < tol, and then larger limits change nothing. Always taking an action of largest computed value is then as good as any other way of moving, up to 2 / (1 - discount) times that error and what can be collected later.", "quantifier": "all transition arrays, rewards, discounts, tolerances, numbers of iterations, roundings of the given accuracy and walks", "why_tests_cant": "Quantifies over all roundings of all intermediate results; a test sees the floats of one machine and has no exact solution to compare with.", "anchors": ["maMDP/algorithms/dynamic_programming.py:state_value_iterator", "maMDP/algorithms/dynamic_programming.py:solve_value_iteration"]}
{"id": "C125", "title": "Recorded learning histories of hypothesis-testing IRL", "statement": "After a successful fit of HyptestIRL, theta_array has one row per observed move and trajectory_theta one per trajectory. Row k of theta_array is the estimate the same learner would have returned had it been fitted to the first k + 1 moves only, row k of trajectory_theta the one for the first k + 1 trajectories (the starting weights while no move has been seen); the last rows are the returned estimate. A fit that raises leaves both as they were.", "quantifier": "all learners, lists of MDPs, trajectories of any lengths, Q values and scoring functions", "why_tests_cant": "A test can compare a few rows; that every row is the result of a fit on truncated data is a statement about all prefixes of all data sets.", "anchors": ["maMDP/algorithms/irl.py:HyptestIRL._solve_hyptest", "maMDP/algorithms/irl.py:HyptestIRL.fit"]}
{"id": "C126", "title": "Learning in batches", "statement": "Fitting a learner to one batch of trajectories and then to another gives the same estimate as fitting it to both batches at once (learners keep their estimate between fits).", "quantifier": "all learners, MDPs and splits of all lists of trajectories into two batches", "why_tests_cant": "Equality of two different call sequences over all data; tests use one fit.", "anchors": ["maMDP/algorithms/irl.py:HyptestIRL.fit", "maMDP/algorithms/policy_learning.py:TDGeneralPolicyLearner.fit", "maMDP/algorithms/policy_learning.py:TDGeneralPolicyLearner._fit_TD_policy"]}
{"id": "C127", "title": "The order of trajectories does not matter to methods based on feature counts", "statement": "Max-causal-entropy IRL and feature matching learn the same weights from the same trajectories listed in any order.", "quantifier": "all MDPs, lists of trajectories and permutations of them", "why_tests_cant": "Invariance under all permutations of all data sets; tests fix one order.", "anchors": ["maMDP/algorithms/irl.py:MaxCausalEntIRL._solve_maxcausalent", "maMDP/algorithms/irl.py:MaxCausalEntIRL.fit", "maMDP/algorithms/irl.py:MFFeatureMatching.fit"]}
{"id": "C128", "title": "Trajectories are drawn through the places of their states", "statement": "After a grid has been plotted, plot_trajectory draws one arrow per move, from the place of each state (its coordinates on a square grid, the centre of its hexagon on a hexagonal one) to the place of the next, and plot_sequence writes 1, 2, 3, ... next to the states in order. A move of the MDP is an arrow of one step: length 1 on a square grid, the distance of touching hexagons on a hexagonal one. A state that does not exist raises ValueError, a hexagonal grid never plotted AttributeError.", "quantifier": "all grids of both kinds, all histories of plotting calls of any length, all lists of states", "why_tests_cant": "Where the arrows go depends on what earlier plotting calls left behind; tests call the methods once and look at no coordinates.", "anchors": ["maMDP/mdp.py:GridMDP.plot_trajectory", "maMDP/mdp.py:GridMDP.plot_sequence", "maMDP/mdp.py:HexGridMDP.state_to_position", "maMDP/plotting.py:plot_trajectory", "maMDP/plotting.py:plot_sequence"]}
{"id": "C129", "title": "The picture of an environment shows features, walls and agents where they are", "statement": "Environment.plot draws every feature of the MDP at every state with its colour and an opacity that grows with the feature (clipped to 0..1), every wall opaquely on top, and on top of these one marker per agent at the place of the agent's state, with the requested shape and colour or a black X. plot_state_values shows every state's value for the agent, and reports unknown names (ValueError) and agents without a plan (AttributeError).", "quantifier": "all grids of both kinds, all environments after any history of calls, all colours, opacities, markers and sets of hidden states", "why_tests_cant": "The statement quantifies over all states, features, agents and histories; an image comparison covers one picture.", "anchors": ["maMDP/environments.py:Environment.plot", "maMDP/environments.py:Environment.plot_state_values", "maMDP/agents.py:AttachedAgent.plot", "maMDP/mdp.py:SquareGridMDP.plot", "maMDP/mdp.py:HexGridMDP.plot", "maMDP/plotting.py:plot_grids", "maMDP/plotting.py:plot_hex_grids"]}
{"id": "C130", "title": "Features can be told apart by colour", "statement": "In a plot different features have different colours, whether the caller names a (different) colour for each or relies on the default. With fewer colours than features plot raises IndexError.", "quantifier": "all numbers of features and all lists of colours", "why_tests_cant": "Tests plot a few features; the default palette runs out later.", "anchors": ["maMDP/plotting.py:plot_grids", "maMDP/plotting.py:plot_hex_grids"]}
{"id": "C131", "title": "TDPolicyIRL learns action values from trajectories", "statement": "Given trajectories and the MDP or MDPs they were observed in, TDPolicyIRL returns its estimate of the action values and a prediction for every observed move.", "quantifier": "all lists of trajectories, all MDPs and lists of MDPs", "why_tests_cant": "No test calls the function; that no argument makes it work is a statement about all arguments.", "anchors": ["maMDP/algorithms/policy_learning.py:TDPolicyIRL"]}
{"id": "C132", "title": "A walk is drawn with the product of the chances of its moves", "statement": "When an agent that draws its actions from the softmax of its action values is stepped k times, with independent uniform random numbers, the probability that it makes a given sequence of moves is the product over the moves of the softmax probability of the action in the state it is made from, and the probability that it stands on a state t after k steps is the sum of that product over the walks ending in t.", "quantifier": "all grids, all agents with the softmax rule at a positive temperature whose action values are -inf exactly for the impossible actions and that stand where some move is possible, all numbers of steps, all walks and target states, all draws (Lebesgue measure on the cube of draws)", "why_tests_cant": "A probability is a statement about all outcomes of the generator; simulations only estimate it, and for a few grids.", "anchors": ["maMDP/algorithms/action_selection.py:SoftmaxActionSelector", "maMDP/agents.py:AttachedAgent.step", "maMDP/environments.py:Environment.step"]}
{"id": "C133", "title": "The policy an environment reports is the one the agent follows", "statement": "After an agent has been fitted, get_agent_pi_p and get_agent_pi report the probabilities and actions its selection rule gives for the values reported by get_agent_q_values, and the agent's next step makes the action reported for the state it stands on.", "quantifier": "all grids, all lists of agents with all selection rules, all calls before the fit, all calls after it that do not fit the agent again, all draws", "why_tests_cant": "Steps sample the policy afresh, so agreement between a report and a later step in one run says nothing about other draws; the reports must agree after every sequence of calls.", "anchors": ["maMDP/environments.py:Environment.get_agent_pi", "maMDP/environments.py:Environment.get_agent_pi_p", "maMDP/agents.py:AttachedAgent.step"]}
{"id": "C134", "title": "Soft value iteration finds the most reward plus entropy", "statement": "The values found by soft value iteration (soft=True) are the most discounted reward plus entropy of the choices that can be gathered by taking possible actions, and choosing actions in proportion to the exponentials of the action values gathers that much. This is the policy max-causal-entropy IRL attributes to the observed agent.", "quantifier": "all MDPs, all rewards, all discounts, all policies (as the number of passes grows)", "why_tests_cant": "The claim compares with every policy, of which there are uncountably many, over unboundedly many steps.", "anchors": ["maMDP/algorithms/dynamic_programming.py:state_value_iterator", "maMDP/algorithms/dynamic_programming.py:solve_value_iteration", "maMDP/algorithms/irl.py:MaxCausalEntIRL._maxcausalent_innerloop"]}
{"id": "C135", "title": "Only differences between rewards matter", "statement": "Adding the same constant c to the reward of every state changes no decision of value iteration: every state and every action that can be taken becomes worth c / (1 - discount) more, so the same actions remain best.", "quantifier": "all MDPs in which every state offers an action, all rewards, all constants, all discounts and tolerances (with enough passes)", "why_tests_cant": "The claim compares two runs of value iteration for every MDP, every reward function and every constant.", "anchors": ["maMDP/algorithms/dynamic_programming.py:state_value_iterator", "maMDP/algorithms/dynamic_programming.py:solve_value_iteration"]}
{"id": "C136", "title": "The numbers of the features do not matter", "statement": "If the rows of the feature matrix are put in another order, and weights, starting weights and ignored features with them, then agents end up with the same plans and every IRL method learns the same weight for the same feature.", "quantifier": "all worlds, all reorderings, all rewards, all trajectories, all learner settings and starting weights, for value-iteration agents and all five IRL learners; failing calls fail alike", "why_tests_cant": "Features are only told apart by their number; a method that used the number for anything else (a tie, a stopping rule, an index into something else) would be right for almost every order one tries.", "anchors": ["maMDP/agents.py:AttachedAgent.fit", "maMDP/algorithms/irl.py:MaxCausalEntIRL.fit", "maMDP/algorithms/irl.py:MFFeatureMatching.fit", "maMDP/algorithms/irl.py:HyptestIRL.fit", "maMDP/algorithms/irl.py:SimpleActionIRL.fit"]}
{"id": "C137", "title": "Features that are nowhere do not matter", "statement": "Adding features that no state has changes no plan and no weight learned for the other features.", "quantifier": "all worlds, any number of further features at any position, all trajectories, all learner settings and starting weights", "why_tests_cant": "The claim compares two runs of every learner for every world and every way to add absent features; with the default tolerance the difference shows up only in runs that converge.", "anchors": ["maMDP/algorithms/irl.py:MaxCausalEntIRL._solve_maxcausalent", "maMDP/agents.py:AttachedAgent.fit", "maMDP/algorithms/irl.py:HyptestIRL.fit"]}
{"id": "C138", "title": "Loading succeeds exactly for sound descriptions, and otherwise says what is wrong", "statement": "hex_environment_from_dict returns an environment exactly when the dictionary has no mistake: type 'hex', at least one cell, every requested feature present with cells of the grid and a row for it, walls inside the grid, agents with known algorithms and selectors, start positions on the grid, one reward per feature and agent, nothing consumed beyond them. The environment is then the described one. Otherwise the first mistake decides the error: NotImplementedError, KeyError, IndexError or ValueError.", "quantifier": "all dictionaries with distinct feature names, all lists of requested names (also repeated or too many), all agents and constructors", "why_tests_cant": "A test loads a few files; the claim is about every way in which a description can be wrong, and about the order in which mistakes are noticed.", "anchors": ["maMDP/env_io.py:hex_environment_from_dict", "maMDP/environments.py:Environment.__init__"]}
{"id": "C139", "title": "Preferences are only learned from worlds with the same actions", "statement": "A policy learner that was given n preferences always has n preferences. Fitting it to observations in a world with another number of actions raises ValueError and changes no preference.", "quantifier": "all learners (with or without kernel or decay), all worlds, all trajectories after any number of empty ones; for the number of preferences: all sequences of calls with any worlds", "why_tests_cant": "NumPy stretches arrays of length one, so whether a mismatch is noticed depends on the two lengths; a test with one pair of worlds says nothing about the others.", "anchors": ["maMDP/algorithms/policy_learning.py:TDGeneralPolicyLearner.fit", "maMDP/algorithms/policy_learning.py:TDGeneralPolicyLearner._fit_TD_policy"]}
{"id": "C140", "title": "Whose turn comes first matters only for contested food", "statement": "If two agents can each take a step now and neither consumes the other, they can take their steps in either order. Both land where they would have landed anyway, and the MDP, the step counter, every agent's position, history and policy, and the total consumed of each feature come out the same. The two environments are equal if and only if the two agents do not land on the same state holding a feature that both consume.", "quantifier": "all reachable grids, all agents, all sequences of calls on the environment before the two steps, all draws", "why_tests_cant": "A test plays one order of one situation; the claim compares both orders in all situations and needs independence of the moves from each other.", "anchors": ["maMDP/environments.py:Environment.step", "maMDP/environments.py:Environment._consume_features", "maMDP/agents.py:AttachedAgent.step"]}
{"id": "C141", "title": "From two moves ahead on, a tree search keeps exploring", "statement": "When an agent plans alone by tree search, at least two moves ahead and with a positive exploration constant, then each state it can go to next is visited more and more often, beyond every bound, as the number of iterations grows. So the value that a fit gives an action comes as close as one likes to the average return of the simulated walks through the state the action leads to.", "quantifier": "all square and hexagonal grids of any size with any walls, all environments on them and histories of operations, all agents, reward weights, exploration constants above 0, plans of at least two moves, all outcomes of the random generator, all bounds and tolerances", "why_tests_cant": "It is a statement about the limit of infinitely many iterations for every sequence of random draws; a test runs finitely many iterations with a few seeds.", "anchors": ["maMDP/algorithms/mcts.py:MCTS_next_node", "maMDP/algorithms/mcts.py:run_mcts", "maMDP/algorithms/mcts.py:mcts_iteration", "maMDP/algorithms/mcts.py:UCB"]}
{"id": "C142", "title": "Large rewards do not make planning overflow", "statement": "However large the rewards are, as long as the values of the states can be represented, soft value iteration returns them, and softmax action selection returns the probabilities it should: no intermediate result overflows.", "quantifier": "all numbers of states and actions, transition probabilities, rewards, discounts, tolerances, numbers of passes, temperatures, rows of values and all largest numbers of the arithmetic", "why_tests_cant": "Whether some exponential overflows depends on the size of all rewards, on the discount and on the pass; a test checks rewards of one size.", "anchors": ["maMDP/algorithms/dynamic_programming.py:state_value_iterator", "maMDP/algorithms/dynamic_programming.py:solve_value_iteration", "maMDP/algorithms/action_selection.py:softmax"]}
{"id": "C143", "title": "A forager that plans anew before each step eats everything it can reach", "statement": "An agent with non-negative rewards that consumes the features it likes, is fitted with value iteration before each of its steps and picks best actions: for a small tolerance and enough passes all its fits and steps succeed, and after some number of rounds, which does not depend on how ties are broken, none of the features it likes is left in any state that can be reached from where it started; without walls, none anywhere. This holds with step_multi and refit=True, and whatever the other agents do between its rounds if it does not care where they are.", "quantifier": "all grids of both kinds, walls, environments after any history of calls, foragers and other agents, discounts between 0 and 1, draws, and all later rounds", "why_tests_cant": "The plan changes with every bite, and whether the agent can dither forever depends on all plans, ties and tolerances; a test follows one run for a while.", "anchors": ["maMDP/environments.py:fit", "maMDP/environments.py:step", "maMDP/agents.py:step", "maMDP/environments.py:_consume_features", "maMDP/mdp.py:consume_features", "maMDP/algorithms/dynamic_programming.py:solve_value_iteration"]}
{"id": "C144", "title": "A softmax agent goes everywhere it can", "statement": "For an agent on a grid that picks its actions with the softmax selector at a positive temperature, by fixed action values that are finite for possible moves (value iteration with any rewards and settings makes such): the chance that the places it has visited since include every state it can reach, also the one it started from, tends to 1 with the number of its steps, and so does the chance that nothing is left there of the features it consumes. An agent that picks best actions may stay away from a neighbouring state forever.", "quantifier": "all grids of both kinds, walls, environments after any history of calls, temperatures above 0, action values, start states with a possible move, and all states within reach at once", "why_tests_cant": "A statement about chances in the limit of infinitely many steps, over all draws of the generator.", "anchors": ["maMDP/environments.py:step", "maMDP/agents.py:step", "maMDP/action_selection.py:SoftmaxActionSelector", "maMDP/mdp.py:consume_features", "maMDP/environments.py:fit"]}
{"id": "C145", "title": "A faster hunter catches its prey", "statement": "An agent that gets reward from the presence of one other agent only, consumes it, picks best actions and is fitted with value iteration before each of its moves, makes k moves in a turn. The other one gets at most j < k moves away in a turn, for instance because it takes at most j steps on plans that tell which moves are possible. Then, whatever the other agents do, the two stand in the same state within d / (k - j) turns, where d is the number of moves that lead from the hunter to the prey at first. The tolerance has to be small enough, with a bound given by the discount, d + j and the reward, and the number of iterations large enough. With equal numbers of moves the prey can get away forever.", "quantifier": "all grids of both kinds, walls, environments after any history of calls, discounts between 0 and 1, rewards, numbers of moves j < k, calls of the other agents in each turn, and draws of the action selectors", "why_tests_cant": "The prey may do anything, adapting to what the hunter does, for any number of turns, and value iteration is stopped by its tolerance: no set of games covers that.", "anchors": ["maMDP/environments.py:step", "maMDP/environments.py:fit", "maMDP/agents.py:step", "maMDP/algorithms/dynamic_programming.py:ValueIteration", "maMDP/mdp.py:get_next_state"]}
{"id": "C146", "title": "A step can be asked about from any state", "statement": "env.step_proba(name, s) with a state number s answers as env.step_proba(name) would if the agent stood in s, and moves nobody.", "quantifier": "all grid MDPs, environments, earlier calls (failing ones included), agents, states and draws", "why_tests_cant": "Whether the two questions have the same answer depends on the policy, the walls and everything called before.", "anchors": ["maMDP/environments.py:step_proba", "maMDP/agents.py:step_proba"]}
{"id": "C147", "title": "An agent whose tree search fails is left without a plan, and nothing else changes", "statement": "If env.fit raises for an agent that plans by tree search, the MDP, the other agents and the agent's own position, history and counts are as before. Unless it is the action selector that raised, the agent has no plan any more, also if it had one: until it is fitted again, whatever else is called, env.step for it raises AttributeError and changes nothing, and its Q values are None. Without n_moves env.fit always raises for such an agent.", "quantifier": "all grid MDPs, environments, earlier and later calls (failing ones included), agents, selectors, settings and earlier uses of the tree search, plans, draws", "why_tests_cant": "A test sees one failing call in one environment; which of the many ways to fail occurs, and what is called before and after, is unbounded.", "anchors": ["maMDP/environments.py:fit", "maMDP/agents.py:fit", "maMDP/algorithms/mcts.py:_fit", "maMDP/algorithms/base.py:reset"]}
{"id": "C148", "title": "Agents that plan by tree search can play any number of turns", "statement": "In an environment in which every agent stands on a state with some possible action, calls of step_multi with refit=True for agents that plan by tree search (MCTS), in any order, any number of them, each asking for at most as many steps as the agent has moves per turn, never raise and never run forever. Each call returns as many states as steps were asked for, or reports a catch if it was asked to stop. Asked for more steps than it has moves per turn, an agent makes the moves of its turn and the call then raises ValueError; unknown names and unsuitable plans are refused before any search begins, with no effect. The agent moves only by possible moves, every position is appended to its history, and nobody else moves. Required: every agent has some non-zero reward weight (if others simulate it), with caching nobody consumes more than one feature, and opponents are simulated at random or by value iteration with max or softmax choice.", "quantifier": "all grid MDPs with any walls, any number of agents, earlier calls, settings of each agent's search, kept or cleared caches, plans, numbers of turns, sequences of calls, random outcomes", "why_tests_cant": "A test plays one game with one seed; every search depends on the features consumed, the positions reached and the caches filled by all turns before.", "anchors": ["maMDP/environments.py:step_multi", "maMDP/environments.py:get_n_moves_plan", "maMDP/algorithms/mcts.py:_fit", "maMDP/algorithms/mcts.py:mcts_iteration", "maMDP/action_selection.py"]}
{"id": "C149", "title": "Rounding does not spoil choices by softmax", "statement": "In floating-point arithmetic, where every operation may round, SoftmaxActionSelector still gives a policy: probabilities always pass NumPy's check that they add up to 1, in a state with a usable estimate an action with a usable estimate is chosen, and it is the one exact arithmetic would choose unless the random draw is within a tiny, explicit distance of a border between two actions. The probabilities reported are within an explicit distance of the exact ones; where all estimates are -inf all actions are about equally likely. In double precision with at most 1000 actions and a temperature of at least 2^-900 the chance that rounding changes the choice in a state is at most one in ten million. Likewise rand_choice_nb returns an entry with positive weight.", "quantifier": "all Q tables without +inf, numbers of states and actions, positive temperatures, draws, and all float operations that round monotonically with a bounded error (double precision in particular); for rand_choice_nb all non-negative weights of total at least 1/2", "why_tests_cant": "Whether rounded probabilities add up to a number near enough to 1, and whether a rounded cumulative sum stays below a draw, fails only for rare combinations of weights and draws that a test will not hit.", "anchors": ["maMDP/algorithms/action_selection.py:softmax", "maMDP/algorithms/action_selection.py:SoftmaxActionSelector", "maMDP/algorithms/mcts.py:rand_choice_nb"]}
{"id": "C150", "title": "An agent that ignores the others lives as if alone", "statement": "If an agent's reward function gives weight zero to everything the other agents can change (their positions and the features they consume) and it consumes none of that itself, then nothing the others do matters to it: over any sequence of its own planning (by any algorithm that sees transitions and state rewards), steps, step_proba calls and placements, with arbitrary calls about other agents in between, each of its calls returns or raises the same as if the others had done nothing, and its position, history, values, policy and consumed features end up the same.", "quantifier": "all environments reachable by any history, all agents meeting the condition, all planners, draws and sequences of calls with arbitrary calls about other agents interleaved", "why_tests_cant": "Leaks between agents through the shared MDP need particular interleavings over a whole episode; tests run a few fixed ones.", "anchors": ["maMDP/environments.py:Environment.step", "maMDP/environments.py:Environment.fit", "maMDP/agents.py:AttachedAgent.step", "maMDP/mdp.py:MDP.update_agent_feature", "maMDP/mdp.py:MDP.consume_features"]}
{"id": "C151", "title": "Action selectors of one's own are held to the documented format", "statement": "Subclassing ActionSelector: get_pi and get_pi_p refuse Q values that are not a 2-dimensional numpy array (TypeError, AttributeError) or all NaN (ValueError) before the subclass is asked; otherwise _get_pi / _get_pi_p is asked about the table with -inf for NaN. A reply is accepted exactly if it is an array of shape (n_states,) resp. (n_states, n_actions), and is returned with -1 resp. NaN in the states without an estimate; any other reply raises. What the subclass keeps is not changed by the call.", "quantifier": "all Python values given as Q values, all shapes and entries, all subclasses (any function of what they keep and the table, returning any value, a new array or an array they keep, or raising)", "why_tests_cant": "Tests subclass once with a well-behaved toy selector; the order of masking and checking, and writing through an alias of the subclass's own array, only show with particular replies and tables.", "anchors": ["maMDP/algorithms/action_selection.py:ActionSelector.get_pi", "maMDP/algorithms/action_selection.py:ActionSelector.get_pi_p", "maMDP/algorithms/action_selection.py:ActionSelector.get_nstates_actions", "maMDP/algorithms/action_selection.py:check_q_values"]}
{"id": "C152", "title": "An episode played again after a reset goes the same way", "statement": "After any calls that do not touch the walls, Environment.reset() makes the environment play like a new one: any further calls, in which every agent is planned for by a fit that does not raise before it steps, return and raise exactly what they would in the environment as first built, and leave the same MDP (features, transitions, walls), positions, position histories and policies, and the same values for every agent planned for. The counters (n_steps, features consumed) go on from where they were, by the same amounts. Without planning first, a step goes by the plan of the episode before, where in a new environment it raises AttributeError.", "quantifier": "all grids, agents and environments built from them, all histories of calls before the reset that leave the walls alone, all sequences of calls after it (fit with any algorithm outcome, step, step_proba, step_multi, reset, set_agent_position, wall changes, changed algorithms, including calls that raise), all draws", "why_tests_cant": "Tests reset once and look at positions and features; that nothing else left over from an arbitrary first episode can influence any later return value is a relation between two whole executions.", "anchors": ["maMDP/environments.py:Environment.reset", "maMDP/agents.py:AttachedAgent.reset", "maMDP/mdp.py:MDP.reset"]}
{"id": "C153", "title": "The order in which the agents are listed does not matter", "statement": "Take an environment on a grid MDP with its own features and some agents with different names, and build another on the same MDP with the same agents listed in another order, each agent's reward and consumed features written with the numbers the features have there. Then construction succeeds too, and whatever is done to both - planning by value iteration, steps, several steps with or without stopping at a catch, distributions after a step, putting agents somewhere, resets, walls - every call returns or raises the same; the position histories, action values, policies and positions of each agent are the same, each has consumed the same features equally often, and the feature rows are the same up to their numbers. If the features of the MDP were replaced by an array with another number of rows before building, this fails: the order then decides whether step_multi stops an agent for a catch.", "quantifier": "all grids, all non-empty lists of agents with different names and all reorderings of them, all selectors, rewards and consumed features, all sequences of calls (including calls that raise), all draws", "why_tests_cant": "A test compares a few orders of a few agents on one script; the claim relates two executions of arbitrary length for every permutation of every list of agents.", "anchors": ["maMDP/environments.py:Environment._set_mdp_and_agents", "maMDP/environments.py:Environment.step_multi", "maMDP/environments.py:Environment._check_agents_caught", "maMDP/mdp.py:MDP.update_agent_feature", "maMDP/mdp.py:MDP.consume_features"]}
{"id": "C154", "title": "Going on from where things stand", "statement": "Take an environment on a grid MDP with agents of different names, after any history of calls, at a moment when every agent can be seen in its feature row where it stands. Build a new grid from the present features (without the agents' rows) and the present walls, and a new environment on it from the agents as they are now (present position, same reward, selector and consumed features, algorithm with what it has found). Construction succeeds, and from then on, whatever is done to both except a reset - planning by value iteration, steps, several steps, distributions after a step, putting agents somewhere, walls - every call returns or raises the same; the agents stand at the same places with the same action values, their histories grow by the same positions, they consume the same from then on, the step counters advance equally, and features and walls are equal. The same holds for an environment built on the old MDP object itself. If an agent has been eaten the new environment shows it again, and it can be eaten a second time; a reset takes the two to different places.", "quantifier": "all grids, all lists of agents with different names, all histories of environment calls (including calls that raise) that leave every agent in sight, all later sequences of calls other than reset, all draws", "why_tests_cant": "A test saves and resumes at one moment of one script; the claim says that nothing about an arbitrary past beyond the present situation can influence any later execution.", "anchors": ["maMDP/environments.py:Environment._set_mdp_and_agents", "maMDP/environments.py:Environment.step", "maMDP/environments.py:Environment.step_multi", "maMDP/mdp.py:MDP.remove_agent_features", "maMDP/mdp.py:MDP.add_agent_feature"]}
{"id": "C155", "title": "Several interests together are never worth more than each apart", "statement": "Plan by value iteration with a weighted sum of rewards, weights not negative: no state is valued higher than the same weighted sum of the values planned for each reward alone. This holds after every number of passes exactly, for what solve_value_iteration returns up to a stated multiple of the tolerance, and for weighted sums of feature weights given to it. It holds for stochastic transitions, rewards of any sign and states with impossible actions. For soft value iteration it holds for weights that add up to 1. The inequality can be strict, and fails for negative weights.", "quantifier": "all transition arrays whose rows have non-negative entries and total at most 1, all finite families of rewards or feature weights, all non-negative weights, all discounts, tolerances and pass counts", "why_tests_cant": "A test compares a few reward vectors on one MDP at one number of passes; the claim is an inequality between solutions of different problems for every MDP, every family of rewards and every pass.", "anchors": ["maMDP/algorithms/dynamic_programming.py:solve_value_iteration", "maMDP/algorithms/dynamic_programming.py:state_value_iterator", "maMDP/algorithms/dynamic_programming.py:get_state_action_values"]}
{"id": "C156", "title": "A policy learner comes to expect a habit", "statement": "A TDGeneralPolicyLearner that observes the same action again and again ends up preferring that action to every other, whatever it observed before, and its preference for it tends to 1.", "quantifier": "all grids (and all MDPs in which no two actions make the same move), all learners and what they observed before, all trajectories showing the habit, any number of moves", "why_tests_cant": "A test shows a few moves; the claim is about the limit of arbitrarily many, and about every earlier history. With decay the preferences look as if they were still moving, and only a bound on all later updates together shows that they never arrive.", "anchors": ["maMDP/algorithms/policy_learning.py:TDGeneralPolicyLearner._fit_TD_policy", "maMDP/algorithms/policy_learning.py:TDGeneralPolicyLearner.fit"]}
{"id": "C157", "title": "Whoever cares more for a feature gets at least as much of it", "statement": "Two agents plan by value iteration and take best actions from the same state of the same grid. Their reward weights agree except that the second gives one feature a higher weight. Then the second meets at least as much of that feature on its walk as the first, counted with the discount, up to what the tolerance and the ends of the walks leave open, divided by the difference in weight.", "quantifier": "all grids, walls, features, pairs of agents after any histories (of one environment or of two), non-negative state rewards, weights differing by any positive amount, discounts in (0,1), tolerances, iteration limits large enough for the planner to stop by tolerance, all walk lengths and draws", "why_tests_cant": "A test compares two walks on one map. The claim compares walks of planners with different goals over all maps and weights, where walks differ entirely; it follows only from each walk being nearly best by its own standard.", "anchors": ["maMDP/algorithms/dynamic_programming.py:ValueIteration.fit", "maMDP/algorithms/dynamic_programming.py:solve_value_iteration", "maMDP/environments.py:Environment.fit", "maMDP/environments.py:Environment.step", "maMDP/agents.py:Agent.__init__"]}
{"id": "C158", "title": "More iterations or more fits let max-causal-entropy IRL match what was observed", "statement": "With enough iterations (max_iter_irl), or enough calls of fit on the same trajectories, MaxCausalEntIRL brings the mean absolute difference between observed and expected feature counts below any positive tolerance, and its weights settle.", "quantifier": "all MDPs without dead ends, trajectories, starting weights, learning rates, decays, discounts, numbers of iterations and of calls", "why_tests_cant": "A test runs some number of iterations on some trajectories; not having converged then says nothing about more iterations. That no number of iterations or calls suffices needs an invariant.", "anchors": ["maMDP/algorithms/irl.py:MaxCausalEntIRL._solve_maxcausalent", "maMDP/algorithms/irl.py:MaxCausalEntIRL.fit", "maMDP/algorithms/irl.py:state_visitation_iterator"]}
{"id": "C159", "title": "Weights learned by hypothesis testing stay in the range of the evidence", "statement": "HyptestIRL.fit moves each weight towards the evidence of each move, so the weight it reports for a feature lies between the smallest and the largest of the starting weight and the evidence seen. With z-score normalisation, starting from zero, no weight is larger in size than the square root of the number of actions minus one (\u221a3 on square grids, \u221a5 on hexagonal ones).", "quantifier": "all settings the constructor accepts, models, features, action values, starting weights and trajectories of adjacent states", "why_tests_cant": "A test fits some trajectories; that no sequence of moves of any length leaves the range, and that the bound does not depend on features or discount, needs an induction over the moves and an inequality about scores.", "anchors": ["maMDP/algorithms/irl.py:HyptestIRL.fit", "maMDP/algorithms/irl.py:HyptestIRL._single_move", "maMDP/algorithms/irl.py:zscore_nb"]}
{"id": "C160", "title": "The same evidence again and again is learned in the end", "statement": "When HyptestIRL.fit is shown the same demonstration more and more often, and all its moves give the same evidence for a feature, the weight it reports for that feature tends to that evidence, whatever weight it started from.", "quantifier": "all settings the constructor accepts, models, action values, starting weights and demonstrations of adjacent states", "why_tests_cant": "A test shows a demonstration some number of times; that the weight arrives, how fast, and that it never does with a fast decay are statements about all numbers of showings.", "anchors": ["maMDP/algorithms/irl.py:HyptestIRL.fit", "maMDP/algorithms/irl.py:HyptestIRL.__init__"]}
{"id": "C161", "title": "The names of the agents do not matter", "statement": "If every agent is called by another name (different agents by different names), building the environment leaves behind the same MDP and raises the same errors, and any calls made with the new names return and raise exactly what they did with the old ones and leave behind the same MDP, positions, histories, counts, plans and policies. The same holds for agents planning by tree search, down to whole games played under the same outcomes of chance.", "quantifier": "all injective renamings, MDPs, agent descriptions, histories of calls (failing ones included), random outcomes and games", "why_tests_cant": "A test tries a few names; that nothing depends on them, not even through name clashes, the order of names or messages between agents, is a statement about all names and all histories.", "anchors": ["maMDP/environments.py:Environment.__init__", "maMDP/environments.py:Environment.step_multi", "maMDP/environments.py:Environment.step", "maMDP/algorithms/mcts.py:MCTS.fit"]}
{"id": "C162", "title": "With enough iterations, a tree search finds the best plan", "statement": "An agent plans alone by tree search, consumes nothing and is indifferent to its own feature, so that a plan is worth the rewards of the states it visits. With enough iterations, whatever the random outcomes, a greedy agent fitted by the search makes the first move of a best plan.", "quantifier": "all grids, agents, histories, rewards, exploration constants, plan lengths of two moves or more, and outcomes of the random generator", "why_tests_cant": "\"With enough iterations\" and \"whatever the random outcomes\" are beyond any test: a run that ends at the best plan says nothing of other outcomes, and one that does not may just have been too short.", "anchors": ["maMDP/algorithms/mcts.py:run_mcts", "maMDP/algorithms/mcts.py:MCTS_next_node", "maMDP/algorithms/mcts.py:UCB", "maMDP/algorithms/mcts.py:MCTS.fit"]}
{"id": "C163", "title": "Planning is never worth less than wandering", "statement": "In an MDP whose transitions are deterministic, with rewards of any sign, the value get_sr_q_values gives an action, which is what a random walker would collect, never exceeds the reward of the state it is taken in plus the discounted value solve_value_iteration gives the same action, up to the tolerance. Both mark the same actions as impossible (-inf). This holds on every grid after any calls.", "quantifier": "all deterministic MDPs and all grids after any calls, rewards, discount factors in (0, 1), tolerances, iteration limits within which the solver stopped", "why_tests_cant": "The two numbers come from different algorithms, a matrix inverse and a repeated sweep, and the claim compares them for all rewards; a failure could hide in rewards of mixed sign or in mazes with dead ends.", "anchors": ["maMDP/algorithms/successor_representation.py:get_sa_sr", "maMDP/algorithms/successor_representation.py:get_sr_q_values", "maMDP/algorithms/dynamic_programming.py:solve_value_iteration"]}
{"id": "C164", "title": "With the successor representation, interests add up", "statement": "One successor representation serves all reward weights: the values get_sr_q_values gives for a weighted sum of weight vectors, of any signs, are the same weighted sums of the values it gives for each. Raising the rewards of some states lowers no value; rewards within [-R, R] give values within R / (1 - discount) of zero; and impossible actions are marked -inf for every choice of weights.", "quantifier": "all MDPs, discount factors in [0, 1), numbers of features and of weight vectors, weights and coefficients of any sign, rewards", "why_tests_cant": "Additivity over all weights, and bounds over all rewards, are statements about a matrix inverse that no number of sample weights settles.", "anchors": ["maMDP/algorithms/successor_representation.py:get_sa_sr", "maMDP/algorithms/successor_representation.py:get_sr_q_values"]}
{"id": "C165", "title": "A map walled off inside a bigger one plays as on its own", "statement": "Put a grid map somewhere inside a bigger grid of the same kind (on hexagonal grids an even number of steps away in the first coordinate) and make every other cell a wall. Value iteration returns exactly the same values and action values for the cells of the map, 0 and -inf for all others, or raises the same error. A game there is the game on the map alone: greedy or softmax agents that start where they can move, any sequence of fit, step, step_multi, set_agent_position (to where one can move) and reset, with the same outcomes of the generator, give the same answers and errors, positions, trajectories, features and consumed counts, only with the cells' new numbers.", "quantifier": "all square and hexagonal maps, sizes, offsets, walls, features (also behind the walls), agents, discount factors, tolerances and iteration limits, sequences of calls, outcomes of the generator", "why_tests_cant": "The claim compares two runs of different size for all maps, offsets and call sequences; the values must agree to the last digit although the sweeps run over different numbers of states.", "anchors": ["maMDP/mdp.py:walls", "maMDP/mdp.py:get_next_state", "maMDP/algorithms/dynamic_programming.py:solve_value_iteration", "maMDP/environments.py:fit", "maMDP/environments.py:step", "maMDP/environments.py:step_multi", "maMDP/environments.py:reset"]}
{"id": "C166", "title": "The visits a learner expects are those of an agent that walks", "statement": "For the action probabilities that a softmax agent reports in any environment after any history, state_visitation_iterator with n passes, started from the state the agent stands on, returns for every state the chances that the agent stands there after 0, 1, ..., n-1 further steps, added up (how often it is there on average). So what MaxCausalEntIRL (soft) expects of each feature for given weights is what a softmax agent with temperature 1 and the values of soft value iteration for those weights meets of it on average, when it is put where a trajectory picked at random starts. For a greedy agent whose action values leave no ties, the visits are exactly those of its next steps, whatever the generator delivers, and so with MaxCausalEntIRL made with soft=False.", "quantifier": "all grids, walls, agents, histories, temperatures, numbers of passes, states, weights, sets of trajectories whose starts can be left, outcomes of the generator (as a probability space)", "why_tests_cant": "It equates an iteration over arrays with the probabilities of positions in a running environment, for all numbers of steps; a test can only sample walks.", "anchors": ["maMDP/algorithms/irl.py:state_visitation_iterator", "maMDP/algorithms/irl.py:MaxCausalEntIRL._maxcausalent_innerloop", "maMDP/environments.py:step", "maMDP/algorithms/action_selection.py:SoftmaxActionSelector"]}
{"id": "C167", "title": "A short-sighted agent goes for the best next state", "statement": "Suppose the rewards of all states, for the agent, lie between -L and U (both at least 0). After any history, fitting an agent that takes best actions (MaxActionSelector) with ValueIteration succeeds, for any positive number of iterations, any tolerance and any discount strictly between 0 and 1, and every one of its next steps goes to a state whose reward is at most discount * (L + U) / (1 - discount) below that of any other state it could have gone to with that step. So where one neighbouring state beats all others by more than that, it goes there, however early the fit stopped.", "quantifier": "all grids, walls, agents, histories, rewards within the bounds, iteration limits, tolerances, discounts, numbers of steps, outcomes of the generator", "why_tests_cant": "It bounds what looking ahead may cost on every map and for every discount; a test can only try particular maps and discounts.", "anchors": ["maMDP/algorithms/dynamic_programming.py:solve_value_iteration", "maMDP/environments.py:step", "maMDP/environments.py:fit", "maMDP/algorithms/action_selection.py:MaxActionSelector"]}
{"id": "C168", "title": "An agent without ties is predictable and ends up going in circles", "statement": "After any history of an environment, take a fitted agent that takes best actions (MaxActionSelector), whose action values are missing exactly for impossible actions, and suppose that in every state that can be left only one action is best. Then there is one path such that, whatever the random generator delivers, the agent is at its n-th state after n steps and its history has grown by exactly the states of the path; and from some point on the path repeats itself, the point plus the length of the circle being at most the number of states. With ties the generator can decide where the agent goes.", "quantifier": "all grids, walls, agents, histories, action values without ties, numbers of steps, outcomes of the generator", "why_tests_cant": "It is about all outcomes of the generator and unboundedly many steps; a test with a fixed seed cannot tell a settled path from a lucky one.", "anchors": ["maMDP/environments.py:step", "maMDP/algorithms/action_selection.py:MaxActionSelector", "maMDP/mdp.py:MDP.get_next_state"]}
{"id": "C169", "title": "A learner without a first guess starts from 1 for each feature", "statement": "MaxCausalEntIRL and HyptestIRL document that with theta=None the initial guess is set to 1 for each feature; so a learner made without theta gives the same estimates as one made with theta = ones.", "quantifier": "all settings, MDPs, trajectories, ignored features", "why_tests_cant": "It compares two learners on all inputs; the documented start is invisible in most outputs of a single run.", "anchors": ["maMDP/algorithms/irl.py:MaxCausalEntIRL.__init__", "maMDP/algorithms/irl.py:MaxCausalEntIRL._solve_maxcausalent", "maMDP/algorithms/irl.py:HyptestIRL.__init__", "maMDP/algorithms/irl.py:HyptestIRL._solve_hyptest"]}
{"id": "C170", "title": "Soft plans are never below hard ones, and not far above", "statement": "Value iteration with soft=True gives every state and every possible action at least the value that standard value iteration gives it after the same number of passes. The value of a state is at most log(number of actions + 1) / (1 - discount) above it, that of an action at most discount times that; so two states whose standard values differ by more than this are ranked alike. The same holds up to the error left by the tolerance when both have converged. Rewards may be negative, but not below -460 * (1 - discount): below that the constant 1e-200 in the code keeps soft values from falling.", "quantifier": "all substochastic MDPs with at least one action, rewards at least -460 * (1 - discount), discounts, tolerances, numbers of passes", "why_tests_cant": "It bounds the difference of two infinite families of results; a test sees single MDPs.", "anchors": ["maMDP/algorithms/dynamic_programming.py:solve_value_iteration", "maMDP/algorithms/dynamic_programming.py:state_value_iterator"]}
{"id": "C171", "title": "Nearby states are worth about the same", "statement": "When value iteration has converged, a state from which another can be reached in d moves is worth at most (1 - discount^d) * (L + U) / (1 - discount) less than the other, where all rewards lie between -L and U, up to twice the error that the tolerance leaves. On a square or hexagonal grid, where every move can be taken back, the values of any two states d moves apart differ by at most that, whatever walls have been placed.", "quantifier": "all deterministic MDPs resp. grids and wall histories, rewards, bounds, discounts, positive tolerances, large enough iteration limits, pairs of states", "why_tests_cant": "A bound over all pairs of states of all MDPs; a test sees the values of one.", "anchors": ["maMDP/algorithms/dynamic_programming.py:solve_value_iteration", "maMDP/mdp.py:SquareGridMDP", "maMDP/mdp.py:HexGridMDP"]}
{"id": "C172", "title": "A first guess of whole numbers works", "statement": "The first guess passed to MaxCausalEntIRL or HyptestIRL (theta) or to TDGeneralPolicyLearner (Q) may be an array of integers: fit then gives what it gives for the same numbers as floats.", "quantifier": "all settings, guesses, earlier calls of fit and reset, MDPs and trajectories", "why_tests_cant": "A test tries one guess; that no sequence of calls ever makes such a learner usable is a statement about all of them.", "anchors": ["maMDP/algorithms/irl.py:MaxCausalEntIRL._solve_maxcausalent", "maMDP/algorithms/irl.py:HyptestIRL", "maMDP/algorithms/policy_learning.py:TDGeneralPolicyLearner"]}
{"id": "C173", "title": "A tree search plans for the environment it is asked in", "statement": "env.fit for an agent that plans by tree search plans from where the agent stands in env and for the agents that are in env, also if the same Agent object has since been added to another environment.", "quantifier": "all environments and histories, agents, settings, plans, iteration counts, random outcomes and all other environments the agent was added to", "why_tests_cant": "A test fits one agent in one environment; which of several environments an object refers to depends on the order in which they were built, and that no number of iterations makes up for it is a statement about all searches.", "anchors": ["maMDP/algorithms/base.py:Algorithm._attach", "maMDP/algorithms/mcts.py:MCTS.create_agent_info", "maMDP/agents.py:Agent._attach"]}
{"id": "C174", "title": "A tree search reckons with being caught", "statement": "In an interactive tree search an iteration ends, and brings the cost of being caught, exactly when after some move (or at the start) an agent that consumes the planning agent, and has not been eaten itself, stands on its state.", "quantifier": "all settings, transition arrays, agents, plans, random outcomes and numbers of moves", "why_tests_cant": "A test plays one simulated pursuit; that a last move never counts, whatever the opponents do, is a statement about all plans and all random outcomes.", "anchors": ["maMDP/algorithms/mcts.py:mcts_iteration", "maMDP/algorithms/mcts.py:check_agent_overlap"]}
{"id": "C175", "title": "Walls may be given as booleans", "statement": "The walls of a grid MDP, passed at construction or assigned, may be an array of booleans: every later operation on the MDP (add_wall_xy, reset_walls, assignments, feature operations) does what it does when the same walls are given as 0 and 1.", "quantifier": "all grids, wall arrays and sequences of operations, including assignments of arrays of either type", "why_tests_cant": "A test tries a few operations on one array; that reset_walls never works until other walls are assigned, and that all other operations agree, is a statement about all sequences.", "anchors": ["maMDP/mdp.py:MDP.walls", "maMDP/mdp.py:GridMDP.add_wall_xy", "maMDP/mdp.py:GridMDP.reset_walls"]}
{"id": "C176", "title": "Features may be given as whole numbers", "statement": "The features of an MDP, and transitions assigned to it, may be arrays of integers: planning by value iteration and the learners that plan work as they do when the same numbers are given as floats.", "quantifier": "all grids, features, assigned transitions, sequences of operations on the MDP (assignments of arrays of either type, walls, consumption, agents' features, resets), reward functions, planner settings, learners and data", "why_tests_cant": "Whether an MDP can be planned in depends on everything that was done to its arrays before; and that no reward function, setting or data makes it work is a statement about all of them.", "anchors": ["maMDP/mdp.py:MDP.features", "maMDP/mdp.py:MDP.sas", "maMDP/mdp.py:MDP.add_agent_feature", "maMDP/algorithms/dynamic_programming.py:solve_value_iteration", "maMDP/algorithms/irl.py:MaxCausalEntIRL.fit", "maMDP/algorithms/irl.py:HyptestIRL.fit"]}
{"id": "C177", "title": "Rounding does not spoil soft value iteration", "statement": "Value iteration with soft=True, carried out in double precision (with gradual underflow; exponentials correct up to a fraction 2^-50, logarithms up to 2^-41), ends with values, and action values of the actions that can be taken, that differ from the exact solution of the soft Bellman equation by at most (discount tol + (1 + discount) eps) / (1 - discount) after stopping by the tolerance, or discount^max_iter (R + log(k + 1)) / (1 - discount) + eps / (1 - discount) after max_iter iterations, for k <= 500 actions, n states, rewards of at most R and eps = (2 n + 3) 2^-41 + (k + 2) 2^-49. The condition is that values cannot get out of range: R + B <= 700 for some B >= R + log(k + 1) + discount B + eps. It stops by the tolerance within N + 1 iterations if 2 discount^N (R + log(k + 1)) / (1 - discount) + 3 eps / (1 - discount) < tol. The same holds for any arithmetic that computes action values, values and differences up to eps. Actions that cannot be taken, and only those, have the value -inf.", "quantifier": "all transition arrays, rewards, discounts, tolerances, numbers of iterations, and all roundings, exponentials and logarithms of the given accuracy", "why_tests_cant": "Quantifies over all roundings of all intermediate results, and over library functions known only by their accuracy; a test sees one machine and has no exact solution to compare with.", "anchors": ["maMDP/algorithms/dynamic_programming.py:state_value_iterator", "maMDP/algorithms/dynamic_programming.py:solve_value_iteration"]}
{"id": "C178", "title": "Small errors in action values hardly change choices", "statement": "If two tables of action values are -inf at the same places and differ elsewhere by at most E, SoftmaxActionSelector with temperature T gives every action a probability with one table that is at most exp(2 E / T) times its probability with the other. What MaxActionSelector chooses from one table is at most 2 E worse than any other action in the other table, and an action more than 2 E better than all others in one table is its only choice from the other. After k steps, an agent with one table stands on any given state with at most exp(2 E / T)^k times, and at least the inverse of that, the probability the other table would give. The values found by value iteration differ from the exact ones by at most the larger of discount tol / (1 - discount) and discount^max_iter R / (1 - discount), for rewards of at most R (R + log(k + 1) with soft=True and k actions), so this is how much limited planning shows in the choices of a softmax agent and in the policy of max-causal-entropy IRL. What MaxCausalEntIRL (made with soft=True and VI_max_iter=n) expects of a feature that is nowhere negative is within a factor exp(2 E)^n of what a walk of n states by the exact policy meets of it; for a feature of either sign and at most F the two differ by at most (exp(2 E)^n - 1) n F.", "quantifier": "all pairs of tables of all sizes, all temperatures and errors, all grids, histories of calls and numbers of steps; all transition arrays, rewards, discounts, tolerances and iteration limits", "why_tests_cant": "Compares the choices for all pairs of nearby tables, one of which (the exact values) no program computes; probabilities of positions are statements about all draws.", "anchors": ["maMDP/algorithms/action_selection.py:SoftmaxActionSelector", "maMDP/algorithms/action_selection.py:MaxActionSelector", "maMDP/algorithms/action_selection.py:softmax", "maMDP/algorithms/dynamic_programming.py:solve_value_iteration", "maMDP/agents.py:AttachedAgent.step", "maMDP/algorithms/irl.py:MaxCausalEntIRL._maxcausalent_innerloop"]}
{"id": "C179", "title": "Weights for another number of features are refused", "statement": "A learner that holds weights for another number of features than the MDP has (because of a first guess of the wrong length, or because it learned in another world before) does not use them: fit of MaxCausalEntIRL and of HyptestIRL raises, with ValueError if nothing else is wrong with the call, and the learner keeps its weights and its learning rate (except that MaxCausalEntIRL has put 0 for the ignored features).", "quantifier": "all learners, weights of every positive length, MDPs, trajectories, ignored features and histories of successful fits", "why_tests_cant": "Quantifies over all lengths and worlds; broadcasting makes the outcome depend on the sizes, so that tests with typical sizes do not see the exception.", "anchors": ["maMDP/algorithms/irl.py:MaxCausalEntIRL.fit", "maMDP/algorithms/irl.py:MaxCausalEntIRL._solve_maxcausalent", "maMDP/algorithms/irl.py:HyptestIRL.fit", "maMDP/algorithms/irl.py:HyptestIRL._solve_hyptest", "maMDP/algorithms/dynamic_programming.py:solve_value_iteration"]}
{"id": "C180", "title": "Wanting nearly the same means choosing nearly alike", "statement": "If the reward functions of two agents (or the weights two max-causal-entropy learners hold) give every state rewards that differ by at most e, value iteration, hard or soft, with the same settings gives them action values that differ by at most D = e / (1 - discount) plus twice the error of planning (the larger of discount tol / (1 - discount) and discount^max_iter R / (1 - discount) for rewards of at most R; R + log(k + 1) with soft=True and k actions), and the same actions are impossible. Hence softmax agents with temperature T give each action probabilities that differ at most by a factor exp(2 D / T), and what MaxCausalEntIRL (soft=True, VI_max_iter=n) expects of a feature of at most F differs by at most (exp(2 D)^n - 1) n F. Weights that differ by at most d give rewards that differ by at most d times the sum of the sizes of the features of a state.", "quantifier": "all transition arrays, pairs of rewards or weights, discounts, tolerances, iteration limits, temperatures, trajectories", "why_tests_cant": "Compares two runs for all pairs of nearby rewards; a bound for all of them does not follow from any number of pairs tried.", "anchors": ["maMDP/algorithms/dynamic_programming.py:solve_value_iteration", "maMDP/algorithms/action_selection.py:SoftmaxActionSelector", "maMDP/algorithms/irl.py:MaxCausalEntIRL._maxcausalent_innerloop"]}
{"id": "C181", "title": "Unsupported settings for simulated opponents are refused", "statement": "An opponent simulated by a tree search (get_opponent_next_state) only moves if its settings are supported ones: opponent_policy 'random' or 'solve', and with 'solve' either given Q values or the algorithm 'value_iteration', and action selection 'max' or 'softmax'. Otherwise an exception is raised: NotImplementedError for an unknown policy and for the algorithm 'sr', ValueError for an unknown algorithm.", "quantifier": "all settings, transition arrays, features, rewards, states, given Q values and draws", "why_tests_cant": "Rules out success for every combination of settings and every state of the simulation; tests try a few combinations.", "anchors": ["maMDP/algorithms/mcts.py:get_opponent_next_state"]}
{"id": "C182", "title": "demean centres each column and does nothing else", "statement": "demean returns an array of the same shape in which each column sums to zero while differences within each column are those of the argument; it is the only such array. Applying it again changes nothing, and constants added to the columns beforehand do not matter.", "quantifier": "all arrays of floats with any number of rows and columns, in exact arithmetic", "why_tests_cant": "Uniqueness and invariance are about all arrays of all shapes; a test computes a few.", "anchors": ["maMDP/algorithms/irl.py:demean"]}
{"id": "C183", "title": "Opponents assumed to move at random are equally likely to take any available action", "statement": "In a tree search, an opponent with policy 'random' can get to exactly the states one action away. Of the equally likely draws, as many lead to a state as there are actions that can lead there, so that with deterministic transitions every available action is equally likely. Rewards, features, given Q values and the other settings do not matter. Where no action leads anywhere, ValueError is raised.", "quantifier": "all transition arrays with non-negative entries, states, settings, rewards, features and Q values", "why_tests_cant": "A statement about the distribution of a draw for every transition array; a test samples a few draws of one.", "anchors": ["maMDP/algorithms/mcts.py:get_opponent_next_state", "maMDP/algorithms/mcts.py:get_actions_states"]}
