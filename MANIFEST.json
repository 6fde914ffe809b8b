{
 "claims": [
  {
   "property": "C01",
   "status": "proved",
   "theorems": [
    "MaMDP.C01_state_coords",
    "MaMDP.C01_grid_coords",
    "MaMDP.C01_state_idx_state",
    "MaMDP.C01_idx_state_idx",
    "MaMDP.C01_errors",
    "MaMDP.C01_flat_to_grid",
    "MaMDP.C01_flat_to_grid_errors",
    "MaMDP.C01_features_as_grid",
    "MaMDP.C01_features_grid_reach"
   ],
   "note": "Bijection both ways, errors for out-of-range arguments, flat_to_grid reshaping. C01_features_as_grid and C01_features_grid_reach: the features shown as a picture, for every reachable grid; C01_flat_to_grid_errors."
  },
  {
   "property": "C02",
   "status": "proved",
   "theorems": [
    "MaMDP.C02_square_transitions",
    "MaMDP.C02_C03_empty"
   ],
   "note": "Every square grid of any size, with and without self transitions."
  },
  {
   "property": "C03",
   "status": "proved",
   "theorems": [
    "MaMDP.C03_hex_transitions",
    "MaMDP.C02_C03_empty"
   ],
   "note": "Every hex grid of any size, with and without self transitions."
  },
  {
   "property": "C04",
   "status": "proved",
   "theorems": [
    "MaMDP.C04_deterministic"
   ],
   "note": "Invariant over every history of MDP operations other than direct assignment of a foreign transition array."
  },
  {
   "property": "C05",
   "status": "proved",
   "theorems": [
    "MaMDP.C05_square_reversible",
    "MaMDP.C05_hex_reversible"
   ],
   "note": "Reversibility for every reachable state of a grid MDP, walls included."
  },
  {
   "property": "C06",
   "status": "proved",
   "theorems": [
    "MaMDP.C06_shortest_path",
    "MaMDP.C06_metric",
    "MaMDP.C06_matrix"
   ],
   "note": "offset_distance is the shortest-path length in the infinite hexagonal plane, and a metric."
  },
  {
   "property": "C07",
   "status": "proved",
   "theorems": [
    "MaMDP.C07_action_of_adjacent",
    "MaMDP.C07_outside"
   ],
   "note": "The action found for an adjacent pair is the move joining them."
  },
  {
   "property": "C08",
   "status": "proved",
   "theorems": [
    "MaMDP.C08_square_connected",
    "MaMDP.C08_hex_connected"
   ],
   "note": "Any two cells are connected; the least number of moves is the grid distance (hex) / Manhattan distance (square), inside the rectangle."
  },
  {
   "property": "C09",
   "status": "proved",
   "theorems": [
    "MaMDP.C09_walls_block",
    "MaMDP.C09_walls_grid"
   ],
   "note": "Exact effect of a wall assignment, plus the description of all reachable grid states."
  },
  {
   "property": "C10",
   "status": "proved",
   "theorems": [
    "MaMDP.C10_walls_history",
    "MaMDP.C10_confluent",
    "MaMDP.C10_valid_walls_accepted",
    "MaMDP.C10_reset_walls",
    "MaMDP.C10_reset_any"
   ],
   "note": "History independence for arbitrary histories, acceptance of all valid arrays on grids, reset_walls; C10_reset_any covers histories with direct assignments of a transition array."
  },
  {
   "property": "C11",
   "status": "proved",
   "theorems": [
    "MaMDP.C11_invalid_walls"
   ],
   "note": "Both error branches; the object is unchanged."
  },
  {
   "property": "C12",
   "status": "proved",
   "theorems": [
    "MaMDP.C12_add_wall_xy"
   ],
   "note": "Exact set of cells; ValueError and unchanged object otherwise."
  },
  {
   "property": "C13",
   "status": "partial",
   "theorems": [
    "MaMDP.C13_refuted",
    "MaMDP.C13_partial"
   ],
   "note": "FALSE of the code: C13_refuted exhibits a reachable grid MDP whose adjacency attribute is stale after a wall is added. C13_partial: the attribute always contains the real transitions and is exact between non-walled states."
  },
  {
   "property": "C14",
   "status": "proved",
   "theorems": [
    "MaMDP.C14_queries",
    "MaMDP.C14_index_error",
    "MaMDP.C14_valid_actions",
    "MaMDP.C14_valid_actions_grid"
   ],
   "note": "All queries agree, error branches included; duplicates excluded on grids."
  },
  {
   "property": "C15",
   "status": "proved",
   "theorems": [
    "MaMDP.C15_next_state",
    "MaMDP.C15_errors"
   ],
   "note": "Valid actions on grids lead to the successor; error branches."
  },
  {
   "property": "C16",
   "status": "partial",
   "theorems": [
    "MaMDP.C16_refuted",
    "MaMDP.C16_partial"
   ],
   "note": "FALSE of the code: C16_refuted: an impossible action moves to state 0 instead of failing. C16_partial: possible actions lead to a possible successor, impossible ones always to state 0."
  },
  {
   "property": "C17",
   "status": "proved",
   "theorems": [
    "MaMDP.C17_trajectory_replay",
    "MaMDP.C17_trajectory_errors"
   ],
   "note": "Replay of every valid trajectory; both error branches."
  },
  {
   "property": "C18",
   "status": "proved",
   "theorems": [
    "MaMDP.C18_consume",
    "MaMDP.C18_consume_error"
   ],
   "note": "Exact effect, count and idempotence, including repeated and negative indices."
  },
  {
   "property": "C19",
   "status": "proved",
   "theorems": [
    "MaMDP.C19_agent_op",
    "MaMDP.C19_agent_features"
   ],
   "note": "Any valid interleaving of additions and moves, then removal."
  },
  {
   "property": "C20",
   "status": "partial",
   "theorems": [
    "MaMDP.C20_refuted",
    "MaMDP.C20_refuted_witness",
    "MaMDP.C20_partial"
   ],
   "note": "FALSE of the code: C20_refuted: with no agents remove_agent_features always deletes every feature. C20_partial: with at least one agent exactly the agent rows go."
  },
  {
   "property": "C21",
   "status": "proved",
   "theorems": [
    "MaMDP.C21_reset",
    "MaMDP.C21_agents"
   ],
   "note": "Any history without a new feature assignment; C21_agents: also after agents' features were added or removed."
  },
  {
   "property": "C22",
   "status": "partial",
   "theorems": [
    "MaMDP.C22_refuted",
    "MaMDP.C22_refuted_all",
    "MaMDP.C22_partial"
   ],
   "note": "FALSE of the code: C22_refuted: the base class constructor raises for every input. C22_partial: the grid subclasses build."
  },
  {
   "property": "C23",
   "status": "proved",
   "theorems": [
    "MaMDP.C23_max_pi_p"
   ],
   "note": "Exact content of the choice probability table, per row."
  },
  {
   "property": "C24",
   "status": "proved",
   "theorems": [
    "MaMDP.C24_max_pi",
    "MaMDP.C24_every_best_action",
    "MaMDP.C24_max_pi_error"
   ],
   "note": "For every outcome of the generator; also every best action is obtainable; all-unestimated error branch."
  },
  {
   "property": "C25",
   "status": "proved",
   "theorems": [
    "MaMDP.C25_softmax_pi_p",
    "MaMDP.C25_shift_invariance",
    "MaMDP.C25_errors"
   ],
   "note": "Row sums, positivity, ratios, zero for unavailable actions, shift invariance, constructor error."
  },
  {
   "property": "C26",
   "status": "proved",
   "theorems": [
    "MaMDP.C26_rand_choice",
    "MaMDP.C26_softmax_pi",
    "MaMDP.C26_pinf_error"
   ],
   "note": "The drawn action is determined by the slot of the uniform draw, so each action has exactly its probability; +inf rows fail."
  },
  {
   "property": "C27",
   "status": "proved",
   "theorems": [
    "MaMDP.C27_grid",
    "MaMDP.C27_contraction",
    "MaMDP.C27_sweeps",
    "MaMDP.C27_returned",
    "MaMDP.C27_converges"
   ],
   "note": "Passes are described independently of the loop (Spec.Pass: earlier states already new, later ones still old): C27_contraction, C27_sweeps and C27_returned (what solve_value_iteration returns is the result of such passes). Contraction over any ordered field; existence and uniqueness of the fixed point, termination of the tolerance test and convergence over the reals; C27_grid discharges the hypotheses for every reachable grid MDP."
  },
  {
   "property": "C28",
   "status": "proved",
   "theorems": [
    "MaMDP.C28_accuracy"
   ],
   "note": "Error bounds for values and Q values when some pass within the limit moves every value by less than tol."
  },
  {
   "property": "C29",
   "status": "proved",
   "theorems": [
    "MaMDP.C29_mask"
   ],
   "note": "Exactly the actions without successor are -inf; the rest are finite."
  },
  {
   "property": "C30",
   "status": "partial",
   "theorems": [
    "MaMDP.C30_refuted",
    "MaMDP.C30_refuted_witness",
    "MaMDP.C30_partial"
   ],
   "note": "FALSE of the code: C30_refuted: with negative rewards a state with an impossible action gets value 0 though all its Q values are negative. C30_partial: the exact relation (maximum of the best Q value and 0 for impossible actions), equality under non-negative rewards or when all actions are possible."
  },
  {
   "property": "C31",
   "status": "proved",
   "theorems": [
    "MaMDP.C31_bounds"
   ],
   "note": "All iteration limits."
  },
  {
   "property": "C32",
   "status": "proved",
   "theorems": [
    "MaMDP.C32_optimal",
    "MaMDP.C32_returned"
   ],
   "note": "Upper bound over all valid action sequences and approximation rate; corollary for the returned values."
  },
  {
   "property": "C33",
   "status": "proved",
   "theorems": [
    "MaMDP.C33_settings",
    "MaMDP.C33_soft_settings"
   ],
   "note": "Both error branches, and success otherwise; soft variant too."
  },
  {
   "property": "C34",
   "status": "proved",
   "theorems": [
    "MaMDP.C34_soft_backup",
    "MaMDP.C34_soft_contraction",
    "MaMDP.C34_returned",
    "MaMDP.C34_soft_converges",
    "MaMDP.C34_accuracy",
    "MaMDP.C34_unique"
   ],
   "note": "Bounds of the soft backup (stated with the log-sum formula), contraction of a soft pass, C34_returned (the returned values come from such passes) and convergence; C34_unique: the soft Bellman equation has one solution. C34_accuracy: the error of the returned values for any iteration limit."
  },
  {
   "property": "C35",
   "status": "proved",
   "theorems": [
    "MaMDP.C35_matrix",
    "MaMDP.C35_sr_exists"
   ],
   "note": "Existence, two-sided inverse, non-negativity and row sums for every transition array. The matrix is described entry by entry in the statement (C35_sr_exists)."
  },
  {
   "property": "C36",
   "status": "proved",
   "theorems": [
    "MaMDP.C36_sr_q_values",
    "MaMDP.C36_error"
   ],
   "note": "Random-policy Bellman equation of the unmasked table and exact masking; error branch."
  },
  {
   "property": "C37",
   "status": "proved",
   "theorems": [
    "MaMDP.C37_moves_plan",
    "MaMDP.C37_errors"
   ],
   "note": "All arguments; window counting by an independent filter; both error branches."
  },
  {
   "property": "C38",
   "status": "proved",
   "theorems": [
    "MaMDP.C38_validated",
    "MaMDP.C38_features",
    "MaMDP.C38_agents"
   ],
   "note": "Grid MDPs reachable by any MDP calls; construction succeeds exactly for valid agents, MDP rows untouched, one one-hot row per agent."
  },
  {
   "property": "C39",
   "status": "proved",
   "theorems": [
    "MaMDP.C39_any_selector",
    "MaMDP.C39_max",
    "MaMDP.C39_softmax"
   ],
   "note": "For the greedy selector, the softmax selector, and any selector that never prefers an unusable action; any history."
  },
  {
   "property": "C40",
   "status": "proved",
   "theorems": [
    "MaMDP.C40_positions",
    "MaMDP.C40_reported"
   ],
   "note": "Invariant over arbitrary environment call lists, failing calls included."
  },
  {
   "property": "C41",
   "status": "partial",
   "theorems": [
    "MaMDP.C41_zero_elsewhere",
    "MaMDP.C41_between_partial",
    "MaMDP.C41_partial",
    "MaMDP.C41_refuted"
   ],
   "note": "FALSE of the code at one corner: C41_refuted: set_agent_position with a position below -n_states erases the agent's row and then raises. C41_zero_elsewhere holds for all histories; C41_partial / C41_between_partial cover all histories without such a call."
  },
  {
   "property": "C42",
   "status": "proved",
   "theorems": [
    "MaMDP.C42_others"
   ],
   "note": "Every call naming one agent leaves every other agent's whole record unchanged."
  },
  {
   "property": "C43",
   "status": "proved",
   "theorems": [
    "MaMDP.C43_history",
    "MaMDP.C43_step_multi",
    "MaMDP.C43_all_histories"
   ],
   "note": "Histories are replayed against an independent recorder, for environments whose consumed lists index existing features; step_multi reduced to its single calls."
  },
  {
   "property": "C44",
   "status": "proved",
   "theorems": [
    "MaMDP.C44_reset"
   ],
   "note": "After any history, for at least one agent."
  },
  {
   "property": "C45",
   "status": "partial",
   "theorems": [
    "MaMDP.C45_refuted",
    "MaMDP.C45_refuted_witness",
    "MaMDP.C45_partial"
   ],
   "note": "FALSE of the code: C45_refuted: reset never touches the counters; C45_partial states exactly what is kept."
  },
  {
   "property": "C46",
   "status": "proved",
   "theorems": [
    "MaMDP.C46_conservation",
    "MaMDP.C46_from_start",
    "MaMDP.C46_monotone"
   ],
   "note": "Potential argument over any calls other than reset, for environments whose consumed lists index existing features."
  },
  {
   "property": "C47",
   "status": "proved",
   "theorems": [
    "MaMDP.C47_unknown",
    "MaMDP.C47_known"
   ],
   "note": "Every call and getter; known names are accepted."
  },
  {
   "property": "C48",
   "status": "proved",
   "theorems": [
    "MaMDP.C48_unfitted"
   ],
   "note": "For every environment reachable without a fit of that agent."
  },
  {
   "property": "C49",
   "status": "proved",
   "theorems": [
    "MaMDP.C49_no_refit",
    "MaMDP.C49_before",
    "MaMDP.C49_errors"
   ],
   "note": "Every environment, history, argument form, draws; failing and catching rounds included. C49_errors: refused arguments."
  },
  {
   "property": "C50",
   "status": "partial",
   "theorems": [
    "MaMDP.C50_refuted_rows",
    "MaMDP.C50_refuted_position",
    "MaMDP.C50_partial"
   ],
   "note": "FALSE of the code: C50_refuted_rows, C50_refuted_position. C50_partial: exact when no negative indices are used and the feature array kept its number of rows."
  },
  {
   "property": "C51",
   "status": "partial",
   "theorems": [
    "MaMDP.C51_partial",
    "MaMDP.C51_refuted"
   ],
   "note": "FALSE of the code: C51_refuted (general: never succeeds when k > n_moves). C51_partial: k <= n_moves, including the exact plan passed to each refit."
  },
  {
   "property": "C52",
   "status": "partial",
   "theorems": [
    "MaMDP.C52_refuted",
    "MaMDP.C52_partial"
   ],
   "note": "FALSE of the code: C52_refuted (general: the environment never changes). C52_partial: the remaining behaviour."
  },
  {
   "property": "C53",
   "status": "partial",
   "theorems": [
    "MaMDP.C53_refuted",
    "MaMDP.C53_refuted_sum",
    "MaMDP.C53_partial"
   ],
   "note": "FALSE of the code: C53_refuted, C53_refuted_sum. C53_partial: exact when no state is reached twice and state 0 is not hit by impossible actions."
  },
  {
   "property": "C54",
   "status": "proved",
   "theorems": [
    "MaMDP.C54_step",
    "MaMDP.C54_history",
    "MaMDP.C54_value_iteration"
   ],
   "note": "Any history of fits, steps, multi-steps, resets; value iteration satisfies the hypothesis on action values (C54_value_iteration)."
  },
  {
   "property": "C55",
   "status": "proved",
   "theorems": [
    "MaMDP.C55_schedule",
    "MaMDP.C55_counts"
   ],
   "note": "C55_schedule: the loop ends and makes the moves of the schedule in order, up to an error or the primary agent being caught. C55_counts: how many states each agent visits."
  },
  {
   "property": "C56",
   "status": "proved",
   "theorems": [
    "MaMDP.C56_walks",
    "MaMDP.C56_walls",
    "MaMDP.C56_search"
   ],
   "note": "C56_walks for one iteration on any MDP, C56_walls for grids, C56_search for all iterations of a search."
  },
  {
   "property": "C57",
   "status": "partial",
   "theorems": [
    "MaMDP.C57_unvisited",
    "MaMDP.C57_simulate",
    "MaMDP.C57_partial",
    "MaMDP.C57_member",
    "MaMDP.C57_refuted"
   ],
   "note": "FALSE of the code at a node that was never visited, such as the agent's position until the search returns to it (C57_refuted: the bound is NaN and the first successor is taken whatever the values). C57_unvisited, C57_simulate and C57_member are complete; C57_partial needs the node to be visited."
  },
  {
   "property": "C58",
   "status": "proved",
   "theorems": [
    "MaMDP.C58_tables"
   ],
   "note": "Also: iteration i runs on the tables of the iterations before it, from the original features and positions."
  },
  {
   "property": "C59",
   "status": "proved",
   "theorems": [
    "MaMDP.C59_free",
    "MaMDP.C59_caught",
    "MaMDP.C59_caught_iff",
    "MaMDP.C59_inactive"
   ],
   "note": "Complete description of a check: who is caught, who becomes inactive, what is added. C59_inactive: the eaten stay where they are to the end of the iteration."
  },
  {
   "property": "C60",
   "status": "partial",
   "theorems": [
    "MaMDP.C60_refuted",
    "MaMDP.C60_partial"
   ],
   "note": "FALSE of the code (C60_refuted: a hare worth 10 pays 20, or 30 if it has two moves planned). C60_partial is the exact account of an iteration's return."
  },
  {
   "property": "C61",
   "status": "proved",
   "theorems": [
    "MaMDP.C61_untouched"
   ],
   "note": "However the search ends. That each iteration starts from the same features and positions is part of C58_tables."
  },
  {
   "property": "C62",
   "status": "partial",
   "theorems": [
    "MaMDP.C62_refuted",
    "MaMDP.C62_partial"
   ],
   "note": "FALSE of the code (C62_refuted: caching changes a simulated opponent's path, because the feature row of an agent lags one move behind the key of the cache). C62_partial: if no opponent's reward depends on agents' positions and nobody consumes several features, a search from an empty cache gives the same values, visits and paths with and without caching."
  },
  {
   "property": "C63",
   "status": "proved",
   "theorems": [
    "MaMDP.C63_table",
    "MaMDP.C63_step"
   ],
   "note": "C63_table for any deterministic MDP; C63_step for environments on grids after any history."
  },
  {
   "property": "C64",
   "status": "partial",
   "theorems": [
    "MaMDP.C64_refuted",
    "MaMDP.C64_partial",
    "MaMDP.C64_softmax_partial"
   ],
   "note": "FALSE of the code in every environment (C64_refuted: without a plan a fit with at least one iteration raises TypeError). C64_partial and C64_softmax_partial: with an explicit plan, fits succeed after any history under stated conditions."
  },
  {
   "property": "C65",
   "status": "proved",
   "theorems": [
    "MaMDP.C65_relations",
    "MaMDP.C65_bad_index",
    "MaMDP.C65_env"
   ],
   "note": "C65_env: in an environment on a grid, after any operations, the hypotheses hold (features not reassigned before construction, see C50). C65_bad_index: an index denoting no feature raises IndexError."
  },
  {
   "property": "C66",
   "status": "proved",
   "theorems": [
    "MaMDP.C66_sum_of_distributions",
    "MaMDP.C66_nonneg",
    "MaMDP.C66_total",
    "MaMDP.C66_total_le",
    "MaMDP.C66_expected_hard",
    "MaMDP.C66_expected_soft",
    "MaMDP.C66_start_error"
   ],
   "note": "Any substochastic model; total mass n without dead ends, at most n otherwise; also for the policy MaxCausalEntIRL really uses (hard and soft). C66_expected_hard and C66_expected_soft say which policy it is (greedy, or softmax, for the Q values found with the weights). C66_start_error: trajectories that start outside the MDP."
  },
  {
   "property": "C67",
   "status": "partial",
   "theorems": [
    "MaMDP.C67_exact",
    "MaMDP.C67_total",
    "MaMDP.C67_refuted",
    "MaMDP.C67_partial"
   ],
   "note": "FALSE of the code for two or more trajectories: C67_refuted (general). C67_exact gives the formula; C67_partial: one trajectory."
  },
  {
   "property": "C68",
   "status": "partial",
   "theorems": [
    "MaMDP.C68_refuted",
    "MaMDP.C68_partial",
    "MaMDP.C68_partial_hard",
    "MaMDP.C68_partial_soft",
    "MaMDP.C68_errors"
   ],
   "note": "FALSE of the code: C68_refuted: the default ignore_features=() zeroes the whole gradient target (general). C68_partial: list-valued ignore_features. C68_partial_hard and C68_partial_soft: the whole fit with the solver, the policy and the visitation counts of the code, no expectation assumed."
  },
  {
   "property": "C69",
   "status": "partial",
   "theorems": [
    "MaMDP.C69_exact",
    "MaMDP.C69_refuted",
    "MaMDP.C69_partial",
    "MaMDP.C69_rate_persists",
    "MaMDP.C69_td_exact",
    "MaMDP.C69_td_refuted",
    "MaMDP.C69_td_partial"
   ],
   "note": "FALSE of the code: C69_refuted: rates compound. C69_exact: true formula. C69_partial: first iteration or no decay. For TDGeneralPolicyLearner: C69_td_exact (n! to the -d, across fits), C69_td_refuted (third update on), C69_td_partial."
  },
  {
   "property": "C70",
   "status": "partial",
   "theorems": [
    "MaMDP.C70_exact",
    "MaMDP.C70_single",
    "MaMDP.C70_partial",
    "MaMDP.C70_refuted",
    "MaMDP.C70_errors"
   ],
   "note": "FALSE of the code: C70_refuted: ignore_features removes trajectories. C70_exact: true formula for MDP lists; C70_partial: nothing ignored."
  },
  {
   "property": "C71",
   "status": "partial",
   "theorems": [
    "MaMDP.C71_refuted",
    "MaMDP.C71_refuted_error",
    "MaMDP.C71_partial",
    "MaMDP.C71_solved_partial",
    "MaMDP.C71_zscore",
    "MaMDP.C71_zscore_tie"
   ],
   "note": "FALSE of the code: C71_refuted: the default normalisation raises for all inputs. C71_partial, C71_solved_partial: other normalisations; C71_zscore: mean 0, mean square 1; C71_zscore_tie: NaN on ties. C71_solved_partial gives the estimates from the action values of the solved MDP, move by move."
  },
  {
   "property": "C72",
   "status": "proved",
   "theorems": [
    "MaMDP.C72_sight",
    "MaMDP.C72_unique",
    "MaMDP.C72_self"
   ],
   "note": "All grids, walls, states and directions; the line of sight is described by cell centres and is unique (C72_unique). The stay action is not a direction and never returns (C72_self)."
  },
  {
   "property": "C73",
   "status": "proved",
   "theorems": [
    "MaMDP.C73_counts",
    "MaMDP.C73_normalised",
    "MaMDP.C73_errors",
    "MaMDP.C73_accumulates"
   ],
   "note": "C73_counts: exact totals on grids. C73_normalised: any model with non-negative features. C73_accumulates: SimpleActionIRL. C73_errors: non-neighbours raise; staying put never returns."
  },
  {
   "property": "C74",
   "status": "partial",
   "theorems": [
    "MaMDP.C74_refuted",
    "MaMDP.C74_partial",
    "MaMDP.C74_errors"
   ],
   "note": "FALSE of the code: C74_refuted (general: raises IndexError exactly when a trajectory has more steps than there are trajectories). C74_partial: all shorter ones, with the learned values. C74_errors: refused arguments."
  },
  {
   "property": "C75",
   "status": "proved",
   "theorems": [
    "MaMDP.C75_bounded",
    "MaMDP.C75_decay"
   ],
   "note": "Any list of fits, resets and learning-rate resets, failing fits included; all MDPs with the same number of actions. C75_decay: non-negative decays meet the hypothesis."
  },
  {
   "property": "C76",
   "status": "proved",
   "theorems": [
    "MaMDP.C76_shortest",
    "MaMDP.C76_metric"
   ],
   "note": "Any Archimedean ordered field with floor, hence the reals and rationals."
  },
  {
   "property": "C77",
   "status": "partial",
   "theorems": [
    "MaMDP.C77_refuted",
    "MaMDP.C77_partial"
   ],
   "note": "FALSE of the code: C77_refuted (general: strictly decreasing). C77_partial: symmetry, range, monotone in the distance."
  },
  {
   "property": "C78",
   "status": "proved",
   "theorems": [
    "MaMDP.C78_roundtrip",
    "MaMDP.C78_errors",
    "MaMDP.C78_nameless",
    "MaMDP.C78_square"
   ],
   "note": "Round trip for every hex environment after any history of calls: grid, walls, transitions, feature places, agents (order, numbers, positions, moves, consumption, selector, rewards truncated towards zero, hence equal when whole), agent rows; counters and starts begin afresh. C78_square: a square grid is silently turned into a hexagonal one."
  },
  {
   "property": "C79",
   "status": "partial",
   "theorems": [
    "MaMDP.C79_refuted",
    "MaMDP.C79_partial"
   ],
   "note": "FALSE of the code: from_json passes no feature names, so every feature is lost (C79_refuted, for every environment with a feature). C79_partial: everything else is restored."
  },
  {
   "property": "C80",
   "status": "proved",
   "theorems": [
    "MaMDP.C80_touching"
   ],
   "note": "Adjacent exactly when the squared distance of the drawn centres is at most 3r\u00b2 (and then within 1e-7 of it, from rounding \u221a3/2); all other pairs are further than \u221a8\u00b7r."
  },
  {
   "property": "C81",
   "status": "proved",
   "theorems": [
    "MaMDP.C81_normalise",
    "MaMDP.C81_constant"
   ],
   "note": "Also NaN entries stay NaN; C81_constant: constant arrays become all NaN, empty arrays raise ValueError."
  },
  {
   "property": "C82",
   "status": "proved",
   "theorems": [
    "MaMDP.C82_fit",
    "MaMDP.C82_rejects",
    "MaMDP.C82_value_iteration"
   ],
   "note": "Arbitrary _fit; object unchanged on every error; value iteration on grids accepts exactly the well-shaped rewards."
  },
  {
   "property": "C83",
   "status": "partial",
   "theorems": [
    "MaMDP.C83_refuted",
    "MaMDP.C83_partial"
   ],
   "note": "FALSE of the code: C83_refuted (general). C83_partial: VI_max_iter = 1."
  },
  {
   "property": "C84",
   "status": "partial",
   "theorems": [
    "MaMDP.C84_learning_rate",
    "MaMDP.C84_partial",
    "MaMDP.C84_refuted",
    "MaMDP.C84_refuted_none"
   ],
   "note": "FALSE of the code: C84_refuted (weights after a second reset), C84_refuted_none (theta=None). C84_learning_rate: all histories; C84_partial: weights up to the first reset."
  },
  {
   "property": "C85",
   "status": "partial",
   "theorems": [
    "MaMDP.C85_exact",
    "MaMDP.C85_partial",
    "MaMDP.C85_refuted"
   ],
   "note": "FALSE of the code: C85_refuted (general: moving in the last direction never earns a positive weight). C85_exact: the true sums; C85_partial: grids with self transitions."
  },
  {
   "property": "C86",
   "status": "partial",
   "theorems": [
    "MaMDP.C86_refuted",
    "MaMDP.C86_partial"
   ],
   "note": "FALSE of the code: C86_refuted (general: ValueError for every positive integer decay). C86_partial: zero or float decay."
  },
  {
   "property": "C87",
   "status": "partial",
   "theorems": [
    "MaMDP.C87_learning_rate",
    "MaMDP.C87_partial",
    "MaMDP.C87_refuted",
    "MaMDP.C87_refuted_none"
   ],
   "note": "FALSE of the code: C87_refuted (second reset), C87_refuted_none (Q=None). C87_learning_rate: all histories; C87_partial: estimates up to the first reset."
  },
  {
   "property": "C88",
   "status": "partial",
   "theorems": [
    "MaMDP.C88_partial",
    "MaMDP.C88_refuted",
    "MaMDP.C88_refuted_features"
   ],
   "note": "FALSE of the code: C88_refuted (TypeError for every environment with an agent), C88_refuted_features (without agents the coordinates are read as state numbers). C88_partial: the dictionary itself lists the right coordinates."
  },
  {
   "property": "C89",
   "status": "partial",
   "theorems": [
    "MaMDP.C89_hex",
    "MaMDP.C89_partial",
    "MaMDP.C89_refuted_values",
    "MaMDP.C89_refuted_hidden"
   ],
   "note": "FALSE of the code: C89_refuted_values (square value plots are mirrored, for every shape and state), C89_refuted_hidden (a hidden hexagon's marker is at the origin, the centre of no cell). Holds for visible hexagons (C89_hex) and for feature colours of square plots (C89_partial)."
  },
  {
   "property": "C90",
   "status": "partial",
   "theorems": [
    "MaMDP.C90_partial",
    "MaMDP.C90_refuted"
   ],
   "note": "FALSE of the code without agents (C90_refuted: slice [:-0] is empty). C90_partial: with agents, after any history, exactly the own features."
  },
  {
   "property": "C91",
   "status": "partial",
   "theorems": [
    "MaMDP.C91_moves",
    "MaMDP.C91_partial",
    "MaMDP.C91_refuted",
    "MaMDP.C91_endless_refuted"
   ],
   "note": "FALSE of the code whenever another agent has planned moves (C91_refuted), and the loop is endless if the agent's first planned number is 0 while others are not (C91_endless_refuted). C91_moves says exactly which moves are made; C91_partial is the claim for a plan of the agent alone."
  },
  {
   "property": "C92",
   "status": "partial",
   "theorems": [
    "MaMDP.C92_partial",
    "MaMDP.C92_refuted",
    "MaMDP.C92_refuted_none"
   ],
   "note": "FALSE of the code: C92_refuted (second reset keeps fitted weights, general), C92_refuted_none (theta=None: every later fit raises). C92_partial: first reset after any fits."
  },
  {
   "property": "C93",
   "status": "partial",
   "theorems": [
    "MaMDP.C93_ht_partial",
    "MaMDP.C93_ht_refuted",
    "MaMDP.C93_mce_refuted",
    "MaMDP.C93_mce_partial",
    "MaMDP.C93_td_refuted"
   ],
   "note": "FALSE of the code: C93_ht_refuted (general: what was learned before the bad move stays), C93_mce_refuted (weights become zeros), C93_td_refuted (witness). C93_ht_partial and C93_mce_partial: learners without weights, refused arguments."
  },
  {
   "property": "C94",
   "status": "partial",
   "theorems": [
    "MaMDP.C94_partial",
    "MaMDP.C94_success",
    "MaMDP.C94_new",
    "MaMDP.C94_refuted"
   ],
   "note": "FALSE of the code (C94_refuted: every fitted, attached object that is fit again without a plan loses its values, because _fit resets the object first). C94_partial: errors of the reward check and of a missing environment leave the object as it was; after any other error it is unfitted with no values. C94_new: failing on a new object leaves it as new. C94_success: shapes after success."
  },
  {
   "property": "C95",
   "status": "partial",
   "theorems": [
    "MaMDP.C95_refuted",
    "MaMDP.C95_partial"
   ],
   "note": "First part FALSE of the code (C95_refuted: an object that was never attached raises AttributeError for every MDP and reward). Second part proved (C95_partial)."
  },
  {
   "property": "C96",
   "status": "partial",
   "theorems": [
    "MaMDP.C96_partial",
    "MaMDP.C96_kept_partial",
    "MaMDP.C96_refuted"
   ],
   "note": "FALSE of the code for kept caches (C96_refuted: after a feature was consumed in the environment, stale cached values change the Q values). C96_partial: with reset_cache=True or without caching the history is irrelevant, failing calls included. C96_kept_partial: a kept cache is harmless while transitions, features and tastes stay the same, under the conditions of C62_partial."
  },
  {
   "property": "C97",
   "status": "proved",
   "theorems": [
    "MaMDP.C97_transitions",
    "MaMDP.C97_transitions_refused",
    "MaMDP.C97_features"
   ],
   "note": "C97_transitions (valid arrays, everything reported afterwards), C97_transitions_refused (all others), C97_features (both cases). Arrays of another rank or objects that are no arrays are outside the model's argument types."
  },
  {
   "property": "C98",
   "status": "partial",
   "theorems": [
    "MaMDP.C98_refuted_sizes",
    "MaMDP.C98_refuted_walls",
    "MaMDP.C98_partial"
   ],
   "note": "FALSE of the code. C98_refuted_sizes: an array with another number of states is accepted and leaves features and walls of the old size. C98_refuted_walls: any wall assignment, even of the walls already there, goes back to the transitions of the constructor. C98_partial: histories without an assignment of transitions keep the sizes matching, and an assigned array of the right number of states is used until the walls change."
  },
  {
   "property": "C99",
   "status": "partial",
   "theorems": [
    "MaMDP.C99_refuted",
    "MaMDP.C99_partial"
   ],
   "note": "False as stated: a numeric start position outside the grid raises IndexError after `n_agents` was incremented; acceptable agents are refused afterwards or the last own feature is lost (C99_refuted). C99_partial: the claim holds whenever all numeric positions lie in the grid."
  },
  {
   "property": "C100",
   "status": "partial",
   "theorems": [
    "MaMDP.C100_refines",
    "MaMDP.C100_partial",
    "MaMDP.C100_detached_partial",
    "MaMDP.C100_assigned_features",
    "MaMDP.C100_assigned_walls",
    "MaMDP.C100_walls_detached",
    "MaMDP.C100_shared_features",
    "MaMDP.C100_refuted_mdps",
    "MaMDP.C100_refuted_walls",
    "MaMDP.C100_refuted_caller"
   ],
   "note": "False as stated: the features setter and the walls setter store the caller's array itself. C100_refuted_mdps, C100_refuted_walls, C100_refuted_caller are concrete programs; C100_shared_features, C100_assigned_features and C100_assigned_walls say what happens in general. C100_partial: all programs that never share an array. C100_detached_partial: after an agent was added or the MDP was reset, its features are its own; C100_walls_detached: after add_wall_xy its walls are. C100_refines: the value-level model used everywhere else is what each call does to the arrays."
  },
  {
   "property": "C101",
   "status": "partial",
   "theorems": [
    "MaMDP.C101_refines",
    "MaMDP.C101_partial",
    "MaMDP.C101_refuted_mdp",
    "MaMDP.C101_shared_mdp"
   ],
   "note": "False as stated for a shared MDP: C101_refuted_mdp (the second environment removes the agent rows of the first; moving an agent of the first moves a row of the second), C101_shared_mdp. C101_partial: programs in which no two environments get the same MDP or Agent object. C101_refines: whatever is shared, each call acts as in the environment model on the objects as they are. Not modelled: the algorithm's back references to the agent and environment it was attached to last, which tree search reads."
  },
  {
   "property": "C102",
   "status": "partial",
   "theorems": [
    "MaMDP.C102_shared",
    "MaMDP.C102_refuted",
    "MaMDP.C102_partial"
   ],
   "note": "False as stated: all environments use the Agent's one algorithm object (C102_refuted with a concrete program, C102_shared in general). C102_partial: a fit that returns normally leaves nothing of what another environment wrote, so fitting right before stepping is safe."
  },
  {
   "property": "C103",
   "status": "proved",
   "theorems": [
    "MaMDP.C103_plan",
    "MaMDP.C103_possible",
    "MaMDP.C103_limit",
    "MaMDP.C103_environment"
   ],
   "note": "C103_plan (any greedy walk, any deterministic MDP), C103_possible (best actions are possible), C103_limit (iteration limits that reach the tolerance exist), C103_environment (fit and n calls of step). Exact real arithmetic. The steps are those of the fitted agent alone; the reward is the one it was fitted for."
  },
  {
   "property": "C104",
   "status": "proved",
   "theorems": [
    "MaMDP.C104_shortest",
    "MaMDP.C104_environment",
    "MaMDP.C104_square",
    "MaMDP.C104_hex"
   ],
   "note": "C104_shortest (any deterministic MDP), C104_environment (shortest path through the current transitions, walls included), C104_square and C104_hex (distances on grids without walls). Exact real arithmetic; the tolerance condition is a hypothesis, since a loose tolerance stops the sweeps before the reward has spread."
  },
  {
   "property": "C105",
   "status": "proved",
   "theorems": [
    "MaMDP.C105_exact",
    "MaMDP.C105_bound",
    "MaMDP.C105_monotone",
    "MaMDP.C105_cold",
    "MaMDP.C105_hot",
    "MaMDP.C105_loss"
   ],
   "note": "C105_exact, C105_bound, C105_monotone, C105_cold (uniformly over states and actions), C105_hot, C105_loss. Exact real arithmetic: in floating point exp underflows, which only makes the cold limit exact earlier."
  },
  {
   "property": "C106",
   "status": "partial",
   "theorems": [
    "MaMDP.C106_partial",
    "MaMDP.C106_total",
    "MaMDP.C106_refuted"
   ],
   "note": "FALSE of the code on every grid (C106_refuted): impossible actions are chosen too and end the walk, so every row total is below 1/(1-discount) (C106_total). C106_partial: the entry counts the visits of a walker who chooses among all actions and is gone after an impossible one, with an error of at most discount^N/(1-discount) after N moves; choosing among the available actions is what is missing."
  },
  {
   "property": "C107",
   "status": "partial",
   "theorems": [
    "MaMDP.C107_null",
    "MaMDP.C107_only",
    "MaMDP.C107_stuck",
    "MaMDP.C107_partial",
    "MaMDP.C107_refuted"
   ],
   "note": "FALSE of the code (C107_refuted: an agent fitted with Null walks from the far corner into a wall). C107_null, C107_only and C107_stuck say exactly what Null does: every action is equally good, the impossible ones lead to state 0. C107_partial: fitted by value iteration, moves go to successors only (C63_step is the same for MCTS); Null is what is missing."
  },
  {
   "property": "C108",
   "status": "partial",
   "theorems": [
    "MaMDP.C108_exact",
    "MaMDP.C108_choice",
    "MaMDP.C108_partial",
    "MaMDP.C108_refuted"
   ],
   "note": "FALSE of the code (C108_refuted: with the code's own exploration bonus, for every constant and every number of iterations from 21 on, the agent goes to a state worth 1 instead of 19/10). C108_exact gives the visits and action values, C108_choice what the agent does. C108_partial: with exactly one iteration per next state the best one is found; more iterations are what is missing."
  },
  {
   "property": "C109",
   "status": "partial",
   "theorems": [
    "MaMDP.C109_plan_partial",
    "MaMDP.C109_partial",
    "MaMDP.C109_refuted"
   ],
   "note": "FALSE of the code (C109_refuted: in a corridor with costs 10, 1, 10, 2, 0 the agent takes the side that costs at least 6 although the other loses at most 8/3, for every tolerance and iteration limit). C109_plan_partial and C109_partial: true when every state that can be left has a next state that costs nothing; costs on all next states of some state are what is missing."
  },
  {
   "property": "C110",
   "status": "proved",
   "theorems": [
    "MaMDP.C110_values",
    "MaMDP.C110_greedy",
    "MaMDP.C110_agent",
    "MaMDP.C110_tolerance",
    "MaMDP.C110_softmax",
    "MaMDP.C110_softmax_agent"
   ],
   "note": "C110_values (value iteration), C110_greedy and C110_softmax (selectors), C110_agent and C110_softmax_agent (fitting an agent). C110_tolerance: if the tolerance is left as it was, decisions do change. Exact arithmetic."
  },
  {
   "property": "C111",
   "status": "proved",
   "theorems": [
    "MaMDP.C111_values",
    "MaMDP.C111_plan",
    "MaMDP.C111_environment",
    "MaMDP.C111_soft"
   ],
   "note": "C111_values, C111_plan, C111_environment. With \u03b5 = 0, C111_values is monotonicity. Exact arithmetic; non-negative planning rewards for the walks, as in C103 (see C109 for costs). C111_soft: the first half for the soft solver, with enough iterations."
  },
  {
   "property": "C112",
   "status": "partial",
   "theorems": [
    "MaMDP.C112_values_partial",
    "MaMDP.C112_choice_partial",
    "MaMDP.C112_flipY",
    "MaMDP.C112_flipX",
    "MaMDP.C112_flipX_hex",
    "MaMDP.C112_refuted",
    "MaMDP.C112_swap",
    "MaMDP.C112_turn_hex",
    "MaMDP.C112_soft_partial"
   ],
   "note": "FALSE of the code (C112_refuted: in a corridor with a reward at both ends the agent in the middle always goes to the lower numbers, for every tolerance and iteration limit, in exact arithmetic). C112_values_partial, C112_choice_partial: true up to twice the planner's tolerance; C112_flipY, C112_flipX, C112_flipX_hex, C112_swap, C112_turn_hex: mirrored grids, square grids with their coordinates exchanged, and even hexagonal grids turned by half a turn are such renumberings. C112_soft_partial: the same for the soft values of the learners. Exact agreement is what is missing."
  },
  {
   "property": "C113",
   "status": "proved",
   "theorems": [
    "MaMDP.C113_indifferent"
   ],
   "note": "C113_indifferent: the whole agent record is equal. Walls and resets are excluded from the calls about others, as they are not about an agent."
  },
  {
   "property": "C114",
   "status": "partial",
   "theorems": [
    "MaMDP.C114_soft_partial",
    "MaMDP.C114_passes_partial",
    "MaMDP.C114_exact_partial",
    "MaMDP.C114_plan_partial",
    "MaMDP.C114_refuted"
   ],
   "note": "False of the code: C114_refuted, a grid corridor divided by a wall, where an agent turns round when it begins to value a feature that exists only behind the wall. What holds: every pass computes the same values (C114_passes_partial), plans agree exactly if the iteration runs to its limit (C114_exact_partial, tol <= 0) and up to 2*tol*discount/(1-discount) otherwise (C114_plan_partial); C114_soft_partial: soft values agree up to the same tolerance, with enough iterations."
  },
  {
   "property": "C115",
   "status": "partial",
   "theorems": [
    "MaMDP.C115_passes_partial",
    "MaMDP.C115_grid",
    "MaMDP.C115_walks",
    "MaMDP.C115_refuted",
    "MaMDP.C115_plan_partial",
    "MaMDP.C115_soft_partial"
   ],
   "note": "False of the code with costs (C115_refuted: a wall beside a state raises its value from -1 to 0, because an impossible action counts as worth 0). For non-negative rewards: for every pass (C115_passes_partial) and for plans up to the tolerance (C115_plan_partial); C115_grid and C115_walks say that grids with more walls have fewer moves and walks; C115_soft_partial: the same for the soft solver, with enough iterations."
  },
  {
   "property": "C116",
   "status": "partial",
   "theorems": [
    "MaMDP.C116_refuted",
    "MaMDP.C116_actions_partial",
    "MaMDP.C116_values_partial"
   ],
   "note": "False of the code with costs (C116_refuted, for every limit and tolerance). For non-negative rewards: C116_actions_partial and C116_values_partial, for every limit and tolerance."
  },
  {
   "property": "C117",
   "status": "proved",
   "theorems": [
    "MaMDP.C117_passes",
    "MaMDP.C117_more",
    "MaMDP.C117_plan",
    "MaMDP.C117_soft"
   ],
   "note": "C117_passes and C117_more are exact; C117_plan is up to the tolerance of the plan with the larger discount, whose number of passes may be smaller; C117_soft: larger discount factors for the soft solver, with enough iterations."
  },
  {
   "property": "C118",
   "status": "partial",
   "theorems": [
    "MaMDP.C118_partial",
    "MaMDP.C118_refuted"
   ],
   "note": "False of the code (C118_refuted): a state is credited with the whole return of every simulated walk that came through it at any time, also of walks that began with another action and had collected their reward before. C118_partial says exactly what the value is and bounds it by the returns of the walks through the state."
  },
  {
   "property": "C119",
   "status": "partial",
   "theorems": [
    "MaMDP.C119_history",
    "MaMDP.C119_returns",
    "MaMDP.C119_warning",
    "MaMDP.C119_partial",
    "MaMDP.C119_refuted"
   ],
   "note": "False of the code (C119_refuted): the warning tests the signed mean of the error, and differences that cancel, or expected counts that are all too large, are not reported. C119_history and C119_warning say exactly what is recorded and when the warning comes; C119_partial: the claim for errors that are nowhere negative."
  },
  {
   "property": "C120",
   "status": "partial",
   "theorems": [
    "MaMDP.C120_classes",
    "MaMDP.C120_refines",
    "MaMDP.C120_partial",
    "MaMDP.C120_shared",
    "MaMDP.C120_built",
    "MaMDP.C120_refuted"
   ],
   "note": "False of the code (C120_refuted, C120_shared): the constructors store the caller's array and fit writes into it, so learners built from one array share their estimate. C120_partial: a learner nobody else shares arrays with is not changed by steps about others. C120_refines: every call acts on what the learner holds as in the value-level models; C120_classes: the five classes of learners are covered."
  },
  {
   "property": "C121",
   "status": "partial",
   "theorems": [
    "MaMDP.C121_refuted",
    "MaMDP.C121_partial",
    "MaMDP.C121_after_reset",
    "MaMDP.C121_new_array",
    "MaMDP.C121_matching",
    "MaMDP.C121_simple",
    "MaMDP.C121_simple_refuted",
    "MaMDP.C121_simple_outcome"
   ],
   "note": "False of the code (C121_refuted): the learner's own array is returned and overwritten by the next fit. C121_partial: an array nobody writes into keeps its contents; C121_after_reset: so does an earlier estimate once the learner is reset; C121_matching, C121_simple: learners that store a new array at each fit never change what they returned; C121_simple_refuted: with reset=False they do."
  },
  {
   "property": "C122",
   "status": "partial",
   "theorems": [
    "MaMDP.C122_mce",
    "MaMDP.C122_td",
    "MaMDP.C122_partial",
    "MaMDP.C122_refuted"
   ],
   "note": "False of the code (C122_refuted): HyptestIRL refuses an asymmetry of 1, which its message allows. C122_partial: everything else about HyptestIRL; C122_mce and C122_td: the claim for the other two."
  },
  {
   "property": "C123",
   "status": "partial",
   "theorems": [
    "MaMDP.C123_partial",
    "MaMDP.C123_stale",
    "MaMDP.C123_unseen_refuted",
    "MaMDP.C123_refuted"
   ],
   "note": "False of the code (C123_refuted, C123_unseen_refuted): an agent's feature row is written at the start of its own move, so others plan with where it was before that move. C123_stale: that is all a row ever shows. C123_partial: the hunter gets one step closer to the marked state."
  },
  {
   "property": "C124",
   "status": "proved",
   "theorems": [
    "MaMDP.C124_exact",
    "MaMDP.C124_accuracy",
    "MaMDP.C124_stops",
    "MaMDP.C124_operations",
    "MaMDP.C124_relative",
    "MaMDP.C124_relative_stops",
    "MaMDP.C124_double",
    "MaMDP.C124_double_stops",
    "MaMDP.C124_plan"
   ],
   "note": "C124_exact: with exact operations the model is that of C27-C33. C124_accuracy: any arithmetic that is accurate on action values; C124_operations: rounding each operation is accurate; C124_relative and C124_plan: the claim; C124_double: its instance for Spec.double. Sums are taken state by state; overflow is excluded by assumption. C124_stops, C124_relative_stops and C124_double_stops: a tolerance well above the rounding error is met."
  },
  {
   "property": "C125",
   "status": "proved",
   "theorems": [
    "MaMDP.C125_refines",
    "MaMDP.C125_moves",
    "MaMDP.C125_trajectories",
    "MaMDP.C125_failed"
   ],
   "note": "C125_refines: keeping the histories changes nothing else."
  },
  {
   "property": "C126",
   "status": "partial",
   "theorems": [
    "MaMDP.C126_partial",
    "MaMDP.C126_refuted",
    "MaMDP.C126_td_partial",
    "MaMDP.C126_td_refuted",
    "MaMDP.C126_td_refuted_decay"
   ],
   "note": "False of the code with decay (C126_refuted, C126_td_refuted_decay: the count of moves restarts with every fit, the estimate and, for the policy learner, the decayed rate do not), and for policy learners given one trajectory at a time (C126_td_refuted, the loop variable of C74). C126_partial, C126_td_partial: without decay it holds."
  },
  {
   "property": "C127",
   "status": "partial",
   "theorems": [
    "MaMDP.C127_expected_hard",
    "MaMDP.C127_expected_soft",
    "MaMDP.C127_matching",
    "MaMDP.C127_partial",
    "MaMDP.C127_refuted"
   ],
   "note": "False of max-causal-entropy IRL (C127_refuted: the repeated division of C67 weighs later trajectories more). C127_matching: true of feature matching; C127_expected_hard, C127_expected_soft: true of the expected counts; C127_partial: of the whole fit when only the first trajectory is longer than one state."
  },
  {
   "property": "C128",
   "status": "partial",
   "theorems": [
    "MaMDP.C128_partial",
    "MaMDP.C128_sequence_partial",
    "MaMDP.C128_steps",
    "MaMDP.C128_errors",
    "MaMDP.C128_refuted"
   ],
   "note": "False once plot_state_values hid a state (C128_refuted): the MDP keeps only the latest coordinates, in which hidden states are at the origin."
  },
  {
   "property": "C129",
   "status": "partial",
   "theorems": [
    "MaMDP.C129_grid",
    "MaMDP.C129_partial",
    "MaMDP.C129_refuted",
    "MaMDP.C129_values"
   ],
   "note": "False for agents placed by a negative number (C129_refuted); on square grids values are shown mirrored (C89_refuted_values)."
  },
  {
   "property": "C130",
   "status": "partial",
   "theorems": [
    "MaMDP.C130_partial",
    "MaMDP.C130_refuted",
    "MaMDP.C130_short"
   ],
   "note": "False by default with more than ten features (C130_refuted)."
  },
  {
   "property": "C131",
   "status": "partial",
   "theorems": [
    "MaMDP.C131_refuted",
    "MaMDP.C131_partial"
   ],
   "note": "False of the code for every non-empty list of trajectories (C131_refuted): the function uses its argument both as one MDP and as a list of MDPs."
  },
  {
   "property": "C132",
   "status": "proved",
   "theorems": [
    "MaMDP.C132_total",
    "MaMDP.C132_walk",
    "MaMDP.C132_position"
   ],
   "note": "C132_total: with probability one the draws are delivered in [0,1); C132_walk: the probability of a walk; C132_position: the probability of standing on a state after k steps. Real numbers; the generator is idealised as uniform independent reals."
  },
  {
   "property": "C133",
   "status": "partial",
   "theorems": [
    "MaMDP.C133_shown",
    "MaMDP.C133_greedy",
    "MaMDP.C133_moved",
    "MaMDP.C133_partial",
    "MaMDP.C133_refuted"
   ],
   "note": "False of the code (C133_refuted): every step draws a new policy, so with two best actions the step may make another action than the reported one; and after reset the fitted agent's policy is reported as None although it can be stepped. Proved: C133_shown (reports agree with the reported values until the next fit or reset), C133_greedy (what that means for the greedy rule), C133_moved (the policy reported after a step is the one it was made with), C133_partial (the next step makes the reported action when a greedy agent has one best action)."
  },
  {
   "property": "C134",
   "status": "partial",
   "theorems": [
    "MaMDP.C134_exact",
    "MaMDP.C134_stopped",
    "MaMDP.C134_partial",
    "MaMDP.C134_refuted"
   ],
   "note": "False of the code (C134_refuted): the valid actions are computed but not used, so impossible actions count as possible ones worth 0; in a corridor with costs the learner's policy prefers the dead end. C134_exact: what is computed on every MDP (impossible actions may be chosen and end the walk). C134_stopped: the same with a tolerance and finitely many passes. C134_partial: MDPs where every action is possible in every state. Both up to the constant 1e-200 the code adds inside the logarithm."
  },
  {
   "property": "C135",
   "status": "partial",
   "theorems": [
    "MaMDP.C135_partial",
    "MaMDP.C135_refuted"
   ],
   "note": "False of the code (C135_refuted): an action that cannot be taken counts as worth 0 when the best action is looked for, so with negative rewards a plan changes when all rewards are lowered by the same amount. C135_partial: rewards negative neither before nor after, or MDPs where every action is possible everywhere; the two runs agree up to twice the accuracy of value iteration, and order any two actions alike whose values differ by more than that."
  },
  {
   "property": "C136",
   "status": "proved",
   "theorems": [
    "MaMDP.C136_planning",
    "MaMDP.C136_mce",
    "MaMDP.C136_soft",
    "MaMDP.C136_others"
   ],
   "note": "C136_planning, C136_mce, C136_soft, C136_others. For hypothesis testing the discount must be in (0,1) and there must be an action and an iteration, so that the hypotheses can be solved. `ignore_features` of feature matching stays as it is, since it names trajectories (C70)."
  },
  {
   "property": "C137",
   "status": "partial",
   "theorems": [
    "MaMDP.C137_grid",
    "MaMDP.C137_planning",
    "MaMDP.C137_matching",
    "MaMDP.C137_hyptest",
    "MaMDP.C137_simple",
    "MaMDP.C137_partial",
    "MaMDP.C137_soft_partial",
    "MaMDP.C137_refuted"
   ],
   "note": "False of the code for max-causal-entropy learners (C137_refuted): they stop when the mean error over all features is below the tolerance, so absent features make them stop earlier. C137_partial and C137_soft_partial: what they learn is what they would have learned without the absent features in some smaller number of iterations, and the same number if the tolerance is 0. The claim holds for planning, feature matching, hypothesis testing and the simple learners (C137_planning, C137_matching, C137_hyptest, C137_simple); C137_grid: such worlds can be built."
  },
  {
   "property": "C138",
   "status": "proved",
   "theorems": [
    "MaMDP.C138_exact",
    "MaMDP.C138_contents",
    "MaMDP.C138_errors"
   ],
   "note": "C138_exact, C138_contents, C138_errors. Positions saved as coordinates are not accepted (C88). A requested feature without cells needs no row, since nothing is written. The kind of error for an agent that can be built but does not fit the environment is not stated here."
  },
  {
   "property": "C139",
   "status": "partial",
   "theorems": [
    "MaMDP.C139_length",
    "MaMDP.C139_partial",
    "MaMDP.C139_refuted"
   ],
   "note": "False of the code (C139_refuted): a world with a single action is accepted, and a step in it pulls every preference towards 1. C139_length: the number of preferences never changes. C139_partial: the rest of the claim, for worlds with another number of actions that is not one."
  },
  {
   "property": "C140",
   "status": "proved",
   "theorems": [
    "MaMDP.C140_order"
   ],
   "note": "C140_order. The condition that neither consumes the other is stated on the feature rows. Refitting between the steps is not part of the claim, because an algorithm may look at the features."
  },
  {
   "property": "C141",
   "status": "proved",
   "theorems": [
    "MaMDP.C141_explores",
    "MaMDP.C141_averages"
   ],
   "note": "C141_explores: visits of every successor grow beyond every bound. C141_averages: the value of an action is, with enough iterations, within any tolerance of the mean return. With one move ahead the search gets stuck instead (C57_refuted, C108_refuted)."
  },
  {
   "property": "C142",
   "status": "partial",
   "theorems": [
    "MaMDP.C142_softmax",
    "MaMDP.C142_partial",
    "MaMDP.C142_error",
    "MaMDP.C142_refuted"
   ],
   "note": "True of softmax (C142_softmax). False of soft value iteration: C142_refuted (a reward of 710 gives a ValueError with double precision floats), C142_error (every non-negative reward whose exponential does not fit). C142_partial: with rewards up to a bound given by the discount and the number of actions the result is the one without overflow; on square grids with the default discount rewards up to 60 are fine (example)."
  },
  {
   "property": "C143",
   "status": "proved",
   "theorems": [
    "MaMDP.C143_forage",
    "MaMDP.C143_company",
    "MaMDP.C143_no_walls",
    "MaMDP.C143_multi"
   ],
   "note": "C143_forage, C143_no_walls, C143_multi (with step_multi and refit=True). C143_company (between the rounds the other agents are fitted, step, eat and are moved in any way; the bounds do not depend on what they do; here the forager must not care where the agents are). In the first three the other agents stand still. The agent has no reward for its own feature row (otherwise it would chase its own shadow)."
  },
  {
   "property": "C144",
   "status": "proved",
   "theorems": [
    "MaMDP.C144_visits",
    "MaMDP.C144_eats",
    "MaMDP.C144_fitted",
    "MaMDP.C144_greedy"
   ],
   "note": "C144_visits, C144_eats, C144_fitted (the fit succeeds as well); C144_greedy is the contrast. The agent is not fitted again on the way and the other agents stand still. The own row of the agent is set anew with every step and is left out of C144_eats. Exact arithmetic: in floating point a chance of less than about 1e-308 is 0 and the state is not visited."
  },
  {
   "property": "C145",
   "status": "proved",
   "theorems": [
    "MaMDP.C145_caught",
    "MaMDP.C145_steps",
    "MaMDP.C145_escape"
   ],
   "note": "C145_caught (bound on how far the prey gets), C145_steps (bound on the number of its steps), C145_escape (with one move each on four cells the prey escapes for ever, for every discount, tolerance and draws; all other hypotheses of C145_steps hold). The prey's row of the features has to show it at first, and no agent but the hunter may consume that row (the code lets anybody delete it, see C41). The others make no calls of reset, step_multi_interactive, or the wall setters, and put the prey nowhere below minus the number of states."
  },
  {
   "property": "C146",
   "status": "partial",
   "theorems": [
    "MaMDP.C146_refuted",
    "MaMDP.C146_partial"
   ],
   "note": "FALSE of the code: C146_refuted (a state number, which is what the documentation of Environment.step_proba asks for, always raises TypeError). C146_partial: with the array that has a 1 at s and 0 elsewhere the claim holds, errors included."
  },
  {
   "property": "C147",
   "status": "proved",
   "theorems": [
    "MaMDP.C147_world",
    "MaMDP.C147_history",
    "MaMDP.C147_forgets",
    "MaMDP.C147_no_plan"
   ],
   "note": "C147_history: the environment left behind is one that ordinary calls produce, so every theorem about all histories covers tree searchers too."
  },
  {
   "property": "C148",
   "status": "proved",
   "theorems": [
    "MaMDP.C148_selectors",
    "MaMDP.C148_turn",
    "MaMDP.C148_catches",
    "MaMDP.C148_too_many",
    "MaMDP.C148_refused",
    "MaMDP.C148_game",
    "MaMDP.C148_game_softmax"
   ],
   "note": "C148_turn: one call; C148_too_many: more steps than moves per turn; C148_refused: arguments that are refused; C148_game and C148_game_softmax: games; C148_selectors: both selectors meet the condition on selectors. The bound on the rounds of the model's loops is explicit: turns \u00d7 agents \u00d7 (moves + 1) + 1."
  },
  {
   "property": "C149",
   "status": "partial",
   "theorems": [
    "MaMDP.C149_selector",
    "MaMDP.C149_same",
    "MaMDP.C149_rarely",
    "MaMDP.C149_double",
    "MaMDP.C149_rand_choice_partial",
    "MaMDP.C149_refuted"
   ],
   "note": "Proved for the selector (C149_selector, C149_same, C149_rarely, C149_double). For rand_choice_nb the claim is false (C149_refuted): in double precision, with weights 3, 2, 1 and the largest draw, the index runs past the end of the array. C149_rand_choice_partial: this can happen only for draws within 10n(\u03b5+\u03b7) of 1. Missing: that part of the claim, which the code does not meet."
  },
  {
   "property": "C150",
   "status": "proved",
   "theorems": [
    "MaMDP.C150_alone",
    "MaMDP.C150_company"
   ],
   "note": "C150_alone compares with the life without the others' calls, C150_company any two lives with the same own calls; planner_value_iteration: ValueIteration is a planner of the kind meant."
  },
  {
   "property": "C151",
   "status": "partial",
   "theorems": [
    "MaMDP.C151_input",
    "MaMDP.C151_pi",
    "MaMDP.C151_pi_p",
    "MaMDP.C151_errors",
    "MaMDP.C151_builtin",
    "MaMDP.C151_kept_partial",
    "MaMDP.C151_refuted"
   ],
   "note": "C151_input, C151_pi, C151_pi_p and C151_errors prove all but the last sentence; C151_builtin ties this model to the one used for the package's selectors. The last sentence is false (C151_refuted): a subclass that returns an array it keeps, such as a fixed policy, has the entries of states without an estimate overwritten for good. C151_kept_partial: the rest of that array, and any array not returned, is unchanged. Missing: that sentence, which the code does not meet."
  },
  {
   "property": "C152",
   "status": "proved",
   "theorems": [
    "MaMDP.C152_replay",
    "MaMDP.C152_stale_witness"
   ],
   "note": "C152_replay: the answers one by one and the world left behind. C152_stale_witness: the last sentence, a step without a new fit, which raises in a new environment and goes by the old plan after a reset."
  },
  {
   "property": "C153",
   "status": "proved",
   "theorems": [
    "MaMDP.C153_relisted",
    "MaMDP.C153_rows_witness"
   ],
   "note": "C153_relisted: all of it for an MDP whose n_non_agent_features is the number of its own feature rows (always so unless `mdp.features` was replaced by an array with another number of rows). C153_rows_witness: the last sentence. step_multi is taken without refitting; planning is by value iteration."
  },
  {
   "property": "C154",
   "status": "proved",
   "theorems": [
    "MaMDP.C154_resumed",
    "MaMDP.C154_rebuilt",
    "MaMDP.C154_same_mdp",
    "MaMDP.C154_sight_witness",
    "MaMDP.C154_again_witness"
   ],
   "note": "C154_resumed: for any grid MDP with the present own features and walls and the same n_non_agent_features. C154_rebuilt: for the grid built anew by the constructor, when the first one came from the constructor too. C154_same_mdp: for the old MDP object. C154_sight_witness: the eaten agent that is eaten again. C154_again_witness: the reset. step_multi is taken without refitting; planning is by value iteration. For the old object the comparison is with how the first environment would have gone on: in Python building the second one changes the MDP they share."
  },
  {
   "property": "C155",
   "status": "proved",
   "theorems": [
    "MaMDP.C155_passes",
    "MaMDP.C155_plan",
    "MaMDP.C155_weights",
    "MaMDP.C155_soft",
    "MaMDP.C155_witness"
   ],
   "note": "C155_passes: every number of passes. C155_plan: the returned values, within (1 + sum of weights) * tol * discount / (1 - discount), when every run stops by tolerance. C155_weights: rewards from feature weights. C155_soft: soft values, within twice the tolerance bound, from some limit of passes on. C155_witness: strict on two states; a negative weight breaks it."
  },
  {
   "property": "C156",
   "status": "partial",
   "theorems": [
    "MaMDP.C156_partial",
    "MaMDP.C156_expected_partial",
    "MaMDP.C156_refuted",
    "MaMDP.C156_never_sure"
   ],
   "note": "FALSE with decay, which is on by default: the rate is multiplied by n^-decay at every move, so rates fall like (n!)^-decay and their total is finite. C156_refuted: decay 0.5 and a learning rate up to 0.4 (default 0.3): two moves of one action at the beginning outweigh any number of moves of another in the same fit. C156_never_sure: with any decay and a rate below 1 no preference ever exceeds a bound below 1. C156_partial: closed form without decay, for any state of the learner, with or without kernel. C156_expected_partial: without decay and kernel the habit is preferred as soon as (1 - rate)^k < 1/2, and preferences tend to 1 and 0. All for fits that succeed (C74: no trajectory with more moves than there are trajectories)."
  },
  {
   "property": "C157",
   "status": "proved",
   "theorems": [
    "MaMDP.C157_plan",
    "MaMDP.C157_environment"
   ],
   "note": "C157_plan: any deterministic MDP, any extra reward g scaled by delta. C157_environment: agents of environments, after fits and n steps each. Non-negative state rewards and stopping by tolerance are hypotheses (for negative rewards planned walks can be far from best: C103); C103_limit shows that large enough limits stop by tolerance."
  },
  {
   "property": "C158",
   "status": "partial",
   "theorems": [
    "MaMDP.C158_refuted",
    "MaMDP.C158_refuted_soft",
    "MaMDP.C158_reach",
    "MaMDP.C158_reach_soft",
    "MaMDP.C158_refits",
    "MaMDP.C158_refits_soft",
    "MaMDP.C158_partial"
   ],
   "note": "False of the code. C158_refuted(_soft): if all states have the same total of features (e.g. one feature each) and VI_max_iter > 1, the error stays at least c (VI_max_iter - 1) / n_features in every iteration, nothing warns, and without decay the total weight falls linearly. C158_reach(_soft), C158_refits(_soft): with decay >= 1 no number of iterations (or of calls, same-total features) moves a weight further than 3/2 (3) lr b VI_max_iter. C158_partial: VI_max_iter = 1 and one-state trajectories converge at once."
  },
  {
   "property": "C159",
   "status": "partial",
   "theorems": [
    "MaMDP.C159_partial",
    "MaMDP.C159_zscore_partial",
    "MaMDP.C159_grid_partial",
    "MaMDP.C159_refuted"
   ],
   "note": "False of the code in general: C159_refuted: learning rate 2 with the default decay and asymmetry gives a negative weight from positive evidence only. C159_partial: holds when the largest rate in use (learning_rate without decay, learning_rate * asymmetry with it) is at most 1, which the defaults meet; NaN evidence gives NaN. C159_zscore_partial, C159_grid_partial: the bound for z-scores, for any table of action values."
  },
  {
   "property": "C160",
   "status": "partial",
   "theorems": [
    "MaMDP.C160_partial",
    "MaMDP.C160_rate",
    "MaMDP.C160_short",
    "MaMDP.C160_refuted"
   ],
   "note": "False of the code in general: C160_short (decay 2 or more: a fixed share of the starting distance is never covered) and C160_refuted (a 1x3 grid with values from value iteration). C160_partial: holds without decay for learning rates below 2 and with a decay of 1 for every learning rate and asymmetry. C160_rate: |1 - lr|^N without decay; a factor of at most (N + 1)^(-lr/asymmetry) with a decay of 1."
  },
  {
   "property": "C161",
   "status": "proved",
   "theorems": [
    "MaMDP.C161_built",
    "MaMDP.C161_calls",
    "MaMDP.C161_search",
    "MaMDP.C161_game",
    "MaMDP.C161_same_name_witness"
   ],
   "note": "C161_built: the constructor. C161_calls: any list of calls, one by one. C161_search, C161_game: agents planning by tree search. C161_same_name_witness: the names have to stay different; with one name for two agents the second takes the place of the first."
  },
  {
   "property": "C162",
   "status": "partial",
   "theorems": [
    "MaMDP.C162_partial",
    "MaMDP.C162_refuted"
   ],
   "note": "False of the code (C162_refuted): in a corridor of five states, with three unlucky outcomes in the first two iterations and the default exploration constant, the search goes to the wrong side after any number of iterations. Values and visits are kept per state, so the return to the start counts as a visit of the start and the walks through a state that brought little are never outweighed. C162_partial: on square grids without staying, plans of two moves, if all plans that begin with the best first move are better than all that do not. One move: C108."
  },
  {
   "property": "C163",
   "status": "proved",
   "theorems": [
    "MaMDP.C163_bound",
    "MaMDP.C163_returned",
    "MaMDP.C163_grid",
    "MaMDP.C163_chance_witness"
   ],
   "note": "C163_bound against the exact solution of Bellman's equation, C163_returned against what the solver returns, C163_grid on grids. C163_chance_witness: with random transitions the inequality can fail, because the solver pays the reward of the state reached and the representation that of the state left."
  },
  {
   "property": "C164",
   "status": "proved",
   "theorems": [
    "MaMDP.C164_additive",
    "MaMDP.C164_monotone"
   ],
   "note": "C164_additive and C164_monotone. Solved values (C27) are not additive: the best plan depends on the weights."
  },
  {
   "property": "C165",
   "status": "proved",
   "theorems": [
    "MaMDP.C165_values",
    "MaMDP.C165_grid",
    "MaMDP.C165_greedy",
    "MaMDP.C165_softmax",
    "MaMDP.C165_trapped_witness"
   ],
   "note": "C165_values for any MDP to which states are added that can be neither entered nor left (the old states keep their order), C165_grid that maps inside maps are such, C165_greedy and C165_softmax for whole games. C165_trapped_witness: an agent that cannot move at all stays where it is on a map of one cell, but with walls around it is moved onto state 0 (compare C16), so the condition on where agents start is needed. step_multi with refit and tree search are not covered."
  },
  {
   "property": "C166",
   "status": "proved",
   "theorems": [
    "MaMDP.C166_visits",
    "MaMDP.C166_expected",
    "MaMDP.C166_greedy",
    "MaMDP.C166_expected_greedy"
   ],
   "note": "C166_visits for any fitted softmax agent, C166_expected for the learner's feature counts; chances are Lebesgue measures of sets of generator outcomes as in C132. C166_greedy and C166_expected_greedy are the same for greedy agents and learners (soft=False) without ties, where visits are counted; with ties they are not covered."
  },
  {
   "property": "C167",
   "status": "proved",
   "theorems": [
    "MaMDP.C167_plan",
    "MaMDP.C167_steps"
   ],
   "note": "C167_plan for any deterministic MDP, C167_steps for an agent in an environment (exact arithmetic)."
  },
  {
   "property": "C168",
   "status": "proved",
   "theorems": [
    "MaMDP.C168_circles",
    "MaMDP.C168_ties_witness"
   ],
   "note": "C168_circles; C168_ties_witness shows that the hypothesis about ties is needed."
  },
  {
   "property": "C169",
   "status": "partial",
   "theorems": [
    "MaMDP.C169_mce_partial",
    "MaMDP.C169_hyptest_partial",
    "MaMDP.C169_refuted_mce",
    "MaMDP.C169_refuted_hyptest"
   ],
   "note": "False of the code: both learners start from 0 (C169_refuted_mce, C169_refuted_hyptest). What holds: None means 0 for each feature (C169_mce_partial, C169_hyptest_partial)."
  },
  {
   "property": "C170",
   "status": "proved",
   "theorems": [
    "MaMDP.C170_passes",
    "MaMDP.C170_converged",
    "MaMDP.C170_floor_witness"
   ],
   "note": "C170_passes, C170_converged; C170_floor_witness shows why the lower bound on rewards is needed. Exact arithmetic."
  },
  {
   "property": "C171",
   "status": "proved",
   "theorems": [
    "MaMDP.C171_slope",
    "MaMDP.C171_grid"
   ],
   "note": "C171_slope for deterministic MDPs, C171_grid for grids. Exact arithmetic."
  },
  {
   "property": "C172",
   "status": "partial",
   "theorems": [
    "MaMDP.C172_floats",
    "MaMDP.C172_refuted_mce",
    "MaMDP.C172_refuted_mce_error",
    "MaMDP.C172_refuted_hyptest",
    "MaMDP.C172_refuted_td",
    "MaMDP.C172_default",
    "MaMDP.C172_partial"
   ],
   "note": "False of the code: floats are added in place to the guess, which raises TypeError for an array of integers. C172_refuted_mce, C172_refuted_hyptest and C172_refuted_td show that such a learner can never be fitted; C172_refuted_mce_error names the exception; C172_partial has the cases in which the type does not matter, C172_default adds the learner without a first guess, C172_floats says that with floats these are the learners of the other theorems."
  },
  {
   "property": "C173",
   "status": "partial",
   "theorems": [
    "MaMDP.C173_own",
    "MaMDP.C173_partial",
    "MaMDP.C173_blind",
    "MaMDP.C173_refuted"
   ],
   "note": "False of the code: the search starts where the agent stands in the environment it was added to last (C173_refuted). C173_blind: if that is far away, all action values are 0, for every number of iterations. C173_partial: if the agent (and the others, if simulated) look the same in both environments, nothing is lost; C173_own: with one environment this is the fit of the other theorems."
  },
  {
   "property": "C174",
   "status": "partial",
   "theorems": [
    "MaMDP.C174_partial",
    "MaMDP.C174_unseen",
    "MaMDP.C174_refuted",
    "MaMDP.C174_refuted_bait"
   ],
   "note": "False of the code: positions are compared only at the start of a move, so a catch by the last planned move is free (C174_refuted, C174_unseen), and eaten agents catch too (C174_refuted). C174_refuted_bait: a hen planning one turn ahead walks into the fox. C174_partial says exactly when the cost is paid and what is added."
  },
  {
   "property": "C175",
   "status": "partial",
   "theorems": [
    "MaMDP.C175_refuted",
    "MaMDP.C175_partial",
    "MaMDP.C175_numbers",
    "MaMDP.C175_zeros"
   ],
   "note": "False of the code: reset_walls multiplies the stored array by 0 in place, which raises TypeError for booleans (C175_refuted). C175_partial: every sequence without reset_walls does the same; C175_numbers: with numbers this is the MDP of the other theorems; C175_zeros: assigning zeros does what reset_walls should."
  },
  {
   "property": "C176",
   "status": "partial",
   "theorems": [
    "MaMDP.C176_contents",
    "MaMDP.C176_refuted",
    "MaMDP.C176_refuted_transitions",
    "MaMDP.C176_refuted_learners",
    "MaMDP.C176_partial",
    "MaMDP.C176_agents",
    "MaMDP.C176_environment"
   ],
   "note": "False of the code: numba's np.dot takes arrays of one type only, so the compiled solver raises (represented by TypeError): C176_refuted (features, every reward function and setting), C176_refuted_transitions, C176_refuted_learners. C176_partial: with floats everything is as the other theorems say; C176_contents: the types do not affect what the arrays hold; C176_agents: once an agent's feature has been added, features are floats as long as only floats are assigned; C176_environment: making an environment with agents does that. Missing: arrays of integers."
  },
  {
   "property": "C177",
   "status": "proved",
   "theorems": [
    "MaMDP.C177_exact",
    "MaMDP.C177_accuracy",
    "MaMDP.C177_stops",
    "MaMDP.C177_operations",
    "MaMDP.C177_double",
    "MaMDP.C177_double_stops"
   ],
   "note": "C177_exact: with exact operations the model is that of C34. C177_accuracy and C177_stops: any arithmetic of accuracy eps. C177_operations: rounding each operation, with an inexact exponential and logarithm, is accurate. C177_double and C177_double_stops: the claim in double precision. Sums are taken in order; overflow (C142) is excluded by the condition on R and B."
  },
  {
   "property": "C178",
   "status": "proved",
   "theorems": [
    "MaMDP.C178_counts",
    "MaMDP.C178_exact_policy",
    "MaMDP.C178_expected",
    "MaMDP.C178_greedy",
    "MaMDP.C178_choice",
    "MaMDP.C178_position",
    "MaMDP.C178_planning",
    "MaMDP.C178_planning_soft"
   ],
   "note": "C178_choice: one softmax choice. C178_greedy: greedy choices. C178_position: k steps of an agent in any environment reached. C178_planning and C178_planning_soft: how near the planner's values are to the exact ones. C178_expected and C178_counts: expected feature counts (the policy compared with exists by C178_exact_policy). In exact arithmetic; C124, C149 and C177 are about rounding."
  },
  {
   "property": "C179",
   "status": "partial",
   "theorems": [
    "MaMDP.C179_same_mce",
    "MaMDP.C179_same_hyptest",
    "MaMDP.C179_mce",
    "MaMDP.C179_mce_value_error",
    "MaMDP.C179_other_world",
    "MaMDP.C179_hyptest_partial",
    "MaMDP.C179_hyptest_single",
    "MaMDP.C179_refuted"
   ],
   "note": "Proved for MaxCausalEntIRL (C179_mce, C179_mce_value_error, C179_other_world). For HyptestIRL it is false in worlds with one feature (C179_refuted: three weights go in, three come out; C179_hyptest_single says what they are) and proved for all others (C179_hyptest_partial). C179_same_mce, C179_same_hyptest: with one weight per feature the model is that of the other properties. Empty weight vectors are left out for MaxCausalEntIRL (what compiled np.dot does with them depends on the version of numba)."
  },
  {
   "property": "C180",
   "status": "proved",
   "theorems": [
    "MaMDP.C180_planning",
    "MaMDP.C180_planning_soft",
    "MaMDP.C180_choice",
    "MaMDP.C180_expected",
    "MaMDP.C180_weights"
   ],
   "note": "C180_planning, C180_planning_soft: tables. C180_choice: softmax choices. C180_expected: expected feature counts. C180_weights: from weights to rewards. For k steps of an agent in an environment put the second table into C178_position, for greedy choices into C178_greedy. In exact arithmetic."
  },
  {
   "property": "C181",
   "status": "partial",
   "theorems": [
    "MaMDP.C181_iteration",
    "MaMDP.C181_search",
    "MaMDP.C181_policy",
    "MaMDP.C181_algorithm",
    "MaMDP.C181_partial",
    "MaMDP.C181_cold",
    "MaMDP.C181_refuted"
   ],
   "note": "C181_policy, C181_algorithm: the exceptions. C181_partial: nothing else succeeds, for temperatures other than 0. With temperature 0 the way of choosing is not looked at (C181_cold) and an unknown one is accepted (C181_refuted). C181_iteration, C181_search: in a whole search that ends without an exception, no opponent with unsupported settings has moved (temperature not 0, no values cached beforehand)."
  },
  {
   "property": "C182",
   "status": "proved",
   "theorems": [
    "MaMDP.C182_shape",
    "MaMDP.C182_sum",
    "MaMDP.C182_differences",
    "MaMDP.C182_unique",
    "MaMDP.C182_again",
    "MaMDP.C182_shift"
   ],
   "note": "The result is determined by C182_sum and C182_differences (C182_unique); C182_again and C182_shift follow. No other code calls the function."
  },
  {
   "property": "C183",
   "status": "proved",
   "theorems": [
    "MaMDP.C183_support",
    "MaMDP.C183_dead_end",
    "MaMDP.C183_frequency"
   ],
   "note": "np.random.choice is taken to pick each entry of the list with the same probability; C183_frequency counts the entries."
  }
 ]
}