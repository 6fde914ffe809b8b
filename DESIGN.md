# Formal model of tobywise/multi_agent_mdp in Lean 4

## 1. What this is

`/verif/lean` contains an executable (where the arithmetic is computable) shallow
model of the Python package `maMDP` at the pinned commit, and theorems about it.
`properties.jsonl` lists the properties in English, `MANIFEST.json` maps each of
them to theorem names, `seeded/LOG.jsonl` records the mutation tests.

Layout (all under `lean/Verif/`):

* `Model/*.lean`  - the model, one file per Python module; every definition cites
  the lines of `/repo` it models and says where it simplifies.
* `Spec/*.lean`   - small specifications, written without reference to the model's
  helpers (hexagon directions, shortest path, window of planned moves, ...).
* `Lemmas/*.lean` - auxiliary lemmas.
* `Props/*.lean`  - the property theorems (`C01_...`), each followed by `example`s
  showing that its hypotheses are met by a concrete non-trivial case.

## 2. Modelling conventions

* **Numbers.** Python/NumPy floats are modelled as exact numbers: an arbitrary
  linearly ordered field `K` (instantiated with `Rat` for concrete witnesses) or
  `Real` where `exp`, `log` or `sqrt` occur. Rounding, overflow and underflow are
  NOT modelled, except the rounding of value iteration (`Model/Rounding.lean`, C124), with `soft=True` as well (`Model/SoftRounding.lean`, C177), the rounding of softmax choices (`Model/RoundedChoice.lean`, C149) and the overflow of exponentials in soft value iteration and softmax (`Model/Overflow.lean`, C142). NaN and infinities are modelled only where the code's logic uses
  them (Q tables): type `Ext K = nan | ninf | fin x | pinf`.
* **Arrays.** An array is its shape plus a total function from indices; the
  function's values outside the shape are never read by the model, because every
  Python index goes through `pyIdx` (negative indices wrap around, anything else
  outside the axis raises `IndexError`).
* **Exceptions** are values (`Except PyErr`). A stateful method returns the state it
  leaves behind *and* the outcome, so mutations made before an exception stay.
* **Randomness.** Every random draw is an argument of the model (`draw : Nat -> Nat`,
  reduced modulo the number of candidates, or a real `u` in [0,1) for weighted
  sampling). Theorems quantify over all draws, i.e. all outcomes of the generator.
  The statistical quality of NumPy's generator is trusted.
* **Mutation / aliasing.** In-place mutation of an object's own arrays is modelled by
  state passing. The live feature array and the saved copy are separate fields, as in
  the code. Aliasing with arrays held by the *caller* (e.g. the caller's own
  `walls` array being zeroed by `reset_walls`) is in `Model/ArraySharing.lean` and `Model/LearnerStore.lean` (section 5).
* **isinstance checks** are mostly discharged by Lean's types and not modelled. Action selectors are functions that return new
  arrays of the right shape; selectors of the user's own that return anything else are modelled apart in `Model/OwnSelector.lean` (C151).
* **Loops** are folds or structural recursion; the `while` loops of `mcts_iteration`
  and `get_eyeline_features` take fuel, and termination is a theorem (or
  non-termination is, where the code diverges).

## 3. Trusted base

* Lean 4.33.0's kernel. No axioms are added; theorems use at most `propext`,
  `Classical.choice`, `Quot.sound`. No `sorry`, `native_decide`, `bv_decide`.
* That the model renders the cited Python faithfully (the code was read, not run).
* NumPy semantics as read: row-major `np.where`/`argwhere`, first-maximum `argmax`,
  `a[()] = 0` assigning the whole array, `np.split`, slicing, boolean masks.

## 4. Property by property

* **C01** State IDs and grid coordinates are a row-major bijection. Model grid_coords as the row-major list of cells, ravel/unravel with range checks; prove the list's s-th entry is (s/H, s%H) and the two functions inverse.
* **C02** Square grid transitions are exactly the four compass moves. Model the double loop of _get_sas literally (foldlM with writes, action lookup may raise); prove the final array equals an independent direction table.
* **C03** Hex grid transitions are exactly the six hexagon moves. As C02 with the cube-coordinate distance in Rat and the parity-dependent direction table.
* **C04** Grid MDPs are deterministic. Corollary of C02/C03 plus the wall mask; invariant over wall operations.
* **C05** Moves on a grid are reversible. Corollary of C02/C03/C09: opposite direction table.
* **C06** Hex distance is the shortest-path distance. Cube distance as max-norm; explicit greedy path for the upper bound, Lipschitz argument for the lower bound.
* **C07** The action recovered from a pair of adjacent cells is the one that performs the move. Case analysis on coordinates shared with C02/C03.
* **C08** Every cell of a wall-free grid is reachable from every other. Induction on distance along rows/columns inside the rectangle.
* **C09** A wall is a state that can be neither entered nor left. Direct from the mask model.
* **C10** Wall assignment is history independent and reversible. Invariant over a list of wall/sas operations.
* **C11** An invalid wall array is rejected without side effects. Branch analysis.
* **C12** add_wall_xy adds exactly the requested rectangle. Fold of cell writes; raises before assignment.
* **C13** The adjacency attribute agrees with the transitions. FALSE of the code (adjacency is computed before the mask is applied). Refute with a witness, prove the exact relation and the wall-free partial.
* **C14** Adjacency queries, valid actions and action lookup agree. argmax lemmas.
* **C15** get_next_state follows the transition array. argmax of a one-hot row.
* **C16** get_next_state never moves an agent along an impossible action. FALSE of the code (argmax of an all-zero row is 0). Refute with witness; prove the exact behaviour.
* **C17** Trajectories convert to state-action pairs that replay them. Induction over the trajectory.
* **C18** Consuming features is exact and idempotent. Induction over the feature list.
* **C19** Agent features can be added, moved and removed without disturbing the MDP's own features. Induction over additions/updates.
* **C20** Removing agent features when there are none changes nothing. FALSE of the code (features[:-0] is empty). Refute, and prove the exact effect.
* **C21** Resetting the MDP restores its features. Invariant: the saved array is only written by the features setter.
* **C22** An MDP can be built from features and a transition array. FALSE of the code (walls setter reads self.shape, which the base class lacks): prove construction always raises.
* **C23** The greedy policy is a probability distribution over best actions. Ext-valued Q rows; count argument.
* **C24** The greedy action is always a best action. Membership in the argmax list for every draw.
* **C25** The softmax policy is a probability distribution ordered by Q value. Real exp; case split all -inf.
* **C26** Softmax sampling picks each action with exactly its probability. Cumulative sums and searchsorted; intervals.
* **C27** Value iteration converges. Gauss-Seidel sweep as fold; sup-norm contraction; Banach via geometric decay; uniqueness.
* **C28** Value iteration's answer is within tolerance of the true values. A-posteriori bound.
* **C29** Q values mark impossible actions with -inf and only those. Mask loop.
* **C30** State values are the best Q values. FALSE with invalid actions and negative rewards (an impossible action counts as 0 in the max). Refute; prove exact formula and the partial.
* **C31** Values are bounded by the largest reward. Invariant over sweeps.
* **C32** Value iteration computes the optimal discounted return. Fixed point versus finite-horizon returns.
* **C33** Invalid value-iteration settings are rejected. Branch analysis.
* **C34** Soft value iteration is a contraction and bounds the hard backup. log-sum-exp bounds over Real.
* **C35** The successor representation always exists. Strict diagonal dominance (Mathlib), Neumann bound for sign and row sums.
* **C36** Successor-representation Q values satisfy the random-policy Bellman equation. Multiply by the inverse.
* **C37** Planned moves are the next n moves split by turn. 0/1 window array and np.split over Int slices; counting.
* **C38** Environment construction validates its agents. Fold over agents with invariant.
* **C39** Stepping moves an agent along one valid transition. Composition of selector, argmax and sas model.
* **C40** Agents always stand on a state of the MDP. Invariant over operation lists.
* **C41** Agent feature rows show agent positions. Invariant over operation lists; FALSE for set_agent_position below -n_states (row erased before the exception): refuted by witness, partial for all other histories.
* **C42** Moving one agent does not move the others. Frame lemmas per operation.
* **C43** Position history records every step in order. Ghost-free invariant relating history to the op log.
* **C44** Environment reset restores the start. Invariant: saved features = construction features.
* **C45** Environment reset clears consumption and step counters. FALSE of the code: refute by witness; prove what is kept.
* **C46** Features are conserved: consumed plus remaining equals initial. Potential-function invariant over steps.
* **C47** Calls naming an unknown agent fail without effect. Branch analysis.
* **C48** Stepping before fitting fails without effect. Branch analysis.
* **C49** step_multi is repeated stepping. Induction over the loop.
* **C50** Catching is detected exactly when a predator stands on its prey. Membership of nested loops; FALSE when mdp.features was reassigned with another number of rows before construction, or for a negative alias of a position: refuted by witness, partial otherwise.
* **C51** step_multi with refit makes the requested number of steps. FALSE when k exceeds agent.n_moves: refute/characterise the failure; prove for k <= n_moves.
* **C52** step_multi_interactive moves the agents. FALSE of the code: every call raises or does nothing. Prove exactly that.
* **C53** step_proba returns the one-step distribution. FALSE of the code (assignment instead of accumulation, impossible actions map to state 0). Refute; partial under injectivity.
* **C54** Agents never enter walls. Invariant.
* **C55** An MCTS iteration follows the planned turn schedule and terminates. Fuelled while loop as a scheduler; exact actor sequence.
* **C56** Simulated paths obey the transition array. Invariant over loop steps.
* **C57** MCTS explores every untried successor before repeating one. Branch analysis.
* **C58** MCTS bookkeeping is exact. Fold over iterations.
* **C59** Catching in simulation. Fold over row-major pairs.
* **C60** Eating a prey is rewarded once. FALSE of the code: refute by a concrete simulation.
* **C61** Planning leaves the MDP untouched. By construction of copies; theorem on run states.
* **C62** Opponent Q-value caching is transparent. FALSE of the code: stale rows / key misses; refute by concrete simulation.
* **C63** MCTS Q values cover exactly the actions available from the current state. Direct.
* **C64** MCTS can be fitted without an explicit plan. FALSE of the code: always TypeError.
* **C65** Agent relations extracted for planning match the reward and consumption settings. Dictionary folds.
* **C66** Expected state visitation has the right total mass. Induction on n.
* **C67** Empirical state visitation is an average over trajectories. FALSE for two or more trajectories: refute, exact formula, single-trajectory partial.
* **C68** Max-causal-entropy IRL learns from data with default arguments. FALSE of the code: a[()]=0 wipes everything; prove theta is all zeros. Partial for list-valued ignore.
* **C69** The IRL learning rate decays as documented. FALSE from the second iteration on; exact product formula.
* **C70** Feature matching counts the chosen states' features. FALSE for non-empty ignore lists (zeroes trajectories); partial for the default.
* **C71** Hypothesis-testing IRL works with default settings. FALSE of the code: never returns normally.
* **C72** Looking along a direction on a grid ends at the edge. Ranking function on coordinates; the self action diverges (theorem).
* **C73** Eyeline feature counts are normalised. Sum of non-negative counts.
* **C74** TD policy learning accepts trajectories of any length. FALSE of the code (shadowed loop variable): exact condition.
* **C75** TD policy learning keeps action preferences bounded. Convexity invariant.
* **C76** Angular distance is the shortest way round. Floor arithmetic over an Archimedean ordered field.
* **C77** A longer length scale generalises more. FALSE of the code (operator precedence): prove it is non-increasing.
* **C78** Saving and loading a hex environment preserves it. Round trip through the dictionary model.
* **C79** Loading from JSON restores features. FALSE of the code: loaded features are all zero.
* **C80** Hexagons drawn next to each other are exactly the adjacent states. Parity case analysis over Rat.
* **C81** Value plots are normalised to [0,1]. Order argument.
* **C82** Algorithm.fit accepts only well-shaped results. Branch analysis.
* **C83** Observed and expected feature counts are on the same scale. FALSE of the code unless VI_max_iter = 1: general refutation with total visitation mass.
* **C84** Resetting a max-causal-entropy learner restores its start. FALSE of the code (reset aliases the saved array): refute; learning rate over all call lists; partial up to the first reset.
* **C85** Action-difference IRL compares the chosen direction with all others. FALSE of the code without self transitions (the loop stops one action early): exact sums, general refutation, partial with self transitions.
* **C86** TD policy learning works with the documented decay. FALSE of the code: np.power(int, negative int) raises. General refutation, partial for zero/float decay.
* **C87** Resetting a TD policy learner restores its start. FALSE of the code (same aliasing as C84): refute; learning rate over all call lists; partial up to the first reset.
* **C88** Both save formats can be loaded back. FALSE of the code: position lists are not ints, coordinate pairs are read as state numbers. General refutations; partial for the dictionary's contents.
* **C89** Markers are drawn where their state is drawn. FALSE of the code: plot_grid_values does not transpose. General refutation; partial for hexagons and feature plots.
* **C90** Plotting a grid shows all of its own features. FALSE of the code without agents. Refutation for every such grid; partial with agents.
* **C91** Non-interactive planning simulates only the agent's own planned moves. (todo)
* **C92** Resetting a hypothesis-testing learner restores its start. FALSE of the code (theta aliases original_theta after reset). Stateful model of HyptestIRL; invariant: saved weights are not written until the first reset.
* **C93** A fit that raises leaves the learner's estimates alone. FALSE of the code (arrays changed in place while the data is read). Exact account of what is left behind; partial theorems for errors met before anything is written.
* **C94** A tree search that fails to fit keeps its earlier results. FALSE of the code: `_fit` resets the object before searching. Object-level model; exact account of what is left.
* **C95** Planning alone needs nobody else. FALSE of the code: `create_agent_info` needs an attached agent. Partial: independence of the other agents.
* **C96** Tree searches do not depend on earlier ones. FALSE of the code for `reset_cache=False`. Partial: simulation between objects with different histories (settings preserved, cache cleared or unread); second partial: invariant that cached entries are right, carried across fits.
* **C97** Assigned transitions and features are checked, and a refused assignment changes nothing. Branch analysis of both setters.
* **C98** A transition array assigned later stays in force and fits the rest of the MDP. FALSE of the code: sizes are not compared, and the walls setter starts from the saved array. General refutations; partial up to the next wall change.
* **C99** A rejected environment can be built again. FALSE of the code for start positions outside the grid. Witness; partial by a frame lemma over the attaching loop.
* **C100** An MDP is independent of the arrays it was built from. FALSE of the code: arrays are stored, not copied. Arrays in a store, MDP objects with references; per-object simulation by the value-level model, induction over programs.
* **C101** Environments are independent of each other. FALSE of the code. World of MDP and algorithm objects with environments that refer to them; per-environment simulation by the environment model, induction over programs.
* **C102** An agent in two environments plans separately in each. FALSE of the code. Same world model; witness, general form, and independence of a successful fit from the earlier contents.
* **C103** Following the plan collects the most reward. Planned action values are within tol*gamma/(1-gamma) of the fixed point; the greedy walk loses at most twice that per step (induction over the walk), the fixed point bounds every return (C32).
* **C104** A single rewarded state is reached by a shortest path. Value of the goal problem against gamma^distance/(1-gamma); a greedy action moves one step closer (induction over the distance); grid distances from C08.
* **C105** The softmax temperature goes from greedy to uniform. Probabilities as quotients of weights; limits of the shifted weights as the temperature goes to 0 or infinity; log x <= x - 1 for the loss.
* **C106** The successor representation counts the visits of a random walk. FALSE of the code: row totals against 1/(1-discount), by descent along the action that lowers the state number. Partial: recursion of the inverse against the recursion of expected visits, contraction.
* **C107** Agents only make possible moves, whatever they were fitted with. FALSE of the code: a 2 by 3 grid with a wall at cell 0. Partial: masked tables have possible best actions.
* **C108** A tree search of one move finds the best next state. FALSE of the code: a corridor of three states, all iteration counts from 21 on. Partial: invariant of the search (every next state once, then the first only), induction over iterations.
* **C109** Plans weigh costs as well as rewards. FALSE of the code: a corridor of five states in which everything costs. Partial: values are attained by possible actions when a free next state exists, then as C103.
* **C110** The unit of the rewards does not matter. Two runs related pass by pass (induction over states, passes); positive scaling is strictly increasing on cleaned entries.
* **C111** Small errors in the rewards make small differences. Comparison of two Bellman solutions at the state where they differ most; then C103 and the geometric series.
* **C112** The numbering of states and actions does not matter. FALSE of the code: invariant of the passes over a symmetric corridor. Partial: the Bellman equation is invariant under renumbering, both plans are close to its solution.
* **C113** Agents that do not care about each other plan independently. Frame relation for calls about others (which feature rows they can change), induction over the calls; the reward of each state then agrees.
* **C114** What an agent cannot reach does not affect its plan. Locality of action values, induction over the states of a pass and over passes; limits of both iterations agree. FALSE as stated because the stopping rule looks at all states: witness on a walled grid.
* **C115** Adding walls never makes a state worth more. Monotonicity of action values and of each pass in the transition array; sandwich with the Bellman solution. FALSE with negative rewards: witness on a 3x3 grid.
* **C116** A plan never promises more than can be collected. Passes from zero stay below the Bellman solution, which is approached by walks (C32). FALSE with negative rewards.
* **C117** Looking further ahead never makes a state worth less. Same monotonicity lemma, in the discount and in the starting values.
* **C118** An action's value in a tree search is what walks beginning with it collect. C63_table and C58_tables together give the value as a weighted sum of returns; bounds by induction on the list of walks. FALSE as stated: witness on a 3x2 grid with two walks.
* **C119** A max-causal-entropy fit that ends without a warning has converged. Loop invariant for the list of errors; the last error by C119_history. FALSE as stated: equal totals make the signed mean constant.
* **C120** Learners are independent of each other and of the arrays they were given. Store of arrays with references, one class of learners at a time, abstracted by a few laws proved for each class (C120_classes). Invariant: references in use, attribute and saved array the same exactly if flagged. FALSE as stated.
* **C121** An estimate that was returned does not change later. The same store; induction on the program for arrays nobody writes into. FALSE as stated.
* **C122** Learners accept exactly the settings their messages describe. Direct, exact conditions. FALSE as stated at asymmetry 1.
* **C123** Simulated hunters chase their prey. One greedy step on accurate action values decreases the distance (as in C104), transferred to the simulated opponent; invariant over moves for what rows show. FALSE as stated.
* **C124** Rounding does not spoil value iteration. Contraction with an additive error per backup; the stopping test bounds the error by fixed-point reasoning; induction over the rounded sum.
* **C125** Recorded learning histories of hypothesis-testing IRL. Loop with lists refined to the loop without; induction over moves and trajectories.
* **C126** Learning in batches. Composition of loops; without decay the count of moves is not used.
* **C127** The order of trajectories does not matter to methods based on feature counts. Counts are invariant under permutations; one explicit step of the ascent for the refutation.
* **C128** Trajectories are drawn through the places of their states. Invariant of the remembered coordinates over all histories of plotting calls; induction over the trajectory.
* **C129** The picture of an environment shows features, walls and agents where they are. Membership characterisation of the list of drawn things.
* **C130** Features can be told apart by colour. Case analysis on where the colour comes from.
* **C131** TDPolicyIRL learns action values from trajectories. Case analysis on the argument.
* **C132** A walk is drawn with the product of the chances of its moves. The set of draws making a walk is a product of intervals; its volume is the product of the lengths (Measure.pi).
* **C133** The policy an environment reports is the one the agent follows. Invariant over calls: stored probabilities and actions come from the stored action values; witness with two best actions.
* **C134** Soft value iteration finds the most reward plus entropy. Gibbs variational principle and a contraction argument in both directions; the corridor by bounding all passes.
* **C135** Only differences between rewards matter. Shifted solutions solve the shifted Bellman equation; both runs are within the tolerance of their solutions.
* **C136** The numbers of the features do not matter. All quantities are sums over features or are computed feature by feature; a simulation of the two runs.
* **C137** Features that are nowhere do not matter. The same simulation, the second run stopping no later than the first; a concrete corridor for the refutation.
* **C138** Loading succeeds exactly for sound descriptions, and otherwise says what is wrong. Induction over the requested names and over the agents; the environment's own validation is C38.
* **C139** Preferences are only learned from worlds with the same actions. Invariant over calls for the length; case analysis of the first observed step for the refusal.
* **C140** Whose turn comes first matters only for contested food. Closed form of a step, independence of the move from the features, pointwise comparison of the feature tables and the consumption counts.
* **C141** From two moves ahead on, a tree search keeps exploring. Visit counts only grow, and the sums of returns are bounded by a constant times the visits, so the averages are bounded. Some successor is chosen again and again. From there, once all neighbours of the start were tried, the second move is an upper confidence choice too, and if a state chosen from a node whose visits grow were starved, its bonus would outgrow the bounded averages. Moves on a grid can be taken back, so the start itself is visited without bound, and the same argument applies there.
* **C142** Large rewards do not make planning overflow. Simulation between the exact computation and the one where exponentials above the largest number are inf. Invariant: no value exceeds (R + log(nA + 1)) / (1 - discount), so all sums of exponentials fit. For the error: with non-negative rewards no value becomes negative, so the sum in the state with the large reward overflows, and the check at the next state or pass raises.
* **C143** A forager that plans anew before each step eats everything it can reach. While something is left, every state is worth at least c > 0 (moves on a grid can be taken back), and a best step onto an empty state raises the value of the state by at least (1 - discount) c / 2; values are bounded, so an eating step comes after boundedly many rounds. Each such step lowers the number of states with something left. With other agents about, the same with sets of eaten (feature, state) pairs. The limit of passes is the largest over all such sets.
* **C144** A softmax agent goes everywhere it can. The chance of avoiding a state for k moves falls with k and is below 1 for some k from every state within reach (moves on a grid can be taken back), so there is one number of moves after which at most a share r < 1 of it is left, whatever the state; hence it falls geometrically. The chances of the walks that miss some state are at most the sum over the states. The event is a union of boxes in the space of draws, as for C132.
* **C145** A faster hunter catches its prey. Invariant of the chase: as long as the two are apart the prey's row shows exactly the prey, so the reward of the hunter is that of one goal state. With the accuracy of value iteration (C28, C103) a best action leads one move closer to the goal (as in C104). Others' calls keep the invariant, by induction over calls. Over a turn the distance falls by k and grows by j at most.
* **C146** A step can be asked about from any state. step_proba uses the agent's position for nothing but its starting array, and the agent's row of the features for nothing at all; so moving the agent first and asking about a certain position are the same computation, in every branch.
* **C147** An agent whose tree search fails is left without a plan, and nothing else changes. Model env.fit for a tree search object; show that it amounts to a successful fit with the found values, or to forgetting the algorithm's results, which is now one of the calls a history may contain; then the plan stays forgotten by the invariant of C48.
* **C148** Agents that plan by tree search can play any number of turns. Model step_multi for a tree search object. Strengthen the success theorem of C64 to searches that start from any cache whose entries are masked tables and show that such caches result; a fit then gives a table masked at the agent's state (C63), from which a deciding selector picks a possible action; liveness, rewards, moves and names are invariants; induction over steps and over turns.
* **C149** Rounding does not spoil choices by softmax. Rounding is any monotone function with relative error ε and absolute error η. Error of left-to-right sums by induction, of quotients, of the shares; the largest entry's exponential is exactly 1, so totals are at least 1. The slots of the rounded cumulative sums are within the margin of the exact ones; the last one is exactly 1 for rng.choice (x/x). Rounding to 53 binary digits with gradual underflow is shown to be of this kind; the counterexample is computed in it.
* **C150** An agent that ignores the others lives as if alone. Simulation: two environments related when the agent is the same in both and the MDPs differ only in feature rows others can change. Calls elsewhere keep the relation on one side (Env.others_run); planning, stepping, step_proba and placing keep it on both sides with equal results. Induction over the sequence.
* **C151** Action selectors of one's own are held to the documented format. Case analysis over the kinds of reply: what `x[mask] = v` does to each, then the assertions. FALSE for what the subclass keeps: get_pi writes into the returned array.
* **C152** An episode played again after a reset goes the same way. Simulation: an environment after reset is the new one with other counters and other stored plans (`Env.ghost`). Every call commutes with that change; a fit that succeeds removes the agent's old plan from it; a call that would read an old plan is excluded by the hypothesis.
* **C153** The order in which the agents are listed does not matter. Simulation between the two environments: same MDP up to the order of the agents' feature rows, same agents up to their numbers (`Env.Shuffled`). Every call preserves it and answers the same; the fit uses C137.
* **C154** Going on from where things stand. Simulation (`Env.Akin`) between the environment with the history and the one without: same MDP up to what a reset restores, same agents up to the past part of history and consumption. The transitions of every reachable grid MDP are a function of grid and walls (`Mdp.GridReach.fromGrid`).
* **C155** Several interests together are never worth more than each apart. The maximum of sums is at most the sum of the maxima, and log-sum-exp is convex (Gibbs principle, the constant 1e-200 counting as one more action). Induction over the states of a pass and over passes; for the returned values comparison with the fixed point at the state where they differ most.
* **C156** A policy learner comes to expect a habit. FALSE of the code with decay. Closed form of repeated updates with one rate; with decay, estimates move by no more than the total of the rates, which is bounded by a geometric series since n! >= 2^(n-1).
* **C157** Whoever cares more for a feature gets at least as much of it. Near-optimality of greedy walks (C103) used both ways: add the two inequalities, the common rewards cancel.
* **C158** More iterations or more fits let max-causal-entropy IRL match what was observed. Totals of observed and expected counts over features; sum of the rates 1/(n! n)^d.
* **C159** Weights learned by hypothesis testing stay in the range of the evidence. Rates at most 1 make each update a convex combination; Cauchy-Schwarz bounds a score by √(n-1).
* **C160** The same evidence again and again is learned in the end. Each update multiplies the distance to the evidence by 1 - rate; products of 1 - c/n go to zero like a power, products of 1 - c/n^2 do not.
* **C161** The names of the agents do not matter. Every lookup compares names with names, so an injective renaming commutes with each method; induction over calls, over the steps of step_multi and over the turns of a game.
* **C162** With enough iterations, a tree search finds the best plan. An invariant of the tables after any number of iterations: the walk left-and-back is never tried since the start, as a node, has more visits than its neighbour; the right side is left only after exponentially many visits of its good end. For the partial: C141 (all first moves visited more and more often), and bounds on the average of the walks through a state.
* **C163** Planning is never worth less than wandering. Take the state-action pair with the greatest excess; by the defining equation of the representation (C36) and Bellman's inequality its excess is at most the discount times itself.
* **C164** With the successor representation, interests add up. The values are one matrix times the rewards; the entries of the matrix are not negative and each row sums to at most 1/(1-discount) (C35).
* **C165** A map walled off inside a bigger one plays as on its own. Sweep by sweep the values of the old states agree and the new ones stay 0, because the sweep visits the old states in the same order; then relate the two environments call by call.
* **C166** The visits a learner expects are those of an agent that walks. Forward and backward recursions of the same chain agree; the chance of standing somewhere is C132.
* **C167** A short-sighted agent goes for the best next state. Values stay between the extreme rewards received forever, whatever the number of sweeps.
* **C168** An agent without ties is predictable and ends up going in circles. The best action gives a map of the states to themselves; repeating it must come back (pigeonhole).
* **C169** A learner without a first guess starts from 1 for each feature. Unfold both constructors and compare the fits.
* **C170** Soft plans are never below hard ones, and not far above. Both sweeps run side by side, keeping the distance.
* **C171** Nearby states are worth about the same. Bellman equation along a path; moves on grids are reversible.
* **C172** A first guess of whole numbers works. The loops with a flag for the type of the array; induction on calls.
* **C173** A tree search plans for the environment it is asked in. The references of the search object as an argument; walks of the search stay near where it starts (C56, C91).
* **C174** A tree search reckons with being caught. Induction on the moves of an iteration (C55), with the check described by C59.
* **C175** Walls may be given as booleans. A flag for the type of the stored array; induction on operations.
* **C176** Features may be given as whole numbers. Flags for the types of the stored arrays; induction on operations.
* **C177** Rounding does not spoil soft value iteration. Contraction with an additive error per backup as for C124; positive terms keep the relative error of the rounded sum of exponentials small, which the logarithm turns into an absolute one.
* **C178** Small errors in action values hardly change choices. Ratios of probabilities are exponentials of differences; sum over the actions; induction on steps.
* **C179** Weights for another number of features are refused. Case analysis for MaxCausalEntIRL; induction over moves and trajectories for HyptestIRL.
* **C180** Wanting nearly the same means choosing nearly alike. Both tables are near exact ones (C178), and those are near each other by comparison of Bellman equations (C111).
* **C181** Unsupported settings for simulated opponents are refused. Case analysis.
* **C182** demean centres each column and does nothing else. Invariant of the loop over columns; sums.
* **C183** Opponents assumed to move at random are equally likely to take any available action. Counting entries of the list of next states.

## 4a. Where the code does not do what the English property says

Each item has a theorem named `..._refuted` (a concrete witness or a general negative statement) and, where
something weaker holds, a theorem named `..._partial`.

* C13: `adjacency` is computed before the wall mask is applied, so it is stale after adding walls.
* C16: an impossible action moves to state 0 (`argmax` of an all-zero row).
* C20: `remove_agent_features` with no agents deletes every feature (`features[:-0]`).
* C22: the base-class constructor always raises (`self.shape` is missing).
* C30: value iteration's maximum counts an impossible action as 0.
* C41: `set_agent_position(name, p)` with `p < -n_states` erases the agent's feature row, then raises IndexError.
  (The intended ValueError for `p >= n_states` is an IndexError too: its message has two placeholders, one argument.)
* C43, C46: the constructor checks consumed features only from above. An index below `-n_features` is accepted and
  makes `step` raise IndexError after the agent has moved. The theorems assume the indices exist.
* C44: with no agents, the saved copy of the features is never refreshed, hence "at least one agent".
* C45: `reset` keeps `consumed` and the step counter.
* C50: the caught test compares stored numbers. It misses a prey whose position is another name of the same state
  (-3 and 0 with three states), a consumed feature given as a negative number, and uses the wrong row when
  `mdp.features` was replaced by an array with another number of rows before the environment was built.
* C51: `step_multi(refit=True, n_steps=k)` raises ValueError at step `n_moves + 1` when `k > n_moves`.
* C52: `step_multi_interactive` never moves anything: it passes `n_steps` twice to `step_multi` (TypeError), or reads
  `agent_name` before assignment when `n_moves` is left out.
* C53: `step_proba` assigns instead of adding, and sends impossible actions to state 0, so probability is lost.
* C67: the empirical state counts are divided once per later trajectory, so early trajectories count less.
* C68: `feature_counts[()] = 0` zeroes every feature, so the default `ignore_features` learns nothing from data.
* C69: the decayed learning rate is stored back, so rates multiply up over iterations and over calls of `fit`.
* C70: `MFFeatureMatching` applies `ignore_features` to trajectories (rows), not features (columns).
* C71: `HyptestIRL`'s default normalisation raises NotImplementedError. With another normalisation ignored features get
  weight NaN; with z-scores so does any feature for which the legal actions tie at one move.
* C83: observed counts are per visited state, expected counts are totals over `VI_max_iter` steps.
* C84: `reset` makes the weights an alias of the saved start, which the next `fit` overwrites; with `theta=None` the
  saved start is a 0-dimensional object array.
* C85: `get_trajectory_eyeline_features_diff` loops over `range(n_actions - 1)`, which leaves out the last direction when
  the grid has no self transitions.
* C72, C73: with self transitions, a trajectory that stays put makes `get_eyeline_features` loop forever.
* C74: the loop over actions reuses the variable `n` of the loop over trajectories and looks the MDP up with it, so a
  trajectory with more steps than there are trajectories raises IndexError.
* C69 (policy learner): the rate compounds as in `MaxCausalEntIRL`; `fit` resets the counter but not the rate.
* C77: `dist**2 / 2 * ls**2` multiplies by the squared length scale instead of dividing.
* C86: `np.power(n_states, -decay)` with integers raises ValueError for every positive integer decay.
* C87: as C84: `reset` aliases the saved estimates; with `Q=None` it installs a 0-dimensional object array.
* C78 (beyond the claim): `hex_env_to_dict` does not check the grid type; a square grid is saved as `hex` and loaded with six actions. Its default `feature_names=None` always raises TypeError.
* C79: `hex_environment_from_json` passes no feature names, so the loaded features are all zero.
* C88: `format='coords'` dictionaries cannot be loaded: TypeError for the agents; without agents the pairs are used as state numbers.
* C89: square `plot_state_values` shows the grid mirrored relative to `plot`, agents and trajectories; hidden hexagons have their marker at (0, 0). `state_to_position` of a hex grid before the first plot raises AttributeError.
* C90: `plot()` slices `features_as_grid()[:-n_agents]`; with no agents this is `[:-0]`, so no feature is drawn.
* C81 (edge): a constant value array becomes all NaN when normalised.
* C57: while the agent's own state is unvisited, `UCB` takes the logarithm of 0; all bounds are NaN and `argmax` returns the first successor, so at the root the search ignores the values it has gathered.
* C60: the check for eaten agents ignores whether the prey is still active, so its value is paid again at the start of every later move during which the agent stands on its state; arriving on its state pays too, through its feature.
* C91: in non-interactive planning the loop still runs until the moves of *all* agents have been made, all of them by the planning agent; if its first number of moves is 0 and the total is not, the loop never ends.
* C62: a simulated agent's feature row is set to the state it moves *from*; the key of the cache of opponents' Q values holds the state it moved *to*. Cached values can therefore belong to other features, and caching changes what opponents do. With an agent consuming two or more features, caching raises ValueError.
* C64: `n_moves=None` makes the plan a list of plain numbers, and `sum` of one of them raises TypeError in the first iteration, in every environment.
* C92: `HyptestIRL.reset` hands out the saved array; the next fit overwrites it. With `theta=None` a reset makes the learner unusable (TypeError).
* C93: fits that raise half way keep what was learned so far (hypothesis testing with weights, TD), or leave zero weights in place of none (max-causal-entropy).
* C94: `MCTS._fit` resets the object before it searches, so a fit that fails (for instance without `n_moves`, C64) destroys the earlier values.
* C95: a non-interactive `MCTS` that is not attached to an environment raises AttributeError (`self._agent.name`).
* C96: with `reset_cache=False` cached opponent values survive changes of the features in the environment; the key records only what was consumed within the simulation. (The docstring says that `reset_cache` defaults to False; it defaults to True.)
* C98: `mdp.sas = x` accepts an array with another number of states than the features and walls have; the next wall assignment discards `x` in favour of the transitions of the constructor.
* C99: `add_agent_feature` increments `n_agents` before it checks the position. After `Environment(mdp, [Agent(position=99)])` raised IndexError on a small grid, the MDP counts an agent row that does not exist: `remove_agent_features` of the next attempt drops the last own feature.
* C100: `MDP` stores the feature and wall arrays it is given without copying. Two MDPs built from the same array share consumption; `reset_walls` on one erases the walls another reports while its transitions stay blocked. `Environment` with at least one agent ends the sharing of features, because adding an agent feature stacks a new array.
* C101: two environments on one MDP object: the second constructor removes the first one's agent rows. The first environment then reads and writes the second one's rows.
* C102: `Agent._attach` passes the agent's algorithm object on, so environments with the same Agent overwrite each other's action values; an agent fitted in one steps in the other without having been fitted there.
* C106: `get_sa_sr` gives every action of the next state the probability 1/n_actions, also the impossible ones (edges, walls), whose rows are empty: on every grid the matrix describes a walker who disappears, not a random walk.
* C107: `Null` gives every action the value 1 in every state, so its agents also choose impossible actions; `get_next_state` turns these into a move to state 0, wherever that is and even if it is a wall.
* C108: the visits of the root are not counted, so the exploration bonus at the root is not a number once every child has been tried, and all further iterations go to the first child; together with the division by one more than the visits, the first child is favoured up to twofold. More iterations make this worse.
* C109: an impossible action has value 0 when `action_values.max()` is taken, because its row of `sas` is all zero. With costs, every state where some action is impossible (every edge of a grid, every cell beside a wall) therefore looks like a place where paying stops, and plans ignore the costs behind it.
* C110: `tol` is absolute, so agents with small rewards are planned for less carefully: with rewards a hundredth as large and the same tolerance the plan goes the other way (C110_tolerance).
* C112: value iteration updates values in place in the order of the state numbers, so states with lower numbers are always one update ahead. In a perfectly symmetric corridor the two sides never tie, and the greedy agent in the middle always goes to the lower numbers instead of choosing at random.
* C114: value iteration stops when the values of *all* states have settled, so what is behind a wall decides how many passes are made, and with a coarse `tol` which way an agent goes that cannot get there.
* C115, C116: because impossible actions count as worth 0, with costs a wall beside a state raises its value, and values promise what no walk can collect.
* C118: the tree search backs up the whole return of a walk to every state on it, so an action can be valued above anything that can be collected after it.
* C119: `_solve_maxcausalent` warns when `np.mean(error)` is not below the tolerance, without absolute values: when every visit has the same total of features and planning looks further than the demonstrations, it never warns and never converges.
* C120: learners store the caller's `theta` or `Q` itself and fit writes into it: two learners built from one array always have the same estimate, and the caller's array changes.
* C121: `fit` returns the learner's own array, which its next `fit` overwrites.
* C122: `HyptestIRL` asserts `asymmetry > 1` with the message 'Asymmetry must be 1 or greater', so 1 (no asymmetry) is refused.
* C123: in `mcts_iteration` an agent's feature row is set at the start of its move to the state it is about to leave; opponents that solve for their policy plan against that stale row and may run away from an agent standing next to them.
* C126: the number of moves that shrinks the learning rate starts again at 1 in every fit, while the estimate (and the policy learner's decayed rate) is kept, so learning in batches with decay differs from learning at once. A policy learner shown one trajectory of two or more steps at a time raises `IndexError`.
* C127: `MaxCausalEntIRL` weighs trajectories by their position in the list: two trajectories of different lengths give different weights in the two orders.
* C128: a hexagonal MDP remembers the coordinates of its latest plot only; after `plot_state_values(..., hide_idx=...)` arrows, numbers and markers of hidden states go to the origin, also when they are drawn into an earlier, complete picture.
* C129: an agent placed by a negative position can act, but `Environment.plot` raises `ValueError`.
* C130: by default all features from the tenth on have the same colour.
* C131: `TDPolicyIRL` cannot be used: it reads `mdp.n_actions` and then `mdp[n]`, so a list of MDPs raises `AttributeError` and one MDP `TypeError` as soon as there is a trajectory.
* C133: `get_agent_pi` reports the actions drawn by the last fit or step; the next step draws again (agents.py:169), so the reported action is not the one taken when several are best or the rule is random. After `reset` the report is `None` until the next step, although `fit_complete` is still true.
* C134: soft value iteration computes `valid_actions` and does not use it (dynamic_programming.py:122-124). Impossible actions enter the sum of exponentials with value 0. In a corridor of four states where each step costs 2, the end is valued above the middle after any number of passes, although less reward plus entropy can be gathered from there.
* C135: subtracting 100 from every reward turns the plan around in a corridor of four states with rewards 1, 0, 0, 10: impossible actions count as worth 0 (dynamic_programming.py:116-118), so ends of the corridor look better than anything else once rewards are negative.
* C137: a feature that no state has makes max-causal-entropy IRL stop earlier and learn other weights for the remaining features, because convergence is judged by the mean error over all features (irl.py:221-227).
* C138: row i of the loaded features belongs to the i-th requested name; repeated names are accepted and give several rows, and names beyond the number of features in the dictionary fail with IndexError only if they have cells (env_io.py:105-108).
* C139: a world with a single action is accepted by a policy learner with any number of preferences; one step in it pulls all preferences towards 1 because NumPy broadcasts the reward of length one (policy_learning.py:104-123). Such a world is made by assigning `mdp.sas`.
* C142: soft value iteration takes `np.exp(action_values)` without taking the largest value off first (dynamic_programming.py:124). With rewards of 710 the exponential is `inf`, and the check `np.isinf(values)` raises a bare `ValueError` (106-108), although the values to be found are small numbers. Softmax action selection does take the largest value off (action_selection.py:14) and is not affected.
* C145: a hunter that is as fast as its prey need not catch it, although it plans anew before each move: its plan takes the prey to stay where it is.
* C146: `Environment.step_proba` documents its argument `position` as a state number, but passes it on to a method that needs an array of probabilities; a number raises `TypeError`.
* C147: `env.fit(name)` without `n_moves` always raises for an agent that plans by tree search, although `n_moves` is optional; the plan the agent had is lost.
* C149: `rand_choice_nb` (mcts.py:14-23) does not divide its cumulative sums by the last of them, as NumPy does. With the weights 3, 2, 1 the last cumulative sum is 1 - 2^-53 in double precision, so for the largest draw of `np.random.random()` the index is the length of the array (in compiled code an unchecked read past its end). `C149_refuted`.
* C151: `get_pi` and `get_pi_p` write -1 / NaN into the very array the subclass returned, before checking its type. A selector with a fixed policy loses it: after a tree search (which has estimates for one state only) all other entries are -1 for good. Replies that are not arrays raise `TypeError` and arrays with a wrong number of rows `IndexError` from that write; the assertions written for these cases are never reached. `C151_refuted`, `C151_errors`.
* C152: `reset` keeps the algorithms' results: an agent not planned for in the new episode steps by the plan of the old one instead of raising `AttributeError`. `C152_stale_witness`.
* C153: with `mdp.features` replaced before the environment is built, the order in which agents are listed decides who `_check_agents_caught` takes for caught: an agent alone on its state can "catch" itself. `C153_rows_witness`.
* C154: building an environment from the present features and positions brings back an agent that had been eaten: its row is set again and it can be consumed a second time. `C154_sight_witness`.
* C156: with the default settings (learning rate 0.3, decay 0.5) the first two observed moves of a fit decide for ever: `C156_refuted`. With any positive decay the learner never becomes sure of anything: `C156_never_sure`.
* C158: with one feature per state MaxCausalEntIRL can never match the observed counts: expected counts add up to VI_max_iter, observed ones to at most 1. Without decay the weights drift to minus infinity; with the default decay, which shrinks factorially and persists over calls of fit, no number of iterations or calls moves a weight by more than 3 * learning_rate * VI_max_iter times the largest feature value.
* C159: HyptestIRL accepts any positive learning rate; once learning_rate * asymmetry exceeds 1 (2^decay at the second move) an update jumps past the evidence, and weights below zero come out of evidence that is above zero throughout.
* C160: HyptestIRL accepts any decay, but with a decay of 2 or more its rates add up to a finite sum, so a fixed share of the distance to the evidence is never covered however many moves are shown. With the defaults (0.3, decay 1, asymmetry 2) the distance may shrink as slowly as N^-0.15: halving it can take about a hundred times as many moves.
* C161: two agents of the same name are accepted by Environment, but only the last one given exists afterwards (C161_same_name_witness).
* C162: a tree search two moves ahead may never find the best plan, however many iterations it gets. Corridor of five states worth -3, 6, 0, 0, 5, agent in the middle, constant 1 (the default): the best plan is left and back (6), but if the first iteration goes right twice and the second goes left twice, the search stays with the right side (5) for ever, because V and N belong to states and not to nodes of a tree (C162_refuted).
* C165: walls do not stop an agent that has no possible move: `get_next_state` answers 0 for it, so the same trapped agent stays put on a one-cell map and jumps onto a wall when that cell is part of a bigger map.
* C169: the documentation of `theta` (irl.py:101, 312) says `None` means 1 for each feature; the code starts from 0.
* C170: the constant `1e-200` added inside the logarithm of soft value iteration keeps soft values above about -461, whatever an action costs.
* C172: a first guess made of integers (e.g. `theta=np.array([1, 0])`) is accepted by all three learners and makes every later `fit` raise `TypeError` (`+=` of floats to an integer array: irl.py:215, 218, 465, 469; policy_learning.py:119, 123); `MaxCausalEntIRL` has by then put zeros for the ignored features into the caller's array.
* C173: when an `Agent` with `MCTS` is added to a second environment, its algorithm refers to the second one (base.py:20-23). `fit` in the first environment then uses the first one's MDP and reads action values off at the agent's position there, but searches from the agent's position, and with the opponents, of the second (mcts.py:906-931). If the two positions are far apart all action values are 0 and the agent moves at random.
* C174: `mcts_iteration` compares positions at the start of each move only (mcts.py:363-378). Whatever an opponent does with the last planned move has no effect, so with a plan of one turn an agent does not see that it will be caught. `check_agent_overlap` does not look at `agents_active` (mcts.py:221-238), so an agent that was eaten still catches whoever comes by.
* C175: `walls=np.array([True, False, ...])` passes the check of the setter (mdp.py:130), but then `reset_walls` raises `TypeError` (`self.walls *= 0` on booleans, mdp.py:421) and the walls stay.
* C176: an MDP made with features such as `np.array([[0, 1, 0, 0]])` cannot be planned in directly: `np.dot` of floats and integers does not compile (dynamic_programming.py:164), nor with an assigned `sas` of integers (dynamic_programming.py:44). `MaxCausalEntIRL` and `HyptestIRL` fail alike. Within an environment that has agents it works, since adding an agent's row turns all features into floats (mdp.py:157).
* C179: `HyptestIRL` with weights of any length is accepted in a world with a single feature: `R - self.theta` repeats the one estimate (irl.py:455), and `fit` returns as many weights as it was given. In all other worlds weights of a wrong length are refused.
* C181: `get_opponent_next_state` takes any `action_selection`, also an unknown one, for `max` when the temperature is 0 (mcts.py:98).

## 5. Not modelled

Matplotlib's rendering (the calls made to it are in `Model/Drawing.lean`), progress bars, printing and warnings (except that of C119), JSON text encoding, wall-clock
timing, `numba` compilation, NumPy's random bit streams, floating-point rounding. The exceptions are
the exponentials of soft value iteration and softmax, which overflow in `Model/Overflow.lean` (C142), the choices by softmax of the selector and `rand_choice_nb`, rounded in
`Model/RoundedChoice.lean` (C149; sums from left to right, which for eight and more numbers is not NumPy's order), and value iteration:
`Model/Rounding.lean` rounds the result of every operation (sums are taken state by state, the order NumPy's dot product
uses is not modelled; overflow and NaN are not either), and C124 bounds what that does to the results;
`Model/SoftRounding.lean` does the same for `soft=True`, where exponential and logarithm may be any functions of a given accuracy (C177).

In `mdp.py`: feature and wall arrays are values in `Model/Mdp.lean` and everything built on it. `Model/ArraySharing.lean`
keeps them in a store with references: `C100_refines` says that each call acts as in the value-level model, `C100_partial` and
`C100_detached_partial` say when nobody else interferes. Transition arrays passed by the caller stay values.
Walls hold numbers, except in `Model/BoolWalls.lean` (C175). Features and transitions hold floats, except in `Model/WholeWorld.lean` (C176);
there tree searches and the successor representation on arrays of integers are left out.
`n_steps` of `step_multi` is `None`, a number or a list.

In `mcts.py`: `solve_all_value_iteration` (unused; it passes eight arguments to `solve_value_iteration`, which takes seven, so every call
of it fails).

In `irl.py`: `demean` (unused) on arrays of integers or with infinite entries, progress bars (the histories `theta_array` and `trajectory_theta` of `HyptestIRL` are in `Model/IRLHistory.lean`); `theta` vectors of a
wrong length are in `Model/ThetaLength.lean` (C179) only. `theta` vectors of integers are in `Model/WholeStart.lean` (C172); everywhere else they hold floats. Learners are values in `Model/IRL.lean` and `Model/PolicyLearning.lean`; `Model/LearnerStore.lean`
keeps their arrays in a store with references: `C120_refines` says that each call acts as in the value-level models,
`C120_partial` when nobody else interferes. Methods are assumed to leave other arrays alone than the one they write their
estimate to, as they do in the code. The warning and `error_history` of `MaxCausalEntIRL` are in `Model/IRLReport.lean`. `zscore_nb` is
modelled over the reals; `HyptestIRL` is otherwise stated for any scoring function.

The checks of constructor arguments with numbers of either sign are in `Model/LearnerArgs.lean` (C122); elsewhere settings are
assumed to have passed them.

In `policy_learning.py`: of `TDPolicyIRL` only what makes every call raise (C131); not the check that `trajectories` is a list.
Initial `Q` arrays of integers are in `Model/WholeStart.lean` (C172); everywhere else they hold floats.

In `mcts.py`: progress bars; the successor representation computed in `_fit` and not used. The algorithm object with its
counters and its kept cache is modelled on its own (`Model/MCTSObject.lean`, C94-C96); `Env.fit` leaves the algorithm's state
alone when the fit fails; the fit of a tree searcher, which forgets first, is `Env.fitSearch` (`Model/SearchAgent.lean`), and C147
shows that it leaves behind nothing but what histories with `setAlgorithm` (an agent's algorithm is replaced, reset, or fitted
by hand) leave behind, over which all claims about histories range. `step_multi` with `refit=True` for a tree
searcher, and games made of such calls, are in `Model/SearchGame.lean` (C148). A tree searcher that was added to another environment since is in
`Model/SharedSearch.lean` (C173).
Numbers of draws are not counted: every decision has its own outcome of the generator as an argument.
