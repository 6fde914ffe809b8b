import Verif.Model.IRL
import Verif.Spec.Environment
import Verif.Spec.Policy
import Mathlib.Data.Nat.Factorial.Basic

/-! # Vocabulary for inverse reinforcement learning -/

namespace MaMDP.Spec

variable {K : Type} [Field K] [LinearOrder K] [IsStrictOrderedRing K]

/-- Distribution over states after `k` steps of following `π` from the start distribution `p0`. -/
def stateDist (M : Trans K) (π : Nat → Nat → K) (p0 : Nat → K) : Nat → Nat → K
  | 0 => p0
  | k + 1 => fun t => ∑ s ∈ Finset.range M.nS, stateDist M π p0 k s * ∑ a ∈ Finset.range M.nA, π s a * M.p s a t

/-- How often state `s` occurs in a trajectory (negative numbers count states from the end). -/
def visits (n : Nat) (t : List Int) (s : Nat) : Nat := (t.map (stateOf n)).count s

/-- The state exists. -/
def InRange (n : Nat) (i : Int) : Prop := -(n : Int) ≤ i ∧ i < n

instance (n : Nat) (i : Int) : Decidable (InRange n i) := inferInstanceAs (Decidable (_ ∧ _))

/-- Share of the trajectory spent in state `s`, averaged over trajectories. -/
def averageVisits (n : Nat) (ts : List (List Int)) (s : Nat) : K :=
  (ts.map fun t => (visits n t s : K) / (t.length : K)).sum / (ts.length : K)

/-- What the nested division computes instead: a trajectory's counts are divided by its own length and by
that of every later trajectory. -/
def nestedVisits (n : Nat) : List (List Int) → Nat → K
  | [], _ => 0
  | t :: ts, s => (visits n t s : K) / ((t :: ts).map fun t => (t.length : K)).prod + nestedVisits n ts s

/-- Share of the trajectories that start in state `s`. -/
def startShare (n : Nat) (ts : List (List Int)) (s : Nat) : K :=
  ((ts.map fun t => stateOf n (t.headD 0)).count s : K) / (ts.length : K)

/-- A policy: in every state non-negative probabilities summing to 1. -/
def IsPolicy (M : Trans K) (π : Nat → Nat → K) : Prop :=
  ∀ s, s < M.nS → (∀ a, a < M.nA → 0 ≤ π s a) ∧ ∑ a ∈ Finset.range M.nA, π s a = 1

/-- The policy takes only possible actions where there are any. -/
def TakesPossible (M : Trans K) (π : Nat → Nat → K) : Prop :=
  ∀ s, s < M.nS → Live M s → ∀ a, a < M.nA → π s a ≠ 0 → Possible M s a

/-- The policy spreads its probability evenly over the actions with the best Q values. -/
def EvenOverBest (q : Arr2 (Ext K)) (π : Nat → Nat → K) : Prop :=
  ∀ s, s < q.d0 → (∀ a b, IsBest q s a → IsBest q s b → π s a = π s b) ∧ ∀ a, a < q.d1 → ¬ IsBest q s a → π s a = 0

/-- The policy weighs the actions in proportion to the exponential of their Q values, divided by the
temperature. -/
def Exponential (T : ℝ) (q : Arr2 (Ext ℝ)) (π : Nat → Nat → ℝ) : Prop :=
  ∀ s, s < q.d0 → ∀ a b x y, a < q.d1 → b < q.d1 → q.get s a = .fin x → q.get s b = .fin y →
    π s a = π s b * Real.exp ((x - y) / T)

/-- The reward of each state under the weights `w`: the features of the state, weighted. -/
def weighted (m : Mdp K) (w : Nat → K) (s : Nat) : K := ∑ f ∈ Finset.range m.nFeatures, w f * m.features.get f s

/-- How much of each feature a walk of `n` states meets on average, when it starts in the state where a trajectory
picked at random starts and then follows the policy. -/
def walkFeatures (m : Mdp K) (π : Nat → Nat → K) (ts : List (List Int)) (n f : Nat) : K :=
  ∑ k ∈ Finset.range n, ∑ s ∈ Finset.range m.nStates, stateDist m.trans π (startShare m.nStates ts) k s *
    m.features.get f s

/-- Every action that can be taken leads somewhere with total probability 1, and every state has one. -/
def NoDeadEnds (M : Trans K) : Prop :=
  ∀ s, s < M.nS → Live M s ∧ ∀ a, a < M.nA → Possible M s a → ∑ t ∈ Finset.range M.nS, M.p s a t = 1

/-- The documented step size at the `n`-th iteration (n = 1, 2, ...). -/
def documentedRate (lr : K) (decay n : Nat) : K := lr / (n : K) ^ decay

/-- The step size at the `n`-th iteration of a run begun with learning rate `lr`. -/
def actualRate (lr : K) (decay n : Nat) : K := lr / ((n.factorial : K) ^ decay * (n : K) ^ decay)

/-- Ascent on the difference between observed and expected feature counts, with step size `rate (i + 1)` in
iteration `i`, ignored features held at 0. -/
def ascend (ignored : Nat → Prop) [DecidablePred ignored] (rate : Nat → K) (observed : Nat → K)
    (expected : (Nat → K) → Nat → K) (start : Nat → K) : Nat → Nat → K
  | 0 => fun f => if ignored f then 0 else start f
  | i + 1 => fun f => if ignored f then 0 else
      let w := ascend ignored rate observed expected start i
      w f + rate (i + 1) * (observed f - expected w f)

/-- A list of feature numbers names feature `f` (of `n`). -/
def Names (n : Nat) (l : List Int) (f : Nat) : Prop := ∃ i ∈ l, InRange n i ∧ stateOf n i = f

instance (n : Nat) (l : List Int) (f : Nat) : Decidable (Names n l f) := inferInstanceAs (Decidable (∃ i ∈ l, _))

/-- Whether `ignore_features` names existing features in a form NumPy accepts. -/
def ValidIgnore (n : Nat) : Ignore → Prop
  | .tuple [] => True
  | .tuple [i] => InRange n i
  | .tuple _ => False
  | .list l => ∀ i ∈ l, InRange n i

/-- The features an `ignore_features` argument switches off: the empty tuple switches off all of them. -/
def Ignored (n : Nat) : Ignore → Nat → Prop
  | .tuple [] => fun _ => True
  | .tuple l => Names n l
  | .list l => Names n l

instance (n : Nat) : (ign : Ignore) → (f : Nat) → Decidable (Ignored n ign f)
  | .tuple [], _ => isTrue trivial
  | .tuple (_ :: _), _ => inferInstanceAs (Decidable (Names _ _ _))
  | .list _, _ => inferInstanceAs (Decidable (Names _ _ _))

/-- Total of feature `f` over the states of a trajectory after its first. -/
def laterTotal (m : Mdp K) (t : List Int) (f : Nat) : K :=
  (t.tail.map fun i => m.features.get f (stateOf m.features.d1 i)).sum

/-- Learning-rate rule of hypothesis-testing IRL at the `n`-th move: without decay the learning rate, otherwise it is
multiplied by the asymmetry for evidence weaker than the estimate, divided by it for other evidence, and decays. -/
def htRate (set : HtSettings K) (n : Nat) (seen estimate : K) : K :=
  if set.decay = 0 then set.lr
  else (if |seen| < |estimate| then set.lr * set.asymmetry else set.lr / set.asymmetry) / (n : K) ^ set.decay

/-- Estimates after a list of observed weights, the first being the `n`-th move. -/
def htEstimate (set : HtSettings K) : Nat → K → List K → K
  | _, w, [] => w
  | n, w, x :: l => htEstimate set (n + 1) (w + htRate set n x w * (x - w)) l

/-- Consecutive pairs of a trajectory. -/
def moves : List Int → List (Int × Int)
  | s :: t :: l => (s, t) :: moves (t :: l)
  | _ => []

/-- `a` is the first action that can take state `s` to state `t`. -/
def FirstAction (M : Trans K) (s t a : Nat) : Prop :=
  a < M.nA ∧ M.p s a t ≠ 0 ∧ ∀ b, b < a → M.p s b t = 0

/-- Some action takes the first state of the pair to the second; both exist. -/
def Adjacent (M : Trans K) (p : Int × Int) : Prop :=
  InRange M.nS p.1 ∧ InRange M.nS p.2 ∧ ∃ a, a < M.nA ∧ M.p (stateOf M.nS p.1) a (stateOf M.nS p.2) ≠ 0

end MaMDP.Spec
