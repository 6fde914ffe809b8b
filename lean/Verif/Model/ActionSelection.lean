import Verif.Model.Py
import Mathlib.Order.WithBot
import Mathlib.Analysis.SpecialFunctions.Exp

/-! # Model of `/repo/maMDP/algorithms/action_selection.py`

Q tables have entries in `Ext K` (NaN, -inf, finite, +inf). `get_pi` and `get_pi_p` first replace
NaN by -inf; the cleaned entries live in `WithBot (WithTop K)` (-inf is the bottom, +inf the top),
whose order and equality are those of non-NaN floats. -/

namespace MaMDP

variable {K : Type} [Field K] [LinearOrder K] [IsStrictOrderedRing K]

/-- `q_values[np.isnan(q_values)] = -np.inf` (action_selection.py:67-68, 104-105). -/
def Ext.clean : Ext K → WithBot (WithTop K)
  | .nan => ⊥
  | .ninf => ⊥
  | .fin x => ((x : WithTop K) : WithBot (WithTop K))
  | .pinf => ((⊤ : WithTop K) : WithBot (WithTop K))

/-- `check_q_values` (action_selection.py:17-23); the type and rank checks are discharged by the
Lean type. -/
def checkQValues (q : Arr2 (Ext K)) : Py Unit :=
  if ∀ s, s < q.d0 → ∀ a, a < q.d1 → q.get s a = .nan then .error .valueError else .ok ()

/-- `np.isnan(np.nanmean(q_values, axis=1))[s]` (action_selection.py:65, 102): the mean over the
non-NaN entries of the row is NaN when there are none, or when both infinities occur. -/
def nanState (q : Arr2 (Ext K)) (s : Nat) : Bool :=
  decide ((∀ a, a < q.d1 → q.get s a = .nan) ∨
    ((∃ a, a < q.d1 ∧ q.get s a = .pinf) ∧ (∃ a, a < q.d1 ∧ q.get s a = .ninf)))

/-- `np.where(x == x.max())[0]` (action_selection.py:40, 193). -/
def maxActions {α : Type} [LinearOrder α] (n : Nat) (x : Nat → α) : List Nat :=
  npWhere n fun a => decide (x a = npMax n x)

/-- `random_max` (action_selection.py:25-40); `draw` is the generator's outcome. -/
def randomMax {α : Type} [LinearOrder α] (n : Nat) (x : Nat → α) (draw : Nat) : Py Nat :=
  rngChoice (maxActions n x) draw

/-- `for s in range(n): out[s] = f(s)` where `f` may raise. See action_selection.py:192-194, 213-216, 259-260. -/
def forStates {α : Type} (n : Nat) (f : Nat → Py α) (dflt : α) : Py (Nat → α) :=
  (List.range n).foldlM (fun g s => do let x ← f s; pure (upd1 g s x)) fun _ => dflt

/-- What distinguishes action selectors: `_get_pi` and `_get_pi_p` on the cleaned table. `δ` is the
type of the generator's outcomes for one state. See action_selection.py:120-132. -/
structure Selector (K δ : Type) where
  getPi : (n m : Nat) → (Nat → Nat → WithBot (WithTop K)) → (Nat → δ) → Py (Nat → Nat)
  getPiP : (n m : Nat) → (Nat → Nat → WithBot (WithTop K)) → Py (Nat → Nat → Ext K)

/-- `ActionSelector.get_pi` (action_selection.py:48-82). -/
def Selector.pi {δ : Type} (sel : Selector K δ) (q : Arr2 (Ext K)) (draws : Nat → δ) :
    Py (Arr1 Int) :=
  match checkQValues q with
  | .error e => .error e
  | .ok () => match sel.getPi q.d0 q.d1 (fun s a => (q.get s a).clean) draws with
    | .error e => .error e
    | .ok p => .ok ⟨q.d0, fun s => if nanState q s then -1 else p s⟩

/-- `ActionSelector.get_pi_p` (action_selection.py:85-118). -/
def Selector.piP {δ : Type} (sel : Selector K δ) (q : Arr2 (Ext K)) : Py (Arr2 (Ext K)) :=
  match checkQValues q with
  | .error e => .error e
  | .ok () => match sel.getPiP q.d0 q.d1 (fun s a => (q.get s a).clean) with
    | .error e => .error e
    | .ok p => .ok ⟨q.d0, q.d1, fun s a => if nanState q s then .nan else p s a⟩

/-- `MaxActionSelector` (action_selection.py:156-220). -/
def maxSelector : Selector K Nat where
  getPiP n m q := .ok ((List.range n).foldl (fun p s =>
    let best := maxActions m (q s)
    fun s' a => if s' = s ∧ a ∈ best then .fin (1 / (best.length : K)) else p s' a)
    fun _ _ => .fin 0)
  getPi n m q draws := forStates n (fun s => randomMax m (q s) (draws s)) 0

/-- `np.exp((q - m) / temperature)` for a cleaned entry `q` and finite `m`: `exp(-inf) = 0`. The
case `q = +inf` does not occur when `m` is the maximum of the row. See action_selection.py:14. -/
noncomputable def expShift (m T : ℝ) : WithBot (WithTop ℝ) → ℝ
  | some (some x) => Real.exp ((x - m) / T)
  | _ => 0

/-- `softmax` (action_selection.py:6-15) of a row of length `n`. If the maximum is +inf,
`inf - inf` makes the sum, hence every entry, NaN. -/
noncomputable def softmax (n : Nat) (x : Nat → WithBot (WithTop ℝ)) (T : ℝ) : Nat → Ext ℝ :=
  if ∀ a, a < n → x a = ⊥ then fun _ => .fin (1 / (n : ℝ))
  else match npMax n x with
    | some (some m) => fun a =>
        .fin (expShift m T (x a) / npSum n fun b => expShift m T (x b))
    | _ => fun _ => .nan

/-- `np.searchsorted(cdf, u, side='right')` for a non-decreasing `cdf` of length `n`: the first
index with `u < cdf[i]`, or `n`. See mcts.py:23. -/
def searchRight (n : Nat) (cdf : Nat → K) (u : K) : Nat :=
  (List.range n).findIdx fun i => decide (u < cdf i)

/-- `np.cumsum(p)`. See mcts.py:23. -/
def npCumsum (p : Nat → K) (i : Nat) : K := npSum (i + 1) p

/-- `rng.choice(range(n), p=p)` in NumPy: the cumulative sum, normalised by its last entry, is
searched for the uniform draw `u`. See action_selection.py:289. -/
def weightedChoice (n : Nat) (p : Nat → K) (u : K) : Nat :=
  searchRight n (fun i => npCumsum p i / npSum n p) u

/-- `rand_choice_nb` (mcts.py:14-23) with `arr = range(n)`: the probabilities are normalised, their
cumulative sum is searched for the uniform draw `u`. Index `n` would raise `IndexError`. -/
def randChoiceNb (n : Nat) (p : Nat → K) (u : K) : Py Nat :=
  let i := searchRight n (npCumsum fun a => p a / npSum n p) u
  if i < n then .ok i else .error .indexError

/-- `np.isfinite`. See action_selection.py:289. -/
def Ext.isFin : Ext K → Bool
  | .fin _ => true
  | _ => false

/-- The finite probabilities of a row, `none` if one is NaN or infinite. See action_selection.py:289. -/
def finRow (n : Nat) (p : Nat → Ext K) : Option (Nat → K) :=
  if ∀ a, a < n → (p a).isFin = true then
    some fun a => match p a with
      | .fin x => x
      | _ => 0
  else none

/-- One iteration of the loop of `SoftmaxActionSelector._get_pi` (action_selection.py:280-293): a
row that is all 0 is replaced by the uniform one, anything else is normalised; NaN probabilities
make `rng.choice` raise `ValueError`. -/
noncomputable def softmaxChoice (m : Nat) (p : Nat → Ext ℝ) (u : ℝ) : Py Nat :=
  match finRow m p with
  | none => .error .valueError
  | some f =>
    let ps := if ∀ a, a < m → f a = 0 then fun _ => 1 / (m : ℝ)
      else fun a => f a / npSum m f
    .ok (weightedChoice m ps u)

/-- `SoftmaxActionSelector` (action_selection.py:223-295) with temperature `T`; each state's draw
is a real in [0, 1). -/
noncomputable def softmaxSelector (T : ℝ) : Selector ℝ ℝ where
  getPiP _ m q := .ok fun s => softmax m (q s) T
  getPi n m q draws := forStates n (fun s => softmaxChoice m (softmax m (q s) T) (draws s)) 0

/-- `SoftmaxActionSelector.__init__` (action_selection.py:225-242): temperature check. -/
noncomputable def mkSoftmax (T : ℝ) : Py (Selector ℝ ℝ) :=
  if T ≤ 0 then .error .valueError else .ok (softmaxSelector T)

end MaMDP
