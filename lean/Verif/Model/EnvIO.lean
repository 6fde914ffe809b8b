import Verif.Model.Environment
import Mathlib.Algebra.Order.Floor.Ring

/-! # Model of `/repo/maMDP/env_io.py`

Dictionaries are association lists in insertion order. JSON text is not modelled: `json.loads(json.dumps(d))` is taken
to give `d` back. -/

namespace MaMDP

variable {K : Type} [Field K] [LinearOrder K] [IsStrictOrderedRing K] {δ κ : Type}

/-- What an agent object keeps about how it was built (agents.py:46-51): `name` of its algorithm (`none`: the class has
no such attribute), of its action selector, and the keyword arguments. -/
structure AgentMeta (κ : Type) where
  algorithm : Option String
  algorithmKwargs : κ
  selector : Option String
  selectorKwargs : κ

/-- The `format` argument (env_io.py:13). -/
inductive SaveFormat
  | index
  | coords

/-- A list of cells as saved: state numbers, or nested lists of coordinates. `.squeeze()` (env_io.py:39) turns a list
of one pair into that pair. -/
inductive Cells
  | states (l : List Int)
  | pairs (l : List (Int × Int))
  | pair (x y : Int)

/-- The numbers mentioned, which is what NumPy indexes with when it gets the nested list. See env_io.py:108, 111. -/
def Cells.numbers : Cells → List Int
  | .states l => l
  | .pairs l => l.flatMap fun p => [p.1, p.2]
  | .pair x y => [x, y]

/-- A saved position (env_io.py:54-57). -/
inductive SavedPos
  | index (p : Int)
  | coords (x y : Int)

/-- `.T.squeeze().astype(int).tolist()` of coordinates (env_io.py:39, 44). -/
def Cells.squeeze : List (Nat × Nat) → Cells
  | [p] => .pair p.1 p.2
  | l => .pairs (l.map fun p => ((p.1 : Int), (p.2 : Int)))

/-- The dictionary of one agent (env_io.py:51-68). -/
structure AgentDict (κ : Type) where
  name : String
  position : SavedPos
  nMoves : Nat
  reward : List Int
  consumes : List Int
  algorithm : String
  algorithmKwargs : κ
  selector : String
  selectorKwargs : κ

/-- The dictionary of an environment (env_io.py:29-68). -/
structure EnvDict (κ : Type) where
  size : Nat × Nat
  features : List (String × Cells)
  walls : Cells
  type : String
  selfTransitions : Bool
  agents : List (AgentDict κ)

/-- `d[key] = value`. See env_io.py:37, 139. -/
def dictSet {α : Type} (d : List (String × α)) (key : String) (value : α) : List (String × α) :=
  if key ∈ d.map Prod.fst then d.map fun p => if p.1 = key then (key, value) else p else d ++ [(key, value)]

/-- `d[key]`. See env_io.py:107. -/
def dictGet {α : Type} (d : List (String × α)) (key : String) : Py α :=
  match d.find? fun p => p.1 = key with
  | none => .error .keyError
  | some p => .ok p.2

/-- The cells where an array of length `n` is not zero, in the given format (env_io.py:36-44). -/
def saveCells (fmt : SaveFormat) (W H n : Nat) (x : Nat → K) : Py Cells :=
  let l := npWhere n fun s => decide (x s ≠ 0)
  match fmt with
  | .index => .ok (.states (l.map fun (s : Nat) => (s : Int)))
  | .coords => match l.mapM (m := Except PyErr) fun (s : Nat) => unravelIndex W H s with
    | .error e => .error e
    | .ok l => .ok (Cells.squeeze l)

/-- The loop over features (env_io.py:34-39) from feature `f` on. -/
def saveFeatures (fmt : SaveFormat) (W H : Nat) (m : Mdp K) :
    Nat → List String → List (String × Cells) → Py (List (String × Cells))
  | _, [], d => .ok d
  | f, n :: l, d => match saveCells fmt W H m.features.d1 (m.features.get f) with
    | .error e => .error e
    | .ok c => saveFeatures fmt W H m (f + 1) l (dictSet d n c)

/-- `int(x)`: rounds towards zero. See env_io.py:61. -/
def pyInt [FloorRing K] (x : K) : Int := if 0 ≤ x then ⌊x⌋ else ⌈x⌉

/-- The dictionary of one agent (env_io.py:51-68). -/
def saveAgent [FloorRing K] (fmt : SaveFormat) (W H : Nat) (info : String → AgentMeta κ) (a : Agent K δ) :
    Py (AgentDict κ) :=
  let pos : Py SavedPos := match fmt with
    | .index => .ok (.index a.position)
    | .coords => match unravelIndex W H a.position with
      | .error e => .error e
      | .ok p => .ok (.coords p.1 p.2)
  match pos with
  | .error e => .error e
  | .ok p => match (info a.name).algorithm, (info a.name).selector with
    | some alg, some sel => .ok ⟨a.name, p, a.nMoves, (List.range a.reward.d0).map fun k => pyInt (a.reward.get k),
        a.consumes, alg, (info a.name).algorithmKwargs, sel, (info a.name).selectorKwargs⟩
    | _, _ => .error .attributeError

/-- `hex_env_to_dict` (env_io.py:13-70). `info`: how each agent was built; `names = none`: the default `None`, which has
no length. -/
def hexEnvToDict [FloorRing K] (info : String → AgentMeta κ) (e : Env K δ) (names : Option (List String))
    (fmt : SaveFormat) : Py (EnvDict κ) :=
  match names with
  | none => .error .typeError
  | some names =>
    if (e.mdp.nFeatures : Int) - e.agents.length ≠ names.length then .error .attributeError
    else match e.mdp.shape with
      | none => .error .attributeError
      | some (W, H) => match saveFeatures fmt W H e.mdp 0 names [] with
        | .error err => .error err
        | .ok fs => match saveCells fmt W H e.mdp.walls.d0 e.mdp.walls.get with
          | .error err => .error err
          | .ok ws => match e.agents.mapM (m := Except PyErr) (saveAgent fmt W H info) with
            | .error err => .error err
            | .ok as => .ok ⟨(W, H), fs, ws, "hex", e.mdp.selfTransitions, as⟩

/-- The constructors named in a dictionary: `ValueIteration(**kwargs)` and the two selectors.
See env_io.py:124-137. -/
structure Loader (K δ κ : Type) where
  alg : κ → Py (AlgState K)
  sel : String → κ → Py (Selector K δ)

/-- `x[cells] = 1` on an axis of length `n`: the states that are set. See env_io.py:108, 111. -/
def setCells (n : Nat) (c : Cells) : Py (List Nat) :=
  c.numbers.mapM (m := Except PyErr) fun i => match pyIdx n i with
    | none => .error .indexError
    | some s => .ok s

/-- The loop over feature names (env_io.py:105-108) from row `n` on. A row number that is too large is only noticed
when there is a cell to write. -/
def loadFeatures (fs : List (String × Cells)) (nStates : Nat) : Nat → List String → (Nat → Nat → K) →
    Py (Nat → Nat → K)
  | _, [], x => .ok x
  | n, f :: l, x => match dictGet fs f with
    | .error e => .error e
    | .ok c => match setCells nStates c with
      | .error e => .error e
      | .ok states =>
        if states ≠ [] ∧ fs.length ≤ n then .error .indexError
        else loadFeatures fs nStates (n + 1) l fun f s => if f = n ∧ s ∈ states then 1 else x f s

/-- One agent of the dictionary (env_io.py:119-139). -/
def loadAgent (L : Loader K δ κ) (a : AgentDict κ) : Py (AgentSpec K δ) :=
  if a.algorithm ≠ "value_iteration" then .error .notImplementedError
  else if a.selector ≠ "max" ∧ a.selector ≠ "softmax" then .error .notImplementedError
  else match L.alg a.algorithmKwargs with
    | .error e => .error e
    | .ok alg => match L.sel a.selector a.selectorKwargs with
      | .error e => .error e
      | .ok sel => .ok ⟨a.name, a.nMoves, sel, alg, match a.position with
          | .index p => some p
          | .coords _ _ => none,
        .nd [a.reward.length] fun i => ((a.reward.getD (i.getD 0 0) 0 : Int) : K), a.consumes⟩

/-- `hex_environment_from_dict` (env_io.py:97-143). -/
def hexEnvFromDict (L : Loader K δ κ) (d : EnvDict κ) (names : List String) : Py (Env K δ) :=
  if d.type ≠ "hex" then .error .notImplementedError
  else
    let n := d.size.1 * d.size.2
    match loadFeatures d.features n 0 names (fun _ _ => (0 : K)) with
    | .error e => .error e
    | .ok x => match setCells n d.walls with
      | .error e => .error e
      | .ok ws => match Mdp.initGrid .hex d.size.1 d.size.2 d.selfTransitions ⟨d.features.length, n, x⟩
          (some ⟨n, fun s => if s ∈ ws then 1 else 0⟩) with
        | .error e => .error e
        | .ok m => match d.agents.mapM (m := Except PyErr) (loadAgent L) with
          | .error e => .error e
          | .ok specs => (Env.init m specs).2

/-- `hex_env_to_json` (env_io.py:72-94), up to JSON text. -/
def hexEnvToJson [FloorRing K] (info : String → AgentMeta κ) (e : Env K δ) (names : List String) : Py (EnvDict κ) :=
  hexEnvToDict info e (some names) .index

/-- `hex_environment_from_json` (env_io.py:145-148): no feature names are passed on. -/
def hexEnvFromJson (L : Loader K δ κ) (d : EnvDict κ) : Py (Env K δ) := hexEnvFromDict L d []

end MaMDP
