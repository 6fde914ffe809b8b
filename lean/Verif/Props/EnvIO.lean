import Verif.Lemmas.EnvIO
import Mathlib.Data.Rat.Floor

/-! # Saving and loading environments: C78, C79, C88

`m` is a grid MDP in any state its own interface can bring it to, `e0` the environment `Environment(m, specs)`, and
`e0.run ops` the environment after any list of calls, failing ones included. -/

set_option linter.unusedSectionVars false

namespace MaMDP

variable {K : Type} [Field K] [LinearOrder K] [IsStrictOrderedRing K] [FloorRing K] {δ κ : Type}
variable {kind : GridKind} {W H : Nat} {selfT : Bool} {m m' : Mdp K} {specs : List (AgentSpec K δ)} {e0 : Env K δ}
variable {info : String → AgentMeta κ} {L : Loader K δ κ}

theorem described_alg {e : Env K δ} (hd : ∀ a ∈ e.agents, Spec.Described info L a) :
    (∀ a ∈ e.agents, (info a.name).algorithm ≠ none) ∧ ∀ a ∈ e.agents, (info a.name).selector ≠ none := by
  refine ⟨fun a ha => by rw [(hd a ha).1]; simp, fun a ha => ?_⟩
  obtain ⟨-, -, s, -, h, -⟩ := hd a ha
  rw [h]; simp

/-! ## C78 dictionaries -/

/-- Saving and loading gives the same grid, walls and transitions, the same agents, and every feature in the same
places. -/
theorem C78_roundtrip (hm : Mdp.GridReach .hex W H selfT m) (hinit : Env.init m specs = (m', .ok e0))
    (hag : (specs.map (·.name)).Nodup) (ops : List (EnvOp K δ))
    (hd : ∀ a ∈ (e0.run ops).agents, Spec.Described info L a)
    (names : List String) (hn : names.Nodup) (hl : names.length = m.features.d0 - m.nAgents) :
    ∃ d e', hexEnvToDict info (e0.run ops) (some names) .index = .ok d ∧ hexEnvFromDict L d names = .ok e' ∧
      Spec.SameGrid (e0.run ops) e' ∧ Spec.SameAgents (e0.run ops) e' ∧
      e'.mdp.features.d0 = (e0.run ops).mdp.features.d0 ∧
      ∀ f s, f < names.length → s < W * H →
        e'.mdp.features.get f s = if (e0.run ops).mdp.features.get f s ≠ 0 then 1 else 0 := by
  obtain ⟨hs, -⟩ := Env.savable hm hinit hag ops
  obtain ⟨h1, h2⟩ := described_alg hd
  obtain ⟨e', h3, h4, h5, h6, h7, h8, -⟩ := restore hs hd (savedRows .index W H (e0.run ops).mdp.features.get 0 names)
    ((savedRows_length _ _ _ _ _ _).trans hl) names _ (loadRows_eq _ _ _ _ names hn)
  refine ⟨_, e', toDict_eq hs info .index names hn hl h1 h2 (by simp), h3, sameGrid hs.ok.reach h4 h6, h5, h7, ?_⟩
  intro f s hf hst
  rw [h8 f s (hl ▸ hf)]
  by_cases hz : (e0.run ops).mdp.features.get f s = 0
  · rw [if_neg (fun h => (mem_support.1 h.2).2 hz), if_neg (not_not.2 hz)]
  · rw [if_pos ⟨hf, mem_support.2 ⟨hst, hz⟩⟩, if_pos hz]

/-- Calls that are refused: no feature names at all (the default), a wrong number of them, another type of grid, and
agents that do not plan by value iteration. -/
theorem C78_errors (e : Env K δ) (fmt : SaveFormat) (names : List String) (d : EnvDict κ) :
    hexEnvToDict info e none fmt = .error .typeError ∧
    ((e.mdp.features.d0 : Int) - e.agents.length ≠ names.length →
      hexEnvToDict info e (some names) fmt = .error .attributeError) ∧
    (d.type ≠ "hex" → hexEnvFromDict L d names = .error .notImplementedError) ∧
    (∀ a : AgentDict κ, a.algorithm ≠ "value_iteration" → loadAgent L a = .error .notImplementedError) := by
  refine ⟨rfl, fun h => ?_, fun h => ?_, fun a h => ?_⟩
  · unfold hexEnvToDict; exact if_pos h
  · unfold hexEnvFromDict; exact if_pos h
  · unfold loadAgent; exact if_pos h

/-- With an algorithm or selector that has no name attribute (`MCTS` has none), saving raises
`AttributeError`. -/
theorem C78_nameless (e : Env K δ) (names : List String)
    (h : ∃ a ∈ e.agents, (info a.name).algorithm = none ∨ (info a.name).selector = none) :
    hexEnvToDict info e (some names) .index = .error .attributeError := by
  have hfs : ∀ (l : List String) W H (f : Nat) (d : List (String × Cells)), ∃ d',
      saveFeatures .index W H e.mdp f l d = .ok d' := by
    intro l W H
    induction l with
    | nil => intro f d; exact ⟨d, rfl⟩
    | cons n l ih => intro f d; exact ih (f + 1) _
  have hag : ∀ (W H : Nat) (l : List (Agent K δ)),
      (∃ a ∈ l, (info a.name).algorithm = none ∨ (info a.name).selector = none) →
      l.mapM (m := Except PyErr) (saveAgent .index W H info) = .error .attributeError := by
    intro W H l
    have herr : ∀ a : Agent K δ, ((info a.name).algorithm = none ∨ (info a.name).selector = none) →
        saveAgent .index W H info a = .error .attributeError := by
      intro a ha
      unfold saveAgent
      rcases h1 : (info a.name).algorithm with _ | x <;> rcases h2 : (info a.name).selector with _ | y <;>
        first | rfl | simp [h1, h2] at ha
    have hok : ∀ a : Agent K δ, ¬ ((info a.name).algorithm = none ∨ (info a.name).selector = none) →
        ∃ r, saveAgent .index W H info a = .ok r := by
      intro a ha
      unfold saveAgent
      rcases h1 : (info a.name).algorithm with _ | x <;> rcases h2 : (info a.name).selector with _ | y <;>
        first | exact ⟨_, rfl⟩ | simp [h1, h2] at ha
    induction l with
    | nil => rintro ⟨a, ha, -⟩; cases ha
    | cons b l ih =>
      rintro ⟨a, ha, hn⟩
      rw [List.mapM_cons]
      by_cases hb : (info b.name).algorithm = none ∨ (info b.name).selector = none
      · rw [herr b hb]; rfl
      · obtain ⟨r, hr⟩ := hok b hb
        rcases List.mem_cons.1 ha with rfl | ha
        · exact absurd hn hb
        · rw [hr, ih ⟨a, ha, hn⟩]; rfl
  unfold hexEnvToDict
  dsimp only
  split_ifs
  · rfl
  · rcases e.mdp.shape with _ | ⟨W, H⟩
    · rfl
    · obtain ⟨d', hd⟩ := hfs names W H 0 []
      dsimp only
      rw [hd]
      dsimp only [saveCells]
      rw [hag W H e.agents h]

/-- A square grid is not refused: it comes back as a hexagonal one, with two more actions. -/
theorem C78_square (hm : Mdp.GridReach .square W H selfT m) (hinit : Env.init m specs = (m', .ok e0))
    (hag : (specs.map (·.name)).Nodup) (ops : List (EnvOp K δ))
    (hd : ∀ a ∈ (e0.run ops).agents, Spec.Described info L a)
    (names : List String) (hn : names.Nodup) (hl : names.length = m.features.d0 - m.nAgents) :
    ∃ d e', hexEnvToDict info (e0.run ops) (some names) .index = .ok d ∧ hexEnvFromDict L d names = .ok e' ∧
      e'.mdp.nActions = (e0.run ops).mdp.nActions + 2 := by
  obtain ⟨hs, -⟩ := Env.savable hm hinit hag ops
  obtain ⟨h1, h2⟩ := described_alg hd
  obtain ⟨e', h3, h4, -⟩ := restore hs hd (savedRows .index W H (e0.run ops).mdp.features.get 0 names)
    ((savedRows_length _ _ _ _ _ _).trans hl) names _ (loadRows_eq _ _ _ _ names hn)
  refine ⟨_, e', toDict_eq hs info .index names hn hl h1 h2 (by simp), h3, ?_⟩
  rw [h4.ok.nActions, hs.ok.reach.ok.nActions]
  simp only [GridKind.nMoves]
  omega

/-! ## C79 JSON -/

/-- Loading from JSON loses every feature: whatever was there, nothing is afterwards. -/
theorem C79_refuted (hm : Mdp.GridReach .hex W H selfT m) (hinit : Env.init m specs = (m', .ok e0))
    (hag : (specs.map (·.name)).Nodup) (ops : List (EnvOp K δ))
    (hd : ∀ a ∈ (e0.run ops).agents, Spec.Described info L a)
    (names : List String) (hn : names.Nodup) (hl : names.length = m.features.d0 - m.nAgents)
    (f s : Nat) (hf : f < names.length) (h : (e0.run ops).mdp.features.get f s ≠ 0) :
    ∃ d e', hexEnvToJson info (e0.run ops) names = .ok d ∧ hexEnvFromJson L d = .ok e' ∧
      e'.mdp.features.get f s = 0 ∧ e'.mdp.features.get f s ≠ (e0.run ops).mdp.features.get f s := by
  obtain ⟨hs, -⟩ := Env.savable hm hinit hag ops
  obtain ⟨h1, h2⟩ := described_alg hd
  obtain ⟨e', h3, -, -, -, -, h8, -⟩ := restore hs hd (savedRows .index W H (e0.run ops).mdp.features.get 0 names)
    ((savedRows_length _ _ _ _ _ _).trans hl) [] _ (loadNone_eq _ _)
  have h0 := h8 f s (hl ▸ hf)
  exact ⟨_, e', toDict_eq hs info .index names hn hl h1 h2 (by simp), h3, h0, by rw [h0]; exact h.symm⟩

/-- Everything else survives, and the number of features. -/
theorem C79_partial (hm : Mdp.GridReach .hex W H selfT m) (hinit : Env.init m specs = (m', .ok e0))
    (hag : (specs.map (·.name)).Nodup) (ops : List (EnvOp K δ))
    (hd : ∀ a ∈ (e0.run ops).agents, Spec.Described info L a)
    (names : List String) (hn : names.Nodup) (hl : names.length = m.features.d0 - m.nAgents) :
    ∃ d e', hexEnvToJson info (e0.run ops) names = .ok d ∧ hexEnvFromJson L d = .ok e' ∧
      Spec.SameGrid (e0.run ops) e' ∧ Spec.SameAgents (e0.run ops) e' ∧
      e'.mdp.features.d0 = (e0.run ops).mdp.features.d0 ∧
      ∀ f s, f < names.length → e'.mdp.features.get f s = 0 := by
  obtain ⟨hs, -⟩ := Env.savable hm hinit hag ops
  obtain ⟨h1, h2⟩ := described_alg hd
  obtain ⟨e', h3, h4, h5, h6, h7, h8, -⟩ := restore hs hd (savedRows .index W H (e0.run ops).mdp.features.get 0 names)
    ((savedRows_length _ _ _ _ _ _).trans hl) [] _ (loadNone_eq _ _)
  exact ⟨_, e', toDict_eq hs info .index names hn hl h1 h2 (by simp), h3, sameGrid hs.ok.reach h4 h6, h5, h7,
    fun f s hf => h8 f s (hl ▸ hf)⟩

/-! ## C88 the coordinate format -/

/-- A dictionary in the coordinate format lists exactly the coordinates of the cells with each feature, of the walls and
of the agents. Missing from the full claim: loading it back (`C88_refuted`). -/
theorem C88_partial (hm : Mdp.GridReach kind W H selfT m) (hinit : Env.init m specs = (m', .ok e0))
    (hag : (specs.map (·.name)).Nodup) (ops : List (EnvOp K δ))
    (hd : ∀ a ∈ (e0.run ops).agents, Spec.Described info L a) (hp : ∀ a ∈ (e0.run ops).agents, 0 ≤ a.position)
    (names : List String) (hn : names.Nodup) (hl : names.length = m.features.d0 - m.nAgents) :
    ∃ d, hexEnvToDict info (e0.run ops) (some names) .coords = .ok d ∧ d.size = (W, H) ∧
      Spec.ListsCells W H d.walls (e0.run ops).mdp.walls.get ∧
      (∀ (f : Nat) (n : String), names[f]? = some n → ∃ c, dictGet d.features n = .ok c ∧
        Spec.ListsCells W H c ((e0.run ops).mdp.features.get f)) ∧
      d.agents.length = (e0.run ops).agents.length ∧
      ∀ (i : Nat) (a : Agent K δ) (a' : AgentDict κ), (e0.run ops).agents[i]? = some a → d.agents[i]? = some a' →
        a'.name = a.name ∧ ∃ x y : Nat, a'.position = .coords x y ∧ x < W ∧ y < H ∧ a.position = (x * H + y : Nat) := by
  obtain ⟨hs, -⟩ := Env.savable hm hinit hag ops
  obtain ⟨h1, h2⟩ := described_alg hd
  refine ⟨_, toDict_eq hs info .coords names hn hl h1 h2 (fun _ => hp), rfl, cellsOf_coords _, ?_, by simp, ?_⟩
  · intro f n hf
    refine ⟨_, savedRows_get .coords W H _ names 0 f n hn hf, ?_⟩
    rw [Nat.zero_add]
    exact cellsOf_coords _
  · intro i a a' ha ha'
    rw [List.getElem?_map, ha] at ha'
    simp only [Option.map_some, Option.some.injEq] at ha'
    subst ha'
    have hmem := List.mem_of_getElem? ha
    have hp' := hp a hmem
    obtain ⟨j, hj, -⟩ := hs.ok.pos a hmem
    have hj := pyIdx_spec.1 hj
    rw [hs.ok.reach.ok.nStates] at hj
    have hlt : a.position.toNat < W * H := by omega
    have hH : 0 < H := by
      rcases Nat.eq_zero_or_pos H with rfl | h
      · simp at hlt
      · exact h
    refine ⟨rfl, a.position.toNat / H, a.position.toNat % H, rfl, (Nat.div_lt_iff_lt_mul hH).2 hlt, Nat.mod_lt _ hH, ?_⟩
    rw [Nat.div_add_mod']
    omega

/-- Such a dictionary cannot be loaded as soon as there is an agent: `TypeError`. -/
theorem C88_refuted (hm : Mdp.GridReach .hex W H selfT m) (hinit : Env.init m specs = (m', .ok e0))
    (hag : (specs.map (·.name)).Nodup) (ops : List (EnvOp K δ)) (hne : specs ≠ [])
    (hd : ∀ a ∈ (e0.run ops).agents, Spec.Described info L a) (hp : ∀ a ∈ (e0.run ops).agents, 0 ≤ a.position)
    (names : List String) (hn : names.Nodup) (hl : names.length = m.features.d0 - m.nAgents) :
    ∃ d, hexEnvToDict info (e0.run ops) (some names) .coords = .ok d ∧
      hexEnvFromDict L d names = .error .typeError := by
  obtain ⟨hs, hlen⟩ := Env.savable hm hinit hag ops
  obtain ⟨h1, h2⟩ := described_alg hd
  refine ⟨_, toDict_eq hs info .coords names hn hl h1 h2 (fun _ => hp), ?_⟩
  obtain ⟨g, -, -, h3, -, -, h6⟩ := fromDict_grid L hs.ok.reach.ok.pos (selfT := selfT) .coords
    (savedRows .coords W H (e0.run ops).mdp.features.get 0 names) (e0.run ops).mdp.walls.get
    ((e0.run ops).agents.map (savedAgent .coords H info)) names _ (loadRows_eq _ _ _ _ names hn)
  rw [h6, loadAgents_eq hd]
  simp only
  cases hE : (e0.run ops).agents with
  | nil => rw [hE] at hlen; exact absurd (List.length_eq_zero_iff.1 hlen.symm) hne
  | cons a l =>
    unfold Env.init
    rw [h3, if_neg (by omega)]
    simp [Env.attachLoop, Env.checkSpec, loadedSpec]

/-- Without agents it is loaded, but the coordinates are taken for state numbers: afterwards a state has a feature
exactly when its number occurred as a coordinate. -/
theorem C88_refuted_features (hm : Mdp.GridReach .hex W H selfT m)
    (hinit : Env.init m ([] : List (AgentSpec K δ)) = (m', .ok e0)) (ops : List (EnvOp K δ))
    (names : List String) (hn : names.Nodup) (hl : names.length = m.features.d0 - m.nAgents) :
    ∃ d e', hexEnvToDict info (e0.run ops) (some names) .coords = .ok d ∧ hexEnvFromDict L d names = .ok e' ∧
      ∀ f s, f < names.length → (e'.mdp.features.get f s ≠ 0 ↔
        ∃ x y, x < W ∧ y < H ∧ (e0.run ops).mdp.features.get f (x * H + y) ≠ 0 ∧ (s = x ∨ s = y)) := by
  obtain ⟨hs, hlen⟩ := Env.savable hm hinit (by simp) ops
  have hE : (e0.run ops).agents = [] := List.length_eq_zero_iff.1 hlen
  have hd : ∀ a ∈ (e0.run ops).agents, Spec.Described info L a := by rw [hE]; simp
  obtain ⟨h1, h2⟩ := described_alg hd
  obtain ⟨g, hg, hf, h3, -, -, h6⟩ := fromDict_grid L hs.ok.reach.ok.pos (selfT := selfT) .coords
    (savedRows .coords W H (e0.run ops).mdp.features.get 0 names) (e0.run ops).mdp.walls.get
    ((e0.run ops).agents.map (savedAgent .coords H info)) names _ (loadRows_eq _ _ _ _ names hn)
  have hH : 0 < H := Nat.pos_of_mul_pos_left hs.ok.reach.ok.pos
  refine ⟨_, ⟨g, [], [], 0⟩, toDict_eq hs info .coords names hn hl h1 h2 (by rw [hE]; simp), ?_, ?_⟩
  · rw [h6, loadAgents_eq hd, hE]
    simp only
    unfold Env.init
    rw [h3, if_neg (by omega)]
    simp [Env.attachLoop]
  · intro f s hfn
    simp only
    rw [hf]
    have key : s ∈ cellNumbers .coords H (support (W * H) ((e0.run ops).mdp.features.get f)) ↔
        ∃ x y, x < W ∧ y < H ∧ (e0.run ops).mdp.features.get f (x * H + y) ≠ 0 ∧ (s = x ∨ s = y) := by
      simp only [cellNumbers, List.mem_flatMap, List.mem_cons, List.not_mem_nil, or_false, mem_support]
      constructor
      · rintro ⟨t, ⟨ht, ht0⟩, hst⟩
        exact ⟨t / H, t % H, (Nat.div_lt_iff_lt_mul hH).2 ht, Nat.mod_lt _ hH, by rw [Nat.div_add_mod']; exact ht0, hst⟩
      · rintro ⟨x, y, hx, hy, h0, hxy⟩
        refine ⟨x * H + y, ⟨?_, h0⟩, ?_⟩
        · calc x * H + y < x * H + H := by omega
            _ = (x + 1) * H := by ring
            _ ≤ W * H := Nat.mul_le_mul_right _ hx
        · rw [show (x * H + y) / H = x by
            rw [Nat.add_comm, Nat.add_mul_div_right _ _ hH, Nat.div_eq_of_lt hy, Nat.zero_add],
            show (x * H + y) % H = y by rw [Nat.add_comm, Nat.add_mul_mod_self_right, Nat.mod_eq_of_lt hy]]
          exact hxy
    rw [← key]
    by_cases h : s ∈ cellNumbers .coords H (support (W * H) ((e0.run ops).mdp.features.get f))
    · simp [hfn, h]
    · simp [h]

/-! ## A concrete environment -/

/-- Two agents on a hexagonal grid of two columns of three cells; the fox consumes feature 0 and the hen. -/
def ioSpecs : List (AgentSpec Rat Nat) :=
  [⟨"fox", 2, maxSelector, .fresh, some 0, .of1 ⟨3, fun i => if i = 0 then -3 / 2 else 2⟩, [0, 2]⟩,
   ⟨"hen", 1, maxSelector, .fresh, some 4, .of1 ⟨3, fun _ => 1⟩, []⟩]

/-- The grid, with one feature at cell (1, 2) and a wall at cell (0, 1). -/
def ioMdp : Py (Mdp Rat) := Mdp.initGrid .hex 2 3 false ⟨1, 6, fun _ s => if s = 5 then 1 else 0⟩
  (some ⟨6, fun s => if s = 1 then 1 else 0⟩)

/-- Agents built with value iteration and the maximising selector. -/
def ioInfo : String → AgentMeta Unit := fun _ => ⟨some "value_iteration", (), some "max", ()⟩

/-- Their constructors. -/
def ioLoader : Loader Rat Nat Unit := ⟨fun _ => .ok .fresh, fun _ _ => .ok maxSelector⟩

/-- Apply a check to the environment after one move of the hen, saved and loaded in the given way. -/
def ioCheck (specs : List (AgentSpec Rat Nat)) (f : Env Rat Nat → Py (Env Rat Nat))
    (p : Env Rat Nat → Env Rat Nat → Bool) (err : PyErr → Bool) : Bool :=
  match ioMdp with
  | .error _ => false
  | .ok m => match (Env.init m specs).2 with
    | .error _ => false
    | .ok e =>
      let e := e.run [.setAgentPosition "hen" 3]
      match f e with
      | .error x => err x
      | .ok e' => p e e'

/-- Save and load. -/
def viaDict (fmt : SaveFormat) (e : Env Rat Nat) : Py (Env Rat Nat) :=
  match hexEnvToDict ioInfo e (some ["grass"]) fmt with
  | .error x => .error x
  | .ok d => hexEnvFromDict ioLoader d ["grass"]

/-- The same through JSON. -/
def viaJson (e : Env Rat Nat) : Py (Env Rat Nat) :=
  match hexEnvToJson ioInfo e ["grass"] with
  | .error x => .error x
  | .ok d => hexEnvFromJson ioLoader d

/-- The hypotheses of the theorems above are met by this environment, with a feature to lose. -/
example : ∃ m m' e0, Mdp.GridReach .hex 2 3 false m ∧ Env.init m ioSpecs = (m', .ok e0) ∧
    (ioSpecs.map (·.name)).Nodup ∧ (∀ a ∈ (e0.run [.setAgentPosition "hen" 3]).agents, Spec.Described ioInfo ioLoader a) ∧
    (∀ a ∈ (e0.run [.setAgentPosition "hen" 3]).agents, 0 ≤ a.position) ∧
    ["grass"].Nodup ∧ ["grass"].length = m.features.d0 - m.nAgents ∧
    (e0.run [.setAgentPosition "hen" 3]).mdp.features.get 0 5 ≠ 0 := by
  have hc : ioCheck ioSpecs (fun e => .ok e) (fun e _ => decide (e.mdp.features.get 0 5 ≠ 0) &&
      e.agents.all fun a => decide (0 ≤ a.position)) (fun _ => false) = true := by decide +kernel
  have hk : (match ioMdp with | .ok m => decide (m.features.d0 - m.nAgents = 1) | .error _ => false) = true := by
    decide +kernel
  unfold ioCheck at hc
  cases hm : ioMdp with
  | error e => rw [hm] at hc; cases hc
  | ok m =>
    rw [hm] at hc hk
    simp only at hc hk
    rcases hi : Env.init m ioSpecs with ⟨m', x | e⟩
    · rw [hi] at hc; cases hc
    · rw [hi] at hc
      simp only [Bool.and_eq_true, decide_eq_true_eq, List.all_eq_true] at hc hk
      have hg : Mdp.GridReach .hex 2 3 false m := .init hm
      refine ⟨m, m', e, hg, hi, by decide, ?_, hc.2, by decide, by simpa using hk.symm, hc.1⟩
      intro a ha
      obtain ⟨-, hok, -, -, -, -, -, -, -, -, -, -, -, -, -, hag⟩ := Env.init_facts hg hi
      obtain ⟨hok', hl⟩ := Env.started hg hi [.setAgentPosition "hen" 3]
      obtain ⟨b, hb, -, -, -, -, -, -, -, hsel, -⟩ := hl.back hok hok' ha
      obtain ⟨i, sp, p, r, h1, -, -, rfl⟩ := hag b hb
      have hsp : sp.selector = maxSelector := by
        have := List.mem_of_getElem? h1
        simp only [ioSpecs, List.mem_cons, List.not_mem_nil, or_false] at this
        rcases this with rfl | rfl <;> rfl
      refine ⟨rfl, ⟨_, rfl⟩, "max", .inl rfl, rfl, ?_⟩
      rw [hsel]
      simp only [ioLoader, Env.newAgent, hsp]

/-- Loaded back: the feature, the wall, the hen's new position; the fox's reward of -1.5 becomes -1. -/
example : ioCheck ioSpecs (viaDict .index) (fun _ e' => decide (e'.mdp.features.get 0 5 = 1) &&
    decide (e'.mdp.walls.get 1 = 1) && (e'.agents.map (·.position) == [0, 3]) &&
    (e'.agents.map (fun a => a.reward.get 0) == [-1, 1])) (fun _ => false) = true := by decide +kernel

/-- Through JSON the feature is gone. -/
example : ioCheck ioSpecs viaJson (fun e e' => decide (e.mdp.features.get 0 5 = 1) &&
    decide (e'.mdp.features.get 0 5 = 0)) (fun _ => false) = true := by decide +kernel

/-- In the coordinate format: `TypeError` with agents. -/
example : ioCheck ioSpecs (viaDict .coords) (fun _ _ => false) (fun x => decide (x = .typeError)) = true := by
  decide +kernel

/-- Without agents the feature at cell (1, 2) reappears at states 1 and 2 instead of state 5. -/
example : ioCheck [] (viaDict .coords) (fun e e' => decide (e.mdp.features.get 0 5 = 1) &&
    decide (e'.mdp.features.get 0 5 = 0) && decide (e'.mdp.features.get 0 1 = 1) &&
    decide (e'.mdp.features.get 0 2 = 1)) (fun _ => false) = true := by decide +kernel

end MaMDP
