import Verif.Model.World

/-! # Vocabulary for environments that share objects -/

namespace MaMDP.Spec

variable {K : Type} [Field K] [LinearOrder K] [IsStrictOrderedRing K] {δ : Type}

/-- A step that keeps to objects no other environment has: calls on environments are free, a new environment
gets an MDP and agents of its own, and MDPs are called directly only while no environment has them. -/
def CarefulStep (w : World K δ) : WorldOp K δ → Prop
  | .env _ _ => True
  | .newEnv m specs =>
    (∀ o ∈ w.envs, o.mdp ≠ m ∧ ∀ p ∈ specs, p.2 ∉ o.algs) ∧
      (specs.map (·.2)).Nodup ∧ (specs.map (·.1.name)).Nodup
  | .onMdp m _ => ∀ o ∈ w.envs, o.mdp ≠ m

/-- A program all of whose steps are careful at the time they are taken. -/
def CarefulSteps (w : World K δ) : List (WorldOp K δ) → Prop
  | [] => True
  | op :: ops => CarefulStep w op ∧ CarefulSteps (w.apply op) ops

/-- Every environment of the program is built with distinct agents under distinct names. Nothing is said about
sharing between environments. -/
def DistinctAgents (ops : List (WorldOp K δ)) : Prop :=
  ∀ m specs, .newEnv m specs ∈ ops → (specs.map (·.2)).Nodup ∧ (specs.map (·.1.name)).Nodup

/-- An environment in which something else was written into the algorithm object of one agent. -/
def withAlg (e : Env K δ) (n : String) (st : AlgState K) : Env K δ :=
  { e with agents := e.agents.map fun a => if a.name = n then { a with alg := st } else a }

/-- The calls made on environment number `j`. -/
def opsOn (j : Nat) : List (WorldOp K δ) → List (EnvOp K δ)
  | [] => []
  | .env i op :: ops => if i = j then op :: opsOn j ops else opsOn j ops
  | _ :: ops => opsOn j ops

/-- A program before any environment was built. -/
def noEnvs (mdps : Nat → Mdp K) (algs : Nat → AlgState K) : World K δ := ⟨mdps, algs, []⟩

end MaMDP.Spec
