import Verif.Model.WholeWorld
import Verif.Props.Algorithm
import Verif.Model.Environment

/-! # C176: features may be given as whole numbers -/

set_option linter.unusedSectionVars false

namespace MaMDP

variable {K : Type} [Field K] [LinearOrder K] [IsStrictOrderedRing K]

/-- The types of the arrays have no influence on their contents. -/
theorem C176_contents (p : Mdp K × Whole) (ops : List (MdpOp K × Bool)) : (Mdp.runWhole p ops).1 = p.1.run (ops.map Prod.fst) := by
  induction ops generalizing p with
  | nil => rfl
  | cons op ops ih => exact ih _

/-- **C176 is false of the code**: on a grid made with features that are integers, after any operations other than assigning features or
transitions and adding agents, `ValueIteration.fit` raises for every reward function, whatever the settings, and leaves the planner as it
was, while with the same features as floats it succeeds. -/
theorem C176_refuted (kind : GridKind) (W H : Nat) (selfT : Bool) (f : Arr2 K) (w : Option (Arr1 K)) (m : Mdp K)
    (hm : Mdp.initGrid kind W H selfT f w = .ok m) (ops : List (MdpOp K × Bool))
    (hops : ∀ op ∈ ops, (∀ f', op.1 ≠ .setFeatures f') ∧ (∀ i, op.1 ≠ .addAgentFeature i) ∧ ∀ x, op.1 ≠ .setSas x)
    (p : Mdp K × Whole) (hp : p = Mdp.runWhole (m, ⟨true, false⟩) ops) (maxIter : Nat) (hk : 0 < maxIter) (γ tol : K) (h0 : 0 < γ)
    (h1 : γ < 1) (reward : List Nat → K) (st : AlgState K) :
    p.1.fitVIOf p.2 maxIter γ tol (.nd [p.1.features.d0] reward) st = (st, .error .typeError) ∧
    (p.1.fitVIOf ⟨false, false⟩ maxIter γ tol (.nd [p.1.features.d0] reward) st).2 = .ok () := by
  have key : ∀ (ops : List (MdpOp K × Bool)) (q : Mdp K × Whole), Mdp.GridReach kind W H selfT q.1 → q.2.features = true →
      (∀ op ∈ ops, (∀ f', op.1 ≠ .setFeatures f') ∧ (∀ i, op.1 ≠ .addAgentFeature i) ∧ ∀ x, op.1 ≠ .setSas x) →
      (Mdp.runWhole q ops).2.features = true ∧ Mdp.GridReach kind W H selfT (Mdp.runWhole q ops).1 := by
    intro ops
    induction ops with
    | nil => intro q h hf _; exact ⟨hf, h⟩
    | cons op ops ih =>
      intro q h hf hops
      have h0 := hops op List.mem_cons_self
      refine ih (Mdp.applyWhole q op) (h.step _ h0.2.2) ?_ fun op ho => hops op (List.mem_cons_of_mem _ ho)
      obtain ⟨op, g⟩ := op
      unfold Mdp.applyWhole
      match op with
      | .setSas x => exact absurd rfl (h0.2.2 x)
      | .setFeatures f => exact absurd rfl (h0.1 f)
      | .addAgentFeature i => exact absurd rfl (h0.2.1 i)
      | .setWalls w' => dsimp only; rcases (q.1.setWalls w').2 with e | ⟨⟩ <;> exact hf
      | .resetWalls => dsimp only; rcases q.1.resetWalls.2 with e | ⟨⟩ <;> exact hf
      | .addWallXY x y => dsimp only; rcases (q.1.addWallXY x y).2 with e | ⟨⟩ <;> exact hf
      | .updateAgentFeature i p => exact hf
      | .removeAgentFeatures => exact hf
      | .consumeFeatures fs s => exact hf
      | .reset => exact hf
  subst hp
  obtain ⟨hf, hr⟩ := key ops (m, ⟨true, false⟩) (.init hm) rfl hops
  generalize Mdp.runWhole (m, ⟨true, false⟩) ops = p at hf hr ⊢
  refine ⟨?_, (C82_value_iteration kind W H selfT p.1 hr maxIter hk γ tol h0 h1 _ st).2 ⟨reward, rfl⟩⟩
  have e : p.1.nFeatures = p.1.features.d0 := rfl
  simp [Mdp.fitVIOf, algFit, checkReward, solveOf, hf, e]

/-- The same for transitions: once an array of integers has been assigned, and until another one or walls are assigned, `ValueIteration.fit`
raises for every reward function of the right length and leaves the planner as it was. -/
theorem C176_refuted_transitions (m : Mdp K) (w : Whole) (x : Arr3 K) (hx : (m.setSas x).2 = .ok ()) (ops : List (MdpOp K × Bool))
    (hops : ∀ op ∈ ops, (∀ x, op.1 ≠ .setSas x) ∧ (∀ w', op.1 ≠ .setWalls w') ∧ (∀ a b, op.1 ≠ .addWallXY a b) ∧ op.1 ≠ .resetWalls)
    (p : Mdp K × Whole) (hp : p = Mdp.runWhole (m, w) ((.setSas x, true) :: ops)) (maxIter : Nat) (γ tol : K)
    (reward : List Nat → K) (st : AlgState K) :
    p.1.fitVIOf p.2 maxIter γ tol (.nd [p.1.nFeatures] reward) st = (st, .error .typeError) := by
  have key : ∀ (ops : List (MdpOp K × Bool)) (q : Mdp K × Whole), q.2.sas = true →
      (∀ op ∈ ops, (∀ x, op.1 ≠ .setSas x) ∧ (∀ w', op.1 ≠ .setWalls w') ∧ (∀ a b, op.1 ≠ .addWallXY a b) ∧ op.1 ≠ .resetWalls) →
      (Mdp.runWhole q ops).2.sas = true := by
    intro ops
    induction ops with
    | nil => intro q hf _; exact hf
    | cons op ops ih =>
      intro q hf hops
      have h0 := hops op List.mem_cons_self
      refine ih (Mdp.applyWhole q op) ?_ fun op ho => hops op (List.mem_cons_of_mem _ ho)
      obtain ⟨op, g⟩ := op
      unfold Mdp.applyWhole
      match op with
      | .setSas x => exact absurd rfl (h0.1 x)
      | .setWalls w' => exact absurd rfl (h0.2.1 w')
      | .addWallXY x y => exact absurd rfl (h0.2.2.1 x y)
      | .resetWalls => exact absurd rfl h0.2.2.2
      | .setFeatures f => dsimp only; rcases (q.1.setFeatures f).2 with e | ⟨⟩ <;> exact hf
      | .addAgentFeature i => dsimp only; rcases (q.1.addAgentFeature i).2 with e | ⟨⟩ <;> exact hf
      | .updateAgentFeature i p => exact hf
      | .removeAgentFeatures => exact hf
      | .consumeFeatures fs s => exact hf
      | .reset => exact hf
  have hf := key ops (Mdp.applyWhole (m, w) (.setSas x, true)) (by unfold Mdp.applyWhole; dsimp only; rw [hx]) hops
  subst hp
  have e : Mdp.runWhole (m, w) ((.setSas x, true) :: ops) = Mdp.runWhole (Mdp.applyWhole (m, w) (.setSas x, true)) ops := rfl
  rw [e]
  generalize Mdp.runWhole (Mdp.applyWhole (m, w) (.setSas x, true)) ops = p at hf ⊢
  simp [Mdp.fitVIOf, algFit, checkReward, solveOf, hf]

/-- The learners that solve the MDP never return either: max-causal-entropy IRL raises whatever the data; hypothesis-testing IRL
raises as soon as one of its MDPs with a move to look at, and a feature that is not ignored, is such. -/
theorem C176_refuted_learners (w : Whole) (hw : w.features = true ∨ w.sas = true) :
    (∀ (δ : Type) (o : MceIrl K) (m : Mdp K) (ts : List (List Int)) (ign : Ignore)
        (solve : (Nat → K) → Py ((Nat → K) × (Nat → Nat → Ext K))) (sel : Selector K δ) (n : Nat),
      ∃ e, (o.fit m ts ign (mceExpected m (solveOf w solve) sel ts n)).2 = .error e) ∧
    (∀ (o : HtIrl K) (z : List Nat → (Nat → Nat → Ext K) → Nat → Nat → Ext K)
        (data : List (Mdp K × Py (Nat → Nat → Nat → Ext K) × List Int)) (m : Mdp K) (excl : List Int)
        (solve : (Nat → K) → Py ((Nat → K) × (Nat → Nat → Ext K))) (t : List Int) (f : Nat), f < m.nFeatures → (f : Int) ∉ excl →
      2 ≤ t.length → (m, htQ m.nFeatures excl (solveOf w solve), t) ∈ data → ∃ e, (o.fit z data).2 = .error e) := by
  have hs : ∀ {α β : Type} (solve : α → Py β), solveOf w solve = fun _ => .error .typeError := by
    intro α β solve
    rcases hw with h | h <;> simp [solveOf, h]
  constructor
  · intro δ o m ts ign solve sel n
    rw [hs]
    have hexp : mceExpected m (fun _ => .error .typeError) sel ts n = fun _ => .error .typeError := rfl
    rw [hexp]
    have loop : ∀ (set : IrlSettings K) (trueF : Nat → K) (st : IrlState K), 0 < set.maxIter →
        irlLoop set m.nFeatures ign (fun _ => .error .typeError) trueF set.maxIter 0 st = (st, .error .typeError) := by
      intro set trueF st h
      obtain ⟨k, hk⟩ := Nat.exists_eq_succ_of_ne_zero h.ne'
      rw [hk]; rfl
    have hrun : ∀ (o : MceIrl K) (trueF x : Nat → K),
        ∃ e, (MceIrl.fit.run m ign (fun _ => .error .typeError) o trueF x).2 = .error e := by
      intro o trueF x
      unfold MceIrl.fit.run
      rcases zeroAt m.nFeatures x ign with e | x'
      · exact ⟨e, rfl⟩
      · dsimp only
        rcases Nat.eq_zero_or_pos o.set.maxIter with h | h
        · refine ⟨.unboundLocalError, ?_⟩
          rw [h]
          simp [irlLoop]
        · rw [loop o.set trueF _ h]
          exact ⟨_, rfl⟩
    unfold MceIrl.fit
    split
    · exact ⟨_, rfl⟩
    · exact ⟨_, rfl⟩
    · rcases empirical m.nStates ts with e | D
      · exact ⟨e, rfl⟩
      · dsimp only
        rcases zeroAt m.nFeatures (featureCounts m D) ign with e | trueF
        · exact ⟨e, rfl⟩
        · dsimp only
          rcases o.theta with _ | x | _
          · exact hrun _ _ _
          · exact hrun _ _ _
          · dsimp only
            split <;> exact ⟨_, rfl⟩
  · intro o z data m excl solve t f hf hx ht hd
    rw [hs] at hd
    have hQ : htQ m.nFeatures excl (fun _ => (.error .typeError : Py ((Nat → K) × (Nat → Nat → Ext K)))) = .error .typeError := by
      have all : ∀ (l : List Nat) (Q : Nat → Nat → Nat → Ext K), f ∈ l →
          l.foldlM (m := Except PyErr) (fun (Q : Nat → Nat → Nat → Ext K) (f : Nat) =>
            if (f : Int) ∈ excl then .ok Q
            else match (.error .typeError : Py ((Nat → K) × (Nat → Nat → Ext K))) with
              | .error e => .error e
              | .ok (_, q) => .ok fun s a g => if g = f then q s a else Q s a g) Q = .error .typeError := by
        intro l
        induction l with
        | nil => intro Q h; simp at h
        | cons g l ih =>
          intro Q h
          rw [List.foldlM_cons]
          by_cases hg : (g : Int) ∈ excl
          · rw [if_pos hg]
            refine ih Q ?_
            rcases List.mem_cons.1 h with h | h
            · exact absurd (h ▸ hg) hx
            · exact h
          · rw [if_neg hg]; rfl
      exact all (List.range m.nFeatures) _ (List.mem_range.2 hf)
    rw [hQ] at hd
    have hpairs : ∀ (set : HtSettings K) (obj : Bool) (n : Nat) (R : Nat → Ext K),
        ∃ x e, htPairs set obj m.trans z (.error .typeError) t n R = (x, .error e) := by
      intro set obj n R
      match t, ht with
      | a :: b :: l, _ =>
        unfold htPairs
        split
        · split <;> exact ⟨_, _, rfl⟩
        · exact ⟨_, _, rfl⟩
    have hloop : ∀ (set : HtSettings K) (obj : Bool) (n : Nat) (R : Nat → Ext K),
        ∃ x e, htLoop set obj z data n R = (x, .error e) := by
      intro set obj
      induction data with
      | nil => simp at hd
      | cons d l ih =>
        intro n R
        obtain ⟨m', Q, t'⟩ := d
        unfold htLoop
        rcases List.mem_cons.1 hd with h | h
        · cases h
          obtain ⟨x, e, h⟩ := hpairs set obj n R
          rw [h]
          exact ⟨_, _, rfl⟩
        · rcases htPairs set obj m'.trans z Q t' n R with ⟨x, e | ⟨⟩⟩
          · exact ⟨_, _, rfl⟩
          · exact ih h _ _
    unfold HtIrl.fit
    rcases htChecks data with e | ⟨⟩
    · exact ⟨e, rfl⟩
    · dsimp only
      rcases o.theta with _ | x | _
      · obtain ⟨x, e, h⟩ := hloop o.set false 1 fun _ => .fin 0
        simp only [h]
        exact ⟨_, rfl⟩
      · obtain ⟨x, e, h⟩ := hloop o.set false 1 x
        simp only [h]
        exact ⟨_, rfl⟩
      · obtain ⟨x, e, h⟩ := hloop o.set true 1 fun _ => .nan
        simp only [h]
        exact ⟨_, rfl⟩

/-- **C176**, what does hold: with arrays of floats everything is as the other theorems say. Missing: arrays of integers. -/
theorem C176_partial (m : Mdp K) (maxIter : Nat) (γ tol : K) (reward : PyArr K) (st : AlgState K) :
    m.fitVIOf ⟨false, false⟩ maxIter γ tol reward st = m.fitVI maxIter γ tol reward st ∧
    ∀ {α β : Type} (solve : α → Py β), solveOf ⟨false, false⟩ solve = solve := ⟨rfl, fun _ => rfl⟩

/-- Arrays that were floats stay floats as long as only floats are assigned; and features that were integers have become floats once an
agent's feature has been added, as it is when an environment is made, so that planning succeeds from then on. -/
theorem C176_agents (m : Mdp K) (w : Whole) (before after : List (MdpOp K × Bool)) (i : Int) (g : Bool) (hw : w.sas = false)
    (hi : ((m.run (before.map Prod.fst)).addAgentFeature i).2 = .ok ())
    (hbefore : ∀ op ∈ before, ∀ x, op ≠ (.setSas x, true))
    (hafter : ∀ op ∈ after, (∀ x, op ≠ (.setSas x, true)) ∧ ∀ f, op ≠ (.setFeatures f, true)) :
    (Mdp.runWhole (m, w) (before ++ (.addAgentFeature i, g) :: after)).2 = ⟨false, false⟩ := by
  have sas : ∀ (q : Mdp K × Whole) (op : MdpOp K × Bool), q.2.sas = false → (∀ x, op ≠ (.setSas x, true)) →
      (Mdp.applyWhole q op).2.sas = false := by
    intro q op hf h
    obtain ⟨op, g⟩ := op
    unfold Mdp.applyWhole
    match op with
    | .setSas x =>
      dsimp only
      cases g
      · rcases (q.1.setSas x).2 with e | ⟨⟩
        · exact hf
        · rfl
      · exact absurd rfl (h x)
    | .setWalls w' => dsimp only; rcases (q.1.setWalls w').2 with e | ⟨⟩ <;> first | exact hf | rfl
    | .resetWalls => dsimp only; rcases q.1.resetWalls.2 with e | ⟨⟩ <;> first | exact hf | rfl
    | .addWallXY x y => dsimp only; rcases (q.1.addWallXY x y).2 with e | ⟨⟩ <;> first | exact hf | rfl
    | .setFeatures f => dsimp only; rcases (q.1.setFeatures f).2 with e | ⟨⟩ <;> exact hf
    | .addAgentFeature i => dsimp only; rcases (q.1.addAgentFeature i).2 with e | ⟨⟩ <;> exact hf
    | .updateAgentFeature i p => exact hf
    | .removeAgentFeatures => exact hf
    | .consumeFeatures fs s => exact hf
    | .reset => exact hf
  have feat : ∀ (q : Mdp K × Whole) (op : MdpOp K × Bool), q.2.features = false → (∀ f, op ≠ (.setFeatures f, true)) →
      (Mdp.applyWhole q op).2.features = false := by
    intro q op hf h
    obtain ⟨op, g⟩ := op
    unfold Mdp.applyWhole
    match op with
    | .setFeatures f =>
      dsimp only
      cases g
      · rcases (q.1.setFeatures f).2 with e | ⟨⟩
        · exact hf
        · rfl
      · exact absurd rfl (h f)
    | .setSas x => dsimp only; rcases (q.1.setSas x).2 with e | ⟨⟩ <;> exact hf
    | .setWalls w' => dsimp only; rcases (q.1.setWalls w').2 with e | ⟨⟩ <;> exact hf
    | .resetWalls => dsimp only; rcases q.1.resetWalls.2 with e | ⟨⟩ <;> exact hf
    | .addWallXY x y => dsimp only; rcases (q.1.addWallXY x y).2 with e | ⟨⟩ <;> exact hf
    | .addAgentFeature i => dsimp only; rcases (q.1.addAgentFeature i).2 with e | ⟨⟩ <;> first | exact hf | rfl
    | .updateAgentFeature i p => exact hf
    | .removeAgentFeatures => exact hf
    | .consumeFeatures fs s => exact hf
    | .reset => exact hf
  have runSas : ∀ (ops : List (MdpOp K × Bool)) (q : Mdp K × Whole), q.2.sas = false → (∀ op ∈ ops, ∀ x, op ≠ (.setSas x, true)) →
      (Mdp.runWhole q ops).2.sas = false := by
    intro ops
    induction ops with
    | nil => intro q h _; exact h
    | cons op ops ih =>
      exact fun q h ho => ih _ (sas q op h (ho op List.mem_cons_self)) fun op h' => ho op (List.mem_cons_of_mem _ h')
  have runFeat : ∀ (ops : List (MdpOp K × Bool)) (q : Mdp K × Whole), q.2.features = false →
      (∀ op ∈ ops, ∀ f, op ≠ (.setFeatures f, true)) → (Mdp.runWhole q ops).2.features = false := by
    intro ops
    induction ops with
    | nil => intro q h _; exact h
    | cons op ops ih =>
      exact fun q h ho => ih _ (feat q op h (ho op List.mem_cons_self)) fun op h' => ho op (List.mem_cons_of_mem _ h')
  have e : Mdp.runWhole (m, w) (before ++ (.addAgentFeature i, g) :: after) =
      Mdp.runWhole (Mdp.applyWhole (Mdp.runWhole (m, w) before) (.addAgentFeature i, g)) after := by
    unfold Mdp.runWhole
    rw [List.foldl_append, List.foldl_cons]
  rw [e]
  have hb := C176_contents (m, w) before
  have s0 := runSas before (m, w) hw hbefore
  have hi' : ((Mdp.runWhole (m, w) before).1.addAgentFeature i).2 = .ok () := by rw [hb]; exact hi
  generalize Mdp.runWhole (m, w) before = q at hi' s0 ⊢
  have f1 : (Mdp.applyWhole q (.addAgentFeature i, g)).2.features = false := by
    unfold Mdp.applyWhole; dsimp only; rw [hi']
  have s1 := sas q (.addAgentFeature i, g) s0 (by rintro x ⟨⟩)
  have f2 := runFeat after _ f1 fun op h => (hafter op h).2
  have s2 := runSas after _ s1 fun op h => (hafter op h).1
  generalize Mdp.runWhole (Mdp.applyWhole q (.addAgentFeature i, g)) after = r at f2 s2 ⊢
  obtain ⟨m', ⟨a, b⟩⟩ := r
  simp only at f2 s2
  rw [f2, s2]

/-- The operations on the MDP that making an environment consists of, and what they do to the types of its arrays: if there is an agent,
the features of the environment's MDP are floats, whatever the MDP was made with. -/
theorem C176_environment {δ : Type} (m : Mdp K) (w : Whole) (specs : List (AgentSpec K δ)) (hne : specs ≠ []) (m' : Mdp K) (e : Env K δ)
    (h : Env.init m specs = (m', .ok e)) : ∃ ops : List (MdpOp K × Bool),
    (∀ op ∈ ops, op.1 = .removeAgentFeatures ∨ (∃ p, op.1 = .addAgentFeature p) ∨ ∃ i p, op.1 = .updateAgentFeature i p) ∧
    Mdp.runWhole (m, w) ops = (e.mdp, ⟨false, w.sas⟩) := by
  have one : ∀ (m : Mdp K) (w : Whole) (n : Nat) (sp : AgentSpec K δ) (p : Int) (r : Arr1 K) (m1 : Mdp K) (a : Agent K δ),
      Env.attach m n sp p r = (m1, .ok a) → ∃ i : Int,
        Mdp.runWhole (m, w) [(.addAgentFeature p, false), (.updateAgentFeature i p, false)] = (m1, ⟨false, w.sas⟩) := by
    intro m w n sp p r m1 a ha
    unfold Env.attach at ha
    rcases h1 : m.addAgentFeature p with ⟨m2, err | ⟨⟩⟩
    · simp [h1] at ha
    · simp only [h1] at ha
      unfold Agent.setPosition at ha
      dsimp only at ha
      by_cases hp : (m2.nStates : Int) ≤ p
      · simp [hp] at ha
      · rw [if_neg hp] at ha
        rcases h2 : m2.updateAgentFeature n p with ⟨m3, err | ⟨⟩⟩
        · simp [h2] at ha
        · simp only [h2] at ha
          have e3 : m3 = m1 := congrArg Prod.fst ha
          refine ⟨n, ?_⟩
          have e : Mdp.runWhole (m, w) [(.addAgentFeature p, false), (.updateAgentFeature n p, false)] =
              Mdp.applyWhole (Mdp.applyWhole (m, w) (.addAgentFeature p, false)) (.updateAgentFeature n p, false) := rfl
          rw [e]
          unfold Mdp.applyWhole
          dsimp only [Mdp.apply]
          rw [h1]
          dsimp only
          rw [h2, e3]
  have loop : ∀ (nF nA : Nat) (specs : List (AgentSpec K δ)) (n : Nat) (m : Mdp K) (w : Whole) (as as' : List (Agent K δ)) (m1 : Mdp K),
      Env.attachLoop nF nA n specs m as = (m1, .ok as') → ∃ ops : List (MdpOp K × Bool),
      (∀ op ∈ ops, op.1 = .removeAgentFeatures ∨ (∃ p, op.1 = .addAgentFeature p) ∨ ∃ i p, op.1 = .updateAgentFeature i p) ∧
      Mdp.runWhole (m, w) ops = (m1, ⟨if specs = [] then w.features else false, w.sas⟩) := by
    intro nF nA specs
    induction specs with
    | nil =>
      intro n m w as as' m1 h
      unfold Env.attachLoop at h
      cases h
      exact ⟨[], by simp, rfl⟩
    | cons sp sps ih =>
      intro n m w as as' m1 h
      unfold Env.attachLoop at h
      rcases checkSpec_eq : Env.checkSpec nF nA sp with err | ⟨p, r⟩
      · simp [checkSpec_eq] at h
      · simp only [checkSpec_eq] at h
        rcases ha : Env.attach m n sp p r with ⟨m2, err | a⟩
        · simp [ha] at h
        · simp only [ha] at h
          obtain ⟨i, hi⟩ := one m w n sp p r m2 a ha
          obtain ⟨ops, h1, h2⟩ := ih _ m2 ⟨false, w.sas⟩ _ _ _ h
          refine ⟨(.addAgentFeature p, false) :: (.updateAgentFeature i p, false) :: ops, ?_, ?_⟩
          · intro op ho
            rcases List.mem_cons.1 ho with rfl | ho
            · exact .inr (.inl ⟨p, rfl⟩)
            · rcases List.mem_cons.1 ho with rfl | ho
              · exact .inr (.inr ⟨i, p, rfl⟩)
              · exact h1 op ho
          · have e : Mdp.runWhole (m, w) ((.addAgentFeature p, false) :: (.updateAgentFeature i p, false) :: ops) =
                Mdp.runWhole (Mdp.runWhole (m, w) [(.addAgentFeature p, false), (.updateAgentFeature i p, false)]) ops := rfl
            rw [e, hi, h2]
            simp
  unfold Env.init at h
  by_cases hn : 0 < m.nAgents
  · rw [if_pos hn] at h
    rcases hr : m.removeAgentFeatures with ⟨m2, err | ⟨⟩⟩
    · simp [hr] at h
    · simp only [hr] at h
      rcases hl : Env.attachLoop m2.nFeatures specs.length 0 specs m2 [] with ⟨m3, err | as⟩
      · simp [hl] at h
      · simp only [hl] at h
        cases h
        obtain ⟨ops, h1, h2⟩ := loop _ _ specs 0 m2 w [] as m' hl
        refine ⟨(.removeAgentFeatures, false) :: ops, ?_, ?_⟩
        · intro op ho
          rcases List.mem_cons.1 ho with rfl | ho
          · exact .inl rfl
          · exact h1 op ho
        · have e : Mdp.runWhole (m, w) ((.removeAgentFeatures, false) :: ops) = Mdp.runWhole (m.removeAgentFeatures.1, w) ops := rfl
          rw [e, hr, h2, if_neg hne]
  · rw [if_neg hn] at h
    simp only at h
    rcases hl : Env.attachLoop m.nFeatures specs.length 0 specs m [] with ⟨m3, err | as⟩
    · simp [hl] at h
    · simp only [hl] at h
      cases h
      obtain ⟨ops, h1, h2⟩ := loop _ _ specs 0 m w [] as m' hl
      exact ⟨ops, h1, by rw [h2, if_neg hne]⟩

/-- A grid of one by two cells whose features are integers: planning raises, also after eating; after an agent's feature has been added it
succeeds. -/
example : (match Mdp.initGrid .square 1 2 false (⟨1, 2, fun _ s => if s = 0 then 1 else 0⟩ : Arr2 Rat) none with
    | .ok m =>
      let p := Mdp.runWhole (m, ⟨true, false⟩) [(.consumeFeatures [0] 1, false)]
      let q := Mdp.runWhole p [(.addAgentFeature 1, false), (.reset, false)]
      (match p.1.fitVIOf p.2 5 (1 / 2) 1 (.nd [1] fun _ => 1) .fresh, q.1.fitVIOf q.2 5 (1 / 2) 1 (.nd [2] fun _ => 1) .fresh with
        | (a, .error e), (b, .ok ()) => decide (e = .typeError) && !a.fitComplete && b.fitComplete
        | _, _ => false)
    | .error _ => false) = true := by decide +kernel

/-- An environment of one agent on such a grid, as `C176_environment` asks; planning succeeds in it. -/
example : (match Mdp.initGrid .square 1 2 false (⟨1, 2, fun _ s => if s = 0 then 1 else 0⟩ : Arr2 Rat) none with
    | .ok m => match Env.init m [(⟨"a", 1, maxSelector, .fresh, some 1, .nd [2] fun _ => 1, []⟩ : AgentSpec Rat Nat)] with
      | (_, .ok e) => match (e.mdp.fitVIOf ⟨false, false⟩ 5 (1 / 2) 1 (.nd [2] fun _ => 1) .fresh).2 with
        | .ok () => true
        | .error _ => false
      | _ => false
    | .error _ => false) = true := by decide +kernel

end MaMDP
