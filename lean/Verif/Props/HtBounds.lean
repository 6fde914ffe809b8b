/- C159: weights learned by hypothesis-testing IRL stay in the range of the evidence.
Code: maMDP/algorithms/irl.py (HyptestIRL). -/
import Verif.Lemmas.HtBounds
import Verif.Props.FeatureMatching
import Verif.Props.Algorithm
import Verif.Props.Instances

set_option linter.unusedSectionVars false

namespace MaMDP

variable {K : Type} [Field K] [LinearOrder K] [IsStrictOrderedRing K]

/-- A list of extended numbers holds a NaN or consists of numbers, when each entry is one of the two. -/
theorem nan_or_numbers {ι : Type} (P : ι → Ext K → Prop) (B : K → Prop) : ∀ l : List ι,
    (∀ o ∈ l, P o .nan ∨ ∃ x, P o (.fin x) ∧ B x) →
    (∃ o ∈ l, P o .nan) ∨ ∃ xs : List K, List.Forall₂ (fun o x => P o (.fin x)) l xs ∧ ∀ x ∈ xs, B x
  | [], _ => Or.inr ⟨[], .nil, by simp⟩
  | o :: l, h => by
    rcases h o List.mem_cons_self with h0 | ⟨x, hx, hb⟩
    · exact Or.inl ⟨o, List.mem_cons_self, h0⟩
    · rcases nan_or_numbers P B l fun o' ho => h o' (List.mem_cons_of_mem _ ho) with ⟨o', ho, h1⟩ | ⟨xs, h1, h2⟩
      · exact Or.inl ⟨o', List.mem_cons_of_mem _ ho, h1⟩
      · exact Or.inr ⟨x :: xs, .cons hx h1, by
          intro y hy
          rcases List.mem_cons.1 hy with rfl | hy
          · exact hb
          · exact h2 y hy⟩

/-- **C159, what holds.** When the largest learning rate in use is at most 1, the weight of a feature is NaN or lies
in every interval that holds its starting weight and the evidence of every move. -/
theorem C159_partial (set : HtSettings K) (hn : set.norm ≠ .relative) (hl : 0 ≤ set.lr) (ha1 : 1 ≤ set.asymmetry)
    (hg : Spec.Gentle set)
    (z : List Nat → (Nat → Nat → Ext K) → Nat → Nat → Ext K) (theta : Option (Nat → Ext K))
    (data : List (Mdp K × (Nat → Nat → Nat → Ext K) × List Int)) (h1 : (data.head?.map fun d => d.2.2) ≠ some [])
    (hs : SameShape (data.map fun d => d.1)) (hm : ∃ d ∈ data, Spec.moves d.2.2 ≠ [])
    (ha : ∀ d ∈ data, ∀ p ∈ Spec.moves d.2.2, Spec.Adjacent d.1.trans p) :
    ∃ R, htFit set z theta (data.map fun d => (d.1, .ok d.2.1, d.2.2)) = .ok R ∧
      ∀ (f : Nat) (w lo hi : K), theta.getD (fun _ => .fin 0) f = .fin w → lo ≤ w → w ≤ hi →
        (∀ o ∈ allMoves data, ∃ a, Spec.FirstAction o.1 (Spec.stateOf o.1.nS o.2.2.1) (Spec.stateOf o.1.nS o.2.2.2) a ∧
          (evidence set z o.1 o.2.1 (Spec.stateOf o.1.nS o.2.2.1) a f = .nan ∨
            ∃ x, evidence set z o.1 o.2.1 (Spec.stateOf o.1.nS o.2.2.1) a f = .fin x ∧ lo ≤ x ∧ x ≤ hi)) →
        R f = .nan ∨ ∃ y, R f = .fin y ∧ lo ≤ y ∧ y ≤ hi := by
  obtain ⟨R, hR, hspec⟩ := C71_partial set hn z theta data h1 hs hm ha
  refine ⟨R, hR, fun f w lo hi hw hlo hhi hev => ?_⟩
  rcases nan_or_numbers (fun o e => ∃ a, Spec.FirstAction o.1 (Spec.stateOf o.1.nS o.2.2.1)
      (Spec.stateOf o.1.nS o.2.2.2) a ∧ evidence set z o.1 o.2.1 (Spec.stateOf o.1.nS o.2.2.1) a f = e)
      (fun x => lo ≤ x ∧ x ≤ hi) (allMoves data) (fun o ho => by
        obtain ⟨a, h, h' | ⟨x, h', hx⟩⟩ := hev o ho
        · exact Or.inl ⟨a, h, h'⟩
        · exact Or.inr ⟨x, ⟨a, h, h'⟩, hx⟩) with hnan | ⟨xs, hxs, hb⟩
  · exact Or.inl ((hspec f).2 hnan)
  · exact Or.inr ⟨_, (hspec f).1 w xs hw hxs, htEstimate_between set hl ha1 hg xs 1 w (le_refl _) ⟨hlo, hhi⟩ hb⟩

/-- A move of adjacent states has a first action, and that action is legal. -/
theorem move_action {M : Trans K} {p : Int × Int} (h : Spec.Adjacent M p) :
    Spec.stateOf M.nS p.1 < M.nS ∧ ∃ a, Spec.FirstAction M (Spec.stateOf M.nS p.1) (Spec.stateOf M.nS p.2) a ∧
      a ∈ legalActions M (Spec.stateOf M.nS p.1) := by
  have lt : ∀ i, Spec.InRange M.nS i → Spec.stateOf M.nS i < M.nS := by
    intro i hi
    have := pyIdx_stateOf (n := M.nS) (i := i)
    rw [if_pos hi] at this
    exact pyIdx_lt this
  obtain ⟨h1, h2, a, ha, hp⟩ := h
  classical
  have hex : ∃ a, a < M.nA ∧ M.p (Spec.stateOf M.nS p.1) a (Spec.stateOf M.nS p.2) ≠ 0 := ⟨a, ha, hp⟩
  have hf : Spec.FirstAction M (Spec.stateOf M.nS p.1) (Spec.stateOf M.nS p.2) (Nat.find hex) :=
    ⟨(Nat.find_spec hex).1, (Nat.find_spec hex).2, fun b hb => by
      by_contra hc
      exact Nat.find_min hex hb ⟨lt_trans hb (Nat.find_spec hex).1, hc⟩⟩
  exact ⟨lt _ h1, _, hf, firstAction_legal (lt _ h2) hf⟩

/-- **C159, z-scores.** With z-scores on deterministic models of at most `A` actions, starting from zero or from
weights of that size, every weight is NaN or at most `√(A - 1)` in size, whatever the features, the discount, the
solver and the trajectories: `Q` is any table of action values. -/
theorem C159_zscore_partial (set : HtSettings ℝ) (hn : set.norm = .zscore) (hl : 0 ≤ set.lr) (ha1 : 1 ≤ set.asymmetry)
    (hg : Spec.Gentle set) (A : Nat) (theta : Option (Nat → ℝ))
    (hθ : ∀ w, theta = some w → ∀ f, |w f| ≤ Real.sqrt ((A : ℝ) - 1))
    (data : List (Mdp ℝ × (Nat → Nat → Nat → Ext ℝ) × List Int)) (h1 : (data.head?.map fun d => d.2.2) ≠ some [])
    (hM : ∀ d ∈ data, Spec.SubStochastic d.1.trans ∧ Spec.Deterministic d.1.trans ∧ d.1.nActions ≤ A)
    (hs : SameShape (data.map fun d => d.1)) (hm : ∃ d ∈ data, Spec.moves d.2.2 ≠ [])
    (ha : ∀ d ∈ data, ∀ p ∈ Spec.moves d.2.2, Spec.Adjacent d.1.trans p) :
    ∃ R, htFit set zscore (theta.map fun w f => .fin (w f)) (data.map fun d => (d.1, .ok d.2.1, d.2.2)) = .ok R ∧
      ∀ f, R f = .nan ∨ ∃ y, R f = .fin y ∧ |y| ≤ Real.sqrt ((A : ℝ) - 1) := by
  obtain ⟨R, hR, hspec⟩ := C159_partial set (by rw [hn]; decide) hl ha1 hg zscore
    (theta.map fun w f => .fin (w f)) data h1 hs hm ha
  refine ⟨R, hR, fun f => ?_⟩
  set B := Real.sqrt ((A : ℝ) - 1) with hB
  have hB0 : 0 ≤ B := Real.sqrt_nonneg _
  have key : ∃ w : ℝ, (theta.map fun w f => Ext.fin (w f)).getD (fun _ => .fin 0) f = .fin w ∧ |w| ≤ B := by
    cases theta with
    | none => exact ⟨0, rfl, by rw [abs_zero]; exact hB0⟩
    | some w => exact ⟨w f, rfl, hθ w rfl f⟩
  obtain ⟨w, hw, hwB⟩ := key
  have := hspec f w (-B) B hw (abs_le.1 hwB).1 (abs_le.1 hwB).2 ?_
  · rcases this with h | ⟨y, hy, h2⟩
    · exact Or.inl h
    · exact Or.inr ⟨y, hy, abs_le.2 h2⟩
  · intro o ho
    obtain ⟨d, hd, ho⟩ := List.mem_flatMap.1 ho
    obtain ⟨p, hp, rfl⟩ := List.mem_map.1 ho
    obtain ⟨hst, a, hfa, hal⟩ := move_action (ha d hd p hp)
    refine ⟨a, hfa, ?_⟩
    have hev : evidence set zscore d.1.trans d.2.1 (Spec.stateOf d.1.trans.nS p.1) a f =
        zscore (legalActions d.1.trans (Spec.stateOf d.1.trans.nS p.1))
          (fun x f => d.2.1 (Spec.stateOf d.1.trans.nS p.1) x f) a f := by
      unfold evidence
      rw [hn]
    simp only [hev]
    rcases zscore_bound _ (fun x f => d.2.1 (Spec.stateOf d.1.trans.nS p.1) x f) a f hal with h | ⟨y, hy, hyb⟩
    · exact Or.inl h
    · refine Or.inr ⟨y, hy, abs_le.1 (hyb.trans (Real.sqrt_le_sqrt ?_))⟩
      obtain ⟨hsub, hdet, hnA⟩ := hM d hd
      have hle : (legalActions d.1.trans (Spec.stateOf d.1.trans.nS p.1)).length ≤ A :=
        (legalActions_length hsub hdet hst).trans hnA
      have : ((legalActions d.1.trans (Spec.stateOf d.1.trans.nS p.1)).length : ℝ) ≤ A := by exact_mod_cast hle
      linarith

/-- **C159 on grids.** On grids of any size and shape, after any changes of features and walls, the bound is
`√3` on square grids and `√5` on hexagonal ones without self-transitions. -/
theorem C159_grid_partial (set : HtSettings ℝ) (hn : set.norm = .zscore) (hl : 0 ≤ set.lr) (ha1 : 1 ≤ set.asymmetry)
    (hg : Spec.Gentle set) (kind : GridKind) (W H : Nat)
    (data : List (Mdp ℝ × (Nat → Nat → Nat → Ext ℝ) × List Int)) (h1 : (data.head?.map fun d => d.2.2) ≠ some [])
    (hM : ∀ d ∈ data, Mdp.GridReach kind W H false d.1)
    (hs : SameShape (data.map fun d => d.1)) (hm : ∃ d ∈ data, Spec.moves d.2.2 ≠ [])
    (ha : ∀ d ∈ data, ∀ p ∈ Spec.moves d.2.2, Spec.Adjacent d.1.trans p) :
    ∃ R, htFit set zscore none (data.map fun d => (d.1, .ok d.2.1, d.2.2)) = .ok R ∧
      ∀ f, R f = .nan ∨ ∃ y, R f = .fin y ∧ |y| ≤ Real.sqrt (if kind = .square then 3 else 5) := by
  obtain ⟨R, hR, hb⟩ := C159_zscore_partial set hn hl ha1 hg (if kind = .square then 4 else 6) none (by intro w h; cases h) data h1 (fun d hd => by
      obtain ⟨a, b, -, -⟩ := C27_grid kind W H false d.1 (hM d hd)
      refine ⟨a, b, ?_⟩
      have := (hM d hd).ok.nActions
      rw [this]
      clear * -
      cases kind <;> decide) hs hm ha
  refine ⟨R, hR, fun f => ?_⟩
  rcases hb f with h | ⟨y, hy, h⟩
  · exact Or.inl h
  · refine Or.inr ⟨y, hy, h.trans (le_of_eq ?_)⟩
    cases kind with
    | square => norm_num
    | hex =>
      rw [if_neg (by decide), if_neg (by decide)]
      norm_num

/-- **C159 is false of the code in general.** `__init__` accepts a learning rate of 2 with the default decay and
asymmetry. On the 1×3 strip, walking into the state with the feature and back, both moves are evidence above zero and the
start is zero, yet the weight learned is below zero. -/
theorem C159_refuted : ∃ (m : Mdp ℚ) (Q : Nat → Nat → Nat → Ext ℚ) (R : Nat → Ext ℚ) (x y r : ℚ),
    Mdp.GridReach .square 1 3 false m ∧
    htQ m.nFeatures [] (fun w => solveHard m.trans (stateReward m.nFeatures w m.features.get) 5 (1/4) 0) = .ok Q ∧
    htFit ⟨2, 1, 2, .other⟩ (fun _ x a f => x a f) none [(m, .ok Q, [1, 0, 1])] = .ok R ∧
    Spec.FirstAction m.trans 1 0 2 ∧ Q 1 2 0 = .fin x ∧ Spec.FirstAction m.trans 0 1 0 ∧ Q 0 0 0 = .fin y ∧
    0 < x ∧ 0 < y ∧ R 0 = .fin r ∧ r < 0 := by
  have key : ∀ (w : Py (Mdp ℚ)),
      Mdp.initGrid .square 1 3 false ⟨2, 3, fun f s => if f = 1 ∨ s = 0 then 1 else 0⟩ none = w →
      (match w with
        | .error _ => false
        | .ok m => decide (2 < m.trans.nA ∧ m.trans.p 1 2 0 ≠ 0 ∧ m.trans.p 0 0 1 ≠ 0 ∧ m.trans.p 1 0 0 = 0 ∧
            m.trans.p 1 1 0 = 0) &&
          match htQ m.nFeatures [] (fun w => solveHard m.trans (stateReward m.nFeatures w m.features.get) 5 (1/4) 0) with
          | .error _ => false
          | .ok Q => match htFit ⟨2, 1, 2, .other⟩ (fun _ x a f => x a f) none [(m, .ok Q, [1, 0, 1])] with
            | .error _ => false
            | .ok R => match Q 1 2 0, Q 0 0 0, R 0 with
              | .fin x, .fin y, .fin r => decide (0 < x ∧ 0 < y ∧ r < 0)
              | _, _, _ => false) = true →
      ∃ (m : Mdp ℚ) (Q : Nat → Nat → Nat → Ext ℚ) (R : Nat → Ext ℚ) (x y r : ℚ),
        Mdp.GridReach .square 1 3 false m ∧
        htQ m.nFeatures [] (fun w => solveHard m.trans (stateReward m.nFeatures w m.features.get) 5 (1/4) 0) = .ok Q ∧
        htFit ⟨2, 1, 2, .other⟩ (fun _ x a f => x a f) none [(m, .ok Q, [1, 0, 1])] = .ok R ∧
        Spec.FirstAction m.trans 1 0 2 ∧ Q 1 2 0 = .fin x ∧ Spec.FirstAction m.trans 0 1 0 ∧ Q 0 0 0 = .fin y ∧
        0 < x ∧ 0 < y ∧ R 0 = .fin r ∧ r < 0 := by
    intro w hw h
    rcases w with err | m
    · cases h
    simp only [Bool.and_eq_true, decide_eq_true_eq] at h
    obtain ⟨⟨n1, p1, p2, p3, p4⟩, h⟩ := h
    split at h
    · cases h
    · rename_i Q hQ
      split at h
      · cases h
      · rename_i R hR
        split at h
        · rename_i x y r hx hy hr
          rw [decide_eq_true_eq] at h
          refine ⟨m, Q, R, x, y, r, .init hw, hQ, hR, ⟨n1, p1, fun b hb => ?_⟩, hx, ⟨by omega, p2, fun b hb => by omega⟩,
            hy, h.1, h.2.1, hr, h.2.2⟩
          interval_cases b
          · exact p3
          · exact p4
        · cases h
  exact key _ rfl (by decide +kernel)

/-- The default rates with z-scores in the corridor over the reals, two walks out of its middle: the fit succeeds and
no weight is beyond `√3`, whatever the two tables of action values. -/
example (Q Q' : Nat → Nat → Nat → Ext ℝ) : ∃ (m : Mdp ℝ) (R : Nat → Ext ℝ), m.nStates = 3 ∧
    htFit ⟨3/10, 1, 2, .zscore⟩ zscore none [(m, .ok Q, [1, 0]), (m, .ok Q', [1, 2])] = .ok R ∧
    ∀ f, R f = .nan ∨ ∃ y, R f = .fin y ∧ |y| ≤ Real.sqrt 3 := by
  obtain ⟨m, hm, hS, hA, -, -, hsub, hdet, -, hstep⟩ := corridor ℝ
  have hadj : ∀ t : Int, (t = 0 ∨ t = 2) → Spec.Adjacent m.trans (1, t) := by
    intro t ht
    have hS' : m.trans.nS = 3 := hS
    have e1 : Spec.stateOf 3 1 = 1 := by decide
    refine ⟨?_, ?_, ?_⟩
    · rw [hS']; show -(3:Int) ≤ 1 ∧ (1:Int) < 3; decide
    · rw [hS']; show -(3:Int) ≤ t ∧ t < 3; omega
    · rw [hS', e1]
      rcases ht with rfl | rfl
      · obtain ⟨a, ha, h⟩ := hstep 1 (by omega) 0 (by omega) (by omega)
        exact ⟨a, by show a < m.nActions; omega, by
          show m.sas 1 a (Spec.stateOf 3 0) ≠ 0
          rw [show Spec.stateOf 3 0 = 0 by decide, h]; exact one_ne_zero⟩
      · obtain ⟨a, ha, h⟩ := hstep 1 (by omega) 2 (by omega) (by omega)
        exact ⟨a, by show a < m.nActions; omega, by
          show m.sas 1 a (Spec.stateOf 3 2) ≠ 0
          rw [show Spec.stateOf 3 2 = 2 by decide, h]; exact one_ne_zero⟩
  obtain ⟨R, hR, hb⟩ := C159_grid_partial ⟨3/10, 1, 2, .zscore⟩ rfl (by norm_num) (by norm_num)
    (by unfold Spec.Gentle; norm_num) .square 1 3 [(m, Q, [1, 0]), (m, Q', [1, 2])] (by simp)
    (by
      intro d hd
      simp only [List.mem_cons, List.not_mem_nil, or_false] at hd
      rcases hd with rfl | rfl <;> exact hm)
    (by
      intro a ha b hb
      simp only [List.map_cons, List.map_nil, List.mem_cons, List.not_mem_nil, or_false, or_self] at ha hb
      subst ha; subst hb
      exact ⟨rfl, rfl, rfl, rfl⟩)
    ⟨_, List.mem_cons_self, by simp [Spec.moves]⟩
    (by
      intro d hd p hp
      simp only [List.mem_cons, List.not_mem_nil, or_false] at hd
      rcases hd with rfl | rfl
      · simp only [Spec.moves, List.mem_cons, List.not_mem_nil, or_false] at hp
        subst hp; exact hadj 0 (Or.inl rfl)
      · simp only [Spec.moves, List.mem_cons, List.not_mem_nil, or_false] at hp
        subst hp; exact hadj 2 (Or.inr rfl))
  refine ⟨m, R, hS, hR, fun f => ?_⟩
  have := hb f
  rwa [if_pos rfl] at this

end MaMDP
