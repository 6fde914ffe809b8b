import Verif.Lemmas.Hyptest
import Verif.Props.IRL
import Verif.Props.DynamicProgramming

/-! # Feature matching (C70) and hypothesis-testing IRL (C71) -/

set_option linter.unusedSectionVars false

namespace MaMDP

variable {K : Type} [Field K] [LinearOrder K] [IsStrictOrderedRing K]

/-! ## C70: feature matching -/

/-- Everything `fit` needs from its arguments: a trajectory per MDP, the first not empty, the same features in all
MDPs, and states that exist. -/
structure MatchOk (l : List (Mdp K)) (ts : List (List Int)) (nF : Nat) : Prop where
  len : ts.length = l.length
  nonempty : ts ≠ []
  first : ts.head? ≠ some []
  count : ∀ m ∈ l, m.nFeatures = nF ∧ m.features.d0 = nF
  range : ∀ p ∈ l.zip ts, ∀ i ∈ p.2.tail, Spec.InRange p.1.features.d1 i

theorem matchFit_list (l : List (Mdp K)) (ts : List (List Int)) (nF : Nat) (ign : List Int) (h : MatchOk l ts nF) :
    matchFit (.inr l) ts ign =
      if ∃ i ∈ ign, ¬ Spec.InRange ts.length i then .error .indexError
      else .ok ⟨nF, fun f => npSum (l.zip ts).length fun n =>
        if Spec.Names ts.length ign n then 0
        else (((l.zip ts).map fun p => Spec.laterTotal p.1 p.2).getD n fun _ => 0) f⟩ := by
  have hrows := matchRows_ok nF (l.zip ts) fun p hp =>
    ⟨(h.count p.1 (List.of_mem_zip hp).1).2, h.range p hp⟩
  match ts, l, h with
  | [], _, h => exact absurd rfl h.nonempty
  | [] :: _, _, h => exact absurd rfl h.first
  | (_ :: _) :: _, [], h => exact absurd h.len (by simp)
  | (s :: t) :: ts, m :: l, h =>
    have hm := (h.count m List.mem_cons_self).1
    unfold matchFit
    simp only [if_pos h.len, hm, hrows, pyIdx_none_iff, pyIdx_some_iff, List.length_map]

/-- **C70 (exact).** The result is, for each feature, the total over the trajectories that are not named by the
ignore list of the feature in the states after the first. -/
theorem C70_exact (l : List (Mdp K)) (ts : List (List Int)) (nF : Nat) (ign : List Int) (h : MatchOk l ts nF)
    (hi : ∀ i ∈ ign, Spec.InRange ts.length i) :
    ∃ x, matchFit (.inr l) ts ign = .ok x ∧ x.d0 = nF ∧ ∀ f, x.get f = ∑ n ∈ Finset.range ts.length,
      if Spec.Names ts.length ign n then 0
      else match l[n]?, ts[n]? with
        | some m, some t => Spec.laterTotal m t f
        | _, _ => 0 := by
  rw [matchFit_list l ts nF ign h, if_neg (by simpa using hi)]
  refine ⟨_, rfl, rfl, fun f => ?_⟩
  have hl : (l.zip ts).length = ts.length := by rw [List.length_zip, ← h.len, Nat.min_self]
  simp only [hl]
  unfold npSum
  refine Finset.sum_congr rfl fun n hn => ?_
  have hn := Finset.mem_range.1 hn
  have hn' : n < l.length := h.len ▸ hn
  beta_reduce
  split_ifs
  · rfl
  · rw [List.getElem?_eq_getElem hn, List.getElem?_eq_getElem hn', List.getD_eq_getElem?_getD,
      List.getElem?_map, List.getElem?_eq_getElem (by rw [hl]; exact hn)]
    simp

/-- **C70 (one MDP).** A single MDP is used for every trajectory. -/
theorem C70_single (m : Mdp K) (ts : List (List Int)) (ign : List Int) :
    matchFit (.inl m) ts ign = matchFit (.inr (List.replicate ts.length m)) ts ign := by
  unfold matchFit
  match ts with
  | [] => rfl
  | [] :: _ => rfl
  | (_ :: _) :: _ => simp

/-- **C70, what holds.** Without ignored features: each weight is the total of the feature over all states after
the first of each trajectory. -/
theorem C70_partial (m : Mdp K) (ts : List (List Int)) (h0 : ts ≠ []) (h1 : ts.head? ≠ some [])
    (hf : m.features.d0 = m.nFeatures) (hr : ∀ t ∈ ts, ∀ i ∈ t.tail, Spec.InRange m.features.d1 i) :
    ∃ x, matchFit (.inl m) ts [] = .ok x ∧ x.d0 = m.nFeatures ∧
      ∀ f, x.get f = (ts.map fun t => Spec.laterTotal m t f).sum := by
  have hok : MatchOk (List.replicate ts.length m) ts m.nFeatures :=
    ⟨by simp, h0, h1, fun m' hm' => by rw [(List.mem_replicate.1 hm').2]; exact ⟨rfl, hf⟩, fun p hp i hi => by
      have h2 := List.of_mem_zip hp
      rw [(List.mem_replicate.1 h2.1).2]
      exact hr _ h2.2 i hi⟩
  obtain ⟨x, hx, h2, h3⟩ := C70_exact _ ts _ [] hok (by simp)
  refine ⟨x, by rw [C70_single, hx], h2, fun f => ?_⟩
  rw [h3]
  have hN : ∀ n, ¬ Spec.Names ts.length [] n := fun n => by unfold Spec.Names; simp
  rw [← sum_getElem?]
  refine Finset.sum_congr rfl fun n hn => ?_
  have hn := Finset.mem_range.1 hn
  rw [if_neg (hN n), List.getElem?_eq_getElem hn, List.getElem?_eq_getElem (by simpa using hn)]
  simp

/-- **C70 is false of the code.** `ignore_features` is applied to the rows of the array, which are trajectories. With
one trajectory, ignoring feature 0 makes every weight 0, whatever the trajectory; and ignoring any feature whose
number is not also the number of a trajectory raises `IndexError`. -/
theorem C70_refuted (m : Mdp K) (ts : List (List Int)) (h0 : ts ≠ []) (h1 : ts.head? ≠ some [])
    (hf : m.features.d0 = m.nFeatures) (hr : ∀ t ∈ ts, ∀ i ∈ t.tail, Spec.InRange m.features.d1 i) :
    (ts.length = 1 → ∃ x, matchFit (.inl m) ts [0] = .ok x ∧ ∀ f, x.get f = 0) ∧
    (∀ f : Nat, ts.length ≤ f → matchFit (.inl m) ts [(f : Int)] = .error .indexError) := by
  have hok : MatchOk (List.replicate ts.length m) ts m.nFeatures :=
    ⟨by simp, h0, h1, fun m' hm' => by rw [(List.mem_replicate.1 hm').2]; exact ⟨rfl, hf⟩, fun p hp i hi => by
      have h2 := List.of_mem_zip hp
      rw [(List.mem_replicate.1 h2.1).2]
      exact hr _ h2.2 i hi⟩
  constructor
  · intro hl
    obtain ⟨x, hx, _, h3⟩ := C70_exact _ ts _ [0] hok (by rw [hl]; simp [Spec.InRange])
    refine ⟨x, by rw [C70_single, hx], fun f => ?_⟩
    rw [h3, hl]
    have : Spec.Names 1 [0] 0 := by decide
    simp [this]
  · intro f hfl
    rw [C70_single, matchFit_list _ _ _ _ hok, if_pos]
    refine ⟨_, List.mem_cons_self, ?_⟩
    unfold Spec.InRange
    omega

/-- **C70 (errors).** No trajectories, an empty first trajectory, and lists of different lengths are refused; so is a
list of MDPs in which some later state does not exist. -/
theorem C70_errors (mdps : Mdp K ⊕ List (Mdp K)) (ign : List Int) (ts : List (List Int)) (s : Int) (t : List Int)
    (l : List (Mdp K)) :
    matchFit mdps [] ign = .error .indexError ∧ matchFit mdps ([] :: ts) ign = .error .typeError ∧
    (l.length ≠ ts.length + 1 → matchFit (.inr l) ((s :: t) :: ts) ign = .error .attributeError) ∧
    (∀ m : Mdp K, (∃ i ∈ t, ¬ Spec.InRange m.features.d1 i) →
      matchFit (.inl m) ((s :: t) :: ts) ign = .error .indexError) := by
  refine ⟨rfl, rfl, fun h => ?_, fun m h => ?_⟩
  · unfold matchFit
    simp only [List.length_cons]
    rw [if_neg (Ne.symm h)]
  · unfold matchFit
    simp only [List.length_cons, List.replicate_succ, List.zip_cons_cons, matchRows, List.drop_one, List.tail_cons,
      laterCounts_error m t h]

/-- Two trajectories on a 1×3 strip. Feature 0 is present in state 0 only, feature 1 everywhere. Ignoring nothing
gives (1, 3); ignoring feature 1 removes the second trajectory instead, so feature 1 keeps weight 2; ignoring 2
raises. -/
example : (match exIrlMdp with
    | .ok m => match matchFit (.inl m) [[1, 0, 1], [2, 1]] [], matchFit (.inl m) [[1, 0, 1], [2, 1]] [1],
          matchFit (.inl m) [[1, 0, 1], [2, 1]] [2] with
      | .ok x, .ok y, .error e => decide (x.get 0 = 1 ∧ x.get 1 = 3 ∧ y.get 0 = 1 ∧ y.get 1 = 2 ∧ e = .indexError)
      | _, _, _ => false
    | .error _ => false) = true := by decide +kernel

/-! ## C71: hypothesis-testing IRL -/

/-- **C71 is false of the code.** With `normalisation='relative'`, which is the default, `fit` raises for every model,
every list of trajectories and every start. -/
theorem C71_refuted (set : HtSettings K) (hn : set.norm = .relative)
    (z : List Nat → (Nat → Nat → Ext K) → Nat → Nat → Ext K) (theta : Option (Nat → Ext K))
    (data : List (Mdp K × Py (Nat → Nat → Nat → Ext K) × List Int)) :
    ∃ e, htFit set z theta data = .error e := by
  cases h : htFit set z theta data with
  | error e => exact ⟨e, rfl⟩
  | ok R =>
    exfalso
    have hr : ∀ b R' n R'', htLoop set b z data 1 R' = ((n, R''), .ok ()) → n = 1 := fun b R' n R'' e =>
      htLoop_relative set z hn b _ _ _ _ e
    unfold htFit HtIrl.fit at h
    split at h
    · cases h
    · cases theta with
      | none =>
        simp only at h
        split at h
        · cases h
        · rename_i heq
          rw [if_pos (hr _ _ _ _ heq)] at h
          cases h
      | some x =>
        simp only at h
        split at h
        · cases h
        · rename_i heq
          rw [if_pos (hr _ _ _ _ heq)] at h
          cases h

/-- The default arguments meet the first legal move with `NotImplementedError`. -/
theorem C71_refuted_error (set : HtSettings K) (hn : set.norm = .relative)
    (z : List Nat → (Nat → Nat → Ext K) → Nat → Nat → Ext K) (theta : Option (Nat → Ext K)) (m : Mdp K)
    (Q : Nat → Nat → Nat → Ext K) (s t : Int) (l : List Int) (h : Spec.Adjacent m.trans (s, t)) :
    htFit set z theta [(m, .ok Q, s :: t :: l)] = .error .notImplementedError := by
  obtain ⟨h1, h2, a, ha, hp⟩ := h
  simp only at h1 h2 hp
  have hm : a ∈ npWhere m.trans.nA (fun a => decide (m.trans.p (Spec.stateOf m.trans.nS s) a
      (Spec.stateOf m.trans.nS t) ≠ 0)) := mem_npWhere.2 ⟨ha, by simpa using hp⟩
  have hc : htChecks [(m, (.ok Q : Py (Nat → Nat → Nat → Ext K)), s :: t :: l)] = .ok () := by
    unfold htChecks
    simp
  unfold htFit HtIrl.fit
  rw [hc]
  unfold htLoop htPairs singleMove
  simp only [pyIdx_stateOf, if_pos h1, if_pos h2, hn]
  cases hw : npWhere m.trans.nA (fun a => decide (m.trans.p (Spec.stateOf m.trans.nS s) a
      (Spec.stateOf m.trans.nS t) ≠ 0)) with
  | nil => rw [hw] at hm; cases hm
  | cons b bs => cases theta <;> simp

/-- All models have the same numbers of states, actions and features. -/
def SameShape (l : List (Mdp K)) : Prop :=
  ∀ m ∈ l, ∀ m' ∈ l, m.nStates = m'.nStates ∧ m.nActions = m'.nActions ∧
    m.features.d0 = m'.features.d0 ∧ m.features.d1 = m'.features.d1

theorem htChecks_ok (data : List (Mdp K × Py (Nat → Nat → Nat → Ext K) × List Int)) (hne : data ≠ [])
    (h1 : (data.head?.map fun d => d.2.2) ≠ some []) (hs : SameShape (data.map fun d => d.1)) :
    htChecks data = .ok () := by
  match data, hne, h1, hs with
  | [], hne, _, _ => exact absurd rfl hne
  | (m, Q, []) :: l, _, h1, _ => exact absurd rfl h1
  | (m, Q, s :: t) :: l, _, _, hs =>
    have hsh : ∀ d ∈ (m, Q, s :: t) :: l,
        d.1.nStates = m.nStates ∧ d.1.nActions = m.nActions ∧ d.1.features.d0 = m.features.d0 ∧
        d.1.features.d1 = m.features.d1 := fun d hd =>
      hs _ (List.mem_map.2 ⟨d, hd, rfl⟩) _ (List.mem_map.2 ⟨_, List.mem_cons_self, rfl⟩)
    unfold htChecks
    simp only
    rw [if_neg, if_neg]
    · rintro ⟨d, hd, hc⟩
      exact hc (hsh d hd).2.2
    · rintro ⟨d, hd, hc⟩
      exact hc ⟨(hsh d hd).1, (hsh d hd).2.1⟩

/-- The weights after all moves of some trajectories. -/
noncomputable def htResult (set : HtSettings K) (z : List Nat → (Nat → Nat → Ext K) → Nat → Nat → Ext K)
    (data : List (Mdp K × (Nat → Nat → Nat → Ext K) × List Int)) (start : Nat → Ext K) : Nat → Ext K := fun f =>
  htFold set 1 (start f) ((allMoves data).map fun o =>
    seen set z o.1 o.2.1 (Spec.stateOf o.1.nS o.2.2.1) (moveAction o.1 o.2.2) f)

theorem HtIrl.fit_ok (o : HtIrl K) (hn : o.set.norm ≠ .relative)
    (z : List Nat → (Nat → Nat → Ext K) → Nat → Nat → Ext K)
    (data : List (Mdp K × (Nat → Nat → Nat → Ext K) × List Int)) (h1 : (data.head?.map fun d => d.2.2) ≠ some [])
    (hs : SameShape (data.map fun d => d.1)) (hm : allMoves data ≠ [])
    (ha : ∀ d ∈ data, ∀ p ∈ Spec.moves d.2.2, Spec.Adjacent d.1.trans p) :
    o.fit z (data.map fun d => (d.1, .ok d.2.1, d.2.2)) = match o.theta with
      | .obj => (o, .error .typeError)
      | .none => ({ o with theta := .vec (htResult o.set z data fun _ => .fin 0), aliased := false },
          .ok (htResult o.set z data fun _ => .fin 0))
      | .vec x => (o.write (htResult o.set z data x), .ok (htResult o.set z data x)) := by
  have hpos : 0 < (allMoves data).length := List.length_pos_iff.2 hm
  have hc := htChecks_ok (data.map fun d => (d.1, (Except.ok d.2.1 : Py (Nat → Nat → Nat → Ext K)), d.2.2))
    (by
      intro h
      rw [List.map_eq_nil_iff] at h
      subst h
      exact hm rfl)
    (by
      rw [List.head?_map, Option.map_map]
      exact h1)
    (by
      rw [List.map_map]
      exact hs)
  unfold HtIrl.fit
  rw [hc]
  simp only
  cases o.theta with
  | obj =>
    simp only
    rw [htLoop_obj o.set z hn data 1 _ hm ha]
  | none =>
    simp only
    rw [htLoop_ok o.set z hn data 1 _ ha]
    simp only
    rw [if_neg (by omega)]
    rfl
  | vec x =>
    simp only
    rw [htLoop_ok o.set z hn data 1 _ ha]
    simp only
    rw [if_neg (by omega)]
    rfl

theorem htFit_ok (set : HtSettings K) (hn : set.norm ≠ .relative)
    (z : List Nat → (Nat → Nat → Ext K) → Nat → Nat → Ext K) (theta : Option (Nat → Ext K))
    (data : List (Mdp K × (Nat → Nat → Nat → Ext K) × List Int)) (h1 : (data.head?.map fun d => d.2.2) ≠ some [])
    (hs : SameShape (data.map fun d => d.1)) (hm : allMoves data ≠ [])
    (ha : ∀ d ∈ data, ∀ p ∈ Spec.moves d.2.2, Spec.Adjacent d.1.trans p) :
    htFit set z theta (data.map fun d => (d.1, .ok d.2.1, d.2.2)) = .ok fun f =>
      htFold set 1 (theta.getD (fun _ => .fin 0) f) ((allMoves data).map fun o =>
        seen set z o.1 o.2.1 (Spec.stateOf o.1.nS o.2.2.1) (moveAction o.1 o.2.2) f) := by
  unfold htFit
  rw [HtIrl.fit_ok _ hn z data h1 hs hm ha]
  cases theta <;> rfl

theorem moveAction_eq (M : Trans K) (p : Int × Int) (a : Nat)
    (h : Spec.FirstAction M (Spec.stateOf M.nS p.1) (Spec.stateOf M.nS p.2) a) : moveAction M p = a := by
  have hm : a ∈ npWhere M.nA (fun a => decide (M.p (Spec.stateOf M.nS p.1) a (Spec.stateOf M.nS p.2) ≠ 0)) :=
    mem_npWhere.2 ⟨h.1, by simpa using h.2.1⟩
  unfold moveAction
  cases hw : npWhere M.nA (fun a => decide (M.p (Spec.stateOf M.nS p.1) a (Spec.stateOf M.nS p.2) ≠ 0)) with
  | nil => rw [hw] at hm; cases hm
  | cons b bs =>
    obtain ⟨_, h2, h3⟩ := npWhere_cons hw
    rcases Nat.lt_trichotomy a b with hlt | heq | hgt
    · exact absurd (h3 a hlt) (by simpa using h.2.1)
    · exact heq.symm
    · exact absurd (h.2.2 b hgt) (by simpa using h2)

/-- The evidence a move gives for feature `f`: with z-scores the score of the chosen action among the legal ones,
otherwise its action value. -/
def evidence (set : HtSettings K) (z : List Nat → (Nat → Nat → Ext K) → Nat → Nat → Ext K) (M : Trans K)
    (Q : Nat → Nat → Nat → Ext K) (s a f : Nat) : Ext K :=
  match set.norm with
  | .zscore => z (legalActions M s) (fun x f => Q s x f) a f
  | _ => Q s a f

/-- **C71, what holds.** With any other normalisation, `fit` succeeds on trajectories of adjacent states (at least one
move overall). The weight of a feature whose evidence is finite at every move is the running estimate with the
documented rate; a feature with a NaN anywhere (in particular every ignored feature) ends as NaN. -/
theorem C71_partial (set : HtSettings K) (hn : set.norm ≠ .relative)
    (z : List Nat → (Nat → Nat → Ext K) → Nat → Nat → Ext K) (theta : Option (Nat → Ext K))
    (data : List (Mdp K × (Nat → Nat → Nat → Ext K) × List Int)) (h1 : (data.head?.map fun d => d.2.2) ≠ some [])
    (hs : SameShape (data.map fun d => d.1)) (hm : ∃ d ∈ data, Spec.moves d.2.2 ≠ [])
    (ha : ∀ d ∈ data, ∀ p ∈ Spec.moves d.2.2, Spec.Adjacent d.1.trans p) :
    ∃ R, htFit set z theta (data.map fun d => (d.1, .ok d.2.1, d.2.2)) = .ok R ∧ ∀ f,
      (∀ (w : K) (xs : List K), theta.getD (fun _ => .fin 0) f = .fin w →
        List.Forall₂ (fun o x => ∃ a, Spec.FirstAction o.1 (Spec.stateOf o.1.nS o.2.2.1)
          (Spec.stateOf o.1.nS o.2.2.2) a ∧
          evidence set z o.1 o.2.1 (Spec.stateOf o.1.nS o.2.2.1) a f = .fin x) (allMoves data) xs →
        R f = .fin (Spec.htEstimate set 1 w xs)) ∧
      ((∃ o ∈ allMoves data, ∃ a, Spec.FirstAction o.1 (Spec.stateOf o.1.nS o.2.2.1)
          (Spec.stateOf o.1.nS o.2.2.2) a ∧
          evidence set z o.1 o.2.1 (Spec.stateOf o.1.nS o.2.2.1) a f = .nan) → R f = .nan) := by
  have hm' : allMoves data ≠ [] := by
    obtain ⟨d, hd, hp⟩ := hm
    intro he
    unfold allMoves at he
    have := List.flatMap_eq_nil_iff.1 he d hd
    exact hp (by simpa using this)
  have hev : ∀ (M : Trans K) Q s a f, seen set z M Q s a f = evidence set z M Q s a f := by
    intro M Q s a f
    unfold seen evidence
    cases set.norm <;> simp
  refine ⟨_, htFit_ok set hn z theta data h1 hs hm' ha, fun f => ⟨fun w xs hw hx => ?_, ?_⟩⟩
  · rw [hw]
    have : (allMoves data).map (fun o =>
        seen set z o.1 o.2.1 (Spec.stateOf o.1.nS o.2.2.1) (moveAction o.1 o.2.2) f) = xs.map .fin := by
      clear hm hm' ha
      generalize allMoves data = ms at hx
      induction hx with
      | nil => rfl
      | cons hab _ ih =>
        obtain ⟨a, h1, h2⟩ := hab
        rw [List.map_cons, List.map_cons, ih, moveAction_eq _ _ a h1, hev, h2]
    rw [this, htFold_fin]
  · rintro ⟨o, ho, a, h1, h2⟩
    refine htFold_nan set _ _ _ (Or.inr (List.mem_map.2 ⟨o, ho, ?_⟩))
    rw [moveAction_eq _ _ a h1, hev, h2]

/-- **C71, from the model to the weights.** One substochastic model, solved by hard value iteration for each feature;
trajectories of adjacent states. Without z-scoring, a feature that is not ignored gets the running estimate from the
action values, move by move, of an agent rewarded for that feature alone; every ignored feature gets NaN (not its
starting weight), whatever the start. -/
theorem C71_solved_partial (set : HtSettings K) (hn : set.norm = .other)
    (z : List Nat → (Nat → Nat → Ext K) → Nat → Nat → Ext K) (theta : Option (Nat → K)) (m : Mdp K)
    (hM : Spec.SubStochastic m.trans) (hA : 0 < m.nActions) (excl : List Int) (k : Nat) (hk : 0 < k) (γ tol : K)
    (h0 : 0 < γ) (h1 : γ < 1) (ts : List (List Int)) (hf : ts.head? ≠ some [])
    (hm : ∃ t ∈ ts, Spec.moves t ≠ []) (ha : ∀ t ∈ ts, ∀ p ∈ Spec.moves t, Spec.Adjacent m.trans p) :
    ∃ R, htFit set z (theta.map fun w f => .fin (w f)) (ts.map fun t => (m,
        htQ m.nFeatures excl (fun w => solveHard m.trans (Spec.weighted m w) k γ tol), t)) = .ok R ∧
      ∀ f, f < m.nFeatures → if (f : Int) ∈ excl then R f = .nan else
        ∃ v q xs, solveHard m.trans (m.features.get f) k γ tol = .ok (v, q) ∧
          List.Forall₂ (fun (p : Int × Int) x => ∃ a, Spec.FirstAction m.trans (Spec.stateOf m.nStates p.1)
            (Spec.stateOf m.nStates p.2) a ∧ q (Spec.stateOf m.nStates p.1) a = .fin x) (ts.flatMap Spec.moves) xs ∧
          R f = .fin (Spec.htEstimate set 1 (theta.getD (fun _ => 0) f) xs) := by
  have hsol : ∀ w : Nat → K, ∃ v q, solveHard m.trans (Spec.weighted m w) k γ tol = .ok (v, q) := fun w => (C33_settings _ _ _ _ _).2.2 h0 h1 hk hA
  choose V q hq using hsol
  have hQ := htQ_ok m.nFeatures excl
    (fun w => solveHard m.trans (Spec.weighted m w) k γ tol)
    (fun f => V fun g => if g = f then 1 else 0) (fun f => q fun g => if g = f then 1 else 0) fun f _ => hq _
  rw [hQ]
  set Q : Nat → Nat → Nat → Ext K := fun s a f =>
    if f < m.nFeatures ∧ (f : Int) ∉ excl then q (fun g => if g = f then 1 else 0) s a else .nan with hQd
  have hdata : (ts.map fun t => (m, (Except.ok Q : Py _), t)) =
      ((ts.map fun t => (m, Q, t)).map fun d => (d.1, (Except.ok d.2.1 : Py _), d.2.2)) := by
    rw [List.map_map]; rfl
  rw [hdata]
  have hmoves : ∀ o ∈ allMoves (ts.map fun t => (m, Q, t)), o.1 = m.trans ∧ o.2.1 = Q ∧
      Spec.Adjacent m.trans o.2.2 := by
    intro o ho
    unfold allMoves at ho
    obtain ⟨d, hd, ho⟩ := List.mem_flatMap.1 ho
    obtain ⟨t, ht, rfl⟩ := List.mem_map.1 hd
    obtain ⟨p, hp, rfl⟩ := List.mem_map.1 ho
    exact ⟨rfl, rfl, ha t ht p hp⟩
  have hfirst : ∀ p, Spec.Adjacent m.trans p → ∃ a, Spec.FirstAction m.trans (Spec.stateOf m.trans.nS p.1)
      (Spec.stateOf m.trans.nS p.2) a := fun p hp => by
    obtain ⟨a, _, _, h, _⟩ := singleMove_ok set z (by rw [hn]; simp) m.trans Q p hp
    exact ⟨a, h⟩
  obtain ⟨R, hR, hspec⟩ := C71_partial set (by rw [hn]; simp) z (theta.map fun w f => .fin (w f))
    (ts.map fun t => (m, Q, t))
    (by
      cases ts with
      | nil => simp
      | cons t ts => simpa using hf)
    (by
      intro m1 h1 m2 h2
      simp only [List.map_map, List.mem_map] at h1 h2
      obtain ⟨_, _, rfl⟩ := h1
      obtain ⟨_, _, rfl⟩ := h2
      exact ⟨rfl, rfl, rfl, rfl⟩)
    (by obtain ⟨t, ht, hp⟩ := hm; exact ⟨_, List.mem_map.2 ⟨t, ht, rfl⟩, hp⟩)
    (by
      intro d hd p hp
      obtain ⟨t, ht, rfl⟩ := List.mem_map.1 hd
      exact ha t ht p hp)
  refine ⟨R, hR, fun f hfn => ?_⟩
  have hev : ∀ s a, evidence set z m.trans Q s a f = Q s a f := fun s a => by unfold evidence; rw [hn]
  split_ifs with he
  · apply (hspec f).2
    obtain ⟨t, ht, hp⟩ := hm
    obtain ⟨p, hp'⟩ := List.exists_mem_of_ne_nil _ hp
    obtain ⟨a, h⟩ := hfirst p (ha t ht p hp')
    refine ⟨(m.trans, Q, p), ?_, a, h, ?_⟩
    · unfold allMoves
      exact List.mem_flatMap.2 ⟨_, List.mem_map.2 ⟨t, ht, rfl⟩, List.mem_map.2 ⟨p, hp', rfl⟩⟩
    · simp only
      rw [hev, hQd]
      simp [he]
  · have hfin : ∀ o ∈ allMoves (ts.map fun t => (m, Q, t)), ∃ x, ∃ a, Spec.FirstAction o.1
        (Spec.stateOf o.1.nS o.2.2.1) (Spec.stateOf o.1.nS o.2.2.2) a ∧
        evidence set z o.1 o.2.1 (Spec.stateOf o.1.nS o.2.2.1) a f = .fin x := by
      intro o ho
      obtain ⟨e1, e2, e3⟩ := hmoves o ho
      rw [e1, e2]
      obtain ⟨a, h⟩ := hfirst _ e3
      have hs : Spec.stateOf m.trans.nS o.2.2.1 < m.trans.nS := by
        have := pyIdx_stateOf (n := m.trans.nS) (i := o.2.2.1)
        rw [if_pos e3.1] at this
        exact pyIdx_lt this
      have ht : Spec.stateOf m.trans.nS o.2.2.2 < m.trans.nS := by
        have := pyIdx_stateOf (n := m.trans.nS) (i := o.2.2.2)
        rw [if_pos e3.2.1] at this
        exact pyIdx_lt this
      have hmask := C29_mask m.trans hM _ _ _ _ _ _ (hq fun g => if g = f then 1 else 0) _ a hs h.1
      obtain ⟨x, hx⟩ := hmask.2 fun hc => h.2.1 (hmask.1.1 hc _ ht)
      refine ⟨x, a, h, ?_⟩
      rw [hev, hQd]
      simp only
      rw [if_pos ⟨hfn, he⟩, hx]
    have hxs : ∃ xs, List.Forall₂ (fun o x => ∃ a, Spec.FirstAction o.1 (Spec.stateOf o.1.nS o.2.2.1)
        (Spec.stateOf o.1.nS o.2.2.2) a ∧
        evidence set z o.1 o.2.1 (Spec.stateOf o.1.nS o.2.2.1) a f = .fin x)
        (allMoves (ts.map fun t => (m, Q, t))) xs := by
      generalize allMoves (ts.map fun t => (m, Q, t)) = l at hfin
      clear hmoves
      induction l with
      | nil => exact ⟨[], .nil⟩
      | cons o l ih =>
        obtain ⟨x, hx⟩ := hfin o List.mem_cons_self
        obtain ⟨xs, hxs⟩ := ih fun o ho => hfin o (List.mem_cons_of_mem _ ho)
        exact ⟨x :: xs, .cons hx hxs⟩
    obtain ⟨xs, hxs⟩ := hxs
    have hwf : Spec.weighted m (fun g => if g = f then 1 else 0) = m.features.get f := by
      funext s
      unfold Spec.weighted
      simp only [ite_mul, one_mul, zero_mul]
      rw [Finset.sum_ite_eq', if_pos (Finset.mem_range.2 hfn)]
    refine ⟨_, q fun g => if g = f then 1 else 0, xs, by rw [← hwf]; exact hq _, ?_, ?_⟩
    · have hl : allMoves (ts.map fun t => (m, Q, t)) = (ts.flatMap Spec.moves).map fun p => (m.trans, Q, p) := by
        unfold allMoves
        rw [List.flatMap_map, List.map_flatMap]
      rw [hl, List.forall₂_map_left_iff] at hxs
      refine hxs.imp ?_
      rintro p x ⟨a, h, h'⟩
      refine ⟨a, h, ?_⟩
      rw [hev, hQd] at h'
      simp only at h'
      rwa [if_pos ⟨hfn, he⟩] at h'
    · refine (hspec f).1 _ xs ?_ hxs
      cases theta <;> rfl

/-! ### z-scores -/

/-- **C71 (z-scores).** When all legal actions have finite values that are not all equal, the scores of the legal
actions have mean 0 and mean square 1. -/
theorem C71_zscore (rows : List Nat) (x : Nat → Nat → Ext ℝ) (f : Nat) (v : Nat → ℝ)
    (hv : ∀ a ∈ rows, x a f = .fin (v a)) (hd : ∃ a ∈ rows, ∃ b ∈ rows, v a ≠ v b) :
    ∃ w : Nat → ℝ, (∀ a ∈ rows, zscore rows x a f = .fin (w a)) ∧ (rows.map w).sum = 0 ∧
      (rows.map fun a => w a ^ 2).sum = rows.length := by
  have hcol : finiteColumn rows x f = rows.map v := by
    unfold finiteColumn
    clear hd
    induction rows with
    | nil => rfl
    | cons a l ih =>
      rw [List.filterMap_cons, hv a List.mem_cons_self, ih fun b hb => hv b (List.mem_cons_of_mem _ hb)]
      rfl
  set μ := listMean (rows.map v) with hμ
  set σ := listStd (rows.map v) with hσ
  have hlen : 0 < rows.length := by
    obtain ⟨a, ha, _⟩ := hd
    exact List.length_pos_of_mem ha
  have hlen' : (rows.length : ℝ) ≠ 0 := Nat.cast_ne_zero.2 (by omega)
  have hvar : σ ^ 2 = (rows.map fun a => (v a - μ) ^ 2).sum / rows.length := by
    rw [hσ]
    unfold listStd
    rw [Real.sq_sqrt]
    · rw [← hμ, List.map_map, listMean, List.length_map]
      rfl
    · unfold listMean
      refine div_nonneg (List.sum_nonneg ?_) (Nat.cast_nonneg _)
      intro y hy
      obtain ⟨u, _, rfl⟩ := List.mem_map.1 hy
      exact sq_nonneg _
  have hσ0 : σ ≠ 0 := by
    intro h
    rw [h, zero_pow two_ne_zero, eq_comm, div_eq_zero_iff] at hvar
    have hsum := hvar.resolve_right hlen'
    have hz : ∀ a ∈ rows, v a = μ := by
      intro a ha
      have h0 : ∀ y ∈ rows.map (fun a => (v a - μ) ^ 2), (0 : ℝ) ≤ y := by
        intro y hy
        obtain ⟨u, _, rfl⟩ := List.mem_map.1 hy
        exact sq_nonneg _
      have := List.single_le_sum h0 _ (List.mem_map.2 ⟨a, ha, rfl⟩)
      rw [hsum] at this
      have := pow_eq_zero_iff (two_ne_zero) |>.1 (le_antisymm this (sq_nonneg _))
      linarith
    obtain ⟨a, ha, b, hb, hne⟩ := hd
    exact hne ((hz a ha).trans (hz b hb).symm)
  have hsum0 : (rows.map fun a => v a - μ).sum = 0 := by
    have h1 : ∀ l : List Nat, (l.map fun a => v a - μ).sum = (l.map v).sum - l.length * μ := by
      intro l
      induction l with
      | nil => simp
      | cons a l ih => simp only [List.map_cons, List.sum_cons, ih, List.length_cons]; push_cast; ring
    rw [h1, hμ]
    unfold listMean
    rw [List.length_map]
    field_simp
    ring
  refine ⟨fun a => (v a - μ) / σ, fun a ha => ?_, ?_, ?_⟩
  · unfold zscore
    rw [hv a ha]
    simp only [hcol]
    rw [if_neg hσ0]
  · have : ∀ l : List Nat, (l.map fun a => (v a - μ) / σ).sum = (l.map fun a => v a - μ).sum / σ := by
      intro l
      induction l with
      | nil => simp
      | cons a l ih => simp only [List.map_cons, List.sum_cons, ih]; ring
    rw [this, hsum0, zero_div]
  · have : ∀ l : List Nat, (l.map fun a => ((v a - μ) / σ) ^ 2).sum = (l.map fun a => (v a - μ) ^ 2).sum / σ ^ 2 := by
      intro l
      induction l with
      | nil => simp
      | cons a l ih => simp only [List.map_cons, List.sum_cons, ih]; ring
    rw [this, div_eq_iff (pow_ne_zero 2 hσ0), hvar]
    field_simp

/-- **C71 (z-scores, ties).** When all legal actions are worth the same for a feature (for example one that no state
has), the score is `0 / 0`; by `C71_partial` the feature's weight is NaN from then on. -/
theorem C71_zscore_tie (rows : List Nat) (x : Nat → Nat → Ext ℝ) (f : Nat) (c : ℝ)
    (hv : ∀ a ∈ rows, x a f = .fin c) (a : Nat) (ha : a ∈ rows) : zscore rows x a f = .nan := by
  have hlen : 0 < rows.length := List.length_pos_of_mem ha
  have hcol : finiteColumn rows x f = rows.map fun _ => c := by
    unfold finiteColumn
    clear ha hlen
    induction rows with
    | nil => rfl
    | cons a l ih =>
      rw [List.filterMap_cons, hv a List.mem_cons_self, ih fun b hb => hv b (List.mem_cons_of_mem _ hb)]
      rfl
  have hlen' : (rows.length : ℝ) ≠ 0 := Nat.cast_ne_zero.2 (by omega)
  have hmean : listMean (rows.map fun _ => c) = c := by
    unfold listMean
    rw [List.map_const', List.sum_replicate, List.length_replicate, nsmul_eq_mul]
    field_simp
  have hstd : listStd (rows.map fun _ => c) = 0 := by
    unfold listStd
    rw [hmean, List.map_map]
    have : (rows.map ((fun v => (v - c) ^ 2) ∘ fun _ => c)) = rows.map fun _ => (0 : ℝ) := by
      refine List.map_congr_left fun _ _ => ?_
      simp
    rw [this]
    unfold listMean
    simp
  unfold zscore
  rw [hv a ha]
  simp only [hcol]
  rw [if_pos hstd]

/-- Moving 2 → 1 → 0 on the strip, with `normalisation` neither of the documented values: feature 0 is finite, ignored
feature 1 is NaN, and the default normalisation raises. -/
example : (match exIrlMdp with
    | .ok m =>
      let Q := htQ m.nFeatures [1] fun w => solveHard m.trans (stateReward m.nFeatures w m.features.get) 3 (1/2) (1/100)
      match htFit ⟨1/2, 1, 2, .other⟩ (fun _ x a f => x a f) none [(m, Q, [2, 1, 0])],
        htFit ⟨1/2, 1, 2, .relative⟩ (fun _ x a f => x a f) none [(m, Q, [2, 1, 0])] with
      | .ok R, .error e => (match R 0, R 1 with
        | .fin x, .nan => decide (0 < x)
        | _, _ => false) && decide (e = .notImplementedError)
      | _, _ => false
    | .error _ => false) = true := by decide +kernel

end MaMDP
