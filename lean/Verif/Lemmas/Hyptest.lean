import Verif.Lemmas.IRL

/-! # Lemmas about feature matching and hypothesis-testing IRL -/

set_option linter.unusedSectionVars false

namespace MaMDP

variable {K : Type} [Field K] [LinearOrder K] [IsStrictOrderedRing K]

theorem laterCounts_ok (m : Mdp K) : ∀ (l : List Int), (∀ i ∈ l, Spec.InRange m.features.d1 i) →
    laterCounts m l = .ok fun f => (l.map fun i => m.features.get f (Spec.stateOf m.features.d1 i)).sum
  | [], _ => by simp [laterCounts]
  | i :: l, h => by
    rw [laterCounts, pyIdx_stateOf, if_pos (h i List.mem_cons_self)]
    simp only
    rw [laterCounts_ok m l fun j hj => h j (List.mem_cons_of_mem _ hj)]
    simp

theorem laterCounts_error (m : Mdp K) : ∀ (l : List Int), (∃ i ∈ l, ¬ Spec.InRange m.features.d1 i) →
    laterCounts m l = .error .indexError
  | [], h => by simp at h
  | i :: l, h => by
    rw [laterCounts, pyIdx_stateOf]
    by_cases hi : Spec.InRange m.features.d1 i
    · rw [if_pos hi]
      simp only
      rw [laterCounts_error m l]
      obtain ⟨j, hj, hr⟩ := h
      rcases List.mem_cons.1 hj with rfl | hj
      · exact absurd hi hr
      · exact ⟨j, hj, hr⟩
    · rw [if_neg hi]

theorem matchRows_ok (nF : Nat) : ∀ (l : List (Mdp K × List Int)),
    (∀ p ∈ l, p.1.features.d0 = nF ∧ ∀ i ∈ p.2.tail, Spec.InRange p.1.features.d1 i) →
    matchRows nF l = .ok (l.map fun p => Spec.laterTotal p.1 p.2)
  | [], _ => rfl
  | (m, t) :: l, h => by
    obtain ⟨h1, h2⟩ := h _ List.mem_cons_self
    rw [matchRows, List.drop_one, laterCounts_ok m t.tail h2]
    simp only
    simp only at h1
    rw [if_neg (fun h => h.1 h1), matchRows_ok nF l fun p hp => h p (List.mem_cons_of_mem _ hp), if_pos h1]
    rfl

theorem pyIdx_some_iff {n : Nat} {l : List Int} {k : Nat} :
    (∃ i ∈ l, pyIdx n i = some k) ↔ Spec.Names n l k := by
  unfold Spec.Names
  constructor
  · rintro ⟨i, hi, e⟩
    rw [pyIdx_stateOf] at e
    split_ifs at e with hr
    exact ⟨i, hi, hr, Option.some.inj e⟩
  · rintro ⟨i, hi, hr, e⟩
    exact ⟨i, hi, by rw [pyIdx_stateOf, if_pos hr, e]⟩

theorem pyIdx_none_iff {n : Nat} {l : List Int} :
    (∃ i ∈ l, pyIdx n i = none) ↔ ∃ i ∈ l, ¬ Spec.InRange n i := by
  constructor
  · rintro ⟨i, hi, e⟩
    refine ⟨i, hi, fun hr => ?_⟩
    rw [pyIdx_stateOf, if_pos hr] at e
    cases e
  · rintro ⟨i, hi, hr⟩
    exact ⟨i, hi, by rw [pyIdx_stateOf, if_neg hr]⟩

theorem sum_getElem? {α : Type} (g : α → K) : ∀ l : List α,
    ∑ n ∈ Finset.range l.length, (match l[n]? with | some x => g x | none => 0) = (l.map g).sum
  | [] => by simp
  | x :: l => by
    rw [List.length_cons, Finset.sum_range_succ', List.map_cons, List.sum_cons, ← sum_getElem? g l, add_comm]
    simp

theorem npWhere_cons {n : Nat} {p : Nat → Bool} {a : Nat} {l : List Nat} (h : npWhere n p = a :: l) :
    a < n ∧ p a = true ∧ ∀ b, b < a → p b = false := by
  have hm : a ∈ npWhere n p := by rw [h]; exact List.mem_cons_self
  obtain ⟨h1, h2⟩ := mem_npWhere.1 hm
  refine ⟨h1, h2, fun b hb => ?_⟩
  by_contra hc
  have hbm : b ∈ npWhere n p := mem_npWhere.2 ⟨by omega, by simpa using hc⟩
  have hs : (npWhere n p).Pairwise (· < ·) := List.pairwise_lt_range.filter p
  rw [h] at hbm hs
  rcases List.mem_cons.1 hbm with rfl | hb'
  · omega
  · have := (List.pairwise_cons.1 hs).1 b hb'
    omega

/-! ## Hypothesis testing -/

section Ht

variable (set : HtSettings K) (z : List Nat → (Nat → Nat → Ext K) → Nat → Nat → Ext K)

/-- `relative` normalisation never gets past a move. -/
theorem htPairs_relative (hn : set.norm = .relative) (b : Bool) (M : Trans K) (Q : Py (Nat → Nat → Nat → Ext K)) :
    ∀ (t : List Int) (n : Nat) (R : Nat → Ext K) (x : Nat × (Nat → Ext K)),
    htPairs set b M z Q t n R = (x, .ok ()) → x.1 = n
  | [], n, R, x, h => by rw [← (Prod.mk.inj h).1]
  | [s], n, R, x, h => by rw [← (Prod.mk.inj h).1]
  | s :: t :: l, n, R, x, h => by
    exfalso
    unfold htPairs at h
    cases hi : pyIdx M.nS s with
    | none => simp [hi] at h
    | some i =>
      cases hj : pyIdx M.nS t with
      | none => simp [hi, hj] at h
      | some j =>
        simp only [hi, hj] at h
        cases hw : npWhere M.nA (fun a => decide (M.p i a j ≠ 0)) with
        | nil => simp only [hw] at h; cases (Prod.mk.inj h).2
        | cons a as =>
          simp only [hw] at h
          cases Q with
          | error e => cases (Prod.mk.inj h).2
          | ok Q =>
            have hm : singleMove set M z Q s t = .error .notImplementedError := by
              unfold singleMove
              simp only [hi, hj, hw, hn]
            simp only [hm] at h
            cases (Prod.mk.inj h).2

theorem htLoop_relative (hn : set.norm = .relative) (b : Bool) :
    ∀ (data : List (Mdp K × Py (Nat → Nat → Nat → Ext K) × List Int)) (n : Nat) (R : Nat → Ext K)
      (x : Nat × (Nat → Ext K)), htLoop set b z data n R = (x, .ok ()) → x.1 = n
  | [], n, R, x, h => by rw [← (Prod.mk.inj h).1]
  | (m, Q, t) :: l, n, R, x, h => by
    rw [htLoop] at h
    split at h
    · cases (Prod.mk.inj h).2
    · rename_i n' R' heq
      have e := htPairs_relative set z hn b m.trans Q t n R _ heq
      simp only at e
      subst e
      exact htLoop_relative hn b l n' R' x h

/-- The weights read off one move. -/
def seen (M : Trans K) (Q : Nat → Nat → Nat → Ext K) (s a : Nat) : Nat → Ext K :=
  if set.norm = .zscore then fun f => z (legalActions M s) (fun x f => Q s x f) a f else fun f => Q s a f

theorem singleMove_ok (hn : set.norm ≠ .relative) (M : Trans K) (Q : Nat → Nat → Nat → Ext K) (p : Int × Int)
    (h : Spec.Adjacent M p) : ∃ a as, npWhere M.nA (fun a => decide (M.p (Spec.stateOf M.nS p.1) a
        (Spec.stateOf M.nS p.2) ≠ 0)) = a :: as ∧
      Spec.FirstAction M (Spec.stateOf M.nS p.1) (Spec.stateOf M.nS p.2) a ∧
      singleMove set M z Q p.1 p.2 = .ok (seen set z M Q (Spec.stateOf M.nS p.1) a) := by
  obtain ⟨h1, h2, b, hb, hp⟩ := h
  have hm : b ∈ npWhere M.nA (fun a => decide (M.p (Spec.stateOf M.nS p.1) a (Spec.stateOf M.nS p.2) ≠ 0)) :=
    mem_npWhere.2 ⟨hb, by simpa using hp⟩
  match e : npWhere M.nA (fun a => decide (M.p (Spec.stateOf M.nS p.1) a (Spec.stateOf M.nS p.2) ≠ 0)) with
  | [] => rw [e] at hm; cases hm
  | a :: as =>
    obtain ⟨e1, e2, e3⟩ := npWhere_cons e
    refine ⟨a, as, rfl, ⟨e1, by simpa using e2, fun c hc => by simpa using e3 c hc⟩, ?_⟩
    unfold singleMove seen
    rw [pyIdx_stateOf, pyIdx_stateOf, if_pos h1, if_pos h2]
    simp only [e]
    cases hs : set.norm with
    | zscore => simp
    | relative => exact absurd hs hn
    | other => simp

/-- What a list of moves does to one feature's weight. -/
def htFold : Nat → Ext K → List (Ext K) → Ext K
  | _, w, [] => w
  | n, w, x :: l => htFold (n + 1) (htUpdate set n (fun _ => x) (fun _ => w) 0) l

theorem htFold_append : ∀ (n : Nat) (w : Ext K) (l l' : List (Ext K)),
    htFold set n w (l ++ l') = htFold set (n + l.length) (htFold set n w l) l'
  | n, w, [], l' => rfl
  | n, w, x :: l, l' => by
    rw [List.cons_append, htFold, htFold_append, htFold, List.length_cons]
    congr 1
    omega

/-- The action each move is attributed to. -/
noncomputable def moveAction (M : Trans K) (p : Int × Int) : Nat :=
  (npWhere M.nA fun a => decide (M.p (Spec.stateOf M.nS p.1) a (Spec.stateOf M.nS p.2) ≠ 0)).headD 0

theorem htPairs_ok (hn : set.norm ≠ .relative) (M : Trans K) (Q : Nat → Nat → Nat → Ext K) :
    ∀ (t : List Int) (n : Nat) (R : Nat → Ext K), (∀ p ∈ Spec.moves t, Spec.Adjacent M p) →
    htPairs set false M z (.ok Q) t n R = ((n + (Spec.moves t).length, fun f => htFold set n (R f)
      ((Spec.moves t).map fun p => seen set z M Q (Spec.stateOf M.nS p.1) (moveAction M p) f)), .ok ())
  | [], n, R, _ => by simp [htPairs, Spec.moves, htFold]
  | [s], n, R, _ => by simp [htPairs, Spec.moves, htFold]
  | s :: t :: l, n, R, h => by
    have hst : Spec.Adjacent M (s, t) := h _ List.mem_cons_self
    obtain ⟨a, as, e1, e2, e3⟩ := singleMove_ok set z hn M Q (s, t) hst
    have ha : moveAction M (s, t) = a := by unfold moveAction; rw [e1]; rfl
    rw [htPairs, pyIdx_stateOf, pyIdx_stateOf, if_pos hst.1, if_pos hst.2.1]
    simp only at e1 e3 ⊢
    simp only [e1, e3, Bool.false_eq_true, if_false]
    rw [htPairs_ok hn M Q (t :: l) (n + 1) _ fun p hp => h p (List.mem_cons_of_mem _ hp)]
    simp only [Spec.moves, List.length_cons, List.map_cons, htFold, ha]
    congr 2
    omega

/-- The moves of all trajectories, each with the model and action values it is judged by. -/
def allMoves (data : List (Mdp K × (Nat → Nat → Nat → Ext K) × List Int)) :
    List (Trans K × (Nat → Nat → Nat → Ext K) × (Int × Int)) :=
  data.flatMap fun d => (Spec.moves d.2.2).map fun p => (d.1.trans, d.2.1, p)

theorem htLoop_ok (hn : set.norm ≠ .relative) :
    ∀ (data : List (Mdp K × (Nat → Nat → Nat → Ext K) × List Int)) (n : Nat) (R : Nat → Ext K),
    (∀ d ∈ data, ∀ p ∈ Spec.moves d.2.2, Spec.Adjacent d.1.trans p) →
    htLoop set false z (data.map fun d => (d.1, .ok d.2.1, d.2.2)) n R = ((n + (allMoves data).length, fun f =>
      htFold set n (R f) ((allMoves data).map fun o =>
        seen set z o.1 o.2.1 (Spec.stateOf o.1.nS o.2.2.1) (moveAction o.1 o.2.2) f)), .ok ())
  | [], n, R, _ => by simp [htLoop, allMoves, htFold]
  | (m, Q, t) :: l, n, R, h => by
    rw [List.map_cons, htLoop, htPairs_ok set z hn m.trans Q t n R (h _ List.mem_cons_self)]
    simp only
    rw [htLoop_ok hn l _ _ fun d hd => h d (List.mem_cons_of_mem _ hd)]
    have e : allMoves ((m, Q, t) :: l) = (Spec.moves t).map (fun p => (m.trans, Q, p)) ++ allMoves l := rfl
    rw [e, List.length_append, List.length_map]
    congr 2
    · omega
    · funext f
      rw [List.map_append, List.map_map, htFold_append, List.length_map]
      rfl

/-- Weights that are not numbers fail at the first move. -/
theorem htLoop_obj (hn : set.norm ≠ .relative) :
    ∀ (data : List (Mdp K × (Nat → Nat → Nat → Ext K) × List Int)) (n : Nat) (R : Nat → Ext K),
    allMoves data ≠ [] → (∀ d ∈ data, ∀ p ∈ Spec.moves d.2.2, Spec.Adjacent d.1.trans p) →
    htLoop set true z (data.map fun d => (d.1, .ok d.2.1, d.2.2)) n R = ((n, R), .error .typeError)
  | [], n, R, hm, _ => absurd rfl hm
  | (m, Q, s :: t :: ss) :: l, n, R, _, h => by
    have hst : Spec.Adjacent m.trans (s, t) := h _ List.mem_cons_self _ List.mem_cons_self
    obtain ⟨a, as, e1, e2, e3⟩ := singleMove_ok set z hn m.trans Q (s, t) hst
    rw [List.map_cons, htLoop]
    simp only
    rw [htPairs, pyIdx_stateOf, pyIdx_stateOf, if_pos hst.1, if_pos hst.2.1]
    simp only at e1 e3 ⊢
    simp only [e1, e3, if_true]
  | (m, Q, []) :: l, n, R, hm, h => by
    rw [List.map_cons, htLoop]
    exact htLoop_obj hn l n R hm fun d hd => h d (List.mem_cons_of_mem _ hd)
  | (m, Q, [s]) :: l, n, R, hm, h => by
    rw [List.map_cons, htLoop]
    exact htLoop_obj hn l n R hm fun d hd => h d (List.mem_cons_of_mem _ hd)

/-- An impossible move raises before anything is learned from it. -/
theorem htPairs_bad (M : Trans K) (Q : Py (Nat → Nat → Nat → Ext K)) (s t : Int) (l : List Int) (n : Nat)
    (R : Nat → Ext K) (h : ¬ Spec.Adjacent M (s, t)) (b : Bool := false) :
    htPairs set b M z Q (s :: t :: l) n R = ((n, R), .error .valueError) := by
  unfold htPairs
  rw [pyIdx_stateOf, pyIdx_stateOf]
  by_cases h1 : Spec.InRange M.nS s
  · by_cases h2 : Spec.InRange M.nS t
    · rw [if_pos (show _ from h1), if_pos (show _ from h2)]
      simp only
      have : npWhere M.nA (fun a => decide (M.p (Spec.stateOf M.nS s) a (Spec.stateOf M.nS t) ≠ 0)) = [] := by
        rw [List.eq_nil_iff_forall_not_mem]
        intro a ha
        obtain ⟨h3, h4⟩ := mem_npWhere.1 ha
        exact h ⟨h1, h2, a, h3, by simpa using h4⟩
      rw [this]
    · rw [if_pos (show _ from h1), if_neg (show _ from h2)]
  · rw [if_neg (show _ from h1)]

theorem htLoop_append (b : Bool) : ∀ (d d' : List (Mdp K × Py (Nat → Nat → Nat → Ext K) × List Int)) (n : Nat)
    (R : Nat → Ext K), htLoop set b z (d ++ d') n R = match htLoop set b z d n R with
      | (st, .error e) => (st, .error e)
      | ((n, R), .ok ()) => htLoop set b z d' n R
  | [], d', n, R => rfl
  | (m, Q, t) :: l, d', n, R => by
    rw [List.cons_append, htLoop, htLoop]
    match htPairs set b m.trans z Q t n R with
    | (st, .error e) => rfl
    | ((n, R), .ok ()) => exact htLoop_append b l d' n R

end Ht

theorem htUpdate_fin (set : HtSettings K) (n : Nat) (x w : K) :
    htUpdate set n (fun _ => .fin x) (fun _ => .fin w) 0 = .fin (w + Spec.htRate set n x w * (x - w)) := by
  unfold htUpdate Spec.htRate
  by_cases hd : set.decay = 0
  · rw [if_neg (by omega), if_pos hd]
    simp [Ext.add, Ext.neg, Ext.mul]
    left; ring
  · rw [if_pos (by omega), if_neg hd]
    simp only [Ext.add, Ext.neg, Ext.abs, Ext.isNeg, Ext.isNonneg, Ext.mul]
    have e1 : (|x| + -|w| < 0) ↔ |x| < |w| := by constructor <;> intro h <;> linarith
    have e2 : (0 ≤ |x| + -|w|) ↔ ¬ |x| < |w| := by rw [not_lt]; constructor <;> intro h <;> linarith
    by_cases hc : |x| < |w|
    · simp [e1, hc]; left; ring
    · simp [e1, e2, hc]; left; ring

theorem htFold_fin (set : HtSettings K) : ∀ (l : List K) (n : Nat) (w : K),
    htFold set n (.fin w) (l.map .fin) = .fin (Spec.htEstimate set n w l)
  | [], n, w => rfl
  | x :: l, n, w => by
    rw [List.map_cons, htFold, htUpdate_fin, htFold_fin set l (n + 1), Spec.htEstimate]

theorem htUpdate_nan (set : HtSettings K) (n : Nat) (x w : Ext K) (h : x = .nan ∨ w = .nan) :
    htUpdate set n (fun _ => x) (fun _ => w) 0 = .nan := by
  have hd : Ext.add x (Ext.neg w) = .nan := by
    rcases h with rfl | rfl
    · rfl
    · cases x <;> rfl
  have hm : ∀ y : K, Ext.mul (.fin y) (Ext.nan : Ext K) = .nan := fun y => rfl
  have ha : ∀ y : Ext K, Ext.add y .nan = .nan := fun y => by cases y <;> rfl
  unfold htUpdate
  simp only [hd, hm, ha, ite_self]

theorem htFold_nan (set : HtSettings K) : ∀ (l : List (Ext K)) (n : Nat) (w : Ext K),
    (w = .nan ∨ .nan ∈ l) → htFold set n w l = .nan
  | [], n, w, h => by simpa [htFold] using h
  | x :: l, n, w, h => by
    rw [htFold]
    apply htFold_nan
    rcases h with h | h
    · exact Or.inl (htUpdate_nan set n x w (Or.inr h))
    · rcases List.mem_cons.1 h with h | h
      · exact Or.inl (htUpdate_nan set n x w (Or.inl h.symm))
      · exact Or.inr h

theorem htQ_ok (nF : Nat) (excl : List Int) (solve : (Nat → K) → Py ((Nat → K) × (Nat → Nat → Ext K)))
    (V : Nat → Nat → K) (q : Nat → Nat → Nat → Ext K)
    (h : ∀ f, f < nF → solve (fun g => if g = f then 1 else 0) = .ok (V f, q f)) :
    htQ nF excl solve = .ok fun s a f => if f < nF ∧ (f : Int) ∉ excl then q f s a else .nan := by
  unfold htQ
  have key : ∀ k, k ≤ nF → (List.range k).foldlM (m := Except PyErr) (fun (Q : Nat → Nat → Nat → Ext K) (f : Nat) =>
      if (f : Int) ∈ excl then .ok Q
      else match solve (fun g => if g = f then 1 else 0) with
        | .error e => .error e
        | .ok (_, q) => .ok fun s a g => if g = f then q s a else Q s a g) (fun _ _ (_ : Nat) => Ext.nan) =
      (.ok fun s a f => if f < k ∧ (f : Int) ∉ excl then q f s a else .nan : Py (Nat → Nat → Nat → Ext K)) := by
    intro k
    induction k with
    | zero => intro _; simp; rfl
    | succ k ih =>
      intro hk
      rw [List.range_succ, List.foldlM_append, ih (by omega)]
      simp only [List.foldlM_cons, List.foldlM_nil]
      by_cases he : (k : Int) ∈ excl
      · show (if (k : Int) ∈ excl then _ else _ : Py _) >>= _ = _
        rw [if_pos he]
        show Except.ok _ = _
        congr 1
        funext s a f
        by_cases hf : f < k ∧ (f : Int) ∉ excl
        · rw [if_pos hf, if_pos ⟨by omega, hf.2⟩]
        · rw [if_neg hf, if_neg]
          rintro ⟨h1, h2⟩
          rcases Nat.lt_succ_iff_lt_or_eq.1 h1 with h3 | rfl
          · exact hf ⟨h3, h2⟩
          · exact h2 he
      · show (if (k : Int) ∈ excl then _ else _ : Py _) >>= _ = _
        rw [if_neg he, h k (by omega)]
        show Except.ok _ = _
        congr 1
        funext s a f
        by_cases hfk : f = k
        · subst hfk
          rw [if_pos rfl, if_pos ⟨by omega, he⟩]
        · rw [if_neg hfk]; beta_reduce
          by_cases hf : f < k ∧ (f : Int) ∉ excl
          · rw [if_pos hf, if_pos ⟨by omega, hf.2⟩]
          · rw [if_neg hf, if_neg]
            rintro ⟨h1, h2⟩
            exact hf ⟨by omega, h2⟩
  exact key nF (le_refl _)

end MaMDP
