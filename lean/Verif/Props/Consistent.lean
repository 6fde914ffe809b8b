/- C160: the same evidence again and again is learned in the end by hypothesis-testing IRL.
Code: maMDP/algorithms/irl.py (HyptestIRL). -/
import Verif.Lemmas.Consistent
import Verif.Props.HtBounds

set_option linter.unusedSectionVars false

namespace MaMDP

open Filter Topology

variable {K : Type} [Field K] [LinearOrder K] [IsStrictOrderedRing K]

theorem flatMap_replicate_length {α β : Type} (g : α → List β) (x : α) : ∀ k,
    ((List.replicate k x).flatMap g).length = k * (g x).length
  | 0 => by simp
  | k + 1 => by
    rw [List.replicate_succ, List.flatMap_cons, List.length_append, flatMap_replicate_length g x k]
    ring

theorem forall₂_replicate {α β : Type} (P : α → β → Prop) (x : β) : ∀ l : List α, (∀ o ∈ l, P o x) →
    List.Forall₂ P l (List.replicate l.length x)
  | [], _ => .nil
  | o :: l, h => .cons (h o List.mem_cons_self) (forall₂_replicate P x l fun o' ho => h o' (List.mem_cons_of_mem _ ho))

/-- Fitting a demonstration shown `k + 1` times whose moves all give the same evidence. -/
theorem fit_shown (set : HtSettings K) (hn : set.norm ≠ .relative)
    (z : List Nat → (Nat → Nat → Ext K) → Nat → Nat → Ext K) (theta : Option (Nat → Ext K)) (m : Mdp K)
    (Q : Nat → Nat → Nat → Ext K) (t : List Int) (hm : Spec.moves t ≠ [])
    (ha : ∀ p ∈ Spec.moves t, Spec.Adjacent m.trans p) (k : Nat) :
    ∃ R, htFit set z theta (List.replicate (k + 1) (m, .ok Q, t)) = .ok R ∧ ∀ f w x,
      theta.getD (fun _ => .fin 0) f = .fin w →
      (∀ p ∈ Spec.moves t, ∃ a, Spec.FirstAction m.trans (Spec.stateOf m.nStates p.1) (Spec.stateOf m.nStates p.2) a ∧
        evidence set z m.trans Q (Spec.stateOf m.nStates p.1) a f = .fin x) →
      R f = .fin (Spec.htEstimate set 1 w (List.replicate ((k + 1) * (Spec.moves t).length) x)) := by
  have hall : ∀ d ∈ List.replicate (k + 1) (m, Q, t), d = (m, Q, t) := fun d hd => List.eq_of_mem_replicate hd
  obtain ⟨R, hR, hspec⟩ := C71_partial set hn z theta (List.replicate (k + 1) (m, Q, t))
    (by
      rw [List.replicate_succ]
      intro h
      simp only [List.head?_cons, Option.map_some, Option.some.injEq] at h
      rw [h] at hm
      exact hm rfl)
    (by
      intro a h b h'
      obtain ⟨d, hd, rfl⟩ := List.mem_map.1 h
      obtain ⟨d', hd', rfl⟩ := List.mem_map.1 h'
      rw [hall d hd, hall d' hd']
      exact ⟨rfl, rfl, rfl, rfl⟩)
    ⟨(m, Q, t), by rw [List.replicate_succ]; exact List.mem_cons_self, hm⟩
    (by
      intro d hd p hp
      rw [hall d hd] at hp ⊢
      exact ha p hp)
  rw [List.map_replicate] at hR
  refine ⟨R, hR, fun f w x hw hx => ?_⟩
  have hlen : (allMoves (List.replicate (k + 1) (m, Q, t))).length = (k + 1) * (Spec.moves t).length := by
    unfold allMoves
    rw [flatMap_replicate_length, List.length_map]
  rw [← hlen]
  refine (hspec f).1 w _ hw (forall₂_replicate _ x _ fun o ho => ?_)
  obtain ⟨d, hd, ho⟩ := List.mem_flatMap.1 ho
  rw [hall d hd] at ho
  obtain ⟨p, hp, rfl⟩ := List.mem_map.1 ho
  exact hx p hp

/-- **C160, what holds.** Show the learner the same demonstration again and again, all moves of which give the same
evidence for a feature. Without decay and with a learning rate below 2, and with a decay of 1 whatever the learning rate
and the asymmetry, the weight learned tends to that evidence from any starting weight. -/
theorem C160_partial (set : HtSettings ℝ) (hn : set.norm ≠ .relative) (hl : 0 < set.lr) (ha1 : 1 ≤ set.asymmetry)
    (hd : set.decay = 0 ∧ set.lr < 2 ∨ set.decay = 1)
    (z : List Nat → (Nat → Nat → Ext ℝ) → Nat → Nat → Ext ℝ) (theta : Option (Nat → Ext ℝ)) (m : Mdp ℝ)
    (Q : Nat → Nat → Nat → Ext ℝ) (t : List Int) (hm : Spec.moves t ≠ [])
    (ha : ∀ p ∈ Spec.moves t, Spec.Adjacent m.trans p) :
    ∃ R : Nat → Nat → Ext ℝ, (∀ k, htFit set z theta (List.replicate (k + 1) (m, .ok Q, t)) = .ok (R k)) ∧
      ∀ f w x, theta.getD (fun _ => .fin 0) f = .fin w →
        (∀ p ∈ Spec.moves t, ∃ a, Spec.FirstAction m.trans (Spec.stateOf m.nStates p.1) (Spec.stateOf m.nStates p.2) a ∧
          evidence set z m.trans Q (Spec.stateOf m.nStates p.1) a f = .fin x) →
        ∃ y : Nat → ℝ, (∀ k, R k f = .fin (y k)) ∧ Tendsto y atTop (𝓝 x) := by
  choose R hR hspec using fit_shown set hn z theta m Q t hm ha
  refine ⟨R, hR, fun f w x hw hx => ⟨_, fun k => hspec k f w x hw hx, ?_⟩⟩
  have hlen : 0 < (Spec.moves t).length := List.length_pos_of_ne_nil hm
  have hN : Tendsto (fun k : Nat => (k + 1) * (Spec.moves t).length) atTop atTop :=
    tendsto_atTop_mono (fun k => le_trans (Nat.le_succ k) (Nat.le_mul_of_pos_right (k + 1) hlen)) tendsto_id
  refine Tendsto.comp (g := fun N => Spec.htEstimate set 1 w (List.replicate N x)) ?_ hN
  rcases hd with ⟨hd, h2⟩ | hd
  · have h : ∀ N, Spec.htEstimate set 1 w (List.replicate N x) = (1 - set.lr) ^ N * (w - x) + x := by
      intro N
      rw [← htEstimate_steady set hd x N 1 w]
      ring
    simp only [h]
    have h1 : Tendsto (fun N : Nat => (1 - set.lr) ^ N) atTop (𝓝 0) :=
      tendsto_pow_atTop_nhds_zero_of_abs_lt_one (abs_lt.2 ⟨by linarith, by linarith⟩)
    have := (h1.mul_const (w - x)).add_const x
    rwa [zero_mul, zero_add] at this
  · exact htEstimate_tends set hl ha1 hd x w

/-- **C160, how fast.** After `N` moves, `N` being the number of times the demonstration is shown times its number of
moves, the distance to the evidence is `|1 - lr| ^ N` times the starting distance without decay. With a decay of 1 and rates
of at most 1 it is at most the starting distance divided by `(N + 1) ^ (lr / asymmetry)`. -/
theorem C160_rate (set : HtSettings ℝ) (hn : set.norm ≠ .relative) (hl : 0 < set.lr) (ha1 : 1 ≤ set.asymmetry)
    (z : List Nat → (Nat → Nat → Ext ℝ) → Nat → Nat → Ext ℝ) (theta : Option (Nat → Ext ℝ)) (m : Mdp ℝ)
    (Q : Nat → Nat → Nat → Ext ℝ) (t : List Int) (hm : Spec.moves t ≠ [])
    (ha : ∀ p ∈ Spec.moves t, Spec.Adjacent m.trans p) (k : Nat) :
    ∃ R, htFit set z theta (List.replicate (k + 1) (m, .ok Q, t)) = .ok R ∧
      ∀ f w x, theta.getD (fun _ => .fin 0) f = .fin w →
        (∀ p ∈ Spec.moves t, ∃ a, Spec.FirstAction m.trans (Spec.stateOf m.nStates p.1) (Spec.stateOf m.nStates p.2) a ∧
          evidence set z m.trans Q (Spec.stateOf m.nStates p.1) a f = .fin x) →
        ∃ y, R f = .fin y ∧
          (set.decay = 0 → |y - x| = |1 - set.lr| ^ ((k + 1) * (Spec.moves t).length) * |w - x|) ∧
          (set.decay = 1 → set.lr * set.asymmetry ≤ 1 →
            |y - x| ≤ |w - x| / (((k + 1) * (Spec.moves t).length + 1 : ℕ) : ℝ) ^ (set.lr / set.asymmetry)) := by
  obtain ⟨R, hR, hspec⟩ := fit_shown set hn z theta m Q t hm ha k
  refine ⟨R, hR, fun f w x hw hx => ⟨_, hspec f w x hw hx, fun hd => ?_, fun hd hg => ?_⟩⟩
  · rw [htEstimate_steady set hd, abs_mul, abs_pow]
  · have h := htEstimate_power set hl ha1 hd x ((k + 1) * (Spec.moves t).length) 1 w (le_refl _)
      (by rw [Nat.cast_one]; exact hg)
    rw [Nat.cast_one, one_div, Real.inv_rpow (Nat.cast_nonneg _), Nat.add_comm 1, inv_mul_eq_div] at h
    exact h

/-- **C160 fails with a decay of 2 or more**, which `__init__` accepts: with rates below 1 the same share of the starting
distance is left however often the demonstration is shown. -/
theorem C160_short (set : HtSettings ℝ) (hn : set.norm ≠ .relative) (hl : 0 < set.lr) (ha1 : 1 ≤ set.asymmetry)
    (hd : 2 ≤ set.decay) (hg : set.lr * set.asymmetry ≤ 1)
    (z : List Nat → (Nat → Nat → Ext ℝ) → Nat → Nat → Ext ℝ) (theta : Option (Nat → Ext ℝ)) (m : Mdp ℝ)
    (Q : Nat → Nat → Nat → Ext ℝ) (t : List Int) (hm : Spec.moves t ≠ [])
    (ha : ∀ p ∈ Spec.moves t, Spec.Adjacent m.trans p) (k : Nat) :
    ∃ R, htFit set z theta (List.replicate (k + 1) (m, .ok Q, t)) = .ok R ∧
      ∀ f w x, theta.getD (fun _ => .fin 0) f = .fin w →
        (∀ p ∈ Spec.moves t, ∃ a, Spec.FirstAction m.trans (Spec.stateOf m.nStates p.1) (Spec.stateOf m.nStates p.2) a ∧
          evidence set z m.trans Q (Spec.stateOf m.nStates p.1) a f = .fin x) →
        ∃ y, R f = .fin y ∧ (1 - set.lr * set.asymmetry) / 2 * |w - x| ≤ |y - x| := by
  obtain ⟨R, hR, hspec⟩ := fit_shown set hn z theta m Q t hm ha k
  exact ⟨R, hR, fun f w x hw hx => ⟨_, hspec f w x hw hx, htEstimate_misses set hl ha1 hd hg x w _⟩⟩

/-- Going from the middle of the corridor to its first state is a move. -/
theorem corridor_move {m : Mdp ℝ} (hS : m.nStates = 3) (hA : m.nActions = 4)
    (h : ∃ a, a < 4 ∧ m.sas 1 a 0 = 1) : ∀ p ∈ Spec.moves [1, 0], Spec.Adjacent m.trans p := by
  intro p hp
  simp only [Spec.moves, List.mem_cons, List.not_mem_nil, or_false] at hp
  subst hp
  have hS' : m.trans.nS = 3 := hS
  refine ⟨?_, ?_, ?_⟩
  · rw [hS']; show -(3:Int) ≤ 1 ∧ (1:Int) < 3; decide
  · rw [hS']; show -(3:Int) ≤ 0 ∧ (0:Int) < 3; decide
  · rw [hS', show Spec.stateOf 3 1 = 1 by decide, show Spec.stateOf 3 0 = 0 by decide]
    obtain ⟨a, ha, h⟩ := h
    exact ⟨a, by show a < m.nActions; omega, by show m.sas 1 a 0 ≠ 0; rw [h]; exact one_ne_zero⟩

/-- **C160 is false of the code in general**: on the 1×3 strip with action values from value iteration, a learning rate
of 0.3, the default asymmetry and a decay of 2, there is a starting weight from which the weight learned stays a fixed
distance away from the evidence, however often the walk is shown. -/
theorem C160_refuted : ∃ (m : Mdp ℝ) (v : Nat → ℝ) (q : Nat → Nat → Ext ℝ) (a : Nat) (x w c : ℝ),
    Mdp.GridReach .square 1 3 false m ∧ 0 < m.nFeatures ∧
    solveHard m.trans (m.features.get 0) 50 (9/10) (1/10000) = .ok (v, q) ∧ Spec.FirstAction m.trans 1 0 a ∧
    q 1 a = .fin x ∧ 0 < c ∧ ∀ k, ∃ R y,
      htFit ⟨3/10, 2, 2, .other⟩ (fun _ x a f => x a f) (some fun _ => .fin w)
        (List.replicate (k + 1) (m, htQ m.nFeatures [] (fun w => solveHard m.trans (Spec.weighted m w) 50 (9/10) (1/10000)),
          [1, 0])) = .ok R ∧
      R 0 = .fin y ∧ c ≤ |y - x| := by
  obtain ⟨m, hm, hS, hA, hF, -, hsub, -, -, hstep⟩ := corridor ℝ
  have hadj := corridor_move hS hA (hstep 1 (by omega) 0 (by omega) (by omega))
  have e1 : Spec.stateOf m.nStates 1 = 1 := by rw [hS]; decide
  have e0 : Spec.stateOf m.nStates 0 = 0 := by rw [hS]; decide
  have key : ∀ (w : ℝ) (k : Nat), ∃ R v q xs, htFit ⟨3/10, 2, 2, .other⟩ (fun _ x a f => x a f) (some fun _ => .fin w)
        (List.replicate (k + 1) (m, htQ m.nFeatures [] (fun w => solveHard m.trans (Spec.weighted m w) 50 (9/10) (1/10000)),
          [1, 0])) = .ok R ∧ solveHard m.trans (m.features.get 0) 50 (9/10) (1/10000) = .ok (v, q) ∧ xs ≠ [] ∧
        (∀ x ∈ xs, ∃ a, Spec.FirstAction m.trans 1 0 a ∧ q 1 a = .fin x) ∧
        R 0 = .fin (Spec.htEstimate ⟨3/10, 2, 2, .other⟩ 1 w xs) := by
    intro w k
    obtain ⟨R, hR, hspec⟩ := C71_solved_partial (K := ℝ) ⟨3/10, 2, 2, .other⟩ rfl (fun _ x a f => x a f) (some fun _ => w) m
      hsub (by omega) [] 50 (by omega) (9/10) (1/10000) (by norm_num) (by norm_num) (List.replicate (k + 1) [1, 0])
      (by simp [List.replicate_succ]) ⟨[1, 0], by simp, by simp [Spec.moves]⟩
      (fun t ht p hp => by rw [List.eq_of_mem_replicate ht] at hp; exact hadj p hp)
    rw [List.map_replicate] at hR
    have h := hspec 0 (by omega)
    rw [if_neg (by simp)] at h
    obtain ⟨v, q, xs, hs, hx, hw⟩ := h
    refine ⟨R, v, q, xs, hR, hs, ?_, ?_, hw⟩
    · rintro rfl
      simp [List.replicate_succ, Spec.moves] at hx
    · intro x hxm
      obtain ⟨i, hi, rfl⟩ := List.getElem_of_mem hxm
      have hlen := hx.length_eq
      have h := (List.forall₂_iff_get.1 hx).2 i (by omega) hi
      have hp : ((List.replicate (k + 1) ([1, 0] : List Int)).flatMap Spec.moves)[i]'(by omega) = ((1 : Int), (0 : Int)) := by
        have hmem := List.getElem_mem (l := (List.replicate (k + 1) ([1, 0] : List Int)).flatMap Spec.moves)
          (n := i) (by omega)
        obtain ⟨t, ht, hp⟩ := List.mem_flatMap.1 hmem
        rw [List.eq_of_mem_replicate ht] at hp
        simpa [Spec.moves] using hp
      simp only [List.get_eq_getElem, hp, e1, e0] at h
      exact h
  obtain ⟨-, v, q, xs, -, hs, hne, hx, -⟩ := key 0 0
  obtain ⟨x0, hx0⟩ := List.exists_mem_of_ne_nil xs hne
  obtain ⟨a, hfa, hq⟩ := hx x0 hx0
  refine ⟨m, v, q, a, x0, x0 + 1, 1/5, hm, by omega, hs, hfa, hq, by norm_num, fun k => ?_⟩
  obtain ⟨R, v', q', ys, hR, hs', -, hy, hw⟩ := key (x0 + 1) k
  rw [hs] at hs'
  obtain ⟨-, rfl⟩ := Prod.mk.inj (Except.ok.inj hs')
  have hys : ys = List.replicate ys.length x0 := by
    refine List.eq_replicate_of_mem fun y hym => ?_
    obtain ⟨b, hfb, hqb⟩ := hy y hym
    have hab : b = a := by
      rcases Nat.lt_trichotomy b a with h | h | h
      · exact absurd (hfa.2.2 b h) hfb.2.1
      · exact h
      · exact absurd (hfb.2.2 a h) hfa.2.1
    rw [hab, hq] at hqb
    exact (Ext.fin.inj hqb).symm
  refine ⟨R, _, hR, hw, ?_⟩
  rw [hys]
  have h := htEstimate_misses ⟨3/10, 2, 2, .other⟩ (by norm_num) (by norm_num) (le_refl _) (by norm_num) x0 (x0 + 1)
    ys.length
  rw [add_sub_cancel_left, abs_one] at h
  norm_num at h ⊢
  exact h

/-- The default settings: the walk to the first state of the corridor shown again and again, from zero weights, with any
table in which that move has the value 3 for feature 0. The weight tends to 3, and after `k + 1` showings it is off by at
most `3 / (k + 2) ^ 0.15`. -/
example (Q : Nat → Nat → Nat → Ext ℝ) (hQ : ∀ a, Q 1 a 0 = .fin 3) : ∃ (m : Mdp ℝ) (R : Nat → Nat → Ext ℝ) (y : Nat → ℝ),
    m.nStates = 3 ∧
    (∀ k, htFit ⟨3/10, 1, 2, .other⟩ (fun _ x a f => x a f) none (List.replicate (k + 1) (m, .ok Q, [1, 0])) = .ok (R k)) ∧
    (∀ k, R k 0 = .fin (y k)) ∧ Tendsto y atTop (𝓝 3) ∧
    ∀ k, |y k - 3| ≤ 3 / ((k + 2 : ℕ) : ℝ) ^ ((3 / 10 : ℝ) / 2) := by
  obtain ⟨m, hm, hS, hA, -, -, hsub, hdet, -, hstep⟩ := corridor ℝ
  have hadj := corridor_move hS hA (hstep 1 (by omega) 0 (by omega) (by omega))
  have e1 : Spec.stateOf m.nStates 1 = 1 := by rw [hS]; decide
  have hev : ∀ p ∈ Spec.moves [1, 0], ∃ a, Spec.FirstAction m.trans (Spec.stateOf m.nStates p.1)
      (Spec.stateOf m.nStates p.2) a ∧
      evidence ⟨3/10, 1, 2, .other⟩ (fun _ x a f => x a f) m.trans Q (Spec.stateOf m.nStates p.1) a 0 = .fin 3 := by
    intro p hp
    obtain ⟨-, a, hfa, -⟩ := move_action (hadj p hp)
    simp only [Spec.moves, List.mem_cons, List.not_mem_nil, or_false] at hp
    subst hp
    refine ⟨a, hfa, ?_⟩
    rw [e1]
    exact hQ a
  obtain ⟨R, hR, hspec⟩ := C160_partial ⟨3/10, 1, 2, .other⟩ (by decide) (by norm_num) (by norm_num) (Or.inr rfl)
    (fun _ x a f => x a f) none m Q [1, 0] (by simp [Spec.moves]) hadj
  obtain ⟨y, hy, ht⟩ := hspec 0 0 3 rfl hev
  refine ⟨m, R, y, hS, hR, hy, ht, fun k => ?_⟩
  obtain ⟨R', hR', hb⟩ := C160_rate ⟨3/10, 1, 2, .other⟩ (by decide) (by norm_num) (by norm_num)
    (fun _ x a f => x a f) none m Q [1, 0] (by simp [Spec.moves]) hadj k
  rw [hR k] at hR'
  obtain rfl := Except.ok.inj hR'
  obtain ⟨y', hy', -, h⟩ := hb 0 0 3 rfl hev
  rw [hy k] at hy'
  obtain rfl := Ext.fin.inj hy'
  have := h rfl (by norm_num)
  simpa [Spec.moves, Nat.add_assoc] using this

end MaMDP
