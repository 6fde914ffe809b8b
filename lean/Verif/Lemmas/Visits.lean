import Verif.Lemmas.Chance
import Verif.Lemmas.Foraging
import Verif.Lemmas.Turns
import Mathlib.Analysis.SpecificLimits.Basic

/-! # Lemmas: the states a softmax agent visits -/

set_option linter.unusedSectionVars false

namespace MaMDP

namespace Env

/-- A chain that moves by the softmax rule where moves can be taken back. -/
structure Roams (M : Trans ℝ) (T : ℝ) (q : Arr2 (Ext ℝ)) : Prop where
  det : ∀ s x u, s < M.nS → x < M.nA → u < M.nS → M.p s x u = 0 ∨ M.p s x u = 1
  uniq : ∀ s x u v, s < M.nS → x < M.nA → u < M.nS → v < M.nS → M.p s x u = 1 → M.p s x v = 1 → u = v
  mask : ∀ s, s < M.nS → Spec.MaskedAt M q s
  fin : ∀ s x, s < M.nS → x < M.nA → q.get s x ≠ .pinf
  back : CanReturn M

variable {M : Trans ℝ} {T : ℝ} {q : Arr2 (Ext ℝ)}

/-- What is to be expected of `g` after the next move. -/
noncomputable def avg (M : Trans ℝ) (T : ℝ) (q : Arr2 (Ext ℝ)) (s : Nat) (g : Nat → ℝ) : ℝ :=
  ∑ x ∈ Finset.range M.nA, ∑ u ∈ Finset.range M.nS, if M.p s x u = 1 then Spec.moveChance T q s x * g u else 0

theorem sum_walks_cons (k s : Nat) (f : List (Nat × Nat) → ℝ) : ∑ l ∈ walks M (k + 1) s, f l =
    ∑ x ∈ Finset.range M.nA, ∑ u ∈ Finset.range M.nS, if M.p s x u = 1 then ∑ l ∈ walks M k u, f ((x, u) :: l) else 0 := by
  rw [walks, Finset.sum_biUnion, Finset.sum_filter, Finset.sum_product]
  · refine Finset.sum_congr rfl fun x _ => Finset.sum_congr rfl fun u _ => ?_
    rw [Finset.sum_image (by intro l _ l' _ h; simpa using h)]
  · intro y _ y' _ hne
    rw [Function.onFun, Finset.disjoint_left]
    intro l h1 h2
    obtain ⟨l1, -, rfl⟩ := Finset.mem_image.1 h1
    obtain ⟨l2, -, h3⟩ := Finset.mem_image.1 h2
    exact hne (by injection h3 with h3 _; exact h3.symm)

theorem avg_mul (s : Nat) (c : ℝ) (g : Nat → ℝ) : avg M T q s (fun u => c * g u) = c * avg M T q s g := by
  unfold avg
  rw [Finset.mul_sum]
  refine Finset.sum_congr rfl fun x _ => ?_
  rw [Finset.mul_sum]
  refine Finset.sum_congr rfl fun u _ => ?_
  split_ifs <;> ring

namespace Roams

variable (h : Roams M T q)
include h

theorem nonneg {s : Nat} (hs : s < M.nS) (hl : Spec.Live M s) (x : Nat) : 0 ≤ Spec.moveChance T q s x :=
  (chance_row (h.mask s hs) (fun x hx => h.fin s x hs hx) hl).1 x

theorem pos {s x : Nat} (hs : s < M.nS) (hx : x < M.nA) (hp : Spec.Possible M s x) : 0 < Spec.moveChance T q s x := by
  obtain ⟨m1, m2, m3⟩ := h.mask s hs
  have hw : 0 < Spec.weight T (q.get s x) := by
    have h1 : ¬ Spec.Unusable (q.get s x) := fun hu => (m3 x hx).1 hu hp
    have h2 := h.fin s x hs hx
    revert h1 h2
    cases q.get s x <;> simp [Spec.Unusable, Spec.weight, Real.exp_pos]
  exact div_pos hw (Finset.sum_pos' (fun y _ => weight_nonneg T _) ⟨x, Finset.mem_range.2 (by omega), hw⟩)

theorem avg_one {s : Nat} (hs : s < M.nS) (hl : Spec.Live M s) : avg M T q s (fun _ => 1) = 1 := by
  obtain ⟨-, r2, r3⟩ := chance_row (T := T) (h.mask s hs) (fun x hx => h.fin s x hs hx) hl
  unfold avg
  refine Eq.trans (Finset.sum_congr rfl fun x hx => ?_) r2
  have hx := Finset.mem_range.1 hx
  by_cases hp : Spec.Possible M s x
  · obtain ⟨t, ht, hpt⟩ := hp
    have ht1 : M.p s x t = 1 := (h.det s x t hs hx ht).resolve_left (ne_of_gt hpt)
    rw [Finset.sum_eq_single t]
    · rw [if_pos ht1, mul_one]
    · intro u hu hne
      rw [if_neg fun hu1 => hne (h.uniq s x u t hs hx (Finset.mem_range.1 hu) ht hu1 ht1)]
    · intro hn; exact absurd (Finset.mem_range.2 ht) hn
  · rw [r3 x hx hp]; simp

theorem avg_le {s : Nat} (hs : s < M.nS) (hl : Spec.Live M s) {g g' : Nat → ℝ}
    (hg : ∀ x u, x < M.nA → u < M.nS → M.p s x u = 1 → g u ≤ g' u) : avg M T q s g ≤ avg M T q s g' := by
  refine Finset.sum_le_sum fun x hx => Finset.sum_le_sum fun u hu => ?_
  split_ifs with hp
  · exact mul_le_mul_of_nonneg_left (hg x u (Finset.mem_range.1 hx) (Finset.mem_range.1 hu) hp) (h.nonneg hs hl x)
  · exact le_rfl

theorem avg_lt {s x u : Nat} (hs : s < M.nS) (hx : x < M.nA) (hu : u < M.nS) (hp : M.p s x u = 1) {g g' : Nat → ℝ}
    (hg : ∀ x u, x < M.nA → u < M.nS → M.p s x u = 1 → g u ≤ g' u) (hlt : g u < g' u) :
    avg M T q s g < avg M T q s g' := by
  have hl : Spec.Live M s := ⟨x, hx, possible_of_one hu hp⟩
  have hle : ∀ y v, y < M.nA → v < M.nS → (if M.p s y v = 1 then Spec.moveChance T q s y * g v else 0) ≤
      if M.p s y v = 1 then Spec.moveChance T q s y * g' v else 0 := by
    intro y v hy hv
    split_ifs with hp
    · exact mul_le_mul_of_nonneg_left (hg y v hy hv hp) (h.nonneg hs hl y)
    · exact le_rfl
  refine Finset.sum_lt_sum (fun y hy => Finset.sum_le_sum fun v hv =>
    hle y v (Finset.mem_range.1 hy) (Finset.mem_range.1 hv)) ⟨x, Finset.mem_range.2 hx, ?_⟩
  refine Finset.sum_lt_sum (fun v hv => hle x v hx (Finset.mem_range.1 hv)) ⟨u, Finset.mem_range.2 hu, ?_⟩
  rw [if_pos hp, if_pos hp]
  exact mul_lt_mul_of_pos_left hlt (h.pos hs hx (possible_of_one hu hp))

/-- After a move there is a move back. -/
theorem live {s x u : Nat} (hs : s < M.nS) (hx : x < M.nA) (hu : u < M.nS) (hp : M.p s x u = 1) : Spec.Live M u := by
  obtain ⟨b, hb, hq⟩ := h.back s x u hs hx hu hp
  exact ⟨b, hb, possible_of_one hs hq⟩

/-- The chances of all walks add up to 1. -/
theorem sum_all : ∀ (k s : Nat), s < M.nS → Spec.Live M s → ∑ l ∈ walks M k s, Spec.walkChance T q s l = 1 := by
  intro k
  induction k with
  | zero => intro s _ _; simp [walks, Spec.walkChance]
  | succ k ih =>
    intro s hs hl
    rw [sum_walks_cons]
    refine Eq.trans ?_ (h.avg_one hs hl)
    refine Finset.sum_congr rfl fun x hx => Finset.sum_congr rfl fun u hu => ?_
    have hx := Finset.mem_range.1 hx
    have hu := Finset.mem_range.1 hu
    split_ifs with hp
    · simp only [Spec.walkChance]
      rw [← Finset.mul_sum, ih u hu (h.live hs hx hu hp)]
    · rfl

end Roams

/-- The chance of `k` moves from `s` that avoid `t`. -/
noncomputable def miss (M : Trans ℝ) (T : ℝ) (q : Arr2 (Ext ℝ)) (t : Nat) : Nat → Nat → ℝ
  | 0, _ => 1
  | k + 1, s => avg M T q s fun u => if u = t then 0 else miss M T q t k u

theorem sum_miss (t : Nat) : ∀ (k s : Nat),
    ∑ l ∈ walks M k s, (if t ∈ l.map (·.2) then 0 else Spec.walkChance T q s l) = miss M T q t k s := by
  intro k
  induction k with
  | zero => intro s; simp [walks, Spec.walkChance, miss]
  | succ k ih =>
    intro s
    rw [sum_walks_cons, miss, avg]
    refine Finset.sum_congr rfl fun x _ => Finset.sum_congr rfl fun u _ => ?_
    split_ifs with hp hu
    · simp [hu]
    · rw [← ih u, Finset.mul_sum]
      refine Finset.sum_congr rfl fun l _ => ?_
      by_cases ht : t ∈ l.map (·.2)
      · rw [if_pos ht, if_pos (by rw [List.map_cons]; exact List.mem_cons_of_mem _ ht), mul_zero]
      · rw [if_neg ht, if_neg (by
          rw [List.map_cons, List.mem_cons]
          rintro (hc | hc)
          · exact hu hc.symm
          · exact ht hc), Spec.walkChance]
    · rfl

namespace Roams

variable (h : Roams M T q)
include h

theorem miss_mem (t : Nat) : ∀ (k s : Nat), s < M.nS → Spec.Live M s → 0 ≤ miss M T q t k s ∧ miss M T q t k s ≤ 1 := by
  intro k
  induction k with
  | zero => intro s _ _; exact ⟨zero_le_one, le_rfl⟩
  | succ k ih =>
    intro s hs hl
    constructor
    · have h0 : avg M T q s (fun _ => 0) = 0 := by simp [avg]
      rw [← h0]
      refine h.avg_le hs hl fun x u hx hu hp => ?_
      split_ifs
      · exact le_rfl
      · exact (ih u hu (h.live hs hx hu hp)).1
    · rw [← h.avg_one hs hl]
      refine h.avg_le hs hl fun x u hx hu hp => ?_
      split_ifs
      · exact zero_le_one
      · exact (ih u hu (h.live hs hx hu hp)).2

theorem miss_succ (t : Nat) : ∀ (k s : Nat), s < M.nS → Spec.Live M s → miss M T q t (k + 1) s ≤ miss M T q t k s := by
  intro k
  induction k with
  | zero => intro s hs hl; exact (h.miss_mem t 1 s hs hl).2
  | succ k ih =>
    intro s hs hl
    refine h.avg_le hs hl fun x u hx hu hp => ?_
    split_ifs
    · exact le_rfl
    · exact ih u hu (h.live hs hx hu hp)

theorem miss_anti (t : Nat) {s : Nat} (hs : s < M.nS) (hl : Spec.Live M s) : Antitone fun k => miss M T q t k s :=
  antitone_nat_of_succ_le fun k => h.miss_succ t k s hs hl

theorem miss_lt (t : Nat) : ∀ (k s : Nat), s < M.nS → Spec.Reaches M s t (k + 1) → miss M T q t (k + 1) s < 1 := by
  intro k
  induction k with
  | zero =>
    intro s hs hr
    obtain ⟨x, u, hx, hu, hp, hr⟩ := reaches_succ.1 hr
    rw [reaches_zero] at hr
    subst hr
    have hl : Spec.Live M s := ⟨x, hx, possible_of_one hu hp⟩
    rw [← h.avg_one hs hl]
    refine h.avg_lt hs hx hu hp (fun y v hy hv hq => ?_) (by rw [if_pos rfl]; exact one_pos)
    split_ifs
    · exact zero_le_one
    · exact le_rfl
  | succ k ih =>
    intro s hs hr
    obtain ⟨x, u, hx, hu, hp, hr⟩ := reaches_succ.1 hr
    have hl : Spec.Live M s := ⟨x, hx, possible_of_one hu hp⟩
    rw [← h.avg_one hs hl]
    refine h.avg_lt hs hx hu hp (fun y v hy hv hq => ?_) ?_
    · split_ifs
      · exact zero_le_one
      · exact (h.miss_mem t _ v hv (h.live hs hy hv hq)).2
    · split_ifs
      · exact one_pos
      · exact ih u hu hr

/-- The states from which `t` can be visited. -/
def Home (M : Trans ℝ) (t u : Nat) : Prop := Spec.Live M u ∧ ∃ k, Spec.Reaches M u t (k + 1)

theorem home {t s x u : Nat} (hs : s < M.nS) (hx : x < M.nA) (hu : u < M.nS) (hp : M.p s x u = 1) (hh : Home M t s) :
    Home M t u := by
  obtain ⟨-, k, hk⟩ := hh
  obtain ⟨b, hb, hq⟩ := h.back s x u hs hx hu hp
  exact ⟨⟨b, hb, possible_of_one hs hq⟩, k + 1, reaches_succ.2 ⟨b, s, hb, hs, hq, hk⟩⟩

theorem bound (t : Nat) : ∀ n, n ≤ M.nS → ∃ D r, 0 ≤ r ∧ r < 1 ∧ ∀ u, u < n → Home M t u → miss M T q t D u ≤ r := by
  intro n
  induction n with
  | zero => intro _; exact ⟨0, 0, le_rfl, one_pos, fun u hu => absurd hu (Nat.not_lt_zero u)⟩
  | succ n ih =>
    intro hn
    obtain ⟨D, r, h0, h1, h2⟩ := ih (by omega)
    by_cases hh : Home M t n
    · obtain ⟨hl, k, hk⟩ := hh
      refine ⟨max D (k + 1), max r (miss M T q t (k + 1) n), le_max_of_le_left h0,
        max_lt h1 (h.miss_lt t k n (by omega) hk), fun u hu hu' => ?_⟩
      rcases Nat.lt_succ_iff_lt_or_eq.1 hu with hu | rfl
      · exact (h.miss_anti t (by omega) hu'.1 (le_max_left _ _)).trans ((h2 u hu hu').trans (le_max_left _ _))
      · exact (h.miss_anti t (by omega) hl (le_max_right _ _)).trans (le_max_right _ _)
    · refine ⟨D, r, h0, h1, fun u hu hu' => ?_⟩
      rcases Nat.lt_succ_iff_lt_or_eq.1 hu with hu | rfl
      · exact h2 u hu hu'
      · exact absurd hu' hh

theorem decay {t D : Nat} {r : ℝ} (h2 : ∀ u, u < M.nS → Home M t u → miss M T q t D u ≤ r) :
    ∀ (k s : Nat), s < M.nS → Home M t s → miss M T q t (k + D) s ≤ r * miss M T q t k s := by
  intro k
  induction k with
  | zero => intro s hs hh; rw [Nat.zero_add, miss, mul_one]; exact h2 s hs hh
  | succ k ih =>
    intro s hs hh
    rw [Nat.succ_add, miss, miss, ← avg_mul]
    refine h.avg_le hs hh.1 fun x u hx hu hp => ?_
    split_ifs
    · rw [mul_zero]
    · exact ih u hu (h.home hs hx hu hp hh)

/-- Sooner or later a state is visited. -/
theorem miss_tendsto {t s : Nat} (hs : s < M.nS) (hh : Home M t s) :
    Filter.Tendsto (fun k => miss M T q t k s) Filter.atTop (nhds 0) := by
  obtain ⟨D, r, h0, h1, h2⟩ := h.bound t M.nS le_rfl
  have hpow : ∀ n, miss M T q t (n * D) s ≤ r ^ n := by
    intro n
    induction n with
    | zero => rw [Nat.zero_mul, miss, pow_zero]
    | succ n ih =>
      rw [Nat.succ_mul, pow_succ, mul_comm (r ^ n)]
      exact (h.decay h2 _ s hs hh).trans (mul_le_mul_of_nonneg_left ih h0)
  rw [Metric.tendsto_atTop]
  intro ε hε
  obtain ⟨n, hn⟩ := exists_pow_lt_of_lt_one hε h1
  refine ⟨n * D, fun k hk => ?_⟩
  have hm := h.miss_mem t k s hs hh.1
  rw [Real.dist_eq, sub_zero, abs_of_nonneg hm.1]
  exact ((h.miss_anti t hs hh.1 hk).trans (hpow n)).trans_lt hn

theorem walk_nonneg {s k : Nat} (hs : s < M.nS) {l : List (Nat × Nat)} (hl : l ∈ walks M k s) :
    0 ≤ Spec.walkChance T q s l := by
  obtain ⟨g1, g2⟩ := (mem_walks k s l).1 hl
  rw [walkChance_prod]
  refine Finset.prod_nonneg fun i hi => ?_
  obtain ⟨b1, b2, b3⟩ := plays_before l s hs g2 i (Finset.mem_range.1 hi)
  exact h.nonneg b1 ⟨_, b2, b3⟩ _

open Classical in
/-- The walks that visit all states within reach. -/
theorem visit_all {s : Nat} (hs : s < M.nS) (hl : Spec.Live M s) :
    Filter.Tendsto (fun k => ∑ l ∈ (walks M k s).filter fun l => ∀ t j, Spec.Reaches M s t j → t ∈ l.map (·.2),
      Spec.walkChance T q s l) Filter.atTop (nhds 1) := by
  have hhome : ∀ t j, Spec.Reaches M s t j → Home M t s := by
    intro t j hj
    refine ⟨hl, ?_⟩
    cases j with
    | succ j => exact ⟨j, hj⟩
    | zero =>
      rw [reaches_zero] at hj
      subst hj
      obtain ⟨x, hx, u, hu, hp⟩ := hl
      have hp1 := (h.det s x u hs hx hu).resolve_left (ne_of_gt hp)
      obtain ⟨b, hb, hq⟩ := h.back s x u hs hx hu hp1
      exact ⟨1, reaches_succ.2 ⟨x, u, hx, hu, hp1, reaches_succ.2 ⟨b, s, hb, hs, hq, reaches_zero.2 rfl⟩⟩⟩
  set G := (Finset.range M.nS).filter fun t => ∃ j, Spec.Reaches M s t j with hG
  have hlim : Filter.Tendsto (fun k => 1 - ∑ t ∈ G, miss M T q t k s) Filter.atTop (nhds (1 - ∑ t ∈ G, 0)) := by
    refine Filter.Tendsto.sub tendsto_const_nhds (tendsto_finsetSum _ fun t ht => ?_)
    obtain ⟨-, j, hj⟩ := Finset.mem_filter.1 ht
    exact h.miss_tendsto hs (hhome t j hj)
  rw [Finset.sum_const_zero, sub_zero] at hlim
  refine tendsto_of_tendsto_of_tendsto_of_le_of_le hlim tendsto_const_nhds (fun k => ?_) (fun k => ?_)
  · have hall := h.sum_all k s hs hl
    rw [← Finset.sum_filter_add_sum_filter_not _ (fun l => ∀ t j, Spec.Reaches M s t j → t ∈ l.map (·.2))] at hall
    have hbad : ∑ l ∈ (walks M k s).filter (fun l => ¬ ∀ t j, Spec.Reaches M s t j → t ∈ l.map (·.2)),
        Spec.walkChance T q s l ≤ ∑ t ∈ G, miss M T q t k s := by
      have e1 : ∀ t ∈ G, miss M T q t k s =
          ∑ l ∈ walks M k s, (if t ∈ l.map (·.2) then 0 else Spec.walkChance T q s l) := fun t _ => (sum_miss t k s).symm
      rw [Finset.sum_congr rfl e1, Finset.sum_comm, Finset.sum_filter]
      refine Finset.sum_le_sum fun l hlw => ?_
      have h0 := h.walk_nonneg hs hlw
      split_ifs with hb
      · refine Finset.sum_nonneg fun u _ => ?_
        split_ifs
        · exact le_rfl
        · exact h0
      · push Not at hb
        obtain ⟨t, j, hr, ht⟩ := hb
        have htG : t ∈ G := Finset.mem_filter.2 ⟨Finset.mem_range.2 (reaches_lt j s hs hr), j, hr⟩
        refine le_trans ?_ (Finset.single_le_sum (fun u _ => ?_) htG)
        · rw [if_neg ht]
        · split_ifs
          · exact le_rfl
          · exact h0
    linarith
  · rw [← h.sum_all k s hs hl]
    exact Finset.sum_le_sum_of_subset_of_nonneg (Finset.filter_subset _ _) fun l hlw _ => h.walk_nonneg hs hlw

end Roams

section Events

open MeasureTheory

variable {kind : GridKind} {W H : Nat} {selfT : Bool} {e : Env ℝ ℝ}

theorem Drifts.roams {n : String} {j : Nat} {hist : List Int} (h : Drifts kind W H selfT M T n q j hist e)
    (hback : CanReturn M) : Roams M T q := by
  obtain ⟨hok, rfl, hmask, hfin, -⟩ := h
  have hdet := (C27_grid kind W H selfT e.mdp hok.reach).2.1
  refine ⟨hdet, fun s x u v hs hx hu hv h1 h2 => ?_, hmask, hfin, hback⟩
  exact (C04_deterministic kind W H selfT e.mdp hok.reach).2.2 s x u v hs hx hu hv
    (by rw [show e.mdp.sas s x u = 1 from h1]; exact one_ne_zero)
    (by rw [show e.mdp.sas s x v = 1 from h2]; exact one_ne_zero)

theorem delivered_draw {k : Nat} (ω : Spec.Outcome k M.nS) (hω : Spec.Delivered ω) (i : Nat) (hi : i < 0 + k) (u : Nat)
    (hu : u < M.nS) : 0 ≤ Spec.drawAt ω i u ∧ Spec.drawAt ω i u < 1 := by
  unfold Spec.drawAt
  rw [dif_pos ⟨by omega, hu⟩]
  exact hω _

open Classical in
/-- The chance that the walk made is one of those with property `P`. -/
theorem Drifts.event {n : String} {s : Nat} {hist : List Int} (hD : Drifts kind W H selfT M T n q s hist e) (hT : 0 < T)
    (hs : s < M.nS) (hdiff : Spec.MovesDiffer M) (hR : Roams M T q) (k : Nat) (P : List (Nat × Nat) → Prop) :
    volume {ω : Spec.Outcome k M.nS | Spec.Delivered ω ∧ ∃ l ∈ walks M k s, P l ∧ Makes T q 0 (Spec.drawAt ω) s l} =
      ENNReal.ofReal (∑ l ∈ (walks M k s).filter P, Spec.walkChance T q s l) := by
  have hbox : ∀ l : List (Nat × Nat), ∃ B : Set (Spec.Outcome k M.nS),
      l ∈ (walks M k s) → (MeasurableSet B ∧
      (∀ ω, ω ∈ B ↔ Spec.Delivered ω ∧ Makes T q 0 (Spec.drawAt ω) s l) ∧
      volume B = ENNReal.ofReal (Spec.walkChance T q s l)) := by
    intro l
    by_cases hl : l ∈ walks M k s
    · obtain ⟨h1, h2⟩ := (mem_walks k s l).1 hl
      obtain ⟨B, hB⟩ := makes_volume (T := T) hD.mask hD.fin hs h2 h1
      exact ⟨B, fun _ => hB⟩
    · exact ⟨∅, fun h => absurd h hl⟩
  choose B hB using hbox
  set F := (walks M k s).filter P with hF
  have hset : {ω : Spec.Outcome k M.nS | Spec.Delivered ω ∧ ∃ l ∈ walks M k s, P l ∧
      Makes T q 0 (Spec.drawAt ω) s l} = ⋃ l ∈ F, B l := by
    ext ω
    simp only [Set.mem_ofPred_eq, Set.mem_iUnion, exists_prop]
    constructor
    · rintro ⟨hω, l, hl, hP, hm⟩
      exact ⟨l, Finset.mem_filter.2 ⟨hl, hP⟩, ((hB l hl).2.1 ω).2 ⟨hω, hm⟩⟩
    · rintro ⟨l, hl, hω⟩
      obtain ⟨hmem, hP⟩ := Finset.mem_filter.1 hl
      obtain ⟨hω, hmk⟩ := ((hB l hmem).2.1 ω).1 hω
      exact ⟨hω, l, hmem, hP, hmk⟩
  rw [hset, measure_biUnion_finset]
  · rw [ENNReal.ofReal_sum_of_nonneg]
    · exact Finset.sum_congr rfl fun l hl => (hB l (Finset.mem_filter.1 hl).1).2.2
    · exact fun l hl => hR.walk_nonneg hs (Finset.mem_filter.1 hl).1
  · intro l hl l' hl' hne
    rw [Function.onFun, Set.disjoint_left]
    intro ω h1 h2
    have hm1 := (Finset.mem_filter.1 hl).1
    have hm2 := (Finset.mem_filter.1 hl').1
    obtain ⟨hω, k1⟩ := ((hB l hm1).2.1 ω).1 h1
    obtain ⟨-, k2⟩ := ((hB l' hm2).2.1 ω).1 h2
    obtain ⟨l0, -, -, -, h4, -⟩ := hD.walk hT hdiff (Spec.drawAt ω) k 0 e s _ (delivered_draw ω hω) hs
    obtain ⟨a1, a2⟩ := (mem_walks k s l).1 hm1
    obtain ⟨b1, b2⟩ := (mem_walks k s l').1 hm2
    exact hne (((h4 l a1 a2).1 k1).trans ((h4 l' b1 b2).1 k2).symm)
  · intro l hl
    exact (hB l (Finset.mem_filter.1 hl).1).1

end Events

/-- What an agent eats where it goes is gone. -/
theorem steps_eat {kind : GridKind} {W H : Nat} {selfT : Bool} {δ : Type} {e : Env ℝ δ} (hok : Ok kind W H selfT e)
    {a : Agent ℝ δ} (ha : a ∈ e.agents) (hv : ∀ f ∈ a.consumes, ∃ r, pyIdx e.mdp.features.d0 f = some r)
    (draws : Nat → Nat → δ) : ∀ k, Ok kind W H selfT (e.run ((List.range k).map fun j => .step a.name (draws j))) ∧
      (e.run ((List.range k).map fun j => .step a.name (draws j))).mdp.features.d0 = e.mdp.features.d0 ∧
      (e.run ((List.range k).map fun j => .step a.name (draws j))).mdp.nAgents = e.mdp.nAgents ∧
      ∃ a' ∈ (e.run ((List.range k).map fun j => .step a.name (draws j))).agents, a'.name = a.name ∧ a'.idx = a.idx ∧
        a'.consumes = a.consumes ∧ ∃ l : List Int, a'.history = a.history ++ l ∧
        ∀ (t : Nat), (t : Int) ∈ l → ∀ r, Eats e a r → r ≠ e.mdp.agentRow a.idx →
          (e.run ((List.range k).map fun j => .step a.name (draws j))).mdp.features.get r t ≤ 0 := by
  intro k
  induction k with
  | zero => exact ⟨hok, rfl, rfl, a, ha, rfl, rfl, rfl, [], by simp, fun t ht => by simp at ht⟩
  | succ k ih =>
    rw [List.range_succ, List.map_append, run_append]
    set e1 := e.run ((List.range k).map fun j => .step a.name (draws j)) with he1
    obtain ⟨hok1, hd, hn, b, hb, hbn, hbi, hbc, l, hl, hle⟩ := ih
    have hstep : e1.run ([k].map fun j => .step a.name (draws j)) = (e1.step a.name (draws k)).1 := rfl
    rw [hstep]
    have hrow : e1.mdp.agentRow a.idx = e.mdp.agentRow a.idx := by
      unfold Mdp.agentRow
      rw [hd, hn]
    have heats : ∀ r, Eats e1 b r ↔ Eats e a r := by
      intro r
      unfold Eats
      rw [hbc, hd]
    rcases step_cases hok1 a.name (draws k) with ⟨-, h6⟩ | ⟨c, c', err, h1, h2, h3, h4, h5, -, h6⟩ |
      ⟨c, a1, i, u, g, cc, h2, hm, -, hg, -, h6, hok'⟩ | ⟨c, a1, i, u, g, h2, hm, hv', -, h6, -⟩
    · rw [h6]; exact ⟨hok1, hd, hn, b, hb, hbn, hbi, hbc, l, hl, hle⟩
    · have : c = b := eq_of_name hok1.nodup h1 hb (h2.trans hbn.symm)
      subst this
      rw [h6]
      refine ⟨hok1.same h1 h3, hd, hn, c', (mem_put (by rw [h3.name]; exact List.mem_map_of_mem h1)).2 (.inl rfl),
        h3.name.trans hbn, h3.idx.trans hbi, h3.consumes.trans hbc, l, h4.trans hl, hle⟩
    · have : c = b := eq_of_name hok1.nodup hm.mem hb (h2.trans hbn.symm)
      subst this
      obtain ⟨n1, n2, n3, n4, n5, n6, n7, -⟩ := hm.name
      rw [h6] at hok' ⊢
      refine ⟨hok', hd, hn, { a1 with consumed := fun f => c.consumed f + cc f },
        (mem_put (m := e1.mdp.withFeat g) (by
          rw [show ({ a1 with consumed := fun f => c.consumed f + cc f } : Agent ℝ δ).name = c.name from n1]
          exact List.mem_map_of_mem hb)).2 (.inl rfl),
        n1.trans hbn, n2.trans hbi, n5.trans hbc, l ++ [(u : Int)], ?_, ?_⟩
      · rw [← List.append_assoc, ← hl]; exact n7
      · intro t ht r hr hne
        change g r t ≤ 0
        have hne' : r ≠ e1.mdp.agentRow c.idx := by rw [hbi, hrow]; exact hne
        rw [hg, setRow_get, if_neg hne']
        split_ifs with h7
        · exact le_rfl
        · rcases List.mem_append.1 ht with ht | ht
          · exact hle t ht r hr hne
          · have htu : t = u := by simpa using ht
            by_contra hc
            exact h7 ⟨htu, (heats r).2 hr, not_le.1 hc⟩
    · have : c = b := eq_of_name hok1.nodup hm.mem hb (h2.trans hbn.symm)
      subst this
      exact absurd (fun f hf => by rw [hd]; exact hv f (by rw [← hbc]; exact hf)) hv'

end Env

end MaMDP
