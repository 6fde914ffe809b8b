import Verif.Spec.Chance
import Verif.Lemmas.EnvMove
import Verif.Props.Temperature

/-! Agents acting by the softmax rule. -/

set_option linter.unusedSectionVars false

namespace MaMDP

/-- On grids the successor tells the action. -/
theorem grid_movesDiffer {kind : GridKind} {W H : Nat} {selfT : Bool} {m : Mdp ℝ} (hm : Mdp.GridReach kind W H selfT m) :
    Spec.MovesDiffer m.trans := by
  intro s x y t hs hx hy ht h1 h2
  have g := hm.ok
  have hs' : s < W * H := by rw [← g.nStates]; exact hs
  have ht' : t < W * H := by rw [← g.nStates]; exact ht
  have m1 := ((g.sas_pos hs' ht').1 h1).2.2
  have m2 := ((g.sas_pos hs' ht').1 h2).2.2
  have hself : ∀ {z : Nat} {d : Int × Int}, kind.dir (Spec.cell H s).1 z = some d →
      Spec.cell H s = ((Spec.cell H s).1 + d.1, (Spec.cell H s).2 + d.2) → False := by
    intro z d hd he
    have hz := GridKind.dir_lt hd
    have h0 : d = (0, 0) := by
      have e1 := congrArg Prod.fst he
      have e2 := congrArg Prod.snd he
      simp only at e1 e2
      ext <;> simp <;> omega
    subst h0
    cases kind
    · simp only [GridKind.dir, GridKind.nMoves] at hd hz
      interval_cases z <;> simp [Spec.squareDir] at hd
    · simp only [GridKind.dir, GridKind.nMoves] at hd hz
      interval_cases z <;> simp [Spec.hexDir] at hd <;> split_ifs at hd <;> simp at hd
  rcases m1 with ⟨d, e1, e2⟩ | ⟨-, e2, e3⟩
  · rcases m2 with ⟨d', e1', e2'⟩ | ⟨-, e2', e3'⟩
    · have : d = d' := by
        rw [e2] at e2'
        simp only [Prod.mk.injEq] at e2'
        ext <;> omega
      subst this
      exact GridKind.dir_inj e1 e1'
    · subst e3'
      exact (hself e1 e2).elim
  · rcases m2 with ⟨d', e1', e2'⟩ | ⟨-, e2', -⟩
    · subst e3
      exact (hself e1' e2').elim
    · rw [e2, e2']

namespace Env

variable {kind : GridKind} {W H : Nat} {selfT : Bool} {e : Env ℝ ℝ}

/-- Agent `n` follows `q` by the softmax rule from state `j`; `hist` is its history. -/
structure Drifts (kind : GridKind) (W H : Nat) (selfT : Bool) (M : Trans ℝ) (T : ℝ) (n : String)
    (q : Arr2 (Ext ℝ)) (j : Nat) (hist : List Int) (e : Env ℝ ℝ) : Prop where
  ok : Ok kind W H selfT e
  trans : e.mdp.trans = M
  mask : ∀ s, s < M.nS → Spec.MaskedAt M q s
  fin : ∀ s x, s < M.nS → x < M.nA → q.get s x ≠ .pinf
  live : Spec.Live M j
  agent : ∃ a ∈ e.agents, a.name = n ∧ a.selector = softmaxSelector T ∧ a.alg.fitComplete = true ∧
    a.alg.qValues = some q ∧ pyIdx M.nS a.position = some j ∧ a.history = hist

/-- What the chances of the moves from a state with a possible move are. -/
theorem chance_row {M : Trans ℝ} {T : ℝ} {q : Arr2 (Ext ℝ)} {j : Nat}
    (hmask : Spec.MaskedAt M q j) (hfin : ∀ x, x < M.nA → q.get j x ≠ .pinf) (hlive : Spec.Live M j) :
    (∀ x, 0 ≤ Spec.moveChance T q j x) ∧ (∑ x ∈ Finset.range M.nA, Spec.moveChance T q j x = 1) ∧
    (∀ x, x < M.nA → ¬ Spec.Possible M j x → Spec.moveChance T q j x = 0) := by
  obtain ⟨m1, m2, m3⟩ := hmask
  obtain ⟨b, hb, hpb⟩ := hlive
  have hub : ¬ Spec.Unusable (q.get j b) := fun hu => (m3 b hb).1 hu hpb
  have hpos : 0 < ∑ y ∈ Finset.range q.d1, Spec.weight T (q.get j y) := by
    refine Finset.sum_pos' (fun y _ => weight_nonneg T _) ⟨b, Finset.mem_range.2 (by omega), ?_⟩
    have := hfin b hb
    revert this hub
    cases q.get j b <;> simp [Spec.Unusable, Spec.weight, Real.exp_pos]
  refine ⟨fun x => div_nonneg (weight_nonneg T _) hpos.le, ?_, ?_⟩
  · unfold Spec.moveChance
    rw [← Finset.sum_div, ← m2]
    exact div_self hpos.ne'
  · intro x hx hn
    have := (m3 x hx).2 hn
    unfold Spec.moveChance
    revert this
    cases q.get j x <;> simp [Spec.Unusable, Spec.weight]

/-- One step: the draw for the state the agent stands on decides. -/
theorem Drifts.step {M : Trans ℝ} {T : ℝ} (hT : 0 < T) {n : String} {q : Arr2 (Ext ℝ)} {j : Nat} {hist : List Int}
    (h : Drifts kind W H selfT M T n q j hist e) (d : Nat → ℝ) (hd : ∀ s, s < M.nS → 0 ≤ d s ∧ d s < 1) :
    ∃ x t, x < M.nA ∧ t < M.nS ∧ M.p j x t = 1 ∧
      (∀ y, y < M.nA → (y = x ↔ Spec.InSlot (Spec.moveChance T q j) y (d j))) ∧
      Drifts kind W H selfT M T n q t (hist ++ [(t : Int)]) (e.step n d).1 := by
  obtain ⟨hok, rfl, hmask, hfin, hlive, a, ha, hn, hsel, hfit, hq, hj, hhist⟩ := h
  have hj' : pyIdx e.mdp.nStates a.position = some j := hj
  have hjn : j < e.mdp.nStates := pyIdx_lt hj'
  obtain ⟨m1, m2, m3⟩ := hmask j hjn
  have m1' : q.d0 = e.mdp.nStates := m1
  have m2' : q.d1 = e.mdp.nActions := m2
  obtain ⟨b, hb, hpb⟩ := hlive
  have hub : ¬ Spec.Unusable (q.get j b) := fun hu => (m3 b hb).1 hu hpb
  have hne : ∃ s, s < q.d0 ∧ ¬ Spec.NoEstimate q s :=
    ⟨j, by omega, fun hc => hub (by rw [hc b (by rw [m2]; exact hb)]; trivial)⟩
  obtain ⟨P, p, hP, hp, hp0, hpall⟩ := C26_softmax_pi T q hne
    (fun s x hs hx => hfin s x (by rw [← m1]; exact hs) (by rw [← m2]; exact hx)) d
    (fun s hs => hd s (by rw [← m1]; exact hs))
  obtain ⟨y, hy⟩ : ∃ x, q.get j b = .fin x := by
    have := hfin j b hjn hb
    revert this hub
    cases q.get j b <;> simp [Spec.Unusable]
  have hest : Spec.HasEstimate q j :=
    ⟨⟨b, by rw [m2]; exact hb, by rw [hy]; simp⟩, fun ⟨⟨c, hc, hc'⟩, _⟩ =>
      hfin j c hjn (by rw [← m2]; exact hc) hc'⟩
  obtain ⟨f, hf, x, hpx, hxd, hfx, hslot⟩ := (hpall j (by omega)).2 hest
  have hsame : ∀ z, z < q.d1 → f z = Spec.moveChance T q j z := by
    intro z hz
    have := (C105_exact T hT q _ (by unfold mkSoftmax; rw [if_neg (not_le.2 hT)]) P hP j (by omega)
      (fun c hc => hfin j c hjn (by rw [← m2]; exact hc)) ⟨b, y, by rw [m2]; exact hb, hy⟩).2 z hz
    rw [hf z hz] at this
    exact Ext.fin.inj this
  have hslot' : ∀ z, z < q.d1 → ∀ u, Spec.InSlot f z u ↔ Spec.InSlot (Spec.moveChance T q j) z u := by
    intro z hz u
    unfold Spec.InSlot
    rw [hsame z hz, Finset.sum_congr rfl fun i hi => hsame i (by
      have := Finset.mem_range.1 hi; omega)]
  have hxA : x < e.mdp.trans.nA := by rw [← m2]; exact hxd
  have hpos : Spec.Possible e.mdp.trans j x := by
    by_contra hc
    have h0 := (chance_row (T := T) (hmask j hjn) (fun z hz => hfin j z hjn hz) ⟨b, hb, hpb⟩).2.2 x hxA hc
    rw [hsame x hxd, h0] at hfx
    exact lt_irrefl _ hfx
  obtain ⟨t, ht, hpt⟩ := hpos
  have hone : e.mdp.trans.p j x t = 1 :=
    ((C27_grid kind W H selfT e.mdp hok.reach).2.1 j x t hjn hxA ht).resolve_left (ne_of_gt hpt)
  have h15 := C15_next_state kind W H selfT e.mdp hok.reach j x t hjn hxA ht hpt
  have hnext : e.mdp.getNextState a.position (p.get j) = .ok t := by
    have hsame : e.mdp.getNextState a.position (x : Int) = e.mdp.getNextState (j : Int) (x : Int) := by
      unfold Mdp.getNextState
      rw [hj']
      simp only [pyIdx_nat, if_pos hjn]
    rw [hpx, hsame, h15]
  have hidx : pyIdx p.d0 a.position = some j := by rw [hp0, m1']; exact hj'
  obtain ⟨s1, s2, s3⟩ := successor_facts hok hjn ⟨ht, x, hxA, hpt⟩
  have htS : t < e.mdp.nStates := ht
  have ht' : pyIdx e.mdp.trans.nS (t : Int) = some t := by
    change pyIdx e.mdp.nStates (t : Int) = some t
    simp [htS]
  obtain ⟨a', ha', k1, k2, k3, k4, k5⟩ := (step_moves hok ha hfit hq (by rw [hsel]; exact hP) (by rw [hsel]; exact hp)
    hidx (by rw [hpx]; omega) hnext).1
  subst hn
  refine ⟨x, t, hxA, ht, hone, fun z hz => ?_, ?_, ?_, hmask, hfin, s3, a', ha', k1, k5.trans hsel, by rw [k4, hfit],
    by rw [k4, hq], by rw [k2]; exact ht', by rw [k3, hhist]⟩
  · rw [hslot z (by rw [m2]; exact hz)]
    exact hslot' z (by rw [m2]; exact hz) _
  · rcases step_cases hok a.name d with ⟨h1, h6⟩ | ⟨a0, a1, err, h1, h2, h3, h4, h5, -, h6⟩ |
      ⟨a0, a1, i, u, g, c, h2, hm, -, -, -, h6, hok'⟩ | ⟨a0, a1, i, u, g, h2, hm, -, -, h6, hok'⟩
    · rw [h6]; exact hok
    · rw [h6]; exact hok.same h1 h3
    · exact hok'
    · exact hok'
  · rcases step_cases hok a.name d with ⟨h1, h6⟩ | ⟨a0, a1, err, h1, h2, h3, h4, h5, -, h6⟩ |
      ⟨a0, a1, i, u, g, c, h2, hm, -, -, -, h6, hok'⟩ | ⟨a0, a1, i, u, g, h2, hm, -, -, h6, hok'⟩ <;> rw [h6] <;> rfl

/-- The draws make the walk `l` from `j`. -/
def Makes (T : ℝ) (q : Arr2 (Ext ℝ)) : Nat → (Nat → Nat → ℝ) → Nat → List (Nat × Nat) → Prop
  | _, _, _, [] => True
  | i, d, j, (x, t) :: l => Spec.InSlot (Spec.moveChance T q j) x (d i j) ∧ Makes T q (i + 1) d t l

/-- Repeated steps: which walk is made depends on the draws. -/
theorem Drifts.walk {M : Trans ℝ} {T : ℝ} (hT : 0 < T) {n : String} {q : Arr2 (Ext ℝ)} (hdiff : Spec.MovesDiffer M)
    (draws : Nat → Nat → ℝ) :
    ∀ (k i : Nat) (e : Env ℝ ℝ) (j : Nat) (hist : List Int),
      (∀ m, m < i + k → ∀ s, s < M.nS → 0 ≤ draws m s ∧ draws m s < 1) → j < M.nS →
      Drifts kind W H selfT M T n q j hist e →
      ∃ l : List (Nat × Nat), l.length = k ∧ Spec.Plays M j l ∧ Makes T q i draws j l ∧
        (∀ l', l'.length = k → Spec.Plays M j l' → (Makes T q i draws j l' ↔ l' = l)) ∧
        ∃ j', (Drifts kind W H selfT M T n q j' (hist ++ l.map fun x => (x.2 : Int))
          (e.run ((List.range k).map fun m => .step n (draws (i + m))))) ∧ (j :: l.map (·.2)).getLast? = some j' := by
  intro k
  induction k with
  | zero =>
    intro i e j hist _ _ h
    refine ⟨[], rfl, trivial, trivial, fun l' hl _ => ?_, j, by simpa [Env.run] using h, rfl⟩
    rw [List.length_eq_zero_iff.1 hl]
    simp [Makes]
  | succ k ih =>
    intro i e j hist hdr hj h
    obtain ⟨x, t, h1, h2, h3, h4, h5⟩ := h.step hT (draws i) (hdr i (by omega))
    obtain ⟨l, l1, l2, l3, l6, j', l4, l5⟩ := ih (i + 1) _ t _ (fun m hm => hdr m (by omega)) h2 h5
    refine ⟨(x, t) :: l, by simp [l1], ⟨h1, h2, h3, l2⟩, ⟨(h4 x h1).1 rfl, l3⟩, ?_, j', ?_, by
      simpa only [List.map_cons, List.getLast?_cons_cons] using l5⟩
    · intro l' hl' hp'
      cases l' with
      | nil => simp at hl'
      | cons y l' =>
        obtain ⟨y, u⟩ := y
        obtain ⟨p1, p2, p3, p4⟩ := hp'
        have hdet := h.ok.reach
        have htr := h.trans
        constructor
        · rintro ⟨q1, q2⟩
          have hyx := (h4 y p1).2 q1
          subst hyx
          have htu : u = t := by
            subst htr
            exact (C04_deterministic kind W H selfT e.mdp hdet).2.2 j y u t hj p1 p2 h2
              (by rw [show e.mdp.sas j y u = 1 from p3]; exact one_ne_zero)
              (by rw [show e.mdp.sas j y t = 1 from h3]; exact one_ne_zero)
          subst htu
          rw [(l6 l' (by simpa using hl') p4).1 q2]
        · intro he
          injection he with he1 he2
          injection he1 with he3 he4
          subst he3 he4 he2
          exact ⟨(h4 y h1).1 rfl, l3⟩
    rw [List.range_succ_eq_map]
    simp only [List.map_cons, List.map_map]
    have e1 : hist ++ (t : Int) :: List.map (fun x => (x.2 : Int)) l =
        (hist ++ [(t : Int)]) ++ List.map (fun x => (x.2 : Int)) l := by simp
    rw [e1]
    have e2 : (List.range k).map ((fun m => EnvOp.step (K := ℝ) n (draws (i + m))) ∘ Nat.succ) =
        (List.range k).map fun m => EnvOp.step n (draws (i + 1 + m)) := by
      apply List.map_congr_left
      intro m _
      simp only [Function.comp, Nat.succ_eq_add_one]
      rw [show i + (m + 1) = i + 1 + m by omega]
    rw [e2]
    exact l4

/-- Walks with the same states have the same actions. -/
theorem plays_inj {M : Trans ℝ} (hdiff : Spec.MovesDiffer M) : ∀ (l l' : List (Nat × Nat)) (j : Nat), j < M.nS →
    Spec.Plays M j l → Spec.Plays M j l' → l.map (·.2) = l'.map (·.2) → l = l' := by
  intro l
  induction l with
  | nil => intro l' j _ _ _ h; simpa using h.symm
  | cons y l ih =>
    intro l' j hj h h' he
    cases l' with
    | nil => simp at he
    | cons y' l' =>
      obtain ⟨x, t⟩ := y
      obtain ⟨x', t'⟩ := y'
      simp only [List.map_cons, List.cons.injEq] at he
      obtain ⟨rfl, he⟩ := he
      obtain ⟨a1, a2, a3, a4⟩ := h
      obtain ⟨b1, b2, b3, b4⟩ := h'
      rw [hdiff j x x' t hj a1 b1 a2 (by rw [a3]; exact one_pos) (by rw [b3]; exact one_pos), ih l' t a2 a4 b4 he]

/-- The state before move `m` of a walk. -/
def before_ (j : Nat) (l : List (Nat × Nat)) (m : Nat) : Nat := (j :: l.map (·.2)).getD m 0

/-- The action of move `m` of a walk. -/
def act_ (l : List (Nat × Nat)) (m : Nat) : Nat := (l.map (·.1)).getD m 0

theorem makes_iff (T : ℝ) (q : Arr2 (Ext ℝ)) (d : Nat → Nat → ℝ) : ∀ (l : List (Nat × Nat)) (i j : Nat),
    Makes T q i d j l ↔ ∀ m, m < l.length →
      Spec.InSlot (Spec.moveChance T q (before_ j l m)) (act_ l m) (d (i + m) (before_ j l m)) := by
  intro l
  induction l with
  | nil => intro i j; simp [Makes]
  | cons y l ih =>
    obtain ⟨x, t⟩ := y
    intro i j
    simp only [Makes, ih]
    constructor
    · rintro ⟨h1, h2⟩ m hm
      cases m with
      | zero => simpa [before_, act_] using h1
      | succ m =>
        have := h2 m (by simpa using hm)
        simpa [before_, act_, Nat.add_assoc, Nat.add_comm 1 m] using this
    · intro h
      refine ⟨by simpa [before_, act_] using h 0 (by simp), fun m hm => ?_⟩
      have := h (m + 1) (by simpa using hm)
      simpa [before_, act_, Nat.add_assoc, Nat.add_comm 1 m] using this

theorem walkChance_prod (T : ℝ) (q : Arr2 (Ext ℝ)) : ∀ (l : List (Nat × Nat)) (j : Nat),
    Spec.walkChance T q j l = ∏ m ∈ Finset.range l.length, Spec.moveChance T q (before_ j l m) (act_ l m) := by
  intro l
  induction l with
  | nil => intro j; simp [Spec.walkChance]
  | cons y l ih =>
    obtain ⟨x, t⟩ := y
    intro j
    rw [Spec.walkChance, ih, List.length_cons, Finset.prod_range_succ']
    simp [before_, act_, mul_comm]

theorem plays_before {M : Trans ℝ} : ∀ (l : List (Nat × Nat)) (j : Nat), j < M.nS → Spec.Plays M j l →
    ∀ m, m < l.length → before_ j l m < M.nS ∧ act_ l m < M.nA ∧ Spec.Possible M (before_ j l m) (act_ l m) := by
  intro l
  induction l with
  | nil => intro j _ _ m hm; simp at hm
  | cons y l ih =>
    obtain ⟨x, t⟩ := y
    rintro j hj ⟨h1, h2, h3, h4⟩ m hm
    cases m with
    | zero => exact ⟨by simpa [before_] using hj, by simpa [act_] using h1, t, h2, by
        simp only [before_, act_, List.map_cons, List.getD_cons_zero]; rw [h3]; exact one_pos⟩
    | succ m => simpa [before_, act_] using ih t h2 h4 m (by simpa using hm)

/-- The draws that make a walk fill a box. -/
theorem makes_volume {M : Trans ℝ} {T : ℝ} {q : Arr2 (Ext ℝ)} (hmask : ∀ s, s < M.nS → Spec.MaskedAt M q s)
    (hfin : ∀ s x, s < M.nS → x < M.nA → q.get s x ≠ .pinf) {j : Nat} (hj : j < M.nS) {l : List (Nat × Nat)}
    (hl : Spec.Plays M j l) {k : Nat} (hk : l.length = k) :
    ∃ B : Set (Spec.Outcome k M.nS), MeasurableSet B ∧
      (∀ ω, ω ∈ B ↔ Spec.Delivered ω ∧ Makes T q 0 (Spec.drawAt ω) j l) ∧
      MeasureTheory.volume B = ENNReal.ofReal (Spec.walkChance T q j l) := by
  subst hk
  set lo : Nat → ℝ := fun m => ∑ y ∈ Finset.range (act_ l m), Spec.moveChance T q (before_ j l m) y with hlo
  set pr : Nat → ℝ := fun m => Spec.moveChance T q (before_ j l m) (act_ l m) with hpr
  set a : Fin l.length × Fin M.nS → ℝ := fun i => if i.2.val = before_ j l i.1 then lo i.1 else 0 with ha
  set b : Fin l.length × Fin M.nS → ℝ := fun i => if i.2.val = before_ j l i.1 then lo i.1 + pr i.1 else 1 with hb
  have hrow : ∀ m, m < l.length → 0 ≤ lo m ∧ 0 ≤ pr m ∧ lo m + pr m ≤ 1 := by
    intro m hm
    obtain ⟨g1, g2, g3⟩ := plays_before l j hj hl m hm
    obtain ⟨r1, r2, -⟩ := chance_row (T := T) (hmask _ g1) (fun x hx => hfin _ x g1 hx) ⟨_, g2, g3⟩
    refine ⟨Finset.sum_nonneg fun y _ => r1 y, r1 _, ?_⟩
    simp only [hlo, hpr]
    rw [← Finset.sum_range_succ, ← r2]
    exact Finset.sum_le_sum_of_subset_of_nonneg (Finset.range_subset_range.2 (by omega)) fun y _ _ => r1 y
  refine ⟨Set.pi Set.univ fun i => Set.Ico (a i) (b i), ?_, ?_, ?_⟩
  · exact MeasurableSet.pi Set.countable_univ fun i _ => measurableSet_Ico
  · intro ω
    rw [makes_iff]
    simp only [Set.mem_pi, Set.mem_univ, true_implies, Set.mem_Ico, Nat.zero_add]
    have hd : ∀ m (hm : m < l.length) s (hs : s < M.nS), Spec.drawAt ω m s = ω (⟨m, hm⟩, ⟨s, hs⟩) := by
      intro m hm s hs
      unfold Spec.drawAt
      rw [dif_pos ⟨hm, hs⟩]
    constructor
    · intro h
      constructor
      · rintro ⟨⟨m, hm⟩, s⟩
        have := h (⟨m, hm⟩, s)
        obtain ⟨r1, r2, r3⟩ := hrow m hm
        simp only [ha, hb] at this
        split_ifs at this
        · exact ⟨r1.trans this.1, this.2.trans_le r3⟩
        · exact this
      · intro m hm
        obtain ⟨g1, -⟩ := plays_before l j hj hl m hm
        have := h (⟨m, hm⟩, ⟨_, g1⟩)
        simp only [ha, hb, if_true] at this
        rw [hd m hm _ g1]
        exact this
    · rintro ⟨h1, h2⟩ ⟨⟨m, hm⟩, ⟨s, hs⟩⟩
      simp only [ha, hb]
      split_ifs with hc
      · have h3 := h2 m hm
        have h4 : ω (⟨m, hm⟩, ⟨s, hs⟩) = Spec.drawAt ω m (before_ j l m) := by rw [← hc, hd m hm s hs]
        rw [h4]
        exact h3
      · exact h1 _
  · rw [Real.volume_pi_Ico, walkChance_prod, ENNReal.ofReal_prod_of_nonneg fun m hm =>
      (hrow m (Finset.mem_range.1 hm)).2.1, Fintype.prod_prod_type, Finset.prod_range]
    refine Finset.prod_congr rfl fun m _ => ?_
    obtain ⟨g1, -⟩ := plays_before l j hj hl m m.2
    rw [Finset.prod_eq_single ⟨_, g1⟩]
    · simp [ha, hb]
    · intro s _ hs
      have : s.val ≠ before_ j l m := fun hc => hs (Fin.ext hc)
      simp [ha, hb, this]
    · intro h; exact absurd (Finset.mem_univ _) h

open Classical in
/-- All walks of length `k` from `s`. -/
noncomputable def walks (M : Trans ℝ) : Nat → Nat → Finset (List (Nat × Nat))
  | 0, _ => {[]}
  | k + 1, s => ((Finset.range M.nA ×ˢ Finset.range M.nS).filter fun y => M.p s y.1 y.2 = 1).biUnion fun y =>
      (walks M k y.2).image fun l => y :: l

theorem mem_walks {M : Trans ℝ} : ∀ (k s : Nat) (l : List (Nat × Nat)),
    l ∈ walks M k s ↔ l.length = k ∧ Spec.Plays M s l := by
  intro k
  induction k with
  | zero =>
    intro s l
    simp only [walks, Finset.mem_singleton, List.length_eq_zero_iff]
    exact ⟨fun h => ⟨h, by subst h; trivial⟩, fun h => h.1⟩
  | succ k ih =>
    intro s l
    simp only [walks, Finset.mem_biUnion, Finset.mem_filter, Finset.mem_product, Finset.mem_range, Finset.mem_image, ih]
    constructor
    · rintro ⟨⟨x, t⟩, ⟨⟨h1, h2⟩, h3⟩, l', ⟨h4, h5⟩, rfl⟩
      exact ⟨by simp [h4], h1, h2, h3, h5⟩
    · rintro ⟨h1, h2⟩
      cases l with
      | nil => simp at h1
      | cons y l =>
        obtain ⟨x, t⟩ := y
        obtain ⟨g1, g2, g3, g4⟩ := h2
        exact ⟨(x, t), ⟨⟨g1, g2⟩, g3⟩, l, ⟨by simpa using h1, g4⟩, rfl⟩

/-- The chances of the walks that end in `t`, added up. -/
theorem sum_walks {M : Trans ℝ} (hdet : ∀ s x u, s < M.nS → x < M.nA → u < M.nS → M.p s x u = 0 ∨ M.p s x u = 1)
    (T : ℝ) (q : Arr2 (Ext ℝ)) (t : Nat) : ∀ (k s : Nat), s < M.nS →
    ∑ l ∈ walks M k s, (if (s :: l.map (·.2)).getLast? = some t then Spec.walkChance T q s l else 0) =
      Spec.standing M T q k s t := by
  intro k
  induction k with
  | zero => intro s _; simp [walks, Spec.standing, Spec.walkChance]
  | succ k ih =>
    intro s hs
    rw [walks, Finset.sum_biUnion, Finset.sum_filter, Finset.sum_product, Spec.standing]
    · refine Finset.sum_congr rfl fun x hx => Finset.sum_congr rfl fun u hu => ?_
      have hu' := Finset.mem_range.1 hu
      rw [Finset.sum_image (by intro l _ l' _ h; simpa using h), ← ih u hu']
      rcases hdet s x u hs (Finset.mem_range.1 hx) hu' with h | h
      · rw [h]; simp
      · rw [if_pos h, h, mul_one, Finset.mul_sum]
        refine Finset.sum_congr rfl fun l _ => ?_
        simp only [List.map_cons, List.getLast?_cons_cons, Spec.walkChance, mul_ite, mul_zero]
    · intro y _ y' _ hne
      rw [Function.onFun, Finset.disjoint_left]
      intro l h1 h2
      obtain ⟨l1, -, rfl⟩ := Finset.mem_image.1 h1
      obtain ⟨l2, -, h3⟩ := Finset.mem_image.1 h2
      exact hne (by injection h3 with h3 _; exact h3.symm)

end Env

end MaMDP
