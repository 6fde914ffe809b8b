import Verif.Lemmas.Mirror
import Verif.Props.Optimality
import Verif.Props.Costs

/-! # C112: the numbering of states and actions -/

set_option linter.unusedSectionVars false

namespace MaMDP

section Rename

variable {K : Type} [Field K] [LinearOrder K] [IsStrictOrderedRing K]

theorem image_range {n : Nat} {f : Nat → Nat} (h : ∀ s, s < n → f s < n)
    (hinj : ∀ s t, s < n → t < n → f s = f t → s = t) : (Finset.range n).image f = Finset.range n := by
  refine Finset.eq_of_subset_of_card_le (fun x hx => ?_) ?_
  · obtain ⟨s, hs, rfl⟩ := Finset.mem_image.1 hx
    exact Finset.mem_range.2 (h s (Finset.mem_range.1 hs))
  · rw [Finset.card_image_of_injOn fun s hs t ht => hinj s t (by simpa using hs) (by simpa using ht)]

theorem surj_range {n : Nat} {f : Nat → Nat} (h : ∀ s, s < n → f s < n)
    (hinj : ∀ s t, s < n → t < n → f s = f t → s = t) : ∀ t, t < n → ∃ s, s < n ∧ f s = t := by
  intro t ht
  have : t ∈ (Finset.range n).image f := by rw [image_range h hinj]; exact Finset.mem_range.2 ht
  obtain ⟨s, hs, e⟩ := Finset.mem_image.1 this
  exact ⟨s, Finset.mem_range.1 hs, e⟩

theorem sum_renamed {n : Nat} {f : Nat → Nat} (h : ∀ s, s < n → f s < n)
    (hinj : ∀ s t, s < n → t < n → f s = f t → s = t) (g : Nat → K) :
    ∑ t ∈ Finset.range n, g (f t) = ∑ t ∈ Finset.range n, g t := by
  conv_rhs => rw [← image_range h hinj]
  rw [Finset.sum_image fun s hs t ht => hinj s t (by simpa using hs) (by simpa using ht)]

theorem Spec.Renamed.sub {M M' : Trans K} {σ τ : Nat → Nat} (h : Spec.Renamed M M' σ τ) (hM : Spec.SubStochastic M) :
    Spec.SubStochastic M' := by
  constructor
  · intro s a t hs ha ht
    rw [h.nS] at hs ht
    rw [h.nA] at ha
    obtain ⟨s, ks, rfl⟩ := surj_range h.state h.state_inj _ hs
    obtain ⟨t, kt, rfl⟩ := surj_range h.state h.state_inj _ ht
    obtain ⟨a, ka, rfl⟩ := surj_range h.action h.action_inj _ ha
    rw [h.p s a t ks ka kt]
    exact hM.nonneg s a t ks ka kt
  · intro s a hs ha
    rw [h.nS] at hs
    rw [h.nA] at ha
    obtain ⟨s, ks, rfl⟩ := surj_range h.state h.state_inj _ hs
    obtain ⟨a, ka, rfl⟩ := surj_range h.action h.action_inj _ ha
    rw [h.nS, ← sum_renamed h.state h.state_inj]
    refine (Finset.sum_congr rfl fun t ht => ?_).trans_le (hM.le_one s a ks ka)
    exact h.p s a t ks ka (Finset.mem_range.1 ht)

theorem Spec.Renamed.Q {M M' : Trans K} {σ τ : Nat → Nat} (h : Spec.Renamed M M' σ τ) {r r' : Nat → K}
    (hr : ∀ t, t < M.nS → r' (σ t) = r t) (γ : K) (V : Nat → K) {s a : Nat} (hs : s < M.nS) (ha : a < M.nA) :
    Spec.Q M' r' γ V (σ s) (τ a) = Spec.Q M r γ (fun t => V (σ t)) s a := by
  unfold Spec.Q
  rw [h.nS, ← sum_renamed h.state h.state_inj]
  refine Finset.sum_congr rfl fun t ht => ?_
  have ht := Finset.mem_range.1 ht
  rw [h.p s a t hs ha ht, hr t ht]

theorem Spec.Renamed.possible {M M' : Trans K} {σ τ : Nat → Nat} (h : Spec.Renamed M M' σ τ) {s a : Nat} (hs : s < M.nS)
    (ha : a < M.nA) : Spec.Possible M' (σ s) (τ a) ↔ Spec.Possible M s a := by
  constructor
  · rintro ⟨t, ht, hp⟩
    rw [h.nS] at ht
    obtain ⟨t, kt, rfl⟩ := surj_range h.state h.state_inj _ ht
    exact ⟨t, kt, by rwa [h.p s a t hs ha kt] at hp⟩
  · rintro ⟨t, ht, hp⟩
    exact ⟨σ t, by rw [h.nS]; exact h.state t ht, by rwa [h.p s a t hs ha ht]⟩

theorem Spec.Renamed.bellman {M M' : Trans K} {σ τ : Nat → Nat} (h : Spec.Renamed M M' σ τ) {r r' : Nat → K}
    (hr : ∀ t, t < M.nS → r' (σ t) = r t) {γ : K} {V : Nat → K} (hV : Spec.Bellman M' r' γ V) :
    Spec.Bellman M r γ fun t => V (σ t) := by
  intro s hs
  obtain ⟨h1, a, ha, e⟩ := hV (σ s) (by rw [h.nS]; exact h.state s hs)
  constructor
  · intro b hb
    rw [← h.Q hr γ V hs hb]
    exact h1 (τ b) (by rw [h.nA]; exact h.action b hb)
  · rw [h.nA] at ha
    obtain ⟨a, ka, rfl⟩ := surj_range h.action h.action_inj _ ha
    exact ⟨a, ka, by rw [← h.Q hr γ V hs ka]; exact e⟩

end Rename

/-- **C112**, what does hold: plans for two worlds that differ in the numbering of their states and actions agree up
to the tolerance. -/
theorem C112_values_partial (M M' : Trans ℝ) (σ τ : Nat → Nat) (h : Spec.Renamed M M' σ τ) (hM : Spec.SubStochastic M)
    (hA : 0 < M.nA) (r r' : Nat → ℝ) (hr : ∀ t, t < M.nS → r' (σ t) = r t)
    (γ tol : ℝ) (h0 : 0 < γ) (h1 : γ < 1) (htol : 0 < tol) (k k' : Nat)
    (hstop : ∃ i, i < k ∧ ∀ s, s < M.nS → |Spec.sweeps M r γ (i + 1) s - Spec.sweeps M r γ i s| < tol)
    (hstop' : ∃ i, i < k' ∧ ∀ s, s < M.nS → |Spec.sweeps M' r' γ (i + 1) s - Spec.sweeps M' r' γ i s| < tol) :
    ∃ v q v' q', solveHard M r k γ tol = .ok (v, q) ∧ solveHard M' r' k' γ tol = .ok (v', q') ∧
      (∀ s, s < M.nS → |v' (σ s) - v s| < 2 * tol * γ / (1 - γ)) ∧
      ∀ s a, s < M.nS → a < M.nA → (q s a = .ninf ∧ q' (σ s) (τ a) = .ninf) ∨
        ∃ x x', q s a = .fin x ∧ q' (σ s) (τ a) = .fin x' ∧ |x' - x| < 2 * tol * γ / (1 - γ) := by
  have hM' := h.sub hM
  have hA' : 0 < M'.nA := by rw [h.nA]; exact hA
  obtain ⟨V, hV, -⟩ := C27_converges M' hM' hA' r' γ h0 h1
  have hVσ := h.bellman hr hV
  have e2 : 2 * tol * γ / (1 - γ) = tol * γ / (1 - γ) + tol * γ / (1 - γ) := by ring
  have hst' : ∃ i, i < k' ∧ ∀ s, s < M'.nS →
      |Spec.sweeps M' r' γ (i + 1) s - Spec.sweeps M' r' γ i s| < tol := by rw [h.nS]; exact hstop'
  obtain ⟨v, q, e, hv, -⟩ := C28_accuracy M hM hA r γ tol h0 h1 htol _ hVσ k hstop
  obtain ⟨v', q', e', hv', -⟩ := C28_accuracy M' hM' hA' r' γ tol h0 h1 htol V hV k' hst'
  have hq := plan_close hM hA h0 h1 htol hVσ hstop e
  have hq' := plan_close hM' hA' h0 h1 htol hV hst' e'
  refine ⟨v, q, v', q', e, e', fun s hs => ?_, fun s a hs ha => ?_⟩
  · have h2 := abs_lt.1 (hv s hs)
    have h3 := abs_lt.1 (hv' (σ s) (by rw [h.nS]; exact h.state s hs))
    rw [abs_lt]
    constructor <;> linarith [h2.1, h2.2, h3.1, h3.2]
  · have hs' : σ s < M'.nS := by rw [h.nS]; exact h.state s hs
    have ha' : τ a < M'.nA := by rw [h.nA]; exact h.action a ha
    by_cases hp : Spec.Possible M s a
    · obtain ⟨x, hx, hxc⟩ := hq.near s a hs ha hp
      obtain ⟨x', hx', hxc'⟩ := hq'.near (σ s) (τ a) hs' ha' ((h.possible hs ha).2 hp)
      refine .inr ⟨x, x', hx, hx', ?_⟩
      rw [h.Q hr γ V hs ha] at hxc'
      have h2 := abs_lt.1 hxc
      have h3 := abs_lt.1 hxc'
      rw [abs_lt]
      constructor <;> linarith [h2.1, h2.2, h3.1, h3.2]
    · exact .inl ⟨hq.mask s a hs ha hp, hq'.mask (σ s) (τ a) hs' ha' (mt (h.possible hs ha).1 hp)⟩

/-- So a decision that is clear enough is the same in both. -/
theorem C112_choice_partial (M M' : Trans ℝ) (σ τ : Nat → Nat) (h : Spec.Renamed M M' σ τ) (hM : Spec.SubStochastic M)
    (hA : 0 < M.nA) (r r' : Nat → ℝ) (hr : ∀ t, t < M.nS → r' (σ t) = r t)
    (γ tol : ℝ) (h0 : 0 < γ) (h1 : γ < 1) (htol : 0 < tol) (k k' : Nat)
    (hstop : ∃ i, i < k ∧ ∀ s, s < M.nS → |Spec.sweeps M r γ (i + 1) s - Spec.sweeps M r γ i s| < tol)
    (hstop' : ∃ i, i < k' ∧ ∀ s, s < M.nS → |Spec.sweeps M' r' γ (i + 1) s - Spec.sweeps M' r' γ i s| < tol)
    (v v' : Nat → ℝ) (q q' : Nat → Nat → Ext ℝ) (e : solveHard M r k γ tol = .ok (v, q))
    (e' : solveHard M' r' k' γ tol = .ok (v', q')) (s a : Nat) (hs : s < M.nS) (ha : a < M.nA) (x : ℝ)
    (hx : q s a = .fin x) (hbest : ∀ b y, b < M.nA → b ≠ a → q s b = .fin y → y + 4 * tol * γ / (1 - γ) ≤ x) :
    ∀ b, b < M.nA → b ≠ a → ¬ Spec.NoBetter (q' (σ s) (τ a)) (q' (σ s) (τ b)) := by
  obtain ⟨v₁, q₁, v₂, q₂, e1, e2, -, hq⟩ := C112_values_partial M M' σ τ h hM hA r r' hr γ tol h0 h1 htol k k'
    hstop hstop'
  rw [e] at e1
  rw [e'] at e2
  cases e1
  cases e2
  have e4 : 4 * tol * γ / (1 - γ) = 2 * tol * γ / (1 - γ) + 2 * tol * γ / (1 - γ) := by ring
  intro b hb hba
  rcases hq s a hs ha with ⟨hn, -⟩ | ⟨xa, xa', h2, h3, h4⟩
  · rw [hx] at hn; cases hn
  rw [hx] at h2
  cases h2
  rw [h3]
  rcases hq s b hs hb with ⟨-, h5⟩ | ⟨xb, xb', h5, h6, h7⟩
  · rw [h5]; exact fun hc => hc
  · rw [h6]
    have := hbest b xb hb hba h5
    refine not_le.2 ?_
    have h4 := abs_lt.1 h4
    have h7 := abs_lt.1 h7
    linarith [h4.1, h7.2]

/-- Worlds on the same grid, one with the walls of the other mirrored, are renamed versions of each other. -/
theorem renamed_grid {kind : GridKind} {W H : Nat} {selfT : Bool} {m m' : Mdp ℝ} {σ τ : Nat → Nat}
    (hm : Mdp.GridReach kind W H selfT m) (hm' : Mdp.GridReach kind W H selfT m')
    (hσ : ∀ s, s < W * H → σ s < W * H) (hinj : ∀ s t, s < W * H → t < W * H → σ s = σ t → s = t)
    (hτ : ∀ a, a < m.nActions → τ a < m.nActions) (hτi : ∀ a b, τ a = τ b → a = b)
    (hmove : ∀ s a t, s < W * H → t < W * H → (kind.Move H selfT (σ s) (τ a) (σ t) ↔ kind.Move H selfT s a t))
    (hwalls : ∀ s, s < W * H → m'.walls.get (σ s) = m.walls.get s) : Spec.Renamed m.trans m'.trans σ τ where
  nS := hm'.ok.nStates.trans hm.ok.nStates.symm
  nA := hm'.ok.nActions.trans hm.ok.nActions.symm
  state s hs := by
    change s < m.nStates at hs
    change σ s < m.nStates
    rw [hm.ok.nStates] at *
    exact hσ s hs
  state_inj s t hs ht h := by
    change s < m.nStates at hs
    change t < m.nStates at ht
    rw [hm.ok.nStates] at hs ht
    exact hinj s t hs ht h
  action a ha := hτ a ha
  action_inj a b _ _ h := hτi a b h
  p s a t hs _ ht := by
    change s < m.nStates at hs
    change t < m.nStates at ht
    rw [hm.ok.nStates] at hs ht
    change m'.sas (σ s) (τ a) (σ t) = m.sas s a t
    rw [hm'.ok.sas _ _ _ (hσ s hs) (hσ t ht), hm.ok.sas s a t hs ht, hwalls s hs, hwalls t ht]
    simp only [hmove s a t hs ht]

/-- Square grids mirrored in the second coordinate. -/
theorem C112_flipY {W H : Nat} {selfT : Bool} {m m' : Mdp ℝ} (hm : Mdp.GridReach .square W H selfT m)
    (hm' : Mdp.GridReach .square W H selfT m')
    (hwalls : ∀ s, s < W * H → m'.walls.get (Spec.flipY H s) = m.walls.get s) :
    Spec.Renamed m.trans m'.trans (Spec.flipY H) Spec.flipYAction :=
  renamed_grid hm hm' (fun _ hs => flipY_lt hs) (fun _ _ hs ht h => flipY_inj hs ht h)
    (by
      intro a ha
      have : 4 ≤ m.nActions := by rw [hm.ok.nActions]; exact Nat.le_add_right _ _
      unfold Spec.flipYAction
      split_ifs <;> omega)
    (by intro a b h; unfold Spec.flipYAction at h; split_ifs at h <;> omega)
    (fun _ _ _ hs ht => move_flipY hs ht) hwalls

/-- Square grids mirrored in the first coordinate. -/
theorem C112_flipX {W H : Nat} {selfT : Bool} {m m' : Mdp ℝ} (hm : Mdp.GridReach .square W H selfT m)
    (hm' : Mdp.GridReach .square W H selfT m')
    (hwalls : ∀ s, s < W * H → m'.walls.get (Spec.flipX W H s) = m.walls.get s) :
    Spec.Renamed m.trans m'.trans (Spec.flipX W H) Spec.flipXAction :=
  renamed_grid hm hm' (fun _ hs => flipX_lt hs) (fun _ _ hs ht h => flipX_inj hs ht h)
    (by
      intro a ha
      have : 4 ≤ m.nActions := by rw [hm.ok.nActions]; exact Nat.le_add_right _ _
      unfold Spec.flipXAction
      split_ifs <;> omega)
    (by intro a b h; unfold Spec.flipXAction at h; split_ifs at h <;> omega)
    (fun _ _ _ hs ht => move_flipX hs ht) hwalls

/-- Hexagonal grids with an odd number of columns, mirrored in the first coordinate. -/
theorem C112_flipX_hex {W H : Nat} {selfT : Bool} {m m' : Mdp ℝ} (hW : W % 2 = 1)
    (hm : Mdp.GridReach .hex W H selfT m) (hm' : Mdp.GridReach .hex W H selfT m')
    (hwalls : ∀ s, s < W * H → m'.walls.get (Spec.flipX W H s) = m.walls.get s) :
    Spec.Renamed m.trans m'.trans (Spec.flipX W H) Spec.flipXHex :=
  renamed_grid hm hm' (fun _ hs => flipX_lt hs) (fun _ _ hs ht h => flipX_inj hs ht h)
    (by
      intro a ha
      have : 6 ≤ m.nActions := by rw [hm.ok.nActions]; exact Nat.le_add_right _ _
      unfold Spec.flipXHex
      split_ifs <;> omega)
    (by intro a b h; unfold Spec.flipXHex at h; split_ifs at h <;> omega)
    (fun _ _ _ hs ht => move_flipX_hex hW hs ht) hwalls

/-- A corridor of five states with a reward at both ends and an agent in the middle. -/
noncomputable def exEven : List (AgentSpec ℝ Nat) :=
  [⟨"cat", 1, maxSelector, .fresh, some 2, .of1 ⟨2, fun f => if f = 0 then 1 else 0⟩, []⟩]

noncomputable def exEnds (s : Nat) : ℝ := if s = 0 then 1 else if s = 4 then 1 else 0

/-- The agent there. -/
theorem exEven_start : ∃ (m m' : Mdp ℝ) (e : Env ℝ Nat) (a : Agent ℝ Nat),
    Mdp.GridReach .square 1 5 false m ∧ Env.init m exEven = (m', .ok e) ∧ a ∈ e.agents ∧ a.name = "cat" ∧
    a.position = 2 ∧ a.selector = maxSelector ∧ a.history = [2] ∧ e.mdp.nStates = 5 ∧ e.mdp.nActions = 4 ∧
    (∀ s, e.mdp.walls.get s = 0) ∧
    (∀ s x t, s < 5 → t < 5 → e.mdp.sas s x t = if GridKind.square.Move 5 false s x t then (1 : ℝ) else 0) ∧
    ∀ t, (∑ f ∈ Finset.range a.reward.d0, a.reward.get f * e.mdp.features.get f t) = exEnds t := by
  obtain ⟨m, hi, -, hF, -, hN, hNA, -, hW⟩ := Mdp.initGrid_ok (K := ℝ) (kind := .square) (W := 1) (H := 5)
    (selfT := false) (f := ⟨1, 5, fun _ s => exEnds s⟩)
    (w := none) (by decide) rfl (by intro v hv; cases hv)
  have hm : Mdp.GridReach .square 1 5 false m := .init hi
  have hd : m.features.d0 - m.nAgents = 1 := by rw [hF, hN]; rfl
  obtain ⟨e, he⟩ := (C38_validated hm exEven).2 (by
    intro sp hsp
    rw [exEven, List.mem_singleton] at hsp
    subst hsp
    rw [hd]
    exact ⟨⟨_, rfl⟩, ⟨2, rfl, by decide, by decide⟩, by simp⟩)
  have hinit : Env.init m exEven = ((Env.init m exEven).1, .ok e) := Prod.ext rfl he
  have hnames : (exEven.map (·.name)).Nodup := by simp [exEven]
  obtain ⟨hl, -, hag⟩ := C38_agents hm hinit hnames
  obtain ⟨-, -, -, -, -, -, -, -, -, -, -, hwl, hfe, -⟩ := Env.init_facts hm hinit
  have hl1 : e.agents.length = 1 := hl
  have hlt : 0 < e.agents.length := by omega
  obtain ⟨hname, -, hpos, -, hhist, -, -, -, hrd, ⟨get, hget, hrw⟩, hsel, -⟩ :=
    hag 0 e.agents[0] ⟨"cat", 1, maxSelector, .fresh, some 2, .of1 ⟨2, fun f => if f = 0 then 1 else 0⟩, []⟩
      (List.getElem?_eq_getElem hlt) rfl
  have hmem : e.agents[0] ∈ e.agents := List.getElem_mem hlt
  generalize e.agents[0] = a at *
  have hp0 : a.position = 2 := (Option.some.inj hpos).symm
  have g : Mdp.GridOk .square 1 5 false e.mdp := (Env.started hm hinit []).1.reach.ok
  have hw : ∀ s, e.mdp.walls.get s = 0 := by intro s; rw [hwl, hW]
  have hd2 : a.reward.d0 = 2 := by rw [hrd, hd]; rfl
  have hr0 : a.reward.get 0 = 1 ∧ a.reward.get 1 = 0 := by
    rw [hrw, hrw]
    simp only [PyArr.of1, PyArr.nd.injEq] at hget
    rw [← hget.2]
    simp
  refine ⟨m, _, e, a, hm, hinit, hmem, hname, hp0, hsel, by rw [hhist, hp0], g.nStates, g.nActions, hw, ?_, ?_⟩
  · intro s x t hs ht
    rw [g.sas s x t hs ht, hw, hw]
    simp
  · intro t
    rw [hd2, Finset.sum_range_succ, Finset.sum_range_one, hr0.1, hr0.2, hfe 0 t (by rw [hd]; decide), hF]
    simp

/-- In a corridor of five states that is empty but for a reward of 1 at both ends, planned with a discount of 1/2,
one pass over values `x` at 1 and 3 and `x / 2` at 2 and 4. -/
theorem even_pass {M : Trans ℝ} (hM : Spec.SubStochastic M) (hdet : Spec.Deterministic M) (hS : M.nS = 5)
    (hA : M.nA = 4) (hup : ∀ s, s < 4 → M.p s 0 (s + 1) = 1) (hdown : ∀ s, s < 4 → M.p (s + 1) 2 s = 1)
    (hone : ∀ s a t, s < 5 → a < 4 → t < 5 → 0 < M.p s a t → (a = 0 ∧ t = s + 1) ∨ (a = 2 ∧ s = t + 1))
    {v : Nat → ℝ} {x : ℝ} (hx : 0 ≤ x) (hx2 : x < 4 / 3) (h1 : v 1 = x) (h2 : v 2 = x / 2) (h3 : v 3 = x)
    (h4 : v 4 = x / 2) :
    let w := (sweep (hardBackup M.nA) M exEnds (1 / 2) v).values
    let q := (sweep (hardBackup M.nA) M exEnds (1 / 2) v).q
    w 0 = x / 2 ∧ w 1 = 1 + x / 4 ∧ w 2 = (1 + x / 4) / 2 ∧ w 3 = 1 + x / 4 ∧ w 4 = (1 + x / 4) / 2 ∧
      q 2 2 = (1 + x / 4) / 2 ∧ q 2 0 = x / 2 := by
  intro w q
  let P := partialSweep (hardBackup M.nA) M exEnds (1 / 2) v
  have hlt : ∀ n t, t < n → P n t = hardBackup M.nA (actionValue M exEnds (1 / 2) (P t) t) :=
    partialSweep_lt (hardBackup M.nA) M exEnds (1 / 2) v
  have hge : ∀ n t, n ≤ t → P n t = v t := partialSweep_ge (hardBackup M.nA) M exEnds (1 / 2) v
  have hw : ∀ t, t < 5 → w t = hardBackup M.nA (actionValue M exEnds (1 / 2) (P t) t) := by
    intro t ht
    change (sweep (hardBackup M.nA) M exEnds (1 / 2) v).values t = _
    rw [sweep_values]
    exact hlt M.nS t (by rw [hS]; exact ht)
  have hq : ∀ s a, s < 5 → q s a = actionValue M exEnds (1 / 2) (P s) s a := by
    intro s a hs
    exact sweep_q (hardBackup M.nA) M exEnds (1 / 2) v s a (by rw [hS]; exact hs)
  have hnew : ∀ n t, t < n → t < 5 → P n t = w t := fun n t h h5 => by rw [hlt n t h, hw t h5]
  have aup : ∀ (u : Nat → ℝ) s, s < 4 → actionValue M exEnds (1 / 2) u s 0 = exEnds (s + 1) + 1 / 2 * u (s + 1) :=
    fun u s hs => actionValue_det hM hdet exEnds (1 / 2) u (by omega) (by omega) (by omega) (hup s hs)
  have adown : ∀ (u : Nat → ℝ) s, s < 4 → actionValue M exEnds (1 / 2) u (s + 1) 2 = exEnds s + 1 / 2 * u s :=
    fun u s hs => actionValue_det hM hdet exEnds (1 / 2) u (by omega) (by omega) (by omega) (hdown s hs)
  have azero : ∀ (u : Nat → ℝ) s a, s < 5 → a < 4 → ¬ (a = 0 ∧ s < 4) → ¬ (a = 2 ∧ 0 < s) →
      actionValue M exEnds (1 / 2) u s a = 0 := by
    intro u s a hs ha n1 n2
    refine actionValue_impossible hM exEnds (1 / 2) u (by omega) (by omega) ?_
    rintro ⟨t, ht, hp⟩
    rcases hone s a t hs ha (by omega) hp with ⟨e1, e2⟩ | ⟨e1, e2⟩ <;> omega
  have hmax : ∀ (u : Nat → ℝ) (y : ℝ), (∀ a, a < 4 → u a ≤ y) → (∃ a, a < 4 ∧ u a = y) → hardBackup M.nA u = y := by
    rintro u y hle ⟨a, ha, rfl⟩
    unfold hardBackup
    rw [hA]
    exact le_antisymm (npMax_le u (by decide) hle) (le_npMax u ha)
  have four : ∀ a, a < 4 → a = 0 ∨ a = 1 ∨ a = 2 ∨ a = 3 := by omega
  have r0 : exEnds 0 = 1 := by simp [exEnds]
  have r1 : exEnds 1 = 0 := by simp [exEnds]
  have r2 : exEnds 2 = 0 := by simp [exEnds]
  have r3 : exEnds 3 = 0 := by simp [exEnds]
  have r4 : exEnds 4 = 1 := by simp [exEnds]
  -- state 0
  have w0 : w 0 = x / 2 := by
    have a0 := aup (P 0) 0 (by decide)
    rw [r1, hge 0 1 (by decide), h1] at a0
    rw [hw 0 (by decide)]
    refine hmax _ _ (fun a ha => ?_) ⟨0, by decide, by rw [a0]; ring⟩
    rcases four a ha with rfl | rfl | rfl | rfl
    · rw [a0]; linarith
    all_goals rw [azero _ 0 _ (by decide) (by decide) (by omega) (by omega)]; linarith
  have w1 : w 1 = 1 + x / 4 := by
    have a0 := aup (P 1) 1 (by decide)
    have a2 := adown (P 1) 0 (by decide)
    rw [r2, hge 1 2 (by decide), h2] at a0
    rw [r0, hnew 1 0 (by decide) (by decide), w0] at a2
    rw [hw 1 (by decide)]
    refine hmax _ _ (fun a ha => ?_) ⟨2, by decide, by rw [a2]; ring⟩
    rcases four a ha with rfl | rfl | rfl | rfl
    · rw [a0]; linarith
    · rw [azero _ 1 _ (by decide) (by decide) (by omega) (by omega)]; linarith
    · rw [a2]; linarith
    · rw [azero _ 1 _ (by decide) (by decide) (by omega) (by omega)]; linarith
  have q20 : q 2 0 = x / 2 := by
    have a0 := aup (P 2) 2 (by decide)
    rw [r3, hge 2 3 (by decide), h3] at a0
    rw [hq 2 0 (by decide), a0]; ring
  have q22 : q 2 2 = (1 + x / 4) / 2 := by
    have a2 := adown (P 2) 1 (by decide)
    rw [r1, hnew 2 1 (by decide) (by decide), w1] at a2
    rw [hq 2 2 (by decide), a2]; ring
  have w2 : w 2 = (1 + x / 4) / 2 := by
    rw [hw 2 (by decide)]
    refine hmax _ _ (fun a ha => ?_) ⟨2, by decide, by rw [← hq 2 2 (by decide), q22]⟩
    rcases four a ha with rfl | rfl | rfl | rfl
    · rw [← hq 2 0 (by decide), q20]; linarith
    · rw [azero _ 2 _ (by decide) (by decide) (by omega) (by omega)]; linarith
    · rw [← hq 2 2 (by decide), q22]
    · rw [azero _ 2 _ (by decide) (by decide) (by omega) (by omega)]; linarith
  have w3 : w 3 = 1 + x / 4 := by
    have a0 := aup (P 3) 3 (by decide)
    have a2 := adown (P 3) 2 (by decide)
    rw [r4, hge 3 4 (by decide), h4] at a0
    rw [r2, hnew 3 2 (by decide) (by decide), w2] at a2
    rw [hw 3 (by decide)]
    refine hmax _ _ (fun a ha => ?_) ⟨0, by decide, by rw [a0]; ring⟩
    rcases four a ha with rfl | rfl | rfl | rfl
    · rw [a0]; linarith
    · rw [azero _ 3 _ (by decide) (by decide) (by omega) (by omega)]; linarith
    · rw [a2]; linarith
    · rw [azero _ 3 _ (by decide) (by decide) (by omega) (by omega)]; linarith
  have w4 : w 4 = (1 + x / 4) / 2 := by
    have a2 := adown (P 4) 3 (by decide)
    rw [r3, hnew 4 3 (by decide) (by decide), w3] at a2
    rw [hw 4 (by decide)]
    refine hmax _ _ (fun a ha => ?_) ⟨2, by decide, by rw [a2]; ring⟩
    rcases four a ha with rfl | rfl | rfl | rfl
    · rw [azero _ 4 _ (by decide) (by decide) (by omega) (by omega)]; linarith
    · rw [azero _ 4 _ (by decide) (by decide) (by omega) (by omega)]; linarith
    · rw [a2]; linarith
    · rw [azero _ 4 _ (by decide) (by decide) (by omega) (by omega)]; linarith
  exact ⟨w0, w1, w2, w3, w4, q22, q20⟩

/-- So the planner finds going down better than going up, however long it goes on. -/
theorem even_plan {M : Trans ℝ} (hM : Spec.SubStochastic M) (hdet : Spec.Deterministic M) (hS : M.nS = 5)
    (hA : M.nA = 4) (hup : ∀ s, s < 4 → M.p s 0 (s + 1) = 1) (hdown : ∀ s, s < 4 → M.p (s + 1) 2 s = 1)
    (hone : ∀ s a t, s < 5 → a < 4 → t < 5 → 0 < M.p s a t → (a = 0 ∧ t = s + 1) ∨ (a = 2 ∧ s = t + 1))
    {tol : ℝ} {maxIter : Nat} {v : Nat → ℝ} {q : Nat → Nat → Ext ℝ}
    (hsol : solveHard M exEnds maxIter (1 / 2) tol = .ok (v, q)) :
    ∃ x y, q 2 2 = .fin x ∧ q 2 0 = .fin y ∧ y < x ∧ q 2 1 = .ninf ∧ q 2 3 = .ninf := by
  have hA0 : 0 < M.nA := by omega
  have hk : 0 < maxIter := by
    by_contra h
    have : maxIter = 0 := by omega
    subst this
    rw [solveHard_eq hA0] at hsol
    unfold solveVI at hsol
    rw [if_neg (by norm_num)] at hsol
    cases hsol
  have key : ∀ n, ∃ x : ℝ, 0 ≤ x ∧ x < 4 / 3 ∧
      iterV (hardBackup M.nA) M exEnds (1 / 2) (fun _ => 0) n 1 = x ∧
      iterV (hardBackup M.nA) M exEnds (1 / 2) (fun _ => 0) n 2 = x / 2 ∧
      iterV (hardBackup M.nA) M exEnds (1 / 2) (fun _ => 0) n 3 = x ∧
      iterV (hardBackup M.nA) M exEnds (1 / 2) (fun _ => 0) n 4 = x / 2 := by
    intro n
    induction n with
    | zero => exact ⟨0, le_rfl, by norm_num, rfl, by simp [iterV], rfl, by simp [iterV]⟩
    | succ n ih =>
      obtain ⟨x, hx, hx2, h1, h2, h3, h4⟩ := ih
      obtain ⟨-, w1, w2, w3, w4, -, -⟩ := even_pass hM hdet hS hA hup hdown hone hx hx2 h1 h2 h3 h4
      exact ⟨1 + x / 4, by linarith, by linarith, w1, w2, w3, w4⟩
  obtain ⟨j, -, -, -, -, e⟩ := solveVI_spec (hardBackup M.nA) M exEnds (show (0 : ℝ) < 1 / 2 by norm_num) (by norm_num)
    tol hk
  rw [← solveHard_eq hA0, hsol] at e
  simp only [Except.ok.injEq, Prod.mk.injEq] at e
  obtain ⟨x, hx, hx2, h1, h2, h3, h4⟩ := key (j - 1)
  obtain ⟨-, -, -, -, -, q22, q20⟩ := even_pass hM hdet hS hA hup hdown hone hx hx2 h1 h2 h3 h4
  have hmask := C29_mask M hM exEnds maxIter (1 / 2) tol v q hsol 2
  have himp : ∀ a, a < 4 → a ≠ 0 → a ≠ 2 → q 2 a = .ninf := by
    intro a ha n0 n2
    refine (hmask a (by omega) (by omega)).1.2 fun t ht => ?_
    by_contra hne
    have hp := lt_of_le_of_ne (hM.nonneg 2 a t (by omega) (by omega) ht) (Ne.symm hne)
    rcases hone 2 a t (by decide) ha (by omega) hp with ⟨e1, -⟩ | ⟨e1, -⟩ <;> omega
  have hfin : ∀ a, a < 4 → Spec.Possible M 2 a → q 2 a =
      .fin ((sweep (hardBackup M.nA) M exEnds (1 / 2) (iterV (hardBackup M.nA) M exEnds (1 / 2) (fun _ => 0) (j - 1))).q 2 a) := by
    intro a ha ⟨t, ht, hp⟩
    have hn : q 2 a ≠ .ninf := fun hc => (ne_of_gt hp) ((hmask a (by omega) (by omega)).1.1 hc t ht)
    rw [e.2] at hn ⊢
    unfold maskQ at hn ⊢
    split_ifs at hn ⊢ with hc
    · exact absurd rfl hn
    · rfl
  refine ⟨_, _, hfin 2 (by decide) (possible_of_one (by omega) (hdown 1 (by decide))),
    hfin 0 (by decide) (possible_of_one (t := 3) (by omega) (hup 2 (by decide))), ?_,
    himp 1 (by decide) (by decide) (by decide), himp 3 (by decide) (by decide) (by decide)⟩
  rw [q22, q20]
  linarith

/-- **C112 is false of the code** if the plans are to agree exactly: in a corridor with a reward at both ends,
which is its own mirror image, the agent in the middle always goes to the side with the lower numbers, for every
tolerance, every iteration limit and whatever the ties. -/
theorem C112_refuted : ∃ (m m' : Mdp ℝ) (e : Env ℝ Nat) (a : Agent ℝ Nat) (r : Nat → ℝ),
    Mdp.GridReach .square 1 5 false m ∧ Env.init m exEven = (m', .ok e) ∧ a ∈ e.agents ∧ a.name = "cat" ∧
    a.position = 2 ∧ Spec.flipY 5 2 = 2 ∧ a.history = [2] ∧
    r = (fun t => ∑ f ∈ Finset.range a.reward.d0, a.reward.get f * e.mdp.features.get f t) ∧
    (∀ t, t < 5 → r (Spec.flipY 5 t) = r t) ∧
    Spec.Renamed e.mdp.trans e.mdp.trans (Spec.flipY 5) Spec.flipYAction ∧
    ∀ (tol : ℝ) (maxIter : Nat) (d draws : Nat → Nat), 0 < maxIter →
      ∃ e1, e.fit "cat" (valueIterationFit e.mdp maxIter (1 / 2) tol) d = (e1, .ok ()) ∧
      ∃ a' ∈ (e1.run [.step "cat" draws]).agents, a'.name = "cat" ∧ a'.history = [2, 1] := by
  obtain ⟨m, m', e, a, hm, hinit, hmem, hname, hp0, hsel, hhist, hS, hA, hwall, hsas, hsum⟩ := exEven_start
  have hreach := (Env.started hm hinit []).1.reach
  have hr : (fun t => ∑ f ∈ Finset.range a.reward.d0, a.reward.get f * e.mdp.features.get f t) = exEnds := funext hsum
  refine ⟨m, m', e, a, exEnds, hm, hinit, hmem, hname, hp0, rfl, hhist, hr.symm, ?_,
    C112_flipY hreach hreach fun s _ => by rw [hwall, hwall], fun tol maxIter d draws hk => ?_⟩
  · intro t ht
    have : t = 0 ∨ t = 1 ∨ t = 2 ∨ t = 3 ∨ t = 4 := by omega
    rcases this with rfl | rfl | rfl | rfl | rfl <;> simp [Spec.flipY, exEnds]
  have hst : 2 = Spec.stateOf (1 * 5) a.position := by rw [hp0]; rfl
  have hS' : e.mdp.trans.nS = 5 := hS
  have hA' : e.mdp.trans.nA = 4 := hA
  have hone : ∀ s x t, s < 5 → t < 5 → GridKind.square.Move 5 false s x t → e.mdp.trans.p s x t = 1 := by
    intro s x t hs ht h
    change e.mdp.sas s x t = 1
    rw [hsas s x t hs ht, if_pos h]
  have hmove : ∀ s x t, s < 5 → t < 5 → 0 < e.mdp.trans.p s x t → GridKind.square.Move 5 false s x t := by
    intro s x t hs ht h
    by_contra hc
    change 0 < e.mdp.sas s x t at h
    rw [hsas s x t hs ht, if_neg hc] at h
    exact lt_irrefl _ h
  have k1 : ∀ s : Fin 4, GridKind.square.Move 5 false s 0 (s + 1) ∧ GridKind.square.Move 5 false (s + 1) 2 s := by
    decide +kernel
  have k2 : ∀ (s : Fin 5) (x : Fin 4) (t : Fin 5), GridKind.square.Move 5 false s x t →
      (x.1 = 0 ∧ t.1 = s + 1) ∨ (x.1 = 2 ∧ s.1 = t + 1) := by decide +kernel
  have hup : ∀ s, s < 4 → e.mdp.trans.p s 0 (s + 1) = 1 := fun s hs =>
    hone s 0 (s + 1) (by omega) (by omega) (k1 ⟨s, hs⟩).1
  have hdown : ∀ s, s < 4 → e.mdp.trans.p (s + 1) 2 s = 1 := fun s hs =>
    hone (s + 1) 2 s (by omega) (by omega) (k1 ⟨s, hs⟩).2
  have hways : ∀ s x t, s < 5 → x < 4 → t < 5 → 0 < e.mdp.trans.p s x t → (x = 0 ∧ t = s + 1) ∨ (x = 2 ∧ s = t + 1) :=
    fun s x t hs hx ht hp => k2 ⟨s, hs⟩ ⟨x, hx⟩ ⟨t, ht⟩ (hmove s x t hs ht hp)
  have hlive : Spec.Live e.mdp.trans 2 :=
    ⟨0, by rw [hA']; decide, 3, by rw [hS']; decide, by rw [hup 2 (by decide)]; exact one_pos⟩
  obtain ⟨e1, hfit⟩ := fit_succeeds hm hinit [] e rfl a hmem hsel 2 hst hlive maxIter hk (1 / 2) tol (by norm_num)
    (by norm_num) d
  obtain ⟨hsn, v, q, hsol, hf⟩ := follows_fit hm hinit [] e rfl a hmem hsel 2 hst hlive maxIter (1 / 2) tol d e1 hfit
  obtain ⟨hM, hdet, hA0, -⟩ := C27_grid .square 1 5 false e.mdp hreach
  have hr' : stateReward a.reward.d0 a.reward.get e.mdp.features.get = exEnds := hr
  rw [hr'] at hsol
  obtain ⟨x, y, q22, q20, hyx, q21, q23⟩ := even_plan hM hdet hS' hA' hup hdown hways hsol
  obtain ⟨l, l1, l2, l3, j', ⟨-, -, -, -, -, a', ha', hn', -, -, -, -, hh⟩, -⟩ := hf.walk (fun _ => draws) 1 0
  rw [hname] at hfit ha' hn'
  refine ⟨e1, hfit, a', by simpa using ha', hn', ?_⟩
  rw [hh, hhist]
  rcases l with _ | ⟨⟨x1, t1⟩, _ | ⟨_, l⟩⟩
  · simp at l1
  · obtain ⟨hx1, ht1, hp1, -⟩ := l2
    obtain ⟨hg, -⟩ := l3
    rw [hA'] at hx1
    rw [hS'] at ht1
    have hb : Spec.NoBetter (q 2 2) (q 2 x1) := hg 2 (by rw [hA']; decide)
    rcases hways 2 x1 t1 (by decide) hx1 ht1 (by rw [hp1]; exact one_pos) with ⟨rfl, -⟩ | ⟨-, h2⟩
    · rw [q22, q20] at hb
      exact absurd hb (not_le.2 hyx)
    · have : t1 = 1 := by omega
      subst this
      rfl
  · simp at l1

/-- The corridor as it is and renamed: a world with two different numberings. -/
example : Spec.Renamed (chain2 ℝ) ⟨2, 2, fun s a t => (chain2 ℝ).p (1 - s) (1 - a) (1 - t)⟩
    (fun s => 1 - s) (fun a => 1 - a) where
  nS := rfl
  nA := rfl
  state s hs := by change s < 2 at hs; change 1 - s < 2; omega
  state_inj s t hs ht h := by change s < 2 at hs; change t < 2 at ht; omega
  action a ha := by change a < 2 at ha; change 1 - a < 2; omega
  action_inj a b ha hb h := by change a < 2 at ha; change b < 2 at hb; omega
  p s a t hs ha ht := by
    change s < 2 at hs
    change a < 2 at ha
    change t < 2 at ht
    simp only
    congr 1 <;> omega

end MaMDP
