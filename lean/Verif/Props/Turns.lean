import Verif.Lemmas.Turns
import Verif.Props.EnvironmentSteps

/-! # C140: whose turn comes first -/

set_option linter.unusedSectionVars false

namespace MaMDP

variable {K : Type} [Field K] [LinearOrder K] [IsStrictOrderedRing K] {δ : Type}
variable {kind : GridKind} {W H : Nat} {selfT : Bool} {m m' : Mdp K} {specs : List (AgentSpec K δ)} {e0 : Env K δ}

/-- Two agents that can each take a step, neither of which consumes the other, can take their steps in either
order. Both end where they would have ended anyway; the MDP, the step counter, and everything about the agents
except what they have consumed, come out the same; so does the total consumed of each feature. The two results
are equal if and only if the two do not reach for the same food. -/
theorem C140_order (hm : Mdp.GridReach kind W H selfT m) (hinit : Env.init m specs = (m', .ok e0))
    (ops : List (EnvOp K δ)) (x y : String) (hxy : x ≠ y) (dx dy : Nat → δ) (ex ey : Env K δ) (p q : Int)
    (hx : (e0.run ops).step x dx = (ex, .ok p)) (hy : (e0.run ops).step y dy = (ey, .ok q))
    (a b : Agent K δ) (ha : a ∈ (e0.run ops).agents) (hax : a.name = x) (hb : b ∈ (e0.run ops).agents)
    (hby : b.name = y) (hp : Spec.Peaceful (e0.run ops) a b) :
    ∃ exy eyx, ex.step y dy = (exy, .ok q) ∧ ey.step x dx = (eyx, .ok p) ∧
      exy.mdp = eyx.mdp ∧ exy.nSteps = eyx.nSteps ∧ exy.agentNames = eyx.agentNames ∧
      exy.agents.map Spec.bodyOf = eyx.agents.map Spec.bodyOf ∧
      (∀ row, Spec.consumedTotal exy row = Spec.consumedTotal eyx row) ∧
      (exy = eyx ↔ ¬ Spec.Contested (e0.run ops) a b p q) := by
  obtain ⟨hok, -⟩ := Env.started hm hinit ops
  generalize e0.run ops = e at *
  have hokx : Env.Ok kind W H selfT ex := by have := hok.step x dx; rw [hx] at this; exact this
  have hoky : Env.Ok kind W H selfT ey := by have := hok.step y dy; rw [hy] at this; exact this
  obtain ⟨a', a1, j, t, n1, hma, rfl, hva, rfl⟩ := Env.step_inv hok hx
  obtain ⟨b', b1, j', t', n2, hmb, rfl, hvb, rfl⟩ := Env.step_inv hok hy
  obtain rfl : a' = a := Env.eq_of_name hok.nodup hma.mem ha (n1.trans hax.symm)
  obtain rfl : b' = b := Env.eq_of_name hok.nodup hmb.mem hb (n2.trans hby.symm)
  subst hax hby
  have s1 := Env.step_of hokx (hma.across hmb (Ne.symm hxy)) hvb
  have s2 := Env.step_of hoky (hmb.across hma hxy) hva
  have hidx : a'.idx ≠ b'.idx := by
    intro h
    have hinj := List.inj_on_of_nodup_map hok.idxs hma.mem hmb.mem h
    exact hxy (by rw [hinj])
  have hrow : e.mdp.agentRow a'.idx ≠ e.mdp.agentRow b'.idx := fun h => hidx (Env.agentRow_inj h)
  have hab : ¬ Env.Eats e a' (e.mdp.agentRow b'.idx) := fun h => hp.1 (Env.eats_feeds.1 h).2
  have hba : ¬ Env.Eats e b' (e.mdp.agentRow a'.idx) := fun h => hp.2 (Env.eats_feeds.1 h).2
  have hfed := Env.fed_swap (a1 := a1) (b1 := b1) (t := t) (t' := t') hrow hab hba
  have hne : a1.name ≠ b1.name := by rw [hma.name.1, hmb.name.1]; exact hxy
  have hmdp : (Env.after (Env.after e a' a1 t) b' b1 t').mdp = (Env.after (Env.after e b' b1 t') a' a1 t).mdp := by
    change (e.mdp.withFeat _).withFeat _ = (e.mdp.withFeat _).withFeat _
    rw [hfed]
    rfl
  have ag1 : (Env.after (Env.after e a' a1 t) b' b1 t').agents =
      (e.agents.map fun c => if c.name = a1.name then Env.grown e a' a1 t else c).map fun c =>
        if c.name = b1.name then Env.grown (Env.after e a' a1 t) b' b1 t' else c := rfl
  have ag2 : (Env.after (Env.after e b' b1 t') a' a1 t).agents =
      (e.agents.map fun c => if c.name = b1.name then Env.grown e b' b1 t' else c).map fun c =>
        if c.name = a1.name then Env.grown (Env.after e b' b1 t') a' a1 t else c := rfl
  have g1 := Env.gain_after (a1 := a1) (t := t) (t' := t') hab hba
  have g2 := Env.gain_after (a1 := b1) (t := t') (t' := t) hba hab
  refine ⟨_, _, s1, s2, hmdp, rfl, rfl, ?_, ?_, ?_⟩
  · rw [ag1, ag2, List.map_map, List.map_map, List.map_map, List.map_map]
    apply List.map_congr_left
    intro c _
    have k1 : ∀ (e : Env K δ) (a a1 : Agent K δ) t, (Env.grown e a a1 t).name = a1.name := fun _ _ _ _ => rfl
    simp only [Function.comp]
    by_cases c1 : c.name = a1.name
    · simp only [c1, if_true, k1, if_neg hne]
      rfl
    · by_cases c2 : c.name = b1.name
      · simp only [c2, if_true, k1, if_neg (Ne.symm hne)]
        rfl
      · simp only [c1, c2, if_false]
  · intro row
    have hax : a' ∈ (Env.after e b' b1 t').agents := (hmb.across hma hxy).mem
    have hbx : b' ∈ (Env.after e a' a1 t).agents := (hma.across hmb (Ne.symm hxy)).mem
    have t1 := Env.consumedTotal_put hok hma.mem (a' := Env.grown e a' a1 t) hma.name.1
      (e.mdp.withFeat (Env.fed e a' t)) (e.nSteps + 1) row
    have t2 := Env.consumedTotal_put hok hmb.mem (a' := Env.grown e b' b1 t') hmb.name.1
      (e.mdp.withFeat (Env.fed e b' t')) (e.nSteps + 1) row
    have t3 := Env.consumedTotal_put hokx hbx (a' := Env.grown (Env.after e a' a1 t) b' b1 t') hmb.name.1
      ((Env.after e a' a1 t).mdp.withFeat (Env.fed (Env.after e a' a1 t) b' t')) (e.nSteps + 1 + 1) row
    have t4 := Env.consumedTotal_put hoky hax (a' := Env.grown (Env.after e b' b1 t') a' a1 t) hma.name.1
      ((Env.after e b' b1 t').mdp.withFeat (Env.fed (Env.after e b' b1 t') a' t)) (e.nSteps + 1 + 1) row
    change Spec.consumedTotal (Env.after e a' a1 t) row + a'.consumed row =
      Spec.consumedTotal e row + (a'.consumed row + Env.gain e a' t row) at t1
    change Spec.consumedTotal (Env.after e b' b1 t') row + b'.consumed row =
      Spec.consumedTotal e row + (b'.consumed row + Env.gain e b' t' row) at t2
    change Spec.consumedTotal (Env.after (Env.after e a' a1 t) b' b1 t') row + b'.consumed row =
      Spec.consumedTotal (Env.after e a' a1 t) row +
        (b'.consumed row + Env.gain (Env.after e a' a1 t) b' t' row) at t3
    change Spec.consumedTotal (Env.after (Env.after e b' b1 t') a' a1 t) row + a'.consumed row =
      Spec.consumedTotal (Env.after e b' b1 t') row +
        (a'.consumed row + Env.gain (Env.after e b' b1 t') a' t row) at t4
    have : Env.gain e a' t row + Env.gain (Env.after e a' a1 t) b' t' row =
        Env.gain e b' t' row + Env.gain (Env.after e b' b1 t') a' t row := by
      rw [g1, g2]
      by_cases hc : t' = t ∧ Env.Eats e a' row ∧ Env.Eats e b' row ∧ 0 < e.mdp.features.get row t
      · obtain ⟨rfl, h3, h4, h5⟩ := hc
        rw [if_pos ⟨rfl, h3, h4, h5⟩, if_pos ⟨rfl, h4, h3, h5⟩, Env.gain_contested hba h3 h4 h5,
          Env.gain_contested hab h4 h3 h5]
      · rw [if_neg hc, if_neg (fun hd => hc ⟨hd.1.symm, hd.2.2.1, hd.2.1, by have := hd.2.2.2; rwa [← hd.1] at this⟩)]
        omega
    omega
  · constructor
    · rintro heq ⟨hpq, row, hlt, h3, h4, h5⟩
      have htt : t = t' := by exact_mod_cast hpq
      subst htt
      have h3 : Env.Eats e a' row := Env.eats_feeds.2 ⟨hlt, h3⟩
      have h4 : Env.Eats e b' row := Env.eats_feeds.2 ⟨hlt, h4⟩
      have h5 : 0 < e.mdp.features.get row t := by simpa using h5
      have hmem : Env.grown e a' a1 t ∈ (Env.after (Env.after e a' a1 t) b' b1 t).agents := by
        rw [ag1, List.map_map]
        refine List.mem_map.2 ⟨a', hma.mem, ?_⟩
        simp only [Function.comp, hma.name.1, if_true]
        rw [if_neg]
        change ¬ a1.name = b1.name
        exact hne
      rw [heq, ag2, List.map_map] at hmem
      obtain ⟨c, hc, hce⟩ := List.mem_map.1 hmem
      have hcn : c.name = a1.name := by
        have k := congrArg (fun z => z.name) hce
        simp only [Function.comp] at k
        by_cases h : c.name = b1.name
        · rw [if_pos h, if_neg (show ¬ (Env.grown e b' b1 t).name = a1.name from Ne.symm hne)] at k
          exact absurd k (Ne.symm hne)
        · rw [if_neg h] at k
          by_contra hcn
          rw [if_neg hcn] at k
          exact hcn k
      simp only [Function.comp, hcn, if_neg hne, if_true] at hce
      have := congrArg (fun z => z.consumed row) hce
      change a'.consumed row + Env.gain (Env.after e b' b1 t) a' t row = a'.consumed row + Env.gain e a' t row at this
      rw [g2, if_pos ⟨rfl, h4, h3, h5⟩, Env.gain_contested hba h3 h4 h5] at this
      omega
    · intro hnc
      have hc : ∀ row, ¬ (t' = t ∧ Env.Eats e a' row ∧ Env.Eats e b' row ∧ 0 < e.mdp.features.get row t) := by
        rintro row ⟨rfl, h3, h4, h5⟩
        exact hnc ⟨rfl, row, (Env.eats_feeds.1 h3).1, (Env.eats_feeds.1 h3).2, (Env.eats_feeds.1 h4).2, by simpa using h5⟩
      have k1 : Env.grown (Env.after e a' a1 t) b' b1 t' = Env.grown e b' b1 t' := by
        unfold Env.grown
        congr 1
        funext row
        rw [g1, if_neg (hc row)]
      have k2 : Env.grown (Env.after e b' b1 t') a' a1 t = Env.grown e a' a1 t := by
        unfold Env.grown
        congr 1
        funext row
        rw [g2, if_neg]
        rintro ⟨rfl, h4, h3, h5⟩
        exact hc row ⟨rfl, h3, h4, h5⟩
      have hag : (Env.after (Env.after e a' a1 t) b' b1 t').agents =
          (Env.after (Env.after e b' b1 t') a' a1 t).agents := by
        rw [ag1, ag2, k1, k2]
        exact Env.agents_swap (A := Env.grown e a' a1 t) (B := Env.grown e b' b1 t') hne e.agents
      have hext : ∀ u v : Env K δ, u.mdp = v.mdp → u.agentNames = v.agentNames → u.agents = v.agents →
          u.nSteps = v.nSteps → u = v := by
        rintro ⟨_, _, _, _⟩ ⟨_, _, _, _⟩ h1 h2 h3 h4
        simp only at h1 h2 h3 h4
        subst h1 h2 h3 h4
        rfl
      exact hext _ _ hmdp rfl hag rfl

/-- Fox at the first and hen at the last state of a corridor of three; both eat the grass, feature 0. -/
def exGrazers : List (AgentSpec Rat Nat) :=
  [⟨"fox", 1, maxSelector, .fresh, some 0, .of1 ⟨3, fun _ => 1⟩, [0]⟩,
   ⟨"hen", 1, maxSelector, .fresh, some 2, .of1 ⟨3, fun _ => 1⟩, [-3]⟩]

/-- Grass on state `s` only. -/
def exGrass (s : Nat) : Py (Mdp Rat) :=
  Mdp.initGrid .square 1 3 false ⟨1, 3, fun _ t => if t = s then 1 else 0⟩ none

/-- Towards the middle from both ends. -/
def exInwards : FitOut Rat := fun _ => .ok (.of1 ⟨3, fun _ => .fin 0⟩,
  .of2 ⟨3, 4, fun s a => if a = 0 ∧ s = 0 then .fin 1 else if a = 2 ∧ 0 < s then .fin 1 else .ninf⟩)

/-- Both have made up their minds. -/
def exDecided : List (EnvOp Rat Nat) := [.fit "fox" exInwards fun _ => 0, .fit "hen" exInwards fun _ => 0]

instance (nF : Nat) (a : Agent Rat Nat) (row : Nat) : Decidable (Spec.Feeds nF a row) := by
  unfold Spec.Feeds; infer_instance

instance (e : Env Rat Nat) (a b : Agent Rat Nat) : Decidable (Spec.Peaceful e a b) := by
  unfold Spec.Peaceful; infer_instance

/-- Both agents can step, do not consume each other, and meet on state 1. -/
def exMeet (e : Env Rat Nat) (row0 : Rat) : Bool :=
  match (e.run exDecided).step "fox" fun _ => 0, (e.run exDecided).step "hen" fun _ => 0,
      (e.run exDecided).agent? "fox", (e.run exDecided).agent? "hen" with
  | (_, .ok p), (_, .ok q), some a, some b => decide (p = 1) && decide (q = 1) &&
      decide (Spec.Peaceful (e.run exDecided) a b) && decide (a.consumes = [0]) && decide (b.consumes = [-3]) &&
      decide ((e.run exDecided).mdp.features.get 0 1 = row0) && decide ((e.run exDecided).mdp.features.d0 = 3)
  | _, _, _, _ => false

theorem exMeet_at (s : Nat) (v : Rat) (h : (match exGrass s with
      | .ok m => match (Env.init m exGrazers).2 with
        | .ok e => exMeet e v
        | .error _ => false
      | .error _ => false) = true) : ∃ m m' e, Mdp.GridReach .square 1 3 false m ∧
    Env.init m exGrazers = (m', .ok e) ∧ ∃ ex ey a b, (e.run exDecided).step "fox" (fun _ => 0) = (ex, .ok 1) ∧
      (e.run exDecided).step "hen" (fun _ => 0) = (ey, .ok 1) ∧ a ∈ (e.run exDecided).agents ∧ a.name = "fox" ∧
      b ∈ (e.run exDecided).agents ∧ b.name = "hen" ∧ Spec.Peaceful (e.run exDecided) a b ∧
      a.consumes = [0] ∧ b.consumes = [-3] ∧ (e.run exDecided).mdp.features.get 0 1 = v ∧
      (e.run exDecided).mdp.features.d0 = 3 := by
  obtain ⟨m, m', e, h1, h2, h3⟩ := exStart' (exGrass s) exGrazers (fun e => exMeet e v) h (fun m hm => .init hm)
  refine ⟨m, m', e, h1, h2, ?_⟩
  unfold exMeet at h3
  rcases hx : (e.run exDecided).step "fox" fun _ => 0 with ⟨ex, _ | p⟩
  · rw [hx] at h3; simp at h3
  rcases hy : (e.run exDecided).step "hen" fun _ => 0 with ⟨ey, _ | q⟩
  · rw [hx, hy] at h3; simp at h3
  rw [hx, hy] at h3
  cases ha : (e.run exDecided).agent? "fox" with
  | none => rw [ha] at h3; simp at h3
  | some a =>
    cases hb : (e.run exDecided).agent? "hen" with
    | none => rw [ha, hb] at h3; simp at h3
    | some b =>
      rw [ha, hb] at h3
      simp only [Bool.and_eq_true, decide_eq_true_eq] at h3
      obtain ⟨⟨⟨⟨⟨⟨rfl, rfl⟩, k1⟩, k2⟩, k3⟩, k4⟩, k5⟩ := h3
      exact ⟨ex, ey, a, b, rfl, rfl, (Env.agent?_mem ha).1, (Env.agent?_mem ha).2, (Env.agent?_mem hb).1,
        (Env.agent?_mem hb).2, k1, k2, k3, k4, k5⟩

/-- Grass in the middle: whoever goes first eats it. -/
example : ∃ m m' e, Mdp.GridReach .square 1 3 false m ∧ Env.init m exGrazers = (m', .ok e) ∧
    ∃ exy eyx : Env Rat Nat, ((e.run exDecided).step "fox" fun _ => 0).1.step "hen" (fun _ => 0) = (exy, .ok 1) ∧
      ((e.run exDecided).step "hen" fun _ => 0).1.step "fox" (fun _ => 0) = (eyx, .ok 1) ∧ exy ≠ eyx := by
  obtain ⟨m, m', e, h1, h2, ex, ey, a, b, hx, hy, ha, hax, hb, hby, hp, f1, f2, hv, hd⟩ :=
    exMeet_at 1 1 (by decide +kernel)
  obtain ⟨exy, eyx, s1, s2, -, -, -, -, -, hiff⟩ := C140_order h1 h2 exDecided "fox" "hen" (by decide) _ _ ex ey 1 1
    hx hy a b ha hax hb hby hp
  refine ⟨m, m', e, h1, h2, exy, eyx, by rw [hx]; exact s1, by rw [hy]; exact s2, fun h => hiff.1 h ?_⟩
  refine ⟨rfl, 0, by rw [hd]; decide, ⟨0, by rw [f1]; simp, by simp⟩, ⟨-3, by rw [f2]; simp, by rw [hd]; simp⟩, ?_⟩
  rw [show (1 : Int).toNat = 1 from rfl, hv]
  decide

/-- Grass elsewhere: the order makes no difference although both arrive at the same state. -/
example : ∃ m m' e, Mdp.GridReach .square 1 3 false m ∧ Env.init m exGrazers = (m', .ok e) ∧
    ∃ exy : Env Rat Nat, ((e.run exDecided).step "fox" fun _ => 0).1.step "hen" (fun _ => 0) = (exy, .ok 1) ∧
      ((e.run exDecided).step "hen" fun _ => 0).1.step "fox" (fun _ => 0) = (exy, .ok 1) := by
  obtain ⟨m, m', e, h1, h2, ex, ey, a, b, hx, hy, ha, hax, hb, hby, hp, f1, f2, hv, hd⟩ :=
    exMeet_at 2 0 (by decide +kernel)
  obtain ⟨exy, eyx, s1, s2, -, -, -, -, -, hiff⟩ := C140_order h1 h2 exDecided "fox" "hen" (by decide) _ _ ex ey 1 1
    hx hy a b ha hax hb hby hp
  refine ⟨m, m', e, h1, h2, exy, by rw [hx]; exact s1, ?_⟩
  rw [hiff.2, hy]
  · exact s2
  · rintro ⟨-, row, hlt, g1, -, g3⟩
    have : row = 0 := by
      unfold Spec.Feeds at g1
      rw [f1, hd] at g1
      rw [hd] at hlt
      obtain ⟨f, hf, h⟩ := g1
      simp at hf
      omega
    subst this
    rw [show (1 : Int).toNat = 1 from rfl, hv] at g3
    exact absurd g3 (by decide)

end MaMDP
