import Verif.Lemmas.EnvStart
import Verif.Props.ActionSelection
import Verif.Props.Grid
import Verif.Props.Mdp

/-! Lemmas for stepping: valid moves, repeated steps. -/

set_option linter.unusedSectionVars false

namespace MaMDP

variable {K : Type} [Field K] [LinearOrder K] [IsStrictOrderedRing K] {δ : Type}
variable {kind : GridKind} {W H : Nat} {selfT : Bool}

theorem not_unusable {x : Ext K} : ¬ Spec.Unusable x ↔ x ≠ .nan ∧ x ≠ .ninf := by
  cases x <;> simp [Spec.Unusable]

theorem hasEstimate_of {q : Arr2 (Ext K)} {s b : Nat} (hb : b < q.d1) (h : ¬ Spec.Unusable (q.get s b))
    (h' : ¬ nanState q s = true) : Spec.HasEstimate q s := by
  unfold nanState at h'
  rw [decide_eq_true_eq] at h'
  push Not at h'
  exact ⟨⟨b, hb, (not_unusable.1 h).1⟩, fun hc => by
    obtain ⟨⟨a, h1, h2⟩, c, h3, h4⟩ := hc
    exact h'.2 ⟨a, h1, h2⟩ c h3 h4⟩

theorem safe_max : Spec.Safe (maxSelector (K := K)) fun _ => True := by
  intro q draws pi _ h
  have hne : ¬ ∀ s, s < q.d0 → Spec.NoEstimate q s := by
    intro hc
    rw [C24_max_pi_error q draws hc] at h
    cases h
  push Not at hne
  obtain ⟨pi', h1, h2, h3⟩ := C24_max_pi q draws hne
  rw [h] at h1
  cases h1
  refine ⟨h2, fun s hs ⟨b, hb, hu⟩ => ?_⟩
  by_cases hn : nanState q s = true
  · left
    unfold Selector.pi at h
    split at h
    · cases h
    · split at h
      · cases h
      · cases h; simp [hn]
  · right
    obtain ⟨x, g1, g2, -⟩ := (h3 s hs).2 (hasEstimate_of hb hu hn)
    refine ⟨x, g2.1, g1, ?_⟩
    have := g2.2 b hb
    revert this hu
    cases q.get s b <;> cases q.get s x <;> simp [Spec.Unusable, Spec.NoBetter]

theorem safe_softmax (T : ℝ) (hT : 0 < T) : Spec.Safe (softmaxSelector T) fun u => 0 ≤ u ∧ u < 1 := by
  intro q draws pi hd h
  have hne : ¬ ∀ s, s < q.d0 → Spec.NoEstimate q s := by
    intro hc
    unfold Selector.pi at h
    rw [checkQValues_error.2 hc] at h
    cases h
  push Not at hne
  have hp : ∀ s a, s < q.d0 → a < q.d1 → q.get s a ≠ .pinf := by
    intro s a hs ha hc
    rw [C26_pinf_error T q s a hs ha hc draws] at h
    cases h
  obtain ⟨P, pi', h0, h1, h2, h3⟩ := C26_softmax_pi T q hne hp draws (fun s _ => hd s)
  rw [h] at h1
  cases h1
  refine ⟨h2, fun s hs ⟨b, hb, hu⟩ => ?_⟩
  by_cases hn : nanState q s = true
  · left
    unfold Selector.pi at h
    split at h
    · cases h
    · split at h
      · cases h
      · cases h; simp [hn]
  · right
    have hE := hasEstimate_of hb hu hn
    obtain ⟨p, g1, x, g2, g3, g4, -⟩ := (h3 s hs).2 hE
    refine ⟨x, g3, g2, ?_⟩
    intro hc
    obtain ⟨sel, P', k1, k2, k3, k4, k5⟩ := C25_softmax_pi_p T hT q hne
    unfold mkSoftmax at k1
    rw [if_neg (not_le.2 hT)] at k1
    cases k1
    rw [h0] at k2
    cases k2
    obtain ⟨p', l1, l2, l3, -⟩ := (k5 s hs).2 hE (fun a ha => hp s a hs ha)
    have hfin : ∃ x, q.get s b = .fin x := by
      have := hp s b hs hb
      revert this hu
      cases q.get s b <;> simp [Spec.Unusable]
    obtain ⟨y, hy⟩ := hfin
    have := (l3 ⟨b, y, hb, hy⟩ x g3).1 (by
      revert hc; cases q.get s x <;> simp [Spec.Unusable])
    have e1 := g1 x g3
    rw [(l1 x g3).1] at e1
    have e2 : p' x = p x := by injection e1
    rw [← e2, this] at g4
    exact lt_irrefl _ g4

namespace Env

variable {e : Env K δ}

/-- A move made on masked action values goes to a successor. -/
theorem Moved.successor (h : Ok kind W H selfT e) {a a1 : Agent K δ} {d : Nat → δ} {j t : Nat}
    (hm : Moved e a d a1 j t) {D : δ → Prop} (hs : Spec.Safe a.selector D) (hd : ∀ s, D (d s))
    {q : Arr2 (Ext K)} (hq : a.alg.qValues = some q) (hmask : Spec.MaskedAt e.mdp.trans q j)
    (hl : Spec.Live e.mdp.trans j) : Spec.Successor e.mdp.trans j t := by
  obtain ⟨q', P, p, s, f1, f2, f3, f4, f5, f6, f7, -⟩ := hm.ex
  rw [hq] at f2
  cases f2
  obtain ⟨g1, g2⟩ := hs q d p hd f4
  obtain ⟨m1, m2, m3⟩ := hmask
  have m1' : q.d0 = e.mdp.nStates := m1
  have m2' : q.d1 = e.mdp.nActions := m2
  rw [g1, m1', hm.seat] at f5
  cases f5
  have hj : j < e.mdp.nStates := pyIdx_lt hm.seat
  obtain ⟨b, hb, hp⟩ := hl
  rcases g2 j (by rw [m1']; exact hj) ⟨b, by rw [m2]; exact hb, fun hu => (m3 b hb).1 hu hp⟩ with g3 | ⟨x, g3, g4, g5⟩
  · omega
  · rw [m2] at g3
    have : Spec.Possible e.mdp.trans j x := by
      by_contra hc
      exact g5 ((m3 x g3).2 hc)
    obtain ⟨u, hu, hpos⟩ := this
    have g3' : x < e.mdp.nActions := g3
    have h15 := C15_next_state kind W H selfT e.mdp h.reach j x u hj g3' hu hpos
    rw [g4] at f7
    have hsame : e.mdp.getNextState a.position (x : Int) = e.mdp.getNextState (j : Int) (x : Int) := by
      unfold Mdp.getNextState
      rw [hm.seat]
      simp only [pyIdx_nat, if_pos hj]
    rw [hsame, h15] at f7
    cases f7
    exact ⟨hu, x, g3, hpos⟩

/-- Both ends of a transition are free of walls, and it can be undone. -/
theorem successor_facts (h : Ok kind W H selfT e) {j t : Nat} (hj : j < e.mdp.nStates)
    (hs : Spec.Successor e.mdp.trans j t) :
    e.mdp.walls.get j = 0 ∧ e.mdp.walls.get t = 0 ∧ Spec.Live e.mdp.trans t := by
  obtain ⟨ht, x, hx, hp⟩ := hs
  have g := h.reach.ok
  have hj' : j < W * H := by rw [← g.nStates]; exact hj
  have ht' : t < W * H := by rw [← g.nStates]; exact ht
  obtain ⟨w1, w2, hmv⟩ := (g.sas_pos hj' ht').1 hp
  refine ⟨(g.walls01 j hj').resolve_right w1, (g.walls01 t ht').resolve_right w2, ?_⟩
  have hp' : e.mdp.sas j x t ≠ 0 := ne_of_gt hp
  have hxa : x < e.mdp.nActions := hx
  rw [g.nActions] at hxa
  have hna : e.mdp.trans.nA = kind.nMoves + (if selfT then 1 else 0) := g.nActions
  rcases hmv with ⟨d, hd, -⟩ | ⟨-, -, rfl⟩
  · have hlt := GridKind.dir_lt hd
    cases kind with
    | square =>
      have hlt : x < 4 := hlt
      have := C05_square_reversible W H selfT e.mdp h.reach j x t hj ht hlt hp'
      refine ⟨(x + 2) % 4, ?_, j, hj, ?_⟩
      · rw [hna]; simp only [GridKind.nMoves]; omega
      · change 0 < e.mdp.sas t ((x + 2) % 4) j
        rw [this]; exact one_pos
    | hex =>
      have hlt : x < 6 := hlt
      have := C05_hex_reversible W H selfT e.mdp h.reach j x t hj ht hlt hp'
      refine ⟨(x + 3) % 6, ?_, j, hj, ?_⟩
      · rw [hna]; simp only [GridKind.nMoves]; omega
      · change 0 < e.mdp.sas t ((x + 3) % 6) j
        rw [this]; exact one_pos
  · exact ⟨x, hx, t, ht, hp⟩

theorem stepLoop_induct_on (P : Env K δ → Prop) {n : String} (refit : Bool) (F : FitOut K → Prop)
    (D : (Nat → δ) → Prop) (hfit : ∀ e o d, refit = true → F o → P e → P (Env.fit e n o d).1)
    (hstep : ∀ e d, D d → P e → P (Env.step e n d).1)
    (nas plan : List Nat) (nT : Nat) (stop : Bool) (orc : Nat → StepOracle K δ)
    (horc : ∀ i, D (orc i).draws ∧ (refit = true → ∀ pl, F ((orc i).out pl))) :
    ∀ (k i : Nat) (e : Env K δ) (acc : List Int), P e →
      P (stepLoop n nas plan nT refit stop orc k i e acc).1 := by
  intro k
  induction k with
  | zero => intro i e acc h; exact h
  | succ k ih =>
    intro i e acc h
    unfold stepLoop
    have hr : P (e.refitFor n nas plan nT refit (orc i) i).1 := by
      unfold refitFor
      split_ifs with hrf
      · split
        · exact h
        · exact hfit _ _ _ hrf ((horc i).2 hrf _) h
      · exact h
    split
    · rename_i heq; rw [heq] at hr; exact hr
    · rename_i heq; rw [heq] at hr
      rename_i e1
      have hs := hstep e1 (orc i).draws (horc i).1 hr
      split
      · rename_i heq; rw [heq] at hs; exact hs
      · rename_i heq; rw [heq] at hs
        split
        · exact hs
        · split_ifs
          · exact hs
          · exact ih _ _ _ hs

theorem stepMulti_induct_on (P : Env K δ → Prop) {n : String} (refit : Bool) (F : FitOut K → Prop)
    (D : (Nat → δ) → Prop) (hfit : ∀ e o d, refit = true → F o → P e → P (Env.fit e n o d).1)
    (hstep : ∀ e d, D d → P e → P (Env.step e n d).1)
    (e : Env K δ) (s : StepsArg) (mp : Option (List Nat)) (nT : Nat) (stop : Bool)
    (orc : Nat → StepOracle K δ)
    (horc : ∀ i, D (orc i).draws ∧ (refit = true → ∀ pl, F ((orc i).out pl))) (h : P e) :
    P (e.stepMulti n s mp nT refit stop orc).1 := by
  unfold stepMulti
  split
  · exact h
  · split
    · exact h
    · simp only
      split_ifs with h1
      · exact h
      · split
        · exact h
        · exact stepLoop_induct_on P refit F D hfit hstep _ _ _ _ _ horc _ _ _ _ h
      · split <;> exact h

/-- The state of an agent that keeps away from walls. -/
structure Free (e : Env K δ) (D : δ → Prop) (a : Agent K δ) : Prop where
  safe : Spec.Safe a.selector D
  pos : ∀ j, pyIdx e.mdp.nStates a.position = some j → Spec.Live e.mdp.trans j
  start : ∀ j, pyIdx e.mdp.nStates a.start = some j → Spec.Live e.mdp.trans j
  mask : ∀ q, a.alg.qValues = some q → ∀ s, s < e.mdp.nStates → Spec.MaskedAt e.mdp.trans q s
  hist : ∀ p ∈ a.history, ∃ j, pyIdx e.mdp.nStates p = some j ∧ e.mdp.walls.get j = 0

theorem live_walls (h : Ok kind W H selfT e) {j : Nat} (hj : j < e.mdp.nStates)
    (hl : Spec.Live e.mdp.trans j) : e.mdp.walls.get j = 0 := by
  obtain ⟨x, hx, t, ht, hp⟩ := hl
  exact (successor_facts h hj ⟨ht, x, hx, hp⟩).1

/-- Same transitions and walls. -/
def SameWorld (m m' : Mdp K) : Prop :=
  m'.nStates = m.nStates ∧ m'.nActions = m.nActions ∧ m'.sas = m.sas ∧ m'.walls = m.walls

theorem SameWorld.trans_eq {m m' : Mdp K} (h : SameWorld m m') : m'.trans = m.trans := by
  unfold Mdp.trans; rw [h.1, h.2.1, h.2.2.1]

theorem Free.congr {e e' : Env K δ} {D : δ → Prop} {a : Agent K δ} (h : Free e D a)
    (hw : SameWorld e.mdp e'.mdp) : Free e' D a := by
  obtain ⟨h1, h2, h3, h4, h5⟩ := h
  refine ⟨h1, ?_, ?_, ?_, ?_⟩
  · rw [hw.trans_eq, hw.1]; exact h2
  · rw [hw.trans_eq, hw.1]; exact h3
  · rw [hw.trans_eq, hw.1]; exact h4
  · rw [hw.1, hw.2.2.2]; exact h5

theorem fit_masked {a : Agent K δ} {m : Mdp K} {o : FitOut K} {d : Nat → δ} (ho : Spec.MaskedOut m.trans o)
    (h : ∀ q, a.alg.qValues = some q → ∀ s, s < m.nStates → Spec.MaskedAt m.trans q s) (q : Arr2 (Ext K))
    (hq : (a.fit m o d).1.alg.qValues = some q) : ∀ s, s < m.nStates → Spec.MaskedAt m.trans q s := by
  have key : ∀ st r, algFit o m.nFeatures m.nStates m.nActions (.of1 a.reward) a.alg = (st, r) →
      ∀ q, st.qValues = some q → ∀ s, s < m.nStates → Spec.MaskedAt m.trans q s := by
    intro st r hst q hq
    unfold algFit at hst
    split at hst
    · cases hst; exact h q hq
    · split at hst
      · cases hst; exact h q hq
      · rename_i v q' hv
        split at hst
        · cases hst; exact h q hq
        · rename_i v1 q1 hc
          cases hst
          simp only [Option.some.injEq] at hq
          subst hq
          unfold checkOutput at hc
          split at hc
          · split_ifs at hc with c1
            split at hc
            · split_ifs at hc with c2 c3
              rw [not_not] at c1 c2 c3
              subst c1 c2 c3
              cases hc
              exact ho _ _ _ hv
            · cases hc
          · cases hc
  unfold Agent.fit at hq
  rcases hf : algFit o m.nFeatures m.nStates m.nActions (.of1 a.reward) a.alg with ⟨st, x | x⟩
  · rw [hf] at hq
    exact key st _ hf q hq
  · rw [hf] at hq
    simp only at hq
    rw [(Agent.getPolicy_same { a with alg := st } d).2.2] at hq
    exact key st _ hf q hq

/-- Agent `n` keeps away from walls, in a world that does not change. -/
def Roaming (kind : GridKind) (W H : Nat) (selfT : Bool) (m : Mdp K) (D : δ → Prop) (n : String)
    (e : Env K δ) : Prop :=
  Ok kind W H selfT e ∧ SameWorld m e.mdp ∧ ∀ a ∈ e.agents, a.name = n → Free e D a

theorem Roaming.same {m : Mdp K} {D : δ → Prop} {n : String} (h : Roaming kind W H selfT m D n e)
    {a a' : Agent K δ} (ha : a ∈ e.agents) (hs : Agent.SameBody a a') (hh : a'.history = a.history)
    (hq : a.name = n → ∀ q, a'.alg.qValues = some q → ∀ s, s < e.mdp.nStates → Spec.MaskedAt e.mdp.trans q s)
    (k : Nat) : Roaming kind W H selfT m D n { e.put e.mdp a' with nSteps := k } := by
  refine ⟨(h.1.same ha hs).setNSteps k, h.2.1, ?_⟩
  intro b hb hn
  have hb : b ∈ (e.put e.mdp a').agents := hb
  rcases (mem_put (by rw [hs.name]; exact List.mem_map_of_mem (f := (·.name)) ha)).1 hb with rfl | ⟨hb, hne⟩
  · have hn' : a.name = n := hs.name.symm.trans hn
    have hf := h.2.2 a ha hn'
    exact ⟨by rw [hs.selector]; exact hf.safe, by rw [hs.position]; exact hf.pos,
      by rw [hs.start]; exact hf.start, hq hn', by rw [hh]; exact hf.hist⟩
  · exact (h.2.2 b hb hn).congr ⟨rfl, rfl, rfl, rfl⟩

theorem Roaming.fit {m : Mdp K} {D : δ → Prop} {n : String} (h : Roaming kind W H selfT m D n e)
    (n' : String) (o : FitOut K) (d : Nat → δ) (ho : n' = n → Spec.MaskedOut m.trans o) :
    Roaming kind W H selfT m D n (e.fit n' o d).1 := by
  rcases fit_cases h.1 n' o d with ⟨-, h1⟩ | ⟨a, h1, h2, h3⟩
  · rw [h1]; exact h
  · rw [h3]
    refine h.same h1 (Agent.fit_same a e.mdp o d).1 (Agent.fit_same a e.mdp o d).2 ?_ e.nSteps
    intro hn q hq
    exact fit_masked (by rw [h.2.1.trans_eq]; exact ho (h2.symm.trans hn)) (h.2.2 a h1 hn).mask q hq

theorem Roaming.setAlgorithm {m : Mdp K} {D : δ → Prop} {n : String} (h : Roaming kind W H selfT m D n e)
    (n' : String) (st : AlgState K)
    (hst : n' = n → ∀ q, st.qValues = some q → ∀ s, s < m.trans.nS → Spec.MaskedAt m.trans q s) :
    Roaming kind W H selfT m D n (e.setAlgorithm n' st).1 := by
  rcases setAlgorithm_cases h.1 n' st with ⟨-, h1⟩ | ⟨a, h1, h2, h3⟩
  · rw [h1]; exact h
  · rw [h3]
    refine h.same h1 (setAlgorithm_same a st) rfl ?_ e.nSteps
    intro hn q hq
    have := hst (h2.symm.trans hn) q hq
    rw [← h.2.1.trans_eq] at this
    exact this

theorem Roaming.stepProba {m : Mdp K} {D : δ → Prop} {n : String} (h : Roaming kind W H selfT m D n e)
    (n' : String) (p : Option (Arr1 K)) (d : Nat → δ) :
    Roaming kind W H selfT m D n (e.stepProba n' p d).1 := by
  rcases stepProba_cases h.1 n' p d with ⟨-, h1⟩ | ⟨a, h1, h2, ⟨err, -, h3⟩ | ⟨x, -, h3⟩⟩
  · rw [h1]; exact h
  · rw [h3]
    have hs := Agent.stepProba_same a e.mdp p d
    refine h.same h1 hs.1 hs.2.1 ?_ e.nSteps
    intro hn q hq
    rw [hs.2.2] at hq
    exact (h.2.2 a h1 hn).mask q hq
  · rw [h3]
    have hs := Agent.stepProba_same a e.mdp p d
    refine h.same h1 hs.1 hs.2.1 ?_ (e.nSteps + 1)
    intro hn q hq
    rw [hs.2.2] at hq
    exact (h.2.2 a h1 hn).mask q hq

theorem Roaming.moved {m : Mdp K} {D : δ → Prop} {n : String} (h : Roaming kind W H selfT m D n e)
    {a a1 a2 : Agent K δ} {d : Nat → δ} {j t : Nat} (hm : Moved e a d a1 j t)
    (hd : a.name = n → ∀ s, D (d s)) (h2 : a2.name = a1.name ∧ a2.selector = a1.selector ∧
      a2.position = a1.position ∧ a2.start = a1.start ∧ a2.alg = a1.alg ∧ a2.history = a1.history)
    {e' : Env K δ} (hok : Ok kind W H selfT e') (hw : SameWorld e.mdp e'.mdp)
    (he : ∀ b ∈ e'.agents, b = a2 ∨ (b ∈ e.agents ∧ b.name ≠ a2.name)) :
    Roaming kind W H selfT m D n e' := by
  have hw' : SameWorld m e'.mdp := ⟨hw.1.trans h.2.1.1, hw.2.1.trans h.2.1.2.1, hw.2.2.1.trans h.2.1.2.2.1,
    hw.2.2.2.trans h.2.1.2.2.2⟩
  refine ⟨hok, hw', ?_⟩
  intro b hb hn
  rcases he b hb with rfl | ⟨hb, -⟩
  · obtain ⟨m1, m2, m3, m4, m5, m6, m7, m8, m9, -⟩ := hm.name
    obtain ⟨g1, g2, g3, g4, g5, g6⟩ := h2
    have hna : a.name = n := by rw [← m1, ← g1]; exact hn
    have hf := h.2.2 a hm.mem hna
    obtain ⟨q, P, p, s, f1, f2, -⟩ := hm.ex
    have hj := pyIdx_lt hm.seat
    have hsucc := hm.successor h.1 hf.safe (hd hna) f2 (hf.mask q f2 j hj) (hf.pos j hm.seat)
    obtain ⟨s1, s2, s3⟩ := successor_facts h.1 hj hsucc
    have ht : pyIdx e.mdp.nStates (t : Int) = some t := by simp [hm.lt]
    refine Free.congr (e := e) ⟨?_, ?_, ?_, ?_, ?_⟩ hw
    · rw [g2, m9]; exact hf.safe
    · rw [g3, m4, ht]; rintro _ ⟨⟩; exact s3
    · rw [g4, m3]; exact hf.start
    · rw [g5, m8]; exact hf.mask
    · rw [g6, m7]
      intro p hp
      rcases List.mem_append.1 hp with hp | hp
      · exact hf.hist p hp
      · rw [List.mem_singleton] at hp; subst hp
        exact ⟨t, ht, s2⟩
  · exact (h.2.2 b hb hn).congr hw

theorem Roaming.step {m : Mdp K} {D : δ → Prop} {n : String} (h : Roaming kind W H selfT m D n e)
    (n' : String) (d : Nat → δ) (hd : n' = n → ∀ s, D (d s)) :
    Roaming kind W H selfT m D n (e.step n' d).1 := by
  rcases step_cases h.1 n' d with ⟨-, h1⟩ | ⟨a, a', err, h1, h2, h3, h4, h5, -, h6⟩ |
    ⟨a, a1, j, t, g, c, h2, hm, -, -, -, h6, hok⟩ | ⟨a, a1, j, t, g, h2, hm, -, -, h6, hok⟩
  · rw [h1]; exact h
  · rw [h6]
    refine h.same h1 h3 h4 ?_ e.nSteps
    intro hn q hq
    rw [h5] at hq
    exact (h.2.2 a h1 hn).mask q hq
  · have hn := hm.name.1
    refine h.moved (a2 := { a1 with consumed := fun f => a.consumed f + c f }) hm
      (fun hna => hd (h2.symm.trans hna)) ⟨rfl, rfl, rfl, rfl, rfl, rfl⟩ hok ?_ ?_
    · rw [h6]; exact ⟨rfl, rfl, rfl, rfl⟩
    · rw [h6]
      intro b hb
      exact (mem_put (m := e.mdp.withFeat g) (by
        change a1.name ∈ _; rw [hn]; exact List.mem_map_of_mem (f := (·.name)) hm.mem)).1 hb
  · have hn := hm.name.1
    refine h.moved (a2 := a1) hm
      (fun hna => hd (h2.symm.trans hna)) ⟨rfl, rfl, rfl, rfl, rfl, rfl⟩ hok ?_ ?_
    · rw [h6]; exact ⟨rfl, rfl, rfl, rfl⟩
    · rw [h6]
      intro b hb
      exact (mem_put (m := e.mdp.withFeat g) (by
        rw [hn]; exact List.mem_map_of_mem (f := (·.name)) hm.mem)).1 hb

theorem Roaming.reset {m : Mdp K} {D : δ → Prop} {n : String} (h : Roaming kind W H selfT m D n e) :
    Roaming kind W H selfT m D n e.reset.1 := by
  obtain ⟨h1, h2⟩ := reset_eq h.1
  rw [h1]
  refine ⟨h2, h.2.1, ?_⟩
  intro b hb hn
  obtain ⟨a, ha, rfl⟩ := List.mem_map.1 hb
  have hf := h.2.2 a ha hn
  obtain ⟨j, hj, -⟩ := h.1.start a ha
  refine Free.congr (e := e) (e' := e.resetEnv)
    ⟨hf.safe, hf.start, hf.start, hf.mask, ?_⟩ ⟨rfl, rfl, rfl, rfl⟩
  intro p hp
  have : p = a.start := by simpa [resetAgent] using hp
  subst this
  exact ⟨j, hj, live_walls h.1 (pyIdx_lt hj) (hf.start j hj)⟩

theorem Roaming.setAgentPosition {m : Mdp K} {D : δ → Prop} {n : String}
    (h : Roaming kind W H selfT m D n e) (n' : String) (p : Int) (hn : n' ≠ n) :
    Roaming kind W H selfT m D n (e.setAgentPosition n' p).1 := by
  have hok := h.1.setAgentPosition n' p
  rcases setAgentPosition_cases h.1 n' p with ⟨-, h1⟩ | ⟨a, h1, h2, ⟨j, -, h3⟩ | ⟨-, h3⟩ | ⟨-, h3, -⟩⟩
  · rw [h1]; exact h
  · rw [h3] at hok ⊢
    refine ⟨hok, h.2.1, ?_⟩
    intro b hb hbn
    rcases (mem_put (m := e.mdp.setRow (e.mdp.agentRow a.idx) j) (a := { a with position := p })
      (List.mem_map_of_mem (f := (·.name)) h1)).1 hb with rfl | ⟨hb, -⟩
    · exact absurd (h2.symm.trans hbn) hn
    · exact (h.2.2 b hb hbn).congr ⟨rfl, rfl, rfl, rfl⟩
  · rw [h3]; exact h
  · rw [h3] at hok ⊢
    refine ⟨hok, h.2.1, ?_⟩
    intro b hb hbn
    rcases (mem_put (List.mem_map_of_mem (f := (·.name)) h1)).1 hb with rfl | ⟨hb, -⟩
    · exact absurd (h2.symm.trans hbn) hn
    · exact (h.2.2 b hb hbn).congr ⟨rfl, rfl, rfl, rfl⟩

theorem Roaming.run {m : Mdp K} {D : δ → Prop} {n : String} (ops : List (EnvOp K δ)) :
    ∀ e : Env K δ, Roaming kind W H selfT m D n e → (∀ op ∈ ops, Spec.Roams m.trans D n op) →
      Roaming kind W H selfT m D n (e.run ops) := by
  induction ops with
  | nil => intro e h _; exact h
  | cons op ops ih =>
    intro e h hops
    refine ih (e.apply op) ?_ (fun o ho => hops o (List.mem_cons_of_mem _ ho))
    have hop := hops op List.mem_cons_self
    cases op with
    | fit n' o d => exact h.fit n' o d hop
    | step n' d => exact h.step n' d hop
    | stepProba n' p d => exact h.stepProba n' p d
    | stepMulti n' s p t r c o =>
      by_cases hn : n' = n
      · exact stepMulti_induct_on (Roaming kind W H selfT m D n) r (Spec.MaskedOut m.trans)
          (fun d => ∀ s, D (d s)) (fun e o d _ hF h => h.fit n' o d fun _ => hF)
          (fun e d hD h => h.step n' d fun _ => hD) e s p t c o (hop hn) h
      · exact stepMulti_induct (Roaming kind W H selfT m D n)
          (fun e o d h => h.fit n' o d fun hc => absurd hc hn)
          (fun e d h => h.step n' d fun hc => absurd hc hn) e s p t r c o h
    | stepMultiInteractive ns m =>
      simp only [apply, stepMultiInteractive]
      split
      · exact h
      · exact h
      · split_ifs
        · exact h
        · split <;> exact h
    | reset => exact h.reset
    | setAgentPosition n' p => exact h.setAgentPosition n' p hop
    | setWalls w => exact hop.elim
    | addWallXY x y => exact hop.elim
    | resetWalls => exact hop.elim
    | setAlgorithm n' st => exact h.setAlgorithm n' st hop

/-! ### Repeated steps -/

theorem step_ok_lookup (h : Ok kind W H selfT e) {n : String} {d : Nat → δ} {e' : Env K δ} {p : Int}
    (hs : e.step n d = (e', .ok p)) : Ok kind W H selfT e' ∧ ∃ a ∈ e'.agents, a.name = n ∧ a.position = p ∧
      e'.lookup n = .ok a := by
  have hok : Ok kind W H selfT e' := by have := h.step n d; rw [hs] at this; exact this
  refine ⟨hok, ?_⟩
  rcases step_cases h n d with ⟨-, h1⟩ | ⟨a, a', err, h1, h2, h3, h4, h5, -, h6⟩ |
    ⟨a, a1, j, t, g, c, h2, hm, -, -, -, h6, -⟩ | ⟨a, a1, j, t, g, h2, hm, -, -, h6, -⟩
  · rw [hs] at h1; cases h1
  · rw [hs] at h6; cases h6
  · rw [hs] at h6
    obtain ⟨rfl, h6⟩ := Prod.mk.inj h6
    cases h6
    obtain ⟨m1, m2, m3, m4, -⟩ := hm.name
    have hmem : ({ a1 with consumed := fun f => a.consumed f + c f } : Agent K δ) ∈
        (e.put (e.mdp.withFeat g) { a1 with consumed := fun f => a.consumed f + c f }).agents :=
      (mem_put (by change a1.name ∈ _; rw [m1]; exact List.mem_map_of_mem (f := (·.name)) hm.mem)).2 (.inl rfl)
    exact ⟨_, hmem, m1.trans h2, m4, (lookup_ok hok).2 ⟨hmem, m1.trans h2⟩⟩
  · rw [hs] at h6; cases h6

theorem Ok.refitFor (h : Ok kind W H selfT e) (n : String) (nas plan : List Nat) (nT : Nat) (refit : Bool)
    (orc : StepOracle K δ) (i : Nat) : Ok kind W H selfT (e.refitFor n nas plan nT refit orc i).1 := by
  unfold Env.refitFor
  split_ifs
  · split
    · exact h
    · exact h.fit _ _ _
  · exact h

theorem rounds_loop (n : String) (nas plan : List Nat) (nT : Nat) (refit stop : Bool)
    (orc : Nat → StepOracle K δ) (pre : Nat → Env K δ → Env K δ × Py Unit) (draws : Nat → Nat → δ)
    (hpre : pre = fun i e => e.refitFor n nas plan nT refit (orc i) i) (hd : draws = fun i => (orc i).draws) :
    ∀ (k i : Nat) (acc : List Int), Ok kind W H selfT (Spec.before n pre draws e i) → acc.length = i →
      (∀ j p, acc[j]? = some p → (Spec.turn n pre draws j (Spec.before n pre draws e j)).2 = .ok p ∧
        ¬ (stop = true ∧ Spec.CaughtAfter n pre draws e j)) →
      Spec.Rounds n pre draws e stop (i + k)
        (stepLoop n nas plan nT refit stop orc k i (Spec.before n pre draws e i) acc) := by
  intro k
  induction k with
  | zero =>
    intro i acc _ hlen hacc
    exact .inl ⟨acc, hlen, hacc, rfl⟩
  | succ k ih =>
    intro i acc hi hlen hacc
    have hprev : ∀ j, j < i → (∃ p, (Spec.turn n pre draws j (Spec.before n pre draws e j)).2 = .ok p) ∧
        ¬ (stop = true ∧ Spec.CaughtAfter n pre draws e j) := by
      intro j hj
      have : acc[j]? = some acc[j] := List.getElem?_eq_getElem (by omega)
      exact ⟨⟨_, (hacc j _ this).1⟩, (hacc j _ this).2⟩
    have hturn : Spec.turn n pre draws i (Spec.before n pre draws e i) =
        match (Spec.before n pre draws e i).refitFor n nas plan nT refit (orc i) i with
        | (e, .error err) => (e, .error err)
        | (e, .ok ()) => e.step n (orc i).draws := by
      have e1 : pre i (Spec.before n pre draws e i) =
          (Spec.before n pre draws e i).refitFor n nas plan nT refit (orc i) i :=
        congrFun (congrFun hpre i) _
      have e2 : draws i = (orc i).draws := by rw [hd]
      unfold Spec.turn
      rw [e1, e2]
      rcases (Spec.before n pre draws e i).refitFor n nas plan nT refit (orc i) i with ⟨_, _ | ⟨⟩⟩ <;> rfl
    have hnext : Spec.before n pre draws e (i + 1) =
        (Spec.turn n pre draws i (Spec.before n pre draws e i)).1 := rfl
    unfold stepLoop
    have hok1 := hi.refitFor n nas plan nT refit (orc i) i
    rcases hr : (Spec.before n pre draws e i).refitFor n nas plan nT refit (orc i) i with ⟨e1, err | ⟨⟩⟩
    · rw [hr] at hturn
      simp only at hturn ⊢
      refine .inr (.inl ⟨i, err, by omega, hprev, by rw [hturn], ?_⟩)
      rw [hnext, hturn]
    · rw [hr] at hturn hok1
      simp only at hturn ⊢
      rcases hst : e1.step n (orc i).draws with ⟨e2, err | p⟩
      · rw [hst] at hturn
        simp only
        refine .inr (.inl ⟨i, err, by omega, hprev, by rw [hturn], ?_⟩)
        rw [hnext, hturn]
      · rw [hst] at hturn
        simp only
        obtain ⟨hok2, a, ha, hn, hp, hl⟩ := step_ok_lookup hok1 hst
        rw [hl]
        simp only
        have hbe : Spec.before n pre draws e (i + 1) = e2 := by rw [hnext, hturn]
        have hcaught : Spec.CaughtAfter n pre draws e i ↔ e2.caught a = true := by
          unfold Spec.CaughtAfter
          rw [hbe]
          constructor
          · rintro ⟨b, hb, hbn, hc⟩
            rw [eq_of_name hok2.nodup ha hb (hn.trans hbn.symm)]; exact hc
          · exact fun hc => ⟨a, ha, hn, hc⟩
        split_ifs with hc
        · rw [Bool.and_eq_true] at hc
          refine .inr (.inr ⟨i, p, by omega, hprev, by rw [hturn], hc.2, hcaught.2 hc.1, ?_⟩)
          rw [hbe]
        · rw [Bool.and_eq_true] at hc
          have := ih (i + 1) (acc ++ [a.position]) (by rw [hbe]; exact hok2) (by simp [hlen]) (by
            intro j q hj
            rcases Nat.lt_or_ge j i with hji | hji
            · rw [List.getElem?_append_left (by omega)] at hj
              exact hacc j q hj
            · rw [List.getElem?_append_right (by omega)] at hj
              have hji' : j = i := by
                rcases Nat.lt_or_ge i j with h1 | h1
                · rw [List.getElem?_eq_none (by simp; omega)] at hj; cases hj
                · omega
              subst hji'
              simp [hlen] at hj
              refine ⟨by rw [hturn, ← hj, hp], fun hcc => hc ⟨hcaught.1 hcc.2, hcc.1⟩⟩)
          rw [hbe] at this
          rw [show i + (k + 1) = i + 1 + k by omega]
          exact this

theorem before_congr {n : String} {pre pre' : Nat → Env K δ → Env K δ × Py Unit} {draws : Nat → Nat → δ}
    {e : Env K δ} {k : Nat} (h : ∀ i, i < k → pre i = pre' i) : ∀ i, i ≤ k →
    Spec.before n pre draws e i = Spec.before n pre' draws e i := by
  intro i
  induction i with
  | zero => intro _; rfl
  | succ i ih =>
    intro hi
    simp only [Spec.before, Spec.turn]
    rw [ih (by omega), h i (by omega)]

theorem rounds_congr {n : String} {pre pre' : Nat → Env K δ → Env K δ × Py Unit} {draws : Nat → Nat → δ}
    {e : Env K δ} {stop : Bool} {k : Nat} {r} (h : ∀ i, i < k → pre i = pre' i)
    (hr : Spec.Rounds n pre draws e stop k r) : Spec.Rounds n pre' draws e stop k r := by
  have hb := before_congr (n := n) (draws := draws) (e := e) h
  have ht : ∀ i, i < k → Spec.turn n pre draws i (Spec.before n pre draws e i) =
      Spec.turn n pre' draws i (Spec.before n pre' draws e i) := by
    intro i hi
    rw [hb i (by omega)]
    unfold Spec.turn
    rw [h i hi]
  have hc : ∀ i, i < k → (Spec.CaughtAfter n pre draws e i ↔ Spec.CaughtAfter n pre' draws e i) := by
    intro i hi
    unfold Spec.CaughtAfter
    rw [hb (i + 1) (by omega)]
  rcases hr with ⟨ps, h1, h2, h3⟩ | ⟨j, err, h1, h2, h3, h4⟩ | ⟨j, p, h1, h2, h3, h4, h5, h6⟩
  · refine .inl ⟨ps, h1, ?_, by rw [h3, hb k le_rfl]⟩
    intro i p hip
    have hi : i < k := by
      rw [← h1]
      exact (List.getElem?_eq_some_iff.1 hip).1
    rw [← ht i hi, ← hc i hi]
    exact h2 i p hip
  · refine .inr (.inl ⟨j, err, h1, ?_, by rw [← ht j h1]; exact h3, by rw [h4, hb (j + 1) (by omega)]⟩)
    intro i hi
    rw [← ht i (by omega), ← hc i (by omega)]
    exact h2 i hi
  · refine .inr (.inr ⟨j, p, h1, ?_, by rw [← ht j h1]; exact h3, h4, (hc j h1).1 h5,
      by rw [h6, hb (j + 1) (by omega)]⟩)
    intro i hi
    rw [← ht i (by omega), ← hc i (by omega)]
    exact h2 i hi

/-- The moves per turn of the named agent and then of the others, in order. -/
theorem allSteps_ok (h : Ok kind W H selfT e) {n : String} (hn : n ∈ e.agentNames) :
    ∃ nas, e.allSteps n = .ok nas ∧
      List.Forall₂ (fun m x => ∃ b ∈ e.agents, b.name = m ∧ b.nMoves = x)
        (n :: e.agentNames.filter fun m => m ≠ n) nas := by
  unfold allSteps
  have : ∀ l : List String, (∀ m ∈ l, m ∈ e.agentNames) → ∃ nas,
      (l.mapM (m := Except PyErr) fun n => match e.agent? n with
        | none => .error .keyError
        | some a => .ok a.nMoves) = .ok nas ∧
      List.Forall₂ (fun m x => ∃ b ∈ e.agents, b.name = m ∧ b.nMoves = x) l nas := by
    intro l
    induction l with
    | nil => intro _; exact ⟨[], rfl, .nil⟩
    | cons m l ih =>
      intro hl
      obtain ⟨nas, h1, h2⟩ := ih (fun x hx => hl x (List.mem_cons_of_mem _ hx))
      obtain ⟨b, hb, hbn⟩ := List.mem_map.1 ((h.names m).1 (hl m List.mem_cons_self))
      have hb' : e.agent? m = some b := (agent?_eq h.nodup).2 ⟨hb, hbn⟩
      refine ⟨b.nMoves :: nas, ?_, .cons ⟨b, hb, hbn, rfl⟩ h2⟩
      rw [List.mapM_cons, h1, hb']
      rfl
  apply this
  intro m hm
  rcases List.mem_cons.1 hm with rfl | hm
  · exact hn
  · exact List.mem_of_mem_filter hm

theorem order_length (h : Ok kind W H selfT e) (hd : e.agentNames.Nodup) {n : String} (hn : n ∈ e.agentNames) :
    (n :: e.agentNames.filter fun m => m ≠ n).length = e.agents.length := by
  have h1 : (n :: e.agentNames.filter fun m => m ≠ n).Nodup := by
    refine List.nodup_cons.2 ⟨by simp, hd.filter _⟩
  have h2 : List.Perm (n :: e.agentNames.filter fun m => m ≠ n) (e.agents.map (·.name)) := by
    refine (List.perm_ext_iff_of_nodup h1 h.nodup).2 fun m => ?_
    rw [← h.names m]
    simp only [List.mem_cons, List.mem_filter, decide_eq_true_eq]
    constructor
    · rintro (rfl | h) 
      · exact hn
      · exact h.1
    · intro hm
      by_cases hc : m = n
      · exact .inl hc
      · exact .inr ⟨hm, hc⟩
  rw [h2.length_eq, List.length_map]

/-! ### The one-step distribution -/

/-- If all writes to a state write the same value, the order does not matter. -/
theorem probaLoop_ok (m : Mdp K) (P : Arr2 (Ext K)) (pos : Nat → Ext K) (f : Nat × Nat → Nat)
    (v : Nat → Ext K) :
    ∀ (l : List (Nat × Nat)) (out : Nat → Ext K), (∀ x ∈ l, m.getNextState x.1 x.2 = .ok (f x)) →
      (∀ x ∈ l, Ext.mul (P.get x.1 x.2) (pos x.1) = v (f x)) →
      ∃ o, Agent.probaLoop m P pos l out = .ok o ∧ (∀ x ∈ l, o (f x) = v (f x)) ∧
        ∀ t, (∀ x ∈ l, f x ≠ t) → o t = out t := by
  intro l
  induction l with
  | nil => intro out _ _; exact ⟨out, rfl, by simp, fun _ _ => rfl⟩
  | cons y l ih =>
    intro out h1 h2
    obtain ⟨s, a⟩ := y
    obtain ⟨o, g1, g2, g3⟩ := ih (upd1 out (f (s, a)) (Ext.mul (P.get s a) (pos s)))
      (fun x hx => h1 x (List.mem_cons_of_mem _ hx)) (fun x hx => h2 x (List.mem_cons_of_mem _ hx))
    refine ⟨o, ?_, ?_, ?_⟩
    · unfold Agent.probaLoop
      rw [h1 (s, a) List.mem_cons_self]
      exact g1
    · intro x hx
      rcases List.mem_cons.1 hx with rfl | hx
      · by_cases hex : ∃ y ∈ l, f y = f (s, a)
        · obtain ⟨y, hy, hfy⟩ := hex
          rw [← hfy]; exact g2 y hy
        · push Not at hex
          rw [g3 _ hex]
          simp only [upd1, if_true]
          exact h2 (s, a) List.mem_cons_self
      · exact g2 x hx
    · intro t ht
      rw [g3 t (fun x hx => ht x (List.mem_cons_of_mem _ hx))]
      have := ht (s, a) List.mem_cons_self
      simp [upd1, this.symm]

theorem agent_stepProba_ok {a : Agent K δ} {m : Mdp K} {p : Option (Arr1 K)} {d : Nat → δ} {out : Arr1 (Ext K)}
    (h : (a.stepProba m p d).2 = .ok out) :
    ∃ p0 q P o, a.probaStart m p = .ok p0 ∧ p0.d0 = m.nStates ∧ a.alg.qValues = some q ∧
      a.selector.piP q = .ok P ∧ out = ⟨m.nStates, o⟩ ∧
      Agent.probaLoop m P (Agent.normalise p0) ((npWhere m.nStates fun s => Ext.isPos (Agent.normalise p0 s)).flatMap
        fun s => (List.range P.d1).map fun x => (s, x)) (fun _ => .fin 0) = .ok o := by
  unfold Agent.stepProba at h
  cases hp : a.probaStart m p with
  | error e => rw [hp] at h; cases h
  | ok p0 =>
    rw [hp] at h
    simp only at h
    split_ifs at h with h1 h2
    rcases hg : a.getPolicy d with ⟨a', x | x⟩
    · rw [hg] at h; cases h
    · rw [hg] at h
      obtain ⟨q, P, pi, g1, g2, g3, rfl⟩ := Agent.getPolicy_ok a a' d hg
      simp only at h
      split at h
      · cases h
      · rename_i o ho
        simp only [Except.ok.injEq] at h
        exact ⟨p0, q, P, o, rfl, not_not.1 h1, g1, g2, h.symm, ho⟩

theorem mem_pairs {n d : Nat} {p : Nat → Bool} {x : Nat × Nat} :
    x ∈ ((npWhere n p).flatMap fun s => (List.range d).map fun a => (s, a)) ↔
      x.1 < n ∧ p x.1 = true ∧ x.2 < d := by
  obtain ⟨s, a⟩ := x
  simp only [npWhere, List.mem_flatMap, List.mem_filter, List.mem_range, List.mem_map, Prod.mk.injEq]
  constructor
  · rintro ⟨s', ⟨h1, h2⟩, a', h3, rfl, rfl⟩; exact ⟨h1, h2, h3⟩
  · rintro ⟨h1, h2, h3⟩; exact ⟨s, ⟨h1, h2⟩, a, h3, rfl, rfl⟩

theorem nodup_pairs (n d : Nat) (p : Nat → Bool) :
    ((npWhere n p).flatMap fun s => (List.range d).map fun a => (s, a)).Nodup := by
  rw [List.nodup_flatMap]
  constructor
  · intro s _
    exact List.nodup_range.map fun a b h => (Prod.mk.inj h).2
  · have : (npWhere n p).Nodup := List.nodup_range.filter _
    refine this.imp ?_
    intro s s' hne
    rw [Function.onFun, List.disjoint_left]
    intro x hx hx'
    obtain ⟨a, -, rfl⟩ := List.mem_map.1 hx
    obtain ⟨b, -, h⟩ := List.mem_map.1 hx'
    exact hne (Prod.mk.inj h).1.symm

end Env

end MaMDP
