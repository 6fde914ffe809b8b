import Verif.Lemmas.IRLHistory
import Verif.Props.FeatureMatching

/-! # Learning histories of hypothesis-testing IRL (C125), and learning in batches (C126) -/

set_option linter.unusedSectionVars false

namespace MaMDP

variable {K : Type} [Field K] [LinearOrder K] [IsStrictOrderedRing K]

variable (z : List Nat → (Nat → Nat → Ext K) → Nat → Nat → Ext K)

theorem htChecks_shape {data : List (Mdp K × Py (Nat → Nat → Nat → Ext K) × List Int)} (h : htChecks data = .ok ()) :
    (data ≠ [] ∧ (data.head?.map fun d => d.2.2) ≠ some []) ∧ SameShape (data.map fun d => d.1) := by
  match data, h with
  | (m, Q, s :: t) :: l, h =>
    refine ⟨⟨by simp, by simp⟩, ?_⟩
    unfold htChecks at h
    simp only at h
    split_ifs at h with h1 h2
    have key : ∀ d ∈ (m, Q, s :: t) :: l, d.1.nStates = m.nStates ∧ d.1.nActions = m.nActions ∧
        d.1.features.d0 = m.features.d0 ∧ d.1.features.d1 = m.features.d1 := by
      intro d hd
      have e1 : d.1.nStates = m.nStates ∧ d.1.nActions = m.nActions := by
        by_contra hc; exact h1 ⟨d, hd, hc⟩
      have e2 : d.1.features.d0 = m.features.d0 ∧ d.1.features.d1 = m.features.d1 := by
        by_contra hc; exact h2 ⟨d, hd, hc⟩
      exact ⟨e1.1, e1.2, e2.1, e2.2⟩
    intro a ha b hb
    obtain ⟨d, hd, rfl⟩ := List.mem_map.1 ha
    obtain ⟨e, he, rfl⟩ := List.mem_map.1 hb
    obtain ⟨a1, a2, a3, a4⟩ := key d hd
    obtain ⟨b1, b2, b3, b4⟩ := key e he
    exact ⟨a1.trans b1.symm, a2.trans b2.symm, a3.trans b3.symm, a4.trans b4.symm⟩

theorem htChecks_sub {data data' : List (Mdp K × Py (Nat → Nat → Nat → Ext K) × List Int)}
    (h : htChecks data = .ok ()) (hne : data' ≠ []) (h1 : (data'.head?.map fun d => d.2.2) ≠ some [])
    (hs : ∀ d ∈ data', ∃ e ∈ data, e.1 = d.1) : htChecks data' = .ok () := by
  refine htChecks_ok data' hne h1 ?_
  obtain ⟨-, hsh⟩ := htChecks_shape h
  intro a ha b hb
  obtain ⟨d, hd, rfl⟩ := List.mem_map.1 ha
  obtain ⟨e, he, rfl⟩ := List.mem_map.1 hb
  obtain ⟨d', hd', e1⟩ := hs d hd
  obtain ⟨e', he', e2⟩ := hs e he
  have := hsh _ (List.mem_map.2 ⟨d', hd', rfl⟩) _ (List.mem_map.2 ⟨e', he', rfl⟩)
  rwa [e1, e2] at this

theorem firstMoves_mem {α β : Type} : ∀ (k : Nat) (l : List (α × β × List Int)),
    ∀ d ∈ Spec.firstMoves k l, ∃ e ∈ l, e.1 = d.1
  | 0, _, d, h => by simp [Spec.firstMoves] at h
  | k + 1, [], d, h => by simp [Spec.firstMoves] at h
  | k + 1, (a, b, t) :: l, d, h => by
    rw [Spec.firstMoves] at h
    split_ifs at h
    · rw [List.mem_singleton] at h
      exact ⟨_, List.mem_cons_self, by rw [h]⟩
    · rcases List.mem_cons.1 h with rfl | h
      · exact ⟨_, List.mem_cons_self, rfl⟩
      · obtain ⟨e, he, h⟩ := firstMoves_mem _ l d h
        exact ⟨e, List.mem_cons_of_mem _ he, h⟩

theorem firstMoves_head {α β : Type} (k : Nat) (l : List (α × β × List Int)) (hne : l ≠ [])
    (h : (l.head?.map fun d => d.2.2) ≠ some []) : Spec.firstMoves (k + 1) l ≠ [] ∧
      ((Spec.firstMoves (k + 1) l).head?.map fun d => d.2.2) ≠ some [] := by
  match l, hne, h with
  | (a, b, []) :: l, _, h => exact absurd rfl h
  | (a, b, s :: t) :: l, _, _ =>
    rw [Spec.firstMoves]
    split_ifs <;> simp

/-- The weights a fit begins with. -/
def HtIrl.begin (o : HtIrl K) : Nat → Ext K := match o.theta with
  | .vec x => x
  | .none => fun _ => .fin 0
  | .obj => fun _ => .nan

/-- A successful fit, taken apart. -/
theorem htFit_succ {o o' : HtIrl K} {data : List (Mdp K × Py (Nat → Nat → Nat → Ext K) × List Int)} {R : Nat → Ext K}
    (h : o.fit z data = (o', .ok R)) : htChecks data = .ok () ∧ o.theta ≠ .obj ∧
      ∃ n, n ≠ 1 ∧ htLoop o.set false z data 1 o.begin = ((n, R), .ok ()) ∧
        o' = match o.theta with
          | .vec _ => o.write R
          | _ => { o with theta := .vec R, aliased := false } := by
  unfold HtIrl.fit at h
  cases hc : htChecks data with
  | error e => rw [hc] at h; cases (Prod.mk.inj h).2
  | ok u =>
    rw [hc] at h
    simp only at h
    unfold HtIrl.begin
    cases ht : o.theta with
    | obj =>
      rw [ht] at h
      simp only at h
      split at h <;> cases (Prod.mk.inj h).2
    | none =>
      rw [ht] at h
      simp only at h
      rcases hl : htLoop o.set false z data 1 (fun _ => .fin 0) with ⟨⟨n, R'⟩, (e | u)⟩
      · rw [hl] at h; cases (Prod.mk.inj h).2
      · rw [hl] at h
        simp only at h
        split_ifs at h with hn
        · cases (Prod.mk.inj h).2
        · obtain ⟨h1, h2⟩ := Prod.mk.inj h
          cases h2
          exact ⟨rfl, by simp, n, hn, rfl, h1.symm⟩
    | vec x =>
      rw [ht] at h
      simp only at h
      rcases hl : htLoop o.set false z data 1 x with ⟨⟨n, R'⟩, (e | u)⟩
      · rw [hl] at h; cases (Prod.mk.inj h).2
      · rw [hl] at h
        simp only at h
        split_ifs at h with hn
        · cases (Prod.mk.inj h).2
        · obtain ⟨h1, h2⟩ := Prod.mk.inj h
          cases h2
          exact ⟨rfl, by simp, n, hn, rfl, h1.symm⟩

theorem htFit_of_loop {o : HtIrl K} {data : List (Mdp K × Py (Nat → Nat → Nat → Ext K) × List Int)} {R : Nat → Ext K}
    {n : Nat} (hc : htChecks data = .ok ()) (ho : o.theta ≠ .obj) (hn : n ≠ 1)
    (h : htLoop o.set false z data 1 o.begin = ((n, R), .ok ())) :
    o.fit z data = (match o.theta with
          | .vec _ => o.write R
          | _ => { o with theta := .vec R, aliased := false }, .ok R) := by
  unfold HtIrl.begin at h
  unfold HtIrl.fit
  rw [hc]
  simp only
  cases ht : o.theta with
  | obj => exact absurd ht ho
  | none => rw [ht] at h; simp only at h ⊢; rw [h]; simp only; rw [if_neg hn]
  | vec x => rw [ht] at h; simp only at h ⊢; rw [h]; simp only; rw [if_neg hn]

/-! ## C125: histories -/

/-- **C125 (nothing else changes).** Keeping the histories does not affect what is learned: the learner and the outcome
are those of the model without histories. -/
theorem C125_refines (o : HtKept K) (data : List (Mdp K × Py (Nat → Nat → Nat → Ext K) × List Int)) :
    (o.fit z data).1.learner = (o.learner.fit z data).1 ∧ (o.fit z data).2 = (o.learner.fit z data).2 := by
  have key : ∀ b R, (htLoopRec o.learner.set b z data 1 R).2.2.2 = .ok () →
      ((htLoopRec o.learner.set b z data 1 R).1 = [] ↔ (htLoopRec o.learner.set b z data 1 R).2.2.1.1 = 1) := by
    intro b R h
    obtain ⟨h1, _, h3, _⟩ := htLoopRec_rows o.learner.set z b data 1 R h
    rw [h3, ← List.length_eq_zero_iff, h1]
    omega
  unfold HtKept.fit HtIrl.fit
  cases htChecks data with
  | error e => exact ⟨rfl, rfl⟩
  | ok u =>
    simp only
    cases o.learner.theta with
    | obj =>
      simp only
      rw [← htLoopRec_snd]
      rcases htLoopRec o.learner.set true z data 1 (fun _ => .nan) with ⟨Rs, Os, st, (e | u)⟩ <;> exact ⟨rfl, rfl⟩
    | none =>
      simp only
      rw [← htLoopRec_snd]
      have hk := key false fun _ => .fin 0
      rcases hr : htLoopRec o.learner.set false z data 1 (fun _ => .fin 0) with ⟨Rs, Os, ⟨n, R⟩, (e | u)⟩
      · exact ⟨rfl, rfl⟩
      · rw [hr] at hk
        have hk := hk rfl
        simp only at hk ⊢
        by_cases hn : n = 1
        · rw [if_pos (hk.2 hn), if_pos hn]; exact ⟨rfl, rfl⟩
        · rw [if_neg (fun h => hn (hk.1 h)), if_neg hn]; exact ⟨rfl, rfl⟩
    | vec x =>
      simp only
      rw [← htLoopRec_snd]
      have hk := key false x
      rcases hr : htLoopRec o.learner.set false z data 1 x with ⟨Rs, Os, ⟨n, R⟩, (e | u)⟩
      · exact ⟨rfl, rfl⟩
      · rw [hr] at hk
        have hk := hk rfl
        simp only at hk ⊢
        by_cases hn : n = 1
        · rw [if_pos (hk.2 hn), if_pos hn]; exact ⟨rfl, rfl⟩
        · rw [if_neg (fun h => hn (hk.1 h)), if_neg hn]; exact ⟨rfl, rfl⟩

/-- The histories of a successful fit are the lists of the loop. -/
theorem kept_succ {o o' : HtKept K} {data : List (Mdp K × Py (Nat → Nat → Nat → Ext K) × List Int)} {R : Nat → Ext K}
    (h : o.fit z data = (o', .ok R)) :
    (htLoopRec o.learner.set false z data 1 o.learner.begin).2.2.2 = .ok () ∧
      (htLoopRec o.learner.set false z data 1 o.learner.begin).2.2.1.2 = R ∧ o'.learner.theta = .vec R ∧
      o'.thetaArray = some (htLoopRec o.learner.set false z data 1 o.learner.begin).1 ∧
      o'.trajectoryTheta = some (htLoopRec o.learner.set false z data 1 o.learner.begin).2.1 := by
  unfold HtKept.fit at h
  unfold HtIrl.begin
  cases hc : htChecks data with
  | error e => rw [hc] at h; cases (Prod.mk.inj h).2
  | ok u =>
    rw [hc] at h
    simp only at h
    cases ht : o.learner.theta with
    | obj =>
      rw [ht] at h
      simp only at h
      split at h <;> cases (Prod.mk.inj h).2
    | none =>
      rw [ht] at h
      simp only at h ⊢
      rcases hl : htLoopRec o.learner.set false z data 1 (fun _ => .fin 0) with ⟨Rs, Os, ⟨n, R'⟩, (e | u)⟩
      · rw [hl] at h; cases (Prod.mk.inj h).2
      · rw [hl] at h
        simp only at h
        split_ifs at h with hn
        · cases (Prod.mk.inj h).2
        · obtain ⟨h1, h2⟩ := Prod.mk.inj h
          cases h2
          subst h1
          exact ⟨rfl, rfl, rfl, rfl, rfl⟩
    | vec x =>
      rw [ht] at h
      simp only at h ⊢
      rcases hl : htLoopRec o.learner.set false z data 1 x with ⟨Rs, Os, ⟨n, R'⟩, (e | u)⟩
      · rw [hl] at h; cases (Prod.mk.inj h).2
      · rw [hl] at h
        simp only at h
        split_ifs at h with hn
        · cases (Prod.mk.inj h).2
        · obtain ⟨h1, h2⟩ := Prod.mk.inj h
          cases h2
          subst h1
          exact ⟨rfl, rfl, rfl, rfl, rfl⟩

/-- **C125 (moves).** After a successful fit, `theta_array` has one row per move over all trajectories; row `k` is what
`fit` of the same learner returns on the first `k + 1` moves; the last row is the final estimate. -/
theorem C125_moves (o o' : HtKept K) (data : List (Mdp K × Py (Nat → Nat → Nat → Ext K) × List Int)) (R : Nat → Ext K)
    (h : o.fit z data = (o', .ok R)) :
    ∃ rows, o'.thetaArray = some rows ∧ rows.length = Spec.moveCount data ∧ rows.getLast? = some R ∧
      ∀ k x, rows[k]? = some x → (o.fit z (Spec.firstMoves (k + 1) data)).2 = .ok x := by
  obtain ⟨h1, h2, -, h4, -⟩ := kept_succ z h
  obtain ⟨r1, -, -, r4, -, r6, -⟩ := htLoopRec_rows o.learner.set z false data 1 o.learner.begin h1
  have hf : o.learner.fit z data = ((o.learner.fit z data).1, .ok R) :=
    Prod.ext rfl (by rw [← (C125_refines z o data).2, h])
  obtain ⟨hc, ho, n, hn, hl, -⟩ := htFit_succ z hf
  refine ⟨_, h4, r1, ?_, fun k x hx => ?_⟩
  · rw [h2] at r4
    have hpos : Spec.moveCount data ≠ 0 := by
      intro h0
      have := (htLoopRec_rows o.learner.set z false data 1 o.learner.begin h1).2.2.1
      rw [htLoopRec_snd, hl, h0] at this
      exact hn this
    obtain ⟨j, hj⟩ := Nat.exists_eq_succ_of_ne_zero hpos
    rw [hj, Nat.succ_eq_add_one, List.getElem?_cons_succ] at r4
    rw [List.getLast?_eq_getElem?, r1, hj]
    exact r4
  · have := r6 (k + 1) x (by rw [List.getElem?_cons_succ]; exact hx)
    obtain ⟨⟨hne, hh⟩, -⟩ := htChecks_shape hc
    obtain ⟨f1, f2⟩ := firstMoves_head k data hne hh
    rw [(C125_refines z o _).2, htFit_of_loop z (htChecks_sub hc f1 f2 (firstMoves_mem _ _)) ho (by omega) this]

/-- **C125 (trajectories).** `trajectory_theta` has one row per trajectory; row `k` is what `fit` of the same learner
returns on the first `k + 1` trajectories, or, as long as no trajectory has had a move, the starting weights; the last
row is the final estimate, which is also left in `theta`. -/
theorem C125_trajectories (o o' : HtKept K) (data : List (Mdp K × Py (Nat → Nat → Nat → Ext K) × List Int))
    (R : Nat → Ext K) (h : o.fit z data = (o', .ok R)) :
    o'.learner.theta = .vec R ∧
    ∃ rows, o'.trajectoryTheta = some rows ∧ rows.length = data.length ∧ rows.getLast? = some R ∧
      ∀ k x, rows[k]? = some x → if Spec.moveCount (data.take (k + 1)) = 0
        then o.learner.theta = .vec x ∨ o.learner.theta = .none ∧ x = fun _ => .fin 0
        else (o.fit z (data.take (k + 1))).2 = .ok x := by
  obtain ⟨h1, h2, h3, -, h5⟩ := kept_succ z h
  obtain ⟨-, r2, r3, -, r5, -, r7⟩ := htLoopRec_rows o.learner.set z false data 1 o.learner.begin h1
  have hf : o.learner.fit z data = ((o.learner.fit z data).1, .ok R) :=
    Prod.ext rfl (by rw [← (C125_refines z o data).2, h])
  obtain ⟨hc, ho, n, hn, hl, -⟩ := htFit_succ z hf
  obtain ⟨⟨hne, hh⟩, -⟩ := htChecks_shape hc
  refine ⟨h3, _, h5, r2, ?_, fun k x hx => ?_⟩
  · rw [h2] at r5
    obtain ⟨j, hj⟩ := Nat.exists_eq_succ_of_ne_zero (by simpa using hne : data.length ≠ 0)
    rw [hj, Nat.succ_eq_add_one, List.getElem?_cons_succ] at r5
    rw [List.getLast?_eq_getElem?, r2, hj]
    exact r5
  · have hk := r7 (k + 1) x (by rw [List.getElem?_cons_succ]; exact hx)
    split_ifs with h0
    · have : x = o.learner.begin := by
        obtain ⟨e1, -, -, e4, -⟩ := htLoopRec_rows o.learner.set z false (data.take (k + 1)) 1 o.learner.begin
          (by rw [htLoopRec_snd, hk])
        rw [h0] at e4
        rw [List.getElem?_cons_zero, htLoopRec_snd, hk] at e4
        exact (Option.some.inj e4).symm
      rw [this]
      unfold HtIrl.begin
      cases ht : o.learner.theta with
      | obj => exact absurd ht ho
      | none => exact Or.inr ⟨rfl, rfl⟩
      | vec x => exact Or.inl rfl
    · rw [(C125_refines z o _).2, htFit_of_loop z (htChecks_sub hc ?_ ?_ ?_) ho (by omega) hk]
      · intro h
        rw [h] at h0
        exact h0 rfl
      · rwa [List.head?_take, if_neg (by omega)]
      · exact fun d hd => ⟨d, List.mem_of_mem_take hd, rfl⟩

/-- **C125 (failed fits).** A fit that raises leaves both histories as they were, even where it changes the weights. -/
theorem C125_failed (o : HtKept K) (data : List (Mdp K × Py (Nat → Nat → Nat → Ext K) × List Int)) (e : PyErr)
    (h : (o.fit z data).2 = .error e) :
    (o.fit z data).1.thetaArray = o.thetaArray ∧ (o.fit z data).1.trajectoryTheta = o.trajectoryTheta := by
  unfold HtKept.fit at h ⊢
  cases hc : htChecks data with
  | error e => exact ⟨rfl, rfl⟩
  | ok u =>
    rw [hc] at h
    simp only at h ⊢
    cases ht : o.learner.theta with
    | obj =>
      simp only
      split <;> exact ⟨rfl, rfl⟩
    | none =>
      rw [ht] at h
      simp only at h ⊢
      rcases hl : htLoopRec o.learner.set false z data 1 (fun _ => .fin 0) with ⟨Rs, Os, ⟨n, R'⟩, (e | u)⟩
      · exact ⟨rfl, rfl⟩
      · rw [hl] at h
        simp only at h ⊢
        split_ifs at h ⊢ with hn
        exact ⟨rfl, rfl⟩
    | vec x =>
      rw [ht] at h
      simp only at h ⊢
      rcases hl : htLoopRec o.learner.set false z data 1 x with ⟨Rs, Os, ⟨n, R'⟩, (e | u)⟩
      · exact ⟨rfl, rfl⟩
      · rw [hl] at h
        simp only at h ⊢
        split_ifs at h ⊢ with hn
        exact ⟨rfl, rfl⟩

/-! ## C126: learning in batches, hypothesis testing -/

theorem htPairs_shift (set : HtSettings K) (hd : set.decay = 0) (b : Bool) (M : Trans K) :
    ∀ (t : List Int) (Q : Py (Nat → Nat → Nat → Ext K)) (n n' : Nat) (R : Nat → Ext K),
    htPairs set b M z Q t (n + n') R =
      ((((htPairs set b M z Q t n R).1.1 + n'), (htPairs set b M z Q t n R).1.2), (htPairs set b M z Q t n R).2)
  | [], Q, n, n', R => rfl
  | [s], Q, n, n', R => rfl
  | s :: t :: l, Q, n, n', R => by
    have hu : ∀ x, htUpdate set (n + n') x R = htUpdate set n x R := by
      intro x; funext f; simp [htUpdate, hd]
    unfold htPairs
    cases hi : pyIdx M.nS s with
    | none => rfl
    | some i =>
      cases hj : pyIdx M.nS t with
      | none => rfl
      | some j =>
        simp only
        cases hw : npWhere M.nA (fun a => decide (M.p i a j ≠ 0)) with
        | nil => rfl
        | cons a as =>
          cases Q with
          | error e => rfl
          | ok Q =>
            simp only
            cases hm : singleMove set M z Q s t with
            | error e => rfl
            | ok R1 =>
              simp only
              by_cases hb : b = true
              · rw [if_pos hb, if_pos hb]
              · rw [if_neg hb, if_neg hb, hu, show n + n' + 1 = n + 1 + n' from by omega]
                exact htPairs_shift set hd b M (t :: l) _ _ _ _

theorem htLoop_shift (set : HtSettings K) (hd : set.decay = 0) (b : Bool) :
    ∀ (data : List (Mdp K × Py (Nat → Nat → Nat → Ext K) × List Int)) (n n' : Nat) (R : Nat → Ext K),
    htLoop set b z data (n + n') R =
      ((((htLoop set b z data n R).1.1 + n'), (htLoop set b z data n R).1.2), (htLoop set b z data n R).2)
  | [], n, n', R => rfl
  | (m, Q, t) :: l, n, n', R => by
    rw [htLoop, htLoop, htPairs_shift z set hd]
    rcases htPairs set b m.trans z Q t n R with ⟨⟨k, R'⟩, (e | u)⟩
    · rfl
    · exact htLoop_shift set hd b l k n' R'

/-- Number of moves a successful loop has counted. -/
theorem htLoop_count (set : HtSettings K) (b : Bool) (data : List (Mdp K × Py (Nat → Nat → Nat → Ext K) × List Int))
    (n k : Nat) (R R' : Nat → Ext K) (h : htLoop set b z data n R = ((k, R'), .ok ())) : k = n + Spec.moveCount data := by
  have := (htLoopRec_rows set z b data n R (by rw [htLoopRec_snd, h])).2.2.1
  rwa [htLoopRec_snd, h] at this

/-- **C126, what holds (hypothesis testing).** Without decay, fitting two batches of trajectories one after the other is
the same as fitting all at once: one works exactly when the other does, with the same estimate and the same learner left
behind. Each batch must be acceptable on its own: its first trajectory not empty, and at least one move. -/
theorem C126_partial (o o' : HtIrl K) (hd : o.set.decay = 0)
    (d₁ d₂ : List (Mdp K × Py (Nat → Nat → Nat → Ext K) × List Int)) (R : Nat → Ext K)
    (hs : SameShape ((d₁ ++ d₂).map fun d => d.1))
    (h₁ : (d₁.head?.map fun d => d.2.2) ≠ some []) (h₂ : (d₂.head?.map fun d => d.2.2) ≠ some [])
    (m₁ : Spec.moveCount d₁ ≠ 0) (m₂ : Spec.moveCount d₂ ≠ 0) :
    o.fit z (d₁ ++ d₂) = (o', .ok R) ↔ ∃ o₁ R₁, o.fit z d₁ = (o₁, .ok R₁) ∧ o₁.fit z d₂ = (o', .ok R) := by
  have n₁ : d₁ ≠ [] := by rintro rfl; exact m₁ rfl
  have n₂ : d₂ ≠ [] := by rintro rfl; exact m₂ rfl
  have hc : htChecks (d₁ ++ d₂) = .ok () := htChecks_ok _ (by simp [n₁])
    (by cases d₁ with
      | nil => exact absurd rfl n₁
      | cons a l => simpa using h₁) hs
  have hc₁ : htChecks d₁ = .ok () := htChecks_sub hc n₁ h₁ fun d hd => ⟨d, List.mem_append_left _ hd, rfl⟩
  have hc₂ : htChecks d₂ = .ok () := htChecks_sub hc n₂ h₂ fun d hd => ⟨d, List.mem_append_right _ hd, rfl⟩
  have hlearn : ∀ (R₁ R : Nat → Ext K), o.theta ≠ .obj →
      let o₁ : HtIrl K := match o.theta with
          | .vec _ => o.write R₁
          | _ => { o with theta := .vec R₁, aliased := false }
      o₁.theta = .vec R₁ ∧ o₁.set = o.set ∧ o₁.write R = match o.theta with
          | .vec _ => o.write R
          | _ => { o with theta := .vec R, aliased := false } := by
    intro R₁ R ho
    cases ht : o.theta with
    | obj => exact absurd ht ho
    | none => exact ⟨rfl, rfl, rfl⟩
    | vec x =>
      refine ⟨rfl, rfl, ?_⟩
      unfold HtIrl.write
      cases ha : o.aliased <;> rfl
  constructor
  · intro h
    obtain ⟨-, ho, n, hn, hl, e⟩ := htFit_succ z h
    rw [htLoop_append] at hl
    rcases hl₁ : htLoop o.set false z d₁ 1 o.begin with ⟨⟨k, R₁⟩, (er | u)⟩
    · rw [hl₁] at hl; cases (Prod.mk.inj hl).2
    · rw [hl₁] at hl
      simp only at hl
      have hk := htLoop_count z _ _ _ _ _ _ _ hl₁
      have hf := htFit_of_loop z hc₁ ho (n := k) (by omega) hl₁
      obtain ⟨e1, e2, e3⟩ := hlearn R₁ R ho
      refine ⟨_, R₁, hf, ?_⟩
      rw [hk, htLoop_shift z o.set hd] at hl
      obtain ⟨g1, g2⟩ := Prod.mk.inj hl
      obtain ⟨g3, g4⟩ := Prod.mk.inj g1
      have hl₂ : htLoop o.set false z d₂ 1 R₁ = ((1 + Spec.moveCount d₂, R), .ok ()) := by
        rcases hq : htLoop o.set false z d₂ 1 R₁ with ⟨⟨k', R₂⟩, v⟩
        rw [hq] at g2 g4
        simp only at g2 g4
        subst g2 g4
        rw [htLoop_count z _ _ _ _ _ _ _ hq]
      have hbegin : ∀ o₁ : HtIrl K, o₁.theta = .vec R₁ → o₁.begin = R₁ := fun o₁ h => by unfold HtIrl.begin; rw [h]
      rw [htFit_of_loop z hc₂ (by rw [e1]; simp) (n := 1 + Spec.moveCount d₂) (by omega)
        (by rw [hbegin _ e1, e2]; exact hl₂), e1, e]
      simp only
      rw [e3]
  · rintro ⟨o₁, R₁, h1, h2⟩
    obtain ⟨-, ho, k, hk, hl₁, e⟩ := htFit_succ z h1
    obtain ⟨-, ho₁, k₂, hk₂, hl₂, e'⟩ := htFit_succ z h2
    obtain ⟨e1, e2, e3⟩ := hlearn R₁ R ho
    rw [← e] at e1 e2 e3
    have hb : o₁.begin = R₁ := by unfold HtIrl.begin; rw [e1]
    rw [hb, e2] at hl₂
    rw [e1] at e'
    simp only at e'
    have hl : htLoop o.set false z (d₁ ++ d₂) 1 o.begin = ((1 + Spec.moveCount d₂ + Spec.moveCount d₁, R), .ok ()) := by
      rw [htLoop_append, hl₁]
      simp only
      rw [htLoop_count z _ _ _ _ _ _ _ hl₁, htLoop_shift z o.set hd, hl₂]
      simp only
      rw [htLoop_count z _ _ _ _ _ _ _ hl₂]
    rw [htFit_of_loop z hc ho (n := 1 + Spec.moveCount d₂ + Spec.moveCount d₁) (by omega) hl, e', e3]

/-- **C126 is false of the code (hypothesis testing with decay).** The count of moves that shrinks the learning rate
begins anew with every fit, while the estimate is kept. So with decay, two observed moves presented in two fits always
give another weight than presented in one fit, unless the second move agrees with the estimate already. -/
theorem C126_refuted (o : HtIrl K) (hn : o.set.norm ≠ .relative) (hd : 0 < o.set.decay) (hlr : 0 < o.set.lr)
    (has : 1 < o.set.asymmetry) (m : Mdp K) (Q : Nat → Nat → Nat → Ext K) (p q : Int × Int) (a b f : Nat)
    (hp : Spec.Adjacent m.trans p) (hq : Spec.Adjacent m.trans q)
    (ha : Spec.FirstAction m.trans (Spec.stateOf m.trans.nS p.1) (Spec.stateOf m.trans.nS p.2) a)
    (hb : Spec.FirstAction m.trans (Spec.stateOf m.trans.nS q.1) (Spec.stateOf m.trans.nS q.2) b) (w x y : K)
    (hw : o.theta = .none ∧ w = 0 ∨ ∃ θ, o.theta = .vec θ ∧ θ f = .fin w)
    (hx : evidence o.set z m.trans Q (Spec.stateOf m.trans.nS p.1) a f = .fin x)
    (hy : evidence o.set z m.trans Q (Spec.stateOf m.trans.nS q.1) b f = .fin y) :
    ∃ o₁ R₁ o₂ R₂ o₃ R₃ v, o.fit z [(m, .ok Q, [p.1, p.2])] = (o₁, .ok R₁) ∧
      o₁.fit z [(m, .ok Q, [q.1, q.2])] = (o₂, .ok R₂) ∧
      o.fit z [(m, .ok Q, [p.1, p.2]), (m, .ok Q, [q.1, q.2])] = (o₃, .ok R₃) ∧
      R₁ f = .fin v ∧ (y ≠ v → R₂ f ≠ R₃ f) := by
  have hshape : ∀ l : List (Mdp K), (∀ m' ∈ l, m' = m) → SameShape l := fun l h m₁ h₁ m₂ h₂ => by
    rw [h m₁ h₁, h m₂ h₂]; exact ⟨rfl, rfl, rfl, rfl⟩
  have hev : ∀ (M : Trans K) Q s a f, seen o.set z M Q s a f = evidence o.set z M Q s a f := by
    intro M Q s a f
    unfold seen evidence
    cases o.set.norm <;> simp
  have r1 : ∀ (θ : Nat → Ext K), htResult o.set z [(m, Q, [p.1, p.2])] θ f =
      htFold o.set 1 (θ f) [.fin x] := by
    intro θ
    simp only [htResult, allMoves, Spec.moves, List.flatMap_cons, List.flatMap_nil, List.map_cons, List.map_nil,
      List.append_nil, Prod.mk.eta]
    rw [moveAction_eq _ _ a ha, hev, hx]
  have r2 : ∀ (θ : Nat → Ext K), htResult o.set z [(m, Q, [q.1, q.2])] θ f =
      htFold o.set 1 (θ f) [.fin y] := by
    intro θ
    simp only [htResult, allMoves, Spec.moves, List.flatMap_cons, List.flatMap_nil, List.map_cons, List.map_nil,
      List.append_nil, Prod.mk.eta]
    rw [moveAction_eq _ _ b hb, hev, hy]
  have r3 : ∀ (θ : Nat → Ext K), htResult o.set z [(m, Q, [p.1, p.2]), (m, Q, [q.1, q.2])] θ f =
      htFold o.set 1 (θ f) [.fin x, .fin y] := by
    intro θ
    simp only [htResult, allMoves, Spec.moves, List.flatMap_cons, List.flatMap_nil, List.map_cons, List.map_nil,
      List.append_nil, List.cons_append, List.nil_append, Prod.mk.eta]
    rw [moveAction_eq _ _ a ha, moveAction_eq _ _ b hb, hev, hev, hx, hy]
  have hadj1 : ∀ d ∈ [(m, Q, [p.1, p.2])], ∀ r ∈ Spec.moves d.2.2, Spec.Adjacent d.1.trans r := by
    intro d hd r hr
    rw [List.mem_singleton.1 hd] at hr ⊢
    rw [List.mem_singleton.1 hr]; exact hp
  have hadj2 : ∀ d ∈ [(m, Q, [q.1, q.2])], ∀ r ∈ Spec.moves d.2.2, Spec.Adjacent d.1.trans r := by
    intro d hd r hr
    rw [List.mem_singleton.1 hd] at hr ⊢
    rw [List.mem_singleton.1 hr]; exact hq
  have hadj3 : ∀ d ∈ [(m, Q, [p.1, p.2]), (m, Q, [q.1, q.2])], ∀ r ∈ Spec.moves d.2.2,
      Spec.Adjacent d.1.trans r := by
    intro d hd r hr
    rcases List.mem_cons.1 hd with rfl | hd
    · exact hadj1 _ List.mem_cons_self r hr
    · exact hadj2 d hd r hr
  have e1 := o.fit_ok hn z [(m, Q, [p.1, p.2])] (by simp) (hshape _ (by simp)) (by simp [allMoves, Spec.moves]) hadj1
  have e3 := o.fit_ok hn z [(m, Q, [p.1, p.2]), (m, Q, [q.1, q.2])] (by simp) (hshape _ (by simp))
    (by simp [allMoves, Spec.moves]) hadj3
  simp only [List.map_cons, List.map_nil] at e1 e3
  have hfold1 : htFold o.set 1 (.fin w) [.fin x] = .fin (Spec.htEstimate o.set 1 w [x]) := htFold_fin o.set [x] 1 w
  have hfold3 : htFold o.set 1 (.fin w) [.fin x, .fin y] = .fin (Spec.htEstimate o.set 1 w [x, y]) :=
    htFold_fin o.set [x, y] 1 w
  have hne : ∀ v : K, y ≠ v → v = Spec.htEstimate o.set 1 w [x] →
      Spec.htEstimate o.set 1 v [y] ≠ Spec.htEstimate o.set 1 w [x, y] := by
    intro v hv hv' hc
    simp only [Spec.htEstimate] at hc hv'
    rw [← hv'] at hc
    have hr : Spec.htRate o.set 1 y v = Spec.htRate o.set (1 + 1) y v := by
      have := add_left_cancel hc
      exact mul_right_cancel₀ (sub_ne_zero.2 hv) this
    unfold Spec.htRate at hr
    have hd0 : ¬ o.set.decay = 0 := by omega
    rw [if_neg hd0, if_neg hd0] at hr
    have hc0 : (if |y| < |v| then o.set.lr * o.set.asymmetry else o.set.lr / o.set.asymmetry) ≠ 0 := by
      have : 0 < o.set.asymmetry := lt_trans zero_lt_one has
      split_ifs
      · exact (mul_pos hlr this).ne'
      · exact (div_pos hlr this).ne'
    have h2 : ((1 + 1 : Nat) : K) ^ o.set.decay = 1 := by
      have hz : ((1 + 1 : Nat) : K) ^ o.set.decay ≠ 0 := pow_ne_zero _ (by norm_num)
      rw [Nat.cast_one, one_pow, div_one, eq_div_iff hz] at hr
      exact mul_left_cancel₀ hc0 (hr.trans (mul_one _).symm)
    have h3 : (1 : K) < ((1 + 1 : Nat) : K) ^ o.set.decay := one_lt_pow₀ (by norm_num) (by omega)
    exact h3.ne' h2
  have next : ∀ (o₁ : HtIrl K) (R₁ : Nat → Ext K), o₁.set = o.set → o₁.theta = .vec R₁ →
      o₁.fit z [(m, .ok Q, [q.1, q.2])] = (o₁.write (htResult o.set z [(m, Q, [q.1, q.2])] R₁),
        .ok (htResult o.set z [(m, Q, [q.1, q.2])] R₁)) := by
    intro o₁ R₁ hs ht
    have := o₁.fit_ok (by rw [hs]; exact hn) z [(m, Q, [q.1, q.2])] (by simp) (hshape _ (by simp))
      (by simp [allMoves, Spec.moves]) hadj2
    rw [ht, hs] at this
    exact this
  rcases hw with ⟨ht, rfl⟩ | ⟨θ, ht, hθ⟩
  · rw [ht] at e1 e3
    simp only at e1 e3
    have hv := (r1 fun _ => .fin 0).trans hfold1
    refine ⟨_, _, _, _, _, _, _, e1, next _ _ rfl rfl, e3, hv, fun hy' => ?_⟩
    rw [r2, hv, r3, hfold3]
    have := htFold_fin o.set [y] 1 (Spec.htEstimate o.set 1 0 [x])
    simp only [List.map_cons, List.map_nil] at this
    rw [this]
    exact fun hc => hne _ hy' rfl (Ext.fin.inj hc)
  · rw [ht] at e1 e3
    simp only at e1 e3
    have hv := r1 θ
    rw [hθ, hfold1] at hv
    refine ⟨_, _, _, _, _, _, _, e1, next _ _ rfl rfl, e3, hv, fun hy' => ?_⟩
    rw [r2, hv, r3, hθ, hfold3]
    have := htFold_fin o.set [y] 1 (Spec.htEstimate o.set 1 w [x])
    simp only [List.map_cons, List.map_nil] at this
    rw [this]
    exact fun hc => hne _ hy' rfl (Ext.fin.inj hc)

/-- Walking 2 → 1, then 1 → 0 on the strip: three rows kept over a trajectory without moves and two with one move each;
with decay, two fits give another weight than one. -/
example : (match exIrlMdp with
    | .ok m =>
      let Q := htQ m.nFeatures [] fun w => solveHard m.trans (Spec.weighted m w) 3 (1/2) (1/100)
      let z : List Nat → (Nat → Nat → Ext ℚ) → Nat → Nat → Ext ℚ := fun _ x a f => x a f
      let o : HtIrl ℚ := ⟨⟨1/2, 1, 2, .other⟩, .none, .obj, false⟩
      let two := (o.fit z [(m, Q, [2, 1])]).1.fit z [(m, Q, [1, 0])]
      match (HtKept.fit ⟨o, none, none⟩ z [(m, Q, [2]), (m, Q, [2, 1]), (m, Q, [1, 0])]), two.2 with
      | (⟨_, some a, some b⟩, .ok R), .ok R' => decide (a.length = 2 ∧ b.length = 3) &&
          (match a[0]?, b[0]?, b[1]? with
          | some r, some s, some t => decide (r 0 = t 0 ∧ s 0 = .fin 0 ∧ r 0 ≠ R 0) && decide (R 0 ≠ R' 0)
          | _, _, _ => false)
      | _, _ => false
    | .error _ => false) = true := by decide +kernel

end MaMDP
