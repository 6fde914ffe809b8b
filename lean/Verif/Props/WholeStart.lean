import Verif.Lemmas.WholeStart
import Verif.Props.LearnerState
import Verif.Props.PolicyLearning

/-! # C172: a first guess of integers -/

set_option linter.unusedSectionVars false

namespace MaMDP

variable {K : Type} [Field K] [LinearOrder K] [IsStrictOrderedRing K]

/-- **C172**, what the models of the learners are about: with arrays of floats (`whole = false`) the calls here are those of
the other theorems. -/
theorem C172_floats :
    (∀ (o : MceIrl K) m ts ign expected, o.fitOf false m ts ign expected = o.fit m ts ign expected) ∧
    (∀ (o : HtIrl K) z data, o.fitOf false z data = o.fit z data) ∧
    (∀ (o : TdLearner K) mdps ts, o.fitOf false mdps ts = o.fit mdps ts) ∧
    (∀ (o : MceIrl K) ops, o.runOpsOf false ops = o.runOps ops) ∧
    (∀ (o : HtIrl K) ops, o.runOpsOf false ops = o.runOps ops) ∧
    (∀ (o : TdLearner K) ops, o.runOpsOf false ops = o.runOps ops) :=
  ⟨MceIrl.fitOf_false, HtIrl.fitOf_false, TdLearner.fitOf_false, fun o ops => MceIrl.runOpsOf_false ops o,
    fun o ops => HtIrl.runOpsOf_false ops o, fun o ops => TdLearner.runOpsOf_false ops o⟩

/-- **C172 is false of the code** for `MaxCausalEntIRL`: made with an array of integers, the learner can never be fitted,
whatever was called before. -/
theorem C172_refuted_mce (set : IrlSettings K) (lr : K) (x : Nat → K) (o : MceIrl K) (ho : MceIrl.init set lr (some x) = .ok o)
    (ops : List (IrlOp K)) (m : Mdp K) (ts : List (List Int)) (ign : Ignore) (expected : (Nat → K) → Py (Nat → K))
    (y : Nat → K) : ((o.runOpsOf true ops).fitOf true m ts ign expected).2 ≠ .ok y := by
  refine (MceIrl.fitOf_true (MceIrl.runOpsOf_true ops o ?_) m ts ign expected).1 y
  unfold MceIrl.init at ho
  split_ifs at ho
  cases ho
  exact ⟨⟨x, rfl⟩, x, rfl⟩

/-- On arguments with which the same numbers as floats can be fitted, a new learner with integers raises `TypeError`; it
keeps its guess, with zeros for the ignored features. -/
theorem C172_refuted_mce_error (set : IrlSettings K) (lr : K) (x : Nat → K) (o : MceIrl K)
    (ho : MceIrl.init set lr (some x) = .ok o) (m : Mdp K) (ts : List (List Int)) (l : List Int)
    (hv : ∀ i ∈ l, Spec.InRange m.nFeatures i) (h0 : ts ≠ []) (h1 : ts.head? ≠ some [])
    (hr : ∀ t ∈ ts, ∀ i ∈ t, Spec.InRange m.nStates i) (expected : (Nat → K) → Py (Nat → K)) (E : (Nat → K) → Nat → K)
    (hE : ∀ x, expected x = .ok (E x)) (hk : 0 < set.maxIter) :
    (∃ y, (o.fitOf false m ts (.list l) expected).2 = .ok y) ∧
    (o.fitOf true m ts (.list l) expected).2 = .error .typeError ∧
    (o.fitOf true m ts (.list l) expected).1.theta = .vec fun f => if Spec.Names m.nFeatures l f then 0 else x f := by
  unfold MceIrl.init at ho
  split_ifs at ho
  cases ho
  refine ⟨?_, ?_⟩
  · rw [MceIrl.fitOf_false]
    obtain ⟨N, o', -, -, e, -⟩ := C68_partial ⟨set, lr, lr, .vec x, .vec x, false⟩ m ts l hv h0 h1 hr expected E hE x
      (.inr rfl) hk _ rfl _ fun _ => rfl
    exact ⟨_, congrArg Prod.snd e⟩
  · have hz := fun y : Nat → K => zeroAt_valid (x := y) (show Spec.ValidIgnore m.nFeatures (.list l) from hv)
    obtain ⟨k, hk⟩ := Nat.exists_eq_succ_of_ne_zero hk.ne'
    have hrun : ∀ trueF, MceIrl.fitOf.run m (.list l) expected true ⟨set, lr, lr, .vec x, .vec x, false⟩ trueF x =
        ((⟨set, lr, lr, .vec x, .vec x, false⟩ : MceIrl K).write (fun f => if Spec.Names m.nFeatures l f then 0 else x f)
          (irlRate set.decay 0 lr).1, .error .typeError) := by
      intro trueF
      unfold MceIrl.fitOf.run
      simp only [hz, hk]
      unfold irlLoopOf
      simp only [hE, hz, if_true]
      rfl
    have e : MceIrl.fitOf true ⟨set, lr, lr, .vec x, .vec x, false⟩ m ts (.list l) expected =
        ((⟨set, lr, lr, .vec x, .vec x, false⟩ : MceIrl K).write (fun f => if Spec.Names m.nFeatures l f then 0 else x f)
          (irlRate set.decay 0 lr).1, .error .typeError) := by
      unfold MceIrl.fitOf
      rw [empirical_eq, if_pos hr]
      simp only [hz, hrun]
      match ts, h0, h1 with
      | (s :: t) :: ts, _, _ => rfl
      | [] :: ts, _, h1 => exact absurd rfl h1
    rw [e]
    exact ⟨rfl, rfl⟩

/-- **C172 is false of the code** for `HyptestIRL`: made with an array of integers, the learner can never be fitted,
whatever was called before; no call changes the guess it holds. -/
theorem C172_refuted_hyptest (set : HtSettings K) (x : Nat → Ext K) (o : HtIrl K) (ho : HtIrl.init set (some x) = .ok o)
    (ops : List (HtOp K)) (z : List Nat → (Nat → Nat → Ext K) → Nat → Nat → Ext K)
    (data : List (Mdp K × Py (Nat → Nat → Nat → Ext K) × List Int)) (y : Nat → Ext K) :
    ((o.runOpsOf true ops).fitOf true z data).2 ≠ .ok y ∧ (o.runOpsOf true ops).theta = .vec x := by
  unfold HtIrl.init at ho
  split_ifs at ho
  cases ho
  have key : ∀ (ops : List (HtOp K)) (o : HtIrl K), o.theta = .vec x → o.original = .vec x →
      (o.runOpsOf true ops).theta = .vec x ∧ (o.runOpsOf true ops).HasVec := by
    intro ops
    induction ops with
    | nil => intro o h1 h2; exact ⟨h1, ⟨x, h1⟩, x, h2⟩
    | cons op ops ih =>
      intro o h1 h2
      match op with
      | .reset => exact ih _ h2 h2
      | .fit z data =>
        have h3 := HtIrl.fitOf_true (o := o) ⟨⟨x, h1⟩, x, h2⟩ z data
        refine ih _ (h3.2.2.trans h1) ?_
        have hl := htLoop_true o.set z data 1 x
        unfold HtIrl.fitOf
        split
        · exact h2
        · rw [h1]
          simp only
          rcases hp : htLoop o.set true z data 1 x with ⟨⟨n', x'⟩, e | u⟩
          · rw [hp] at hl
            cases hl
            simp only [HtIrl.write]
            split_ifs
            · rfl
            · exact h2
          · rw [hp] at hl
            cases hl
            simp only [HtIrl.write, if_true]
            split_ifs
            · rfl
            · exact h2
  obtain ⟨h1, h2⟩ := key ops ⟨set, .vec x, .vec x, false⟩ rfl rfl
  exact ⟨(HtIrl.fitOf_true h2 z data).1 y, h1⟩

/-- **C172 is false of the code** for `TDGeneralPolicyLearner`: made with an array of integers, it can never be fitted to
anything that contains a step, whatever was called before. -/
theorem C172_refuted_td (lr : K) (decay : Decay K) (x : Arr1 K) (kernel : Option (Nat → Nat → Nat → K)) (o : TdLearner K)
    (ho : TdLearner.init lr decay (some x) kernel = .ok o) (ops : List (TdOp K)) (mdps : Mdp K ⊕ List (Mdp K))
    (ts : List (List Int)) (hs : ∃ t ∈ ts, 2 ≤ t.length) : ((o.runOpsOf true ops).fitOf true mdps ts).2 ≠ .ok () := by
  unfold TdLearner.init at ho
  split_ifs at ho
  cases ho
  intro h
  obtain ⟨t, ht, h2⟩ := hs
  have := (TdLearner.fitOf_true (TdLearner.runOpsOf_true ops _ ⟨⟨x, rfl⟩, x, rfl⟩) mdps ts).2.2 h t ht
  omega

/-- A learner made without a first guess makes floats itself: the type of a guess cannot matter to it. -/
theorem C172_default :
    (∀ (o : MceIrl K) m ts ign expected, o.theta = .none → o.fitOf true m ts ign expected = o.fit m ts ign expected) ∧
    (∀ (o : HtIrl K) z data, o.theta = .none → o.fitOf true z data = o.fit z data) ∧
    (∀ (o : TdLearner K) mdps ts, o.q = .none → o.fitOf true mdps ts = o.fit mdps ts) := by
  refine ⟨fun o m ts ign expected h => ?_, fun o z data h => ?_, fun o mdps ts h => ?_⟩
  · rw [← MceIrl.fitOf_false]
    simp only [MceIrl.fitOf, h]
  · rw [← HtIrl.fitOf_false]
    simp only [HtIrl.fitOf, h]
  · rw [← TdLearner.fitOf_false]
    simp only [TdLearner.fitOf, TdLearner.fitTdOf, h]

theorem actionsOf_nil (whole : Bool) (ms : List (Mdp K)) (i : Nat) (o : TdLearner K) :
    TdLearner.actionsOf whole ms [] i o = (o, .ok ()) := rfl

/-- **C172**, what holds: where nothing is learned the type does not matter. A policy learner can be given trajectories
without steps; a fit of the other two ends with the same exception, either because there is no move, or because no
iteration is allowed or the expected features cannot be computed. -/
theorem C172_partial :
    (∀ (o : TdLearner K) mdps ts, (∀ t ∈ ts, t.length ≤ 1) → o.fitOf true mdps ts = o.fit mdps ts) ∧
    (∀ (o : HtIrl K) z data, (∀ d ∈ data, d.2.2.length ≤ 1) → o.fitOf true z data = o.fit z data) ∧
    (∀ (o : MceIrl K) m ts ign expected, o.set.maxIter = 0 ∨ (∀ x, ∃ e, expected x = .error e) →
      o.fitOf true m ts ign expected = o.fit m ts ign expected) := by
  refine ⟨fun o mdps ts h => ?_, fun o z data h => ?_, fun o m ts ign expected h => ?_⟩
  · have htr : ∀ (ms : List (Mdp K)) (l : List (Mdp K × List Int)), (∀ p ∈ l, p.2.length ≤ 1) → ∀ o : TdLearner K,
        TdLearner.trajectoriesOf true ms l o = TdLearner.trajectories ms l o := by
      intro ms l
      induction l with
      | nil => intro _ o; rfl
      | cons p l ih =>
        intro hl o
        have ih := ih fun p hp => hl p (List.mem_cons_of_mem _ hp)
        obtain ⟨m, t⟩ := p
        have ht : t.length ≤ 1 := hl _ List.mem_cons_self
        match t, ht with
        | [], _ => exact ih o
        | [s], _ => exact ih o
    have hzip : ∀ ms : List (Mdp K), ∀ p ∈ ms.zip ts, p.2.length ≤ 1 := fun ms p hp => h _ (List.of_mem_zip hp).2
    have hfit : ∀ ms, o.fitTdOf true ms ts = o.fitTd ms ts := by
      intro ms
      unfold TdLearner.fitTdOf TdLearner.fitTd
      simp only [TdLearner.trajectoriesOf_false, htr ms _ (hzip ms)]
      rfl
    unfold TdLearner.fitOf TdLearner.fit
    simp only [hfit]
    rfl
  · have hl : ∀ (data : List (Mdp K × Py (Nat → Nat → Nat → Ext K) × List Int)), (∀ d ∈ data, d.2.2.length ≤ 1) →
        ∀ n x, htLoop o.set true z data n x = htLoop o.set false z data n x := by
      intro data
      induction data with
      | nil => intro _ n x; rfl
      | cons d data ih =>
        intro hd n x
        have ih := ih fun d hd' => hd d (List.mem_cons_of_mem _ hd')
        obtain ⟨m, Q, t⟩ := d
        have ht : t.length ≤ 1 := hd _ List.mem_cons_self
        match t, ht with
        | [], _ => exact ih n x
        | [s], _ => exact ih n x
    unfold HtIrl.fitOf HtIrl.fit
    simp only [hl data h]
    rfl
  · have hrun : ∀ trueF x, MceIrl.fitOf.run m ign expected true o trueF x = MceIrl.fit.run m ign expected o trueF x := by
      intro trueF x
      have hloop : ∀ st, irlLoopOf true o.set m.nFeatures ign expected trueF o.set.maxIter 0 st =
          irlLoop o.set m.nFeatures ign expected trueF o.set.maxIter 0 st := by
        intro st
        rcases h with h | h
        · rw [h]
          rfl
        · cases o.set.maxIter with
          | zero => rfl
          | succ k =>
            obtain ⟨e, he⟩ := h st.theta
            unfold irlLoopOf irlLoop
            rw [he]
      unfold MceIrl.fitOf.run MceIrl.fit.run
      simp only [hloop]
      rfl
    have hrun' : ∀ (o : MceIrl K) (trueF x : Nat → K), MceIrl.fitOf.run m ign expected false o trueF x =
        MceIrl.fit.run m ign expected o trueF x := by
      intro o trueF x
      unfold MceIrl.fitOf.run MceIrl.fit.run
      simp only [irlLoopOf_false]
      rfl
    unfold MceIrl.fitOf MceIrl.fit
    simp only [hrun, hrun']
    rfl

/-- A case: the guess 1, 0 as integers and as floats, shown the same walks. With floats all three learners learn, with
integers all three raise `TypeError`. -/
example : (match exIrlMdp, exStrip, MceIrl.init (⟨0, 2, 1 / 100⟩ : IrlSettings ℚ) (1 / 2) (some fun f => if f = 0 then 1 else 0),
      HtIrl.init (⟨1/2, 1, 2, .other⟩ : HtSettings ℚ) (some fun f => if f = 0 then .fin 1 else .fin 0),
      TdLearner.init (1/2 : ℚ) (.int 0) (some ⟨4, fun f => if f = 0 then 1 else 0⟩) none with
    | .ok m, .ok m', .ok o1, .ok o2, .ok o3 =>
      let Q := htQ m.nFeatures [] fun w => solveHard m.trans (stateReward m.nFeatures w m.features.get) 3 (1/2) (1/100)
      (match (o1.fitOf true m [[0, 0, 1]] (.list []) fun θ => .ok (exExpected θ)).2,
          (o1.fitOf false m [[0, 0, 1]] (.list []) fun θ => .ok (exExpected θ)).2,
          (o2.fitOf true (fun _ x a f => x a f) [(m, Q, [2, 1, 0])]).2,
          (o2.fitOf false (fun _ x a f => x a f) [(m, Q, [2, 1, 0])]).2,
          (o3.fitOf true (.inl m') [[0, 1]]).2, (o3.fitOf false (.inl m') [[0, 1]]).2 with
        | .error a, .ok _, .error b, .ok _, .error c, .ok _ =>
          decide (a = .typeError ∧ b = .typeError ∧ c = .typeError)
        | _, _, _, _, _, _ => false)
    | _, _, _, _, _ => false) = true := by decide +kernel

end MaMDP
