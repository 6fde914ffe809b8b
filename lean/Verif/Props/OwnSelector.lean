import Verif.Spec.OwnSelector
import Mathlib.Tactic.Ring
import Mathlib.Data.Rat.Defs
import Mathlib.Algebra.Order.Ring.Rat

/-! # C151: action selectors of the user's own -/

set_option linter.unusedSectionVars false

namespace MaMDP

variable {K α : Type} [Field K] [LinearOrder K] [IsStrictOrderedRing K]

theorem checkQArray_good {n m : Nat} {get : List Nat → Ext K} {q : PyArr (Ext K)} (h : Spec.GoodTable n m get q) :
    checkQArray q = .ok ⟨n, m, fun s a => get [s, a]⟩ := by
  obtain ⟨rfl, s, hs, a, ha, hx⟩ := h
  unfold checkQArray
  exact if_neg fun hall => hx (hall s hs a ha)

theorem nanState_iff {n m : Nat} {get : List Nat → Ext K} {s : Nat} :
    nanState ⟨n, m, fun s a => get [s, a]⟩ s = true ↔ Spec.NoMean m get s := by
  unfold nanState Spec.NoMean
  rw [decide_eq_true_eq]

theorem clean_withoutNan (get : List Nat → Ext K) :
    (fun s a => (get [s, a]).clean) = Spec.withoutNan get := by
  funext s a
  unfold Spec.withoutNan Ext.clean
  cases get [s, a] <;> rfl

/-- **C151**: values that are not a two-dimensional array with some estimate are refused before the user's class is
asked anything, each with its own exception, and nothing changes. -/
theorem C151_input
    (reply : PyArr Int → (n m : Nat) → (Nat → Nat → WithBot (WithTop K)) → Py (Reply Int)) (kept : PyArr Int)
    (replyP : PyArr (Ext K) → (n m : Nat) → (Nat → Nat → WithBot (WithTop K)) → Py (Reply (Ext K)))
    (keptP : PyArr (Ext K)) :
    (ownPi reply kept .notArray = (kept, .error .typeError) ∧ ownPiP replyP keptP .notArray = (keptP, .error .typeError) ∧
      nStatesActions (K := K) .notArray = .error .typeError) ∧
    (∀ shape get, shape.length ≠ 2 → ownPi reply kept (.nd shape get) = (kept, .error .attributeError) ∧
      ownPiP replyP keptP (.nd shape get) = (keptP, .error .attributeError) ∧
      nStatesActions (K := K) (.nd shape get) = .error .attributeError) ∧
    (∀ n m get, (∀ s, s < n → ∀ a, a < m → get [s, a] = .nan) →
      ownPi reply kept (.nd [n, m] get) = (kept, .error .valueError) ∧
      ownPiP replyP keptP (.nd [n, m] get) = (keptP, .error .valueError)) ∧
    ∀ n m get, nStatesActions (K := K) (.nd [n, m] get) = .ok (n, m) := by
  refine ⟨⟨rfl, rfl, rfl⟩, fun shape get h => ?_, fun n m get h => ?_, fun _ _ _ => rfl⟩
  · have hc : checkQArray (K := K) (.nd shape get) = .error .attributeError := by
      match shape, h with
      | [], _ => rfl
      | [_], _ => rfl
      | [_, _], h => exact absurd rfl h
      | _ :: _ :: _ :: _, _ => rfl
    refine ⟨by unfold ownPi; rw [hc], by unfold ownPiP; rw [hc], ?_⟩
    match shape, h with
    | [], _ => rfl
    | [_], _ => rfl
    | [_, _], h => exact absurd rfl h
    | _ :: _ :: _ :: _, _ => rfl
  · have hc : checkQArray (K := K) (.nd [n, m] get) = .error .valueError := if_pos h
    exact ⟨by unfold ownPi; rw [hc], by unfold ownPiP; rw [hc]⟩

/-- The general form of the two theorems below. -/
theorem afterReply_spec (rank : Nat) (shape : List Nat) (hr : rank ≤ shape.length) (mask : Nat → Bool) (v : α)
    (kept : PyArr α) (r : Reply α) :
    (∀ get, Spec.replyArray kept r = .nd shape get →
      (afterReply rank shape mask v kept (.ok r)).2 = .ok (.nd shape (markRows mask v get))) ∧
    ((∀ get, Spec.replyArray kept r ≠ .nd shape get) → ∃ err, (afterReply rank shape mask v kept (.ok r)).2 = .error err) := by
  constructor
  · intro get h
    cases r with
    | plain => cases h
    | container => cases h
    | kept =>
      change kept = _ at h
      subst h
      simp only [afterReply, writeMask]
      rw [if_neg (by omega), if_neg (by simp)]
      exact if_pos rfl
    | new s g =>
      change PyArr.nd s g = _ at h
      obtain ⟨rfl, rfl⟩ := PyArr.nd.inj h
      simp only [afterReply, writeMask]
      rw [if_neg (by omega), if_neg (by simp)]
      exact if_pos rfl
  · intro h
    have key : ∀ x : PyArr α, (∀ get, x ≠ .nd shape get) → (∃ e, writeMask rank (shape.getD 0 0) mask v x = .error e) ∨
        ∃ y, writeMask rank (shape.getD 0 0) mask v x = .ok y ∧ assertShape shape y = .error .assertionError := by
      intro x hx
      cases x with
      | notArray => exact .inl ⟨_, rfl⟩
      | nd s g =>
        unfold writeMask
        by_cases h1 : s.length < rank
        · exact .inl ⟨.indexError, if_pos h1⟩
        by_cases h2 : s.getD 0 0 ≠ shape.getD 0 0
        · exact .inl ⟨.indexError, (if_neg h1).trans (if_pos h2)⟩
        exact .inr ⟨_, (if_neg h1).trans (if_neg h2), if_neg fun hs => hx g (by rw [hs])⟩
    cases r with
    | plain => exact ⟨_, rfl⟩
    | container => exact ⟨_, rfl⟩
    | kept =>
      rcases key kept h with ⟨e, he⟩ | ⟨y, hy, hz⟩
      · exact ⟨e, by simp only [afterReply]; rw [he]⟩
      · exact ⟨.assertionError, by simp only [afterReply]; rw [hy]; exact hz⟩
    | new s g =>
      rcases key (.nd s g) h with ⟨e, he⟩ | ⟨y, hy, hz⟩
      · exact ⟨e, by simp only [afterReply]; rw [he]⟩
      · exact ⟨.assertionError, by simp only [afterReply]; rw [hy]; exact hz⟩

/-- **C151**: `get_pi` accepts exactly the replies that are an array with one entry per state; what it returns is that
array with -1 in the states without an estimate. The user's class is asked about the table with -inf for NaN. -/
theorem C151_pi {n m : Nat} {get : List Nat → Ext K} {q : PyArr (Ext K)} (hq : Spec.GoodTable n m get q)
    (reply : PyArr Int → (n m : Nat) → (Nat → Nat → WithBot (WithTop K)) → Py (Reply Int)) (kept : PyArr Int) :
    (∀ err, reply kept n m (Spec.withoutNan get) = .error err → ownPi reply kept q = (kept, .error err)) ∧
    ∀ r, reply kept n m (Spec.withoutNan get) = .ok r →
      (∀ g, Spec.replyArray kept r = .nd [n] g → ∃ p, (ownPi reply kept q).2 = .ok (.nd [n] p) ∧
        ∀ s, s < n → (Spec.NoMean m get s → p [s] = -1) ∧ (¬ Spec.NoMean m get s → p [s] = g [s])) ∧
      ((∀ g, Spec.replyArray kept r ≠ .nd [n] g) → ∃ err, (ownPi reply kept q).2 = .error err) := by
  have hc := checkQArray_good hq
  constructor
  · intro err h
    unfold ownPi
    rw [hc]
    simp only [clean_withoutNan, h]
    rfl
  · intro r h
    have key := afterReply_spec 1 [n] (by simp) (nanState ⟨n, m, fun s a => get [s, a]⟩) (-1) kept r
    have hp : ownPi reply kept q = afterReply 1 [n] (nanState ⟨n, m, fun s a => get [s, a]⟩) (-1) kept (.ok r) := by
      unfold ownPi
      rw [hc]
      simp only [clean_withoutNan, h]
    rw [hp]
    refine ⟨fun g hg => ⟨_, key.1 g hg, fun s _ => ⟨fun hs => ?_, fun hs => ?_⟩⟩, key.2⟩
    · exact if_pos (nanState_iff.2 hs)
    · exact if_neg fun hx => hs (nanState_iff.1 hx)

/-- **C151**: `get_pi_p` accepts exactly the replies that are an array of the shape of the table; what it returns is
that array with NaN in the states without an estimate. -/
theorem C151_pi_p {n m : Nat} {get : List Nat → Ext K} {q : PyArr (Ext K)} (hq : Spec.GoodTable n m get q)
    (reply : PyArr (Ext K) → (n m : Nat) → (Nat → Nat → WithBot (WithTop K)) → Py (Reply (Ext K)))
    (kept : PyArr (Ext K)) :
    (∀ err, reply kept n m (Spec.withoutNan get) = .error err → ownPiP reply kept q = (kept, .error err)) ∧
    ∀ r, reply kept n m (Spec.withoutNan get) = .ok r →
      (∀ g, Spec.replyArray kept r = .nd [n, m] g → ∃ p, (ownPiP reply kept q).2 = .ok (.nd [n, m] p) ∧
        ∀ s, s < n → ∀ a, a < m → (Spec.NoMean m get s → p [s, a] = .nan) ∧
          (¬ Spec.NoMean m get s → p [s, a] = g [s, a])) ∧
      ((∀ g, Spec.replyArray kept r ≠ .nd [n, m] g) → ∃ err, (ownPiP reply kept q).2 = .error err) := by
  have hc := checkQArray_good hq
  constructor
  · intro err h
    unfold ownPiP
    rw [hc]
    simp only [clean_withoutNan, h]
    rfl
  · intro r h
    have key := afterReply_spec 2 [n, m] (by simp) (nanState ⟨n, m, fun s a => get [s, a]⟩) .nan kept r
    have hp : ownPiP reply kept q =
        afterReply 2 [n, m] (nanState ⟨n, m, fun s a => get [s, a]⟩) .nan kept (.ok r) := by
      unfold ownPiP
      rw [hc]
      simp only [clean_withoutNan, h]
    rw [hp]
    refine ⟨fun g hg => ⟨_, key.1 g hg, fun s _ a _ => ⟨fun hs => ?_, fun hs => ?_⟩⟩, key.2⟩
    · exact if_pos (nanState_iff.2 hs)
    · exact if_neg fun hx => hs (nanState_iff.1 hx)

/-- **C151**: which exception a reply of another format raises, in `get_pi` (`rank` 1) and `get_pi_p` (`rank` 2). The
intended assertions are only met by other containers, and by arrays with the right number of rows. -/
theorem C151_errors {n m : Nat} {get : List Nat → Ext K} {q : PyArr (Ext K)} (hq : Spec.GoodTable n m get q)
    (reply : PyArr Int → (n m : Nat) → (Nat → Nat → WithBot (WithTop K)) → Py (Reply Int)) (kept : PyArr Int)
    (replyP : PyArr (Ext K) → (n m : Nat) → (Nat → Nat → WithBot (WithTop K)) → Py (Reply (Ext K)))
    (keptP : PyArr (Ext K)) :
    (reply kept n m (Spec.withoutNan get) = .ok .plain → ownPi reply kept q = (kept, .error .typeError)) ∧
    (replyP keptP n m (Spec.withoutNan get) = .ok .plain → ownPiP replyP keptP q = (keptP, .error .typeError)) ∧
    (reply kept n m (Spec.withoutNan get) = .ok .container → ownPi reply kept q = (kept, .error .assertionError)) ∧
    (replyP keptP n m (Spec.withoutNan get) = .ok .container → ownPiP replyP keptP q = (keptP, .error .assertionError)) ∧
    (∀ shape g, reply kept n m (Spec.withoutNan get) = .ok (.new shape g) →
      (shape.head? ≠ some n → ownPi reply kept q = (kept, .error .indexError)) ∧
      (shape.head? = some n → shape.length ≠ 1 → ownPi reply kept q = (kept, .error .assertionError))) ∧
    ∀ shape g, replyP keptP n m (Spec.withoutNan get) = .ok (.new shape g) →
      (shape.head? ≠ some n ∨ shape.length = 1 → ownPiP replyP keptP q = (keptP, .error .indexError)) ∧
      (shape.head? = some n → shape.length ≠ 1 → shape ≠ [n, m] →
        ownPiP replyP keptP q = (keptP, .error .assertionError)) := by
  have hc := checkQArray_good hq
  have hp : ∀ r, reply kept n m (Spec.withoutNan get) = .ok r → ownPi reply kept q =
      afterReply 1 [n] (nanState ⟨n, m, fun s a => get [s, a]⟩) (-1) kept (.ok r) := by
    intro r h
    unfold ownPi
    rw [hc]
    simp only [clean_withoutNan, h]
  have hpp : ∀ r, replyP keptP n m (Spec.withoutNan get) = .ok r → ownPiP replyP keptP q =
      afterReply 2 [n, m] (nanState ⟨n, m, fun s a => get [s, a]⟩) .nan keptP (.ok r) := by
    intro r h
    unfold ownPiP
    rw [hc]
    simp only [clean_withoutNan, h]
  refine ⟨fun h => by rw [hp _ h]; rfl, fun h => by rw [hpp _ h]; rfl, fun h => by rw [hp _ h]; rfl,
    fun h => by rw [hpp _ h]; rfl, fun shape g h => ?_, fun shape g h => ?_⟩
  · rw [hp _ h]
    simp only [afterReply, writeMask, List.getD_cons_zero]
    cases shape with
    | nil => exact ⟨fun _ => rfl, fun hx => (by cases hx)⟩
    | cons d l =>
      simp only [List.head?_cons, List.getD_cons_zero, List.length_cons, Option.some.injEq]
      rw [if_neg (by omega)]
      refine ⟨fun hx => by rw [if_pos fun he => hx (congrArg some he)], fun hx hl => ?_⟩
      rw [if_neg (not_not.2 hx)]
      simp only [assertShape]
      rw [if_neg]
      intro hs
      rw [List.cons.injEq] at hs
      exact hl (by rw [hs.2]; rfl)
  · rw [hpp _ h]
    simp only [afterReply, writeMask, List.getD_cons_zero]
    match shape with
    | [] => exact ⟨fun _ => rfl, fun hx => (by cases hx)⟩
    | [_] => exact ⟨fun _ => rfl, fun _ hx => absurd rfl hx⟩
    | d :: e :: l =>
      simp only [List.head?_cons, List.getD_cons_zero, List.length_cons, Option.some.injEq]
      rw [if_neg (by omega)]
      refine ⟨fun hx => ?_, fun hx _ hs => ?_⟩
      · rw [if_pos fun he => hx.resolve_right (by omega) (congrArg some he)]
      · rw [if_neg (not_not.2 hx)]
        simp only [assertShape]
        rw [if_neg hs]

/-- **C151**: the selectors that come with the package are the case of a selector that always replies with a new array
of the right shape: what is said of them elsewhere is said of `get_pi` and `get_pi_p` as described here. -/
theorem C151_builtin {δ : Type} (sel : Selector K δ) (q : Arr2 (Ext K)) (d : Nat → δ) (kept : PyArr Int)
    (keptP : PyArr (Ext K)) :
    ownPi (fun _ n m x => match sel.getPi n m x d with
        | .error e => .error e
        | .ok f => .ok (.new [n] fun i => (f (i.getD 0 0) : Int))) kept (.of2 q) =
      (kept, (sel.pi q d).map .of1) ∧
    ownPiP (fun _ n m x => match sel.getPiP n m x with
        | .error e => .error e
        | .ok f => .ok (.new [n, m] fun i => f (i.getD 0 0) (i.getD 1 0))) keptP (.of2 q) =
      (keptP, (sel.piP q).map .of2) := by
  have hc : checkQArray (PyArr.of2 q) = match checkQValues q with | .error e => .error e | .ok () => .ok q := by
    unfold checkQArray checkQValues PyArr.of2
    simp only [List.getD_cons_zero, List.getD_cons_succ]
    split_ifs <;> rfl
  constructor
  · unfold ownPi Selector.pi
    rw [hc]
    cases checkQValues q with
    | error e => rfl
    | ok u =>
      simp only
      cases sel.getPi q.d0 q.d1 (fun s a => (q.get s a).clean) d with
      | error e => rfl
      | ok f =>
        simp only [afterReply, writeMask, List.getD_cons_zero, List.length_singleton, lt_self_iff_false, if_false,
          ne_eq, not_true_eq_false, assertShape, if_true]
        rfl
  · unfold ownPiP Selector.piP
    rw [hc]
    cases checkQValues q with
    | error e => rfl
    | ok u =>
      simp only
      cases sel.getPiP q.d0 q.d1 (fun s a => (q.get s a).clean) with
      | error e => rfl
      | ok f =>
        simp only [afterReply, writeMask, List.getD_cons_zero, List.length_cons, List.length_nil, Nat.reduceAdd,
          lt_self_iff_false, if_false, ne_eq, not_true_eq_false, assertShape, if_true]
        rfl

theorem afterReply_kept (rank : Nat) (shape0 : List Nat) (mask : Nat → Bool) (v : α) (shape : List Nat)
    (g : List Nat → α) (r : Py (Reply α)) :
    (∃ g', (afterReply rank shape0 mask v (.nd shape g) r).1 = .nd shape g' ∧
      ∀ s l, mask s ≠ true → g' (s :: l) = g (s :: l)) ∧
    (r ≠ .ok .kept → (afterReply rank shape0 mask v (.nd shape g) r).1 = .nd shape g) := by
  have hnew : ∀ s g0, (afterReply rank shape0 mask v (.nd shape g) (.ok (.new s g0))).1 = .nd shape g := by
    intro s g0
    simp only [afterReply]
    split <;> rfl
  rcases r with err | r
  · exact ⟨⟨g, rfl, fun _ _ _ => rfl⟩, fun _ => rfl⟩
  cases r with
  | plain => exact ⟨⟨g, rfl, fun _ _ _ => rfl⟩, fun _ => rfl⟩
  | container => exact ⟨⟨g, rfl, fun _ _ _ => rfl⟩, fun _ => rfl⟩
  | new s g0 => exact ⟨⟨g, hnew s g0, fun _ _ _ => rfl⟩, fun _ => hnew s g0⟩
  | kept =>
    refine ⟨?_, fun h => absurd rfl h⟩
    simp only [afterReply, writeMask]
    split_ifs
    · exact ⟨g, rfl, fun _ _ _ => rfl⟩
    · exact ⟨g, rfl, fun _ _ _ => rfl⟩
    · exact ⟨_, rfl, fun s l hs => if_neg hs⟩

/-- **C151**, what holds of the selector's own array: it keeps its shape, and its entries in the states with an
estimate. So it is unchanged if every state has one, and if the selector replied with something else. -/
theorem C151_kept_partial {n m : Nat} {get : List Nat → Ext K} {q : PyArr (Ext K)} (hq : Spec.GoodTable n m get q)
    (reply : PyArr Int → (n m : Nat) → (Nat → Nat → WithBot (WithTop K)) → Py (Reply Int))
    (replyP : PyArr (Ext K) → (n m : Nat) → (Nat → Nat → WithBot (WithTop K)) → Py (Reply (Ext K)))
    (shape : List Nat) (g : List Nat → Int) (gP : List Nat → Ext K) :
    (∃ g', (ownPi reply (.nd shape g) q).1 = .nd shape g' ∧
      ∀ s l, ¬ Spec.NoMean m get s → g' (s :: l) = g (s :: l)) ∧
    (reply (.nd shape g) n m (Spec.withoutNan get) ≠ .ok .kept → (ownPi reply (.nd shape g) q).1 = .nd shape g) ∧
    (∃ g', (ownPiP replyP (.nd shape gP) q).1 = .nd shape g' ∧
      ∀ s l, ¬ Spec.NoMean m get s → g' (s :: l) = gP (s :: l)) ∧
    (replyP (.nd shape gP) n m (Spec.withoutNan get) ≠ .ok .kept →
      (ownPiP replyP (.nd shape gP) q).1 = .nd shape gP) := by
  have hc := checkQArray_good hq
  have hp : ownPi reply (.nd shape g) q = afterReply 1 [n] (nanState ⟨n, m, fun s a => get [s, a]⟩) (-1) (.nd shape g)
      (reply (.nd shape g) n m (Spec.withoutNan get)) := by
    unfold ownPi
    rw [hc]
    simp only [clean_withoutNan]
  have hpp : ownPiP replyP (.nd shape gP) q = afterReply 2 [n, m] (nanState ⟨n, m, fun s a => get [s, a]⟩) .nan
      (.nd shape gP) (replyP (.nd shape gP) n m (Spec.withoutNan get)) := by
    unfold ownPiP
    rw [hc]
    simp only [clean_withoutNan]
  rw [hp, hpp]
  obtain ⟨⟨g1, h1, h2⟩, h3⟩ := afterReply_kept 1 [n] (nanState ⟨n, m, fun s a => get [s, a]⟩) (-1) shape g
    (reply (.nd shape g) n m (Spec.withoutNan get))
  obtain ⟨⟨g2, h4, h5⟩, h6⟩ := afterReply_kept 2 [n, m] (nanState ⟨n, m, fun s a => get [s, a]⟩) .nan shape gP
    (replyP (.nd shape gP) n m (Spec.withoutNan get))
  exact ⟨⟨g1, h1, fun s l hs => h2 s l fun hx => hs (nanState_iff.1 hx)⟩, h3,
    ⟨g2, h4, fun s l hs => h5 s l fun hx => hs (nanState_iff.1 hx)⟩, h6⟩

/-- A table with estimates for the first of two states only (as a tree search gives), and one with both. -/
def exOneState : PyArr (Ext Rat) := .nd [2, 2] fun i => if i.getD 0 0 = 0 then .fin 1 else .nan

def exBothStates : PyArr (Ext Rat) := .nd [2, 2] fun _ => .fin 1

/-- **C151**, where it is false: a selector that replies with a table it keeps (a fixed policy) loses the entries of
the states without an estimate: they stay -1 when there are estimates again. -/
theorem C151_refuted : ∃ (kept : PyArr Int)
    (reply : PyArr Int → (n m : Nat) → (Nat → Nat → WithBot (WithTop Rat)) → Py (Reply Int)) (p p' : List Nat → Int),
    (ownPi reply kept exBothStates).2 = .ok (.nd [2] p) ∧ p [1] = 0 ∧
    (ownPi reply (ownPi reply kept exOneState).1 exBothStates).2 = .ok (.nd [2] p') ∧ p' [1] = -1 := by
  refine ⟨.nd [2] fun _ => 0, fun _ _ _ _ => .ok .kept, _, _, rfl, ?_, rfl, ?_⟩
  · decide +kernel
  · decide +kernel

/-- The hypotheses are met by a table with estimates for one of its states. -/
example : ∃ get, Spec.GoodTable 2 2 get exOneState ∧ Spec.NoMean 2 get 1 ∧ ¬ Spec.NoMean 2 get 0 := by
  refine ⟨fun i => if i.getD 0 0 = 0 then .fin 1 else .nan, ⟨rfl, 0, by decide, 0, by decide, by decide⟩,
    .inl fun a _ => rfl, ?_⟩
  rintro (h | ⟨-, a, ha, h⟩)
  · exact absurd (h 0 (by decide)) (by decide)
  · change Ext.fin (1 : Rat) = .ninf at h
    cases h

end MaMDP
