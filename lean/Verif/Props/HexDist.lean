import Verif.Model.HexDist
import Verif.Props.Grid

/-! # Distance matrices (C06) and `TDPolicyIRL` (C131) -/

set_option linter.unusedSectionVars false

namespace MaMDP

theorem hexDistRow_ok (n : Nat) (i : Int × Int) : ∀ (l : List (Int × Int)) (nn : Nat) (d : Nat → Nat → Rat),
    ∃ d', hexDistRow n i l nn d = .ok d' ∧ (∀ a b, a ≠ n ∨ b < nn → d' a b = d a b) ∧
      ∀ k (h : k < l.length), offsetDistance i.1 i.2 l[k].1 l[k].2 = .ok (d' n (nn + k)) := by
  intro l
  induction l with
  | nil => intro nn d; exact ⟨d, rfl, fun _ _ _ => rfl, fun k h => by simp at h⟩
  | cons j l ih =>
    intro nn d
    obtain ⟨x, hx, -⟩ := C06_shortest_path i.1 i.2 j.1 j.2
    obtain ⟨d', h1, h2, h3⟩ := ih (nn + 1) (upd2 d n nn x)
    refine ⟨d', by rw [hexDistRow, hx]; exact h1, fun a b h => ?_, fun k h => ?_⟩
    · rw [h2 a b (by omega)]
      unfold upd2
      rw [if_neg (by omega)]
    · cases k with
      | zero =>
        rw [h2 n (nn + 0) (by omega)]
        simp only [List.getElem_cons_zero, hx, upd2, Nat.add_zero, and_self, if_true]
      | succ k =>
        have := h3 k (by simpa using h)
        rw [List.getElem_cons_succ, this]
        congr 2
        omega

theorem hexDistRows_ok (XB : List (Int × Int)) : ∀ (l : List (Int × Int)) (n : Nat) (d : Nat → Nat → Rat),
    ∃ d', hexDistRows XB l n d = .ok d' ∧ (∀ a b, a < n → d' a b = d a b) ∧
      ∀ k (h : k < l.length) k' (h' : k' < XB.length),
        offsetDistance l[k].1 l[k].2 XB[k'].1 XB[k'].2 = .ok (d' (n + k) k') := by
  intro l
  induction l with
  | nil => intro n d; exact ⟨d, rfl, fun _ _ _ => rfl, fun k h => by simp at h⟩
  | cons i l ih =>
    intro n d
    obtain ⟨d1, e1, e2, e3⟩ := hexDistRow_ok n i XB 0 d
    obtain ⟨d', h1, h2, h3⟩ := ih (n + 1) d1
    refine ⟨d', by rw [hexDistRows, e1]; exact h1, fun a b h => ?_, fun k h k' h' => ?_⟩
    · rw [h2 a b (by omega), e2 a b (by omega)]
    · cases k with
      | zero =>
        rw [h2 (n + 0) k' (by omega), List.getElem_cons_zero, e3 k' h']
        simp
      | succ k =>
        rw [List.getElem_cons_succ, h3 k (by simpa using h) k' h']
        congr 2
        omega

/-- `hex_dist` gives the matrix of all distances between two lists of cells: entry `(i, j)` is the least number of moves
from the `i`th cell of the first list to the `j`th of the second. -/
theorem C06_matrix (XA XB : List (Int × Int)) : ∃ D, hexDist XA XB = .ok D ∧ D.d0 = XA.length ∧ D.d1 = XB.length ∧
    ∀ i (hi : i < XA.length) j (hj : j < XB.length), ∃ n : Nat, D.get i j = n ∧ Spec.IsDist Spec.HexStep XA[i] XB[j] n := by
  obtain ⟨d, h1, -, h3⟩ := hexDistRows_ok XB XA 0 fun _ _ => 0
  refine ⟨⟨XA.length, XB.length, d⟩, by rw [hexDist, h1], rfl, rfl, fun i hi j hj => ?_⟩
  obtain ⟨n, hn, hd⟩ := C06_shortest_path XA[i].1 XA[i].2 XB[j].1 XB[j].2
  rw [h3 i hi j hj] at hn
  rw [Nat.zero_add] at hn
  exact ⟨n, by injection hn, hd⟩

example : (match hexDist [(0, 0), (1, 1)] [(3, 4)] with
    | .ok D => decide (D.get 0 0 = 5) && decide (D.get 1 0 = 4)
    | .error _ => false) = true := by decide +kernel

/-! ## C131 `TDPolicyIRL` -/

/-- `TDPolicyIRL` never returns predictions: with trajectories to learn from it raises, whether it is given an MDP or a
list of MDPs. -/
theorem C131_refuted {K : Type} [Zero K] (ts : List (List Int)) (hts : ts ≠ []) (x : MdpArg K) :
    ∃ e, tdPolicyIRL ts x = .error e := by
  cases x with
  | many l => exact ⟨_, rfl⟩
  | one m => cases ts with
    | nil => exact absurd rfl hts
    | cons t ts => exact ⟨_, rfl⟩

/-- Without trajectories and with one MDP it returns its starting estimate, zero for every action, and no predictions.
Missing from the full claim: all calls with trajectories, see `C131_refuted`. -/
theorem C131_partial {K : Type} [Zero K] (m : Mdp K) :
    ∃ Q, tdPolicyIRL [] (.one m) = .ok (Q, []) ∧ Q.d0 = m.nActions ∧ ∀ a, Q.get a = 0 :=
  ⟨_, rfl, rfl, fun _ => rfl⟩

end MaMDP
