import Verif.Model.Py
import Mathlib.Tactic.Linarith

/-! Lemmas about the Python / NumPy prelude. -/

namespace MaMDP

variable {K : Type _} [LinearOrder K]

theorem npArgmax_lt {n : Nat} (f : Nat → K) (h : 0 < n) : npArgmax n f < n := by
  fun_induction npArgmax n f with
  | case1 => omega
  | case2 => omega
  | case3 n f b _ => omega
  | case4 n f b _ ih => omega

theorem le_npArgmax {n : Nat} (f : Nat → K) {i : Nat} (h : i < n) : f i ≤ f (npArgmax n f) := by
  induction n with
  | zero => omega
  | succ m ih =>
    cases m with
    | zero => have : i = 0 := by omega
              subst this; simp [npArgmax]
    | succ k =>
      simp only [npArgmax]
      rcases Nat.lt_succ_iff_lt_or_eq.mp h with h' | h'
      · have := ih h'
        split
        · rename_i hlt; exact le_trans this hlt.le
        · exact this
      · subst h'
        split
        · exact le_rfl
        · rename_i hlt; exact not_lt.mp hlt

theorem npArgmax_first {n : Nat} (f : Nat → K) {i : Nat} (h : i < npArgmax n f) :
    f i < f (npArgmax n f) := by
  induction n with
  | zero => simp [npArgmax] at h
  | succ m ih =>
    cases m with
    | zero => simp [npArgmax] at h
    | succ k =>
      simp only [npArgmax] at h ⊢
      split
      · rename_i hlt
        rw [if_pos hlt] at h
        exact lt_of_le_of_lt (le_npArgmax f h) hlt
      · rename_i hlt
        rw [if_neg hlt] at h
        exact ih h

/-- The argmax is characterised by: in range, maximal, first. -/
theorem npArgmax_eq {n : Nat} (f : Nat → K) {k : Nat} (hk : k < n)
    (hmax : ∀ i < n, f i ≤ f k) (hfirst : ∀ i < k, f i < f k) : npArgmax n f = k := by
  have h1 := npArgmax_lt f (by omega : 0 < n)
  rcases lt_trichotomy (npArgmax n f) k with h | h | h
  · exact absurd (le_npArgmax f hk) (not_le.mpr (hfirst _ h))
  · exact h
  · exact absurd (hmax _ h1) (not_le.mpr (npArgmax_first f h))

theorem npMax_eq (n : Nat) (f : Nat → K) : npMax n f = f (npArgmax n f) := by
  fun_induction npMax n f with
  | case1 => simp [npArgmax]
  | case2 => simp [npArgmax]
  | case3 n f ih =>
    simp only [npArgmax]
    rw [ih]
    split
    · rename_i h; exact max_eq_right h.le
    · rename_i h; exact max_eq_left (not_lt.mp h)

theorem le_npMax {n : Nat} (f : Nat → K) {i : Nat} (h : i < n) : f i ≤ npMax n f := by
  rw [npMax_eq]; exact le_npArgmax f h

theorem npMax_le {n : Nat} (f : Nat → K) {c : K} (hn : 0 < n) (h : ∀ i < n, f i ≤ c) :
    npMax n f ≤ c := by
  rw [npMax_eq]; exact h _ (npArgmax_lt f hn)

theorem exists_npMax {n : Nat} (f : Nat → K) (hn : 0 < n) : ∃ i < n, npMax n f = f i :=
  ⟨npArgmax n f, npArgmax_lt f hn, npMax_eq n f⟩

theorem npArgmax_congr {n : Nat} {f g : Nat → K} (h : ∀ i < n, f i = g i) :
    npArgmax n f = npArgmax n g := by
  cases n with
  | zero => rfl
  | succ m =>
    have hg := npArgmax_lt g (by omega : 0 < m + 1)
    refine npArgmax_eq f hg ?_ ?_
    · intro i hi; rw [h i hi, h _ hg]; exact le_npArgmax g hi
    · intro i hi
      rw [h i (by omega), h _ hg]; exact npArgmax_first g hi

theorem npMax_congr {n : Nat} {f g : Nat → K} (hn : 0 < n) (h : ∀ i < n, f i = g i) :
    npMax n f = npMax n g := by
  rw [npMax_eq, npMax_eq, npArgmax_congr h, h _ (npArgmax_lt g hn)]

theorem mem_npWhere {n : Nat} {p : Nat → Bool} {i : Nat} :
    i ∈ npWhere n p ↔ i < n ∧ p i = true := by
  simp [npWhere]

theorem npWhere_nodup (n : Nat) (p : Nat → Bool) : (npWhere n p).Nodup :=
  List.Nodup.filter _ List.nodup_range

theorem pyIdx_lt {n : Nat} {i : Int} {k : Nat} (h : pyIdx n i = some k) : k < n := by
  unfold pyIdx at h
  split at h
  · split at h
    · cases h; omega
    · cases h
  · split at h
    · cases h; omega
    · cases h

@[simp] theorem pyIdx_nat {n k : Nat} : pyIdx n (k : Int) = if k < n then some k else none := by
  unfold pyIdx
  simp

theorem pyIdx_eq_none {n : Nat} {i : Int} : pyIdx n i = none ↔ (n : Int) ≤ i ∨ i < -(n : Int) := by
  unfold pyIdx
  split
  · split <;> simp <;> omega
  · split <;> simp <;> omega

theorem pyIdx_spec {n : Nat} {i : Int} {k : Nat} :
    pyIdx n i = some k ↔ k < n ∧ (i = k ∨ i = (k : Int) - n) := by
  unfold pyIdx
  split
  · split <;> simp <;> omega
  · split <;> simp <;> omega

theorem rngChoice_mem {α : Type _} {c : List α} {d : Nat} {x : α} (h : rngChoice c d = .ok x) :
    x ∈ c := by
  unfold rngChoice at h
  split at h
  · rename_i y hy; cases h; exact List.mem_of_getElem? hy
  · cases h

theorem rngChoice_ok {α : Type _} {c : List α} (h : c ≠ []) (d : Nat) :
    ∃ x ∈ c, rngChoice c d = .ok x := by
  have hl : d % c.length < c.length := Nat.mod_lt _ (List.length_pos_iff.mpr h)
  refine ⟨c[d % c.length], List.getElem_mem hl, ?_⟩
  simp [rngChoice, List.getElem?_eq_getElem hl]

theorem rngChoice_surj {α : Type _} {c : List α} {x : α} (h : x ∈ c) :
    ∃ d, rngChoice c d = .ok x := by
  obtain ⟨i, hi, rfl⟩ := List.getElem_of_mem h
  exact ⟨i, by simp [rngChoice, Nat.mod_eq_of_lt hi, List.getElem?_eq_getElem hi]⟩

theorem rngChoice_nil {α : Type _} (d : Nat) : rngChoice ([] : List α) d = .error .valueError := by
  simp [rngChoice]

end MaMDP
