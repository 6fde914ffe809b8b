import Verif.Lemmas.WalledValues
import Verif.Props.ActionSelection

/-! Lemmas for C165: choices with states that can be neither entered nor left. -/

set_option linter.unusedSectionVars false

namespace MaMDP

variable {K : Type} [Field K] [LinearOrder K] [IsStrictOrderedRing K]

/-- Two worlds of which one is in the other, as on grids. -/
structure WorldIn (M M' : Trans K) (σ : Nat → Nat) : Prop where
  emb : Spec.Embedded M M' σ
  posS : 0 < M.nS
  posA : 0 < M.nA
  sub : Spec.SubStochastic M
  back : ∀ s a t, s < M.nS → a < M.nA → t < M.nS → 0 < M.p s a t → Spec.Live M t

/-- The same action values. -/
structure QIn (M M' : Trans K) (σ : Nat → Nat) (q q' : Arr2 (Ext K)) : Prop where
  d0 : q.d0 = M.nS
  d0' : q'.d0 = M'.nS
  d1 : q.d1 = M.nA
  d1' : q'.d1 = M.nA
  get : ∀ s a, s < M.nS → a < M.nA → q'.get (σ s) a = q.get s a
  out : ∀ s a, s < M'.nS → a < M.nA → ¬ Spec.Among M.nS σ s → q'.get s a = .ninf
  fin : ∀ s a, s < M.nS → a < M.nA → q.get s a = .ninf ∨ ∃ x, q.get s a = .fin x
  mask : ∀ s a, s < M.nS → a < M.nA → (q.get s a = .ninf ↔ ¬ Spec.Possible M s a)

/-- The same probabilities. -/
structure PIn (M M' : Trans K) (σ : Nat → Nat) (P P' : Arr2 (Ext K)) : Prop where
  d0 : P.d0 = M.nS
  d0' : P'.d0 = M'.nS
  d1 : P.d1 = M.nA
  d1' : P'.d1 = M.nA
  get : ∀ s a, s < M.nS → a < M.nA → P'.get (σ s) a = P.get s a

/-- The same choices. -/
structure PiIn (M M' : Trans K) (σ : Nat → Nat) (p p' : Arr1 Int) : Prop where
  d0 : p.d0 = M.nS
  d0' : p'.d0 = M'.nS
  get : ∀ s, s < M.nS → p'.get (σ s) = p.get s
  ok : ∀ s, s < M.nS → Spec.Live M s → ∃ a : Nat, a < M.nA ∧ p.get s = a ∧ Spec.Possible M s a

/-- A selector that looks at each state separately and takes possible actions. -/
def RowWise {δ : Type} (M M' : Trans K) (σ : Nat → Nat) (can : δ → Prop) (sel : Selector K δ) : Prop :=
  ∀ q q', QIn M M' σ q q' → ∀ d d', Spec.SameDraws M.nS M'.nS σ can d d' →
    ∃ P P' p p', sel.piP q = .ok P ∧ sel.piP q' = .ok P' ∧ sel.pi q d = .ok p ∧ sel.pi q' d' = .ok p' ∧
      PIn M M' σ P P' ∧ PiIn M M' σ p p'

theorem maxActions_congr {α : Type} [LinearOrder α] {n : Nat} {x y : Nat → α} (h : ∀ a, a < n → x a = y a) :
    maxActions n x = maxActions n y := by
  rcases Nat.eq_zero_or_pos n with rfl | hn
  · rfl
  unfold maxActions npWhere
  refine List.filter_congr fun a ha => ?_
  rw [h a (List.mem_range.1 ha), npMax_congr hn h]

theorem softmax_congr {n : Nat} {x y : Nat → WithBot (WithTop ℝ)} (h : ∀ a, a < n → x a = y a) (T : ℝ) {a : Nat}
    (ha : a < n) : softmax n x T a = softmax n y T a := by
  unfold softmax
  have hiff : (∀ a, a < n → x a = ⊥) ↔ ∀ a, a < n → y a = ⊥ := forall₂_congr fun b hb => by rw [h b hb]
  by_cases hb : ∀ a, a < n → x a = ⊥
  · rw [if_pos hb, if_pos (hiff.1 hb)]
  · rw [if_neg hb, if_neg (mt hiff.2 hb), npMax_congr (by omega) h]
    match npMax n y with
    | some (some m) =>
      have hs : npSum n (fun b => expShift m T (x b)) = npSum n fun b => expShift m T (y b) :=
        Finset.sum_congr rfl fun b hb => by
          show expShift m T (x b) = expShift m T (y b)
          rw [h b (Finset.mem_range.1 hb)]
      simp only [hs, h a ha]
    | some none => rfl
    | none => rfl

section

variable {M M' : Trans K} {σ : Nat → Nat} {q q' : Arr2 (Ext K)}

theorem QIn.row (h : QIn M M' σ q q') {s : Nat} (hs : s < M.nS) : ∀ a, a < M.nA → (q'.get (σ s) a).clean = (q.get s a).clean :=
  fun a ha => by rw [h.get s a hs ha]

theorem QIn.has (h : QIn M M' σ q q') (hA : 0 < M.nA) {s : Nat} (hs : s < M.nS) : Spec.HasEstimate q s := by
  unfold Spec.HasEstimate
  rw [h.d1]
  refine ⟨⟨0, hA, ?_⟩, fun hc => ?_⟩
  · rcases h.fin s 0 hs hA with e | ⟨x, e⟩ <;> rw [e] <;> simp
  · obtain ⟨⟨a, ha, e'⟩, -⟩ := hc
    rcases h.fin s a hs ha with e | ⟨x, e⟩ <;> rw [e] at e' <;> cases e'

theorem QIn.fin' (h : QIn M M' σ q q') {s a : Nat} (hs : s < M'.nS) (ha : a < M.nA) :
    q'.get s a = .ninf ∨ ∃ x, q'.get s a = .fin x := by
  by_cases hin : Spec.Among M.nS σ s
  · obtain ⟨t, ht, rfl⟩ := hin
    rw [h.get t a ht ha]
    exact h.fin t a ht ha
  · exact .inl (h.out s a hs ha hin)

theorem QIn.has' (h : QIn M M' σ q q') (hA : 0 < M.nA) {s : Nat} (hs : s < M'.nS) :
    Spec.HasEstimate q' s := by
  unfold Spec.HasEstimate
  rw [h.d1']
  refine ⟨⟨0, hA, ?_⟩, fun hc => ?_⟩
  · rcases h.fin' hs hA with e | ⟨x, e⟩ <;> rw [e] <;> simp
  · obtain ⟨⟨a, ha, e'⟩, -⟩ := hc
    rcases h.fin' hs ha with e | ⟨x, e⟩ <;> rw [e] at e' <;> cases e'

theorem hasEstimate_not {q : Arr2 (Ext K)} {s : Nat} (h : Spec.HasEstimate q s) : ¬ Spec.NoEstimate q s := by
  obtain ⟨⟨a, ha, e⟩, -⟩ := h
  exact fun hc => e (hc a ha)

theorem rowWise_max (hw : WorldIn M M' σ) : RowWise M M' σ (fun _ => True) (maxSelector (K := K)) := by
  intro q q' h d d' hd
  have hc : checkQValues q = .ok () := checkQValues_ok.2 ⟨0, by rw [h.d0]; exact hw.posS,
    hasEstimate_not (h.has hw.posA hw.posS)⟩
  have hS' : 0 < M'.nS := Nat.lt_of_le_of_lt (Nat.zero_le _) (hw.emb.state 0 hw.posS)
  have hc' : checkQValues q' = .ok () := checkQValues_ok.2 ⟨0, by rw [h.d0']; exact hS',
    hasEstimate_not (h.has' hw.posA hS')⟩
  have hpi : ∀ (q : Arr2 (Ext K)) (d : Nat → Nat), 0 < q.d1 → ∃ g : Nat → Nat,
      (maxSelector (K := K)).getPi q.d0 q.d1 (fun s a => (q.get s a).clean) d = .ok g ∧
      ∀ s, s < q.d0 → randomMax q.d1 (fun a => (q.get s a).clean) (d s) = .ok (g s) := by
    intro q d hq
    obtain ⟨g, hg⟩ := forStates_ok (f := fun s => randomMax q.d1 (fun a => (q.get s a).clean) (d s)) 0 q.d0
      fun s _ => (rngChoice_ok (maxActions_ne_nil (fun a => (q.get s a).clean) hq) (d s)).imp fun _ h => h.2
    exact ⟨g, hg, fun s hs => forStates_spec hg s hs⟩
  obtain ⟨g, hg, hgs⟩ := hpi q d (by rw [h.d1]; exact hw.posA)
  obtain ⟨g', hg', hgs'⟩ := hpi q' d' (by rw [h.d1']; exact hw.posA)
  refine ⟨_, _, _, _, by unfold Selector.piP; rw [hc]; rfl, by unfold Selector.piP; rw [hc']; rfl,
    by unfold Selector.pi; rw [hc, hg], by unfold Selector.pi; rw [hc', hg'], ?_, ?_⟩
  · refine ⟨h.d0, h.d0', h.d1, h.d1', fun s a hs ha => ?_⟩
    simp only [maxPiP_fold]
    rw [nanState_eq_false.2 (h.has hw.posA hs), nanState_eq_false.2 (h.has' hw.posA (hw.emb.state s hs)), h.d0, h.d0', h.d1,
      h.d1', maxActions_congr (h.row hs)]
    simp [hs, hw.emb.state s hs]
  · refine ⟨h.d0, h.d0', fun s hs => ?_, fun s hs hl => ?_⟩
    · simp only [nanState_eq_false.2 (h.has hw.posA hs), nanState_eq_false.2 (h.has' hw.posA (hw.emb.state s hs))]
      have e := hgs s (by rw [h.d0]; exact hs)
      have e' := hgs' (σ s) (by rw [h.d0']; exact hw.emb.state s hs)
      unfold randomMax at e e'
      rw [hd.get s hs, h.d1', maxActions_congr (h.row hs), ← h.d1, e] at e'
      rw [Except.ok.inj e']
    · have e := hgs s (by rw [h.d0]; exact hs)
      unfold randomMax at e
      have hm := mem_maxActions.1 (rngChoice_mem e)
      rw [h.d1] at hm
      refine ⟨g s, hm.1, by simp only [nanState_eq_false.2 (h.has hw.posA hs)]; rfl, ?_⟩
      obtain ⟨b, hb, hpb⟩ := hl
      by_contra hn
      have h1 := hm.2 b hb
      rw [(h.mask s (g s) hs hm.1).2 hn] at h1
      rcases h.fin s b hs hb with e | ⟨x, e⟩
      · exact (h.mask s b hs hb).1 e hpb
      · rw [e] at h1
        simp [Ext.clean] at h1

end

theorem rowWise_softmax {M M' : Trans ℝ} {σ : Nat → Nat} (hw : WorldIn M M' σ) {T : ℝ} (hT : 0 < T) :
    RowWise M M' σ (fun u => 0 ≤ u ∧ u < 1) (softmaxSelector T) := by
  intro q q' h d d' hd
  have hS' : 0 < M'.nS := Nat.lt_of_le_of_lt (Nat.zero_le _) (hw.emb.state 0 hw.posS)
  have hex : ∃ s, s < q.d0 ∧ ¬ Spec.NoEstimate q s := ⟨0, by rw [h.d0]; exact hw.posS, hasEstimate_not (h.has hw.posA hw.posS)⟩
  have hex' : ∃ s, s < q'.d0 ∧ ¬ Spec.NoEstimate q' s :=
    ⟨0, by rw [h.d0']; exact hS', hasEstimate_not (h.has' hw.posA hS')⟩
  have hpi : ∀ s a, s < q.d0 → a < q.d1 → q.get s a ≠ .pinf := by
    intro s a hs ha
    rw [h.d0] at hs
    rw [h.d1] at ha
    rcases h.fin s a hs ha with e | ⟨x, e⟩ <;> rw [e] <;> simp
  have hpi' : ∀ s a, s < q'.d0 → a < q'.d1 → q'.get s a ≠ .pinf := by
    intro s a hs ha
    rw [h.d0'] at hs
    rw [h.d1'] at ha
    rcases h.fin' hs ha with e | ⟨x, e⟩ <;> rw [e] <;> simp
  obtain ⟨P, p, e1, e2, hpd, h1⟩ := C26_softmax_pi T q hex hpi d fun s hs => hd.ok s (by rw [← h.d0]; exact hs)
  obtain ⟨P', p', e1', e2', hpd', h1'⟩ := C26_softmax_pi T q' hex' hpi' d' fun s hs => hd.ok' s (by rw [← h.d0']; exact hs)
  obtain ⟨sel, P2, hsel, e3, hP0, hP1, h2⟩ := C25_softmax_pi_p T hT q hex
  have hsel' : sel = softmaxSelector T := by
    unfold mkSoftmax at hsel
    rw [if_neg (not_le.2 hT)] at hsel
    cases hsel
    rfl
  rw [hsel', e1] at e3
  cases e3
  obtain ⟨sel', P2', hsel2, e3', hP0', hP1', -⟩ := C25_softmax_pi_p T hT q' hex'
  have hsel2' : sel' = softmaxSelector T := by
    unfold mkSoftmax at hsel2
    rw [if_neg (not_le.2 hT)] at hsel2
    cases hsel2
    rfl
  rw [hsel2', e1'] at e3'
  cases e3'
  have hP : PIn M M' σ P P' := by
    refine ⟨hP0.trans h.d0, hP0'.trans h.d0', hP1.trans h.d1, hP1'.trans h.d1', fun s a hs ha => ?_⟩
    have c1 := checkQValues_ok.2 hex
    have c2 := checkQValues_ok.2 hex'
    unfold Selector.piP at e1 e1'
    rw [c1] at e1
    rw [c2] at e1'
    simp only [softmaxSelector] at e1 e1'
    cases e1
    cases e1'
    simp only [nanState_eq_false.2 (h.has hw.posA hs), nanState_eq_false.2 (h.has' hw.posA (hw.emb.state s hs)), h.d1, h.d1']
    exact softmax_congr (h.row hs) T ha
  refine ⟨P, P', p, p', e1, e1', e2, e2', hP, ⟨hpd.trans h.d0, hpd'.trans h.d0', fun s hs => ?_, fun s hs hl => ?_⟩⟩
  · obtain ⟨f, f1, i, f2, f3, -, f4⟩ := (h1 s (by rw [h.d0]; exact hs)).2 (h.has hw.posA hs)
    have hs' := hw.emb.state s hs
    obtain ⟨f', f1', i', f2', f3', -, f4'⟩ := (h1' (σ s) (by rw [h.d0']; exact hs')).2 (h.has' hw.posA hs')
    have hff : ∀ a, a < M.nA → f' a = f a := by
      intro a ha
      have := hP.get s a hs ha
      rw [f1 a (by rw [h.d1]; exact ha), f1' a (by rw [h.d1']; exact ha)] at this
      exact Ext.fin.inj this
    rw [h.d1] at f3
    rw [h.d1'] at f3'
    have := (f4 i (by rw [h.d1]; exact f3)).1 rfl
    have hslot : Spec.InSlot f' i (d' (σ s)) := by
      unfold Spec.InSlot at this ⊢
      rw [hd.get s hs, hff i f3, Finset.sum_congr rfl fun j hj => hff j (by have := Finset.mem_range.1 hj; omega)]
      exact this
    rw [f2, f2', (f4' i (by rw [h.d1']; exact f3)).2 hslot]
  · obtain ⟨f, f1, i, f2, f3, f5, -⟩ := (h1 s (by rw [h.d0]; exact hs)).2 (h.has hw.posA hs)
    obtain ⟨g, g1, -, g2, -, -⟩ := (h2 s (by rw [h.d0]; exact hs)).2 (h.has hw.posA hs) fun a ha => hpi s a (by rw [h.d0]; exact hs) ha
    refine ⟨i, by rw [← h.d1]; exact f3, f2, ?_⟩
    obtain ⟨b, hb, hpb⟩ := hl
    by_contra hn
    have hi : q.get s i = .ninf := (h.mask s i hs (by rw [← h.d1]; exact f3)).2 hn
    have hfi : ∃ a x, a < q.d1 ∧ q.get s a = .fin x := by
      rcases h.fin s b hs hb with e | ⟨x, e⟩
      · exact absurd hpb ((h.mask s b hs hb).1 e)
      · exact ⟨b, x, by rw [h.d1]; exact hb, e⟩
    have := (g2 hfi i f3).1 (.inl hi)
    have hfg := f1 i f3
    rw [(g1 i f3).1] at hfg
    have := Ext.fin.inj hfg
    linarith

end MaMDP
