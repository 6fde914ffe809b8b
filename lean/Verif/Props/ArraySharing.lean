import Verif.Spec.ArraySharing
import Verif.Props.MdpSetters

/-! # C100: MDP objects and the arrays they are given -/

set_option linter.unusedSectionVars false

namespace MaMDP

variable {K : Type} [Field K] [LinearOrder K] [IsStrictOrderedRing K]

namespace Store

theorem object_some {σ : Store K} {i : Nat} {o : MdpObj K} (h : σ.objs[i]? = some o) (op : ObjOp K) :
    ∃ f w, (σ.object i op).objs = σ.objs.set i ⟨(σ.value o).apply (σ.valueOp op), f, w⟩ ∧
      (f = o.feat ∨ f = σ.featPlace o op) ∧ (w = o.wall ∨ w = σ.wallPlace o op) ∧
      (succeeds (σ.value o) (σ.valueOp op) = true → f = σ.featPlace o op ∧ w = σ.wallPlace o op) ∧
      (σ.object i op).next = σ.next + 1 ∧
      (σ.object i op).feat = (fun r => if r = f then ((σ.value o).apply (σ.valueOp op)).features.get else σ.feat r) ∧
      (σ.object i op).wall = (fun r => if r = w then ((σ.value o).apply (σ.valueOp op)).walls.get else σ.wall r) := by
  cases hs : succeeds (σ.value o) (σ.valueOp op) with
  | true =>
    refine ⟨σ.featPlace o op, σ.wallPlace o op, ?_, .inr rfl, .inr rfl, fun _ => ⟨rfl, rfl⟩, ?_, ?_, ?_⟩ <;>
      simp [object, h, hs]
  | false =>
    refine ⟨o.feat, o.wall, ?_, .inl rfl, .inl rfl, fun h => by simp at h, ?_, ?_, ?_⟩ <;>
      simp [object, h, hs]

theorem featPlace_call (σ : Store K) (o : MdpObj K) (op : MdpOp K) :
    σ.featPlace o (.call op) = o.feat ∨ σ.featPlace o (.call op) = σ.next := by
  cases op <;> simp [featPlace]

theorem wallPlace_call (σ : Store K) (o : MdpObj K) (op : MdpOp K) :
    σ.wallPlace o (.call op) = o.wall ∨ σ.wallPlace o (.call op) = σ.next := by
  cases op <;> simp [wallPlace]

theorem object_none {σ : Store K} {i : Nat} (h : σ.objs[i]? = none) (op : ObjOp K) : σ.object i op = σ := by
  simp only [object, h]

theorem object_call {σ : Store K} (hs : Spec.Separate σ) (i : Nat) (op : MdpOp K) :
    Spec.Separate (σ.object i (.call op)) ∧
    (∀ r, Spec.OwnFeatures σ r → Spec.OwnFeatures (σ.object i (.call op)) r ∧
      (σ.object i (.call op)).feat r = σ.feat r) ∧
    (∀ r, Spec.OwnWalls σ r → Spec.OwnWalls (σ.object i (.call op)) r ∧
      (σ.object i (.call op)).wall r = σ.wall r) ∧
    ∀ (j : Nat) (oj : MdpObj K), σ.objs[j]? = some oj → ∃ o', (σ.object i (.call op)).objs[j]? = some o' ∧
      (σ.object i (.call op)).value o' = if i = j then (σ.value oj).apply op else σ.value oj := by
  cases hi : σ.objs[i]? with
  | none =>
    rw [object_none hi]
    refine ⟨hs, fun r h => ⟨h, rfl⟩, fun r h => ⟨h, rfl⟩, fun j oj hj => ⟨oj, hj, ?_⟩⟩
    rw [if_neg]
    rintro rfl
    rw [hi] at hj; cases hj
  | some o =>
    obtain ⟨f, w, h1, h2, h3, -, h4, h5, h6⟩ := object_some hi (.call op)
    have hlt : i < σ.objs.length := (List.getElem?_eq_some_iff.1 hi).1
    have ho : o ∈ σ.objs := List.mem_of_getElem? hi
    have hf : f = o.feat ∨ f = σ.next := by
      rcases h2 with h | h
      · exact .inl h
      · rw [h]; exact featPlace_call σ o op
    have hw : w = o.wall ∨ w = σ.next := by
      rcases h3 with h | h
      · exact .inl h
      · rw [h]; exact wallPlace_call σ o op
    have hbound : ∀ (j : Nat) (oj : MdpObj K), σ.objs[j]? = some oj → i ≠ j → oj.feat ≠ f ∧ oj.wall ≠ w := by
      intro j oj hj hij
      have h7 := hs.apart i j o oj hi hj hij
      have h8 := hs.exist oj (List.mem_of_getElem? hj)
      constructor
      · rcases hf with rfl | rfl
        · exact fun h => h7.1 h.symm
        · omega
      · rcases hw with rfl | rfl
        · exact fun h => h7.2 h.symm
        · omega
    have hget : ∀ (j : Nat) (oj : MdpObj K), (σ.object i (.call op)).objs[j]? = some oj →
        (i = j ∧ oj.feat = f ∧ oj.wall = w) ∨ (i ≠ j ∧ σ.objs[j]? = some oj) := by
      intro j oj hj
      rw [h1] at hj
      by_cases hij : i = j
      · subst hij
        rw [List.getElem?_set_self hlt] at hj
        cases hj
        exact .inl ⟨rfl, rfl, rfl⟩
      · rw [List.getElem?_set_ne hij] at hj
        exact .inr ⟨hij, hj⟩
    have hex : f < σ.next + 1 ∧ w < σ.next + 1 := by
      have := hs.exist o ho
      constructor
      · rcases hf with rfl | rfl <;> omega
      · rcases hw with rfl | rfl <;> omega
    refine ⟨⟨?_, ?_⟩, ?_, ?_, ?_⟩
    · intro oj hoj
      obtain ⟨j, hj⟩ := List.mem_iff_getElem?.1 hoj
      rw [h4]
      rcases hget j oj hj with ⟨-, e1, e2⟩ | ⟨-, hj⟩
      · rw [e1, e2]; exact hex
      · have := hs.exist oj (List.mem_of_getElem? hj)
        omega
    · intro a b oa ob ha hb hab
      rcases hget a oa ha with ⟨rfl, e1, e2⟩ | ⟨na, ha'⟩
      · rcases hget b ob hb with ⟨rfl, -, -⟩ | ⟨nb, hb'⟩
        · exact absurd rfl hab
        · rw [e1, e2]
          have := hbound b ob hb' nb
          exact ⟨fun h => this.1 h.symm, fun h => this.2 h.symm⟩
      · rcases hget b ob hb with ⟨rfl, e1, e2⟩ | ⟨nb, hb'⟩
        · rw [e1, e2]
          exact hbound a oa ha' na
        · exact hs.apart a b oa ob ha' hb' hab
    · rintro r ⟨r1, r2⟩
      have hr : r ≠ f := by
        rcases hf with rfl | rfl
        · exact fun h => r2 o ho h.symm
        · omega
      refine ⟨⟨by rw [h4]; omega, ?_⟩, by rw [h5]; simp only; rw [if_neg hr]⟩
      intro oj hoj
      obtain ⟨j, hj⟩ := List.mem_iff_getElem?.1 hoj
      rcases hget j oj hj with ⟨-, e1, -⟩ | ⟨-, hj⟩
      · rw [e1]; exact fun h => hr h.symm
      · exact r2 oj (List.mem_of_getElem? hj)
    · rintro r ⟨r1, r2⟩
      have hr : r ≠ w := by
        rcases hw with rfl | rfl
        · exact fun h => r2 o ho h.symm
        · omega
      refine ⟨⟨by rw [h4]; omega, ?_⟩, by rw [h6]; simp only; rw [if_neg hr]⟩
      intro oj hoj
      obtain ⟨j, hj⟩ := List.mem_iff_getElem?.1 hoj
      rcases hget j oj hj with ⟨-, -, e2⟩ | ⟨-, hj⟩
      · rw [e2]; exact fun h => hr h.symm
      · exact r2 oj (List.mem_of_getElem? hj)
    · intro j oj hj
      by_cases hij : i = j
      · subst hij
        rw [hi] at hj; cases hj
        refine ⟨⟨(σ.value o).apply op, f, w⟩, ?_, ?_⟩
        · rw [h1, List.getElem?_set_self hlt]; rfl
        · unfold value
          rw [h5, h6]
          simp only [if_true]
          rfl
      · refine ⟨oj, by rw [h1, List.getElem?_set_ne hij]; exact hj, ?_⟩
        have := hbound j oj hj hij
        rw [if_neg hij]
        unfold value
        rw [h5, h6]
        simp only [if_neg this.1, if_neg this.2]

theorem build_careful {σ : Store K} (hs : Spec.Separate σ) (kind : GridKind) (W H : Nat) (selfT : Bool)
    (f : FeatRef) (w : Option WallRef) (hf : Spec.OwnFeatures σ f.ref)
    (hw : ∀ v, w = some v → Spec.OwnWalls σ v.ref) :
    Spec.Separate (σ.build kind W H selfT f w).1 ∧
    (∀ r, Spec.OwnFeatures σ r → f.ref ≠ r → Spec.OwnFeatures (σ.build kind W H selfT f w).1 r ∧
      (σ.build kind W H selfT f w).1.feat r = σ.feat r) ∧
    (∀ r, Spec.OwnWalls σ r → (¬ ∃ v, w = some v ∧ v.ref = r) →
      Spec.OwnWalls (σ.build kind W H selfT f w).1 r ∧ (σ.build kind W H selfT f w).1.wall r = σ.wall r) ∧
    ∀ (j : Nat) (oj : MdpObj K), σ.objs[j]? = some oj → ∃ o',
      (σ.build kind W H selfT f w).1.objs[j]? = some o' ∧
      (σ.build kind W H selfT f w).1.value o' = σ.value oj := by
  cases hm : Mdp.initGrid kind W H selfT (σ.featArr f) (w.map σ.wallArr) with
  | error e =>
    have e : (σ.build kind W H selfT f w).1 = σ := by simp only [build, hm]
    rw [e]
    exact ⟨hs, fun r h _ => ⟨h, rfl⟩, fun r h _ => ⟨h, rfl⟩, fun j oj hj => ⟨oj, hj, rfl⟩⟩
  | ok m =>
    obtain ⟨wr, e, hwr⟩ : ∃ wr, (σ.build kind W H selfT f w).1 =
        { feat := σ.feat
          wall := fun r => if r = wr then m.walls.get else σ.wall r
          next := σ.next + 1
          objs := σ.objs ++ [⟨m, f.ref, wr⟩] } ∧
        ((w = none ∧ wr = σ.next) ∨ ∃ v, w = some v ∧ wr = v.ref) := by
      cases w with
      | none => exact ⟨σ.next, by simp only [build, hm], .inl ⟨rfl, rfl⟩⟩
      | some v => exact ⟨v.ref, by simp only [build, hm], .inr ⟨v, rfl, rfl⟩⟩
    rw [e]
    have hwr1 : wr < σ.next + 1 ∧ ∀ o ∈ σ.objs, o.wall ≠ wr := by
      rcases hwr with ⟨-, rfl⟩ | ⟨v, hv, rfl⟩
      · exact ⟨Nat.lt_succ_self _, fun o ho => Nat.ne_of_lt (hs.exist o ho).2⟩
      · have := hw v hv
        exact ⟨Nat.lt_succ_of_lt this.1, this.2⟩
    have hget : ∀ (j : Nat) (oj : MdpObj K), (σ.objs ++ [⟨m, f.ref, wr⟩])[j]? = some oj →
        σ.objs[j]? = some oj ∨ (j = σ.objs.length ∧ oj = ⟨m, f.ref, wr⟩) := by
      intro j oj hj
      rcases Nat.lt_trichotomy j σ.objs.length with h | h | h
      · rw [List.getElem?_append_left h] at hj; exact .inl hj
      · subst h
        rw [List.getElem?_concat_length] at hj
        exact .inr ⟨rfl, (Option.some.inj hj).symm⟩
      · rw [List.getElem?_eq_none (by simp; omega)] at hj; cases hj
    refine ⟨⟨?_, ?_⟩, ?_, ?_, ?_⟩
    · intro o ho
      rcases List.mem_append.1 ho with ho | ho
      · have := hs.exist o ho
        simp only; omega
      · rw [List.mem_singleton] at ho
        subst ho
        exact ⟨Nat.lt_succ_of_lt hf.1, hwr1.1⟩
    · intro a b oa ob ha hb hab
      rcases hget a oa ha with ha | ⟨ha, ea⟩ <;> rcases hget b ob hb with hb | ⟨hb, eb⟩
      · exact hs.apart a b oa ob ha hb hab
      · subst eb
        exact ⟨hf.2 oa (List.mem_of_getElem? ha), hwr1.2 oa (List.mem_of_getElem? ha)⟩
      · subst ea
        exact ⟨fun h => hf.2 ob (List.mem_of_getElem? hb) h.symm,
          fun h => hwr1.2 ob (List.mem_of_getElem? hb) h.symm⟩
      · exact absurd (ha.trans hb.symm) hab
    · rintro r ⟨r1, r2⟩ hr
      refine ⟨⟨Nat.lt_succ_of_lt r1, ?_⟩, rfl⟩
      intro o ho
      rcases List.mem_append.1 ho with ho | ho
      · exact r2 o ho
      · rw [List.mem_singleton] at ho
        subst ho
        exact hr
    · rintro r ⟨r1, r2⟩ hr
      have hne : r ≠ wr := by
        rcases hwr with ⟨-, rfl⟩ | ⟨v, hv, rfl⟩
        · exact Nat.ne_of_lt r1
        · exact fun h => hr ⟨v, hv, h.symm⟩
      refine ⟨⟨Nat.lt_succ_of_lt r1, ?_⟩, by simp only; rw [if_neg hne]⟩
      intro o ho
      rcases List.mem_append.1 ho with ho | ho
      · exact r2 o ho
      · rw [List.mem_singleton] at ho
        subst ho
        exact fun h => hne h.symm
    · intro j oj hj
      refine ⟨oj, ?_, ?_⟩
      · rw [List.getElem?_append_left (List.getElem?_eq_some_iff.1 hj).1]; exact hj
      · simp only [value]
        rw [if_neg (hwr1.2 oj (List.mem_of_getElem? hj))]

theorem careful_step {σ : Store K} (hs : Spec.Separate σ) {op : StoreOp K} (hc : Spec.Careful σ op) :
    Spec.Separate (σ.apply op) ∧
    (∀ r, Spec.OwnFeatures σ r → ¬ Spec.UsesFeatures r op → Spec.OwnFeatures (σ.apply op) r ∧
      (σ.apply op).feat r = σ.feat r) ∧
    (∀ r, Spec.OwnWalls σ r → ¬ Spec.UsesWalls r op → Spec.OwnWalls (σ.apply op) r ∧
      (σ.apply op).wall r = σ.wall r) ∧
    ∀ (j : Nat) (oj : MdpObj K), σ.objs[j]? = some oj → ∃ o', (σ.apply op).objs[j]? = some o' ∧
      (σ.apply op).value o' = (σ.value oj).run (Spec.callsOn j [op]) := by
  cases op with
  | newFeatures g =>
    refine ⟨⟨fun o ho => ?_, hs.apart⟩, ?_, ?_, ?_⟩
    · have := hs.exist o ho
      simp only [apply]; omega
    · rintro r ⟨r1, r2⟩ -
      exact ⟨⟨by simp only [apply]; omega, r2⟩, by simp only [apply]; rw [if_neg (by omega)]⟩
    · rintro r ⟨r1, r2⟩ -
      exact ⟨⟨by simp only [apply]; omega, r2⟩, rfl⟩
    · intro j oj hj
      refine ⟨oj, hj, ?_⟩
      have := hs.exist oj (List.mem_of_getElem? hj)
      simp only [apply, Spec.callsOn, Mdp.run, List.foldl_nil, value]
      rw [if_neg (by omega)]
  | newWalls g =>
    refine ⟨⟨fun o ho => ?_, hs.apart⟩, ?_, ?_, ?_⟩
    · have := hs.exist o ho
      simp only [apply]; omega
    · rintro r ⟨r1, r2⟩ -
      exact ⟨⟨by simp only [apply]; omega, r2⟩, rfl⟩
    · rintro r ⟨r1, r2⟩ -
      exact ⟨⟨by simp only [apply]; omega, r2⟩, by simp only [apply]; rw [if_neg (by omega)]⟩
    · intro j oj hj
      refine ⟨oj, hj, ?_⟩
      have := hs.exist oj (List.mem_of_getElem? hj)
      simp only [apply, Spec.callsOn, Mdp.run, List.foldl_nil, value]
      rw [if_neg (by omega)]
  | writeFeature ref f s x =>
    refine ⟨⟨hs.exist, hs.apart⟩, ?_, fun r hr _ => ⟨hr, rfl⟩, ?_⟩
    · intro r hr hne
      refine ⟨hr, ?_⟩
      simp only [apply]
      rw [if_neg]
      rintro rfl
      exact hne rfl
    · intro j oj hj
      refine ⟨oj, hj, ?_⟩
      have := hc.2 oj (List.mem_of_getElem? hj)
      simp only [apply, Spec.callsOn, Mdp.run, List.foldl_nil, value]
      rw [if_neg this]
  | writeWall ref s x =>
    refine ⟨⟨hs.exist, hs.apart⟩, fun r hr _ => ⟨hr, rfl⟩, ?_, ?_⟩
    · intro r hr hne
      refine ⟨hr, ?_⟩
      simp only [apply]
      rw [if_neg]
      rintro rfl
      exact hne rfl
    · intro j oj hj
      refine ⟨oj, hj, ?_⟩
      have := hc.2 oj (List.mem_of_getElem? hj)
      simp only [apply, Spec.callsOn, Mdp.run, List.foldl_nil, value]
      rw [if_neg this]
  | build kind W H selfT f w =>
    obtain ⟨h1, h2, h3, h4⟩ := build_careful hs kind W H selfT f w hc.1 hc.2
    exact ⟨h1, fun r hr hn => h2 r hr hn, fun r hr hn => h3 r hr hn, h4⟩
  | object i op =>
    cases op with
    | assignFeatures => exact hc.elim
    | assignWalls => exact hc.elim
    | call op =>
      obtain ⟨h1, h2, h3, h4⟩ := object_call hs i op
      refine ⟨h1, fun r hr _ => h2 r hr, fun r hr _ => h3 r hr, ?_⟩
      intro j oj hj
      obtain ⟨o', e1, e2⟩ := h4 j oj hj
      refine ⟨o', e1, ?_⟩
      change (σ.object i (.call op)).value o' = _
      rw [e2]
      simp only [Spec.callsOn]
      split_ifs <;> rfl

theorem callsOn_cons (j : Nat) (op : StoreOp K) (ops : List (StoreOp K)) :
    Spec.callsOn j (op :: ops) = Spec.callsOn j [op] ++ Spec.callsOn j ops := by
  cases op with
  | object i o =>
    cases o with
    | call o => simp only [Spec.callsOn]; split_ifs <;> rfl
    | _ => rfl
  | _ => rfl

theorem careful_run : ∀ (ops : List (StoreOp K)) (σ : Store K), Spec.Separate σ →
    Spec.CarefulProgram σ ops →
    Spec.Separate (σ.run ops) ∧
    (∀ r, Spec.OwnFeatures σ r → (∀ op ∈ ops, ¬ Spec.UsesFeatures r op) → (σ.run ops).feat r = σ.feat r) ∧
    (∀ r, Spec.OwnWalls σ r → (∀ op ∈ ops, ¬ Spec.UsesWalls r op) → (σ.run ops).wall r = σ.wall r) ∧
    ∀ (j : Nat) (oj : MdpObj K), σ.objs[j]? = some oj → ∃ o', (σ.run ops).objs[j]? = some o' ∧
      (σ.run ops).value o' = (σ.value oj).run (Spec.callsOn j ops) := by
  intro ops
  induction ops with
  | nil => intro σ hs _; exact ⟨hs, fun _ _ _ => rfl, fun _ _ _ => rfl, fun j oj hj => ⟨oj, hj, rfl⟩⟩
  | cons op ops ih =>
    intro σ hs hc
    obtain ⟨h1, h2, h3, h4⟩ := careful_step hs hc.1
    obtain ⟨i1, i2, i3, i4⟩ := ih (σ.apply op) h1 hc.2
    refine ⟨i1, ?_, ?_, ?_⟩
    · intro r hr hw
      obtain ⟨e1, e2⟩ := h2 r hr (hw op List.mem_cons_self)
      exact (i2 r e1 fun q hq => hw q (List.mem_cons_of_mem _ hq)).trans e2
    · intro r hr hw
      obtain ⟨e1, e2⟩ := h3 r hr (hw op List.mem_cons_self)
      exact (i3 r e1 fun q hq => hw q (List.mem_cons_of_mem _ hq)).trans e2
    · intro j oj hj
      obtain ⟨o1, e1, e2⟩ := h4 j oj hj
      obtain ⟨o2, e3, e4⟩ := i4 j o1 e1
      refine ⟨o2, e3, ?_⟩
      rw [callsOn_cons]
      change ((σ.apply op).run ops).value o2 = _
      rw [e4, e2]
      simp only [Mdp.run, List.foldl_append]

end Store

/-- Every call on an MDP object has, for its user, the effect described by the value-level model on the
arrays as they are at that moment. -/
theorem C100_refines (σ : Store K) (i : Nat) (o : MdpObj K) (h : σ.objs[i]? = some o) (op : ObjOp K) :
    ∃ o', (σ.object i op).objs[i]? = some o' ∧
      (σ.object i op).value o' = (σ.value o).apply (σ.valueOp op) := by
  obtain ⟨f, w, h1, -, -, -, -, h2, h3⟩ := Store.object_some h op
  refine ⟨⟨(σ.value o).apply (σ.valueOp op), f, w⟩, ?_, ?_⟩
  · rw [h1, List.getElem?_set_self (List.getElem?_eq_some_iff.1 h).1]
  · unfold Store.value
    rw [h2, h3]
    simp only [if_true]
    rfl

theorem Spec.CarefulProgram.append {σ : Store K} : ∀ {before : List (StoreOp K)} {ops : List (StoreOp K)},
    Spec.CarefulProgram σ (before ++ ops) →
    Spec.CarefulProgram σ before ∧ Spec.CarefulProgram (σ.run before) ops
  | [], _, h => ⟨trivial, h⟩
  | _ :: _, _, h => ⟨⟨h.1, (Spec.CarefulProgram.append h.2).1⟩, (Spec.CarefulProgram.append h.2).2⟩

/-- What does hold: in a program of any length that never builds two MDPs from the same array, never assigns
an array it keeps and never writes into an array it gave away, every MDP that exists at some point goes from
there through exactly the calls made on it, and the program's own arrays are left alone. Missing: programs
that do these things, see the refutations. -/
theorem C100_partial (before ops : List (StoreOp K))
    (hc : Spec.CarefulProgram Spec.noArrays (before ++ ops)) :
    (∀ (j : Nat) (o : MdpObj K), (Spec.noArrays.run before).objs[j]? = some o →
      ∃ o', (Spec.noArrays.run (before ++ ops)).objs[j]? = some o' ∧
        (Spec.noArrays.run (before ++ ops)).value o' =
          ((Spec.noArrays.run before).value o).run (Spec.callsOn j ops)) ∧
    (∀ r, Spec.OwnFeatures (Spec.noArrays.run before) r → (∀ op ∈ ops, ¬ Spec.UsesFeatures r op) →
      (Spec.noArrays.run (before ++ ops)).feat r = (Spec.noArrays.run before).feat r) ∧
    (∀ r, Spec.OwnWalls (Spec.noArrays.run before) r → (∀ op ∈ ops, ¬ Spec.UsesWalls r op) →
      (Spec.noArrays.run (before ++ ops)).wall r = (Spec.noArrays.run before).wall r) := by
  obtain ⟨hc1, hc2⟩ := hc.append
  have h0 : Spec.Separate (Spec.noArrays : Store K) :=
    ⟨fun o ho => by simp [Spec.noArrays] at ho, fun i j oi oj hi => by simp [Spec.noArrays] at hi⟩
  obtain ⟨hs, -, -, -⟩ := Store.careful_run before _ h0 hc1
  obtain ⟨-, h2, h3, h4⟩ := Store.careful_run ops _ hs hc2
  have e : (Spec.noArrays : Store K).run (before ++ ops) = (Spec.noArrays.run before).run ops := by
    simp only [Store.run, List.foldl_append]
  rw [e]
  exact ⟨h4, h2, h3⟩

namespace Store

theorem detached_run (i n : Nat) : ∀ (ops : List (StoreOp K)) (σ : Store K) (o : MdpObj K),
    σ.objs[i]? = some o → n ≤ o.feat → o.feat < σ.next → (∀ op ∈ ops, Spec.OnlyWith i n op) →
    (∃ o', (σ.run ops).objs[i]? = some o' ∧
      (σ.run ops).value o' = (σ.value o).run (Spec.callsOn i ops)) ∧
    ∀ r, r < n → (∀ f s x, .writeFeature r f s x ∉ ops) → (σ.run ops).feat r = σ.feat r := by
  intro ops
  induction ops with
  | nil => intro σ o h _ _ _; exact ⟨⟨o, h, rfl⟩, fun _ _ _ => rfl⟩
  | cons op ops ih =>
    intro σ o h hn hx hops
    have h0 := hops op List.mem_cons_self
    have hrest : ∀ op ∈ ops, Spec.OnlyWith i n op := fun q hq => hops q (List.mem_cons_of_mem _ hq)
    cases op with
    | newFeatures => exact h0.elim
    | newWalls => exact h0.elim
    | writeWall => exact h0.elim
    | build => exact h0.elim
    | writeFeature r f s x =>
      obtain ⟨⟨o', e1, e2⟩, e3⟩ := ih (σ.apply (.writeFeature r f s x)) o h hn hx hrest
      have h0 : r < n := h0
      refine ⟨⟨o', e1, ?_⟩, ?_⟩
      · change ((σ.apply (.writeFeature r f s x)).run ops).value o' = _
        rw [e2]
        simp only [Spec.callsOn]
        congr 1
        simp only [apply, value]
        rw [if_neg (show o.feat ≠ r by omega)]
      · intro q hq hw
        have := e3 q hq fun f s x hm => hw f s x (List.mem_cons_of_mem _ hm)
        refine this.trans ?_
        simp only [apply]
        rw [if_neg]
        rintro rfl
        exact hw f s x List.mem_cons_self
    | object j op =>
      cases op with
      | assignFeatures => exact h0.elim
      | assignWalls => exact h0.elim
      | call op =>
        have h0 : j = i := h0
        subst h0
        obtain ⟨f, w, h1, h2, h3, -, h4, h5, h6⟩ := object_some h (.call op)
        have hf : f = o.feat ∨ f = σ.next := by
          rcases h2 with h | h
          · exact .inl h
          · rw [h]; exact featPlace_call σ o op
        have hlt : j < σ.objs.length := (List.getElem?_eq_some_iff.1 h).1
        have hfn : n ≤ f ∧ f < σ.next + 1 := by rcases hf with rfl | rfl <;> omega
        obtain ⟨⟨o', e1, e2⟩, e3⟩ := ih (σ.object j (.call op)) ⟨(σ.value o).apply op, f, w⟩
          (by rw [h1, List.getElem?_set_self hlt]; rfl) hfn.1 (by rw [h4]; exact hfn.2) hrest
        refine ⟨⟨o', e1, ?_⟩, ?_⟩
        · change ((σ.object j (.call op)).run ops).value o' = _
          rw [e2]
          simp only [Spec.callsOn, if_true, Mdp.run, List.foldl_cons]
          congr 1
          unfold value
          rw [h5, h6]
          simp only [if_true]
          rfl
        · intro q hq hw
          have := e3 q hq fun f s x hm => hw f s x (List.mem_cons_of_mem _ hm)
          refine this.trans ?_
          rw [h5]
          simp only
          rw [if_neg (show q ≠ f by omega)]

end Store

/-- What does hold for an array the caller keeps: once an agent was added (as `Environment` does) or the MDP
was reset, the features are the MDP's own. Whatever is called on it afterwards and whatever is written into
arrays made before, the MDP goes through exactly the calls made on it, and the arrays made before hold what
was written into them. Missing: the time before that, and the walls, see the refutations. -/
theorem C100_detached_partial (σ : Store K) (i : Nat) (o : MdpObj K) (ho : σ.objs[i]? = some o)
    (op : MdpOp K) (hop : op = .reset ∨ ∃ p, op = .addAgentFeature p)
    (hok : Store.succeeds (σ.value o) op = true)
    (ops : List (StoreOp K)) (hops : ∀ q ∈ ops, Spec.OnlyWith i σ.next q) :
    (∃ o', ((σ.object i (.call op)).run ops).objs[i]? = some o' ∧
      ((σ.object i (.call op)).run ops).value o' = (σ.value o).run (op :: Spec.callsOn i ops)) ∧
    ∀ r, r < σ.next → (∀ f s x, .writeFeature r f s x ∉ ops) →
      ((σ.object i (.call op)).run ops).feat r = σ.feat r := by
  obtain ⟨f, w, h1, -, -, h2, h4, h5, h6⟩ := Store.object_some ho (.call op)
  have hf : f = σ.next := by
    rw [(h2 hok).1]
    rcases hop with rfl | ⟨p, rfl⟩ <;> rfl
  subst hf
  have hlt : i < σ.objs.length := (List.getElem?_eq_some_iff.1 ho).1
  obtain ⟨⟨o', e1, e2⟩, e3⟩ := Store.detached_run i σ.next ops (σ.object i (.call op))
    ⟨(σ.value o).apply op, σ.next, w⟩ (by rw [h1, List.getElem?_set_self hlt]; rfl) le_rfl
    (by rw [h4]; exact Nat.lt_succ_self _) hops
  refine ⟨⟨o', e1, ?_⟩, ?_⟩
  · rw [e2]
    simp only [Mdp.run, List.foldl_cons]
    congr 1
    unfold Store.value
    rw [h5, h6]
    simp only [if_true]
    rfl
  · intro r hr hw
    rw [e3 r hr hw, h5]
    simp only
    rw [if_neg (Nat.ne_of_lt hr)]

theorem Store.value_eq {σ : Store K} {o : MdpObj K} (h1 : σ.feat o.feat = o.core.features.get)
    (h2 : σ.wall o.wall = o.core.walls.get) : σ.value o = o.core := by
  unfold Store.value
  rw [h1, h2]

/-- Assigning shares as well: an array assigned to an MDP's features is the MDP's array from then on. What the caller
writes into it is what the MDP sees, and what is consumed in the MDP is gone from it. -/
theorem C100_assigned_features (σ : Store K) (i : Nat) (o : MdpObj K) (ho : σ.objs[i]? = some o) (a : FeatRef)
    (hok : Store.succeeds (σ.value o) (.setFeatures ⟨a.d0, a.d1, σ.feat a.ref⟩) = true) :
    (∀ f s x, ∃ o', (σ.run [.object i (.assignFeatures a), .writeFeature a.ref f s x]).objs[i]? = some o' ∧
      ((σ.run [.object i (.assignFeatures a), .writeFeature a.ref f s x]).value o').features.get f s = x) ∧
    ∀ fs s, ∃ o', (σ.run [.object i (.assignFeatures a), .object i (.call (.consumeFeatures fs s))]).objs[i]? = some o' ∧
      ((σ.run [.object i (.assignFeatures a), .object i (.call (.consumeFeatures fs s))]).value o').features.get =
        (σ.run [.object i (.assignFeatures a), .object i (.call (.consumeFeatures fs s))]).feat a.ref := by
  obtain ⟨f, w, h1, -, -, h2, h4, h5, h6⟩ := Store.object_some ho (.assignFeatures a)
  have hf : f = a.ref := (h2 hok).1
  subst hf
  have hlt : i < σ.objs.length := (List.getElem?_eq_some_iff.1 ho).1
  have hi : (σ.object i (.assignFeatures a)).objs[i]? =
      some ⟨(σ.value o).apply (σ.valueOp (.assignFeatures a)), a.ref, w⟩ := by
    rw [h1, List.getElem?_set_self hlt]
  constructor
  · intro f s x
    refine ⟨_, hi, ?_⟩
    simp [Store.run, Store.apply, Store.value, upd2]
  · intro fs s
    obtain ⟨f', w', g1, g2, -, -, -, g5, -⟩ := Store.object_some hi (.call (.consumeFeatures fs s))
    have hf' : f' = a.ref := by
      rcases g2 with h | h
      · exact h
      · rw [h]; rfl
    subst hf'
    refine ⟨_, by
      change ((σ.object i (.assignFeatures a)).object i _).objs[i]? = _
      rw [g1, List.getElem?_set_self (List.getElem?_eq_some_iff.1 hi).1], ?_⟩
    rfl

/-- The same for walls: what the caller writes into an assigned array, the MDP reports as walls, although its transitions
are the earlier ones. -/
theorem C100_assigned_walls (σ : Store K) (i : Nat) (o : MdpObj K) (ho : σ.objs[i]? = some o) (a : WallRef)
    (hok : Store.succeeds (σ.value o) (.setWalls ⟨a.d0, σ.wall a.ref⟩) = true) (s : Nat) (x : K) :
    ∃ o1 o2, (σ.run [.object i (.assignWalls a)]).objs[i]? = some o1 ∧
      (σ.run [.object i (.assignWalls a), .writeWall a.ref s x]).objs[i]? = some o2 ∧
      ((σ.run [.object i (.assignWalls a), .writeWall a.ref s x]).value o2).walls.get s = x ∧
      ((σ.run [.object i (.assignWalls a), .writeWall a.ref s x]).value o2).sas =
        ((σ.run [.object i (.assignWalls a)]).value o1).sas := by
  obtain ⟨f, w, h1, -, -, h2, h4, h5, h6⟩ := Store.object_some ho (.assignWalls a)
  have hw : w = a.ref := (h2 hok).2
  subst hw
  have hlt : i < σ.objs.length := (List.getElem?_eq_some_iff.1 ho).1
  have hi : (σ.object i (.assignWalls a)).objs[i]? =
      some ⟨(σ.value o).apply (σ.valueOp (.assignWalls a)), f, a.ref⟩ := by
    rw [h1, List.getElem?_set_self hlt]
  refine ⟨_, _, hi, hi, ?_, rfl⟩
  simp [Store.run, Store.apply, Store.value, upd1]

/-- After `add_wall_xy` the walls are the MDP's own: writing into any array there was before leaves them alone, and the
earlier wall arrays hold what they held. -/
theorem C100_walls_detached (σ : Store K) (i : Nat) (o : MdpObj K) (ho : σ.objs[i]? = some o) (xs ys : List Int)
    (hok : Store.succeeds (σ.value o) (.addWallXY xs ys) = true) :
    (∀ r, r < σ.next → (σ.object i (.call (.addWallXY xs ys))).wall r = σ.wall r) ∧
    ∀ r s x, r < σ.next → ∃ o', (σ.run [.object i (.call (.addWallXY xs ys)), .writeWall r s x]).objs[i]? = some o' ∧
      (σ.run [.object i (.call (.addWallXY xs ys)), .writeWall r s x]).value o' =
        ((σ.value o).addWallXY xs ys).1 := by
  obtain ⟨f, w, h1, -, -, h2, h4, h5, h6⟩ := Store.object_some ho (.call (.addWallXY xs ys))
  have hw : w = σ.next := (h2 hok).2
  subst hw
  have hlt : i < σ.objs.length := (List.getElem?_eq_some_iff.1 ho).1
  have hi : (σ.object i (.call (.addWallXY xs ys))).objs[i]? =
      some ⟨(σ.value o).apply (.addWallXY xs ys), f, σ.next⟩ := by
    rw [h1, List.getElem?_set_self hlt]; rfl
  constructor
  · intro r hr
    rw [h6]
    simp only
    rw [if_neg (Nat.ne_of_lt hr)]
  · intro r s x hr
    refine ⟨_, hi, ?_⟩
    refine Store.value_eq ?_ ?_
    · change (σ.object i (.call (.addWallXY xs ys))).feat f = _
      rw [h5]
      simp only [if_true]
      rfl
    · change (if σ.next = r then _ else (σ.object i (.call (.addWallXY xs ys))).wall σ.next) = _
      rw [if_neg (show σ.next ≠ r by omega), h6]
      simp only [if_true]
      rfl

/-- Two MDPs with the same feature array: consuming in one is consuming in both. -/
theorem C100_shared_features (σ : Store K) (i j : Nat) (oi oj : MdpObj K) (hi : σ.objs[i]? = some oi)
    (hj : σ.objs[j]? = some oj) (hij : i ≠ j) (h : oi.feat = oj.feat) (fs : List Int) (s : Int) :
    ∃ oj', (σ.object i (.call (.consumeFeatures fs s))).objs[j]? = some oj' ∧
      ((σ.object i (.call (.consumeFeatures fs s))).value oj').features.get =
        ((σ.value oi).consumeFeatures fs s).1.features.get := by
  obtain ⟨f, w, h1, h2, -, -, -, h5, -⟩ := Store.object_some hi (.call (.consumeFeatures fs s))
  have hf : f = oj.feat := by
    rcases h2 with h' | h'
    · exact h'.trans h
    · rw [h']; exact h
  refine ⟨oj, by rw [h1, List.getElem?_set_ne hij]; exact hj, ?_⟩
  simp only [Store.value]
  rw [h5, hf]
  simp only [if_true]
  rfl

/-- A grid of two cells with a feature in each and a wall array, twice, from the same arrays. -/
def exShared : List (StoreOp ℚ) :=
  [.newFeatures fun _ _ => 1, .newWalls fun s => if s = 1 then 1 else 0,
   .build .square 1 2 false ⟨0, 1, 2⟩ (some ⟨1, 2⟩), .build .square 1 2 false ⟨0, 1, 2⟩ (some ⟨1, 2⟩)]

/-- A check of the arrays of an MDP after a program. -/
def exSees (ops : List (StoreOp ℚ)) (j : Nat) (p : Mdp ℚ → Bool) : Bool :=
  match (Spec.noArrays.run ops).objs[j]? with
  | none => false
  | some o => p ((Spec.noArrays.run ops).value o)

/-- False of the code: calls on one MDP never change another one. Consuming a feature in the first removes it
from the second, which was built from the same array. -/
theorem C100_refuted_mdps :
    ¬ ∀ (ops : List (StoreOp ℚ)) (i j : Nat) (o : MdpObj ℚ) (op : MdpOp ℚ),
      (Spec.noArrays.run ops).objs[j]? = some o → i ≠ j →
      ∃ o', ((Spec.noArrays.run ops).object i (.call op)).objs[j]? = some o' ∧
        ((Spec.noArrays.run ops).object i (.call op)).value o' = (Spec.noArrays.run ops).value o := by
  intro h
  have h1 : exSees exShared 1 (fun m => decide (m.features.get 0 0 = 1)) = true := by decide +kernel
  have h2 : exSees (exShared ++ [.object 0 (.call (.consumeFeatures [0] 0))]) 1
      (fun m => decide (m.features.get 0 0 = 0)) = true := by decide +kernel
  unfold exSees at h1 h2
  rw [show (Spec.noArrays : Store ℚ).run (exShared ++ [.object 0 (.call (.consumeFeatures [0] 0))]) =
    (Spec.noArrays.run exShared).object 0 (.call (.consumeFeatures [0] 0)) by
      simp only [Store.run, List.foldl_append]; rfl] at h2
  cases ho : ((Spec.noArrays : Store ℚ).run exShared).objs[1]? with
  | none => rw [ho] at h1; simp at h1
  | some o =>
    obtain ⟨o', e1, e2⟩ := h exShared 0 1 o (.consumeFeatures [0] 0) ho (by decide)
    rw [ho] at h1
    rw [e1] at h2
    simp only [decide_eq_true_eq] at h1 h2
    rw [e2, h1] at h2
    exact one_ne_zero h2

/-- False of the code: the walls an MDP reports are the ones that block it. `reset_walls` on the first MDP
erases them from the second, which stays blocked; its next `add_wall_xy` then opens what was closed. -/
theorem C100_refuted_walls :
    exSees exShared 1 (fun m => decide (m.walls.get 1 = 1 ∧ ∀ a : Fin 4, m.sas 0 a 1 = 0)) = true ∧
    exSees (exShared ++ [.object 0 (.call .resetWalls)]) 1
      (fun m => decide (m.walls.get 1 = 0 ∧ ∀ a : Fin 4, m.sas 0 a 1 = 0)) = true ∧
    exSees (exShared ++ [.object 0 (.call .resetWalls), .object 1 (.call (.addWallXY [] []))]) 1
      (fun m => decide (m.walls.get 1 = 0 ∧ ∃ a : Fin 4, m.sas 0 a 1 = 1)) = true := by
  refine ⟨?_, ?_, ?_⟩ <;> decide +kernel

/-- False of the code: an MDP leaves the arrays it was given alone, and is left alone by later writes into
them. -/
theorem C100_refuted_caller :
    (Spec.noArrays.run (exShared ++ [.object 0 (.call (.consumeFeatures [0] 0))])).feat 0 0 0 = 0 ∧
    (Spec.noArrays.run exShared).feat 0 0 0 = 1 ∧
    exSees (exShared ++ [.writeFeature 0 0 0 7]) 0 (fun m => decide (m.features.get 0 0 = 7)) = true := by
  refine ⟨?_, ?_, ?_⟩ <;> decide +kernel

/-- A program as in `C100_partial`: two MDPs from arrays of their own, and an array written into afterwards. -/
def exCareful : List (StoreOp ℚ) :=
  [.newFeatures fun _ _ => 1, .newFeatures fun _ _ => 1, .newFeatures fun _ _ => 1,
   .build .square 1 2 false ⟨0, 1, 2⟩ none, .build .square 1 2 false ⟨1, 1, 2⟩ none,
   .writeFeature 2 0 0 5, .object 0 (.call (.consumeFeatures [0] 0))]

example : Spec.CarefulProgram Spec.noArrays exCareful := by
  refine ⟨trivial, trivial, trivial, ⟨⟨?_, ?_⟩, ?_⟩, ⟨⟨?_, ?_⟩, ?_⟩, ⟨?_, ?_⟩, trivial, trivial⟩
  · decide +kernel
  · decide +kernel
  · intro v h; cases h
  · decide +kernel
  · decide +kernel
  · intro v h; cases h
  · decide +kernel
  · decide +kernel

example : exSees exCareful 0 (fun m => decide (m.features.get 0 0 = 0)) = true ∧
    exSees exCareful 1 (fun m => decide (m.features.get 0 0 = 1)) = true := by
  constructor <;> decide +kernel

/-- An MDP whose caller keeps the feature array, and an agent added to it, as in
`C100_detached_partial`. -/
example : exSees exShared 0 (fun m => Store.succeeds m (.addAgentFeature 0)) = true := by decide +kernel

/-- Arrays assigned as in `C100_assigned_features` and `C100_assigned_walls`, and a wall added as in
`C100_walls_detached`. -/
example : exSees exShared 0 (fun m => Store.succeeds m (.setFeatures ⟨3, 2, fun _ _ => 4⟩) &&
    Store.succeeds m (.setWalls ⟨2, fun _ => 1⟩) && Store.succeeds m (.addWallXY [0] [0])) = true := by decide +kernel

end MaMDP
