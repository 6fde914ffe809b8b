import Verif.Spec.World
import Verif.Lemmas.EnvInit

set_option linter.unusedSectionVars false

namespace MaMDP

variable {K : Type} [Field K] [LinearOrder K] [IsStrictOrderedRing K] {δ : Type}

namespace Env

theorem put_length (e : Env K δ) (m : Mdp K) (a : Agent K δ) : (e.put m a).agents.length = e.agents.length := by
  simp only [put, List.length_map]

theorem fit_length (e : Env K δ) (n : String) (o : FitOut K) (d : Nat → δ) :
    (e.fit n o d).1.agents.length = e.agents.length := by
  unfold fit
  split
  · rfl
  · exact put_length _ _ _

theorem step_length (e : Env K δ) (n : String) (d : Nat → δ) :
    (e.step n d).1.agents.length = e.agents.length := by
  unfold step
  split
  · rfl
  · split
    · exact put_length _ _ _
    · split
      · exact put_length _ _ _
      · exact List.length_map _

theorem refitFor_length (e : Env K δ) (n : String) (s p : List Nat) (t : Nat) (r : Bool) (o : StepOracle K δ) (i : Nat) :
    (e.refitFor n s p t r o i).1.agents.length = e.agents.length := by
  unfold refitFor
  split_ifs
  · split
    · rfl
    · exact fit_length _ _ _ _
  · rfl

theorem stepLoop_length (n : String) (s p : List Nat) (t : Nat) (r c : Bool) (o : Nat → StepOracle K δ) :
    ∀ (k i : Nat) (e : Env K δ) (acc : List Int),
      (stepLoop n s p t r c o k i e acc).1.agents.length = e.agents.length := by
  intro k
  induction k with
  | zero => intro i e acc; rfl
  | succ k ih =>
    intro i e acc
    unfold stepLoop
    have h1 := refitFor_length e n s p t r (o i) i
    split
    · rename_i h; rw [h] at h1; exact h1
    · rename_i e1 h; rw [h] at h1
      have h2 := step_length e1 n (o i).draws
      split
      · rename_i h; rw [h] at h2; exact h2.trans h1
      · rename_i e2 p h; rw [h] at h2
        split
        · exact h2.trans h1
        · split_ifs
          · exact h2.trans h1
          · exact (ih _ _ _).trans (h2.trans h1)

theorem resetLoop_length : ∀ (l : List (Agent K δ)) (m : Mdp K), (resetLoop l m).2.1.length = l.length
  | [], _ => rfl
  | a :: l, m => by
    unfold resetLoop
    split
    · rfl
    · rename_i m' a' _
      simp only [List.length_cons]
      rw [resetLoop_length l m']

theorem apply_length (e : Env K δ) (op : EnvOp K δ) : (e.apply op).agents.length = e.agents.length := by
  cases op with
  | fit n o d => exact fit_length _ _ _ _
  | step n d => exact step_length _ _ _
  | stepProba n p d =>
    simp only [apply, stepProba]
    split
    · rfl
    · split <;> exact List.length_map _
  | stepMulti n s p t r c o =>
    simp only [apply, stepMulti]
    split
    · rfl
    · split
      · rfl
      · split_ifs
        · rfl
        · split
          · rfl
          · exact stepLoop_length _ _ _ _ _ _ _ _ _ _ _
        · split <;> rfl
  | stepMultiInteractive n m =>
    simp only [apply, stepMultiInteractive]
    split
    · rfl
    · rfl
    · split_ifs
      · rfl
      · split <;> rfl
  | reset =>
    simp only [apply, reset]
    have := resetLoop_length e.agents e.mdp
    split
    · rename_i h; rw [h] at this; exact this
    · rename_i h; rw [h] at this; exact this
  | setAgentPosition n p =>
    simp only [apply, setAgentPosition]
    split
    · rfl
    · exact put_length _ _ _
  | setWalls w => rfl
  | addWallXY x y => rfl
  | resetWalls => rfl
  | setAlgorithm n st =>
    simp only [apply, setAlgorithm]
    split
    · rfl
    · exact put_length _ _ _

theorem setPosition_alg {a a' : Agent K δ} {m m' : Mdp K} {p : Int} (h : a.setPosition m p = (m', a', .ok ())) :
    a'.name = a.name ∧ a'.alg = a.alg := by
  unfold Agent.setPosition at h
  split_ifs at h
  · cases h
  · split at h <;> cases h
    exact ⟨rfl, rfl⟩

theorem attach_alg {m m' : Mdp K} {n : Nat} {sp : AgentSpec K δ} {p : Int} {r : Arr1 K} {a : Agent K δ}
    (h : attach m n sp p r = (m', .ok a)) : a.name = sp.name ∧ a.alg = sp.alg := by
  unfold attach at h
  simp only at h
  split at h
  · cases h
  · split at h <;> cases h
    rename_i hp
    exact setPosition_alg hp

theorem attachLoop_alg (nF nA : Nat) : ∀ (sps : List (AgentSpec K δ)) (n : Nat) (m m' : Mdp K)
    (as as' : List (Agent K δ)), attachLoop nF nA n sps m as = (m', .ok as') → (as.map (·.name)).Nodup →
    (as'.map (·.name)).Nodup ∧
    ∀ a ∈ as', a ∈ as ∨ ∃ sp ∈ sps, a.name = sp.name ∧ a.alg = sp.alg := by
  intro sps
  induction sps with
  | nil => intro n m m' as as' h hn; cases h; exact ⟨hn, fun a ha => .inl ha⟩
  | cons sp sps ih =>
    intro n m m' as as' h hn
    unfold attachLoop at h
    split at h
    · cases h
    · split at h
      · cases h
      · rename_i a hat
        obtain ⟨h1, h2⟩ := ih _ _ _ _ _ h (insert_names a hn)
        refine ⟨h1, fun b hb => ?_⟩
        rcases h2 b hb with hb | ⟨sp', hsp, h3⟩
        · rcases mem_insert.1 hb with rfl | ⟨hb, -⟩
          · exact .inr ⟨sp, List.mem_cons_self, attach_alg hat⟩
          · exact .inl hb
        · exact .inr ⟨sp', List.mem_cons_of_mem _ hsp, h3⟩

theorem init_alg {m m' : Mdp K} {specs : List (AgentSpec K δ)} {e : Env K δ} (h : init m specs = (m', .ok e)) :
    e.mdp = m' ∧ (e.agents.map (·.name)).Nodup ∧
    ∀ a ∈ e.agents, ∃ sp ∈ specs, a.name = sp.name ∧ a.alg = sp.alg := by
  unfold init at h
  simp only at h
  split at h
  · cases h
  · split at h <;> cases h
    rename_i hl
    obtain ⟨h1, h2⟩ := attachLoop_alg _ _ _ _ _ _ _ _ hl (by simp)
    refine ⟨rfl, h1, fun a ha => ?_⟩
    rcases h2 a ha with ha | ha
    · simp at ha
    · exact ha

end Env

namespace World

/-- The bookkeeping of one environment object is consistent. -/
structure ObjOk (o : EnvObj K δ) : Prop where
  length : o.algs.length = o.core.agents.length
  nodup : o.algs.Nodup

/-- Environments share nothing. -/
structure Apart (w : World K δ) : Prop where
  ok : ∀ o ∈ w.envs, ObjOk o
  apart : ∀ (i j : Nat) (oi oj : EnvObj K δ), w.envs[i]? = some oi → w.envs[j]? = some oj → i ≠ j →
    oi.mdp ≠ oj.mdp ∧ ∀ r ∈ oi.algs, r ∉ oj.algs

theorem writeAlgs_other {old : Nat → AlgState K} {refs : List Nat} {agents : List (Agent K δ)} {r : Nat}
    (h : r ∉ refs) : writeAlgs old refs agents r = old r := by
  unfold writeAlgs
  have : (refs.zip agents).find? (fun p => p.1 = r) = none := by
    rw [List.find?_eq_none]
    rintro ⟨x, a⟩ hp he
    simp only [decide_eq_true_eq] at he
    subst he
    exact h (List.of_mem_zip hp).1
  rw [this]

theorem zipWith_write (old : Nat → AlgState K) : ∀ (refs : List Nat) (agents : List (Agent K δ)),
    refs.length = agents.length → refs.Nodup →
    List.zipWith (fun (a : Agent K δ) r => { a with alg := writeAlgs old refs agents r }) agents refs = agents := by
  intro refs agents hl hn
  apply List.ext_getElem
  · simp [hl]
  · intro i h1 h2
    rw [List.getElem_zipWith]
    have hi : i < refs.length := by omega
    have : writeAlgs old refs agents refs[i] = agents[i].alg := by
      unfold writeAlgs
      have hmem : (refs[i], agents[i]) ∈ refs.zip agents := by
        rw [List.mem_iff_getElem]
        exact ⟨i, by simp; omega, by simp⟩
      cases hf : (refs.zip agents).find? (fun p => p.1 = refs[i]) with
      | none =>
        rw [List.find?_eq_none] at hf
        have := hf _ hmem
        simp at this
      | some p =>
        have h3 := List.find?_some hf
        have h4 := List.mem_of_find?_eq_some hf
        simp only [decide_eq_true_eq] at h3
        obtain ⟨k, hk, hp⟩ := List.mem_iff_getElem.1 h4
        simp only [List.getElem_zip] at hp
        subst hp
        simp only at h3 ⊢
        have : k = i := (List.Nodup.getElem_inj_iff hn).1 h3
        subst this
        rfl
    rw [this]

theorem value_written {o : EnvObj K δ} (ho : ObjOk o) (e : Env K δ) (he : e.agents.length = o.core.agents.length)
    (mdps : Nat → Mdp K) (old : Nat → AlgState K) (envs : List (EnvObj K δ)) (hm : mdps o.mdp = e.mdp) :
    (World.mk mdps (writeAlgs old o.algs e.agents) envs).value ⟨e, o.mdp, o.algs⟩ = e := by
  unfold value
  simp only [hm]
  rw [zipWith_write old o.algs e.agents (by rw [ho.length, he]) ho.nodup]

theorem value_frame {w w' : World K δ} {o : EnvObj K δ} (hm : w'.mdps o.mdp = w.mdps o.mdp)
    (ha : ∀ r ∈ o.algs, w'.algs r = w.algs r) : w'.value o = w.value o := by
  have h : List.zipWith (fun (a : Agent K δ) r => { a with alg := w'.algs r }) o.core.agents o.algs =
      List.zipWith (fun (a : Agent K δ) r => { a with alg := w.algs r }) o.core.agents o.algs := by
    apply List.ext_getElem
    · simp
    · intro i h1 h2
      simp only [List.getElem_zipWith]
      rw [ha _ (List.getElem_mem _)]
  unfold value
  rw [hm, h]

theorem value_length {w : World K δ} {o : EnvObj K δ} (ho : ObjOk o) :
    (w.value o).agents.length = o.core.agents.length := by
  simp [value, ho.length]

theorem refOf_spec {specs : List (AgentSpec K δ × Nat)} (hn : (specs.map (·.1.name)).Nodup)
    {p : AgentSpec K δ × Nat} (hp : p ∈ specs) : refOf specs p.1.name = p.2 := by
  unfold refOf
  cases hf : specs.reverse.find? (fun q => q.1.name = p.1.name) with
  | none =>
    rw [List.find?_eq_none] at hf
    have := hf p (by simpa using hp)
    simp at this
  | some q =>
    have h1 := List.find?_some hf
    have h2 := List.mem_of_find?_eq_some hf
    simp only [decide_eq_true_eq] at h1
    rw [List.mem_reverse] at h2
    have : q = p := List.inj_on_of_nodup_map (f := fun p : AgentSpec K δ × Nat => p.1.name) hn h2 hp h1
    rw [this]

theorem env_step {w : World K δ} (hw : Apart w) (i : Nat) (op : EnvOp K δ) :
    Apart (w.env i op) ∧
    ∀ (j : Nat) (o : EnvObj K δ), w.envs[j]? = some o → ∃ o', (w.env i op).envs[j]? = some o' ∧
      o'.mdp = o.mdp ∧ o'.algs = o.algs ∧
      (w.env i op).value o' = if i = j then (w.value o).apply op else w.value o := by
  unfold env
  cases hi : w.envs[i]? with
  | none =>
    simp only
    refine ⟨hw, fun j o hj => ⟨o, hj, rfl, rfl, ?_⟩⟩
    rw [if_neg]
    rintro rfl
    rw [hi] at hj; cases hj
  | some o =>
    simp only
    have ho := hw.ok o (List.mem_of_getElem? hi)
    have hlt : i < w.envs.length := (List.getElem?_eq_some_iff.1 hi).1
    have hlen : ((w.value o).apply op).agents.length = o.core.agents.length := by
      rw [Env.apply_length, value_length ho]
    have hget : ∀ (j : Nat) (oj : EnvObj K δ),
        (w.envs.set i ⟨(w.value o).apply op, o.mdp, o.algs⟩)[j]? = some oj →
        ∃ q, w.envs[j]? = some q ∧ oj.mdp = q.mdp ∧ oj.algs = q.algs ∧
          oj.core.agents.length = q.core.agents.length := by
      intro j oj hj
      by_cases hij : i = j
      · subst hij
        rw [List.getElem?_set_self hlt] at hj
        cases hj
        exact ⟨o, hi, rfl, rfl, hlen⟩
      · rw [List.getElem?_set_ne hij] at hj
        exact ⟨oj, hj, rfl, rfl, rfl⟩
    refine ⟨⟨?_, ?_⟩, ?_⟩
    · intro oj hoj
      obtain ⟨j, hj⟩ := List.mem_iff_getElem?.1 hoj
      obtain ⟨q, h1, -, h3, h4⟩ := hget j oj hj
      have hq := hw.ok q (List.mem_of_getElem? h1)
      exact ⟨by rw [h3, h4]; exact hq.length, by rw [h3]; exact hq.nodup⟩
    · intro a b oa ob ha hb hab
      obtain ⟨qa, h1, h2, h3, -⟩ := hget a oa ha
      obtain ⟨qb, h5, h6, h7, -⟩ := hget b ob hb
      rw [h2, h3, h6, h7]
      exact hw.apart a b qa qb h1 h5 hab
    · intro j oj hj
      by_cases hij : i = j
      · subst hij
        rw [hi] at hj; cases hj
        refine ⟨⟨(w.value o).apply op, o.mdp, o.algs⟩, List.getElem?_set_self hlt, rfl, rfl, ?_⟩
        rw [if_pos rfl]
        exact value_written ho _ hlen _ _ _ (by simp)
      · refine ⟨oj, by rw [List.getElem?_set_ne hij]; exact hj, rfl, rfl, ?_⟩
        rw [if_neg hij]
        have h := hw.apart i j o oj hi hj hij
        apply value_frame
        · simp only
          rw [if_neg fun h' => h.1 h'.symm]
        · intro r hr
          exact writeAlgs_other fun h' => h.2 r h' hr

theorem newEnv_step {w : World K δ} (hw : Apart w) (m : Nat) (specs : List (AgentSpec K δ × Nat))
    (hc : Spec.CarefulStep w (.newEnv m specs)) :
    Apart (w.newEnv m specs).1 ∧
    (∀ (j : Nat) (o : EnvObj K δ), w.envs[j]? = some o → ∃ o', (w.newEnv m specs).1.envs[j]? = some o' ∧
      o'.mdp = o.mdp ∧ o'.algs = o.algs ∧ (w.newEnv m specs).1.value o' = w.value o) ∧
    ∀ m' e, Env.init (w.mdps m) (specs.map fun p => { p.1 with alg := w.algs p.2 }) = (m', .ok e) →
      ∃ o, (w.newEnv m specs).1.envs[w.envs.length]? = some o ∧ (w.newEnv m specs).1.value o = e := by
  obtain ⟨hc1, hc2, hc3⟩ := hc
  have hframe : ∀ (w' : World K δ) (m' : Mdp K), w'.mdps = (fun i => if i = m then m' else w.mdps i) →
      w'.algs = w.algs → ∀ o ∈ w.envs, w'.value o = w.value o := by
    intro w' m' h1 h2 o ho
    apply value_frame
    · rw [h1]; simp only; rw [if_neg (hc1 o ho).1]
    · intro r _; rw [h2]
  cases hinit : Env.init (w.mdps m) (specs.map fun p => { p.1 with alg := w.algs p.2 }) with
  | mk m1 r =>
    cases r with
    | error err =>
      have e : (w.newEnv m specs).1 = { w with mdps := fun i => if i = m then m1 else w.mdps i } := by
        simp only [newEnv, hinit]
      rw [e]
      refine ⟨⟨hw.ok, hw.apart⟩, fun j o hj => ⟨o, hj, rfl, rfl, ?_⟩, fun m' e h => by cases h⟩
      exact hframe ⟨fun i => if i = m then m1 else w.mdps i, w.algs, _⟩ m1 rfl rfl o (List.mem_of_getElem? hj)
    | ok e =>
      have he : (w.newEnv m specs).1 =
          { w with
            mdps := fun i => if i = m then m1 else w.mdps i
            envs := w.envs ++ [⟨e, m, e.agents.map fun a => refOf specs a.name⟩] } := by
        simp only [newEnv, hinit]
      rw [he]
      obtain ⟨h1, h2, h3⟩ := Env.init_alg hinit
      have href : ∀ a ∈ e.agents, ∃ p ∈ specs, a.name = p.1.name ∧ refOf specs a.name = p.2 ∧
          a.alg = w.algs p.2 := by
        intro a ha
        obtain ⟨sp, hsp, e1, e2⟩ := h3 a ha
        obtain ⟨p, hp, rfl⟩ := List.mem_map.1 hsp
        exact ⟨p, hp, e1, by rw [e1]; exact refOf_spec hc3 hp, e2⟩
      have hok : ObjOk (K := K) (δ := δ) ⟨e, m, e.agents.map fun a => refOf specs a.name⟩ := by
        refine ⟨by simp, ?_⟩
        apply List.Nodup.map_on _ (List.Nodup.of_map _ h2)
        intro x hx y hy hxy
        obtain ⟨p, hp, e1, e2, -⟩ := href x hx
        obtain ⟨q, hq, e3, e4, -⟩ := href y hy
        have : p = q := List.inj_on_of_nodup_map (f := fun p : AgentSpec K δ × Nat => p.2) hc2 hp hq
          (by rw [← e2, ← e4]; exact hxy)
        exact List.inj_on_of_nodup_map h2 hx hy (by rw [e1, e3, this])
      have hget : ∀ (j : Nat) (oj : EnvObj K δ),
          (w.envs ++ [⟨e, m, e.agents.map fun a => refOf specs a.name⟩])[j]? = some oj →
          w.envs[j]? = some oj ∨ (j = w.envs.length ∧ oj = ⟨e, m, e.agents.map fun a => refOf specs a.name⟩) := by
        intro j oj hj
        rcases Nat.lt_trichotomy j w.envs.length with h | h | h
        · rw [List.getElem?_append_left h] at hj; exact .inl hj
        · subst h
          rw [List.getElem?_concat_length] at hj
          exact .inr ⟨rfl, (Option.some.inj hj).symm⟩
        · rw [List.getElem?_eq_none (by simp; omega)] at hj; cases hj
      have hnew : ∀ o ∈ w.envs, ∀ a ∈ e.agents, refOf specs a.name ∉ o.algs := by
        intro o ho a ha
        obtain ⟨p, hp, -, e2, -⟩ := href a ha
        rw [e2]
        exact (hc1 o ho).2 p hp
      refine ⟨⟨?_, ?_⟩, ?_, ?_⟩
      · intro o ho
        rcases List.mem_append.1 ho with ho | ho
        · exact hw.ok o ho
        · rw [List.mem_singleton] at ho
          subst ho
          exact hok
      · intro a b oa ob ha hb hab
        rcases hget a oa ha with ha | ⟨ha, ea⟩ <;> rcases hget b ob hb with hb | ⟨hb, eb⟩
        · exact hw.apart a b oa ob ha hb hab
        · subst eb
          have hoa := List.mem_of_getElem? ha
          refine ⟨(hc1 oa hoa).1, fun r hr h => ?_⟩
          obtain ⟨x, hx, rfl⟩ := List.mem_map.1 h
          exact hnew oa hoa x hx hr
        · subst ea
          have hob := List.mem_of_getElem? hb
          refine ⟨fun h => (hc1 ob hob).1 h.symm, fun r hr h => ?_⟩
          obtain ⟨x, hx, rfl⟩ := List.mem_map.1 hr
          exact hnew ob hob x hx h
        · exact absurd (ha.trans hb.symm) hab
      · intro j o hj
        refine ⟨o, ?_, rfl, rfl, ?_⟩
        · rw [List.getElem?_append_left (List.getElem?_eq_some_iff.1 hj).1]; exact hj
        · exact hframe ⟨fun i => if i = m then m1 else w.mdps i, w.algs, _⟩ m1 rfl rfl o (List.mem_of_getElem? hj)
      · rintro m' e' h
        cases h
        refine ⟨_, List.getElem?_concat_length, ?_⟩
        unfold value
        simp only [if_true]
        rw [← h1]
        have : List.zipWith (fun (a : Agent K δ) r => { a with alg := w.algs r }) e.agents
            (e.agents.map fun a => refOf specs a.name) = e.agents := by
          apply List.ext_getElem
          · simp
          · intro i k1 k2
            simp only [List.getElem_zipWith, List.getElem_map]
            obtain ⟨p, -, -, e2, e3⟩ := href e.agents[i] (List.getElem_mem _)
            rw [e2, ← e3]
        rw [this]

theorem careful_step {w : World K δ} (hw : Apart w) {op : WorldOp K δ} (hc : Spec.CarefulStep w op) :
    Apart (w.apply op) ∧
    ∀ (j : Nat) (o : EnvObj K δ), w.envs[j]? = some o → ∃ o', (w.apply op).envs[j]? = some o' ∧
      (w.apply op).value o' = (w.value o).run (Spec.opsOn j [op]) := by
  cases op with
  | env i op =>
    obtain ⟨h1, h2⟩ := env_step hw i op
    refine ⟨h1, fun j o hj => ?_⟩
    obtain ⟨o', e1, -, -, e2⟩ := h2 j o hj
    refine ⟨o', e1, ?_⟩
    change (w.env i op).value o' = _
    rw [e2]
    simp only [Spec.opsOn]
    split_ifs <;> rfl
  | newEnv m specs =>
    obtain ⟨h1, h2, -⟩ := newEnv_step hw m specs hc
    refine ⟨h1, fun j o hj => ?_⟩
    obtain ⟨o', e1, -, -, e2⟩ := h2 j o hj
    exact ⟨o', e1, e2⟩
  | onMdp m op =>
    refine ⟨⟨hw.ok, hw.apart⟩, fun j o hj => ⟨o, hj, ?_⟩⟩
    apply value_frame
    · simp only [apply]
      rw [if_neg (hc o (List.mem_of_getElem? hj))]
    · intro r _; rfl

theorem opsOn_cons (j : Nat) (op : WorldOp K δ) (ops : List (WorldOp K δ)) :
    Spec.opsOn j (op :: ops) = Spec.opsOn j [op] ++ Spec.opsOn j ops := by
  cases op with
  | env i o => simp only [Spec.opsOn]; split_ifs <;> rfl
  | _ => rfl

theorem careful_run : ∀ (ops : List (WorldOp K δ)) (w : World K δ), Apart w → Spec.CarefulSteps w ops →
    Apart (w.run ops) ∧
    ∀ (j : Nat) (o : EnvObj K δ), w.envs[j]? = some o → ∃ o', (w.run ops).envs[j]? = some o' ∧
      (w.run ops).value o' = (w.value o).run (Spec.opsOn j ops) := by
  intro ops
  induction ops with
  | nil => intro w hw _; exact ⟨hw, fun j o hj => ⟨o, hj, rfl⟩⟩
  | cons op ops ih =>
    intro w hw hc
    obtain ⟨h1, h2⟩ := careful_step hw hc.1
    obtain ⟨i1, i2⟩ := ih (w.apply op) h1 hc.2
    refine ⟨i1, fun j o hj => ?_⟩
    obtain ⟨o1, e1, e2⟩ := h2 j o hj
    obtain ⟨o2, e3, e4⟩ := i2 j o1 e1
    refine ⟨o2, e3, ?_⟩
    rw [opsOn_cons]
    change ((w.apply op).run ops).value o2 = _
    rw [e4, e2]
    simp only [Env.run, List.foldl_append]

theorem careful_append {w : World K δ} : ∀ {before ops : List (WorldOp K δ)},
    Spec.CarefulSteps w (before ++ ops) → Spec.CarefulSteps w before ∧ Spec.CarefulSteps (w.run before) ops
  | [], _, h => ⟨trivial, h⟩
  | _ :: _, _, h => ⟨⟨h.1, (careful_append h.2).1⟩, (careful_append h.2).2⟩

theorem env_self {w : World K δ} {j : Nat} {o : EnvObj K δ} (hj : w.envs[j]? = some o) (ho : ObjOk o)
    (op : EnvOp K δ) : ∃ o', (w.env j op).envs[j]? = some o' ∧ (w.env j op).value o' = (w.value o).apply op := by
  unfold env
  simp only [hj]
  refine ⟨_, List.getElem?_set_self (List.getElem?_eq_some_iff.1 hj).1, ?_⟩
  exact value_written ho _ (by rw [Env.apply_length, value_length ho]) _ _ _ (by simp)

theorem newEnv_ok {w : World K δ} {m : Nat} {specs : List (AgentSpec K δ × Nat)} {m' : Mdp K} {e : Env K δ}
    (h : Env.init (w.mdps m) (specs.map fun p => { p.1 with alg := w.algs p.2 }) = (m', .ok e))
    (h2 : (specs.map (·.2)).Nodup) (h1 : (specs.map (·.1.name)).Nodup) :
    ObjOk (K := K) (δ := δ) ⟨e, m, e.agents.map fun a => refOf specs a.name⟩ := by
  obtain ⟨-, hn, h3⟩ := Env.init_alg h
  have href : ∀ a ∈ e.agents, ∃ p ∈ specs, a.name = p.1.name ∧ refOf specs a.name = p.2 := by
    intro a ha
    obtain ⟨sp, hsp, e1, -⟩ := h3 a ha
    obtain ⟨p, hp, rfl⟩ := List.mem_map.1 hsp
    exact ⟨p, hp, e1, by rw [e1]; exact refOf_spec h1 hp⟩
  refine ⟨by simp, ?_⟩
  apply List.Nodup.map_on _ (List.Nodup.of_map _ hn)
  intro x hx y hy hxy
  obtain ⟨p, hp, e1, e2⟩ := href x hx
  obtain ⟨q, hq, e3, e4⟩ := href y hy
  have : p = q := List.inj_on_of_nodup_map (f := fun p : AgentSpec K δ × Nat => p.2) h2 hp hq
    (by rw [← e2, ← e4]; exact hxy)
  exact List.inj_on_of_nodup_map hn hx hy (by rw [e1, e3, this])

theorem apply_ok {w : World K δ} (hw : ∀ o ∈ w.envs, ObjOk o) {op : WorldOp K δ} (hd : Spec.DistinctAgents [op]) :
    ∀ o ∈ (w.apply op).envs, ObjOk o := by
  cases op with
  | env i op =>
    intro o ho
    simp only [apply, env] at ho
    cases hi : w.envs[i]? with
    | none => rw [hi] at ho; exact hw o ho
    | some q =>
      rw [hi] at ho
      have hq := hw q (List.mem_of_getElem? hi)
      rcases List.mem_or_eq_of_mem_set ho with ho | rfl
      · exact hw o ho
      · exact ⟨by rw [Env.apply_length, value_length hq]; exact hq.length, hq.nodup⟩
  | newEnv m specs =>
    intro o ho
    obtain ⟨h2, h1⟩ := hd m specs List.mem_cons_self
    simp only [apply, newEnv] at ho
    split at ho
    · exact hw o ho
    · rename_i m' e hinit
      rcases List.mem_append.1 ho with ho | ho
      · exact hw o ho
      · rw [List.mem_singleton] at ho
        subst ho
        exact newEnv_ok hinit h2 h1
  | onMdp m op => exact hw

theorem run_ok : ∀ (ops : List (WorldOp K δ)) (w : World K δ), (∀ o ∈ w.envs, ObjOk o) →
    Spec.DistinctAgents ops → ∀ o ∈ (w.run ops).envs, ObjOk o := by
  intro ops
  induction ops with
  | nil => intro w hw _; exact hw
  | cons op ops ih =>
    intro w hw hd
    refine ih (w.apply op) (apply_ok hw ?_) fun m specs h => hd m specs (List.mem_cons_of_mem _ h)
    intro m specs h
    rw [List.mem_singleton] at h
    exact hd m specs (h ▸ List.mem_cons_self)

end World

end MaMDP
