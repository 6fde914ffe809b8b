import Verif.Lemmas.EnvOps
import Verif.Spec.Environment

/-! The constructor of environments. -/

set_option linter.unusedSectionVars false

namespace MaMDP.Env

variable {K : Type} [Field K] [LinearOrder K] [IsStrictOrderedRing K] {δ : Type}
variable {kind : GridKind} {W H : Nat} {selfT : Bool}

/-- One more one-hot row. -/
def addRow (m : Mdp K) (j : Nat) : Mdp K :=
  let F : Arr2 K := ⟨m.features.d0 + 1, m.features.d1, fun f s =>
    if f = m.features.d0 then (if s = j then 1 else 0) else m.features.get f s⟩
  { m with
    nAgents := m.nAgents + 1
    features := F
    originalFeatures := F
    featureNames := Mdp.defaultNames (m.features.d0 + 1) }

theorem addAgentFeature_ok {m : Mdp K} {p : Int} {j : Nat} (hd : m.features.d1 = m.nStates)
    (hp : pyIdx m.nStates p = some j) : m.addAgentFeature p = (addRow m j, .ok ()) := by
  unfold Mdp.addAgentFeature
  simp only [hp]
  rw [if_neg (by simpa using hd)]
  unfold Mdp.setFeatures
  rw [if_neg (by simpa using hd)]
  rfl

theorem addAgentFeature_fail {m : Mdp K} {p : Int} (hp : pyIdx m.nStates p = none) :
    (m.addAgentFeature p).2 = .error .indexError := by
  unfold Mdp.addAgentFeature
  simp only [hp]

/-- A newly attached agent. -/
def newAgent (n featIdx : Nat) (sp : AgentSpec K δ) (p : Int) (r : Arr1 K) : Agent K δ where
  name := sp.name
  nMoves := sp.nMoves
  reward := r
  consumes := sp.consumes
  consumed := fun _ => 0
  selector := sp.selector
  idx := n
  featIdx := featIdx
  alg := sp.alg
  start := p
  position := p
  history := [p]
  pi := none
  piP := none

theorem attach_ok {m : Mdp K} {n : Nat} {sp : AgentSpec K δ} {p : Int} {r : Arr1 K} {j : Nat}
    (hn : m.nAgents = n) (hle : m.nAgents ≤ m.features.d0) (hd : m.features.d1 = m.nStates)
    (hp : pyIdx m.nStates p = some j) :
    attach m n sp p r = (addRow m j, .ok (newAgent n (n + m.nNonAgent) sp p r)) := by
  unfold attach
  rw [addAgentFeature_ok hd hp]
  simp only
  rw [Agent.setPosition_ok (m := addRow m j) (j := j) (Nat.succ_le_succ hle)
    (by change n < m.nAgents + 1; omega) hd hp]
  simp only
  have hrow : (addRow m j).agentRow n = m.features.d0 := by
    unfold Mdp.agentRow addRow
    simp only
    omega
  rw [hrow]
  have : (addRow m j).setRow m.features.d0 j = addRow m j := by
    have hg : ∀ g : Nat → Nat → K, g = (addRow m j).features.get → (addRow m j).withFeat g = addRow m j := by
      intro g hg; rw [hg]; rfl
    apply hg
    funext f s
    simp only [addRow]
    by_cases h : f = m.features.d0 <;> simp [h]
  rw [this]
  rfl

theorem attach_fail {m : Mdp K} {n : Nat} {sp : AgentSpec K δ} {p : Int} {r : Arr1 K}
    (hp : pyIdx m.nStates p = none) : (attach m n sp p r).2 = .error .indexError := by
  unfold attach
  have := addAgentFeature_fail hp
  simp only
  cases h : m.addAgentFeature p with
  | mk m' x =>
    rw [h] at this
    simp only at this
    subst this
    rfl

theorem checkSpec_ok {nF nA : Nat} {sp : AgentSpec K δ} {p : Int} {r : Arr1 K}
    (h : checkSpec nF nA sp = .ok (p, r)) :
    (∃ get, sp.reward = .nd [nF + nA] get ∧ r = ⟨nF + nA, fun i => get [i]⟩) ∧ sp.position = some p ∧
      ∀ f ∈ sp.consumes, f < (nF + nA : Nat) := by
  unfold checkSpec at h
  split at h
  · cases h
  · rename_i shape get hr
    split at h
    · split at h
      · cases h
      · rename_i q hq
        split_ifs at h with h1 h2
        push Not at h1 h2
        simp only [Except.ok.injEq, Prod.mk.injEq] at h
        obtain ⟨rfl, rfl⟩ := h
        refine ⟨⟨get, by rw [hr, h1], by rw [h1]⟩, hq, fun f hf => ?_⟩
        have := h2 f hf
        omega
    · cases h

theorem checkSpec_of {nF nA : Nat} {sp : AgentSpec K δ} {p : Int} {get : List Nat → K}
    (h1 : sp.reward = .nd [nF + nA] get) (h2 : sp.position = some p)
    (h3 : ∀ f ∈ sp.consumes, f < (nF + nA : Nat)) :
    checkSpec nF nA sp = .ok (p, ⟨nF + nA, fun i => get [i]⟩) := by
  unfold checkSpec
  simp only [h1, h2]
  rw [if_neg (by simp), if_neg]
  push Not
  intro f hf
  have := h3 f hf
  omega

theorem pyIdx_start {n : Nat} {p : Int} (h : -(n : Int) ≤ p ∧ p < n) :
    pyIdx n p = some (Spec.stateOf n p) := by
  unfold Spec.stateOf
  rw [pyIdx_spec]
  split_ifs <;> constructor <;> omega

theorem mem_insert {l : List (Agent K δ)} {a b : Agent K δ} :
    b ∈ insertAgent l a ↔ b = a ∨ (b ∈ l ∧ b.name ≠ a.name) := by
  unfold insertAgent
  split_ifs with h
  · simp only [List.mem_map] at h ⊢
    constructor
    · rintro ⟨c, hc, rfl⟩
      split_ifs with h1
      · exact .inl rfl
      · exact .inr ⟨hc, h1⟩
    · rintro (rfl | ⟨h1, h2⟩)
      · obtain ⟨c, hc, hn⟩ := h
        exact ⟨c, hc, by simp [hn]⟩
      · exact ⟨b, h1, by simp [h2]⟩
  · simp only [List.mem_append, List.mem_singleton]
    constructor
    · rintro (h1 | h1)
      · exact .inr ⟨h1, fun h2 => h (h2 ▸ List.mem_map_of_mem h1)⟩
      · exact .inl h1
    · rintro (h1 | h1)
      · exact .inr h1
      · exact .inl h1.1

theorem insert_names {l : List (Agent K δ)} (a : Agent K δ) (h : (l.map (·.name)).Nodup) :
    ((insertAgent l a).map (·.name)).Nodup := by
  unfold insertAgent
  split_ifs with hn
  · have : ((l.map fun b => if b.name = a.name then a else b).map (·.name)) = l.map (·.name) := by
      rw [List.map_map]
      apply List.map_congr_left
      intro b _
      simp only [Function.comp]
      split_ifs with h
      · exact h.symm
      · rfl
    rw [this]; exact h
  · rw [List.map_append, List.nodup_append]
    refine ⟨h, by simp, ?_⟩
    intro x hx y hy hxy
    simp only [List.map_cons, List.map_nil, List.mem_singleton] at hy
    exact hn (by rw [← hy, ← hxy]; exact hx)

theorem insert_idxs {l : List (Agent K δ)} (a : Agent K δ) (hn : (l.map (·.name)).Nodup)
    (h : (l.map (·.idx)).Nodup)
    (hlt : ∀ b ∈ l, b.idx ≠ a.idx) : ((insertAgent l a).map (·.idx)).Nodup := by
  unfold insertAgent
  split_ifs with hm
  · rw [List.map_map]
    apply List.Nodup.map_on _ (List.Nodup.of_map _ hn)
    intro x hx y hy hxy
    simp only [Function.comp] at hxy
    split_ifs at hxy with h1 h2 h2
    · exact List.inj_on_of_nodup_map hn hx hy (h1.trans h2.symm)
    · exact absurd hxy.symm (hlt y hy)
    · exact absurd hxy (hlt x hx)
    · exact List.inj_on_of_nodup_map h hx hy hxy
  · rw [List.map_append, List.nodup_append]
    refine ⟨h, by simp, ?_⟩
    intro x hx y hy hxy
    simp only [List.map_cons, List.map_nil, List.mem_singleton] at hy
    obtain ⟨b, hb, rfl⟩ := List.mem_map.1 hx
    exact hlt b hb (hxy.trans hy)

theorem Ok.attach {m : Mdp K} {ns : List String} {as : List (Agent K δ)}
    (h : Ok kind W H selfT ⟨m, ns, as, 0⟩) (hf : as = [] ∨ m.features = m.originalFeatures) {sp : AgentSpec K δ}
    {p : Int} {j : Nat} (hp : pyIdx m.nStates p = some j) (fi : Nat) (r : Arr1 K) :
    Ok kind W H selfT ⟨addRow m j, ns ++ [sp.name], insertAgent as (newAgent m.nAgents fi sp p r), 0⟩ := by
  have hd : m.features.d1 = m.nStates := by rw [h.reach.ok.featStates, h.reach.ok.nStates]
  have hreach : Mdp.GridReach kind W H selfT (addRow m j) := by
    have := Mdp.GridReach.step (.addAgentFeature p) h.reach (by simp)
    simp only [Mdp.apply, addAgentFeature_ok hd hp] at this
    exact this
  have hlt : ∀ b ∈ as, b.idx < m.nAgents := h.idx
  have hle : m.nAgents ≤ m.features.d0 := h.le
  have hrow : ∀ i, (addRow m j).agentRow i = m.agentRow i := by
    intro i
    unfold Mdp.agentRow addRow
    simp only
    omega
  have hnew : m.agentRow m.nAgents = m.features.d0 := by unfold Mdp.agentRow; omega
  have hold : ∀ b ∈ as, m.agentRow b.idx ≠ m.features.d0 := by
    intro b hb
    have := hlt b hb
    unfold Mdp.agentRow; omega
  refine ⟨hreach, insert_names _ h.nodup, ?_, ?_, Nat.succ_le_succ hle, ?_, ?_, ?_⟩
  · intro n
    have := h.names n
    simp only [List.mem_append, List.mem_singleton] at *
    constructor
    · intro hn
      by_cases he : n = sp.name
      · exact List.mem_map.2 ⟨_, mem_insert.2 (.inl rfl), he.symm⟩
      · obtain ⟨b, hb, hbn⟩ := List.mem_map.1 (this.1 (hn.resolve_right he))
        exact List.mem_map.2 ⟨b, mem_insert.2 (.inr ⟨hb, by rw [hbn]; exact he⟩), hbn⟩
    · intro hn
      obtain ⟨b, hb, hbn⟩ := List.mem_map.1 hn
      rcases mem_insert.1 hb with rfl | ⟨hb, -⟩
      · exact .inr hbn.symm
      · exact .inl (this.2 (List.mem_map.2 ⟨b, hb, hbn⟩))
  · apply insert_idxs _ h.nodup h.idxs
    intro b hb
    have := hlt b hb
    change b.idx ≠ m.nAgents
    omega
  · intro a ha
    change a.idx < m.nAgents + 1
    rcases mem_insert.1 ha with rfl | ⟨hb, -⟩
    · change m.nAgents < _; omega
    · have := hlt a hb; omega
  · intro a ha
    simp only [hrow]
    rcases mem_insert.1 ha with rfl | ⟨hb, -⟩
    · refine ⟨j, hp, ?_⟩
      change RowAt _ _ (m.agentRow m.nAgents) j
      rw [hnew]
      simp only [addRow]
      constructor
      · intro s _ hs; simp [hs]
      · simp
    · obtain ⟨ja, h1, h2⟩ := h.pos a hb
      refine ⟨ja, h1, ?_⟩
      have := hold a hb
      simp only [addRow]
      unfold RowAt
      simp only [if_neg this]
      exact h2
  · intro a ha
    simp only [hrow]
    rcases mem_insert.1 ha with rfl | ⟨hb, -⟩
    · refine ⟨j, hp, fun s => ?_⟩
      change (addRow m j).originalFeatures.get (m.agentRow m.nAgents) s = _
      rw [hnew]
      simp [addRow]
    · obtain ⟨ja, h1, h2⟩ := h.start a hb
      refine ⟨ja, h1, fun s => ?_⟩
      have := hold a hb
      have h2 := h2 s
      simp only [addRow]
      rw [if_neg this, ← h2]
      rcases hf with rfl | hf
      · simp at hb
      · simp only [hf]

/-- The loop over agents, when all are valid. -/
theorem attachLoop_ok (nF nA : Nat) : ∀ (sps : List (AgentSpec K δ)) (m : Mdp K) (ns : List String)
    (as : List (Agent K δ)), Ok kind W H selfT ⟨m, ns, as, 0⟩ → as = [] ∨ m.features = m.originalFeatures →
    (∀ sp ∈ sps, Spec.ValidAgent m.nStates nF nA sp) →
    ∃ m' as', attachLoop nF nA m.nAgents sps m as = (m', .ok as') ∧
      Ok kind W H selfT ⟨m', ns ++ sps.map (·.name), as', 0⟩ ∧
      (sps ≠ [] → m'.features = m'.originalFeatures) ∧ (sps = [] → m' = m) ∧
      m'.features.d0 = m.features.d0 + sps.length ∧ m'.nAgents = m.nAgents + sps.length ∧
      m'.nStates = m.nStates ∧ m'.nNonAgent = m.nNonAgent ∧ m'.sas = m.sas ∧ m'.walls = m.walls ∧
      (∀ f s, f < m.features.d0 → m'.features.get f s = m.features.get f s) ∧
      (∀ i sp, sps[i]? = some sp → ∃ p, sp.position = some p ∧ ∀ s,
        m'.features.get (m.features.d0 + i) s = if s = Spec.stateOf m.nStates p then 1 else 0) ∧
      ((as.map (·.name) ++ sps.map (·.name)).Nodup → ∃ new, as' = as ++ new ∧
        new.length = sps.length ∧ ∀ i a, new[i]? = some a → ∃ sp p r, sps[i]? = some sp ∧
          sp.position = some p ∧ sp.reward = .nd [nF + nA] r ∧
          a = newAgent (m.nAgents + i) (m.nAgents + i + m.nNonAgent) sp p ⟨nF + nA, fun x => r [x]⟩) ∧
      (∀ a ∈ as', a ∈ as ∨ ∃ i sp p r, sps[i]? = some sp ∧ sp.position = some p ∧ 
          sp.reward = .nd [nF + nA] r ∧
          a = newAgent (m.nAgents + i) (m.nAgents + i + m.nNonAgent) sp p ⟨nF + nA, fun x => r [x]⟩) := by
  intro sps
  induction sps with
  | nil =>
    intro m ns as h hf _
    refine ⟨m, as, rfl, by simpa using h, by simp, by simp, rfl, rfl, rfl, rfl, rfl, rfl, fun _ _ _ => rfl, ?_,
      fun _ => ⟨[], by simp, rfl, by simp⟩, fun a ha => .inl ha⟩
    intro i sp h; simp at h
  | cons sp sps ih =>
    intro m ns as h hf hv
    obtain ⟨⟨get, v1⟩, ⟨p, v2, v3⟩, v4⟩ := hv sp List.mem_cons_self
    have hp := pyIdx_start v3
    have hd : m.features.d1 = m.nStates := by rw [h.reach.ok.featStates, h.reach.ok.nStates]
    unfold attachLoop
    rw [checkSpec_of v1 v2 v4]
    simp only
    rw [attach_ok rfl h.le hd hp]
    simp only
    have hok := h.attach hf (sp := sp) hp (m.nAgents + m.nNonAgent) ⟨nF + nA, fun i => get [i]⟩
    obtain ⟨m', as', i1, i2, i3, i3', i4, i5, i6, i7, i8, i9, i10, i11, i12, i13⟩ := ih (addRow m (Spec.stateOf m.nStates p))
      (ns ++ [sp.name]) _ hok (.inr rfl) (fun sp hsp => hv sp (List.mem_cons_of_mem _ hsp))
    refine ⟨m', as', i1, by simpa using i2, ?_, by simp, ?_, ?_, i6, i7, i8, i9, ?_, ?_, ?_, ?_⟩
    · intro _
      by_cases he : sps = []
      · rw [i3' he]; rfl
      · exact i3 he
    · rw [i4]; simp only [addRow, List.length_cons]; omega
    · rw [i5]; simp only [addRow, List.length_cons]; omega
    · intro f s hlt
      rw [i10 f s (by simp only [addRow]; omega)]
      simp only [addRow]
      rw [if_neg (by omega)]
    · intro i sp' hsp'
      cases i with
      | zero =>
        simp only [List.getElem?_cons_zero, Option.some.injEq] at hsp'
        subst hsp'
        refine ⟨p, v2, fun s => ?_⟩
        rw [i10 _ s (by simp only [addRow]; omega)]
        simp [addRow]
      | succ i =>
        simp only [List.getElem?_cons_succ] at hsp'
        obtain ⟨p', h1, h2⟩ := i11 i sp' hsp'
        refine ⟨p', h1, fun s => ?_⟩
        have := h2 s
        have he : (addRow m (Spec.stateOf m.nStates p)).features.d0 + i = m.features.d0 + (i + 1) := by
          simp only [addRow]; omega
        rw [he] at this
        exact this
    · intro hnd
      have hnotin : sp.name ∉ as.map (·.name) := by
        intro hin
        rw [List.nodup_append] at hnd
        exact hnd.2.2 _ hin _ (by simp) rfl
      have hins : insertAgent as (newAgent m.nAgents (m.nAgents + m.nNonAgent) sp p
          ⟨nF + nA, fun i => get [i]⟩) =
          as ++ [newAgent m.nAgents (m.nAgents + m.nNonAgent) sp p ⟨nF + nA, fun i => get [i]⟩] := by
        unfold insertAgent
        rw [if_neg]; exact hnotin
      obtain ⟨new, n1, n2, n3⟩ := i12 (by
        rw [hins]
        simpa [newAgent] using hnd)
      refine ⟨newAgent m.nAgents (m.nAgents + m.nNonAgent) sp p ⟨nF + nA, fun i => get [i]⟩ :: new,
        ?_, by simp [n2], ?_⟩
      · rw [n1, hins]; simp
      · intro i a ha
        cases i with
        | zero =>
          simp only [List.getElem?_cons_zero, Option.some.injEq] at ha
          exact ⟨sp, p, get, rfl, v2, v1, by rw [← ha, Nat.add_zero]⟩
        | succ i =>
          simp only [List.getElem?_cons_succ] at ha
          obtain ⟨sp', p', r', b1, b2, b3, b4⟩ := n3 i a ha
          refine ⟨sp', p', r', by simpa using b1, b2, b3, ?_⟩
          rw [b4]
          have : (addRow m (Spec.stateOf m.nStates p)).nAgents + i = m.nAgents + (i + 1) := by
            simp only [addRow]; omega
          rw [this]
          rfl
    · intro a ha
      rcases i13 a ha with h1 | ⟨i, sp', p', r', b1, b2, b3, b4⟩
      · rcases mem_insert.1 h1 with rfl | ⟨h1, -⟩
        · exact .inr ⟨0, sp, p, get, rfl, v2, v1, by rw [Nat.add_zero]⟩
        · exact .inl h1
      · right
        refine ⟨i + 1, sp', p', r', by simpa using b1, b2, b3, ?_⟩
        rw [b4]
        have : (addRow m (Spec.stateOf m.nStates p)).nAgents + i = m.nAgents + (i + 1) := by
          simp only [addRow]; omega
        rw [this]
        rfl

/-- The loop fails if some agent is not valid. -/
theorem attachLoop_fail (nF nA : Nat) : ∀ (sps : List (AgentSpec K δ)) (m : Mdp K) (ns : List String)
    (as : List (Agent K δ)), Ok kind W H selfT ⟨m, ns, as, 0⟩ → as = [] ∨ m.features = m.originalFeatures →
    (¬ ∀ sp ∈ sps, Spec.ValidAgent m.nStates nF nA sp) →
    ∃ err, (attachLoop nF nA m.nAgents sps m as).2 = .error err := by
  intro sps
  induction sps with
  | nil => intro m ns as _ _ h; simp at h
  | cons sp sps ih =>
    intro m ns as h hf hv
    have hd : m.features.d1 = m.nStates := by rw [h.reach.ok.featStates, h.reach.ok.nStates]
    unfold attachLoop
    cases hc : checkSpec nF nA sp with
    | error err => exact ⟨err, rfl⟩
    | ok x =>
      obtain ⟨p, r⟩ := x
      obtain ⟨⟨get, v1, -⟩, v2, v4⟩ := checkSpec_ok hc
      simp only
      by_cases hp : -(m.nStates : Int) ≤ p ∧ p < m.nStates
      · have hpi := pyIdx_start hp
        rw [attach_ok rfl h.le hd hpi]
        simp only
        refine ih (addRow m (Spec.stateOf m.nStates p)) (ns ++ [sp.name]) _
          (h.attach hf (sp := sp) hpi _ _) (.inr rfl) ?_
        intro hall
        apply hv
        intro sp' hsp'
        rcases List.mem_cons.1 hsp' with rfl | hsp'
        · exact ⟨⟨get, v1⟩, ⟨p, v2, hp⟩, v4⟩
        · exact hall sp' hsp'
      · have hpi : pyIdx m.nStates p = none := by rw [pyIdx_eq_none]; omega
        have := attach_fail (n := m.nAgents) (sp := sp) (r := r) hpi
        cases ha : attach m m.nAgents sp p r with
        | mk m' x =>
          rw [ha] at this
          simp only at this
          subst this
          exact ⟨_, rfl⟩

/-- An MDP without agent rows. -/
def bare (m : Mdp K) : Mdp K :=
  if 0 < m.nAgents then
    { m with
      features := { m.features with d0 := m.features.d0 - m.nAgents }
      originalFeatures := { m.features with d0 := m.features.d0 - m.nAgents }
      featureNames := Mdp.defaultNames (m.features.d0 - m.nAgents)
      nAgents := 0 }
  else m

theorem remove_eq {m : Mdp K} (h : Mdp.GridReach kind W H selfT m) :
    (if 0 < m.nAgents then m.removeAgentFeatures else (m, .ok ())) = (bare m, .ok ()) := by
  unfold bare
  split_ifs with h0
  · unfold Mdp.removeAgentFeatures Mdp.setFeatures
    have h1 : ¬ m.nAgents = 0 := by omega
    simp only [if_neg h1]
    have : ¬ m.features.d1 ≠ m.nStates := by
      rw [h.ok.featStates, h.ok.nStates]; simp
    rw [if_neg this]
  · rfl

theorem bare_ok {m : Mdp K} (h : Mdp.GridReach kind W H selfT m) :
    Mdp.GridReach kind W H selfT (bare m) ∧ (bare m).nAgents = 0 ∧
      (bare m).features.d0 = m.features.d0 - m.nAgents ∧ (bare m).features.get = m.features.get ∧
      (bare m).nStates = m.nStates ∧ (bare m).nNonAgent = m.nNonAgent ∧ (bare m).sas = m.sas ∧
      (bare m).walls = m.walls := by
  have h1 := remove_eq h
  unfold bare at h1 ⊢
  by_cases h0 : 0 < m.nAgents
  · rw [if_pos h0] at h1 ⊢
    refine ⟨?_, rfl, rfl, rfl, rfl, rfl, rfl, rfl⟩
    have := Mdp.GridReach.step .removeAgentFeatures h (by simp)
    simp only [Mdp.apply] at this
    rw [if_pos h0] at h1
    rw [h1] at this
    exact this
  · rw [if_neg h0]
    have : m.nAgents = 0 := by omega
    refine ⟨h, this, by omega, rfl, rfl, rfl, rfl, rfl⟩

end MaMDP.Env
