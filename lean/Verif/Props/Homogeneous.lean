import Verif.Lemmas.PdmJacobian
import Mathlib.Tactic.IntervalCases
/-!
# C45, C46: Jacobians of homogeneous transforms and of point distribution models
-/

namespace Menpofit
open MI Homog Spec

/-! ## C45 -/

/-- C45: `d_dp` of an affine transform of any dimension is the derivative of the transformed points
with respect to each of the `d (d + 1)` parameters, at every parameter vector. -/
theorem C45_affine_d_dp {np d : Nat} (hd : 0 < d) (points : Fin np → Fin d → ℝ) :
    ∃ jac, affineDdp d points = .ok jac ∧
      ∀ p, IsParamJacobian (fun q i => affineApply q (points i)) p (d * (d + 1)) jac := by
  obtain ⟨jac, h, hj⟩ := affineDdp_eq hd points
  refine ⟨jac, h, fun p i k r hk => ?_⟩
  have h1 := affineApply_deriv p (points i) k r
  obtain ⟨ha, hb, hc⟩ := hj i k r
  refine h1.congr_deriv ?_
  symm
  by_cases e : ∃ c : Fin d, k = c.val * d + r.val
  · obtain ⟨c, hkc⟩ := e
    rw [ha c hkc, Finset.sum_eq_single c, if_pos hkc.symm, if_neg]
    · simp
    · intro h'
      have := (digit_unique (r := r) (s := r) (a := d) (b := c.val) (by omega)).1
      have := c.isLt; omega
    · intro b _ hbc
      rw [if_neg]; · simp
      intro h'
      exact hbc (Fin.ext (digit_unique (r := r) (s := r) (a := b.val) (b := c.val) (by omega)).1)
    · simp
  · have hno : ∀ c : Fin d, k ≠ c.val * d + r.val := fun c hc => e ⟨c, hc⟩
    rw [Finset.sum_eq_zero]
    · by_cases e2 : k = d * d + r.val
      · rw [hb e2, if_pos e2.symm]; simp
      · rw [hc hno e2, if_neg (fun h' => e2 h'.symm)]; simp
    · intro c _
      rw [if_neg (fun h' => hno c h'.symm)]; simp

/-- C45: `d_dx` of an affine transform is the derivative of the transform at every point. -/
theorem C45_affine_d_dx {d : Nat} (p : Nat → ℝ) (x : Fin d → ℝ) :
    IsPointJacobian (affineApply p) x (affineDdx p) := by
  intro r c
  unfold affineApply
  have h : HasDerivAt (fun t => ∑ j : Fin d, hEntry p r j.val * Function.update x c t j)
      (∑ j : Fin d, hEntry p r j.val * if j = c then 1 else 0) (x c) := by
    refine HasDerivAt.fun_sum fun j _ => HasDerivAt.const_mul _ ?_
    by_cases hj : j = c
    · subst hj; simpa using hasDerivAt_id' (x j)
    · simpa [Function.update_of_ne hj, hj] using hasDerivAt_const (x c) (x j)
  simpa [affineDdx] using h.add_const (hEntry p r d)

/-- C45: `d_dp` of a 2D similarity is the derivative with respect to `[a, b, tx, ty]`. -/
theorem C45_similarity_d_dp {np : Nat} (points : Fin np → Fin 2 → ℝ) :
    ∃ jac, similarityDdp 2 points = .ok jac ∧
      ∀ p, IsParamJacobian (fun q i => simApply q (points i)) p 4 jac := by
  obtain ⟨jac, h, hj⟩ := simDdp_eq points
  refine ⟨jac, h, fun p i k r hk => ?_⟩
  have h1 := simApply_deriv p (points i) k r
  refine h1.congr_deriv ?_
  symm
  obtain ⟨⟨a, b⟩, ⟨c, d⟩, ⟨e, f⟩, g, g'⟩ := hj i
  interval_cases k <;> match r with
    | 0 => simp [a, c, e, g]
    | 1 => simp [b, d, f, g']

/-- C45: `d_dx` of a 2D similarity. -/
theorem C45_similarity_d_dx (p : Nat → ℝ) (x : Fin 2 → ℝ) :
    IsPointJacobian (simApply p) x (simDdx p) := by
  have hu : ∀ c j : Fin 2, HasDerivAt (fun t => Function.update x c t j) (if j = c then 1 else 0) (x c) := by
    intro c j
    by_cases hj : j = c
    · subst hj; simpa using hasDerivAt_id' (x j)
    · simpa [Function.update_of_ne hj, hj] using hasDerivAt_const (x c) (x j)
  intro r c
  unfold simApply
  by_cases hr : r = 0
  · subst hr
    simp only [if_true]
    have := (((hu c 0).const_mul (1 + p 0)).fun_sub ((hu c 1).const_mul (p 1))).add_const (p 2)
    refine this.congr_deriv ?_
    symm
    match c with
    | 0 => simp [simDdx]
    | 1 => simp [simDdx]
  · have hr1 : r = 1 := by omega
    subst hr1
    simp only [if_neg hr]
    have := (((hu c 0).const_mul (p 1)).fun_add ((hu c 1).const_mul (1 + p 0))).add_const (p 3)
    refine this.congr_deriv ?_
    symm
    match c with
    | 0 => simp [simDdx]
    | 1 => simp [simDdx]

/-- C45: sampling `d_dp` in the wrong dimension is a `ValueError`, and so is any similarity that is
not two-dimensional. -/
theorem C45_wrong_dimension {np pd d : Nat} (points : Fin np → Fin pd → ℝ) (h : pd ≠ d) :
    affineDdp d points = .error .valueError ∧ similarityDdp d points = .error .valueError ∧
      ∀ (points' : Fin np → Fin d → ℝ), d ≠ 2 → similarityDdp d points' = .error .valueError := by
  refine ⟨by simp [affineDdp, h], by simp [similarityDdp, h], fun p' h2 => ?_⟩
  simp [similarityDdp, h2]

example : affineDdp (np := 1) (pd := 3) 2 (fun _ _ => 0) = .error .valueError :=
  (C45_wrong_dimension _ (by decide)).1

/-- In 1D the Jacobian at the point 5 is `[5, 1]`. -/
example : ∃ jac, affineDdp (np := 1) (pd := 1) 1 (fun _ _ => 5) = .ok jac ∧
    jac 0 0 0 = 5 ∧ jac 0 1 0 = 1 := by
  obtain ⟨jac, h, hj⟩ := affineDdp_eq (np := 1) (d := 1) one_pos (fun _ _ => 5)
  exact ⟨jac, h, (hj 0 0 0).1 0 (by simp), (hj 0 1 0).2.1 (by simp)⟩

/-! ## C46 -/

/-- C46: for a plain PDM, `d_dp` is the derivative of the target with respect to the weights. -/
theorem C46_pdm {n d : Nat} (p : Pdm n d) (f : (Nat → ℝ) → Fin n → Fin d → ℝ)
    (hf : ∀ q, ∃ p', fromVector p (vectorOf q p.model.active.length) = .ok p' ∧
      ∀ i r, p'.target (i, r) = f q i r) (q : Nat → ℝ) :
    IsParamJacobian f q p.model.active.length (pdmDdp p.model) := by
  have e : ∀ q i r, f q i r = p.model.mean (i, r) +
      ∑ k : Fin p.model.active.length, q k.val * p.model.active[k] (i, r) := by
    intro q i r
    obtain ⟨p', h, ht⟩ := hf q
    rw [← ht]
    have hi : p.model.inst (vectorOf q p.model.active.length) =
        .ok (p.model.mean + combine (vectorOf q p.model.active.length) p.model.active) := by
      rw [Pca.inst, instanceOf_ok]; exact ⟨by simp [vectorOf], rfl⟩
    simp only [fromVector, fromVectorInplace, hi] at h
    injection h with h
    subst h
    simp only [Pi.add_apply, combine_apply]
    congr 1
    refine Finset.sum_congr rfl fun k _ => ?_
    simp [vectorOf]
  intro i k r hk
  simp only [e]
  have h : HasDerivAt (fun t => ∑ j : Fin p.model.active.length,
      Function.update q k t j.val * p.model.active[j] (i, r))
      (∑ j : Fin p.model.active.length, (if j.val = k then 1 else 0) * p.model.active[j] (i, r)) (q k) :=
    HasDerivAt.fun_sum fun j _ => (hasDerivAt_update q k j.val).mul_const _
  have e2 : (∑ j : Fin p.model.active.length, (if j.val = k then (1 : ℝ) else 0) *
      p.model.active[j] (i, r)) = pdmDdp p.model i k r := by
    rw [Finset.sum_eq_single (⟨k, hk⟩ : Fin p.model.active.length)]
    · simp [pdmDdp, hk]
    · intro j _ hj
      rw [if_neg]; · simp
      intro h'; exact hj (Fin.ext h')
    · simp
  rw [e2] at h
  exact h.const_add _

/-- C46: for a `GlobalSimilarityModel`, `d_dp` is the derivative of the target with respect to the
four parameters, in every state. -/
theorem C46_global_similarity {n : Nat} (p : GSim (Pts n 2 × Sim) n 2) (f : (Nat → ℝ) → Fin n → Fin 2 → ℝ)
    (hf : ∀ q, ∃ p', simFromVector (alignmentSimilarity n) p (vectorOf q 4) = .ok p' ∧
      ∀ i r, p'.target (i, r) = f q i r) :
    ∃ jac, gsimDdp p.mean = .ok jac ∧ ∀ q, IsParamJacobian f q 4 jac := by
  have e : f = fun q i => simApply q fun r => p.mean (i, r) := by
    funext q i r
    obtain ⟨p', h, ht⟩ := hf q
    have h1 : (alignmentSimilarity n).ofVec p.glob (vectorOf q 4) =
      .ok (p.glob.1, ⟨1 + q 0, q 1, q 2, q 3⟩) := rfl
    rw [simFromVector, h1] at h
    simp only [bind, Except.bind] at h
    injection h with h
    rw [← ht, ← h]
    rfl
  rw [e]
  exact C45_similarity_d_dp fun (i : Fin n) r => p.mean (i, r)

/-- Every `GlobalSimilarityModel` has such a target function. -/
example (p : GSim (Pts 2 2 × Sim) 2 2) : ∃ f : (Nat → ℝ) → Fin 2 → Fin 2 → ℝ,
    ∀ q, ∃ p', simFromVector (alignmentSimilarity 2) p (vectorOf q 4) = .ok p' ∧
      ∀ i r, p'.target (i, r) = f q i r :=
  ⟨fun q i => simApply q fun r => p.mean (i, r), fun q => ⟨_, rfl, fun _ _ => rfl⟩⟩

/-- C46 (part): for a `GlobalPDM` with a similarity transform, `d_dp` is the derivative of the target
in the states whose non-rigid weights are all zero and whose similarity does not rotate.
Missing: all other states, where it is wrong (see the next two theorems). -/
theorem C46_global_pdm_partial {n : Nat} (p p₁ : GPdm (Pts n 2 × Sim) n 2) (q : Nat → ℝ)
    (h : gFromVector (alignmentSimilarity n) p (vectorOf q (nParams p.model.active.length)) = .ok p₁)
    (hw : ∀ j, q (4 + j) = 0) (hr : q 1 = 0) (f) (hf : GTargets p₁ f) :
    ∃ jac, gpdmSimDdp p₁ = .ok jac ∧ IsParamJacobian f q (nParams p₁.model.active.length) jac := by
  have hp : p₁.model = p.model ∧ (alignmentSimilarity n).toVec p₁.glob = [q 0, q 1, q 2, q 3] := by
    have e : (alignmentSimilarity n).nParams = 4 := rfl
    have h1 : (alignmentSimilarity n).ofVec p.glob (vectorOf q 4) =
      .ok (p.glob.1, ⟨1 + q 0, q 1, q 2, q 3⟩) := rfl
    rw [gFromVector, e, vectorOf_take, vectorOf_drop, h1] at h
    simp only [bind, Except.bind, gTargetOf, shapeAt_eq, Except.map] at h
    injection h with h
    subst h
    simp [alignmentSimilarity]
  obtain ⟨hm, hg⟩ := hp
  have ef : ∀ q i r, f q i r = simApply q (shapeAt p₁.model q i) r := by
    intro q i r
    obtain ⟨p', h', ht⟩ := hf q
    obtain ⟨p'', h'', ht'⟩ := gFromVector_target p₁ q
    rw [h'] at h''; injection h'' with h''; subst h''
    rw [← ht, ht']
  obtain ⟨dq, hd, hj⟩ := simDdp_eq (fun (i : Fin n) r => p₁.model.mean (i, r))
  have hs : ∀ i r, shapeAt p₁.model q i r = p₁.model.mean (i, r) := by
    intro i r; simp [shapeAt, hw]
  refine ⟨gpdmDdp p₁.model 4 dq (simDdx fun k => [q 0, q 1, q 2, q 3].getD k 0),
    by simp [gpdmSimDdp, hd, hg, bind, Except.bind], ?_⟩
  intro i k r hk
  simp only [ef]
  have ht := hasDerivAt_gtarget p₁.model q k i r
  refine ht.congr_deriv ?_
  symm
  obtain ⟨⟨a, b⟩, ⟨c, d⟩, ⟨e, f⟩, g, g'⟩ := hj i
  by_cases h4 : k < 4
  · simp only [gpdmDdp, if_pos h4, hs]
    interval_cases k <;> match r with
      | 0 => simp [a, c, e, g]
      | 1 => simp [b, d, f, g']
  · have e0 : ¬ 0 = k := by omega
    have e1 : ¬ 1 = k := by omega
    have e2 : ¬ 2 = k := by omega
    have e3 : ¬ 3 = k := by omega
    have e4 : 4 ≤ k := by omega
    simp only [gpdmDdp, if_neg h4, e0, e1, e2, e3, e4, if_true, if_false, Fin.sum_univ_two, hr]
    match r with
    | 0 => simp [simDdx, hr]
    | 1 => simp [simDdx, hr]

/-- Targets of a `GlobalPDM` exist for every parameter vector (hypothesis `hf` above). -/
theorem gtargets_exist {n : Nat} (p : GPdm (Pts n 2 × Sim) n 2) :
    GTargets p fun q i r => simApply q (shapeAt p.model q i) r := gFromVector_target p

/-- One point at the origin that can move along the first axis. -/
noncomputable def onePoint (weights : List ℝ) (s : Sim) : GPdm (Pts 1 2 × Sim) 1 2 :=
  ⟨⟨0, [fun ij => if ij.2 = 0 then 1 else 0], 1⟩, weights, 0, (0, s)⟩

/-- The hypotheses of `C46_global_pdm_partial` are met: scaling by three, translating by one. -/
example : ∃ p₁, gFromVector (alignmentSimilarity 1) (onePoint [0] ⟨1, 0, 0, 0⟩)
      (vectorOf (fun k => [2, 0, 1, 0].getD k 0)
        (nParams (onePoint [0] ⟨1, 0, 0, 0⟩).model.active.length)) = .ok p₁ ∧
    (∀ j, [(2 : ℝ), 0, 1, 0].getD (4 + j) 0 = 0) ∧ ∃ f, GTargets p₁ f := by
  obtain ⟨p₁, h, -⟩ := gFromVector_target (onePoint [0] ⟨1, 0, 0, 0⟩) fun k => [2, 0, 1, 0].getD k 0
  exact ⟨p₁, h, fun j => by
    simp [List.getD_eq_getElem?_getD], _, gtargets_exist p₁⟩

/-- C46 is violated by rotations: with the similarity turned by 90 degrees the reported derivative
with respect to the non-rigid weight is along the wrong axis. -/
theorem C46_rotation_violated :
    ∃ (p : GPdm (Pts 1 2 × Sim) 1 2) (q : Nat → ℝ) (f : (Nat → ℝ) → Fin 1 → Fin 2 → ℝ) (jac : Jac 1 2),
      (alignmentSimilarity 1).toVec p.glob ++ p.weights = vectorOf q 5 ∧
      GTargets p f ∧ gpdmSimDdp p = .ok jac ∧ ¬ IsParamJacobian f q 5 jac := by
  obtain ⟨dq, hd, -⟩ := simDdp_eq (fun (i : Fin 1) r => (onePoint [0] ⟨0, 1, 0, 0⟩).model.mean (i, r))
  refine ⟨onePoint [0] ⟨0, 1, 0, 0⟩, fun k => [-1, 1, 0, 0, 0].getD k 0, _,
    gpdmDdp (onePoint [0] ⟨0, 1, 0, 0⟩).model 4 dq (simDdx fun k =>
      ((alignmentSimilarity 1).toVec (onePoint [0] ⟨0, 1, 0, 0⟩).glob).getD k 0), ?_, gtargets_exist _, ?_, ?_⟩
  · simp [onePoint, alignmentSimilarity, vectorOf, List.range_succ]
  · simp only [gpdmSimDdp, hd, bind, Except.bind]
  · intro h
    have h1 := h 0 4 0 (by norm_num)
    have h2 := hasDerivAt_gtarget (onePoint [0] ⟨0, 1, 0, 0⟩).model
      (fun k => [-1, 1, 0, 0, 0].getD k 0) 4 0 0
    have := h1.unique h2
    norm_num [gpdmDdp, onePoint, pdmDdp, Pca.active, simDdx, alignmentSimilarity,
      Fin.sum_univ_two] at this

/-- C46 is violated away from the mean: the derivative with respect to the scale parameter is
evaluated at the mean shape instead of the current shape. -/
theorem C46_away_from_mean_violated :
    ∃ (p : GPdm (Pts 1 2 × Sim) 1 2) (q : Nat → ℝ) (f : (Nat → ℝ) → Fin 1 → Fin 2 → ℝ) (jac : Jac 1 2),
      (alignmentSimilarity 1).toVec p.glob ++ p.weights = vectorOf q 5 ∧ q 1 = 0 ∧
      GTargets p f ∧ gpdmSimDdp p = .ok jac ∧ ¬ IsParamJacobian f q 5 jac := by
  obtain ⟨dq, hd, hj⟩ := simDdp_eq (fun (i : Fin 1) r => (onePoint [1] ⟨1, 0, 0, 0⟩).model.mean (i, r))
  refine ⟨onePoint [1] ⟨1, 0, 0, 0⟩, fun k => [0, 0, 0, 0, 1].getD k 0, _,
    gpdmDdp (onePoint [1] ⟨1, 0, 0, 0⟩).model 4 dq (simDdx fun k =>
      ((alignmentSimilarity 1).toVec (onePoint [1] ⟨1, 0, 0, 0⟩).glob).getD k 0), ?_, rfl, gtargets_exist _, ?_, ?_⟩
  · simp [onePoint, alignmentSimilarity, vectorOf, List.range_succ]
  · simp only [gpdmSimDdp, hd, bind, Except.bind]
  · intro h
    have h1 := h 0 0 0 (by norm_num)
    have h2 := hasDerivAt_gtarget (onePoint [1] ⟨1, 0, 0, 0⟩).model
      (fun k => [0, 0, 0, 0, 1].getD k 0) 0 0 0
    have := h1.unique h2
    have hz := (hj 0).1.1
    have hs : shapeAt (onePoint [1] ⟨1, 0, 0, 0⟩).model
        (fun k => [(0 : ℝ), 0, 0, 0, 1].getD k 0) 0 0 = 1 := by
      change (0 : ℝ) + ∑ k : Fin 1, [(0 : ℝ), 0, 0, 0, 1].getD (4 + k.val) 0 * (1 : ℝ) = 1
      simp
    rw [hs] at this
    norm_num [gpdmDdp, hz, onePoint] at this

/-- C46 (part): the same for an `OrthoPDM` in the states reached without increments: at zero
non-rigid weights and without rotation (and with a similarity that does not collapse the
shape), `d_dp` is the derivative of the target. -/
theorem C46_ortho_pdm_partial {n : Nat} (ortho : Ortho n) (m : Pca n 2)
    (ho : OrthoSpec ortho (similarityComponents m.mean) m.comps) {p₀ : OPdm n}
    (h₀ : newOPdm ortho m = .ok p₀) (ops : List (PdmOp n 2)) (hops : ∀ o ∈ ops, NoIncrement o)
    (q : Nat → ℝ) (p₁ : OPdm n)
    (h : let p := ops.foldl (opdmStep ortho) p₀
      oFromVector p (vectorOf q (nParams p.model.active.length)) = .ok p₁)
    (hc : ¬ Collapsed p₁.target) (hw : ∀ j, q (4 + j) = 0) (hr : p₁.glob.b = 0)
    (f) (hf : OTargets p₁ f) :
    IsParamJacobian f q (nParams p₁.model.active.length) (opdmDdp p₁) := by
  obtain ⟨p, hp⟩ : ∃ p, p = ops.foldl (opdmStep ortho) p₀ := ⟨_, rfl⟩
  have hrd : Ready p := hp ▸ ready_reach ortho m ho h₀ ops hops
  rw [← hp] at h
  simp only at h
  have h1 : instanceOf p.simMean p.simComps (vectorOf q 4) = .ok (simAt p q) := by
    rw [instanceOf_ok]; exact ⟨by simp [vectorOf, hrd.four], rfl⟩
  simp only [oFromVector, vectorOf_take, vectorOf_drop, oUpdateGlobalWeights, h1, bind, Except.bind,
    oTargetOf, shapeAt_eq, Except.map] at h
  injection h with h
  have hm : p₁.model = p.model := by rw [← h]
  have hsc : p₁.simComps = p.simComps := by rw [← h]
  have hsm : p₁.simMean = p.simMean := by rw [← h]
  have hso : p₁.source = p.source := by rw [← h]
  have hsa : ∀ q, simAt p₁ q = simAt p q := fun q => by rw [simAt, simAt, hsm, hsc]
  have hg : p₁.glob = procrustes p.source (simAt p q) := by rw [← h]
  have hs : ∀ i r, shapeAt p.model q i r = p.model.mean (i, r) := by
    intro i r; simp [shapeAt, hw]
  have hsh : (fun ij : Fin n × Fin 2 => shapeAt p.model q ij.1 ij.2) = p.model.mean := by
    funext ij; exact hs _ _
  have htar : p₁.target = (procrustes p.source (simAt p q)).apply p.model.mean := by
    rw [← h]; simp only [hsh]
  have hn := pos_of_not_collapsed hc
  have hcs : ¬ Collapsed (simAt p q) := by
    intro hcol
    rw [htar, collapsed_apply_iff hn, not_or] at hc
    have h0 : centred (simAt p q) = 0 := by
      have := (centred_zero_iff hn _).2 hcol
      exact dotProduct_self_eq_zero.1 this
    apply hc.2
    simp [procrustes, h0]
  have ef : ∀ q i r, f q i r =
      ((procrustes p.source (simAt p q)).apply fun ij => shapeAt p.model q ij.1 ij.2) (i, r) := by
    intro q i r
    obtain ⟨p', h', ht⟩ := hf q
    obtain ⟨p'', h'', ht'⟩ := oFromVector_target p₁ (by rw [hsc]; exact hrd.four) q
    rw [h'] at h''; injection h'' with h''; subst h''
    rw [← ht, ht', hso, hsa, hm]
  intro i k r hk
  simp only [ef]
  by_cases h4 : k < 4
  · -- similarity parameters
    have hd := hasDerivAt_simAt p q hrd.four h4 (i, r)
    have : opdmDdp p₁ i k r = (p.simComps.getD k 0) (i, r) := by
      simp only [opdmDdp, gpdmDdp, if_pos h4, hsc]
    rw [this]
    refine hd.congr_of_eventuallyEq ?_
    filter_upwards [simAt_eventually p q k hcs] with t ht
    have hshape : (fun ij : Fin n × Fin 2 => shapeAt p.model (Function.update q k t) ij.1 ij.2) =
        p.model.mean := by
      funext ij
      have : ∀ j, Function.update q k t (4 + j) = 0 := fun j => by
        rw [Function.update_of_ne (by omega), hw]
      simp [shapeAt, this]
    rw [hshape, procrustes_simAt hrd _ ht]
  · -- non-rigid parameters
    have h4' : 4 ≤ k := by omega
    have hsim : ∀ t, simAt p (Function.update q k t) = simAt p q := by
      intro t
      funext x
      simp only [simAt_apply]
      congr 1
      refine Finset.sum_congr rfl fun j _ => ?_
      congr 1
      by_cases hj : j.val < 4
      · simp [hj, Function.update_of_ne (show j.val ≠ k by omega)]
      · simp [hj]
    simp only [hsim]
    have hb : (procrustes p.source (simAt p q)).b = 0 := by rw [← hg]; exact hr
    obtain ⟨s, hs'⟩ : ∃ s, s = procrustes p.source (simAt p q) := ⟨_, rfl⟩
    rw [← hs'] at hb ⊢
    have hS := hasDerivAt_shape p.model q k i
    simp only [if_pos h4'] at hS
    have key : opdmDdp p₁ i k r = s.a * pdmDdp p.model i (k - 4) r := by
      have hga : p₁.glob = s := by rw [hg, hs']
      have hb' : s.b = 0 := hb
      simp only [opdmDdp, gpdmDdp, if_neg h4, hm, hga, Fin.sum_univ_two]
      match r with
      | 0 => simp [simDdx, hb']
      | 1 => simp [simDdx, hb']
    rw [key]
    match r with
    | 0 =>
      have h' := ((hS 0).const_mul s.a).add_const s.tx
      simpa [Sim.apply, hb] using h'
    | 1 =>
      have h' := ((hS 1).const_mul s.a).add_const s.ty
      simpa [Sim.apply, hb] using h'

/-- The hypotheses of `C46_ortho_pdm_partial` are met by a freshly built model with one non-rigid
component, at its own parameters. -/
example : OrthoSpec crossOrtho (similarityComponents cross) [squeeze] ∧
    ∃ p₀ p₁, newOPdm crossOrtho ⟨cross, [squeeze], 1⟩ = .ok p₀ ∧
      oFromVector p₀ (vectorOf (fun _ => 0) (nParams p₀.model.active.length)) = .ok p₁ ∧
      ¬ Collapsed p₁.target ∧ p₁.glob.b = 0 ∧ ∃ f, OTargets p₁ f := by
  obtain ⟨q, hq⟩ : ∃ q : Nat → ℝ, q = fun _ => 0 := ⟨_, rfl⟩
  rw [← hq]
  refine ⟨⟨by simp [crossOrtho, crossSim], crossSim_orth, by
    simpa [crossOrtho] using crossSim_span 1 one_ne_zero⟩, ?_⟩
  obtain ⟨p₀, h, h1, h2, h3, h4, h5, h6, h7, h8, h9⟩ := newOPdm_eq crossOrtho ⟨cross, [squeeze], 1⟩
  have hf : p₀.simComps.length = 4 := by rw [h4]; simp [crossOrtho, crossSim, similarityComponents]
  have hc : ¬ Collapsed cross := by
    intro h
    have := (h 0 2).1
    norm_num at this
  have hp : procrustes cross cross = ⟨1, 0, 0, 0⟩ := by
    have e : (⟨1, 0, 0, 0⟩ : Sim).apply cross = cross := by rw [sim_apply_eq]; simp
    have := procrustes_exact (by decide) ⟨1, 0, 0, 0⟩ cross (by rw [e]; exact hc)
    rwa [e] at this
  have hs : simAt p₀ q = cross := by
    funext x; rw [simAt_apply, h1]; simp [hq]
  have hsh : (fun ij : Fin 4 × Fin 2 => shapeAt p₀.model q ij.1 ij.2) = cross := by
    funext ij; simp [shapeAt, h2, hq]
  obtain ⟨p₁, hp₁, ht⟩ := oFromVector_target p₀ hf q
  have hi : OInv p₀ := ⟨hf, h7, by rw [h6, h3, h1, h8, combine_zero]; simp, .inl (by rw [h8, hf]; simp)⟩
  refine ⟨p₀, p₁, h, hp₁, ?_, ?_, ?_⟩
  · rw [ht, hs, hsh, h3, hp, sim_apply_eq]; simpa using hc
  · simp only [oFromVector, vectorOf_take, vectorOf_drop, oUpdateGlobalWeights, bind, Except.bind] at hp₁
    have h1' : instanceOf p₀.simMean p₀.simComps (vectorOf q 4) =
        .ok (simAt p₀ q) := by
      rw [instanceOf_ok]; exact ⟨by simp [vectorOf, hf], rfl⟩
    simp only [h1', oTargetOf, shapeAt_eq, Except.map] at hp₁
    injection hp₁ with hp₁
    rw [← hp₁]
    simp only [hs, h3, hp]
  · have hf1 : p₁.simComps.length = 4 := (oFromVector_inv hi hp₁).four
    refine ⟨fun q i r => ((procrustes p₁.source (simAt p₁ q)).apply
      fun ij => shapeAt p₁.model q ij.1 ij.2) (i, r), fun q => ?_⟩
    obtain ⟨p', h', ht'⟩ := oFromVector_target p₁ hf1 q
    exact ⟨p', h', fun i r => by rw [ht']⟩

end Menpofit
