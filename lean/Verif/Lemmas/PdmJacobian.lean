import Verif.Lemmas.Homogeneous
import Mathlib.Analysis.Normed.Field.Basic
import Mathlib.Topology.Algebra.Monoid
/-!
# Lemmas about the Jacobians of point distribution models
-/

namespace Menpofit
namespace Homog
open MI Spec Matrix

theorem vectorOf_take (q : Nat → ℝ) (k : Nat) : (vectorOf q (nParams k)).take 4 = vectorOf q 4 := by
  simp [vectorOf, nParams, ← List.map_take, List.take_range]

theorem vectorOf_drop (q : Nat → ℝ) (k : Nat) :
    (vectorOf q (nParams k)).drop 4 = (List.range k).map fun j => q (4 + j) := by
  simp only [vectorOf, nParams, ← List.map_drop]
  have : (List.range (4 + k)).drop 4 = (List.range k).map (4 + ·) := by
    rw [List.range_eq_range', List.drop_range', List.range'_eq_map_range]; simp
  rw [this, List.map_map]; rfl

theorem vectorOf4 (q : Nat → ℝ) : vectorOf q 4 = [q 0, q 1, q 2, q 3] := rfl

/-- The shape generated by the non-rigid parameters. -/
noncomputable def shapeAt {n : Nat} (m : Pca n 2) (q : Nat → ℝ) (i : Fin n) (r : Fin 2) : ℝ :=
  m.mean (i, r) + ∑ k : Fin m.active.length, q (4 + k.val) * m.active[k] (i, r)

theorem shapeAt_eq {n : Nat} (m : Pca n 2) (q : Nat → ℝ) :
    m.inst ((List.range m.active.length).map fun j => q (4 + j)) =
      .ok fun ij => shapeAt m q ij.1 ij.2 := by
  rw [Pca.inst, instanceOf_ok]
  refine ⟨by simp, ?_⟩
  funext ⟨i, r⟩
  simp only [shapeAt, Pi.add_apply, combine_apply]
  congr 1
  refine Finset.sum_congr rfl fun k _ => ?_
  simp

theorem gFromVector_target {n : Nat} (p : GPdm (Pts n 2 × Sim) n 2) (q : Nat → ℝ) :
    ∃ p', gFromVector (alignmentSimilarity n) p (vectorOf q (nParams p.model.active.length)) =
      .ok p' ∧ ∀ i r, p'.target (i, r) = simApply q (shapeAt p.model q i) r := by
  have e : (alignmentSimilarity n).nParams = 4 := rfl
  have h1 : (alignmentSimilarity n).ofVec p.glob (vectorOf q 4) =
      .ok (p.glob.1, ⟨1 + q 0, q 1, q 2, q 3⟩) := rfl
  have h3 : gTargetOf (alignmentSimilarity n)
      { p with glob := (p.glob.1, ⟨1 + q 0, q 1, q 2, q 3⟩),
               weights := (List.range p.model.active.length).map fun j => q (4 + j) } =
      .ok ((⟨1 + q 0, q 1, q 2, q 3⟩ : Sim).apply fun ij => shapeAt p.model q ij.1 ij.2) := by
    simp only [gTargetOf, shapeAt_eq]; rfl
  refine ⟨{ p with
    glob := (p.glob.1, ⟨1 + q 0, q 1, q 2, q 3⟩)
    weights := (List.range p.model.active.length).map fun j => q (4 + j)
    target := (⟨1 + q 0, q 1, q 2, q 3⟩ : Sim).apply fun ij => shapeAt p.model q ij.1 ij.2 }, ?_, ?_⟩
  · rw [gFromVector, e, vectorOf_take, vectorOf_drop, h1]
    simp only [bind, Except.bind, h3]
  · intro i r
    simp only [Sim.apply, simApply]

theorem hasDerivAt_shape {n : Nat} (m : Pca n 2) (q : Nat → ℝ) (k : Nat) (i : Fin n) (r : Fin 2) :
    HasDerivAt (fun t => shapeAt m (Function.update q k t) i r)
      (if 4 ≤ k then pdmDdp m i (k - 4) r else 0) (q k) := by
  unfold shapeAt
  have h : HasDerivAt (fun t => ∑ j : Fin m.active.length,
      Function.update q k t (4 + j.val) * m.active[j] (i, r))
      (∑ j : Fin m.active.length, (if 4 + j.val = k then 1 else 0) * m.active[j] (i, r)) (q k) :=
    HasDerivAt.fun_sum fun j _ => (hasDerivAt_update q k (4 + j.val)).mul_const _
  have e : (∑ j : Fin m.active.length, (if 4 + j.val = k then (1 : ℝ) else 0) * m.active[j] (i, r)) =
      if 4 ≤ k then pdmDdp m i (k - 4) r else 0 := by
    by_cases hk : 4 ≤ k
    · rw [if_pos hk]
      by_cases hl : k - 4 < m.active.length
      · rw [Finset.sum_eq_single (⟨k - 4, hl⟩ : Fin m.active.length)]
        · rw [if_pos (by simp; omega)]
          simp [pdmDdp, hl]
        · intro j _ hj
          rw [if_neg]; · simp
          intro h'; exact hj (Fin.ext (by simp; omega))
        · simp
      · rw [Finset.sum_eq_zero]
        · simp [pdmDdp, List.getElem?_eq_none (Nat.le_of_not_lt hl)]
        · intro j _
          rw [if_neg]; · simp
          have := j.isLt; omega
    · rw [if_neg hk, Finset.sum_eq_zero]
      intro j _
      rw [if_neg]; · simp
      omega
  rw [e] at h
  simpa using h.const_add (m.mean (i, r))

/-- The true derivative of the generated target. -/
theorem hasDerivAt_gtarget {n : Nat} (m : Pca n 2) (q : Nat → ℝ) (k : Nat) (i : Fin n) (r : Fin 2) :
    HasDerivAt (fun t => simApply (Function.update q k t) (shapeAt m (Function.update q k t) i) r)
      (if r = 0 then
        ((if 0 = k then 1 else 0) * shapeAt m q i 0 + (1 + q 0) * (if 4 ≤ k then pdmDdp m i (k - 4) 0 else 0))
        - ((if 1 = k then 1 else 0) * shapeAt m q i 1 + q 1 * (if 4 ≤ k then pdmDdp m i (k - 4) 1 else 0))
        + (if 2 = k then 1 else 0)
      else ((if 1 = k then 1 else 0) * shapeAt m q i 0 + q 1 * (if 4 ≤ k then pdmDdp m i (k - 4) 0 else 0))
        + ((if 0 = k then 1 else 0) * shapeAt m q i 1 + (1 + q 0) * (if 4 ≤ k then pdmDdp m i (k - 4) 1 else 0))
        + (if 3 = k then 1 else 0)) (q k) := by
  have h := hasDerivAt_update q k
  have hs := hasDerivAt_shape m q k i
  have h0 := ((h 0).const_add 1).fun_mul (hs 0)
  have h1 := ((h 0).const_add 1).fun_mul (hs 1)
  have h2 := (h 1).fun_mul (hs 0)
  have h3 := (h 1).fun_mul (hs 1)
  simp only [Function.update_eq_self] at h0 h1 h2 h3
  unfold simApply
  by_cases hr : r = 0
  · simp only [hr, if_true]
    exact (h0.fun_sub h3).fun_add (h 2)
  · simp only [hr, if_false]
    exact (h2.fun_add h1).fun_add (h 3)

/-! ### OrthoPDM -/

/-- The target of the similarity model. -/
noncomputable def simAt {n : Nat} (p : OPdm n) (q : Nat → ℝ) : Pts n 2 :=
  p.simMean + combine (vectorOf q 4) p.simComps

theorem oFromVector_target {n : Nat} (p : OPdm n) (h4 : p.simComps.length = 4) (q : Nat → ℝ) :
    ∃ p', oFromVector p (vectorOf q (nParams p.model.active.length)) = .ok p' ∧
      p'.target = (procrustes p.source (simAt p q)).apply fun ij => shapeAt p.model q ij.1 ij.2 := by
  have h1 : instanceOf p.simMean p.simComps (vectorOf q 4) = .ok (simAt p q) := by
    rw [instanceOf_ok]; exact ⟨by simp [vectorOf, h4], rfl⟩
  refine ⟨{ p with
    simWeights := vectorOf q 4
    glob := procrustes p.source (simAt p q)
    weights := (List.range p.model.active.length).map fun j => q (4 + j)
    target := (procrustes p.source (simAt p q)).apply fun ij => shapeAt p.model q ij.1 ij.2 }, ?_, rfl⟩
  simp only [oFromVector, vectorOf_take, vectorOf_drop, oUpdateGlobalWeights, h1, bind, Except.bind,
    oTargetOf, shapeAt_eq, Except.map]

theorem simAt_apply {n : Nat} (p : OPdm n) (q : Nat → ℝ) (x) :
    simAt p q x = p.simMean x +
      ∑ k : Fin p.simComps.length, (if k.val < 4 then q k.val else 0) * p.simComps[k] x := by
  simp only [simAt, Pi.add_apply, combine_apply]
  congr 1
  refine Finset.sum_congr rfl fun k _ => ?_
  congr 1
  by_cases hk : k.val < 4
  · simp [vectorOf, hk]
  · simp [vectorOf, List.getElem?_eq_none (l := List.range 4) (i := k.val) (by simp; omega), hk]

theorem hasDerivAt_simAt {n : Nat} (p : OPdm n) (q : Nat → ℝ) (h4 : p.simComps.length = 4) {k : Nat}
    (hk : k < 4) (x) :
    HasDerivAt (fun t => simAt p (Function.update q k t) x) ((p.simComps.getD k 0) x) (q k) := by
  simp only [simAt_apply]
  have h : HasDerivAt (fun t => ∑ j : Fin p.simComps.length,
      (if j.val < 4 then Function.update q k t j.val else 0) * p.simComps[j] x)
      (∑ j : Fin p.simComps.length, (if j.val = k then 1 else 0) * p.simComps[j] x) (q k) := by
    refine HasDerivAt.fun_sum fun j _ => ?_
    have : j.val < 4 := h4 ▸ j.isLt
    simp only [this, if_true]
    exact (hasDerivAt_update q k j.val).mul_const _
  have e : (∑ j : Fin p.simComps.length, (if j.val = k then (1 : ℝ) else 0) * p.simComps[j] x) =
      (p.simComps.getD k 0) x := by
    have hl : k < p.simComps.length := by omega
    rw [Finset.sum_eq_single (⟨k, hl⟩ : Fin p.simComps.length)]
    · simp [hl]
    · intro j _ hj
      rw [if_neg]; · simp
      intro h'; exact hj (Fin.ext h')
    · simp
  rw [e] at h
  exact h.const_add (p.simMean x)

theorem simAt_eventually {n : Nat} (p : OPdm n) (q : Nat → ℝ) (k : Nat)
    (hc : ¬ Collapsed (simAt p q)) :
    ∀ᶠ t in nhds (q k), ¬ Collapsed (simAt p (Function.update q k t)) := by
  have hn := pos_of_not_collapsed hc
  simp only [← centred_zero_iff hn] at hc ⊢
  have hcont : Continuous fun t => centred (simAt p (Function.update q k t)) ⬝ᵥ
      centred (simAt p (Function.update q k t)) := by
    have h1 : ∀ x, Continuous fun t => simAt p (Function.update q k t) x := by
      intro x
      simp only [simAt_apply]
      refine continuous_const.add (continuous_finset_sum _ fun j _ => ?_)
      refine Continuous.mul ?_ continuous_const
      by_cases hj : j.val < 4
      · simp only [hj, if_true]
        by_cases hk : j.val = k
        · simp only [hk, Function.update_self]; exact continuous_id
        · simp only [Function.update_of_ne hk]; exact continuous_const
      · simp only [hj, if_false]; exact continuous_const
    have h2 : ∀ x, Continuous fun t => centred (simAt p (Function.update q k t)) x := by
      intro x
      simp only [centred, centroid]
      exact (h1 x).sub ((continuous_finset_sum _ fun i _ => h1 _).div_const _)
    exact continuous_finset_sum _ fun x _ => (h2 x).mul (h2 x)
  have := hcont.continuousAt (x := q k)
  refine this.eventually_ne ?_
  simpa using hc

/-- For a collapse-free state, the alignment to the similarity instance maps the mean to it. -/
theorem procrustes_simAt {n : Nat} {p : OPdm n} (h : Ready p) (q : Nat → ℝ)
    (hc : ¬ Collapsed (simAt p q)) : (procrustes p.source (simAt p q)).apply p.model.mean = simAt p q := by
  have hn := pos_of_not_collapsed hc
  obtain ⟨s, hs⟩ : ∃ s : Sim, simAt p q = s.apply p.model.mean := by
    have := combine_mem (vectorOf q 4) p.simComps
    rw [h.span, sim_span_iff] at this
    obtain ⟨a, b, x, y, e⟩ := this
    refine ⟨⟨1 + a, b, x, y⟩, ?_⟩
    rw [simAt, sim_apply_eq, h.simMean, e]; module
  rw [hs] at hc ⊢
  rw [h.source, procrustes_exact hn s _ hc]

end Homog
end Menpofit
