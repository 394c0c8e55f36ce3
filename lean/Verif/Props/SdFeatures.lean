import Verif.Model.SdFeatures
import Verif.Spec.SdFeatures
import Verif.Lemmas.AamSolvers
/-!
# C102: appearance features of supervised descent
-/

set_option linter.unusedSectionVars false

namespace Menpofit
open Matrix SdFeatures Spec Aam

variable {K : Type} [Field K] [LinearOrder K] [IsStrictOrderedRing K] {N m a : Nat}

theorem sampled_generated (z : SdFeatures.Setup K N m a) (c : Fin a → K) :
    sampled z (generated z.mean z.components c) = aBarM z + aM z *ᵥ c := by
  funext r
  simp only [sampled, generated, aBarM, aM, Pi.add_apply, mulVec, dotProduct, Matrix.of_apply,
    transpose_apply, mul_comm]

theorem sampled_add (z : SdFeatures.Setup K N m a) (x y : Fin N → K) :
    sampled z (x + y) = sampled z x + sampled z y := rfl

theorem projectedOut_eq (z : SdFeatures.Setup K N m a) (x : Fin N → K) :
    projectedOut z x = (1 - aM z * z.pinv) *ᵥ (sampled z x - aBarM z) := by
  rw [projectedOut, sub_mulVec, one_mulVec, mulVec_mulVec]

/-- C102: the project-out feature vector of every image the appearance model generates is zero, it
is orthogonal to every component on the sampled pixels, and two images have the same feature vector
exactly if on the sampled pixels they differ by a combination of components. -/
theorem C102_project_out (z : SdFeatures.Setup K N m a) (h : IsPinv (aM z) z.pinv) :
    (∀ c, projectedOut z (generated z.mean z.components c) = 0) ∧
    (∀ x j, ∑ r, z.components j (z.iMask r) * projectedOut z x r = 0) ∧
    (∀ x y, projectedOut z x = projectedOut z y ↔
      ∃ c : Fin a → K, ∀ r, x (z.iMask r) = y (z.iMask r) +
        ∑ j, c j * z.components j (z.iMask r)) := by
  refine ⟨fun c => ?_, fun x j => ?_, fun x y => ⟨fun e => ?_, ?_⟩⟩
  · rw [projectedOut_eq, sampled_generated, add_sub_cancel_left, mulVec_mulVec, h.q_A, zero_mulVec]
  · have : (aM z)ᵀ *ᵥ projectedOut z x = 0 := by
      rw [projectedOut_eq, mulVec_mulVec, h.At_q, zero_mulVec]
    exact congrFun this j
  · refine ⟨z.pinv *ᵥ (sampled z x - sampled z y), fun r => ?_⟩
    have e' : sampled z x - sampled z y = aM z *ᵥ (z.pinv *ᵥ (sampled z x - sampled z y)) := by
      have := sub_eq_zero.2 e
      rw [projectedOut_eq, projectedOut_eq, ← mulVec_sub, sub_sub_sub_cancel_right, sub_mulVec,
        one_mulVec, sub_eq_zero, ← mulVec_mulVec] at this
      exact this
    have k := congrFun e' r
    obtain ⟨w, hw⟩ : ∃ w, w = z.pinv *ᵥ (sampled z x - sampled z y) := ⟨_, rfl⟩
    rw [← hw] at k ⊢
    simp only [Pi.sub_apply, sampled, mulVec, dotProduct, aM, Matrix.of_apply,
      transpose_apply] at k
    rw [sub_eq_iff_eq_add] at k
    rw [k, add_comm]
    congr 1
    exact Finset.sum_congr rfl fun j _ => mul_comm _ _
  · rintro ⟨c, hc⟩
    have e : sampled z x = sampled z y + aM z *ᵥ c := by
      funext r
      simp only [sampled, Pi.add_apply, mulVec, dotProduct, aM, Matrix.of_apply, transpose_apply]
      rw [hc r]
      congr 1
      exact Finset.sum_congr rfl fun j _ => mul_comm _ _
    rw [projectedOut_eq, projectedOut_eq, e, add_sub_right_comm, mulVec_add, mulVec_mulVec, h.q_A,
      zero_mulVec, add_zero]

/-- C102: the appearance weights are the weights of a generated image that is closest on the sampled
pixels. -/
theorem C102_weights (z : SdFeatures.Setup K N m a) (h : IsPinv (aM z) z.pinv) (i : Fin N → K)
    (c : Fin a → K) :
    maskedError z.mean z.components z.iMask i (appearanceWeights z i) ≤
      maskedError z.mean z.components z.iMask i c := by
  have e : ∀ c, maskedError z.mean z.components z.iMask i c =
      sqNorm ((sampled z i - aBarM z) - aM z *ᵥ c) := by
    intro c
    have := sampled_generated z c
    simp only [maskedError, sqNorm]
    refine Finset.sum_congr rfl fun r _ => ?_
    have k := congrFun this r
    simp only [sampled, Pi.add_apply, Pi.sub_apply] at k ⊢
    rw [k]
    ring
  obtain ⟨x, hx⟩ : ∃ x, x = sampled z i - aBarM z := ⟨_, rfl⟩
  rw [e, e, appearanceWeights, ← hx]
  have o : (aM z)ᵀ *ᵥ (x - aM z *ᵥ (z.pinv *ᵥ x)) = 0 := by
    have : x - aM z *ᵥ (z.pinv *ᵥ x) = (1 - aM z * z.pinv) *ᵥ x := by
      rw [sub_mulVec, one_mulVec, mulVec_mulVec]
    rw [this, mulVec_mulVec, h.At_q, zero_mulVec]
  have p : x - aM z *ᵥ c = (x - aM z *ᵥ (z.pinv *ᵥ x)) + aM z *ᵥ (z.pinv *ᵥ x - c) := by
    rw [mulVec_sub]; abel
  have q : (aM z *ᵥ (z.pinv *ᵥ x - c)) ⬝ᵥ (x - aM z *ᵥ (z.pinv *ᵥ x)) = 0 := by
    rw [← dot_transpose, o, dotProduct_zero]
  have t : sqNorm (x - aM z *ᵥ c) = sqNorm (x - aM z *ᵥ (z.pinv *ᵥ x)) +
      sqNorm (aM z *ᵥ (z.pinv *ᵥ x - c)) := by
    rw [p, sqNorm_dot, add_dotProduct, dotProduct_add, dotProduct_add, q,
      dotProduct_comm (x - aM z *ᵥ (z.pinv *ᵥ x)) (aM z *ᵥ (z.pinv *ᵥ x - c)), q, sqNorm_dot, sqNorm_dot]
    ring
  rw [t]
  have := sqNorm_nonneg' (aM z *ᵥ (z.pinv *ᵥ x - c))
  linarith

/-- C102: if the components are linearly independent on the sampled pixels, the weights of a
generated image are recovered. -/
theorem C102_weights_exact (z : SdFeatures.Setup K N m a) (h : IsPinv (aM z) z.pinv)
    (hi : ∀ c : Fin a → K, (∀ r, ∑ j, c j * z.components j (z.iMask r) = 0) → c = 0)
    (c : Fin a → K) : appearanceWeights z (generated z.mean z.components c) = c := by
  rw [appearanceWeights, sampled_generated, add_sub_cancel_left]
  have e : aM z *ᵥ (z.pinv *ᵥ (aM z *ᵥ c) - c) = 0 := by
    rw [mulVec_sub, mulVec_mulVec, mulVec_mulVec, h.apa, sub_self]
  refine sub_eq_zero.1 (hi _ fun r => ?_)
  have k := congrFun e r
  obtain ⟨w, hw⟩ : ∃ w, w = z.pinv *ᵥ (aM z *ᵥ c) - c := ⟨_, rfl⟩
  rw [← hw] at k ⊢
  simp only [mulVec, dotProduct, aM, Matrix.of_apply, transpose_apply, Pi.zero_apply] at k
  rw [← k]
  exact Finset.sum_congr rfl fun j _ => mul_comm _ _

/-- C102: the features split what the mean template sees: the sampled pixels minus the mean are the
combination of components with the appearance weights plus the project-out features, and the squared
lengths of the two parts add up.  So project-out features never exceed those of the mean template. -/
theorem C102_split (z : SdFeatures.Setup K N m a) (h : IsPinv (aM z) z.pinv) (x : Fin N → K) :
    (∀ r, meanTemplate z x r = x (z.iMask r) - z.mean (z.iMask r)) ∧
    (∀ r, meanTemplate z x r = (∑ j, appearanceWeights z x j * z.components j (z.iMask r)) +
      projectedOut z x r) ∧
    ∑ r, meanTemplate z x r ^ 2 =
      ∑ r, (∑ j, appearanceWeights z x j * z.components j (z.iMask r)) ^ 2 +
      ∑ r, projectedOut z x r ^ 2 := by
  have e : ∀ r, ∑ j, appearanceWeights z x j * z.components j (z.iMask r) =
      (aM z *ᵥ appearanceWeights z x) r := by
    intro r
    simp only [mulVec, dotProduct, aM, Matrix.of_apply, transpose_apply]
    exact Finset.sum_congr rfl fun j _ => mul_comm _ _
  have s : meanTemplate z x = aM z *ᵥ appearanceWeights z x + projectedOut z x := by
    simp only [meanTemplate, appearanceWeights, projectedOut]
    abel
  have o : (aM z *ᵥ appearanceWeights z x) ⬝ᵥ projectedOut z x = 0 := by
    rw [← dot_transpose, projectedOut_eq, mulVec_mulVec, h.At_q, zero_mulVec, dotProduct_zero]
  refine ⟨fun r => rfl, fun r => by rw [e, s]; rfl, ?_⟩
  simp only [e]
  change sqNorm (meanTemplate z x) = sqNorm (aM z *ᵥ appearanceWeights z x) +
    sqNorm (projectedOut z x)
  rw [s, sqNorm_dot, add_dotProduct, dotProduct_add, dotProduct_add, o,
    dotProduct_comm (projectedOut z x) (aM z *ᵥ appearanceWeights z x), o, sqNorm_dot, sqNorm_dot]
  ring

/-- Three pixels of which two are sampled, one component with `pinv` a multiple of its transpose. -/
def toySd : SdFeatures.Setup ℚ 3 2 1 :=
  ⟨![1, 2, 3], !![1, 5, 2], ![0, 2], !![1/5, 2/5]⟩

example : IsPinv (aM toySd) toySd.pinv := by
  constructor <;> decide +kernel

example : projectedOut toySd ![2, 7, 3] = ![4/5, -2/5] ∧
    appearanceWeights toySd ![2, 7, 3] = ![1/5] ∧
    meanTemplate toySd ![2, 7, 3] = ![1, 0] := by
  decide +kernel

end Menpofit
