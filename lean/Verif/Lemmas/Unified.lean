import Verif.Model.Unified
import Verif.Spec.Unified
import Verif.Lemmas.GaussNewton
import Verif.Lemmas.Quadratic
import Mathlib.Data.Matrix.ColumnRowPartitioned
/-!
# Lemmas about unified fitting
-/

namespace Menpofit
open Matrix GN Unified Spec

variable {K : Type} [Field K] [LinearOrder K] [IsStrictOrderedRing K] {n m l : Nat}

/-- The solution of the normal equations of two weighted residuals and a prior is the only minimiser
of their energy. -/
theorem two_term_min (Ja : Matrix (Fin m) (Fin n) K) (Jc : Matrix (Fin l) (Fin n) K) (u v : K)
    (hu : 0 ≤ u) (hv : 0 ≤ v) (prior p d : Fin n → K) (hp : ∀ i, 0 ≤ prior i) (ea : Fin m → K)
    (ec : Fin l → K) (hdet : (u • (Jaᵀ * Ja) + v • (Jcᵀ * Jc) + diagonal prior).det ≠ 0)
    (hd : (u • (Jaᵀ * Ja) + v • (Jcᵀ * Jc) + diagonal prior) *ᵥ d =
      u • (Jaᵀ *ᵥ ea) + v • (Jcᵀ *ᵥ ec) - prior * p) :
    UniqueMin (fun x => u * sqNorm (ea - Ja *ᵥ x) + v * sqNorm (ec - Jc *ᵥ x) +
      priorEnergy prior (p + x)) d := by
  obtain ⟨W, hW⟩ : ∃ W : Matrix (Fin m ⊕ Fin l) (Fin m ⊕ Fin l) K,
    W = diagonal (Sum.elim (fun _ => u) (fun _ => v)) := ⟨_, rfl⟩
  obtain ⟨J, hJ⟩ : ∃ J : Matrix (Fin m ⊕ Fin l) (Fin n) K, J = fromRows Ja Jc := ⟨_, rfl⟩
  have hWJ : W * J = fromRows (u • Ja) (v • Jc) := by
    rw [hW, hJ]
    ext i j
    rw [diagonal_mul]
    cases i <;> simp
  have hJWJ : Jᵀ * W * J = u • (Jaᵀ * Ja) + v • (Jcᵀ * Jc) := by
    rw [Matrix.mul_assoc, hWJ, hJ, transpose_fromRows, fromCols_mul_fromRows]
    simp
  obtain ⟨e, he⟩ : ∃ e : Fin m ⊕ Fin l → K, e = Sum.elim (-ea) (-ec) := ⟨_, rfl⟩
  have hWe : W *ᵥ e = Sum.elim (-(u • ea)) (-(v • ec)) := by
    rw [hW, he]
    funext i
    rw [mulVec_diagonal]
    cases i <;> simp
  have hJWe : Jᵀ *ᵥ (W *ᵥ e) = -(u • (Jaᵀ *ᵥ ea) + v • (Jcᵀ *ᵥ ec)) := by
    rw [hWe, hJ, transpose_fromRows, fromCols_mulVec]
    have c1 : (Sum.elim (-(u • ea)) (-(v • ec)) : Fin m ⊕ Fin l → K) ∘ Sum.inl = -(u • ea) := rfl
    have c2 : (Sum.elim (-(u • ea)) (-(v • ec)) : Fin m ⊕ Fin l → K) ∘ Sum.inr = -(v • ec) := rfl
    rw [c1, c2, mulVec_neg, mulVec_neg, mulVec_smul, mulVec_smul]
    abel
  have hpp : diagonal prior *ᵥ p = prior * p := by funext i; simp [mulVec_diagonal]
  intro d'
  have key := regEnergy_min (W := W) (by rw [hW, diagonal_transpose])
    (by rw [hW]; exact diag_psd (fun i => by cases i <;> simp [hu, hv])) J e
    (diagonal_transpose prior) (diag_psd hp) p d (by rwa [hJWJ]) (by
      rw [hJWJ, hJWe, hd, hpp]; abel) d'
  have conv : ∀ x, u * sqNorm (ea - Ja *ᵥ x) + v * sqNorm (ec - Jc *ᵥ x) +
      priorEnergy prior (p + x) = regEnergy W J e (diagonal prior) p x := by
    intro x
    unfold regEnergy priorEnergy sqNorm
    rw [hW, diag_quad, diag_quad]
    congr 1
    rw [Fintype.sum_sum_type, hJ, he, fromRows_mulVec, Finset.mul_sum, Finset.mul_sum]
    congr 1
    · exact Finset.sum_congr rfl (fun i _ => by
        simp only [Sum.elim_inl, Pi.add_apply, Pi.sub_apply, Pi.neg_apply]; ring)
    · exact Finset.sum_congr rfl (fun i _ => by
        simp only [Sum.elim_inr, Pi.add_apply, Pi.sub_apply, Pi.neg_apply]; ring)
  simp only [conv]
  exact key

end Menpofit
