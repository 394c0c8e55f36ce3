import Mathlib.LinearAlgebra.Matrix.NonsingularInverse
import Mathlib.LinearAlgebra.Matrix.ToLinearEquiv
import Mathlib.Algebra.Order.Field.Basic
import Mathlib.Tactic.Ring
import Mathlib.Tactic.Linarith
import Mathlib.Tactic.FieldSimp
import Mathlib.Tactic.NormNum
/-!
# Minimisation of convex quadratic functions over an ordered field
-/

set_option linter.unusedSectionVars false

namespace Menpofit
open Matrix

variable {K : Type} [Field K] [LinearOrder K] [IsStrictOrderedRing K]
variable {ι κ : Type} [Fintype ι] [Fintype κ]

theorem symm_swap {W : Matrix κ κ K} (hW : Wᵀ = W) (x y : κ → K) :
    x ⬝ᵥ (W *ᵥ y) = y ⬝ᵥ (W *ᵥ x) := by
  rw [dotProduct_mulVec, dotProduct_comm, ← mulVec_transpose, hW]

theorem dot_transpose (J : Matrix κ ι K) (x : κ → K) (d : ι → K) :
    d ⬝ᵥ (Jᵀ *ᵥ x) = (J *ᵥ d) ⬝ᵥ x := by
  rw [dotProduct_comm, dotProduct_comm (J *ᵥ d), mulVec_transpose, dotProduct_mulVec]

theorem psd_add_smul {M : Matrix ι ι K} (hM : Mᵀ = M) (x y : ι → K) (t : K) :
    (x + t • y) ⬝ᵥ (M *ᵥ (x + t • y)) =
      x ⬝ᵥ (M *ᵥ x) + 2 * t * (y ⬝ᵥ (M *ᵥ x)) + t ^ 2 * (y ⬝ᵥ (M *ᵥ y)) := by
  simp only [mulVec_add, mulVec_smul, dotProduct_add, add_dotProduct, smul_dotProduct,
    dotProduct_smul, smul_eq_mul]
  rw [symm_swap hM x y]; ring

/-- A positive semidefinite form that vanishes at `x` has `M x = 0`. -/
theorem psd_zero {M : Matrix ι ι K} (hM : Mᵀ = M) (hp : ∀ x, 0 ≤ x ⬝ᵥ (M *ᵥ x)) (x : ι → K)
    (hx : x ⬝ᵥ (M *ᵥ x) = 0) : M *ᵥ x = 0 := by
  have key : ∀ y, y ⬝ᵥ (M *ᵥ x) = 0 := by
    intro y
    by_contra hne
    set b := y ⬝ᵥ (M *ᵥ x) with hb
    set c := y ⬝ᵥ (M *ᵥ y) with hc
    have hc0 : 0 ≤ c := hp y
    -- choose t = - b / (c + 1)
    have hpos : (0 : K) < c + 1 := by linarith
    have h := hp (x + (-b / (c + 1)) • y)
    rw [psd_add_smul hM, hx, ← hb, ← hc] at h
    have e : 0 + 2 * (-b / (c + 1)) * b + (-b / (c + 1)) ^ 2 * c =
        -(b ^ 2 * (c + 2)) / (c + 1) ^ 2 := by
      field_simp; ring
    rw [e] at h
    have hb2 : 0 < b ^ 2 := by positivity
    have : -(b ^ 2 * (c + 2)) / (c + 1) ^ 2 < 0 := by
      apply div_neg_of_neg_of_pos
      · have : 0 < b ^ 2 * (c + 2) := by positivity
        linarith
      · positivity
    linarith
  have := key (M *ᵥ x)
  have hz : ∀ i ∈ Finset.univ, (M *ᵥ x) i * (M *ᵥ x) i = 0 :=
    (Finset.sum_eq_zero_iff_of_nonneg (fun i _ => mul_self_nonneg _)).mp this
  funext i
  exact mul_self_eq_zero.mp (hz i (Finset.mem_univ _))

/-- The regularised energy: residual `e + J d` weighted by `W`, updated parameters `p + d`
weighted by `P`. -/
def regEnergy (W : Matrix κ κ K) (J : Matrix κ ι K) (e : κ → K) (P : Matrix ι ι K)
    (p d : ι → K) : K :=
  (e + J *ᵥ d) ⬝ᵥ (W *ᵥ (e + J *ᵥ d)) + (p + d) ⬝ᵥ (P *ᵥ (p + d))

theorem regEnergy_add {W : Matrix κ κ K} (hW : Wᵀ = W) (J : Matrix κ ι K) (e : κ → K)
    {P : Matrix ι ι K} (hP : Pᵀ = P) (p d δ : ι → K) :
    regEnergy W J e P p (d + δ) = regEnergy W J e P p d +
      2 * (δ ⬝ᵥ (Jᵀ *ᵥ (W *ᵥ e) + P *ᵥ p + (Jᵀ * W * J + P) *ᵥ d)) +
      ((J *ᵥ δ) ⬝ᵥ (W *ᵥ (J *ᵥ δ)) + δ ⬝ᵥ (P *ᵥ δ)) := by
  have e1 : e + J *ᵥ (d + δ) = (e + J *ᵥ d) + (1 : K) • (J *ᵥ δ) := by
    rw [mulVec_add, one_smul, add_assoc]
  have e2 : p + (d + δ) = (p + d) + (1 : K) • δ := by rw [one_smul, add_assoc]
  unfold regEnergy
  rw [e1, e2, psd_add_smul hW, psd_add_smul hP]
  have e3 : (J *ᵥ δ) ⬝ᵥ (W *ᵥ (e + J *ᵥ d)) =
      δ ⬝ᵥ (Jᵀ *ᵥ (W *ᵥ e)) + δ ⬝ᵥ ((Jᵀ * W * J) *ᵥ d) := by
    rw [← dot_transpose, mulVec_add, mulVec_add, dotProduct_add]
    simp only [mulVec_mulVec, Matrix.mul_assoc]
  rw [e3]
  simp only [add_mulVec, mulVec_add, dotProduct_add]
  ring

/-- Completing the square: the solution of the normal equations is the only
minimiser of the regularised energy. -/
theorem regEnergy_min [DecidableEq ι] {W : Matrix κ κ K} (hW : Wᵀ = W)
    (hWp : ∀ x, 0 ≤ x ⬝ᵥ (W *ᵥ x)) (J : Matrix κ ι K) (e : κ → K) {P : Matrix ι ι K}
    (hP : Pᵀ = P) (hPp : ∀ x, 0 ≤ x ⬝ᵥ (P *ᵥ x)) (p d : ι → K)
    (hdet : (Jᵀ * W * J + P).det ≠ 0)
    (hd : (Jᵀ * W * J + P) *ᵥ d = -(Jᵀ *ᵥ (W *ᵥ e) + P *ᵥ p)) (d' : ι → K) :
    regEnergy W J e P p d ≤ regEnergy W J e P p d' ∧
    (regEnergy W J e P p d' = regEnergy W J e P p d → d' = d) := by
  obtain ⟨δ, rfl⟩ : ∃ δ, d' = d + δ := ⟨d' - d, by abel⟩
  have h := regEnergy_add hW J e hP p d δ
  have h0 : Jᵀ *ᵥ (W *ᵥ e) + P *ᵥ p + (Jᵀ * W * J + P) *ᵥ d = 0 := by rw [hd]; abel
  rw [h0, dotProduct_zero, mul_zero, add_zero] at h
  have h1 := hWp (J *ᵥ δ)
  have h2 := hPp δ
  refine ⟨by rw [h]; linarith, ?_⟩
  intro heq
  have h3 : (J *ᵥ δ) ⬝ᵥ (W *ᵥ (J *ᵥ δ)) = 0 := by linarith
  have h4 : δ ⬝ᵥ (P *ᵥ δ) = 0 := by linarith
  have h5 := psd_zero hW hWp _ h3
  have h6 := psd_zero hP hPp _ h4
  have h7 : (Jᵀ * W * J + P) *ᵥ δ = 0 := by
    rw [add_mulVec, h6, ← mulVec_mulVec, ← mulVec_mulVec, h5]; simp
  have h8 : δ = 0 := by
    by_contra hne
    exact hdet (exists_mulVec_eq_zero_iff.mp ⟨δ, hne, h7⟩)
  rw [h8, add_zero]

/-- Positive definite matrices are invertible. -/
theorem det_ne_zero_of_pos [DecidableEq ι] {M : Matrix ι ι K}
    (h : ∀ x, x ≠ 0 → 0 < x ⬝ᵥ (M *ᵥ x)) : M.det ≠ 0 := by
  intro h0
  obtain ⟨v, hv, hm⟩ := exists_mulVec_eq_zero_iff.mpr h0
  have := h v hv
  rw [hm, dotProduct_zero] at this
  exact lt_irrefl _ this

theorem diag_quad [DecidableEq ι] (w x : ι → K) :
    x ⬝ᵥ (diagonal w *ᵥ x) = ∑ i, w i * x i ^ 2 := by
  simp only [dotProduct, mulVec_diagonal]
  exact Finset.sum_congr rfl (fun i _ => by ring)

theorem diag_psd [DecidableEq ι] {w : ι → K} (hw : ∀ i, 0 ≤ w i) (x : ι → K) :
    0 ≤ x ⬝ᵥ (diagonal w *ᵥ x) := by
  rw [diag_quad]
  exact Finset.sum_nonneg (fun i _ => mul_nonneg (hw i) (sq_nonneg _))

theorem diag_pos [DecidableEq ι] {w : ι → K} (hw : ∀ i, 0 < w i) (x : ι → K) (hx : x ≠ 0) :
    0 < x ⬝ᵥ (diagonal w *ᵥ x) := by
  rw [diag_quad]
  obtain ⟨i, hi⟩ := Function.ne_iff.mp hx
  refine Finset.sum_pos' (fun i _ => mul_nonneg (hw i).le (sq_nonneg _)) ⟨i, Finset.mem_univ _, ?_⟩
  have : 0 < x i ^ 2 := by
    have : x i ≠ 0 := hi
    positivity
  exact mul_pos (hw i) this

/-- A symmetric idempotent matrix gives the squared norm of the projection. -/
theorem proj_quad {Q : Matrix κ κ K} (hs : Qᵀ = Q) (hi : Q * Q = Q) (x : κ → K) :
    x ⬝ᵥ (Q *ᵥ x) = (Q *ᵥ x) ⬝ᵥ (Q *ᵥ x) := by
  conv_lhs => rw [← hi, ← mulVec_mulVec]
  rw [dotProduct_mulVec, ← mulVec_transpose, hs]

theorem dot_self_nonneg (x : κ → K) : 0 ≤ x ⬝ᵥ x := by
  simp only [dotProduct]
  exact Finset.sum_nonneg (fun i _ => mul_self_nonneg _)

end Menpofit
