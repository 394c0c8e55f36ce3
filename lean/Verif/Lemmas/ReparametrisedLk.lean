import Verif.Lemmas.SameSpace
import Verif.Spec.Reparametrised
import Verif.Lemmas.LkResidual
/-!
# Lemmas for C151: Lucas-Kanade
-/

namespace Menpofit
namespace ReparametrisedLk
open Matrix GN Spec Lk Dft

variable {c h w n : Nat} {Im T : Type}

/-- A real matrix among the complex ones. -/
def toC {a b : Nat} (R : Matrix (Fin a) (Fin b) ℝ) : Matrix (Fin a) (Fin b) ℂ := R.map fun x => (x : ℂ)

theorem toC_det (R : Matrix (Fin n) (Fin n) ℝ) (hR : R.det ≠ 0) : (toC R).det ≠ 0 := by
  have : (toC R).det = ((R.det : ℝ) : ℂ) := (RingHom.map_det Complex.ofRealHom R).symm
  rw [this]
  exact_mod_cast hR

/-- The filter of a kernel is a matrix. -/
theorem filter_matrix (k : Pos h w → ℂ) : ∃ M : Matrix (Pos h w) (Pos h w) ℂ, ∀ x, ifft2 (k * fft2 x) = M *ᵥ x := by
  refine ⟨(((h * w : ℕ) : ℂ))⁻¹ • ((dft2 h w)ᴴ * (diagonal k * dft2 h w)), fun x => ?_⟩
  simp only [ifft2, fft2, smul_mulVec, ← mulVec_mulVec]
  congr 2
  funext i
  rw [mulVec_diagonal, Pi.mul_apply]

theorem onPlanes_basis (M : Matrix (Pos h w) (Pos h w) ℂ) (s : Matrix (Px c h w) (Fin n) ℂ)
    (R : Matrix (Fin n) (Fin n) ℂ) : onPlanes (M *ᵥ ·) (s * R) = onPlanes (M *ᵥ ·) s * R := by
  ext x k
  simp only [onPlanes, mulVec, dotProduct, mul_apply, Finset.mul_sum, Finset.sum_mul]
  rw [Finset.sum_comm]
  refine Finset.sum_congr rfl fun j _ => Finset.sum_congr rfl fun p _ => by ring

theorem sdi_basis (nabla : Fin 2 → Planes c h w) {dW dW' : Jac h w n} {R : Matrix (Fin n) (Fin n) ℝ}
    (hd : ∀ d x k, dW' d x k = ∑ j, dW d x j * R j k) :
    (sdi nabla dW').map (fun x : ℝ => (x : ℂ)) = (sdi nabla dW).map (fun x : ℝ => (x : ℂ)) * toC R := by
  ext x k
  simp only [sdi, map_apply, mul_apply, toC, hd, Finset.mul_sum, Finset.sum_mul, Complex.ofReal_sum, Complex.ofReal_mul]
  rw [Finset.sum_comm]
  refine Finset.sum_congr rfl fun j _ => Finset.sum_congr rfl fun p _ => by ring

theorem re_basis (R : Matrix (Fin n) (Fin n) ℝ) (q : Fin n → ℂ) :
    (fun i => ((toC R *ᵥ q) i).re) = R *ᵥ fun i => (q i).re := by
  funext i
  simp [mulVec, dotProduct, toC]

theorem solveRe_basis {m : Type} [Fintype m] {R : Matrix (Fin n) (Fin n) ℝ} (hR : R.det ≠ 0) (G J : Matrix m (Fin n) ℂ)
    (e : m → ℂ) :
    (solveRe ((G * toC R)ᵀ * (J * toC R)) ((G * toC R)ᵀ *ᵥ e)).map (R *ᵥ ·) = solveRe (Gᵀ * J) (Gᵀ *ᵥ e) := by
  have hs := SameSpace.solve_basis (Gᵀ * J) (toC R) (Gᵀ *ᵥ e) (toC_det R hR)
  simp only [solveRe, transpose_mul]
  rw [← hs, ← mulVec_mulVec, show (toC R)ᵀ * Gᵀ * (J * toC R) = (toC R)ᵀ * (Gᵀ * J) * toC R by simp only [Matrix.mul_assoc]]
  generalize npSolve (K := ℂ) (n := n) _ _ = r
  cases r with
  | error e => rfl
  | ok q => simp only [Except.map, re_basis]

/-- What the sum of squared differences computes in other parameters. -/
theorem ssd_basis (env : Lk.Env c h w Im T) (kernel : Option (Pos h w → ℂ)) {R : Matrix (Fin n) (Fin n) ℝ}
    (hR : R.det ≠ 0) (src : Source c h w Im T) {dW dW' : Jac h w n} (hd : ∀ d x k, dW' d x k = ∑ j, dW d x j * R j k)
    (image template : Planes c h w) :
    (do let (s1, fJ, J) ← (ssd (n := n) env kernel).images () src dW'
        let (s2, hess) ← (ssd (n := n) env kernel).hessian s1 fJ J
        let (s3, sd) ← (ssd (n := n) env kernel).update s2 fJ image template
        let dp ← (ssd (n := n) env kernel).solve hess sd
        return (s3, -dp) : Except PyErr (Unit × (Fin n → ℝ))).map (fun q => (q.1, R *ᵥ q.2)) =
      (do let (s1, fJ, J) ← (ssd (n := n) env kernel).images () src dW
          let (s2, hess) ← (ssd (n := n) env kernel).hessian s1 fJ J
          let (s3, sd) ← (ssd (n := n) env kernel).update s2 fJ image template
          let dp ← (ssd (n := n) env kernel).solve hess sd
          return (s3, -dp)) := by
  cases kernel with
  | none =>
    simp only [ssd, bind, Except.bind, pure, Except.pure, sdi_basis _ hd]
    rw [← solveRe_basis hR ((sdi (gradientOf env src) dW).map (fun x : ℝ => (x : ℂ))) ((sdi (gradientOf env src) dW).map (fun x : ℝ => (x : ℂ)))]
    generalize solveRe (n := n) _ _ = r
    cases r with
    | error e => rfl
    | ok q => simp only [Except.map, mulVec_neg]
  | some k =>
    obtain ⟨M, hM⟩ := filter_matrix k
    simp only [ssd, bind, Except.bind, pure, Except.pure, sdi_basis _ hd, hM, onPlanes_basis]
    rw [← solveRe_basis hR (onPlanes (M *ᵥ ·) ((sdi (gradientOf env src) dW).map (fun x : ℝ => (x : ℂ))))
      ((sdi (gradientOf env src) dW).map (fun x : ℝ => (x : ℂ)))]
    generalize solveRe (n := n) _ _ = r
    cases r with
    | error e => rfl
    | ok q => simp only [Except.map, mulVec_neg]

/-- The same for the inverse compositional algorithm. -/
theorem ssd_ic_basis (env : Lk.Env c h w Im T) (kernel : Option (Pos h w → ℂ)) {R : Matrix (Fin n) (Fin n) ℝ}
    (hR : R.det ≠ 0) {dW dW' : Jac h w n} (hd : ∀ d x k, dW' d x k = ∑ j, dW d x j * R j k) (template : Planes c h w) :
    ∃ pre pre', icPrecompute (ssd (n := n) env kernel) dW template () = .ok pre ∧
      icPrecompute (ssd (n := n) env kernel) dW' template () = .ok pre' ∧
      ∀ x, (icIncrement (ssd (n := n) env kernel) ((), pre'.2.1, pre'.2.2) template x).map (fun q => (q.1, R *ᵥ q.2)) =
        icIncrement (ssd (n := n) env kernel) ((), pre.2.1, pre.2.2) template x := by
  cases kernel with
  | none =>
    refine ⟨_, _, rfl, rfl, fun x => ?_⟩
    simp only [icIncrement, ssd, bind, Except.bind, pure, Except.pure, sdi_basis _ hd]
    rw [← solveRe_basis hR ((sdi (gradientOf env (.frame template)) dW).map (fun x : ℝ => (x : ℂ)))
      ((sdi (gradientOf env (.frame template)) dW).map (fun x : ℝ => (x : ℂ)))]
    generalize solveRe (n := n) _ _ = r
    cases r with
    | error e => rfl
    | ok q => simp only [Except.map]
  | some k =>
    obtain ⟨M, hM⟩ := filter_matrix k
    refine ⟨_, _, rfl, rfl, fun x => ?_⟩
    simp only [icIncrement, ssd, bind, Except.bind, pure, Except.pure, sdi_basis _ hd, hM, onPlanes_basis]
    rw [← solveRe_basis hR (onPlanes (M *ᵥ ·) ((sdi (gradientOf env (.frame template)) dW).map (fun x : ℝ => (x : ℂ))))
      ((sdi (gradientOf env (.frame template)) dW).map (fun x : ℝ => (x : ℂ)))]
    generalize solveRe (n := n) _ _ = r
    cases r with
    | error e => rfl
    | ok q => simp only [Except.map]

theorem norm_basis {R : Matrix (Fin n) (Fin n) ℝ} (hR : Rᵀ * R = 1) (d : Fin n → ℝ) : (R *ᵥ d) ⬝ᵥ (R *ᵥ d) = d ⬝ᵥ d := by
  rw [dotProduct_mulVec, vecMul_mulVec, hR, vecMul_one]

theorem det_orth {R : Matrix (Fin n) (Fin n) ℝ} (hR : Rᵀ * R = 1) : R.det ≠ 0 := by
  intro h
  have := congrArg det hR
  rw [det_mul, h, mul_zero, det_one] at this
  exact zero_ne_one this

end ReparametrisedLk
end Menpofit
