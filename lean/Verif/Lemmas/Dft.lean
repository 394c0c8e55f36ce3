import Verif.Model.Dft
import Mathlib.RingTheory.RootsOfUnity.Complex
import Mathlib.LinearAlgebra.Matrix.NonsingularInverse
/-!
# Orthogonality of the discrete Fourier transform
-/

namespace Menpofit
namespace Dft
open Matrix

/-- `np.fft` computes with powers of one primitive root of unity. -/
theorem dft_eq_pow (n : Nat) (k j : Fin n) :
    dft n k j = (Complex.exp (-(2 * Real.pi * Complex.I) / n)) ^ ((k : ℕ) * (j : ℕ)) := by
  unfold dft
  rw [← Complex.exp_nat_mul]
  congr 1
  push_cast
  ring

theorem root_primitive {n : Nat} (hn : n ≠ 0) :
    IsPrimitiveRoot (Complex.exp (-(2 * Real.pi * Complex.I) / n)) n := by
  have h := (Complex.isPrimitiveRoot_exp n hn).inv
  rw [← Complex.exp_neg] at h
  rwa [neg_div]

theorem star_root (n : Nat) :
    star (Complex.exp (-(2 * Real.pi * Complex.I) / n)) =
      (Complex.exp (-(2 * Real.pi * Complex.I) / n))⁻¹ := by
  rw [← Complex.exp_neg, Complex.star_def, ← Complex.exp_conj]
  congr 1
  simp only [map_div₀, map_neg, map_mul, Complex.conj_I, Complex.conj_ofReal, Complex.conj_natCast,
    map_ofNat]
  ring

/-- The columns of the transform are orthogonal. -/
theorem dft_orthogonal (n : Nat) : (dft n)ᴴ * dft n = (n : ℂ) • 1 := by
  ext a b
  have hn : n ≠ 0 := by rintro rfl; exact a.elim0
  obtain ⟨z, hz⟩ : ∃ z, z = Complex.exp (-(2 * Real.pi * Complex.I) / n) := ⟨_, rfl⟩
  have hp : IsPrimitiveRoot z n := hz ▸ root_primitive hn
  have hs : star z = z⁻¹ := hz ▸ star_root n
  have hz0 : z ≠ 0 := hp.ne_zero hn
  simp only [mul_apply, conjTranspose_apply, dft_eq_pow, ← hz, star_pow, hs, Matrix.smul_apply, smul_eq_mul]
  have hterm : ∀ x : Fin n, z⁻¹ ^ ((x : ℕ) * (a : ℕ)) * z ^ ((x : ℕ) * (b : ℕ)) =
      (z⁻¹ ^ (a : ℕ) * z ^ (b : ℕ)) ^ (x : ℕ) := by
    intro x
    rw [mul_pow, ← pow_mul, ← pow_mul, mul_comm (a : ℕ), mul_comm (b : ℕ)]
  rw [Finset.sum_congr rfl fun x _ => hterm x, Fin.sum_univ_eq_sum_range
    (fun i => (z⁻¹ ^ (a : ℕ) * z ^ (b : ℕ)) ^ i)]
  by_cases hab : a = b
  · subst hab
    have h1 : z⁻¹ ^ (a : ℕ) * z ^ (a : ℕ) = 1 := by
      rw [← mul_pow, inv_mul_cancel₀ hz0, one_pow]
    simp only [h1, one_pow, Finset.sum_const, Finset.card_range, nsmul_eq_mul, one_apply_eq]
  · rw [one_apply_ne hab, mul_zero]
    obtain ⟨q, hq⟩ : ∃ q, q = z⁻¹ ^ (a : ℕ) * z ^ (b : ℕ) := ⟨_, rfl⟩
    rw [← hq]
    have hqn : q ^ n = 1 := by
      rw [hq, mul_pow, ← pow_mul, ← pow_mul, mul_comm (a : ℕ), mul_comm (b : ℕ), pow_mul, pow_mul, inv_pow,
        hp.pow_eq_one]
      simp
    have hq1 : q ≠ 1 := by
      intro h1
      apply hab
      apply Fin.ext
      apply hp.pow_inj a.2 b.2
      have : z ^ (a : ℕ) * q = z ^ (b : ℕ) := by
        rw [hq, ← mul_assoc, ← mul_pow, mul_inv_cancel₀ hz0, one_pow, one_mul]
      rw [h1, mul_one] at this
      exact this
    have := mul_geom_sum q n
    rw [hqn, sub_self] at this
    rcases mul_eq_zero.1 this with h | h
    · exact absurd (sub_eq_zero.1 h) hq1
    · exact h

/-- Parseval's identity for planes. -/
theorem dft2_orthogonal (h w : Nat) : (dft2 h w)ᴴ * dft2 h w = ((h * w : ℕ) : ℂ) • 1 := by
  ext a b
  have h1 := congrFun (congrFun (dft_orthogonal h) a.1) b.1
  have h2 := congrFun (congrFun (dft_orthogonal w) a.2) b.2
  simp only [mul_apply, conjTranspose_apply, Matrix.smul_apply, smul_eq_mul] at h1 h2 ⊢
  have : ∀ x : Pos h w, star (dft2 h w x a) * dft2 h w x b =
      (star (dft h x.1 a.1) * dft h x.1 b.1) * (star (dft w x.2 a.2) * dft w x.2 b.2) := by
    intro x; simp only [dft2, star_mul']; ring
  rw [Finset.sum_congr rfl fun x _ => this x, Fintype.sum_prod_type]
  simp only [← Finset.mul_sum]
  rw [h2, ← Finset.sum_mul, h1]
  by_cases e1 : a.1 = b.1
  · by_cases e2 : a.2 = b.2
    · rw [e1, e2, one_apply_eq, one_apply_eq, show a = b from Prod.ext e1 e2, one_apply_eq]
      push_cast; ring
    · rw [one_apply_ne e2, one_apply_ne (fun h => e2 (congrArg Prod.snd h))]; simp
  · rw [one_apply_ne e1, one_apply_ne (fun h => e1 (congrArg Prod.fst h))]; simp

theorem ifft2_fft2 {h w : Nat} (hh : 0 < h) (hw : 0 < w) (x : Pos h w → ℂ) : ifft2 (fft2 x) = x := by
  unfold ifft2 fft2
  rw [mulVec_mulVec, dft2_orthogonal, smul_mulVec, one_mulVec, smul_smul, inv_mul_cancel₀, one_smul]
  exact_mod_cast (Nat.mul_pos hh hw).ne'

theorem dft2_orthogonal' {h w : Nat} : dft2 h w * (dft2 h w)ᴴ = ((h * w : ℕ) : ℂ) • 1 := by
  by_cases hw : h * w = 0
  · ext a b
    rcases Nat.mul_eq_zero.1 hw with e | e
    · subst e; exact a.1.elim0
    · subst e; exact a.2.elim0
  · have hne : ((h * w : ℕ) : ℂ) ≠ 0 := by exact_mod_cast hw
    have h1 : ((((h * w : ℕ) : ℂ))⁻¹ • (dft2 h w)ᴴ) * dft2 h w = 1 := by
      rw [smul_mul, dft2_orthogonal, smul_smul, inv_mul_cancel₀ hne, one_smul]
    have h2 := mul_eq_one_comm.1 h1
    rw [Matrix.mul_smul] at h2
    rw [← h2, smul_smul, mul_inv_cancel₀ hne, one_smul]

theorem fft2_ifft2 {h w : Nat} (hh : 0 < h) (hw : 0 < w) (x : Pos h w → ℂ) : fft2 (ifft2 x) = x := by
  unfold ifft2 fft2
  rw [mulVec_smul, mulVec_mulVec, dft2_orthogonal', smul_mulVec, one_mulVec, smul_smul, inv_mul_cancel₀,
    one_smul]
  exact_mod_cast (Nat.mul_pos hh hw).ne'

/-- The inner product of two planes is, up to the number of pixels, that of their transforms. -/
theorem parseval {h w : Nat} (x y : Pos h w → ℂ) :
    star (fft2 x) ⬝ᵥ fft2 y = ((h * w : ℕ) : ℂ) * (star x ⬝ᵥ y) := by
  unfold fft2
  rw [star_mulVec, ← dotProduct_mulVec, mulVec_mulVec, dft2_orthogonal, smul_mulVec, one_mulVec,
    dotProduct_smul, smul_eq_mul]

end Dft
end Menpofit
