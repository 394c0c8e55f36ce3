import Verif.Lemmas.TpsLandmarks
import Mathlib.Analysis.SpecialFunctions.Log.Deriv
import Mathlib.Analysis.Complex.ExponentialBounds
/-!
# Triangles and coincident points for C107
-/

namespace Menpofit.TpsDl
open Matrix Warp Spec

/-- A right triangle. -/
noncomputable def tri (h : ℝ) : Fin 3 → P 2 := ![!₂[0, 0], !₂[h, 0], !₂[0, h]]

theorem r2LogR2_self {d : Nat} (c : P d) : r2LogR2 c c = 0 := by simp [r2LogR2]

theorem r2LogR2_comm {d : Nat} (c x : P d) : r2LogR2 c x = r2LogR2 x c := by simp only [r2LogR2, dist_comm]

theorem r2LogR2_ne {d : Nat} {c x : P d} (h0 : 0 < dist x c) (h1 : dist x c < 1) : r2LogR2 c x ≠ 0 := by
  rw [r2LogR2, if_neg h0.ne']
  refine mul_ne_zero (pow_ne_zero _ h0.ne') ?_
  have : Real.log (dist x c ^ 2) < 0 := Real.log_neg (by positivity) (by nlinarith)
  exact this.ne

theorem dist_tri01 {h : ℝ} (hh : 0 ≤ h) : dist (tri h 0) (tri h 1) = h := by
  rw [EuclideanSpace.dist_eq]
  simp [tri, Fin.sum_univ_two, Real.dist_eq, Real.sqrt_sq hh]

theorem dist_tri02 {h : ℝ} (hh : 0 ≤ h) : dist (tri h 0) (tri h 2) = h := by
  rw [EuclideanSpace.dist_eq]
  simp [tri, Fin.sum_univ_two, Real.dist_eq, Real.sqrt_sq hh]

theorem dist_tri12 (h : ℝ) : dist (tri h 1) (tri h 2) = Real.sqrt (2 * h ^ 2) := by
  rw [EuclideanSpace.dist_eq]
  simp only [tri, Fin.sum_univ_two, Real.dist_eq]
  congr 1
  simp
  ring

/-- The rows of the matrix applied to coefficients. -/
theorem tri_rows (h : ℝ) (z : Ix 3 → ℝ) :
    (lMat (tri h) *ᵥ z) (.inl 0) = r2LogR2 (tri h 1) (tri h 0) * z (.inl 1) + r2LogR2 (tri h 2) (tri h 0) * z (.inl 2)
      + z (.inr 0) ∧
    (lMat (tri h) *ᵥ z) (.inl 1) = r2LogR2 (tri h 1) (tri h 0) * z (.inl 0) + r2LogR2 (tri h 2) (tri h 1) * z (.inl 2)
      + z (.inr 0) + h * z (.inr 1) ∧
    (lMat (tri h) *ᵥ z) (.inl 2) = r2LogR2 (tri h 2) (tri h 0) * z (.inl 0) + r2LogR2 (tri h 2) (tri h 1) * z (.inl 1)
      + z (.inr 0) + h * z (.inr 2) ∧
    (lMat (tri h) *ᵥ z) (.inr 0) = z (.inl 0) + z (.inl 1) + z (.inl 2) ∧
    (lMat (tri h) *ᵥ z) (.inr 1) = h * z (.inl 1) ∧
    (lMat (tri h) *ᵥ z) (.inr 2) = h * z (.inl 2) := by
  have e1 := r2LogR2_comm (tri h 0) (tri h 1)
  have e2 := r2LogR2_comm (tri h 0) (tri h 2)
  have e3 := r2LogR2_comm (tri h 1) (tri h 2)
  refine ⟨?_, ?_, ?_, ?_, ?_, ?_⟩
  all_goals simp only [lMat, mulVec, dotProduct, Fintype.sum_sum_type, fromBlocks_apply₁₁, fromBlocks_apply₁₂,
    fromBlocks_apply₂₁, fromBlocks_apply₂₂, kMat, pMat, hom, of_apply, transpose_apply, Fin.sum_univ_three, r2LogR2_self,
    e1, e2, e3]
  all_goals simp [tri]
  all_goals ring

theorem tri_det {h : ℝ} (hh : h ≠ 0) : (lMat (tri h)).det ≠ 0 := by
  intro hd
  obtain ⟨z, hz, hL⟩ := Matrix.exists_mulVec_eq_zero_iff.2 hd
  obtain ⟨h0, h1, h2, h3, h4, h5⟩ := tri_rows h z
  rw [hL] at h0 h1 h2 h3 h4 h5
  simp only [Pi.zero_apply] at h0 h1 h2 h3 h4 h5
  have w1 : z (.inl 1) = 0 := by rcases mul_eq_zero.1 h4.symm with h | h; exacts [absurd h hh, h]
  have w2 : z (.inl 2) = 0 := by rcases mul_eq_zero.1 h5.symm with h | h; exacts [absurd h hh, h]
  have w0 : z (.inl 0) = 0 := by rw [w1, w2] at h3; linarith
  rw [w1, w2] at h0
  have a0 : z (.inr 0) = 0 := by linarith
  rw [w0, w2, a0] at h1
  rw [w0, w1, a0] at h2
  have a1 : z (.inr 1) = 0 := by
    have : h * z (.inr 1) = 0 := by linarith
    rcases mul_eq_zero.1 this with h | h; exacts [absurd h hh, h]
  have a2 : z (.inr 2) = 0 := by
    have : h * z (.inr 2) = 0 := by linarith
    rcases mul_eq_zero.1 this with h | h; exacts [absurd h hh, h]
  apply hz
  ext i
  match i with
  | .inl 0 => exact w0
  | .inl 1 => exact w1
  | .inl 2 => exact w2
  | .inr 0 => exact a0
  | .inr 1 => exact a1
  | .inr 2 => exact a2

section
variable {m : Nat} {A : Matrix (Ix m) (Ix m) ℝ} {f : Factors m}

/-- A row of `v` is sent to a multiple of a column of `u`, and back. -/
theorem v_row (hf : IsFactors A f) (r : Fin (m + 3)) : A *ᵥ f.v r = f.s r • fun i => f.u i r := by
  have h : A * f.vᵀ = f.u * diagonal f.s := by
    conv_lhs => rw [hf.product]
    rw [Matrix.mul_assoc, hf.right, Matrix.mul_one]
  ext i
  have := congrFun (congrFun h i) r
  rw [mul_diagonal] at this
  simpa [Matrix.mul_apply, mulVec, dotProduct, mul_comm] using this

theorem u_col (hf : IsFactors A f) (hA : Aᵀ = A) (r : Fin (m + 3)) : A *ᵥ (fun i => f.u i r) = f.s r • f.v r := by
  have h : A * f.u = f.vᵀ * diagonal f.s := by
    conv_lhs => rw [product' hf hA]
    rw [Matrix.mul_assoc, hf.left, Matrix.mul_one]
  ext i
  have := congrFun (congrFun h i) r
  rw [mul_diagonal] at this
  simpa [Matrix.mul_apply, mulVec, dotProduct, mul_comm] using this

theorem v_unit (hf : IsFactors A f) (r : Fin (m + 3)) : ∑ i, f.v r i ^ 2 = 1 := by
  have h := congrFun (congrFun hf.right r) r
  rw [Matrix.mul_apply] at h
  simpa [pow_two] using h

theorem u_unit (hf : IsFactors A f) (r : Fin (m + 3)) : ∑ i, f.u i r ^ 2 = 1 := by
  have h := congrFun (congrFun hf.left r) r
  rw [Matrix.mul_apply] at h
  simpa [pow_two] using h

theorem v_sq (hf : IsFactors A f) (r : Fin (m + 3)) : ∑ i, (A *ᵥ f.v r) i ^ 2 = f.s r ^ 2 := by
  rw [v_row hf]
  simp only [Pi.smul_apply, smul_eq_mul, mul_pow, ← Finset.mul_sum, u_unit hf, mul_one]

/-- If no singular value is below a bound, the matrix does not shrink vectors below it. -/
theorem norm_bound (hf : IsFactors A f) {b : ℝ} (hb : 0 ≤ b) (h : ∀ r, b ≤ f.s r) (z : Ix m → ℝ) :
    b ^ 2 * ∑ i, z i ^ 2 ≤ ∑ i, (A *ᵥ z) i ^ 2 := by
  have e1 : ∑ i, (A *ᵥ z) i ^ 2 = ∑ r, (f.s r * (f.v *ᵥ z) r) ^ 2 := by
    have : A *ᵥ z = f.u *ᵥ fun r => f.s r * (f.v *ᵥ z) r := by
      conv_lhs => rw [hf.product]
      rw [← mulVec_mulVec, ← mulVec_mulVec]
      congr 1
      ext r
      rw [mulVec_diagonal]
    rw [this]
    obtain ⟨y, hy⟩ : ∃ y : Fin (m + 3) → ℝ, y = fun r => f.s r * (f.v *ᵥ z) r := ⟨_, rfl⟩
    have : ∑ i, (f.u *ᵥ y) i ^ 2 = (f.u *ᵥ y) ⬝ᵥ (f.u *ᵥ y) := by simp [dotProduct, pow_two]
    rw [← hy, this, dotProduct_mulVec, vecMul_mulVec, hf.left]
    simp [dotProduct, pow_two, hy]
  have e2 : ∑ i, z i ^ 2 = ∑ r, (f.v *ᵥ z) r ^ 2 := by
    have : ∑ i, (f.v *ᵥ z) i ^ 2 = (f.v *ᵥ z) ⬝ᵥ (f.v *ᵥ z) := by simp [dotProduct, pow_two]
    rw [this, dotProduct_mulVec, vecMul_mulVec, v_mul hf]
    simp [dotProduct, pow_two]
  rw [e1, e2, Finset.mul_sum]
  refine Finset.sum_le_sum fun r _ => ?_
  rw [mul_pow]
  have := pow_le_pow_left₀ hb (h r) 2
  exact mul_le_mul_of_nonneg_right this (sq_nonneg _)

/-- What the truncated inverse leaves of the identity. -/
theorem mul_truncated (hf : IsFactors A f) (hA : Aᵀ = A) {minSv : ℝ} (hm : 0 < minSv) :
    A * truncated minSv f = f.vᵀ * diagonal (fun r => if minSv ≤ f.s r then (1 : ℝ) else 0) * f.v := by
  rw [truncated_eq hf]
  conv_lhs => rw [product' hf hA]
  have : f.vᵀ * diagonal f.s * f.uᵀ * (f.u * diagonal (kept minSv f) * f.v) =
      f.vᵀ * (diagonal f.s * (f.uᵀ * f.u) * diagonal (kept minSv f)) * f.v := by
    simp only [Matrix.mul_assoc]
  rw [this, hf.left, Matrix.mul_one, diagonal_mul_diagonal]
  congr 3
  ext r
  by_cases h : minSv ≤ f.s r
  · have h0 : f.s r ≠ 0 := (lt_of_lt_of_le hm h).ne'
    simp [kept, h, h0]
  · simp [kept, h]

theorem diag_truncated (hf : IsFactors A f) (hA : Aᵀ = A) {minSv : ℝ} (hm : 0 < minSv) (i : Ix m)
    (h : (A * truncated minSv f) i i = 1) (r : Fin (m + 3)) (hr : f.s r < minSv) : f.v r i = 0 := by
  rw [mul_truncated hf hA hm, Matrix.mul_apply] at h
  simp only [mul_diagonal, transpose_apply] at h
  have h1 := congrFun (congrFun (v_mul hf) i) i
  rw [Matrix.mul_apply] at h1
  simp only [transpose_apply, Matrix.one_apply_eq] at h1
  have h2 : ∑ q, (if minSv ≤ f.s q then (0 : ℝ) else f.v q i * f.v q i) = 0 := by
    have : ∑ q, (if minSv ≤ f.s q then (0 : ℝ) else f.v q i * f.v q i) =
        (∑ q, f.v q i * f.v q i) - ∑ q, f.v q i * (if minSv ≤ f.s q then (1 : ℝ) else 0) * f.v q i := by
      rw [← Finset.sum_sub_distrib]
      refine Finset.sum_congr rfl fun q _ => ?_
      split_ifs <;> ring
    rw [this, h1, h, sub_self]
  have h3 := (Finset.sum_eq_zero_iff_of_nonneg (fun q _ => by
    split_ifs
    · exact le_rfl
    · exact mul_self_nonneg _)).1 h2 r (Finset.mem_univ _)
  rw [if_neg (not_le.2 hr)] at h3
  exact mul_self_eq_zero.1 h3
end

/-- In a small triangle some landmark is not interpolated. -/
theorem tri_small {h : ℝ} (h0 : 0 < h) (h1 : h < 1 / 10000) {f : Factors 3} (hf : IsFactors (lMat (tri h)) f) :
    ∃ j, (lMat (tri h) * truncated (1 / 10000) f) (.inl j) (.inl j) ≠ 1 := by
  by_contra hc
  push Not at hc
  -- some singular value is below the threshold
  have hdrop : ∃ r, f.s r < 1 / 10000 := by
    by_contra hn
    push Not at hn
    have := norm_bound hf (by norm_num) hn (Pi.single (.inr 1) 1)
    obtain ⟨e0, e1, e2, e3, e4, e5⟩ := tri_rows h (Pi.single (.inr 1) 1)
    rw [Fintype.sum_sum_type, Fintype.sum_sum_type, Fin.sum_univ_three, Fin.sum_univ_three, Fin.sum_univ_three,
      Fin.sum_univ_three, e0, e1, e2, e3, e4, e5] at this
    simp at this
    nlinarith
  obtain ⟨r, hr⟩ := hdrop
  have hv : ∀ j, f.v r (.inl j) = 0 := fun j =>
    diag_truncated hf (lMat_symm _) (by norm_num) (.inl j) (hc j) r hr
  have hs : lMat (tri h) *ᵥ (lMat (tri h) *ᵥ f.v r) = f.s r ^ 2 • f.v r := by
    rw [v_row hf, mulVec_smul, u_col hf (lMat_symm _), smul_smul, pow_two]
  obtain ⟨g, hg⟩ : ∃ g, g = lMat (tri h) *ᵥ f.v r := ⟨_, rfl⟩
  obtain ⟨g0, g1, g2, g3, g4, g5⟩ := tri_rows h (f.v r)
  obtain ⟨k0, k1, k2, -, -, -⟩ := tri_rows h g
  rw [← hg] at g0 g1 g2 g3 g4 g5
  have hgg : lMat (tri h) *ᵥ g = f.s r ^ 2 • f.v r := by rw [hg]; exact hs
  rw [hgg] at k0 k1 k2
  simp only [hv, Pi.smul_apply, smul_eq_mul, mul_zero, zero_add, add_zero] at g0 g1 g2 g3 g4 g5 k0 k1 k2
  have n01 : r2LogR2 (tri h 1) (tri h 0) ≠ 0 := r2LogR2_ne (by rw [dist_tri01 h0.le]; exact h0)
    (by rw [dist_tri01 h0.le]; linarith)
  have n02 : r2LogR2 (tri h 2) (tri h 0) ≠ 0 := r2LogR2_ne (by rw [dist_tri02 h0.le]; exact h0)
    (by rw [dist_tri02 h0.le]; linarith)
  have n12 : r2LogR2 (tri h 2) (tri h 1) ≠ 0 := r2LogR2_ne (by rw [dist_tri12]; positivity)
    (by rw [dist_tri12, Real.sqrt_lt' one_pos]; nlinarith)
  obtain ⟨a, ha⟩ : ∃ a, a = r2LogR2 (tri h 1) (tri h 0) := ⟨_, rfl⟩
  obtain ⟨b, hb⟩ : ∃ b, b = r2LogR2 (tri h 2) (tri h 0) := ⟨_, rfl⟩
  obtain ⟨c, hc'⟩ : ∃ c, c = r2LogR2 (tri h 2) (tri h 1) := ⟨_, rfl⟩
  rw [← ha, ← hb] at k0
  rw [← ha, ← hc', g3, g4] at k1
  rw [← hb, ← hc', g3, g5] at k2
  rw [g3] at k0
  rw [← ha] at n01
  rw [← hb] at n02
  rw [← hc'] at n12
  simp only [mul_zero, add_zero] at k0 k1 k2
  -- 0 = a g1 + b g2, 0 = a g0 + c g2, 0 = b g0 + c g1
  have z2 : g (.inl 2) = 0 := by
    have : b * c * g (.inl 2) = 0 := by
      linear_combination (-(c / 2)) * k0 - (b / 2) * k1 + (a / 2) * k2
    simpa [n02, n12] using this
  have z1 : g (.inl 1) = 0 := by
    rw [z2] at k0
    have : a * g (.inl 1) = 0 := by linear_combination -k0
    simpa [n01] using this
  have z0 : g (.inl 0) = 0 := by
    rw [z2] at k1
    have : a * g (.inl 0) = 0 := by linear_combination -k1
    simpa [n01] using this
  have a0 : f.v r (.inr 0) = 0 := by rw [← g0]; exact z0
  have a1 : f.v r (.inr 1) = 0 := by
    rw [z1, a0, zero_add] at g1
    exact (mul_eq_zero.1 g1.symm).resolve_left h0.ne'
  have a2 : f.v r (.inr 2) = 0 := by
    rw [z2, a0, zero_add] at g2
    exact (mul_eq_zero.1 g2.symm).resolve_left h0.ne'
  have hu := v_unit hf r
  rw [Fintype.sum_sum_type, Fin.sum_univ_three, Fin.sum_univ_three, hv, hv, hv, a0, a1, a2] at hu
  norm_num at hu

theorem small_sq {σ p a b c d e : ℝ} (hs : p ^ 2 + a ^ 2 + b ^ 2 + (c ^ 2 + d ^ 2 + e ^ 2) = σ ^ 2) (hr : 0 ≤ σ) :
    |p| ≤ σ := by
  refine abs_le_of_sq_le_sq ?_ hr
  have := sq_nonneg a
  have := sq_nonneg b
  have := sq_nonneg c
  have := sq_nonneg d
  have := sq_nonneg e
  linarith

theorem unit_bound {σ l x0 x1 x2 y0 y1 y2 p0 p1 p2 q0 q1 q2 : ℝ} (hr : 0 ≤ σ) (hl : l < 1) (hl0 : 0 < l)
    (hs : p0 ^ 2 + p1 ^ 2 + p2 ^ 2 + (q0 ^ 2 + q1 ^ 2 + q2 ^ 2) = σ ^ 2)
    (hu : x0 ^ 2 + x1 ^ 2 + x2 ^ 2 + (y0 ^ 2 + y1 ^ 2 + y2 ^ 2) = 1)
    (x1e : x1 = q1) (x2e : x2 = q2) (x0e : x0 = q0 - q1 - q2) (y0e : y0 = p0)
    (y1e : y1 = p1 - p0 - 2 * l * q2) (y2e : y2 = p2 - p0 - 2 * l * q1) : 1 / 10000 ≤ σ := by
  have B0 := abs_le.1 (small_sq hs hr)
  have B1 := abs_le.1 (small_sq (p := p1) (a := p0) (b := p2) (c := q0) (d := q1) (e := q2) (by linarith) hr)
  have B2 := abs_le.1 (small_sq (p := p2) (a := p0) (b := p1) (c := q0) (d := q1) (e := q2) (by linarith) hr)
  have C0 := abs_le.1 (small_sq (p := q0) (a := p0) (b := p1) (c := p2) (d := q1) (e := q2) (by linarith) hr)
  have C1 := small_sq (p := q1) (a := p0) (b := p1) (c := p2) (d := q0) (e := q2) (by linarith) hr
  have C2 := small_sq (p := q2) (a := p0) (b := p1) (c := p2) (d := q0) (e := q1) (by linarith) hr
  by_contra hlt
  push Not at hlt
  have m1 : |2 * l * q1| ≤ 2 * σ := by
    rw [abs_mul, abs_of_pos (by linarith : 0 < 2 * l)]
    exact mul_le_mul (by linarith) C1 (abs_nonneg _) (by norm_num)
  have m2 : |2 * l * q2| ≤ 2 * σ := by
    rw [abs_mul, abs_of_pos (by linarith : 0 < 2 * l)]
    exact mul_le_mul (by linarith) C2 (abs_nonneg _) (by norm_num)
  rw [abs_le] at m1 m2 C1 C2
  have tiny : ∀ v : ℝ, -(4 * σ) ≤ v → v ≤ 4 * σ → v ^ 2 ≤ 1 / 100 := by
    intro v h1 h2
    have : |v| ≤ 1 / 10 := abs_le.2 ⟨by linarith, by linarith⟩
    have := sq_le_sq' (by linarith [(abs_le.1 this).1] : -(1 / 10 : ℝ) ≤ v) (abs_le.1 this).2
    linarith
  have t0 := tiny x0 (by linarith) (by linarith)
  have t1 := tiny x1 (by linarith) (by linarith)
  have t2 := tiny x2 (by linarith) (by linarith)
  have t3 := tiny y0 (by linarith) (by linarith)
  have t4 := tiny y1 (by linarith) (by linarith)
  have t5 := tiny y2 (by linarith) (by linarith)
  linarith

/-- The unit triangle is well away from the threshold. -/
theorem tri_gap {f : Factors 3} (hf : IsFactors (lMat (tri 1)) f) : SingularGap (1 / 10000) f := by
  refine ⟨by norm_num, fun r => .inr ?_⟩
  have hs := v_sq hf r
  have hu := v_unit hf r
  obtain ⟨g, hg⟩ : ∃ g, g = lMat (tri 1) *ᵥ f.v r := ⟨_, rfl⟩
  obtain ⟨g0, g1, g2, g3, g4, g5⟩ := tri_rows 1 (f.v r)
  rw [← hg] at g0 g1 g2 g3 g4 g5 hs
  have e01 : r2LogR2 (tri 1 1) (tri 1 0) = 0 := by
    rw [r2LogR2, dist_tri01 zero_le_one]; simp
  have e02 : r2LogR2 (tri 1 2) (tri 1 0) = 0 := by
    rw [r2LogR2, dist_tri02 zero_le_one]; simp
  have e12 : r2LogR2 (tri 1 2) (tri 1 1) = 2 * Real.log 2 := by
    have : Real.sqrt 2 ≠ 0 := by positivity
    rw [r2LogR2, dist_tri12]
    simp
  rw [e01, e02] at g0
  rw [e01, e12] at g1
  rw [e02, e12] at g2
  rw [Fintype.sum_sum_type, Fin.sum_univ_three, Fin.sum_univ_three] at hs hu
  have hl := Real.log_two_lt_d9
  have hl0 : 0 < Real.log 2 := Real.log_pos one_lt_two
  refine unit_bound (hf.nonneg r) (by linarith : Real.log 2 < 1) hl0 hs hu ?_ ?_ ?_ ?_ ?_ ?_
  · rw [g4, one_mul]
  · rw [g5, one_mul]
  · rw [g3, g4, g5]; ring
  · rw [g0]; ring
  · rw [g1, g0, g5]; ring
  · rw [g2, g0, g4]; ring

/-- Four points, two of them coincident. -/
noncomputable def twin : Fin 4 → P 2 := ![!₂[0, 0], !₂[0, 0], !₂[1, 0], !₂[0, 1]]

theorem twin_affine : AffineDetermined twin := by
  intro w a h h1 h2 h3
  have k : ∀ i, i = 0 ∨ i = 1 → ∀ j, j = 2 ∨ j = 3 → r2LogR2 (twin j) (twin i) = 0 ∧ r2LogR2 (twin i) (twin j) = 0 := by
    intro i hi j hj
    have e : dist (twin i) (twin j) = 1 := by
      rw [EuclideanSpace.dist_eq]
      rcases hi with rfl | rfl <;> rcases hj with rfl | rfl <;> simp [twin, Fin.sum_univ_two, Real.dist_eq]
    rw [r2LogR2, r2LogR2, dist_comm (twin j), e]
    simp
  have k0 : r2LogR2 (twin 1) (twin 0) = 0 := r2LogR2_self _
  simp only [Fin.sum_univ_four] at h h1 h2 h3
  simp [twin] at h2 h3
  have a0 := h 0
  have a1 := h 2
  have a2 := h 3
  rw [r2LogR2_self, k0, (k 0 (.inl rfl) 2 (.inl rfl)).1, (k 0 (.inl rfl) 3 (.inr rfl)).1] at a0
  rw [r2LogR2_self, h3, (k 0 (.inl rfl) 2 (.inl rfl)).2, (k 1 (.inr rfl) 2 (.inl rfl)).2] at a1
  rw [r2LogR2_self, h2, (k 0 (.inl rfl) 3 (.inr rfl)).2, (k 1 (.inr rfl) 3 (.inr rfl)).2] at a2
  simp [twin] at a0 a1 a2
  ext b
  match b with
  | 0 => exact a0
  | 1 => simpa [a0] using a1
  | 2 => simpa [a0] using a2

theorem twin_det : (lMat twin).det = 0 := by
  refine Matrix.exists_mulVec_eq_zero_iff.1 ⟨Sum.elim ![1, -1, 0, 0] 0, fun h => ?_, ?_⟩
  · have := congrFun h (.inl 0)
    simp at this
  · have e : twin 1 = twin 0 := rfl
    ext i
    rcases i with i | a
    · simp [lMat, kMat, mulVec, dotProduct, Fin.sum_univ_four, e]
    · simp [lMat, pMat, mulVec, dotProduct, Fin.sum_univ_four, e]

/-- Some threshold separates the zero singular values from the others. -/
theorem exists_gap {m : Nat} (f : Factors m) (h : ∀ r, 0 ≤ f.s r) : ∃ b, SingularGap b f := by
  obtain ⟨b, hb, hr⟩ : ∃ b : ℝ, 0 < b ∧ ∀ r ∈ (Finset.univ : Finset (Fin (m + 3))), f.s r = 0 ∨ b ≤ f.s r := by
    induction (Finset.univ : Finset (Fin (m + 3))) using Finset.induction_on with
    | empty => exact ⟨1, one_pos, by simp⟩
    | insert a S _ ih =>
      obtain ⟨b, hb, hS⟩ := ih
      by_cases h0 : f.s a = 0
      · refine ⟨b, hb, fun r hr => ?_⟩
        rcases Finset.mem_insert.1 hr with rfl | hr
        · exact .inl h0
        · exact hS r hr
      · refine ⟨min b (f.s a), lt_min hb (lt_of_le_of_ne (h a) (Ne.symm h0)), fun r hr => ?_⟩
        rcases Finset.mem_insert.1 hr with rfl | hr
        · exact .inr (min_le_right _ _)
        · exact (hS r hr).imp id fun h => (min_le_left _ _).trans h
  exact ⟨b, hb, fun r => hr r (Finset.mem_univ _)⟩

end Menpofit.TpsDl
