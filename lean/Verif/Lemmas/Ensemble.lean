import Verif.Spec.Ensemble
import Verif.Lemmas.Convolution
/-!
# Lemmas for C108
-/

namespace Menpofit
open Fft Dft Conv Ens Spec Base

theorem hanning_range (M n : Nat) : 0 ≤ hanning M n ∧ hanning M n ≤ 1 := by
  unfold hanning
  split
  · exact ⟨zero_le_one, le_rfl⟩
  · have h1 := Real.cos_le_one (Real.pi * (1 - M + 2 * n) / (M - 1))
    have h2 := Real.neg_one_le_cos (Real.pi * (1 - M + 2 * n) / (M - 1))
    constructor <;> linarith

theorem hanning_symm {M n : Nat} (hn : n < M) : hanning M (M - 1 - n) = hanning M n := by
  unfold hanning
  split
  · rfl
  · have e : ((M - 1 - n : Nat) : ℝ) = M - 1 - n := by
      rw [Nat.cast_sub (by omega), Nat.cast_sub (by omega), Nat.cast_one]
    rw [e, ← Real.cos_neg]
    congr 3
    ring

theorem hanning_zero {M n : Nat} (hn : n < M) : hanning M n = 0 ↔ 1 < M ∧ (n = 0 ∨ n + 1 = M) := by
  unfold hanning
  by_cases h1 : M = 1
  · simp [h1]
  rw [if_neg h1]
  have hM : (1 : ℝ) < M := by exact_mod_cast (by omega : 1 < M)
  have hM0 : (0 : ℝ) < M - 1 := by linarith
  have hpi := Real.pi_pos
  have hn1 : (n : ℝ) + 1 ≤ M := by exact_mod_cast hn
  have hn0 : (0 : ℝ) ≤ n := Nat.cast_nonneg n
  obtain ⟨q, hq⟩ : ∃ q : ℝ, q = (1 - M + 2 * n) / (M - 1) := ⟨_, rfl⟩
  have hθ : Real.pi * (1 - M + 2 * n) / (M - 1) = Real.pi * q := by rw [hq]; ring
  rw [hθ]
  have hq1 : |q| ≤ 1 := by
    rw [hq, abs_le]
    constructor
    · rw [le_div_iff₀ hM0]; linarith
    · rw [div_le_one hM0]; linarith
  constructor
  · intro h
    refine ⟨by omega, ?_⟩
    by_contra hc
    push Not at hc
    have a1 : (1 : ℝ) ≤ n := by exact_mod_cast Nat.one_le_iff_ne_zero.2 hc.1
    have a2 : (n : ℝ) + 2 ≤ M := by exact_mod_cast (by omega : n + 2 ≤ M)
    have hlt : |q| < 1 := by
      rw [hq, abs_lt]
      constructor
      · rw [lt_div_iff₀ hM0]; linarith
      · rw [div_lt_one hM0]; linarith
    have : Real.cos Real.pi < Real.cos |Real.pi * q| := by
      apply Real.strictAntiOn_cos
      · exact ⟨abs_nonneg _, by rw [abs_mul, abs_of_pos hpi]; nlinarith⟩
      · exact ⟨hpi.le, le_rfl⟩
      · rw [abs_mul, abs_of_pos hpi]; nlinarith
    rw [Real.cos_abs, Real.cos_pi] at this
    linarith
  · rintro ⟨-, h | h⟩
    · have : q = -1 := by rw [hq, h, div_eq_iff hM0.ne']; push_cast; ring
      rw [this, mul_neg_one, Real.cos_neg, Real.cos_pi]; norm_num
    · have : q = 1 := by
        have e : (M : ℝ) = n + 1 := by exact_mod_cast h.symm
        rw [hq, div_eq_iff hM0.ne', e]; ring
      rw [this, mul_one, Real.cos_pi]; norm_num

theorem hanning_one {M n : Nat} (hn : n < M) : hanning M n = 1 ↔ 2 * n + 1 = M := by
  unfold hanning
  by_cases h1 : M = 1
  · simp [h1]; omega
  rw [if_neg h1]
  have hM : (1 : ℝ) < M := by exact_mod_cast (by omega : 1 < M)
  have hM0 : (0 : ℝ) < M - 1 := by linarith
  have hpi := Real.pi_pos
  have hn1 : (n : ℝ) + 1 ≤ M := by exact_mod_cast hn
  have hn0 : (0 : ℝ) ≤ n := Nat.cast_nonneg n
  obtain ⟨q, hq⟩ : ∃ q : ℝ, q = (1 - M + 2 * n) / (M - 1) := ⟨_, rfl⟩
  have hθ : Real.pi * (1 - M + 2 * n) / (M - 1) = Real.pi * q := by rw [hq]; ring
  rw [hθ]
  have hq1 : -1 ≤ q ∧ q ≤ 1 := by
    rw [hq]
    constructor
    · rw [le_div_iff₀ hM0]; linarith
    · rw [div_le_one hM0]; linarith
  have h2 : Real.cos (Real.pi * q) = 1 ↔ Real.pi * q = 0 :=
    Real.cos_eq_one_iff_of_lt_of_lt (by nlinarith) (by nlinarith)
  have h3 : (1 / 2 + 1 / 2 * Real.cos (Real.pi * q) = 1) ↔ Real.cos (Real.pi * q) = 1 := by
    constructor <;> intro h <;> linarith
  rw [h3, h2, mul_eq_zero, hq, div_eq_zero_iff]
  constructor
  · rintro (h | h | h)
    · exact absurd h hpi.ne'
    · have : (2 * n + 1 : ℝ) = M := by linarith
      exact_mod_cast this
    · exact absurd h hM0.ne'
  · intro h
    have : (2 * n + 1 : ℝ) = M := by exact_mod_cast h
    right; left; linarith

theorem pixel_getElem (p : Plane ℝ) (i j : Nat) (hi : i < p.rows.length) (hj : j < p.rows[i].length) :
    pixel p i j = p.rows[i][j] := by
  have h : p.rows.getD i [] = p.rows[i] := List.getD_eq_getElem _ _ hi
  rw [pixel_nat, h, List.getD_eq_getElem _ _ hj]

theorem pixel_ofFn {h w : Nat} (g : Fin h → Fin w → ℝ) (i j : Nat) (hi : i < h) (hj : j < w) :
    pixel ⟨h, w, List.ofFn fun i => List.ofFn fun j => g i j⟩ i j = g ⟨i, hi⟩ ⟨j, hj⟩ := by
  rw [pixel_getElem _ i j (by simpa using hi) (by simpa using hj)]
  simp

theorem ofFn_rect {h w : Nat} (g : Fin h → Fin w → ℝ) :
    Rectangular ⟨h, w, List.ofFn fun i => List.ofFn fun j => g i j⟩ := by
  refine ⟨by simp, fun r hr => ?_⟩
  simp only [List.mem_ofFn] at hr
  obtain ⟨i, rfl⟩ := hr
  simp

theorem mask_pixel {h w i j : Nat} (hi : i < h) (hj : j < w) :
    pixel (cosineMask h w) i j = hanning h i * hanning w j := pixel_ofFn _ i j hi hj

theorem masked_pixel {p : Plane ℝ} (hp : Rectangular p) {i j : Nat} (hi : i < p.h) (hj : j < p.w) :
    pixel (masked true p) i j = pixel (cosineMask p.h p.w) i j * pixel p i j := by
  have hm : Rectangular (cosineMask p.h p.w) := ofFn_rect _
  have l1 : i < (cosineMask p.h p.w).rows.length := by rw [hm.1]; exact hi
  have l2 : i < p.rows.length := by rw [hp.1]; exact hi
  have k1 : j < ((cosineMask p.h p.w).rows[i]).length := by rw [hm.2 _ (List.getElem_mem _)]; exact hj
  have k2 : j < (p.rows[i]).length := by rw [hp.2 _ (List.getElem_mem _)]; exact hj
  simp only [masked, if_true]
  rw [pixel_getElem _ i j l1 k1, pixel_getElem _ i j l2 k2, pixel_getElem _ i j
    (by simp only [List.length_zipWith]; exact lt_min l1 l2)
    (by simp only [List.getElem_zipWith, List.length_zipWith]; exact lt_min k1 k2)]
  simp only [List.getElem_zipWith]

theorem density_lt {cov : ℝ} (hc : 0 < cov) (a b c d : Int) :
    density cov a b < density cov c d ↔ c ^ 2 + d ^ 2 < a ^ 2 + b ^ 2 := by
  unfold density
  rw [Real.exp_lt_exp]
  have : ((c : ℝ) ^ 2 + (d : ℝ) ^ 2) / cov < ((a : ℝ) ^ 2 + (b : ℝ) ^ 2) / cov ↔ c ^ 2 + d ^ 2 < a ^ 2 + b ^ 2 := by
    rw [div_lt_div_iff_of_pos_right hc]
    exact_mod_cast Iff.rfl
  rw [← this]
  constructor <;> intro h <;> linarith

end Menpofit

namespace Menpofit
open Fft Dft Conv Ens Spec Base

theorem turned_pixel {p : Plane ℝ} (hp : Rectangular p) :
    IsHalfTurn p ⟨p.h, p.w, (p.rows.map List.reverse).reverse⟩ := by
  refine ⟨⟨by simp [hp.1], fun r hr => ?_⟩, rfl, rfl, fun i j hi hj => ?_⟩
  · simp only [List.mem_reverse, List.mem_map] at hr
    obtain ⟨a, ha, rfl⟩ := hr
    rw [List.length_reverse]; exact hp.2 a ha
  · have l2 : p.h - 1 - i < p.rows.length := by rw [hp.1]; omega
    have k2 : p.w - 1 - j < (p.rows[p.h - 1 - i]).length := by rw [hp.2 _ (List.getElem_mem _)]; omega
    have e1 : ((p.h : ℤ) - 1 - i) = ((p.h - 1 - i : Nat) : ℤ) := by omega
    have e2 : ((p.w : ℤ) - 1 - j) = ((p.w - 1 - j : Nat) : ℤ) := by omega
    have l1 : i < ((p.rows.map List.reverse).reverse).length := by simp [hp.1, hi]
    have r1 : ((p.rows.map List.reverse).reverse)[i] = (p.rows[p.h - 1 - i]).reverse := by
      simp [hp.1]
    have k1 : j < (((p.rows.map List.reverse).reverse)[i]).length := by
      rw [r1, List.length_reverse, hp.2 _ (List.getElem_mem _)]; exact hj
    rw [e1, e2, pixel_getElem _ i j l1 k1, pixel_getElem _ _ _ l2 k2]
    simp only [r1, List.getElem_reverse, hp.2 _ (List.getElem_mem l2)]

theorem inverse_plane {p : Plane ℝ} (hp : Rectangular p) {eh ew : Nat} (hh : p.h = eh) (hw : p.w = ew) (h0 : 0 < eh)
    (w0 : 0 < ew) :
    (⟨eh, ew, List.ofFn fun i => List.ofFn fun j => (ifft2 (fft2 (values eh ew p)) (i, j)).re⟩ : Plane ℝ) = p := by
  subst hh hw
  refine plane_ext (ofFn_rect _) hp rfl rfl fun i j hi hj => ?_
  rw [pixel_ofFn _ i j hi hj, ifft2_fft2 h0 w0, values_pixel]
  simp

end Menpofit
