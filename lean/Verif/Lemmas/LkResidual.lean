import Verif.Model.LkResidual
import Verif.Spec.LkResidual
import Verif.Lemmas.Dft
import Verif.Lemmas.GaussNewton
import Verif.Lemmas.Result
import Verif.Lemmas.Stats
import Verif.Lemmas.Quadratic
import Verif.Spec.GaussNewton
import Mathlib.Algebra.Order.Chebyshev
import Mathlib.Algebra.BigOperators.Field
/-!
# Lemmas about the Lucas-Kanade residuals
-/

namespace Menpofit
namespace Lk
open Matrix GN Dft Stats

variable {c h w n : Nat} {Im T : Type}

theorem npSolve_zero {K : Type} [Field K] [DecidableEq K] {M : Matrix (Fin n) (Fin n) K} {d : Fin n → K}
    (h : npSolve M 0 = .ok d) : d = 0 := by
  unfold npSolve at h
  split at h
  · cases h
  · injection h with h
    rw [← h, mulVec_zero]

/-! ### Fourier domain -/

theorem onPlanes_fft_mul (X Y : Matrix (Px c h w) (Fin n) ℂ) :
    (onPlanes fft2 X)ᴴ * onPlanes fft2 Y = ((h * w : ℕ) : ℂ) • (Xᴴ * Y) := by
  ext i j
  simp only [mul_apply, conjTranspose_apply, Matrix.smul_apply, smul_eq_mul, Fintype.sum_prod_type (γ := ℂ)]
  rw [Finset.mul_sum]
  refine Finset.sum_congr rfl fun a _ => ?_
  have := parseval (fun p => X (a, p) i) (fun p => Y (a, p) j)
  simp only [dotProduct, Pi.star_apply, Fintype.sum_prod_type] at this
  exact this

theorem onPlanes_fft_mulVec (X : Matrix (Px c h w) (Fin n) ℂ) (e : Px c h w → ℂ) :
    ((onPlanes fft2 X)ᴴ *ᵥ fun x : Px c h w => fft2 (fun p => e (x.1, p)) x.2) =
      ((h * w : ℕ) : ℂ) • (Xᴴ *ᵥ e) := by
  ext i
  simp only [mulVec, dotProduct, conjTranspose_apply, Pi.smul_apply, smul_eq_mul,
    Fintype.sum_prod_type (γ := ℂ)]
  rw [Finset.mul_sum]
  refine Finset.sum_congr rfl fun a _ => ?_
  have := parseval (fun p => X (a, p) i) (fun p => e (a, p))
  simp only [dotProduct, Pi.star_apply, Fintype.sum_prod_type] at this
  exact this

theorem solveRe_smul {N : ℂ} (hN : N ≠ 0) (M : Matrix (Fin n) (Fin n) ℂ) (b : Fin n → ℂ) :
    solveRe (N • M) (N • b) = solveRe M b := by
  unfold solveRe npSolve
  by_cases hd : M.det = 0
  · rw [if_pos (by rw [det_smul, hd, mul_zero]), if_pos hd]
  · have hd' : (N • M).det ≠ 0 := by
      rw [det_smul]; exact mul_ne_zero (pow_ne_zero _ hN) hd
    rw [if_neg hd', if_neg hd]
    have hinv : (N • M)⁻¹ = N⁻¹ • M⁻¹ := by
      apply inv_eq_right_inv
      rw [smul_mul, Matrix.mul_smul, smul_smul, mul_inv_cancel₀ hN, one_smul,
        mul_nonsing_inv _ (Ne.isUnit hd)]
    rw [hinv, smul_mulVec, mulVec_smul, smul_smul, inv_mul_cancel₀ hN, one_smul]

/-- A complex matrix with real entries. -/
def IsReal {ι κ : Type} (X : Matrix ι κ ℂ) : Prop := ∀ i j, star (X i j) = X i j

theorem conjTranspose_of_real {ι κ : Type} {X : Matrix ι κ ℂ} (hX : IsReal X) : Xᴴ = Xᵀ := by
  ext i j; exact hX j i

theorem map_isReal {ι κ : Type} (X : Matrix ι κ ℝ) : IsReal (X.map (fun x : ℝ => (x : ℂ))) := by
  intro i j; simp [Matrix.map_apply]

/-- Solving the normal equations in the Fourier domain. -/
theorem solve_fourier (X Y : Matrix (Px c h w) (Fin n) ℂ) (hX : IsReal X) (e : Px c h w → ℂ) :
    solveRe ((onPlanes fft2 X)ᴴ * onPlanes fft2 Y)
        ((onPlanes fft2 X)ᴴ *ᵥ fun x : Px c h w => fft2 (fun p => e (x.1, p)) x.2) =
      solveRe (Xᵀ * Y) (Xᵀ *ᵥ e) := by
  rw [onPlanes_fft_mul, onPlanes_fft_mulVec, conjTranspose_of_real hX]
  by_cases hN : ((h * w : ℕ) : ℂ) = 0
  · have hN' : h * w = 0 := by exact_mod_cast hN
    have hE : IsEmpty (Px c h w) := by
      constructor
      rintro ⟨_, a, b⟩
      rcases Nat.mul_eq_zero.1 hN' with e | e
      · subst e; exact a.elim0
      · subst e; exact b.elim0
    have h1 : Xᵀ * Y = 0 := by ext i j; simp [mul_apply]
    have h2 : Xᵀ *ᵥ e = 0 := by ext i; simp [mulVec, dotProduct]
    rw [h1, h2, smul_zero, smul_zero]
  · exact solveRe_smul hN _ _

theorem filtered_fourier (k : Pos h w → ℂ) (X : Matrix (Px c h w) (Fin n) ℂ) :
    onPlanes (fun x => k * x) (onPlanes fft2 X) =
      onPlanes fft2 (onPlanes (fun x => ifft2 (k * fft2 x)) X) := by
  ext x j
  have hh : 0 < h := lt_of_le_of_lt (Nat.zero_le _) x.2.1.2
  have hw : 0 < w := lt_of_le_of_lt (Nat.zero_le _) x.2.2.2
  have := fft2_ifft2 hh hw (k * fft2 fun p => X (x.1, p) j)
  exact (congrFun this x.2).symm

theorem filtered_isReal {k : Pos h w → ℂ} (hk : Spec.RealFilter fun x => ifft2 (k * fft2 x))
    (X : Matrix (Px c h w) (Fin n) ℝ) :
    IsReal (onPlanes (fun x => ifft2 (k * fft2 x)) (X.map (fun x : ℝ => (x : ℂ)))) := by
  intro x j
  obtain ⟨y, hy⟩ := hk fun p => X (x.1, p) j
  have := congrFun hy x.2
  simp only at this
  unfold onPlanes
  simp only [Matrix.map_apply]
  rw [this]
  simp

/-! ### Normalisation and gains -/

theorem normalise_relit {x y : Planes c h w}
    (hr : Spec.Relit (fun i : Px c h w => x i.1 i.2) fun i : Px c h w => y i.1 i.2) : normalise y = normalise x := by
  obtain ⟨a, b, ha, hy⟩ := hr
  rcases isEmpty_or_nonempty (Px c h w) with hE | ⟨⟨i0⟩⟩
  · have : x = y := by funext i p; exact hE.elim (i, p)
    rw [this]
  have hN : ((c * (h * w) : ℕ) : ℝ) ≠ 0 := by
    have h1 : 0 < c := lt_of_le_of_lt (Nat.zero_le _) i0.1.2
    have h2 : 0 < h := lt_of_le_of_lt (Nat.zero_le _) i0.2.1.2
    have h3 : 0 < w := lt_of_le_of_lt (Nat.zero_le _) i0.2.2.2
    exact_mod_cast (Nat.mul_pos h1 (Nat.mul_pos h2 h3)).ne'
  obtain ⟨mx, hmx⟩ : ∃ m, m = (∑ i : Px c h w, x i.1 i.2) / ((c * (h * w) : ℕ) : ℝ) := ⟨_, rfl⟩
  obtain ⟨my, hmy⟩ : ∃ m, m = (∑ i : Px c h w, y i.1 i.2) / ((c * (h * w) : ℕ) : ℝ) := ⟨_, rfl⟩
  have hm : my = a * mx + b := by
    rw [hmx, hmy, Finset.sum_congr rfl fun i _ => hy i, Finset.sum_add_distrib, ← Finset.mul_sum,
      Finset.sum_const, Finset.card_univ, nsmul_eq_mul]
    have : (Fintype.card (Px c h w) : ℝ) = ((c * (h * w) : ℕ) : ℝ) := by
      simp [Fintype.card_prod, Fintype.card_fin]
    rw [this]
    field_simp
  have hc : ∀ i p, y i p - my = a * (x i p - mx) := by
    intro i p
    have := hy (i, p)
    simp only at this
    rw [this, hm]; ring
  have hs : Real.sqrt (∑ i : Px c h w, (y i.1 i.2 - my) ^ 2) =
      a * Real.sqrt (∑ i : Px c h w, (x i.1 i.2 - mx) ^ 2) := by
    rw [Finset.sum_congr rfl fun i _ => by rw [hc, mul_pow], ← Finset.mul_sum,
      Real.sqrt_mul (sq_nonneg a), Real.sqrt_sq ha.le]
  unfold normalise
  simp only [← hmx, ← hmy]
  rw [hs]
  by_cases h0 : Real.sqrt (∑ i : Px c h w, (x i.1 i.2 - mx) ^ 2) = 0
  · rw [if_pos (by rw [h0, mul_zero]), if_pos h0]
  · rw [if_neg (mul_ne_zero ha.ne' h0), if_neg h0]
    congr 1
    funext i p
    rw [hc, mul_div_mul_left _ _ ha.ne']

theorem magnitude_gain {g : Fin 2 → Planes c h w} {g' : Fin 2 → Planes c h w} {a : ℝ} (ha : 0 < a)
    (hg : ∀ d i p, g' d i p = a * g d i p) (p : Pos h w) : magnitude g' p = a * magnitude g p := by
  unfold magnitude
  have : ∑ d, ∑ i, g' d i p ^ 2 = a ^ 2 * ∑ d, ∑ i, g d i p ^ 2 := by
    simp only [hg, mul_pow, Finset.mul_sum]
  rw [this, Real.sqrt_mul (sq_nonneg a), Real.sqrt_sq ha.le]

theorem npMedian_mul (l : List ℝ) {a : ℝ} (ha : 0 < a) : npMedian (l.map fun x => a * x) = a * npMedian l := by
  by_cases hl : l = []
  · subst hl; simp [npMedian]
  · exact npMedian_map_mono l hl (fun x => a * x) (fun x y hxy => mul_le_mul_of_nonneg_left hxy ha.le)
      (fun x y => by ring)

theorem medianMagnitude_gain {g g' : Fin 2 → Planes c h w} {a : ℝ} (ha : 0 < a)
    (hg : ∀ d i p, g' d i p = a * g d i p) : medianMagnitude g' = a * medianMagnitude g := by
  unfold medianMagnitude
  rw [← npMedian_mul _ ha, List.map_map]
  congr 1
  exact List.map_congr_left fun p _ => magnitude_gain ha hg p

theorem regularise_gain {g g' : Fin 2 → Planes c h w} {a : ℝ} (ha : 0 < a)
    (hg : ∀ d i p, g' d i p = a * g d i p) : regularise g' = regularise g := by
  funext d i p
  unfold regularise
  rw [hg, magnitude_gain ha hg, medianMagnitude_gain ha hg, ← mul_add, mul_div_mul_left _ _ ha.ne']

theorem orientation_gain {g g' : Fin 2 → Planes c h w} {a : ℝ} (ha : 0 < a)
    (hg : ∀ d i p, g' d i p = a * g d i p) : orientation g' = orientation g := by
  funext i p
  unfold orientation
  rw [hg, hg, ← Complex.arg_real_mul (⟨g 1 i p, g 0 i p⟩ : ℂ) ha]
  congr 1
  apply Complex.ext <;> simp

theorem magnitude_nonneg (g : Fin 2 → Planes c h w) (p : Pos h w) : 0 ≤ magnitude g p := Real.sqrt_nonneg _

/-- The magnitude of regularised gradients. -/
theorem magnitude_regularise {g : Fin 2 → Planes c h w} (hm : 0 < medianMagnitude g) (p : Pos h w) :
    magnitude (regularise g) p = magnitude g p / (magnitude g p + medianMagnitude g) := by
  have hpos : 0 < magnitude g p + medianMagnitude g := add_pos_of_nonneg_of_pos (magnitude_nonneg g p) hm
  have : ∑ d, ∑ i, regularise g d i p ^ 2 =
      (∑ d, ∑ i, g d i p ^ 2) / (magnitude g p + medianMagnitude g) ^ 2 := by
    simp only [regularise, div_pow, Finset.sum_div]
  show Real.sqrt _ = _
  rw [this, Real.sqrt_div' _ (sq_nonneg _), Real.sqrt_sq hpos.le]
  rfl

/-- Regularised gradients determine the gradients up to their common factor. -/
theorem regularise_inj {g g' : Fin 2 → Planes c h w} (hm : 0 < medianMagnitude g) (hm' : 0 < medianMagnitude g')
    (he : regularise g' = regularise g) (d : Fin 2) (i : Fin c) (p : Pos h w) :
    g' d i p = medianMagnitude g' / medianMagnitude g * g d i p := by
  have h1 := magnitude_regularise hm p
  have h2 := magnitude_regularise hm' p
  rw [he, h1] at h2
  have h3 := congrFun (congrFun (congrFun he d) i) p
  unfold regularise at h3
  obtain ⟨M, hM⟩ : ∃ M, M = magnitude g p := ⟨_, rfl⟩
  obtain ⟨M', hM'⟩ : ∃ M', M' = magnitude g' p := ⟨_, rfl⟩
  have hM0 : 0 ≤ M := hM ▸ magnitude_nonneg g p
  have hM0' : 0 ≤ M' := hM' ▸ magnitude_nonneg g' p
  rw [← hM, ← hM'] at h2 h3
  have p1 : 0 < M + medianMagnitude g := by linarith
  have p2 : 0 < M' + medianMagnitude g' := by linarith
  rw [div_eq_div_iff p1.ne' p2.ne'] at h2
  rw [div_eq_div_iff p2.ne' p1.ne'] at h3
  have h4 : M * medianMagnitude g' = M' * medianMagnitude g := by linarith
  have h5 : (M' + medianMagnitude g') * medianMagnitude g = (M + medianMagnitude g) * medianMagnitude g' := by
    linarith
  rw [div_mul_eq_mul_div, eq_div_iff hm.ne']
  have h6 : g' d i p * medianMagnitude g * (M + medianMagnitude g) =
      medianMagnitude g' * g d i p * (M + medianMagnitude g) := by
    calc g' d i p * medianMagnitude g * (M + medianMagnitude g)
        = (g' d i p * (M + medianMagnitude g)) * medianMagnitude g := by ring
      _ = (g d i p * (M' + medianMagnitude g')) * medianMagnitude g := by rw [h3]
      _ = g d i p * ((M' + medianMagnitude g') * medianMagnitude g) := by ring
      _ = g d i p * ((M + medianMagnitude g) * medianMagnitude g') := by rw [h5]
      _ = _ := by ring
  exact mul_right_cancel₀ p1.ne' h6

theorem correlationError_sin (phi phiW : Planes c h w) (x : Px c h w) :
    correlationError phi phiW x = Real.sin (phiW x.1 x.2 - phi x.1 x.2) := by
  unfold correlationError
  rw [Real.sin_sub]; ring

theorem correlationError_self (phi : Planes c h w) : correlationError phi phi = 0 := by
  funext x; rw [correlationError_sin]; simp

/-- The error is the cross product of the gradients, divided by their lengths. -/
theorem correlationError_cross (g g' : Fin 2 → Planes c h w) (x : Px c h w)
    (hg : (⟨g 1 x.1 x.2, g 0 x.1 x.2⟩ : ℂ) ≠ 0) (hg' : (⟨g' 1 x.1 x.2, g' 0 x.1 x.2⟩ : ℂ) ≠ 0) :
    correlationError (orientation g) (orientation g') x = 0 ↔
      g 0 x.1 x.2 * g' 1 x.1 x.2 = g 1 x.1 x.2 * g' 0 x.1 x.2 := by
  unfold correlationError orientation
  rw [Complex.cos_arg hg, Complex.cos_arg hg', Complex.sin_arg, Complex.sin_arg]
  have n1 : ‖(⟨g 1 x.1 x.2, g 0 x.1 x.2⟩ : ℂ)‖ ≠ 0 := norm_ne_zero_iff.2 hg
  have n2 : ‖(⟨g' 1 x.1 x.2, g' 0 x.1 x.2⟩ : ℂ)‖ ≠ 0 := norm_ne_zero_iff.2 hg'
  rw [div_mul_div_comm, div_mul_div_comm, ← sub_div, div_eq_zero_iff]
  constructor
  · rintro (h | h)
    · linarith
    · exact absurd h (mul_ne_zero n1 n2)
  · intro h; left; linarith

/-! ### Correlation -/

section ecc
variable {m : Type} [Fintype m]

/-- Cauchy-Schwarz for the correlation of `w` with `r + v`, where `v` ranges over a subspace and `q` is the
projection of `w` on it. -/
theorem correlation_le {w r q v : m → ℝ} {b : ℝ} (hb : b = r ⬝ᵥ r) (hb0 : 0 < b) (ha : 0 < w ⬝ᵥ r)
    (hrv : r ⬝ᵥ v = 0) (hrq : r ⬝ᵥ q = 0) (hv : w ⬝ᵥ v = q ⬝ᵥ v) (hq : w ⬝ᵥ q = q ⬝ᵥ q) :
    Spec.correlation w (r + v) ≤ Spec.correlation w (r + (b / (w ⬝ᵥ r)) • q) := by
  unfold Spec.correlation
  obtain ⟨a, hea⟩ : ∃ a, a = w ⬝ᵥ r := ⟨_, rfl⟩
  obtain ⟨s, hs⟩ : ∃ s, s = q ⬝ᵥ q := ⟨_, rfl⟩
  obtain ⟨t, ht⟩ : ∃ t, t = v ⬝ᵥ v := ⟨_, rfl⟩
  obtain ⟨u, hu⟩ : ∃ u, u = q ⬝ᵥ v := ⟨_, rfl⟩
  have hs0 : 0 ≤ s := by rw [hs]; exact Finset.sum_nonneg fun i _ => mul_self_nonneg _
  have ht0 : 0 ≤ t := by rw [ht]; exact Finset.sum_nonneg fun i _ => mul_self_nonneg _
  have hcs : u ^ 2 ≤ s * t := by
    rw [hu, hs, ht]
    have := Finset.sum_mul_sq_le_sq_mul_sq Finset.univ q v
    simpa only [dotProduct, sq] using this
  have e1 : w ⬝ᵥ (r + v) = a + u := by rw [dotProduct_add, hv, hea, hu]
  have e2 : (r + v) ⬝ᵥ (r + v) = b + t := by
    rw [dotProduct_add, add_dotProduct, add_dotProduct, dotProduct_comm v r, hrv, hb, ht]; ring
  have e3 : w ⬝ᵥ (r + (b / a) • q) = a + b / a * s := by
    rw [dotProduct_add, dotProduct_smul, hq, hea, hs, smul_eq_mul]
  have e4 : (r + (b / a) • q) ⬝ᵥ (r + (b / a) • q) = b + (b / a) ^ 2 * s := by
    rw [dotProduct_add, add_dotProduct, add_dotProduct, smul_dotProduct, dotProduct_comm q r, dotProduct_smul,
      dotProduct_smul, smul_dotProduct, hrq, hb, hs]
    simp only [smul_eq_mul]; ring
  rw [← hea, e1, e2, e3, e4]
  rw [← hea] at ha
  have hd1 : 0 < b + t := by linarith
  have hd2 : 0 < b + (b / a) ^ 2 * s := by
    have : 0 ≤ (b / a) ^ 2 * s := mul_nonneg (sq_nonneg _) hs0
    linarith
  rw [div_le_div_iff₀ (Real.sqrt_pos.2 hd1) (Real.sqrt_pos.2 hd2)]
  have hr0 : 0 ≤ (a + b / a * s) * Real.sqrt (b + t) := by
    apply mul_nonneg _ (Real.sqrt_nonneg _)
    have : 0 ≤ b / a * s := mul_nonneg (div_nonneg hb0.le ha.le) hs0
    linarith
  apply le_of_sq_le_sq' _ hr0
  rw [mul_pow, mul_pow, Real.sq_sqrt hd1.le, Real.sq_sqrt hd2.le]
  have k1 : b + (b / a) ^ 2 * s = b * (a ^ 2 + b * s) / a ^ 2 := by field_simp
  have k2 : a + b / a * s = (a ^ 2 + b * s) / a := by field_simp
  rw [k1, k2, div_pow, mul_div_assoc', div_mul_eq_mul_div]
  apply div_le_div_of_nonneg_right _ (sq_nonneg a)
  have hK : 0 ≤ a ^ 2 + b * s := by positivity
  have : (a + u) ^ 2 * b ≤ (a ^ 2 + b * s) * (b + t) := by
    have h1 : (2 * (a * b * u)) ^ 2 ≤ (a ^ 2 * t + b ^ 2 * s) ^ 2 := by
      have h2 : (a * b) ^ 2 * u ^ 2 ≤ (a * b) ^ 2 * (s * t) := mul_le_mul_of_nonneg_left hcs (sq_nonneg _)
      nlinarith [sq_nonneg (a ^ 2 * t - b ^ 2 * s)]
    have h3 : 2 * (a * b * u) ≤ a ^ 2 * t + b ^ 2 * s := le_of_sq_le_sq' h1 (by positivity)
    nlinarith [mul_le_mul_of_nonneg_left hcs hb0.le]
  nlinarith [mul_le_mul_of_nonneg_left this hK]
where
  le_of_sq_le_sq' {x y : ℝ} (h : x ^ 2 ≤ y ^ 2) (hy : 0 ≤ y) : x ≤ y := abs_le_of_sq_le_sq' h hy |>.2

theorem eccLambda_self (hInv : Matrix (Fin n) (Fin n) ℝ) (s : Matrix m (Fin n) ℝ) {x : m → ℝ}
    (hx : 0 < x ⬝ᵥ x) : eccLambda hInv s x x = 1 := by
  unfold eccLambda
  simp only
  rw [Real.sq_sqrt hx.le]
  obtain ⟨q, hq⟩ : ∃ q, q = (sᵀ *ᵥ x) ⬝ᵥ (hInv *ᵥ (sᵀ *ᵥ x)) := ⟨_, rfl⟩
  rw [← hq]
  split
  · next hd => exact div_self hd.ne'
  · next hd =>
    have hq0 : 0 < q := by linarith
    rw [div_self hq0.ne', Real.sqrt_one]
    apply max_eq_left
    rw [div_le_one hq0]
    linarith

theorem remainder_orthogonal {G : Matrix m (Fin n) ℝ} {x r : m → ℝ} (h : Spec.IsRemainder G x r) :
    Gᵀ *ᵥ r = 0 := by
  have h2 := h.2 (Gᵀ *ᵥ r)
  have : (G *ᵥ (Gᵀ *ᵥ r)) ⬝ᵥ r = (Gᵀ *ᵥ r) ⬝ᵥ (Gᵀ *ᵥ r) := by
    rw [dotProduct_comm, dotProduct_mulVec, ← mulVec_transpose]
  rw [this] at h2
  exact dotProduct_self_eq_zero.1 h2

/-- The step size and step of ECC in terms of what lies outside the span of the steepest descent
images. -/
theorem ecc_step {S : Matrix m (Fin n) ℝ} {hInv : Matrix (Fin n) (Fin n) ℝ} {t w rt rw' : m → ℝ}
    (hinv : npInv (Sᵀ * S) = .ok hInv) (ht : Spec.IsRemainder S t rt) (hw : Spec.IsRemainder S w rw')
    (hpos : 0 < rt ⬝ᵥ rw') {dp : Fin n → ℝ}
    (hdp : npSolve (Sᵀ * S) (Sᵀ *ᵥ fun x => eccLambda hInv S w t * w x - t x) = .ok dp) :
    ∃ a b, t = rt + S *ᵥ a ∧ w = rw' + S *ᵥ b ∧
      dp = ((rw' ⬝ᵥ rw') / (rt ⬝ᵥ rw')) • b - a := by
  obtain ⟨a, ha⟩ := ht.1
  obtain ⟨b, hb⟩ := hw.1
  have ha' : t = rt + S *ᵥ a := by rw [ha]; simp
  have hb' : w = rw' + S *ᵥ b := by rw [hb]; simp
  have ot := remainder_orthogonal ht
  have ow := remainder_orthogonal hw
  obtain ⟨hd, hHG⟩ := npInv_ok hinv
  have hGH : hInv * (Sᵀ * S) = 1 := mul_eq_one_comm.1 hHG
  have gt : Sᵀ *ᵥ t = (Sᵀ * S) *ᵥ a := by rw [ha', mulVec_add, ot, zero_add, mulVec_mulVec]
  have gw : Sᵀ *ᵥ w = (Sᵀ * S) *ᵥ b := by rw [hb', mulVec_add, ow, zero_add, mulVec_mulVec]
  have igt : hInv *ᵥ (Sᵀ *ᵥ t) = a := by rw [gt, mulVec_mulVec, hGH, one_mulVec]
  have igw : hInv *ᵥ (Sᵀ *ᵥ w) = b := by rw [gw, mulVec_mulVec, hGH, one_mulVec]
  have adj : ∀ (x : m → ℝ) (q : Fin n → ℝ), (Sᵀ *ᵥ x) ⬝ᵥ q = x ⬝ᵥ (S *ᵥ q) := by
    intro x q; rw [dotProduct_mulVec, ← mulVec_transpose]
  have hww : w ⬝ᵥ w - (Sᵀ *ᵥ w) ⬝ᵥ (hInv *ᵥ (Sᵀ *ᵥ w)) = rw' ⬝ᵥ rw' := by
    rw [igw, adj, ← dotProduct_sub, ← hb, hb', add_dotProduct, hw.2, add_zero]
  have htw : t ⬝ᵥ w - (Sᵀ *ᵥ t) ⬝ᵥ (hInv *ᵥ (Sᵀ *ᵥ w)) = rt ⬝ᵥ rw' := by
    rw [igw, adj, ← dotProduct_sub, ← hb, ha', add_dotProduct, hw.2, add_zero]
  have hl : eccLambda hInv S w t = (rw' ⬝ᵥ rw') / (rt ⬝ᵥ rw') := by
    unfold eccLambda
    simp only
    have h0 : 0 ≤ w ⬝ᵥ w := Finset.sum_nonneg fun i _ => mul_self_nonneg _
    rw [Real.sq_sqrt h0, hww, htw, if_pos hpos]
  refine ⟨a, b, ha', hb', ?_⟩
  obtain ⟨l, hl'⟩ : ∃ l, l = (rw' ⬝ᵥ rw') / (rt ⬝ᵥ rw') := ⟨_, rfl⟩
  rw [hl, ← hl'] at hdp
  have hrhs : (Sᵀ *ᵥ fun x => l * w x - t x) = (Sᵀ * S) *ᵥ (l • b - a) := by
    have : (fun x => l * w x - t x) = l • w - t := rfl
    rw [this, mulVec_sub, mulVec_smul, gt, gw, mulVec_sub, mulVec_smul]
  rw [hrhs] at hdp
  obtain ⟨_, h2⟩ := npSolve_ok hdp
  rw [← hl']
  have := congrArg (fun v => hInv *ᵥ v) h2
  simpa only [mulVec_mulVec, hGH, one_mulVec] using this

/-- The step of ECC where the remainders are not positively correlated. -/
theorem ecc_step_fallback {S : Matrix m (Fin n) ℝ} {hInv : Matrix (Fin n) (Fin n) ℝ} {t w rt rw' : m → ℝ}
    (hinv : npInv (Sᵀ * S) = .ok hInv) (ht : Spec.IsRemainder S t rt) (hw : Spec.IsRemainder S w rw')
    (hpos : rt ⬝ᵥ rw' ≤ 0) {dp : Fin n → ℝ}
    (hdp : npSolve (Sᵀ * S) (Sᵀ *ᵥ fun x => eccLambda hInv S w t * w x - t x) = .ok dp) :
    ∃ a b, t = rt + S *ᵥ a ∧ w = rw' + S *ᵥ b ∧
      dp = (max (Real.sqrt (((S *ᵥ b) ⬝ᵥ (S *ᵥ b)) / ((S *ᵥ a) ⬝ᵥ (S *ᵥ a))))
        (-(rt ⬝ᵥ rw') / ((S *ᵥ a) ⬝ᵥ (S *ᵥ a)))) • b - a := by
  obtain ⟨a, ha⟩ := ht.1
  obtain ⟨b, hb⟩ := hw.1
  have ha' : t = rt + S *ᵥ a := by rw [ha]; simp
  have hb' : w = rw' + S *ᵥ b := by rw [hb]; simp
  have ot := remainder_orthogonal ht
  have ow := remainder_orthogonal hw
  obtain ⟨hd, hHG⟩ := npInv_ok hinv
  have hGH : hInv * (Sᵀ * S) = 1 := mul_eq_one_comm.1 hHG
  have gt : Sᵀ *ᵥ t = (Sᵀ * S) *ᵥ a := by rw [ha', mulVec_add, ot, zero_add, mulVec_mulVec]
  have gw : Sᵀ *ᵥ w = (Sᵀ * S) *ᵥ b := by rw [hb', mulVec_add, ow, zero_add, mulVec_mulVec]
  have igt : hInv *ᵥ (Sᵀ *ᵥ t) = a := by rw [gt, mulVec_mulVec, hGH, one_mulVec]
  have igw : hInv *ᵥ (Sᵀ *ᵥ w) = b := by rw [gw, mulVec_mulVec, hGH, one_mulVec]
  have adj : ∀ (x : m → ℝ) (q : Fin n → ℝ), (Sᵀ *ᵥ x) ⬝ᵥ q = x ⬝ᵥ (S *ᵥ q) := by
    intro x q; rw [dotProduct_mulVec, ← mulVec_transpose]
  have htw : t ⬝ᵥ w - (Sᵀ *ᵥ t) ⬝ᵥ (hInv *ᵥ (Sᵀ *ᵥ w)) = rt ⬝ᵥ rw' := by
    rw [igw, adj, ← dotProduct_sub, ← hb, ha', add_dotProduct, hw.2, add_zero]
  have hn2 : (Sᵀ *ᵥ w) ⬝ᵥ (hInv *ᵥ (Sᵀ *ᵥ w)) = (S *ᵥ b) ⬝ᵥ (S *ᵥ b) := by
    rw [igw, adj, hb', add_dotProduct, dotProduct_comm rw', hw.2, zero_add]
  have hd3 : (Sᵀ *ᵥ t) ⬝ᵥ (hInv *ᵥ (Sᵀ *ᵥ t)) = (S *ᵥ a) ⬝ᵥ (S *ᵥ a) := by
    rw [igt, adj, ha', add_dotProduct, dotProduct_comm rt, ht.2, zero_add]
  refine ⟨a, b, ha', hb', ?_⟩
  obtain ⟨l, hl'⟩ : ∃ l, l = max (Real.sqrt (((S *ᵥ b) ⬝ᵥ (S *ᵥ b)) / ((S *ᵥ a) ⬝ᵥ (S *ᵥ a))))
        (-(rt ⬝ᵥ rw') / ((S *ᵥ a) ⬝ᵥ (S *ᵥ a))) := ⟨_, rfl⟩
  have hl : eccLambda hInv S w t = l := by
    unfold eccLambda
    simp only
    rw [htw, if_neg (not_lt.2 hpos), hn2, hd3, hl']
  rw [hl] at hdp
  have hrhs : (Sᵀ *ᵥ fun x => l * w x - t x) = (Sᵀ * S) *ᵥ (l • b - a) := by
    have : (fun x => l * w x - t x) = l • w - t := rfl
    rw [this, mulVec_sub, mulVec_smul, gt, gw, mulVec_sub, mulVec_smul]
  rw [hrhs] at hdp
  obtain ⟨_, h2⟩ := npSolve_ok hdp
  rw [← hl']
  have := congrArg (fun v => hInv *ᵥ v) h2
  simpa only [mulVec_mulVec, hGH, one_mulVec] using this

/-- The solution of the normal equations is the only least squares solution. -/
theorem least_squares {S : Matrix m (Fin n) ℝ} {y : m → ℝ} {d : Fin n → ℝ}
    (h : npSolve (Sᵀ * S) (Sᵀ *ᵥ y) = .ok d) :
    Spec.UniqueMin (fun x => ∑ i, (y i - (S *ᵥ x) i) ^ 2) d := by
  classical
  obtain ⟨h1, h2⟩ := npSolve_ok h
  have e : ∀ x : Fin n → ℝ, ∑ i, (y i - (S *ᵥ x) i) ^ 2 = regEnergy 1 S (-y) 0 0 x := by
    intro x
    unfold regEnergy
    rw [one_mulVec, zero_mulVec, dotProduct_zero, add_zero, dotProduct]
    refine Finset.sum_congr rfl fun i _ => ?_
    rw [Pi.add_apply, Pi.neg_apply]; ring
  intro d'
  simp only [e]
  refine regEnergy_min (by simp) (fun x => ?_) S (-y) (by simp) (fun x => by simp) 0 d ?_ ?_ d'
  · rw [one_mulVec]; exact Finset.sum_nonneg fun i _ => mul_self_nonneg _
  · rwa [Matrix.mul_one, add_zero]
  · rw [Matrix.mul_one, add_zero, h2, one_mulVec, mulVec_neg, zero_mulVec, add_zero, neg_neg]

/-- After a step of ECC with remainders of equal size `r` that are not positively correlated (`D ≤ 0`), where
`s` is the squared size of the explained parts. -/
theorem fallback_correlation {D s u l r : ℝ} (hD : D ≤ 0) (hs : 0 < s) (hr : r + s = 1) (hr0 : 0 ≤ r)
    (hu : u ≤ s) (hl : l = max 1 (-D / s)) :
    0 ≤ (D + l * s) / Real.sqrt (r + l ^ 2 * s) ∧ D + u ≤ (D + l * s) / Real.sqrt (r + l ^ 2 * s) := by
  have h1 : 1 ≤ l := hl ▸ le_max_left _ _
  have h2 : -D ≤ l * s := by
    have : -D / s ≤ l := hl ▸ le_max_right _ _
    rwa [div_le_iff₀ hs] at this
  have hd : 0 < r + l ^ 2 * s := by
    have : 0 < l ^ 2 * s := mul_pos (pow_pos (by linarith) 2) hs
    linarith
  have h0 : 0 ≤ (D + l * s) / Real.sqrt (r + l ^ 2 * s) :=
    div_nonneg (by linarith) (Real.sqrt_nonneg _)
  refine ⟨h0, ?_⟩
  rcases lt_or_ge (D + s) 0 with hn | hn
  · linarith
  · have : D + s ≤ (D + l * s) / Real.sqrt (r + l ^ 2 * s) := by
      rw [le_div_iff₀ (Real.sqrt_pos.2 hd)]
      apply le_of_sq_le_sq _ (by linarith)
      rw [mul_pow, Real.sq_sqrt hd.le]
      obtain ⟨k, hk⟩ : ∃ k, k = l - 1 := ⟨_, rfl⟩
      obtain ⟨e, he⟩ : ∃ e, e = D + s := ⟨_, rfl⟩
      have hk0 : 0 ≤ k := by linarith
      have he0 : 0 ≤ e := by linarith
      have hes : e ≤ s := by linarith
      have hs1 : s ≤ 1 := by linarith
      have hl' : l = 1 + k := by linarith
      have hr' : r = 1 - s := by linarith
      have hD' : D + l * s = e + k * s := by rw [hl', he]; ring
      rw [hD', ← he, hl', hr']
      have e1 : (e + k * s) ^ 2 - e ^ 2 * (1 - s + (1 + k) ^ 2 * s) =
          2 * (k * s) * (e * (1 - e)) + k ^ 2 * s * (s - e ^ 2) := by ring
      have p1 : 0 ≤ 2 * (k * s) * (e * (1 - e)) := by
        apply mul_nonneg (by positivity) (mul_nonneg he0 (by linarith))
      have p2 : 0 ≤ s - e ^ 2 := by nlinarith
      have p3 : 0 ≤ k ^ 2 * s * (s - e ^ 2) := by positivity
      linarith
    linarith
where
  le_of_sq_le_sq {x y : ℝ} (h : x ^ 2 ≤ y ^ 2) (hy : 0 ≤ y) : x ≤ y := abs_le_of_sq_le_sq' h hy |>.2

theorem uniqueMin_congr {f g : (Fin n → ℝ) → ℝ} {d : Fin n → ℝ} (h : ∀ x, g x = f x)
    (hf : Spec.UniqueMin f d) : Spec.UniqueMin g d := by
  have : g = f := funext h
  rw [this]; exact hf

/-- Least squares with the negated solution. -/
theorem negated_step {S : Matrix m (Fin n) ℝ} {y : m → ℝ} {d dp : Fin n → ℝ}
    (h : npSolve (Sᵀ * S) (Sᵀ *ᵥ y) = .ok d) (hd : dp = -d) {f : m → (Fin n → ℝ) → ℝ}
    (hf : ∀ x z, f x z = y x + (S *ᵥ z) x) : Spec.UniqueMin (fun z => ∑ x, f x z ^ 2) dp := by
  have key := least_squares h
  have e : ∀ z : Fin n → ℝ, ∑ x, f x z ^ 2 = ∑ x, (y x - (S *ᵥ (-z)) x) ^ 2 := by
    intro z
    refine Finset.sum_congr rfl fun x _ => ?_
    rw [hf, mulVec_neg, Pi.neg_apply, sub_neg_eq_add]
  intro z
  have := key (-z)
  simp only at this ⊢
  rw [e, e, hd, neg_neg]
  refine ⟨this.1, fun h0 => ?_⟩
  rw [← this.2 h0, neg_neg]

end ecc

/-- Solving real equations in complex arithmetic. -/
theorem solveRe_real (M : Matrix (Fin n) (Fin n) ℝ) (b : Fin n → ℝ) :
    solveRe (M.map (fun x : ℝ => (x : ℂ))) (fun i => (b i : ℂ)) = npSolve M b := by
  have hdet : (M.map (fun x : ℝ => (x : ℂ))).det = ((M.det : ℝ) : ℂ) :=
    (RingHom.map_det Complex.ofRealHom M).symm
  unfold solveRe npSolve
  by_cases hd : M.det = 0
  · rw [if_pos (by rw [hdet, hd]; simp), if_pos hd]; rfl
  · rw [if_neg (by rw [hdet]; exact_mod_cast hd), if_neg hd]
    have hinv : (M.map (fun x : ℝ => (x : ℂ)))⁻¹ = M⁻¹.map (fun x : ℝ => (x : ℂ)) := by
      apply inv_eq_right_inv
      have h1 : M * M⁻¹ = 1 := mul_nonsing_inv M (isUnit_iff_ne_zero.2 hd)
      have h2 := congrArg (fun X : Matrix (Fin n) (Fin n) ℝ => X.map Complex.ofRealHom) h1
      simp only [Matrix.map_mul] at h2
      rw [Matrix.map_one _ (map_zero _) (map_one _)] at h2
      exact h2
    simp only [Except.map]
    congr 1
    funext i
    rw [hinv]
    simp only [mulVec, dotProduct, Matrix.map_apply]
    rw [Complex.re_sum]
    refine Finset.sum_congr rfl fun j _ => ?_
    rw [← Complex.ofReal_mul, Complex.ofReal_re]

/-- The normal equations of real steepest descent images and a real error, in complex arithmetic. -/
theorem solveRe_normal {m : Type} [Fintype m] (S : Matrix m (Fin n) ℝ) (e : m → ℝ) :
    solveRe ((S.map (fun x : ℝ => (x : ℂ)))ᵀ * S.map (fun x : ℝ => (x : ℂ)))
        ((S.map (fun x : ℝ => (x : ℂ)))ᵀ *ᵥ cx e) = npSolve (Sᵀ * S) (Sᵀ *ᵥ e) := by
  rw [← solveRe_real]
  congr 1
  · ext i j
    simp [mul_apply, Matrix.map_apply]
  · funext i
    simp [mulVec, dotProduct, cx, Matrix.map_apply]


theorem normalise_unit {x y : Planes c h w} (hy : normalise x = .ok y) :
    (fun i : Px c h w => y i.1 i.2) ⬝ᵥ (fun i : Px c h w => y i.1 i.2) = 1 := by
  unfold normalise at hy
  simp only at hy
  split at hy
  · cases hy
  · next hn =>
    injection hy with hy
    rw [← hy]
    simp only [dotProduct, div_mul_div_comm]
    rw [← Finset.sum_div, Real.mul_self_sqrt (Finset.sum_nonneg fun i _ => sq_nonneg _)]
    rw [Finset.sum_congr rfl fun i _ => (sq _).symm]
    apply div_self
    intro h0
    apply hn
    rw [h0, Real.sqrt_zero]

/-! ### Perfect alignment -/

theorem difference_self (x : Planes c h w) : cx (difference x x) = 0 := by
  funext i; simp [cx, difference]

theorem solveRe_zero {M : Matrix (Fin n) (Fin n) ℂ} {d : Fin n → ℝ} (h : solveRe M 0 = .ok d) : d = 0 := by
  unfold solveRe at h
  cases hs : npSolve M 0 with
  | error e => rw [hs] at h; cases h
  | ok x =>
    rw [hs] at h
    injection h with h
    rw [← h, npSolve_zero hs]
    funext i; simp

theorem ssd_solve_zero {env : Env c h w Im T} {kernel : Option (Pos h w → ℂ)} {s s' : Unit}
    {S : Matrix (Px c h w) (Fin n) ℂ} {x : Planes c h w} {sd : Fin n → ℂ} {M : Matrix (Fin n) (Fin n) ℂ}
    {d : Fin n → ℝ} (hu : (ssd env kernel).update s S x x = .ok (s', sd))
    (hd : (ssd (n := n) env kernel).solve M sd = .ok d) : d = 0 := by
  simp only [ssd, difference_self, mulVec_zero] at hu hd
  injection hu with hu
  injection hu with _ hu
  rw [← hu] at hd
  exact solveRe_zero hd

theorem fourierSsd_solve_zero {env : Env c h w Im T} {kernel : Option (Pos h w → ℂ)} {s s' : Unit}
    {S : Matrix (Px c h w) (Fin n) ℂ} {x : Planes c h w} {sd : Fin n → ℂ} {M : Matrix (Fin n) (Fin n) ℂ}
    {d : Fin n → ℝ} (hu : (fourierSsd env kernel).update s S x x = .ok (s', sd))
    (hd : (fourierSsd (n := n) env kernel).solve M sd = .ok d) : d = 0 := by
  have h0 : (fun x : Px c h w => fft2 (fun p => (0 : Px c h w → ℂ) (x.1, p)) x.2) = 0 := by
    funext i
    have : (fun p => (0 : Px c h w → ℂ) (i.1, p)) = 0 := rfl
    rw [this, fft2, mulVec_zero]; rfl
  simp only [fourierSsd, difference_self] at hu hd
  rw [h0, mulVec_zero] at hu
  injection hu with hu
  injection hu with _ hu
  rw [← hu] at hd
  exact solveRe_zero hd

theorem ecc_solve_zero {env : Env c h w Im T} {s s' : EccState n}
    {S : Matrix (Px c h w) (Fin n) ℝ} {x : Planes c h w} {sd : Fin n → ℝ} {M : Matrix (Fin n) (Fin n) ℝ}
    {d : Fin n → ℝ} (hu : (ecc env).update s S x x = .ok (s', sd))
    (hd : (ecc (n := n) env).solve M sd = .ok d) : d = 0 := by
  simp only [ecc] at hu hd
  obtain ⟨wn, hw, hu⟩ := bind_ok hu
  obtain ⟨tn, ht, hu⟩ := bind_ok hu
  rw [hw] at ht
  injection ht with ht
  subst ht
  cases s with
  | none => cases hu
  | some hInv =>
    have hl := eccLambda_self hInv S (x := fun i : Px c h w => wn i.1 i.2) (by rw [normalise_unit hw]; norm_num)
    simp only [hl, one_mul, sub_self] at hu
    injection hu with hu
    injection hu with _ hu
    have : (Sᵀ *ᵥ fun _ : Px c h w => (0 : ℝ)) = 0 := mulVec_zero _
    rw [← hu, this] at hd
    exact npSolve_zero hd

theorem gradientImages_solve_zero {env : Env c h w Im T} {s' : Option (Fin 2 → Planes c h w)}
    {S : Matrix (Fin 2 × Px c h w) (Fin n) ℝ} {x : Planes c h w} {sd : Fin n → ℝ}
    {M : Matrix (Fin n) (Fin n) ℝ} {d : Fin n → ℝ}
    (hu : (gradientImages env).update (some (regularise (env.grad x))) S x x = .ok (s', sd))
    (hd : (gradientImages (n := n) env).solve M sd = .ok d) : d = 0 := by
  have h0 : gradientError env (regularise (env.grad x)) x = 0 := by
    funext i; simp [gradientError]
  simp only [gradientImages, h0, mulVec_zero] at hu hd
  injection hu with hu
  injection hu with _ hu
  rw [← hu] at hd
  exact npSolve_zero hd

theorem gradientCorrelation_solve_zero {env : Env c h w Im T} {s' : Option (Planes c h w)}
    {S : Matrix (Px c h w) (Fin n) ℝ} {x : Planes c h w} {sd : Fin n → ℝ}
    {M : Matrix (Fin n) (Fin n) ℝ} {d : Fin n → ℝ}
    (hu : (gradientCorrelation env).update (some (orientation (env.grad x))) S x x = .ok (s', sd))
    (hd : (gradientCorrelation (n := n) env).solve M sd = .ok d) : d = 0 := by
  simp only [gradientCorrelation, correlationError_self, mulVec_zero, smul_zero] at hu hd
  injection hu with hu
  injection hu with _ hu
  rw [← hu] at hd
  exact npSolve_zero hd

end Lk
end Menpofit
