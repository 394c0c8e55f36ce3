import Verif.Lemmas.LkResidual
import Verif.Lemmas.Optim
import Verif.Model.LkKernel
import Verif.Spec.LkKernel
/-!
# Filtered sums of squared differences: helper lemmas
-/

namespace Menpofit
namespace Lk
open Matrix GN Dft Spec

noncomputable section

variable {c h w n : Nat}

/-! ### The filter is a symmetric real matrix -/

theorem dft_neg [NeZero n] (k j : Fin n) : dft n (-k) j = star (dft n k j) := by
  have hn : n ≠ 0 := NeZero.ne n
  rw [dft_eq_pow, dft_eq_pow, star_pow, star_root]
  obtain ⟨z, hz⟩ : ∃ z, z = Complex.exp (-(2 * Real.pi * Complex.I) / n) := ⟨_, rfl⟩
  have hp : IsPrimitiveRoot z n := hz ▸ root_primitive hn
  have hz0 : z ≠ 0 := hp.ne_zero hn
  rw [← hz, pow_mul, pow_mul]
  congr 1
  rw [Fin.val_neg']
  have h1 : z ^ ((n - (k : ℕ)) % n) = z ^ (n - (k : ℕ)) := by
    conv_rhs => rw [← Nat.div_add_mod (n - (k : ℕ)) n, pow_add, pow_mul, hp.pow_eq_one, one_pow, one_mul]
  have h2 : z ^ (n - (k : ℕ)) * z ^ (k : ℕ) = 1 := by
    rw [← pow_add, Nat.sub_add_cancel k.2.le, hp.pow_eq_one]
  rw [h1, inv_pow]
  exact eq_inv_of_mul_eq_one_left h2

theorem dft2_neg [NeZero h] [NeZero w] (a : Fin h) (b : Fin w) (p : Pos h w) :
    dft2 h w (-a, -b) p = star (dft2 h w (a, b) p) := by
  simp only [dft2, dft_neg, star_mul']

/-- The filter as a complex matrix. -/
def filterC (k : Pos h w → ℝ) : Matrix (Pos h w) (Pos h w) ℂ := fun p q =>
  (((h * w : ℕ) : ℂ))⁻¹ * ∑ f, (k f : ℂ) * (star (dft2 h w f p) * dft2 h w f q)

theorem filterC_mulVec (k : Pos h w → ℝ) (x : Pos h w → ℂ) :
    filterC k *ᵥ x = ifft2 ((fun f => (k f : ℂ)) * fft2 x) := by
  funext p
  simp only [filterC, ifft2, fft2, mulVec, dotProduct, Pi.smul_apply, smul_eq_mul, conjTranspose_apply, Pi.mul_apply,
    Finset.mul_sum, Finset.sum_mul]
  rw [Finset.sum_comm]
  refine Finset.sum_congr rfl fun f _ => Finset.sum_congr rfl fun q _ => ?_
  ring

theorem filterC_star [NeZero h] [NeZero w] {k : Pos h w → ℝ} (hk : EvenKernel k) (p q : Pos h w) :
    star (filterC k p q) = filterC k p q := by
  simp only [filterC, star_mul', star_sum, star_star, Complex.star_def, map_inv₀, Complex.conj_natCast,
    Complex.conj_ofReal, Complex.conj_conj]
  congr 1
  rw [← (Equiv.prodCongr (Equiv.neg (Fin h)) (Equiv.neg (Fin w))).sum_comp]
  refine Finset.sum_congr rfl fun f _ => ?_
  obtain ⟨a, b⟩ := f
  simp only [Equiv.prodCongr_apply, Prod.map, Equiv.neg_apply, dft2_neg, hk a b, Complex.star_def, Complex.conj_conj]

theorem filterC_conjTranspose (k : Pos h w → ℝ) (p q : Pos h w) : star (filterC k q p) = filterC k p q := by
  simp only [filterC, star_mul', star_sum, star_star, Complex.star_def, map_inv₀, Complex.conj_natCast,
    Complex.conj_ofReal, Complex.conj_conj]
  congr 1
  exact Finset.sum_congr rfl fun f _ => by ring

/-- The filter of an even kernel. -/
def filterR (k : Pos h w → ℝ) : Matrix (Pos h w) (Pos h w) ℝ := fun p q => (filterC k p q).re

theorem filterR_ofReal [NeZero h] [NeZero w] {k : Pos h w → ℝ} (hk : EvenKernel k) (p q : Pos h w) :
    ((filterR k p q : ℝ) : ℂ) = filterC k p q :=
  Complex.conj_eq_iff_re.1 (filterC_star hk p q)

theorem filterR_symm (k : Pos h w → ℝ) : (filterR k)ᵀ = filterR k := by
  ext p q
  simp only [transpose_apply, filterR]
  rw [← filterC_conjTranspose k q p, Complex.star_def, Complex.conj_re]

theorem filterR_apply [NeZero h] [NeZero w] {k : Pos h w → ℝ} (hk : EvenKernel k) (x : Pos h w → ℝ) (p : Pos h w) :
    ifft2 ((fun f => (k f : ℂ)) * fft2 fun q => (x q : ℂ)) p = (((filterR k *ᵥ x) p : ℝ) : ℂ) := by
  rw [← filterC_mulVec]
  simp only [mulVec, dotProduct, Complex.ofReal_sum, Complex.ofReal_mul, filterR_ofReal hk]

theorem realFilter_even [NeZero h] [NeZero w] {k : Pos h w → ℝ} (hk : EvenKernel k) :
    RealFilter fun x => ifft2 ((fun f => (k f : ℂ)) * fft2 x) :=
  fun x => ⟨filterR k *ᵥ x, funext fun p => filterR_apply hk x p⟩

theorem amplitude_eq (x : Pos h w → ℝ) (f : Pos h w) : amplitude x f = fft2 (fun q => (x q : ℂ)) f := by
  simp only [amplitude, fft2, mulVec, dotProduct, dft2, dft]
  refine Finset.sum_congr rfl fun p _ => ?_
  rw [← Complex.exp_add]
  congr 2
  ring

theorem filterR_energy [NeZero h] [NeZero w] {k : Pos h w → ℝ} (hk : EvenKernel k) (x : Pos h w → ℝ) :
    x ⬝ᵥ filterR k *ᵥ x = ((h * w : ℕ) : ℝ)⁻¹ * ∑ f, k f * ‖amplitude x f‖ ^ 2 := by
  apply Complex.ofReal_injective
  simp only [dotProduct, Complex.ofReal_sum, Complex.ofReal_mul, ← filterR_apply hk, amplitude_eq]
  have e : ∀ f : Pos h w, ((‖fft2 (fun q => (x q : ℂ)) f‖ ^ 2 : ℝ) : ℂ) =
      star (fft2 (fun q => (x q : ℂ)) f) * fft2 (fun q => (x q : ℂ)) f := by
    intro f
    rw [Complex.star_def, mul_comm, Complex.mul_conj, Complex.normSq_eq_norm_sq]
  simp only [e]
  generalize hX : fft2 (fun q => (x q : ℂ)) = X
  have hs : ∀ f, star (X f) = ∑ p, star (dft2 h w f p) * (x p : ℂ) := by
    intro f
    rw [← hX]
    simp only [fft2, mulVec, dotProduct, star_sum, star_mul']
    exact Finset.sum_congr rfl fun p _ => by simp [Complex.star_def]
  simp only [hs, ifft2, mulVec, dotProduct, Pi.smul_apply, smul_eq_mul, conjTranspose_apply, Pi.mul_apply,
    Finset.mul_sum, Finset.sum_mul]
  rw [Finset.sum_comm]
  refine Finset.sum_congr rfl fun f _ => Finset.sum_congr rfl fun p _ => ?_
  push_cast
  ring

/-! ### All channels -/

/-- The filter of all channels. -/
def filterAll (c : Nat) (k : Pos h w → ℝ) : Matrix (Px c h w) (Px c h w) ℝ := fun x y =>
  if x.1 = y.1 then filterR k x.2 y.2 else 0

theorem filterAll_symm (k : Pos h w → ℝ) : (filterAll c k)ᵀ = filterAll c k := by
  ext x y
  have := congrFun (congrFun (filterR_symm k) x.2) y.2
  simp only [transpose_apply, filterAll] at this ⊢
  by_cases e : x.1 = y.1
  · rw [if_pos e, if_pos e.symm, this]
  · rw [if_neg e, if_neg (Ne.symm e)]

theorem filterAll_mulVec (k : Pos h w → ℝ) (x : Px c h w → ℝ) (i : Fin c) (p : Pos h w) :
    (filterAll c k *ᵥ x) (i, p) = (filterR k *ᵥ fun q => x (i, q)) p := by
  simp only [mulVec, dotProduct, filterAll, Fintype.sum_prod_type (γ := ℝ) (α₁ := Fin c)]
  rw [Finset.sum_eq_single i]
  · simp
  · intro j _ hj; simp [Ne.symm hj]
  · simp

theorem filterAll_energy [NeZero h] [NeZero w] {k : Pos h w → ℝ} (hk : EvenKernel k) (x : Px c h w → ℝ) :
    x ⬝ᵥ filterAll c k *ᵥ x = ((h * w : ℕ) : ℝ)⁻¹ * filteredEnergy k fun i p => x (i, p) := by
  simp only [filteredEnergy, Finset.mul_sum (s := (Finset.univ : Finset (Fin c)))]
  rw [dotProduct, Fintype.sum_prod_type]
  refine Finset.sum_congr rfl fun i _ => ?_
  rw [← filterR_energy hk]
  simp only [filterAll_mulVec, dotProduct]

theorem filterAll_images [NeZero h] [NeZero w] {k : Pos h w → ℝ} (hk : EvenKernel k)
    (J : Matrix (Px c h w) (Fin n) ℝ) :
    onPlanes (fun x => ifft2 ((fun f => (k f : ℂ)) * fft2 x)) (J.map fun x : ℝ => (x : ℂ)) =
      (filterAll c k * J).map fun x : ℝ => (x : ℂ) := by
  ext x j
  simp only [onPlanes, Matrix.map_apply]
  rw [filterR_apply hk]
  congr 1
  have := filterAll_mulVec k (fun y => J y j) x.1 x.2
  rw [← this]
  simp [mul_apply, mulVec, dotProduct]

theorem solveRe_weighted {m : Type} [Fintype m] (A S : Matrix m (Fin n) ℝ) (e : m → ℝ) :
    solveRe ((A.map (fun x : ℝ => (x : ℂ)))ᵀ * S.map (fun x : ℝ => (x : ℂ)))
        ((A.map (fun x : ℝ => (x : ℂ)))ᵀ *ᵥ cx e) = npSolve (Aᵀ * S) (Aᵀ *ᵥ e) := by
  rw [← solveRe_real]
  congr 1
  · ext i j
    simp [mul_apply, Matrix.map_apply]
  · funext i
    simp [mulVec, dotProduct, cx, Matrix.map_apply]

/-- The solution of the filtered normal equations is the only minimiser of the filtered energy. -/
theorem filtered_min [NeZero h] [NeZero w] {k : Pos h w → ℝ} (hk : EvenKernel k) (hk0 : ∀ f, 0 ≤ k f)
    {S : Matrix (Px c h w) (Fin n) ℝ} {y : Px c h w → ℝ} {d : Fin n → ℝ}
    (hd : npSolve ((filterAll c k * S)ᵀ * S) ((filterAll c k * S)ᵀ *ᵥ y) = .ok d) :
    UniqueMin (fun z => filteredEnergy k fun i p => y (i, p) - (S *ᵥ z) (i, p)) d := by
  have hN : 0 < ((h * w : ℕ) : ℝ) := by
    exact_mod_cast Nat.mul_pos (Nat.pos_of_ne_zero (NeZero.ne h)) (Nat.pos_of_ne_zero (NeZero.ne w))
  obtain ⟨h1, h2⟩ := npSolve_ok hd
  rw [transpose_mul, filterAll_symm] at h1 h2
  have e : ∀ z : Fin n → ℝ, filteredEnergy k (fun i p => y (i, p) - (S *ᵥ z) (i, p)) =
      ((h * w : ℕ) : ℝ) * regEnergy (filterAll c k) S (-y) 0 0 z := by
    intro z
    unfold regEnergy
    rw [zero_mulVec, dotProduct_zero, add_zero]
    have e1 : -y + S *ᵥ z = -(y - S *ᵥ z) := by abel
    rw [e1, mulVec_neg, neg_dotProduct_neg, filterAll_energy hk, ← mul_assoc, mul_inv_cancel₀ hN.ne', one_mul]
    rfl
  intro z
  simp only [e]
  have key := regEnergy_min (filterAll_symm k) (fun x => ?_) S (-y) (P := 0) (by simp) (fun x => by simp) 0 d ?_ ?_ z
  · refine ⟨mul_le_mul_of_nonneg_left key.1 hN.le, fun h0 => key.2 (mul_left_cancel₀ hN.ne' h0)⟩
  · rw [filterAll_energy hk]
    refine mul_nonneg (inv_nonneg.2 hN.le) ?_
    exact Finset.sum_nonneg fun i _ => Finset.sum_nonneg fun f _ => mul_nonneg (hk0 f) (sq_nonneg _)
  · rwa [add_zero]
  · rw [add_zero, h2]
    simp only [mulVec_neg, zero_mulVec, add_zero, neg_neg, mulVec_mulVec]

theorem filtered_min_neg [NeZero h] [NeZero w] {k : Pos h w → ℝ} (hk : EvenKernel k) (hk0 : ∀ f, 0 ≤ k f)
    {S : Matrix (Px c h w) (Fin n) ℝ} {y : Px c h w → ℝ} {d dp : Fin n → ℝ}
    (hd : npSolve ((filterAll c k * S)ᵀ * S) ((filterAll c k * S)ᵀ *ᵥ y) = .ok d) (hdp : dp = -d)
    {f : (Fin n → ℝ) → Fin c → Pos h w → ℝ} (hf : ∀ z i p, f z i p = y (i, p) + (S *ᵥ z) (i, p)) :
    UniqueMin (fun z => filteredEnergy k (f z)) dp := by
  have key := filtered_min hk hk0 hd
  have e : ∀ z, f z = fun i p => y (i, p) - (S *ᵥ (-z)) (i, p) := by
    intro z; funext i p; rw [hf, mulVec_neg, Pi.neg_apply, sub_neg_eq_add]
  intro z
  have := key (-z)
  simp only at this ⊢
  rw [e, e, hdp, neg_neg]
  refine ⟨this.1, fun h0 => ?_⟩
  rw [← this.2 h0, neg_neg]

end
end Lk
end Menpofit
