import Verif.Lemmas.CorrelationFilter
/-!
# Lemmas: the weights of images in an incremented ensemble
-/

namespace Menpofit
namespace Cf
open Matrix ComplexConjugate Spec

variable {k D : Nat} {F : Type}

/-- The energies of weighted images. -/
noncomputable def weighted (L : List (ℝ × Spectrum k D)) (y : Fin D → ℂ) : (Ix k D → ℂ) × Matrix (Ix k D) (Ix k D) ℂ :=
  ((L.map fun p => (p.1 : ℂ) • ((diagX p.2)ᴴ *ᵥ y)).sum, (L.map fun p => (p.1 : ℂ) • ((diagX p.2)ᴴ * diagX p.2)).sum)

theorem weighted_append (L M : List (ℝ × Spectrum k D)) (y : Fin D → ℂ) :
    weighted (L ++ M) y = ((weighted L y).1 + (weighted M y).1, (weighted L y).2 + (weighted M y).2) := by
  simp only [weighted, List.map_append, List.sum_append]

theorem list_smul_sum {M A : Type} [AddCommGroup M] [Module ℂ M] (c : ℂ) (L : List A) (g : A → M) :
    (L.map fun a => c • g a).sum = c • (L.map g).sum := by
  induction L with
  | nil => simp
  | cons a L ih => simp [ih]

theorem weighted_scale (c : ℝ) (L : List (ℝ × Spectrum k D)) (y : Fin D → ℂ) :
    weighted (L.map fun p => (c * p.1, p.2)) y = ((c : ℂ) • (weighted L y).1, (c : ℂ) • (weighted L y).2) := by
  simp only [weighted, List.map_map, Function.comp_def, Complex.ofReal_mul, mul_smul, list_smul_sum]

theorem weighted_equal (c : ℝ) (X : List (Spectrum k D)) (y : Fin D → ℂ) :
    weighted (X.map fun x => (c, x)) y = ((c : ℂ) • (mccfSums X y).1, (c : ℂ) • (mccfSums X y).2) := by
  simp only [weighted, List.map_map, Function.comp_def, list_smul_sum, mccfSums_eq]

theorem weighted_normal (L : List (ℝ × Spectrum k D)) (y : Fin D → ℂ) (l : ℂ) (f : Ix k D → ℂ) (c : Fin k) (j : Fin D) :
    (((weighted L y).2 + l • (1 : Matrix (Ix k D) (Ix k D) ℂ)) *ᵥ f - (weighted L y).1) (c, j) =
      (L.map fun p => (p.1 : ℂ) * (conj (p.2 c j) * ((∑ c', f (c', j) * p.2 c' j) - y j))).sum + l * f (c, j) := by
  induction L with
  | nil => simp [weighted, smul_mulVec]
  | cons p L ih =>
    have e : weighted (p :: L) y = ((p.1 : ℂ) • ((diagX p.2)ᴴ *ᵥ y) + (weighted L y).1,
        (p.1 : ℂ) • ((diagX p.2)ᴴ * diagX p.2) + (weighted L y).2) := by
      simp [weighted]
    have h : (((diagX p.2)ᴴ * diagX p.2) *ᵥ f) (c, j) = conj (p.2 c j) * ∑ c', f (c', j) * p.2 c' j := by
      rw [← mulVec_mulVec, diagXH_mulVec, diagX_mulVec]
    rw [e, List.map_cons, List.sum_cons]
    simp only [add_mulVec, smul_mulVec, one_mulVec, Pi.sub_apply, Pi.add_apply, Pi.smul_apply, smul_eq_mul, h,
      diagXH_mulVec] at ih ⊢
    linear_combination ih

theorem weighted_quad (L : List (ℝ × Spectrum k D)) (y : Fin D → ℂ) (f : Ix k D → ℂ) :
    (star f ⬝ᵥ ((weighted L y).2 *ᵥ f)) =
      ((L.map fun p => p.1 * ∑ j, Complex.normSq (∑ c, f (c, j) * p.2 c j)).sum : ℝ) := by
  induction L with
  | nil => simp [weighted, smul_mulVec]
  | cons p L ih =>
    have e : (weighted (p :: L) y).2 = (p.1 : ℂ) • ((diagX p.2)ᴴ * diagX p.2) + (weighted L y).2 := by
      simp [weighted]
    rw [e, add_mulVec, dotProduct_add, ih, List.map_cons, List.sum_cons, Complex.ofReal_add]
    congr 1
    rw [smul_mulVec, dotProduct_smul, ← mulVec_mulVec, dotProduct_mulVec, ← star_mulVec, Complex.ofReal_mul, smul_eq_mul]
    simp only [dotProduct, Pi.star_apply, Complex.ofReal_sum, diagX_mulVec]
    congr 1
    refine Finset.sum_congr rfl (fun j _ => ?_)
    rw [Complex.normSq_eq_conj_mul_self]
    rfl

theorem weighted_sum_nonneg {A : Type} (L : List (ℝ × A)) (hL : ∀ p ∈ L, 0 ≤ p.1) (g : A → ℝ) (h : ∀ a, 0 ≤ g a) :
    0 ≤ (L.map fun p => p.1 * g p.2).sum := by
  induction L with
  | nil => simp
  | cons p L ih =>
    simp only [List.map_cons, List.sum_cons]
    have := ih fun q hq => hL q (List.mem_cons_of_mem _ hq)
    have := mul_nonneg (hL p List.mem_cons_self) (h p.2)
    linarith

theorem weighted_det (L : List (ℝ × Spectrum k D)) (hL : ∀ p ∈ L, 0 ≤ p.1) (y : Fin D → ℂ) {l : ℝ} (hl : 0 < l) :
    ((weighted L y).2 + (l : ℂ) • (1 : Matrix (Ix k D) (Ix k D) ℂ)).det ≠ 0 := by
  intro h0
  obtain ⟨f, hf, hm⟩ := exists_mulVec_eq_zero_iff.mpr h0
  have hq : star f ⬝ᵥ (((weighted L y).2 + (l : ℂ) • (1 : Matrix (Ix k D) (Ix k D) ℂ)) *ᵥ f) = 0 := by
    rw [hm, dotProduct_zero]
  rw [add_mulVec, smul_mulVec, one_mulVec, dotProduct_add, dotProduct_smul, weighted_quad] at hq
  have hs : star f ⬝ᵥ f = ((∑ i, Complex.normSq (f i) : ℝ) : ℂ) := by
    simp only [dotProduct, Pi.star_apply, Complex.ofReal_sum]
    refine Finset.sum_congr rfl (fun i _ => ?_)
    rw [Complex.normSq_eq_conj_mul_self]
    rfl
  rw [hs, smul_eq_mul, ← Complex.ofReal_mul, ← Complex.ofReal_add] at hq
  have hq' := Complex.ofReal_eq_zero.mp hq
  have p1 := weighted_sum_nonneg L hL (fun x => ∑ j, Complex.normSq (∑ c, f (c, j) * x c j))
    (fun x => Finset.sum_nonneg (fun j _ => Complex.normSq_nonneg _))
  have p2 : 0 ≤ ∑ i, Complex.normSq (f i) := Finset.sum_nonneg (fun i _ => Complex.normSq_nonneg _)
  have z : ∑ i, Complex.normSq (f i) = 0 := by
    have h2 := mul_nonneg hl.le p2
    have : l * ∑ i, Complex.normSq (f i) = 0 := by linarith
    rcases mul_eq_zero.mp this with h | h
    · exact absurd h hl.ne'
    · exact h
  have z2 := (Finset.sum_eq_zero_iff_of_nonneg (fun i _ => Complex.normSq_nonneg (f i))).mp z
  apply hf
  funext i
  exact Complex.normSq_eq_zero.mp (z2 i (Finset.mem_univ i))

theorem weighted_shift (images : List (ℝ × (Fin k → ℂ))) (y : ℂ) (f d : Fin k → ℂ) :
    (images.map fun a => a.1 * Complex.normSq ((∑ c, (f c + d c) * a.2 c) - y)).sum =
      (images.map fun a => a.1 * Complex.normSq ((∑ c, f c * a.2 c) - y)).sum +
      (images.map fun a => a.1 * Complex.normSq (∑ c, d c * a.2 c)).sum +
      2 * (∑ c, conj (d c) *
        (images.map fun a => (a.1 : ℂ) * (conj (a.2 c) * ((∑ c', f c' * a.2 c') - y))).sum).re := by
  induction images with
  | nil => simp
  | cons a images ih =>
    simp only [List.map_cons, List.sum_cons]
    rw [ih]
    have h := list_shift [a.2] y f d
    simp only [List.map_cons, List.map_nil, List.sum_cons, List.sum_nil, add_zero] at h
    rw [h]
    simp only [mul_add, Finset.sum_add_distrib, Complex.add_re]
    have e : (∑ c, conj (d c) * ((a.1 : ℂ) * (conj (a.2 c) * ((∑ c', f c' * a.2 c') - y)))).re =
        a.1 * (∑ c, conj (d c) * (conj (a.2 c) * ((∑ c', f c' * a.2 c') - y))).re := by
      rw [← Complex.re_ofReal_mul, Finset.mul_sum]
      congr 1
      exact Finset.sum_congr rfl fun c _ => by ring
    rw [e]
    ring

theorem weightedFilterCost_min {l : ℝ} (hl : 0 < l) (images : List (ℝ × (Fin k → ℂ))) (hw : ∀ p ∈ images, 0 ≤ p.1)
    (y : ℂ) (f : Fin k → ℂ)
    (h : ∀ c, (images.map fun a => (a.1 : ℂ) * (conj (a.2 c) * ((∑ c', f c' * a.2 c') - y))).sum + l * f c = 0) :
    OnlyMin (weightedFilterCost l images y) f := by
  intro g
  obtain ⟨d, rfl⟩ : ∃ d, g = f + d := ⟨g - f, by abel⟩
  have key : weightedFilterCost l images y (f + d) = weightedFilterCost l images y f +
      ((images.map fun a => a.1 * Complex.normSq (∑ c, d c * a.2 c)).sum + l * ∑ c, Complex.normSq (d c)) := by
    unfold weightedFilterCost
    simp only [Pi.add_apply]
    rw [weighted_shift, size_shift]
    have e : (∑ c, conj (d c) *
        (images.map fun a => (a.1 : ℂ) * (conj (a.2 c) * ((∑ c', f c' * a.2 c') - y))).sum) =
        -(l * ∑ c, conj (d c) * f c) := by
      rw [Finset.mul_sum, ← Finset.sum_neg_distrib]
      refine Finset.sum_congr rfl (fun c _ => ?_)
      have := h c
      linear_combination conj (d c) * this
    rw [e, Complex.neg_re, Complex.re_ofReal_mul]
    ring
  have p1 := weighted_sum_nonneg images hw (fun a => Complex.normSq (∑ c, d c * a c))
    (fun a => Complex.normSq_nonneg _)
  have p2 : 0 ≤ ∑ c, Complex.normSq (d c) := Finset.sum_nonneg (fun c _ => Complex.normSq_nonneg _)
  have p3 : 0 ≤ l * ∑ c, Complex.normSq (d c) := mul_nonneg hl.le p2
  refine ⟨by rw [key]; linarith, fun he => ?_⟩
  rw [key] at he
  have z : ∑ c, Complex.normSq (d c) = 0 := by
    have : l * ∑ c, Complex.normSq (d c) = 0 := by linarith
    rcases mul_eq_zero.mp this with h0 | h0
    · exact absurd h0 hl.ne'
    · exact h0
  have z2 := (Finset.sum_eq_zero_iff_of_nonneg (fun c _ => Complex.normSq_nonneg (d c))).mp z
  have : d = 0 := by
    funext c
    exact Complex.normSq_eq_zero.mp (z2 c (Finset.mem_univ c))
  rw [this, add_zero]

/-- An expert that knows weighted images. -/
def Knows (back : (Ix k D → ℂ) → F) (y : Fin D → ℂ) (l : ℝ) (L : List (ℝ × Spectrum k D)) (e : MccfOut F k D) : Prop :=
  e.sXY = (weighted L y).1 ∧ e.sXX = (weighted L y).2 ∧ e.f = back (mccfFilter e.sXY e.sXX l)

theorem knows_mccf (back : (Ix k D → ℂ) → F) (y : Fin D → ℂ) (l : ℝ) (X : List (Spectrum k D)) :
    Knows back y l (X.map fun x => (1, x)) (mccf back X y l) := by
  unfold Knows
  rw [weighted_equal]
  simp [mccf]

theorem knows_imccf (back : (Ix k D → ℂ) → F) (y : Fin D → ℂ) (l : ℝ) (L : List (ℝ × Spectrum k D)) (e : MccfOut F k D)
    (h : Knows back y l L e) (n : ℝ) (X : List (Spectrum k D)) :
    Knows back y l ((L.map fun p => (n / (n + X.length) * p.1, p.2)) ++ X.map fun x => ((X.length : ℝ) / (n + X.length), x))
      (imccf back e.sXY e.sXX n X y l 1) := by
  unfold Knows
  rw [weighted_append, weighted_scale, weighted_equal]
  simp [imccf, h.1, h.2.1]

theorem knows_min (back : (Ix k D → ℂ) → F) (y : Fin D → ℂ) {l : ℝ} (hl : 0 < l) (L : List (ℝ × Spectrum k D))
    (hL : ∀ p ∈ L, 0 ≤ p.1) (e : MccfOut F k D) (h : Knows back y l L e) :
    ∃ f : Ix k D → ℂ, e.f = back f ∧ ∀ j,
      OnlyMin (weightedFilterCost l (L.map fun p => (p.1, fun c => p.2 c j)) (y j)) (fun c => f (c, j)) := by
  refine ⟨_, h.2.2, fun j => weightedFilterCost_min hl _ ?_ _ _ fun c => ?_⟩
  · intro p hp
    obtain ⟨q, hq, rfl⟩ := List.mem_map.1 hp
    exact hL q hq
  · have hs : ((weighted L y).2 + (l : ℂ) • (1 : Matrix (Ix k D) (Ix k D) ℂ)) *ᵥ
        mccfFilter (weighted L y).1 (weighted L y).2 l = (weighted L y).1 := by
      unfold mccfFilter
      rw [mulVec_mulVec, mul_nonsing_inv _ (isUnit_iff_ne_zero.mpr (weighted_det L hL y hl)), one_mulVec]
    have := weighted_normal L y l (mccfFilter (weighted L y).1 (weighted L y).2 l) c j
    rw [hs, sub_self] at this
    rw [h.1, h.2.1, List.map_map]
    exact this.symm

end Cf
end Menpofit
