import Verif.Model.CorrelationFilter
import Verif.Spec.CorrelationFilter
import Mathlib.Data.Complex.BigOperators
import Mathlib.Tactic.Ring
import Mathlib.Tactic.Linarith
import Mathlib.Tactic.LinearCombination
import Mathlib.Tactic.Positivity
import Mathlib.LinearAlgebra.Matrix.ToLinearEquiv
/-!
# Helper lemmas for the correlation filters
-/

namespace Menpofit
open Matrix ComplexConjugate Cf Spec

/-- Expansion of the squared error around `f`. -/
theorem normSq_shift (u v : ℂ) :
    Complex.normSq (u + v) = Complex.normSq u + Complex.normSq v + 2 * (conj v * u).re := by
  rw [Complex.normSq_add, mul_comm u]

theorem list_shift {k : Nat} (images : List (Fin k → ℂ)) (y : ℂ) (f d : Fin k → ℂ) :
    (images.map fun a => Complex.normSq ((∑ c, (f c + d c) * a c) - y)).sum =
      (images.map fun a => Complex.normSq ((∑ c, f c * a c) - y)).sum +
      (images.map fun a => Complex.normSq (∑ c, d c * a c)).sum +
      2 * (∑ c, conj (d c) * (images.map fun a => conj (a c) * ((∑ c', f c' * a c') - y)).sum).re := by
  induction images with
  | nil => simp
  | cons a images ih =>
    simp only [List.map_cons, List.sum_cons]
    rw [ih]
    have e : (∑ c, (f c + d c) * a c) - y = ((∑ c, f c * a c) - y) + ∑ c, d c * a c := by
      simp only [add_mul, Finset.sum_add_distrib]
      ring
    rw [e, normSq_shift]
    have e2 : ∑ c, conj (d c) * (conj (a c) * ((∑ c', f c' * a c') - y) +
        (images.map fun a => conj (a c) * ((∑ c', f c' * a c') - y)).sum) =
        conj (∑ c, d c * a c) * ((∑ c, f c * a c) - y) +
        ∑ c, conj (d c) * (images.map fun a => conj (a c) * ((∑ c', f c' * a c') - y)).sum := by
      rw [map_sum, Finset.sum_mul, ← Finset.sum_add_distrib]
      refine Finset.sum_congr rfl (fun c _ => ?_)
      rw [map_mul]
      ring
    rw [e2, Complex.add_re]
    ring

theorem size_shift {k : Nat} (f d : Fin k → ℂ) :
    ∑ c, Complex.normSq (f c + d c) = (∑ c, Complex.normSq (f c)) + (∑ c, Complex.normSq (d c)) +
      2 * (∑ c, conj (d c) * f c).re := by
  simp only [normSq_shift, Finset.sum_add_distrib, ← Finset.mul_sum, Complex.re_sum]

theorem list_sum_nonneg {A : Type} (l : List A) (g : A → ℝ) (h : ∀ a, 0 ≤ g a) :
    0 ≤ (l.map g).sum := by
  induction l with
  | nil => simp
  | cons a l ih =>
    simp only [List.map_cons, List.sum_cons]
    have := h a
    linarith

/-- The normal equations characterise the unique minimiser. -/
theorem filterCost_min {k : Nat} {l : ℝ} (hl : 0 < l) (images : List (Fin k → ℂ)) (y : ℂ)
    (f : Fin k → ℂ)
    (h : ∀ c, (images.map fun a => conj (a c) * ((∑ c', f c' * a c') - y)).sum + l * f c = 0) :
    OnlyMin (filterCost l images y) f := by
  intro g
  obtain ⟨d, rfl⟩ : ∃ d, g = f + d := ⟨g - f, by abel⟩
  have key : filterCost l images y (f + d) = filterCost l images y f +
      ((images.map fun a => Complex.normSq (∑ c, d c * a c)).sum + l * ∑ c, Complex.normSq (d c)) := by
    unfold filterCost
    simp only [Pi.add_apply]
    rw [list_shift, size_shift]
    have e : (∑ c, conj (d c) * (images.map fun a => conj (a c) * ((∑ c', f c' * a c') - y)).sum) =
        -(l * ∑ c, conj (d c) * f c) := by
      rw [Finset.mul_sum, ← Finset.sum_neg_distrib]
      refine Finset.sum_congr rfl (fun c _ => ?_)
      have := h c
      linear_combination conj (d c) * this
    rw [e, Complex.neg_re, Complex.re_ofReal_mul]
    ring
  have p1 := list_sum_nonneg images (fun a => Complex.normSq (∑ c, d c * a c))
    (fun a => Complex.normSq_nonneg _)
  have p2 : 0 ≤ ∑ c, Complex.normSq (d c) := Finset.sum_nonneg (fun c _ => Complex.normSq_nonneg _)
  have p3 : 0 ≤ l * ∑ c, Complex.normSq (d c) := mul_nonneg hl.le p2
  refine ⟨by rw [key]; linarith, fun he => ?_⟩
  rw [key] at he
  have z : ∑ c, Complex.normSq (d c) = 0 := by
    have : l * ∑ c, Complex.normSq (d c) = 0 := by linarith
    rcases mul_eq_zero.mp this with h0 | h0
    · exact absurd h0 hl.ne'
    · exact h0
  have z2 := (Finset.sum_eq_zero_iff_of_nonneg (fun c _ => Complex.normSq_nonneg (d c))).mp z
  have : d = 0 := by
    funext c
    exact Complex.normSq_eq_zero.mp (z2 c (Finset.mem_univ c))
  rw [this, add_zero]

/-! ### Sums -/

theorem mosseSums_eq {k D : Nat} (X : List (Spectrum k D)) (y : Fin D → ℂ) :
    mosseSums X y = (fun c j => (X.map fun x => conj (x c j) * y j).sum,
      fun c j => (X.map fun x => conj (x c j) * x c j).sum) := by
  unfold mosseSums
  have : ∀ (s : Spectrum k D × Spectrum k D), X.foldl (fun (s : Spectrum k D × Spectrum k D) x =>
      (fun c j => s.1 c j + conj (x c j) * y j, fun c j => s.2 c j + conj (x c j) * x c j)) s =
      (fun c j => s.1 c j + (X.map fun x => conj (x c j) * y j).sum,
      fun c j => s.2 c j + (X.map fun x => conj (x c j) * x c j).sum) := by
    induction X with
    | nil => intro s; simp
    | cons x X ih =>
      intro s
      rw [List.foldl_cons, ih]
      simp only [List.map_cons, List.sum_cons, add_assoc]
  rw [this]
  simp

theorem mccfSums_eq {k D : Nat} (X : List (Spectrum k D)) (y : Fin D → ℂ) :
    mccfSums X y = ((X.map fun x => (diagX x)ᴴ *ᵥ y).sum,
      (X.map fun x => (diagX x)ᴴ * diagX x).sum) := by
  unfold mccfSums
  have : ∀ s : (Ix k D → ℂ) × Matrix (Ix k D) (Ix k D) ℂ,
      X.foldl (fun s x => (s.1 + (diagX x)ᴴ *ᵥ y, s.2 + (diagX x)ᴴ * diagX x)) s =
      (s.1 + (X.map fun x => (diagX x)ᴴ *ᵥ y).sum,
        s.2 + (X.map fun x => (diagX x)ᴴ * diagX x).sum) := by
    induction X with
    | nil => intro s; simp
    | cons x X ih =>
      intro s
      rw [List.foldl_cons, ih]
      simp only [List.map_cons, List.sum_cons, add_assoc]
  rw [this]
  simp

theorem diagX_mulVec {k D : Nat} (x : Spectrum k D) (f : Ix k D → ℂ) (j : Fin D) :
    (diagX x *ᵥ f) j = ∑ c, f (c, j) * x c j := by
  simp only [mulVec, dotProduct, diagX, Matrix.of_apply]
  rw [Fintype.sum_prod_type]
  refine Finset.sum_congr rfl (fun c _ => ?_)
  simp [ite_mul, mul_comm]

theorem diagXH_mulVec {k D : Nat} (x : Spectrum k D) (y : Fin D → ℂ) (c : Fin k) (j : Fin D) :
    ((diagX x)ᴴ *ᵥ y) (c, j) = conj (x c j) * y j := by
  simp only [mulVec, dotProduct, diagX, conjTranspose_apply, Matrix.of_apply]
  rw [Finset.sum_eq_single j]
  · simp
  · intro b _ hb
    have : ¬ j = b := fun h => hb h.symm
    simp [this]
  · simp

theorem sum_mulVec_list {ι κ : Type} [Fintype ι] [Fintype κ] (l : List (Matrix κ ι ℂ)) (v : ι → ℂ) :
    l.sum *ᵥ v = (l.map fun M => M *ᵥ v).sum := by
  induction l with
  | nil => simp
  | cons M l ih => simp [add_mulVec, ih]

theorem list_sum_apply {ι : Type} (l : List (ι → ℂ)) (i : ι) :
    l.sum i = (l.map fun v => v i).sum := by
  induction l with
  | nil => simp
  | cons v l ih => simp [ih]

/-- The normal equations of the multi-channel filter, frequency by frequency. -/
theorem mccf_normal {k D : Nat} (X : List (Spectrum k D)) (y : Fin D → ℂ) (l : ℂ)
    (f : Ix k D → ℂ) (c : Fin k) (j : Fin D) :
    (((mccfSums X y).2 + l • (1 : Matrix (Ix k D) (Ix k D) ℂ)) *ᵥ f - (mccfSums X y).1) (c, j) =
      (X.map fun x => conj (x c j) * ((∑ c', f (c', j) * x c' j) - y j)).sum + l * f (c, j) := by
  rw [mccfSums_eq]
  simp only [add_mulVec, smul_mulVec, one_mulVec, sum_mulVec_list, Pi.sub_apply, Pi.add_apply,
    Pi.smul_apply, smul_eq_mul, list_sum_apply, List.map_map]
  have : ∀ x : Spectrum k D, (((diagX x)ᴴ * diagX x) *ᵥ f) (c, j) =
      conj (x c j) * ∑ c', f (c', j) * x c' j := by
    intro x
    rw [← mulVec_mulVec, diagXH_mulVec, diagX_mulVec]
  have e : ∀ X : List (Spectrum k D),
      (X.map fun x => (((diagX x)ᴴ * diagX x) *ᵥ f) (c, j)).sum -
      (X.map fun x => ((diagX x)ᴴ *ᵥ y) (c, j)).sum =
      (X.map fun x => conj (x c j) * ((∑ c', f (c', j) * x c' j) - y j)).sum := by
    intro X
    induction X with
    | nil => simp
    | cons x X ih =>
      simp only [List.map_cons, List.sum_cons]
      rw [← ih, this, diagXH_mulVec]
      ring
  have := e X
  simp only [Function.comp_def]
  linear_combination this

/-- Quadratic form of the auto energies. -/
theorem mccf_quad {k D : Nat} (X : List (Spectrum k D)) (y : Fin D → ℂ) (f : Ix k D → ℂ) :
    (star f ⬝ᵥ ((mccfSums X y).2 *ᵥ f)) =
      ((X.map fun x => ∑ j, Complex.normSq (∑ c, f (c, j) * x c j)).sum : ℝ) := by
  rw [mccfSums_eq]
  simp only [sum_mulVec_list, List.map_map]
  induction X with
  | nil => simp
  | cons x X ih =>
    simp only [List.map_cons, List.sum_cons, dotProduct_add, Complex.ofReal_add]
    rw [ih]
    congr 1
    simp only [Function.comp_def]
    rw [← mulVec_mulVec, dotProduct_mulVec, ← star_mulVec]
    simp only [dotProduct, Pi.star_apply, Complex.ofReal_sum, diagX_mulVec]
    refine Finset.sum_congr rfl (fun j _ => ?_)
    rw [Complex.normSq_eq_conj_mul_self]
    rfl

theorem mccf_det {k D : Nat} (X : List (Spectrum k D)) (y : Fin D → ℂ) {l : ℝ} (hl : 0 < l)
    {w : ℝ} (hw : 0 ≤ w) :
    ((w : ℂ) • (mccfSums X y).2 + (l : ℂ) • (1 : Matrix (Ix k D) (Ix k D) ℂ)).det ≠ 0 := by
  intro h0
  obtain ⟨f, hf, hm⟩ := exists_mulVec_eq_zero_iff.mpr h0
  have hq : star f ⬝ᵥ (((w : ℂ) • (mccfSums X y).2 + (l : ℂ) • (1 : Matrix (Ix k D) (Ix k D) ℂ)) *ᵥ f)
      = 0 := by rw [hm, dotProduct_zero]
  rw [add_mulVec, smul_mulVec, smul_mulVec, one_mulVec, dotProduct_add, dotProduct_smul,
    dotProduct_smul, mccf_quad] at hq
  have hs : star f ⬝ᵥ f = ((∑ i, Complex.normSq (f i) : ℝ) : ℂ) := by
    simp only [dotProduct, Pi.star_apply, Complex.ofReal_sum]
    refine Finset.sum_congr rfl (fun i _ => ?_)
    rw [Complex.normSq_eq_conj_mul_self]
    rfl
  rw [hs, smul_eq_mul, smul_eq_mul, ← Complex.ofReal_mul, ← Complex.ofReal_mul,
    ← Complex.ofReal_add] at hq
  have hq' := Complex.ofReal_eq_zero.mp hq
  have p1 := list_sum_nonneg X (fun x => ∑ j, Complex.normSq (∑ c, f (c, j) * x c j))
    (fun x => Finset.sum_nonneg (fun j _ => Complex.normSq_nonneg _))
  have p2 : 0 ≤ ∑ i, Complex.normSq (f i) := Finset.sum_nonneg (fun i _ => Complex.normSq_nonneg _)
  have z : ∑ i, Complex.normSq (f i) = 0 := by
    have h1 := mul_nonneg hw p1
    have h2 := mul_nonneg hl.le p2
    have : l * ∑ i, Complex.normSq (f i) = 0 := by linarith
    rcases mul_eq_zero.mp this with h | h
    · exact absurd h hl.ne'
    · exact h
  have z2 := (Finset.sum_eq_zero_iff_of_nonneg (fun i _ => Complex.normSq_nonneg (f i))).mp z
  apply hf
  funext i
  exact Complex.normSq_eq_zero.mp (z2 i (Finset.mem_univ i))

theorem mosseSums_append {k D : Nat} (X Z : List (Spectrum k D)) (y : Fin D → ℂ) :
    mosseSums (X ++ Z) y = ((mosseSums X y).1 + (mosseSums Z y).1,
      (mosseSums X y).2 + (mosseSums Z y).2) := by
  simp only [mosseSums_eq, List.map_append, List.sum_append]
  rfl

theorem mccfSums_append {k D : Nat} (X Z : List (Spectrum k D)) (y : Fin D → ℂ) :
    mccfSums (X ++ Z) y = ((mccfSums X y).1 + (mccfSums Z y).1,
      (mccfSums X y).2 + (mccfSums Z y).2) := by
  simp only [mccfSums_eq, List.map_append, List.sum_append]

end Menpofit
