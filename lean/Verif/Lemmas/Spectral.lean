import Verif.Model.Spectral
import Verif.Spec.Spectral
import Verif.Spec.AamSolvers
import Verif.Lemmas.Regression
import Verif.Lemmas.GaussNewton
import Mathlib.LinearAlgebra.Matrix.Rank
/-!
# Lemmas about the spectral regressors
-/

namespace Menpofit
open Matrix GN Reg Spec

/-! ### The inner product of matrices -/

/-- Inner product of matrices. -/
def fro {n q : Nat} (A B : Matrix (Fin n) (Fin q) ℝ) : ℝ := ∑ i, ∑ j, A i j * B i j

section fro
variable {n d q : Nat}

theorem fro_trace (A B : Matrix (Fin n) (Fin q) ℝ) : fro A B = trace (Aᵀ * B) := by
  unfold fro trace
  simp only [diag_apply, mul_apply, transpose_apply]
  rw [Finset.sum_comm]

theorem fro_comm (A B : Matrix (Fin n) (Fin q) ℝ) : fro A B = fro B A := by
  unfold fro; simp only [mul_comm]

theorem fro_mul_left (Z : Matrix (Fin n) (Fin d) ℝ) (A : Matrix (Fin d) (Fin q) ℝ) (B : Matrix (Fin n) (Fin q) ℝ) :
    fro (Z * A) B = fro A (Zᵀ * B) := by
  rw [fro_trace, fro_trace, transpose_mul, Matrix.mul_assoc]

theorem fro_mul_right (A : Matrix (Fin n) (Fin d) ℝ) (V : Matrix (Fin d) (Fin q) ℝ) (B : Matrix (Fin n) (Fin q) ℝ) :
    fro (A * V) B = fro A (B * Vᵀ) := by
  rw [fro_trace, fro_trace, transpose_mul, Matrix.mul_assoc, trace_mul_comm, Matrix.mul_assoc]

theorem fro_add (A B C : Matrix (Fin n) (Fin q) ℝ) : fro A (B + C) = fro A B + fro A C := by
  unfold fro
  simp only [Matrix.add_apply, mul_add, Finset.sum_add_distrib]

theorem fro_sub (A B C : Matrix (Fin n) (Fin q) ℝ) : fro A (B - C) = fro A B - fro A C := by
  unfold fro
  simp only [Matrix.sub_apply, mul_sub, Finset.sum_sub_distrib]

theorem fro_zero (A : Matrix (Fin n) (Fin q) ℝ) : fro A 0 = 0 := by simp [fro]

theorem sqSize_fro (A : Matrix (Fin n) (Fin q) ℝ) : sqSize A = fro A A := by
  unfold sqSize fro; simp only [sq]

theorem sqSize_nonneg (A : Matrix (Fin n) (Fin q) ℝ) : 0 ≤ sqSize A :=
  Finset.sum_nonneg fun _ _ => Finset.sum_nonneg fun _ _ => sq_nonneg _

theorem sqSize_eq_zero {A : Matrix (Fin n) (Fin q) ℝ} (h : sqSize A = 0) : A = 0 := by
  have h1 := (Finset.sum_eq_zero_iff_of_nonneg (s := Finset.univ) (f := fun i => ∑ j, A i j ^ 2)
    fun _ _ => Finset.sum_nonneg fun _ _ => sq_nonneg _).1 h
  ext i j
  have h2 := (Finset.sum_eq_zero_iff_of_nonneg (s := Finset.univ) (f := fun j => A i j ^ 2)
    fun _ _ => sq_nonneg _).1 (h1 i (Finset.mem_univ i))
  exact pow_eq_zero_iff (two_ne_zero) |>.1 (h2 j (Finset.mem_univ j))

theorem sqSize_add (A B : Matrix (Fin n) (Fin q) ℝ) : sqSize (A + B) = sqSize A + 2 * fro A B + sqSize B := by
  rw [sqSize_fro, fro_add, fro_comm, fro_add, fro_comm (A + B) B, fro_add, sqSize_fro, sqSize_fro, fro_comm B A]
  ring

theorem sqSize_sub (A B : Matrix (Fin n) (Fin q) ℝ) : sqSize (A - B) = sqSize A - 2 * fro A B + sqSize B := by
  have h : sqSize (A - B + B) = sqSize A := by rw [sub_add_cancel]
  rw [sqSize_add, fro_comm, fro_sub, fro_comm B A, ← sqSize_fro] at h
  linarith

/-- A solution of the normal equations has the least error. -/
theorem normal_least {Z : Matrix (Fin n) (Fin d) ℝ} {Y : Matrix (Fin n) (Fin q) ℝ} {W : Matrix (Fin d) (Fin q) ℝ}
    (hN : Zᵀ * (Z * W) = Zᵀ * Y) (W' : Matrix (Fin d) (Fin q) ℝ) :
    sqSize (Z * W' - Y) = sqSize (Z * W - Y) + sqSize (Z * (W' - W)) := by
  have e : Z * W' - Y = Z * (W' - W) + (Z * W - Y) := by rw [Matrix.mul_sub]; abel
  rw [e, sqSize_add, fro_mul_left, Matrix.mul_sub Zᵀ, hN, sub_self, fro_zero]
  ring

/-- The solution of the normal equations in the span of the samples has the smallest coefficients. -/
theorem normal_smallest {Z : Matrix (Fin n) (Fin d) ℝ} {Y : Matrix (Fin n) (Fin q) ℝ}
    {W : Matrix (Fin d) (Fin q) ℝ} {M : Matrix (Fin n) (Fin q) ℝ}
    (hN : Zᵀ * (Z * W) = Zᵀ * Y) (hM : W = Zᵀ * M) (W' : Matrix (Fin d) (Fin q) ℝ) :
    sqSize (Z * W - Y) ≤ sqSize (Z * W' - Y) ∧
    (sqSize (Z * W' - Y) = sqSize (Z * W - Y) → sqSize W ≤ sqSize W' ∧ (sqSize W' = sqSize W → W' = W)) := by
  have h1 := normal_least hN W'
  have h2 := sqSize_nonneg (Z * (W' - W))
  refine ⟨by linarith, fun he => ?_⟩
  have h3 : Z * (W' - W) = 0 := sqSize_eq_zero (by linarith)
  have h4 : sqSize W' = sqSize W + sqSize (W' - W) := by
    have e : W' = W + (W' - W) := by abel
    conv_lhs => rw [e]
    rw [sqSize_add]
    have : fro W (W' - W) = 0 := by
      rw [fro_comm, hM, fro_comm, fro_mul_left, transpose_transpose, ← hM, h3, fro_zero]
    rw [this]; ring
  have h5 := sqSize_nonneg (W' - W)
  exact ⟨by linarith, fun h => sub_eq_zero.1 (sqSize_eq_zero (by linarith))⟩

end fro

theorem coefficients_parts (bias : Bool) {d q : Nat} (W : Matrix (Fin (width bias d)) (Fin q) ℝ) :
    sqSize W = coefficients (partA bias W) (partB bias W) := sq_parts bias W

theorem ridgeCost_zero_parts (bias : Bool) {n d q : Nat} (X : Matrix (Fin n) (Fin d) ℝ)
    (Y : Matrix (Fin n) (Fin q) ℝ) (W : Matrix (Fin (width bias d)) (Fin q) ℝ) :
    sqSize (addBias bias X * W - Y) = ridgeCost 0 X Y (partA bias W) (partB bias W) := by
  rw [← ridgeCost_parts, zero_mul, add_zero]
  rfl

theorem leastSquaresMap (bias : Bool) {n d q : Nat} {X : Matrix (Fin n) (Fin d) ℝ} {Y : Matrix (Fin n) (Fin q) ℝ}
    {W : Matrix (Fin (width bias d)) (Fin q) ℝ} {M : Matrix (Fin n) (Fin q) ℝ}
    (hN : (addBias bias X)ᵀ * (addBias bias X * W) = (addBias bias X)ᵀ * Y) (hM : W = (addBias bias X)ᵀ * M) :
    IsLeastSquaresMap bias X Y (partA bias W) (partB bias W) := by
  refine ⟨partB_false bias W, fun A' b' hb' => ?_⟩
  have := normal_smallest hN hM (joinAB bias A' b')
  simp only [ridgeCost_zero_parts, coefficients_parts, partA_join, partB_join bias A' b' hb'] at this
  refine ⟨this.1, fun he => ⟨(this.2 he).1, fun hc => ?_⟩⟩
  have hW := (this.2 he).2 hc
  rw [← hW, partA_join, partB_join bias A' b' hb']
  exact ⟨rfl, rfl⟩

/-- Least squares maps are unique. -/
theorem leastSquaresMap_unique (bias : Bool) {n d q : Nat} {X : Matrix (Fin n) (Fin d) ℝ}
    {Y : Matrix (Fin n) (Fin q) ℝ} {A A' : Matrix (Fin d) (Fin q) ℝ} {b b' : Fin q → ℝ}
    (h : IsLeastSquaresMap bias X Y A b) (h' : IsLeastSquaresMap bias X Y A' b') : A' = A ∧ b' = b := by
  have e : ridgeCost 0 X Y A' b' = ridgeCost 0 X Y A b :=
    le_antisymm (h'.2 A b h.1).1 (h.2 A' b' h'.1).1
  have k := (h.2 A' b' h'.1).2 e
  have k' := (h'.2 A b h.1).2 e.symm
  exact k.2 (le_antisymm k'.1 k.1)

/-! ### Decompositions -/

section svd
variable {n d r : Nat} {X : Matrix (Fin n) (Fin d) ℝ} {U : Matrix (Fin n) (Fin r) ℝ} {s : Fin r → ℝ}
  {V : Matrix (Fin r) (Fin d) ℝ}

/-- Columns of orthonormal columns are orthonormal. -/
theorem submatrix_left {k : Nat} (h : Uᵀ * U = 1) {c : Fin k → Fin r} (hc : Function.Injective c) :
    (U.submatrix id c)ᵀ * U.submatrix id c = 1 := by
  have : (U.submatrix id c)ᵀ * U.submatrix id c = (Uᵀ * U).submatrix c c := by
    ext i j; simp [mul_apply]
  rw [this, h, submatrix_one _ hc]

theorem submatrix_right {k : Nat} (h : V * Vᵀ = 1) {c : Fin k → Fin r} (hc : Function.Injective c) :
    V.submatrix c id * (V.submatrix c id)ᵀ = 1 := by
  have : V.submatrix c id * (V.submatrix c id)ᵀ = (V * Vᵀ).submatrix c c := by
    ext i j; simp [mul_apply]
  rw [this, h, submatrix_one _ hc]

/-- `X Vₖᵀ = Uₖ diag sₖ`. -/
theorem svd_right {k : Nat} (h : IsSvd X U s V) (c : Fin k → Fin r) :
    X * (V.submatrix c id)ᵀ = U.submatrix id c * diagonal fun i => s (c i) := by
  have h1 : X * Vᵀ = U * diagonal s := by
    conv_lhs => rw [h.product, Matrix.mul_assoc, h.right, Matrix.mul_one]
  have h2 : X * (V.submatrix c id)ᵀ = (X * Vᵀ).submatrix id c := by
    ext i j; simp [mul_apply]
  rw [h2, h1]
  ext i j
  simp [mul_apply, diagonal_apply]

theorem svd_left (h : IsSvd X U s V) : Uᵀ * X = diagonal s * V := by
  conv_lhs => rw [h.product, ← Matrix.mul_assoc, ← Matrix.mul_assoc, h.left, Matrix.one_mul]

/-- The rank is full exactly if no singular value is zero. -/
theorem svd_rank (h : IsSvd X U s V) : X.rank = r ↔ ∀ i, s i ≠ 0 := by
  have h1 : X.rank = (diagonal s).rank := by
    apply le_antisymm
    · rw [h.product]
      exact (rank_mul_le_left _ _).trans (rank_mul_le_right _ _)
    · have : diagonal s = Uᵀ * X * Vᵀ := by
        rw [svd_left h, Matrix.mul_assoc, h.right, Matrix.mul_one]
      rw [this]
      exact (rank_mul_le_left _ _).trans (rank_mul_le_right _ _)
  rw [h1, rank_diagonal]
  constructor
  · intro hr i hi
    have : Fintype.card { i // s i ≠ 0 } < Fintype.card (Fin r) := Fintype.card_subtype_lt (x := i) (by simpa using hi)
    rw [Fintype.card_fin] at this
    omega
  · intro hs
    rw [Fintype.card_subtype, Finset.filter_true_of_mem fun i _ => hs i, Finset.card_univ, Fintype.card_fin]

end svd

theorem npInv_diagonal {k : Nat} {s : Fin k → ℝ} (hs : ∀ i, s i ≠ 0) :
    npInv (diagonal s) = .ok (diagonal fun i => (s i)⁻¹) := by
  unfold npInv
  rw [if_neg]
  · congr 1
    apply inv_eq_right_inv
    rw [diagonal_mul_diagonal, ← diagonal_one]
    congr 1
    funext i
    exact mul_inv_cancel₀ (hs i)
  · rw [det_diagonal]
    exact Finset.prod_ne_zero_iff.2 fun i _ => hs i

theorem npInv_diagonal_ok {k : Nat} {s : Fin k → ℝ} {M : Matrix (Fin k) (Fin k) ℝ}
    (h : npInv (diagonal s) = .ok M) : (∀ i, s i ≠ 0) ∧ M = diagonal fun i => (s i)⁻¹ := by
  have hs : ∀ i, s i ≠ 0 := by
    unfold npInv at h
    split at h
    · cases h
    · next hd =>
      rw [det_diagonal, Finset.prod_eq_zero_iff] at hd
      push Not at hd
      exact fun i => hd i (Finset.mem_univ i)
  rw [npInv_diagonal hs] at h
  injection h with h
  exact ⟨hs, h.symm⟩

/-! ### Counting components -/

/-- Of sorted shares a prefix is below any bound. -/
theorem keep_spec {r : Nat} {s : Fin r → ℝ} (hs : ∀ i, 0 ≤ s i) (h0 : ∑ i, s i ≠ 0) (v : ℝ) (i : Fin r) :
    i.val < keep s v ↔ share s (i.val + 1) < v := by
  have hpos : 0 < ∑ i, s i := lt_of_le_of_ne (Finset.sum_nonneg fun i _ => hs i) (Ne.symm h0)
  have hIic : ∀ i : Fin r, (∑ j ∈ Finset.Iic i, s j) / ∑ j, s j = share s (i.val + 1) := by
    intro i
    unfold share
    congr 2
    ext j
    simp only [Finset.mem_Iic, Finset.mem_filter, Finset.mem_univ, true_and, Fin.le_def]
    omega
  have hmono : ∀ a b : Nat, a ≤ b → share s a ≤ share s b := by
    intro a b hab
    unfold share
    apply div_le_div_of_nonneg_right _ hpos.le
    apply Finset.sum_le_sum_of_subset_of_nonneg
    · intro j hj
      simp only [Finset.mem_filter, Finset.mem_univ, true_and] at hj ⊢
      omega
    · exact fun j _ _ => hs j
  unfold keep
  rw [if_neg h0]
  simp only [hIic]
  constructor
  · intro h
    by_contra hn
    have hsub : (Finset.univ.filter fun i : Fin r => share s (i.val + 1) < v) ⊆ Finset.univ.filter fun j : Fin r => j.val < i.val := by
      intro j hj
      simp only [Finset.mem_filter, Finset.mem_univ, true_and] at hj ⊢
      by_contra hji
      exact hn (lt_of_le_of_lt (hmono _ _ (by omega)) hj)
    have hc := Finset.card_le_card hsub
    have : (Finset.univ.filter fun j : Fin r => j.val < i.val).card = i.val := by
      have : (Finset.univ.filter fun j : Fin r => j.val < i.val) = Finset.Iio i := by
        ext j; simp
      rw [this, Fin.card_Iio]
    omega
  · intro h
    have hsub : Finset.Iic i ⊆ Finset.univ.filter fun j : Fin r => share s (j.val + 1) < v := by
      intro j hj
      rw [Finset.mem_Iic, Fin.le_def] at hj
      simp only [Finset.mem_filter, Finset.mem_univ, true_and]
      exact lt_of_le_of_lt (hmono _ _ (by omega)) h
    have hc := Finset.card_le_card hsub
    rw [Fin.card_Iic] at hc
    omega

theorem share_zero {r : Nat} (s : Fin r → ℝ) : share s 0 = 0 := by
  unfold share; simp

/-! ### Principal component regression -/

section pcr
variable {n d r q : Nat} {X : Matrix (Fin n) (Fin d) ℝ} {U : Matrix (Fin n) (Fin r) ℝ} {s : Fin r → ℝ}
  {V : Matrix (Fin r) (Fin d) ℝ}

theorem diag_inv_mul {k : Nat} {s : Fin k → ℝ} (hs : ∀ i, s i ≠ 0) :
    (diagonal s * diagonal fun i => (s i)⁻¹) = 1 := by
  rw [diagonal_mul_diagonal, ← diagonal_one]
  congr 1
  funext i
  exact mul_inv_cancel₀ (hs i)

theorem svd_project (h : IsSvd X U s V) : U * (Uᵀ * X) = X := by
  rw [svd_left h, ← Matrix.mul_assoc]; exact h.product.symm

theorem svd_transpose_left (h : IsSvd X U s V) : Xᵀ * U = Vᵀ * diagonal s := by
  have := congrArg transpose (svd_left h)
  rwa [transpose_mul, transpose_mul, transpose_transpose, diagonal_transpose] at this

/-- The solution by singular values solves the normal equations and lies in the span of the samples. -/
theorem svd_solution (h : IsSvd X U s V) (hs : ∀ i, s i ≠ 0) (Y : Matrix (Fin n) (Fin q) ℝ) :
    Xᵀ * (X * (Vᵀ * (diagonal fun i => (s i)⁻¹) * (Uᵀ * Y))) = Xᵀ * Y ∧
    Vᵀ * (diagonal fun i => (s i)⁻¹) * (Uᵀ * Y) =
      Xᵀ * (U * (diagonal fun i => (s i)⁻¹) * (diagonal fun i => (s i)⁻¹) * (Uᵀ * Y)) := by
  have hX : X * Vᵀ = U * diagonal s := by
    conv_lhs => rw [h.product, Matrix.mul_assoc, h.right, Matrix.mul_one]
  constructor
  · have e1 : X * (Vᵀ * (diagonal fun i => (s i)⁻¹) * (Uᵀ * Y)) = U * (Uᵀ * Y) := by
      rw [Matrix.mul_assoc Vᵀ, ← Matrix.mul_assoc X, hX, Matrix.mul_assoc U, ← Matrix.mul_assoc (diagonal s),
        diag_inv_mul hs, Matrix.one_mul]
    have e2 : Xᵀ * (U * Uᵀ) = Xᵀ := by
      have := congrArg transpose (svd_project h)
      rw [← Matrix.mul_assoc] at this
      rwa [transpose_mul, transpose_mul, transpose_transpose] at this
    rw [e1, ← Matrix.mul_assoc U, ← Matrix.mul_assoc, e2]
  · have : Xᵀ * (U * (diagonal fun i => (s i)⁻¹) * (diagonal fun i => (s i)⁻¹) * (Uᵀ * Y)) =
        Xᵀ * U * ((diagonal fun i => (s i)⁻¹) * ((diagonal fun i => (s i)⁻¹) * (Uᵀ * Y))) := by
      simp only [Matrix.mul_assoc]
    rw [this, svd_transpose_left h, Matrix.mul_assoc Vᵀ (diagonal s), ← Matrix.mul_assoc (diagonal s),
      diag_inv_mul hs, Matrix.one_mul, Matrix.mul_assoc]

/-- The truncated solution is the least squares solution in the span of the first components. -/
theorem svd_truncated {k : Nat} (h : IsSvd X U s V) {c : Fin k → Fin r} (hc : Function.Injective c)
    (hs : ∀ i, s (c i) ≠ 0) (Y : Matrix (Fin n) (Fin q) ℝ) :
    (X * (V.submatrix c id)ᵀ)ᵀ * (X * (V.submatrix c id)ᵀ *
      ((diagonal fun i => (s (c i))⁻¹) * ((U.submatrix id c)ᵀ * Y))) = (X * (V.submatrix c id)ᵀ)ᵀ * Y := by
  rw [svd_right h c, transpose_mul, diagonal_transpose, Matrix.mul_assoc (U.submatrix id c),
    ← Matrix.mul_assoc (diagonal fun i => s (c i)) (diagonal fun i => (s (c i))⁻¹),
    diag_inv_mul (s := fun i => s (c i)) hs, Matrix.one_mul, Matrix.mul_assoc, ← Matrix.mul_assoc (U.submatrix id c)ᵀ
      (U.submatrix id c), submatrix_left h.left hc, Matrix.one_mul, Matrix.mul_assoc]

end pcr

/-- What successful training of a principal component regressor leaves behind. -/
theorem trainPcrCore_ok {svd : SvdFn} {n d q : Nat} {st st' : Pcr d q} {X : Matrix (Fin n) (Fin d) ℝ}
    {Y : Matrix (Fin n) (Fin q) ℝ} (h : trainPcrCore svd st X Y = (st', .ok ())) :
    ∃ (k : Nat) (hk : k ≤ min n d), k = pcrCount (svd n d X).s st.variance ∧
      (∀ i : Fin k, (svd n d X).s (Fin.castLE hk i) ≠ 0) ∧
      st'.V = some ⟨k, (svd n d X).V.submatrix (Fin.castLE hk) id⟩ ∧
      st'.R = some (((svd n d X).V.submatrix (Fin.castLE hk) id)ᵀ *
        (diagonal fun i => ((svd n d X).s (Fin.castLE hk i))⁻¹) *
        (((svd n d X).U.submatrix id (Fin.castLE hk))ᵀ * Y)) := by
  refine ⟨_, pcrCount_le _ _, rfl, ?_⟩
  unfold trainPcrCore at h
  simp only at h
  split at h
  · cases h
  · next Si hSi =>
    obtain ⟨h1, h2⟩ := npInv_diagonal_ok hSi
    rw [tdot_same] at h
    simp only [Prod.mk.injEq] at h
    obtain ⟨rfl, _⟩ := h
    exact ⟨h1, rfl, by rw [h2]⟩

/-! ### Optimal linear regression -/

section pca
variable {n d k q : Nat} {X : Matrix (Fin n) (Fin d) ℝ} {U : Matrix (Fin k) (Fin d) ℝ} {l : Fin k → ℝ}

theorem gram_zero {m : Nat} {B : Matrix (Fin m) (Fin d) ℝ} (h : Bᵀ * B = 0) : B = 0 := by
  apply sqSize_eq_zero
  rw [sqSize_fro, fro_trace, h, trace_zero]

/-- The components span the samples. -/
theorem pca_spans (h : IsPca X U l) : X * (Uᵀ * U) = X := by
  have key : (X - X * (Uᵀ * U))ᵀ * (X - X * (Uᵀ * U)) = 0 := by
    have e : Xᵀ * X * (Uᵀ * U) = Xᵀ * X := by
      rw [h.moments, Matrix.smul_mul]
      congr 1
      rw [Matrix.mul_assoc (Uᵀ * diagonal l), ← Matrix.mul_assoc U, h.orthonormal, Matrix.one_mul]
    have e' : (Uᵀ * U) * (Xᵀ * X) = Xᵀ * X := by
      have := congrArg transpose e
      simpa only [transpose_mul, transpose_transpose, Matrix.mul_assoc] using this
    have ht : (X * (Uᵀ * U))ᵀ = Uᵀ * U * Xᵀ := by
      rw [transpose_mul, transpose_mul, transpose_transpose]
    rw [transpose_sub, ht, Matrix.sub_mul, Matrix.mul_sub, Matrix.mul_sub, ← Matrix.mul_assoc Xᵀ X, e,
      Matrix.mul_assoc (Uᵀ * U) Xᵀ X, e', Matrix.mul_assoc (Uᵀ * U) Xᵀ, ← Matrix.mul_assoc Xᵀ X, e, e']
    abel
  have := gram_zero key
  exact (sub_eq_zero.1 this).symm

/-- The whitened components. -/
theorem whiten_ok {l : Fin k → ℝ} {W : Matrix (Fin k) (Fin d) ℝ} (hw : whiten U l = .ok W) :
    W = (diagonal fun i => (Real.sqrt (l i))⁻¹) * U := by
  unfold whiten at hw
  cases hi : npInv (diagonal l) with
  | error e => rw [hi] at hw; cases hw
  | ok Li =>
    rw [hi] at hw
    injection hw with hw
    rw [← hw, (npInv_diagonal_ok hi).2]
    show (diagonal fun i => (l i)⁻¹).map Real.sqrt * U = _
    refine congrArg (fun M => M * U) ?_
    ext i j
    by_cases hij : i = j
    · subst hij; simp [Real.sqrt_inv]
    · simp [hij]

theorem whiten_positive (hl : ∀ i, 0 < l i) :
    whiten U l = .ok ((diagonal fun i => (Real.sqrt (l i))⁻¹) * U) := by
  have : npInv (diagonal l) = .ok (diagonal fun i => (l i)⁻¹) := npInv_diagonal fun i => (hl i).ne'
  obtain ⟨W, hW⟩ : ∃ W, whiten U l = .ok W := by unfold whiten; rw [this]; exact ⟨_, rfl⟩
  rw [hW, whiten_ok hW]

theorem inv_sqrt_sq {x : ℝ} (hx : 0 < x) : (Real.sqrt x)⁻¹ * (Real.sqrt x)⁻¹ = x⁻¹ := by
  rw [← mul_inv, Real.mul_self_sqrt hx.le]

/-- Samples have unit second moments along whitened components. -/
theorem whitened_gram {k' : Nat} (h : IsPca X U l) {c : Fin k' → Fin k} (hc : Function.Injective c)
    {W : Matrix (Fin k') (Fin d) ℝ}
    (hW : W = (diagonal fun i => (Real.sqrt (l (c i)))⁻¹) * U.submatrix c id) :
    (X * Wᵀ)ᵀ * (X * Wᵀ) = (n : ℝ) • (1 : Matrix (Fin k') (Fin k') ℝ) := by
  have h1 : U * (U.submatrix c id)ᵀ = (1 : Matrix (Fin k) (Fin k) ℝ).submatrix id c := by
    rw [← h.orthonormal]; ext i j; simp [mul_apply]
  have h2 : U.submatrix c id * (Uᵀ * diagonal l * U) * (U.submatrix c id)ᵀ = diagonal fun i => l (c i) := by
    have h3 : U.submatrix c id * Uᵀ = (1 : Matrix (Fin k) (Fin k) ℝ).submatrix c id := by
      rw [← h.orthonormal]; ext i j; simp [mul_apply]
    rw [Matrix.mul_assoc, Matrix.mul_assoc _ U, h1, ← Matrix.mul_assoc, ← Matrix.mul_assoc, h3]
    ext i j
    simp only [mul_apply, submatrix_apply, id_eq, diagonal_apply, one_apply]
    simp only [ite_mul, one_mul, zero_mul, mul_ite, mul_one, mul_zero, Finset.sum_ite_eq',
      Finset.mem_univ, if_true]
    by_cases hij : i = j
    · subst hij; simp
    · have : c i ≠ c j := fun h0 => hij (hc h0)
      simp [hij, this]
  rw [transpose_mul, transpose_transpose, Matrix.mul_assoc, ← Matrix.mul_assoc Xᵀ, h.moments, hW, transpose_mul,
    diagonal_transpose]
  rw [Matrix.smul_mul, Matrix.mul_smul]
  congr 1
  rw [Matrix.mul_assoc, ← Matrix.mul_assoc (Uᵀ * diagonal l * U), ← Matrix.mul_assoc (U.submatrix c id),
    ← Matrix.mul_assoc (U.submatrix c id), h2, diagonal_mul_diagonal, diagonal_mul_diagonal, ← diagonal_one]
  congr 1
  funext i
  have := h.positive (c i)
  have h4 : Real.sqrt (l (c i)) ≠ 0 := (Real.sqrt_pos.2 this).ne'
  have h5 : Real.sqrt (l (c i)) * Real.sqrt (l (c i)) = l (c i) := Real.mul_self_sqrt this.le
  field_simp
  rw [sq, h5]

/-- The pseudo-inverse of a matrix with orthogonal columns of equal length. -/
theorem pinv_scaled {m a : Nat} {B : Matrix (Fin m) (Fin a) ℝ} {P : Matrix (Fin a) (Fin m) ℝ}
    (hP : Spec.IsPinv B P) {N : ℝ} (hB : Bᵀ * B = N • (1 : Matrix (Fin a) (Fin a) ℝ)) : N • P = Bᵀ := by
  have h1 := congrArg transpose hP.apa
  rw [transpose_mul, hP.ap_symm, ← Matrix.mul_assoc, hB, Matrix.smul_mul, Matrix.one_mul] at h1
  exact h1

/-- The components of a positive semidefinite matrix `B Bᵀ` span the columns of `B`. -/
theorem pca_gram_spans {m k2 : Nat} {B : Matrix (Fin m) (Fin q) ℝ} {V : Matrix (Fin k2) (Fin m) ℝ} {l2 : Fin k2 → ℝ}
    (h : IsPca (B * Bᵀ) V l2) : Vᵀ * V * B = B := by
  have h1 := pca_spans h
  have h2 : (Bᵀ - Bᵀ * (Vᵀ * V))ᵀ * (Bᵀ - Bᵀ * (Vᵀ * V)) = 0 := by
    have ht : (Bᵀ * (Vᵀ * V))ᵀ = Vᵀ * V * B := by
      rw [transpose_mul, transpose_mul, transpose_transpose, transpose_transpose]
    have e : B * Bᵀ * (Vᵀ * V) = B * Bᵀ := h1
    rw [transpose_sub, ht, transpose_transpose, Matrix.sub_mul, Matrix.mul_sub, Matrix.mul_sub, ← Matrix.mul_assoc B,
      e, Matrix.mul_assoc (Vᵀ * V) B, Matrix.mul_assoc (Vᵀ * V) B, ← Matrix.mul_assoc B, e]
    abel
  have h3 := gram_zero h2
  have h4 := congrArg transpose (sub_eq_zero.1 h3)
  rw [transpose_mul, transpose_mul, transpose_transpose, transpose_transpose] at h4
  exact h4.symm

end pca

/-- What successful training of an optimal linear regressor leaves behind. -/
theorem trainOptimalCore_ok {pca : PcaFn} {pinv : PinvFn} {n d q : Nat} {st st' : Optimal d q}
    {X : Matrix (Fin n) (Fin d) ℝ} {Y : Matrix (Fin n) (Fin q) ℝ}
    (hpca : ∀ n d (X : Matrix (Fin n) (Fin d) ℝ), IsPca X (pca n d X).U (pca n d X).l)
    (hpinv : ∀ n d (X : Matrix (Fin n) (Fin d) ℝ), IsPinv X (pinv n d X))
    (hn : 0 < n) (h : trainOptimalCore pca pinv st X Y = (st', .ok ())) :
    ∃ (k : Nat) (hk : k ≤ (pca n d X).k), k = optimalCount (pca n d X).l st.variance ∧
      ∃ W : Matrix (Fin k) (Fin d) ℝ,
        W = (diagonal fun i => (Real.sqrt ((pca n d X).l (Fin.castLE hk i)))⁻¹) *
          (pca n d X).U.submatrix (Fin.castLE hk) id ∧
        st'.R = some ((n : ℝ)⁻¹ • (Wᵀ * (W * (Xᵀ * Y)))) := by
  refine ⟨_, optimalCount_le _ _, rfl, ?_⟩
  unfold trainOptimalCore at h
  simp only [tdot_same, transpose_transpose] at h
  split at h
  · cases h
  · next W hW =>
    have hW' := whiten_ok hW
    refine ⟨W, hW', ?_⟩
    simp only [Prod.mk.injEq] at h
    obtain ⟨rfl, _⟩ := h
    simp only
    congr 1
    have hg := whitened_gram (hpca n d X) (Fin.castLE_injective _) hW'
    obtain ⟨k2, V, l2, hV⟩ : ∃ (k2 : Nat) (V : Matrix (Fin k2) (Fin _) ℝ) (l2 : Fin k2 → ℝ),
      (⟨k2, V, l2⟩ : PcaResult _) = pca _ _ (W * (Xᵀ * Y * (Xᵀ * Y)ᵀ) * Wᵀ) := ⟨_, _, _, rfl⟩
    have hA : W * (Xᵀ * Y * (Xᵀ * Y)ᵀ) * Wᵀ = (W * (Xᵀ * Y)) * (W * (Xᵀ * Y))ᵀ := by
      rw [transpose_mul W]; simp only [Matrix.mul_assoc]
    have hp2 : IsPca ((W * (Xᵀ * Y)) * (W * (Xᵀ * Y))ᵀ) V l2 := by
      have := hpca _ _ (W * (Xᵀ * Y * (Xᵀ * Y)ᵀ) * Wᵀ)
      rw [← hV, hA] at this
      exact this
    rw [← hV]
    simp only
    have hspan := pca_gram_spans hp2
    have hB : (X * (V * W)ᵀ)ᵀ * (X * (V * W)ᵀ) = (n : ℝ) • (1 : Matrix (Fin k2) (Fin k2) ℝ) := by
      have e1 : X * (V * W)ᵀ = X * Wᵀ * Vᵀ := by rw [transpose_mul, Matrix.mul_assoc]
      rw [e1, transpose_mul, transpose_transpose, Matrix.mul_assoc, ← Matrix.mul_assoc (X * Wᵀ)ᵀ, hg,
        Matrix.smul_mul, Matrix.one_mul, Matrix.mul_smul, hp2.orthonormal]
    have hP := pinv_scaled (hpinv _ _ (X * (V * W)ᵀ)) hB
    have hn' : (n : ℝ) ≠ 0 := Nat.cast_ne_zero.2 (by omega)
    have hP' : pinv n k2 (X * (V * W)ᵀ) = (n : ℝ)⁻¹ • (X * (V * W)ᵀ)ᵀ := by
      rw [← hP, smul_smul, inv_mul_cancel₀ hn', one_smul]
    rw [hP', Matrix.smul_mul, Matrix.mul_smul]
    congr 1
    have e1 : (X * (V * W)ᵀ)ᵀ = V * W * Xᵀ := by rw [transpose_mul, transpose_transpose]
    rw [e1, transpose_mul]
    have e2 : Wᵀ * Vᵀ * (V * W * Xᵀ * Y) = Wᵀ * (Vᵀ * V * (W * (Xᵀ * Y))) := by
      simp only [Matrix.mul_assoc]
    rw [e2, hspan]

/-! ### Orthogonal Procrustes -/

/-- `U V` has the largest inner product with `U diag(s) V` among the matrices that do not stretch. -/
theorem procrustes_max {d q r : Nat} {M : Matrix (Fin d) (Fin q) ℝ} {U : Matrix (Fin d) (Fin r) ℝ} {s : Fin r → ℝ}
    {V : Matrix (Fin r) (Fin q) ℝ} (h : IsSvd M U s V) (R' : Matrix (Fin d) (Fin q) ℝ)
    (hR' : ∀ x : Fin q → ℝ, (R' *ᵥ x) ⬝ᵥ (R' *ᵥ x) ≤ x ⬝ᵥ x) : fro R' M ≤ fro (U * V) M := by
  have e1 : fro (U * V) M = ∑ i, s i := by
    rw [fro_mul_left, svd_left h, fro_comm, fro_mul_right, h.right, fro_trace, diagonal_transpose, Matrix.mul_one,
      trace_diagonal]
  have e2 : fro R' M = ∑ i, s i * (Uᵀ * R' * Vᵀ) i i := by
    rw [h.product, fro_comm, fro_mul_right, fro_mul_left, fro_trace, diagonal_transpose, ← Matrix.mul_assoc Uᵀ]
    unfold trace
    simp only [diag_apply, diagonal_mul]
  rw [e1, e2]
  refine Finset.sum_le_sum fun i _ => ?_
  have hle : (Uᵀ * R' * Vᵀ) i i ≤ 1 := by
    have e3 : (Uᵀ * R' * Vᵀ) i i = (fun a => U a i) ⬝ᵥ (R' *ᵥ fun b => V i b) := by
      rw [Matrix.mul_assoc, mul_apply, dotProduct]
      refine Finset.sum_congr rfl fun a _ => ?_
      rw [transpose_apply]; rfl
    rw [e3]
    have hu : (fun a => U a i) ⬝ᵥ (fun a => U a i) = 1 := by
      have := congrFun (congrFun h.left i) i
      rw [mul_apply, one_apply_eq] at this
      exact this
    have hv : (fun b => V i b) ⬝ᵥ (fun b => V i b) = 1 := by
      have := congrFun (congrFun h.right i) i
      rw [mul_apply, one_apply_eq] at this
      exact this
    have hr := hR' fun b => V i b
    rw [hv] at hr
    obtain ⟨y, hy⟩ : ∃ y, y = R' *ᵥ fun b => V i b := ⟨_, rfl⟩
    obtain ⟨u, hu'⟩ : ∃ u : Fin d → ℝ, u = fun a => U a i := ⟨_, rfl⟩
    rw [← hy] at hr ⊢
    rw [← hu'] at hu ⊢
    have h0 : 0 ≤ (u - y) ⬝ᵥ (u - y) := Finset.sum_nonneg fun i _ => mul_self_nonneg _
    rw [dotProduct_sub, sub_dotProduct, sub_dotProduct, dotProduct_comm y u, hu] at h0
    linarith
  nlinarith [h.nonneg i]

/-- `U V` does not stretch. -/
theorem procrustes_contracts {d q r : Nat} {M : Matrix (Fin d) (Fin q) ℝ} {U : Matrix (Fin d) (Fin r) ℝ}
    {s : Fin r → ℝ} {V : Matrix (Fin r) (Fin q) ℝ} (h : IsSvd M U s V) (x : Fin q → ℝ) :
    ((U * V) *ᵥ x) ⬝ᵥ ((U * V) *ᵥ x) ≤ x ⬝ᵥ x := by
  have e1 : ((U * V) *ᵥ x) ⬝ᵥ ((U * V) *ᵥ x) = (V *ᵥ x) ⬝ᵥ (V *ᵥ x) := by
    rw [← mulVec_mulVec, dotProduct_mulVec, ← mulVec_transpose, mulVec_mulVec, h.left, one_mulVec]
  have h0 : 0 ≤ (x - Vᵀ *ᵥ (V *ᵥ x)) ⬝ᵥ (x - Vᵀ *ᵥ (V *ᵥ x)) := Finset.sum_nonneg fun i _ => mul_self_nonneg _
  have e2 : (Vᵀ *ᵥ (V *ᵥ x)) ⬝ᵥ x = (V *ᵥ x) ⬝ᵥ (V *ᵥ x) := by
    rw [dotProduct_comm, dotProduct_mulVec, vecMul_transpose]
  have e3 : (Vᵀ *ᵥ (V *ᵥ x)) ⬝ᵥ (Vᵀ *ᵥ (V *ᵥ x)) = (V *ᵥ x) ⬝ᵥ (V *ᵥ x) := by
    rw [dotProduct_mulVec, vecMul_transpose, mulVec_mulVec, h.right, one_mulVec]
  rw [dotProduct_sub, sub_dotProduct, sub_dotProduct, dotProduct_comm x (Vᵀ *ᵥ (V *ᵥ x)), e2, e3] at h0
  rw [e1]; linarith

/-- A map lengthens no row iff it lengthens no column. -/
theorem contracts_untranspose {d q : Nat} {R : Matrix (Fin d) (Fin q) ℝ}
    (h : ∀ z, (z ᵥ* R) ⬝ᵥ (z ᵥ* R) ≤ z ⬝ᵥ z) (x : Fin q → ℝ) : (R *ᵥ x) ⬝ᵥ (R *ᵥ x) ≤ x ⬝ᵥ x := by
  have h1 := h (R *ᵥ x)
  have e : (R *ᵥ x) ⬝ᵥ (R *ᵥ x) = ((R *ᵥ x) ᵥ* R) ⬝ᵥ x := dotProduct_mulVec _ _ _
  have h0 : 0 ≤ ((R *ᵥ x) ᵥ* R - x) ⬝ᵥ ((R *ᵥ x) ᵥ* R - x) := Finset.sum_nonneg fun i _ => mul_self_nonneg _
  rw [dotProduct_sub, sub_dotProduct, sub_dotProduct, dotProduct_comm x ((R *ᵥ x) ᵥ* R), ← e] at h0
  linarith

theorem contracts_transpose {d q : Nat} {R : Matrix (Fin d) (Fin q) ℝ}
    (h : ∀ x, (R *ᵥ x) ⬝ᵥ (R *ᵥ x) ≤ x ⬝ᵥ x) (z : Fin d → ℝ) : (z ᵥ* R) ⬝ᵥ (z ᵥ* R) ≤ z ⬝ᵥ z := by
  have := contracts_untranspose (R := Rᵀ) (fun x => by rw [vecMul_transpose]; exact h x) z
  rwa [mulVec_transpose] at this

theorem fro_predictions (bias : Bool) {n d q : Nat} (X : Matrix (Fin n) (Fin d) ℝ) (Y : Matrix (Fin n) (Fin q) ℝ)
    (R : Matrix (Fin (width bias d)) (Fin q) ℝ) :
    fro ((addBias bias X)ᵀ * Y) R = ∑ i, (addBias1 bias (X i) ᵥ* R) ⬝ᵥ Y i := by
  rw [fro_comm, ← fro_mul_left]
  unfold fro
  refine Finset.sum_congr rfl fun i _ => ?_
  rw [← addBias_row]
  rfl

theorem sqSize_predictions (bias : Bool) {n d q : Nat} (X : Matrix (Fin n) (Fin d) ℝ) (Y : Matrix (Fin n) (Fin q) ℝ)
    (R : Matrix (Fin (width bias d)) (Fin q) ℝ) :
    sqSize (addBias bias X * R - Y) =
      ∑ i, (addBias1 bias (X i) ᵥ* R - Y i) ⬝ᵥ (addBias1 bias (X i) ᵥ* R - Y i) := by
  unfold sqSize
  refine Finset.sum_congr rfl fun i _ => ?_
  rw [← addBias_row]
  refine Finset.sum_congr rfl fun j _ => ?_
  rw [sq]
  rfl

theorem sqSize_preserved {n d q : Nat} {Z : Matrix (Fin n) (Fin d) ℝ} {R : Matrix (Fin d) (Fin q) ℝ} (h : R * Rᵀ = 1) :
    sqSize (Z * R) = sqSize Z := by
  rw [sqSize_fro, fro_mul_right, Matrix.mul_assoc, h, Matrix.mul_one, ← sqSize_fro]

theorem svd_single {n d : Nat} {M : Matrix (Fin n) (Fin d) ℝ} {U : Matrix (Fin n) (Fin 1) ℝ} {s : Fin 1 → ℝ}
    {V : Matrix (Fin 1) (Fin d) ℝ} (h : IsSvd M U s V) : M = s 0 • (U * V) := by
  conv_lhs => rw [h.product]
  have : diagonal s = s 0 • (1 : Matrix (Fin 1) (Fin 1) ℝ) := by
    ext i j; rw [Fin.eq_zero i, Fin.eq_zero j]; simp
  rw [this, Matrix.mul_smul, Matrix.mul_one, Matrix.smul_mul]

section pcasol
variable {n d k q : Nat} {X : Matrix (Fin n) (Fin d) ℝ} {U : Matrix (Fin k) (Fin d) ℝ} {l : Fin k → ℝ}

theorem whitened_square (hl : ∀ i, 0 < l i) :
    ((diagonal fun i => (Real.sqrt (l i))⁻¹) * U)ᵀ * ((diagonal fun i => (Real.sqrt (l i))⁻¹) * U) =
      Uᵀ * (diagonal fun i => (l i)⁻¹) * U := by
  rw [transpose_mul, diagonal_transpose, Matrix.mul_assoc, ← Matrix.mul_assoc (diagonal _), diagonal_mul_diagonal]
  simp only [inv_sqrt_sq (hl _)]
  rw [Matrix.mul_assoc]

/-- The solution by principal components solves the normal equations and lies in the span of the samples. -/
theorem pca_solution (h : IsPca X U l) (hn : 0 < n) {W : Matrix (Fin k) (Fin d) ℝ}
    (hW : W = (diagonal fun i => (Real.sqrt (l i))⁻¹) * U) (Y : Matrix (Fin n) (Fin q) ℝ) :
    Xᵀ * (X * ((n : ℝ)⁻¹ • (Wᵀ * (W * (Xᵀ * Y))))) = Xᵀ * Y ∧
    ∃ M, (n : ℝ)⁻¹ • (Wᵀ * (W * (Xᵀ * Y))) = Xᵀ * M := by
  have hn' : (n : ℝ) ≠ 0 := Nat.cast_ne_zero.2 (by omega)
  have hWW : Wᵀ * W = Uᵀ * (diagonal fun i => (l i)⁻¹) * U := by rw [hW]; exact whitened_square h.positive
  have hspan : Uᵀ * U * Xᵀ = Xᵀ := by
    have := congrArg transpose (pca_spans h)
    rwa [transpose_mul, transpose_mul, transpose_transpose] at this
  have key : ∀ e : Fin k → ℝ, Xᵀ * X * (Uᵀ * diagonal e * U) = (n : ℝ) • (Uᵀ * (diagonal fun i => l i * e i) * U) := by
    intro e
    rw [h.moments, Matrix.smul_mul]
    congr 1
    have : Uᵀ * diagonal l * U * (Uᵀ * diagonal e * U) = Uᵀ * (diagonal l * (U * Uᵀ) * diagonal e) * U := by
      simp only [Matrix.mul_assoc]
    rw [this, h.orthonormal, Matrix.mul_one, diagonal_mul_diagonal]
  rw [← Matrix.mul_assoc Wᵀ, hWW]
  constructor
  · rw [Matrix.mul_smul, Matrix.mul_smul, ← Matrix.mul_assoc, ← Matrix.mul_assoc, key, Matrix.smul_mul, smul_smul,
      inv_mul_cancel₀ hn', one_smul]
    have : (diagonal fun i => l i * (l i)⁻¹) = (1 : Matrix (Fin k) (Fin k) ℝ) := by
      rw [← diagonal_one]; congr 1; funext i; exact mul_inv_cancel₀ (h.positive i).ne'
    rw [this, Matrix.mul_one, ← Matrix.mul_assoc, hspan]
  · refine ⟨(n : ℝ)⁻¹ • (n : ℝ)⁻¹ • (X * (Uᵀ * (diagonal fun i => (l i)⁻¹ * (l i)⁻¹) * U) * (Xᵀ * Y)), ?_⟩
    rw [Matrix.mul_smul, Matrix.mul_smul, ← Matrix.mul_assoc Xᵀ, ← Matrix.mul_assoc Xᵀ, key, Matrix.smul_mul,
      smul_smul (n : ℝ)⁻¹ (n : ℝ), inv_mul_cancel₀ hn', one_smul]
    congr 5
    funext i
    rw [← mul_assoc, mul_inv_cancel₀ (h.positive i).ne', one_mul]

/-- The solution in the span of some principal components. -/
theorem pca_truncated {k' : Nat} (h : IsPca X U l) (hn : 0 < n) {c : Fin k' → Fin k} (hc : Function.Injective c)
    {W : Matrix (Fin k') (Fin d) ℝ}
    (hW : W = (diagonal fun i => (Real.sqrt (l (c i)))⁻¹) * U.submatrix c id) (Y : Matrix (Fin n) (Fin q) ℝ) :
    ∃ B : Matrix (Fin k') (Fin q) ℝ,
      (n : ℝ)⁻¹ • (Wᵀ * (W * (Xᵀ * Y))) = (U.submatrix c id)ᵀ * B ∧
      ∀ B', sqSize (X * (U.submatrix c id)ᵀ * B - Y) ≤ sqSize (X * (U.submatrix c id)ᵀ * B' - Y) := by
  have hn' : (n : ℝ) ≠ 0 := Nat.cast_ne_zero.2 (by omega)
  have hg := whitened_gram h hc hW
  obtain ⟨B0, hB0⟩ : ∃ B0 : Matrix (Fin k') (Fin q) ℝ, B0 = (n : ℝ)⁻¹ • (W * (Xᵀ * Y)) := ⟨_, rfl⟩
  have hWt : Wᵀ = (U.submatrix c id)ᵀ * (diagonal fun i => (Real.sqrt (l (c i)))⁻¹) := by
    rw [hW, transpose_mul, diagonal_transpose]
  have hUt : (U.submatrix c id)ᵀ = Wᵀ * (diagonal fun i => Real.sqrt (l (c i))) := by
    rw [hWt, Matrix.mul_assoc, diagonal_mul_diagonal]
    have : (diagonal fun i => (Real.sqrt (l (c i)))⁻¹ * Real.sqrt (l (c i))) = (1 : Matrix (Fin k') (Fin k') ℝ) := by
      rw [← diagonal_one]; congr 1; funext i
      exact inv_mul_cancel₀ (Real.sqrt_pos.2 (h.positive (c i))).ne'
    rw [this, Matrix.mul_one]
  refine ⟨(diagonal fun i => (Real.sqrt (l (c i)))⁻¹) * B0, ?_, fun B' => ?_⟩
  · rw [← Matrix.mul_assoc (U.submatrix c id)ᵀ, ← hWt, hB0, Matrix.mul_smul]
  · have hN : (X * Wᵀ)ᵀ * (X * Wᵀ * B0) = (X * Wᵀ)ᵀ * Y := by
      rw [← Matrix.mul_assoc, hg, Matrix.smul_mul, Matrix.one_mul, hB0, smul_smul, mul_inv_cancel₀ hn', one_smul,
        transpose_mul, transpose_transpose, Matrix.mul_assoc]
    have h1 := normal_least hN ((diagonal fun i => Real.sqrt (l (c i))) * B')
    have h2 := sqSize_nonneg (X * Wᵀ * ((diagonal fun i => Real.sqrt (l (c i))) * B' - B0))
    have e1 : X * (U.submatrix c id)ᵀ * ((diagonal fun i => (Real.sqrt (l (c i)))⁻¹) * B0) = X * Wᵀ * B0 := by
      rw [hWt]; simp only [Matrix.mul_assoc]
    have e2 : X * (U.submatrix c id)ᵀ * B' = X * Wᵀ * ((diagonal fun i => Real.sqrt (l (c i))) * B') := by
      rw [hUt]; simp only [Matrix.mul_assoc]
    rw [e1, e2]
    linarith

end pcasol

end Menpofit
