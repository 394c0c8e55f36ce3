import Verif.Lemmas.Spectral
import Mathlib.Analysis.Matrix.Spectrum
import Mathlib.Analysis.Matrix.PosDef
import Mathlib.Data.Fin.Tuple.Sort
import Mathlib.Analysis.RCLike.Basic
import Mathlib.Data.Real.StarOrdered
import Mathlib.Analysis.InnerProductSpace.PiL2
/-!
# Principal components and pseudo-inverses exist
-/

namespace Menpofit
open Matrix GN Reg Spec

theorem prefix_count {d : Nat} {w : Fin d → ℝ} (hw : ∀ i j, i ≤ j → w j ≤ w i) :
    ∃ k ≤ d, ∀ i : Fin d, i.val < k ↔ 0 < w i := by
  induction d with
  | zero => exact ⟨0, le_refl _, fun i => i.elim0⟩
  | succ d ih =>
    by_cases h0 : 0 < w (Fin.last d)
    · refine ⟨d + 1, le_refl _, fun i => ⟨fun _ => lt_of_lt_of_le h0 (hw i _ (Fin.le_last i)), fun _ => i.2⟩⟩
    · obtain ⟨k, hk, hi⟩ := ih (w := fun i => w i.castSucc) fun i j hij => hw _ _ (by simpa using hij)
      refine ⟨k, by omega, fun i => ?_⟩
      induction i using Fin.lastCases with
      | last => simp only [Fin.val_last]; exact ⟨fun h => by omega, fun h => absurd h h0⟩
      | cast i => simpa using hi i

theorem pca_of_diagonal {n d k : Nat} {X : Matrix (Fin n) (Fin d) ℝ} {E : Matrix (Fin d) (Fin d) ℝ} {w : Fin d → ℝ}
    (hE : Eᵀ * E = 1) (hX : Xᵀ * X = (n : ℝ) • (E * diagonal w * Eᵀ)) (hw : ∀ i j, i ≤ j → w j ≤ w i)
    (h0 : ∀ i, 0 ≤ w i) (hk : k ≤ d) (hpos : ∀ i : Fin d, i.val < k ↔ 0 < w i) :
    ∃ (U : Matrix (Fin k) (Fin d) ℝ) (l : Fin k → ℝ), IsPca X U l := by
  refine ⟨(Eᵀ).submatrix (Fin.castLE hk) id, fun i => w (Fin.castLE hk i), ?_, ?_, ?_, ?_⟩
  · have : Eᵀ * (Eᵀ)ᵀ = 1 := by rw [transpose_transpose]; exact hE
    exact submatrix_right this (Fin.castLE_injective hk)
  · intro i
    exact (hpos _).1 (by simp)
  · rw [hX]
    congr 1
    obtain ⟨m, rfl⟩ := Nat.exists_eq_add_of_le hk
    ext i j
    simp only [mul_apply, transpose_apply, submatrix_apply, id_eq, diagonal_apply]
    simp only [mul_ite, mul_zero, Finset.sum_ite_eq', Finset.mem_univ, if_true]
    rw [Fin.sum_univ_add]
    have hz : ∑ x : Fin m, E i (Fin.natAdd k x) * w (Fin.natAdd k x) * E j (Fin.natAdd k x) = 0 := by
      apply Finset.sum_eq_zero
      intro x _
      have hn : ¬ 0 < w (Fin.natAdd k x) := by
        rw [← hpos]; simp
      have : w (Fin.natAdd k x) = 0 := le_antisymm (not_lt.1 hn) (h0 _)
      rw [this]; ring
    rw [hz, add_zero]
    rfl
  · intro i j hij
    exact hw _ _ (by simpa using hij)

/-- Every matrix with at least one row has principal components. -/
theorem exists_pca {n d : Nat} (hn : 0 < n) (X : Matrix (Fin n) (Fin d) ℝ) :
    ∃ p : PcaResult d, IsPca X p.U p.l := by
  have hn' : (n : ℝ) ≠ 0 := Nat.cast_ne_zero.2 (by omega)
  have hpsd : (Xᵀ * X).PosSemidef := by
    have := posSemidef_conjTranspose_mul_self X
    rwa [conjTranspose_eq_transpose_of_trivial] at this
  have hA := hpsd.isHermitian
  obtain ⟨E, hEdef⟩ : ∃ E : Matrix (Fin d) (Fin d) ℝ, E = (hA.eigenvectorUnitary : Matrix (Fin d) (Fin d) ℝ) :=
    ⟨_, rfl⟩
  have hE : Eᵀ * E = 1 := by
    have h := Unitary.coe_star_mul_self hA.eigenvectorUnitary
    rw [← hEdef, star_eq_conjTranspose, conjTranspose_eq_transpose_of_trivial] at h
    exact h
  have hsp : Xᵀ * X = E * diagonal hA.eigenvalues * Eᵀ := by
    have h := hA.spectral_theorem
    rw [Unitary.conjStarAlgAut_apply, ← hEdef, star_eq_conjTranspose, conjTranspose_eq_transpose_of_trivial] at h
    exact h
  obtain ⟨s, hs⟩ : ∃ s : Equiv.Perm (Fin d), Monotone ((fun i => -hA.eigenvalues i) ∘ s) :=
    ⟨Tuple.sort _, Tuple.monotone_sort _⟩
  obtain ⟨w, hwdef⟩ : ∃ w : Fin d → ℝ, w = fun i => (n : ℝ)⁻¹ * hA.eigenvalues (s i) := ⟨_, rfl⟩
  have hninv : 0 < (n : ℝ)⁻¹ := inv_pos.2 (Nat.cast_pos.2 hn)
  have hw : ∀ i j, i ≤ j → w j ≤ w i := by
    intro i j hij
    have := hs hij
    simp only [Function.comp_apply, neg_le_neg_iff] at this
    rw [hwdef]
    exact mul_le_mul_of_nonneg_left this hninv.le
  have h0 : ∀ i, 0 ≤ w i := by
    intro i; rw [hwdef]; exact mul_nonneg hninv.le (hpsd.eigenvalues_nonneg _)
  obtain ⟨k, hk, hpos⟩ := prefix_count hw
  have hE' : (E.submatrix id s)ᵀ * E.submatrix id s = 1 := by
    have : (E.submatrix id s)ᵀ * E.submatrix id s = (Eᵀ * E).submatrix s s := by
      ext i j; simp [mul_apply]
    rw [this, hE, submatrix_one _ s.injective]
  have hX : Xᵀ * X = (n : ℝ) • (E.submatrix id s * diagonal w * (E.submatrix id s)ᵀ) := by
    rw [hsp]
    ext i j
    simp only [mul_apply, Matrix.smul_apply, transpose_apply, submatrix_apply, id_eq, diagonal_apply, smul_eq_mul]
    simp only [mul_ite, mul_zero, Finset.sum_ite_eq', Finset.mem_univ, if_true]
    rw [Finset.mul_sum, ← Equiv.sum_comp s]
    refine Finset.sum_congr rfl fun x _ => ?_
    rw [hwdef]
    field_simp
  obtain ⟨U, l, h⟩ := pca_of_diagonal hE' hX hw h0 hk hpos
  exact ⟨⟨k, U, l⟩, h⟩

/-- Every matrix without rows has principal components: none. -/
theorem exists_pca_empty {d : Nat} (X : Matrix (Fin 0) (Fin d) ℝ) : ∃ p : PcaResult d, IsPca X p.U p.l := by
  refine ⟨⟨0, 0, fun i => i.elim0⟩, ?_, fun i => i.elim0, ?_, fun i => i.elim0⟩
  · ext i; exact i.elim0
  · ext i j; simp [mul_apply]

/-- The pseudo-inverse from principal components. -/
theorem exists_pinv {n d : Nat} (X : Matrix (Fin n) (Fin d) ℝ) : ∃ P, IsPinv X P := by
  rcases Nat.eq_zero_or_pos n with hn | hn
  · subst hn
    refine ⟨0, ?_, ?_, ?_, ?_⟩
    · ext i; exact i.elim0
    · simp
    · ext i; exact i.elim0
    · simp
  · obtain ⟨⟨k, U, l⟩, h⟩ := exists_pca hn X
    simp only at h
    have hn' : (n : ℝ) ≠ 0 := Nat.cast_ne_zero.2 (by omega)
    obtain ⟨Q, hQ⟩ : ∃ Q : Matrix (Fin d) (Fin d) ℝ, Q = (n : ℝ)⁻¹ • (Uᵀ * (diagonal fun i => (l i)⁻¹) * U) :=
      ⟨_, rfl⟩
    have hQt : Qᵀ = Q := by
      rw [hQ, transpose_smul]
      congr 1
      rw [transpose_mul, transpose_mul, diagonal_transpose, transpose_transpose, Matrix.mul_assoc]
    have hQX : Q * (Xᵀ * X) = Uᵀ * U := by
      rw [h.moments, hQ, Matrix.smul_mul, Matrix.mul_smul, smul_smul, inv_mul_cancel₀ hn', one_smul]
      have : Uᵀ * (diagonal fun i => (l i)⁻¹) * U * (Uᵀ * diagonal l * U) =
          Uᵀ * ((diagonal fun i => (l i)⁻¹) * (U * Uᵀ) * diagonal l) * U := by
        simp only [Matrix.mul_assoc]
      rw [this, h.orthonormal, Matrix.mul_one, diagonal_mul_diagonal]
      have : (diagonal fun i => (l i)⁻¹ * l i) = (1 : Matrix (Fin k) (Fin k) ℝ) := by
        rw [← diagonal_one]; congr 1; funext i; exact inv_mul_cancel₀ (h.positive i).ne'
      rw [this, Matrix.mul_one]
    have hXU := pca_spans h
    have hUX : Uᵀ * U * Xᵀ = Xᵀ := by
      have := congrArg transpose hXU
      rwa [transpose_mul, transpose_mul, transpose_transpose] at this
    refine ⟨Q * Xᵀ, ?_, ?_, ?_, ?_⟩
    · rw [Matrix.mul_assoc, Matrix.mul_assoc, hQX, hXU]
    · have hUQ : Uᵀ * U * Q = Q := by
        rw [hQ, Matrix.mul_smul]
        congr 1
        have : Uᵀ * U * (Uᵀ * (diagonal fun i => (l i)⁻¹) * U) = Uᵀ * (U * Uᵀ) * (diagonal fun i => (l i)⁻¹) * U := by
          simp only [Matrix.mul_assoc]
        rw [this, h.orthonormal, Matrix.mul_one]
      rw [Matrix.mul_assoc Q, hQX, ← Matrix.mul_assoc, hUQ]
    · rw [← Matrix.mul_assoc, transpose_mul, transpose_mul, transpose_transpose, hQt, ← Matrix.mul_assoc]
    · rw [Matrix.mul_assoc, hQX, transpose_mul, transpose_transpose]

/-- There is a `pca` and a `pinv` that are right for every matrix. -/
theorem exists_lawful : ∃ (pca : PcaFn) (pinv : PinvFn),
    (∀ n d (X : Matrix (Fin n) (Fin d) ℝ), IsPca X (pca n d X).U (pca n d X).l) ∧
    ∀ n d (X : Matrix (Fin n) (Fin d) ℝ), IsPinv X (pinv n d X) := by
  classical
  have h : ∀ n d (X : Matrix (Fin n) (Fin d) ℝ), ∃ p : PcaResult d, IsPca X p.U p.l := by
    intro n d X
    rcases Nat.eq_zero_or_pos n with hn | hn
    · subst hn; exact exists_pca_empty X
    · exact exists_pca hn X
  choose f hf using h
  have h2 : ∀ n d (X : Matrix (Fin n) (Fin d) ℝ), ∃ P, IsPinv X P := fun n d X => exists_pinv X
  choose g hg using h2
  exact ⟨f, g, hf, hg⟩

/-- A sorted orthonormal eigenbasis of `Xᵀ X`. -/
theorem exists_eigen {n d : Nat} (X : Matrix (Fin n) (Fin d) ℝ) :
    ∃ (E : Matrix (Fin d) (Fin d) ℝ) (w : Fin d → ℝ), Eᵀ * E = 1 ∧ Xᵀ * X = E * diagonal w * Eᵀ ∧
      (∀ i, 0 ≤ w i) ∧ ∀ i j, i ≤ j → w j ≤ w i := by
  have hpsd : (Xᵀ * X).PosSemidef := by
    have := posSemidef_conjTranspose_mul_self X
    rwa [conjTranspose_eq_transpose_of_trivial] at this
  have hA := hpsd.isHermitian
  obtain ⟨E, hEdef⟩ : ∃ E : Matrix (Fin d) (Fin d) ℝ, E = (hA.eigenvectorUnitary : Matrix (Fin d) (Fin d) ℝ) :=
    ⟨_, rfl⟩
  have hE : Eᵀ * E = 1 := by
    have h := Unitary.coe_star_mul_self hA.eigenvectorUnitary
    rw [← hEdef, star_eq_conjTranspose, conjTranspose_eq_transpose_of_trivial] at h
    exact h
  have hsp : Xᵀ * X = E * diagonal hA.eigenvalues * Eᵀ := by
    have h := hA.spectral_theorem
    rw [Unitary.conjStarAlgAut_apply, ← hEdef, star_eq_conjTranspose, conjTranspose_eq_transpose_of_trivial] at h
    exact h
  obtain ⟨s, hs⟩ : ∃ s : Equiv.Perm (Fin d), Monotone ((fun i => -hA.eigenvalues i) ∘ s) :=
    ⟨Tuple.sort _, Tuple.monotone_sort _⟩
  refine ⟨E.submatrix id s, fun i => hA.eigenvalues (s i), ?_, ?_, fun i => hpsd.eigenvalues_nonneg _, ?_⟩
  · have : (E.submatrix id s)ᵀ * E.submatrix id s = (Eᵀ * E).submatrix s s := by
      ext i j; simp [mul_apply]
    rw [this, hE, submatrix_one _ s.injective]
  · refine hsp.trans ?_
    ext i j
    simp only [mul_apply, transpose_apply, submatrix_apply, id_eq, diagonal_apply]
    simp only [mul_ite, mul_zero, Finset.sum_ite_eq', Finset.mem_univ, if_true]
    rw [← Equiv.sum_comp s]
  · intro i j hij
    have := hs hij
    simpa only [Function.comp_apply, neg_le_neg_iff] using this

/-- Columns that are orthogonal can be written with orthonormal ones. -/
theorem orthonormal_columns {n d : Nat} (hnd : d ≤ n) (B : Matrix (Fin n) (Fin d) ℝ) (s : Fin d → ℝ)
    (hB : Bᵀ * B = diagonal fun i => s i ^ 2) :
    ∃ U : Matrix (Fin n) (Fin d) ℝ, Uᵀ * U = 1 ∧ U * diagonal s = B := by
  classical
  obtain ⟨v, hv⟩ : ∃ v : Fin n → EuclideanSpace ℝ (Fin n), v = fun i =>
    if h : i.val < d then WithLp.toLp 2 (fun a => (s ⟨i.val, h⟩)⁻¹ * B a ⟨i.val, h⟩) else 0 := ⟨_, rfl⟩
  obtain ⟨S, hS⟩ : ∃ S : Set (Fin n), S = {i | ∃ h : i.val < d, s ⟨i.val, h⟩ ≠ 0} := ⟨_, rfl⟩
  have hBe : ∀ i j, ∑ a, B a i * B a j = if i = j then s i ^ 2 else 0 := by
    intro i j
    have := congrFun (congrFun hB i) j
    rw [mul_apply, diagonal_apply] at this
    exact this
  have hon : Orthonormal ℝ (S.domRestrict v) := by
    rw [orthonormal_iff_ite]
    rintro ⟨i, hi⟩ ⟨j, hj⟩
    rw [hS] at hi hj
    obtain ⟨hi, hsi⟩ := hi
    obtain ⟨hj, hsj⟩ := hj
    have e : inner ℝ (v i) (v j) = (s ⟨i, hi⟩)⁻¹ * (s ⟨j, hj⟩)⁻¹ * ∑ a, B a ⟨i, hi⟩ * B a ⟨j, hj⟩ := by
      rw [hv]
      simp only [hi, hj, dif_pos, PiLp.inner_apply, RCLike.inner_apply, conj_trivial]
      rw [Finset.mul_sum]
      refine Finset.sum_congr rfl fun a _ => by ring
    change inner ℝ (v i) (v j) = _
    rw [e, hBe]
    by_cases hij : i = j
    · subst hij
      simp only [if_true]
      field_simp
    · have h1 : (⟨i.val, hi⟩ : Fin d) ≠ ⟨j.val, hj⟩ := by
        intro h; exact hij (Fin.ext (by simpa using h))
      rw [if_neg h1, if_neg (by simpa using hij), mul_zero]
  obtain ⟨b, hb⟩ := hon.exists_orthonormalBasis_extension_of_card_eq (by simp)
  refine ⟨Matrix.of fun a i => b (Fin.castLE hnd i) a, ?_, ?_⟩
  · ext i j
    have := orthonormal_iff_ite.1 b.orthonormal (Fin.castLE hnd i) (Fin.castLE hnd j)
    simp only [PiLp.inner_apply, RCLike.inner_apply, conj_trivial] at this
    rw [mul_apply, one_apply]
    simp only [transpose_apply, Matrix.of_apply]
    simp only [(Fin.castLE_injective hnd).eq_iff] at this
    rw [← this]
    exact Finset.sum_congr rfl fun a _ => mul_comm _ _
  · ext a i
    rw [mul_diagonal, Matrix.of_apply]
    by_cases h0 : s i = 0
    · rw [h0, mul_zero]
      have h1 := hBe i i
      rw [if_pos rfl, h0, zero_pow two_ne_zero] at h1
      have h2 := (Finset.sum_eq_zero_iff_of_nonneg (s := Finset.univ) (f := fun a => B a i * B a i)
        fun _ _ => mul_self_nonneg _).1 h1 a (Finset.mem_univ a)
      exact (mul_self_eq_zero.1 h2).symm
    · have hm : Fin.castLE hnd i ∈ S := by rw [hS]; exact ⟨i.2, h0⟩
      rw [hb _ hm, hv]
      have : (Fin.castLE hnd i).val < d := i.2
      simp only [this, dif_pos]
      have hi : (⟨(Fin.castLE hnd i).val, this⟩ : Fin d) = i := Fin.ext rfl
      rw [hi]
      field_simp

theorem exists_svd_tall {n d : Nat} (hnd : d ≤ n) (X : Matrix (Fin n) (Fin d) ℝ) :
    ∃ (U : Matrix (Fin n) (Fin d) ℝ) (s : Fin d → ℝ) (V : Matrix (Fin d) (Fin d) ℝ), IsSvd X U s V := by
  obtain ⟨E, w, hE, hX, h0, hw⟩ := exists_eigen X
  have hE' : E * Eᵀ = 1 := mul_eq_one_comm.1 hE
  obtain ⟨U, hU, hUB⟩ := orthonormal_columns hnd (X * E) (fun i => Real.sqrt (w i)) (by
    rw [transpose_mul, Matrix.mul_assoc, ← Matrix.mul_assoc Xᵀ, hX, Matrix.mul_assoc, Matrix.mul_assoc, hE,
      ← Matrix.mul_assoc, hE, Matrix.one_mul, Matrix.mul_one]
    congr 1
    funext i
    exact (Real.sq_sqrt (h0 i)).symm)
  refine ⟨U, fun i => Real.sqrt (w i), Eᵀ, ?_, hU, ?_, fun i => Real.sqrt_nonneg _, ?_⟩
  · rw [hUB, Matrix.mul_assoc, hE', Matrix.mul_one]
  · rw [transpose_transpose]; exact hE
  · intro i j hij
    exact Real.sqrt_le_sqrt (hw i j hij)

theorem svd_transpose {n d r : Nat} {X : Matrix (Fin n) (Fin d) ℝ} {U : Matrix (Fin n) (Fin r) ℝ} {s : Fin r → ℝ}
    {V : Matrix (Fin r) (Fin d) ℝ} (h : IsSvd X U s V) : IsSvd Xᵀ Vᵀ s Uᵀ := by
  refine ⟨?_, ?_, ?_, h.nonneg, h.sorted⟩
  · conv_lhs => rw [h.product, transpose_mul, transpose_mul, diagonal_transpose]
    rw [Matrix.mul_assoc]
  · rw [transpose_transpose]; exact h.right
  · rw [transpose_transpose]; exact h.left

/-- Every matrix has a thin singular value decomposition. -/
theorem exists_svd {n d : Nat} (X : Matrix (Fin n) (Fin d) ℝ) :
    ∃ f : Svd n d (min n d), IsSvd X f.U f.s f.V := by
  rcases le_total d n with h | h
  · obtain ⟨U, s, V, hs⟩ := exists_svd_tall h X
    have hm : min n d = d := min_eq_right h
    rw [hm]
    exact ⟨⟨U, s, V⟩, hs⟩
  · obtain ⟨U, s, V, hs⟩ := exists_svd_tall h Xᵀ
    have hm : min n d = n := min_eq_left h
    rw [hm]
    have := svd_transpose hs
    rw [transpose_transpose] at this
    exact ⟨⟨Vᵀ, s, Uᵀ⟩, this⟩

/-- There is an `svd` that is right for every matrix. -/
theorem exists_lawful_svd : ∃ svd : SvdFn,
    ∀ n d (X : Matrix (Fin n) (Fin d) ℝ), IsSvd X (svd n d X).U (svd n d X).s (svd n d X).V := by
  have h : ∀ n d (X : Matrix (Fin n) (Fin d) ℝ), ∃ f : Svd n d (min n d), IsSvd X f.U f.s f.V :=
    fun n d X => exists_svd X
  choose f hf using h
  exact ⟨f, hf⟩

end Menpofit
