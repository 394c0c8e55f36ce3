import Verif.Model.Regression
import Verif.Spec.Regression
import Verif.Lemmas.GaussNewton
/-!
# Helper lemmas for the regressors
-/

set_option linter.unusedSectionVars false

namespace Menpofit
open Matrix GN Reg Spec

section field
variable {K : Type} [Field K] [LinearOrder K] [IsStrictOrderedRing K]

theorem normal_eq {n k : Nat} (alpha : K) (X : Matrix (Fin n) (Fin k) K) :
    normal alpha X = Xᵀ * X + diagonal fun _ => alpha := by
  have h : (2⁻¹ : K) • (Xᵀ * X + (Xᵀ * X)ᵀ) = Xᵀ * X := by
    rw [transpose_mul, transpose_transpose, ← two_smul K, smul_smul]
    norm_num
  unfold normal
  simp only [h]
  split
  · next h0 => rw [h0]; simp
  · rfl

theorem normal_det_ne {n k : Nat} {alpha : K} (ha : 0 < alpha) (X : Matrix (Fin n) (Fin k) K) :
    (normal alpha X).det ≠ 0 := by
  apply det_ne_zero_of_pos
  intro x hx
  rw [normal_eq, add_mulVec, dotProduct_add, ← mulVec_mulVec, dot_transpose]
  have h1 := dot_self_nonneg (X *ᵥ x)
  have h2 := diag_pos (w := fun _ : Fin k => alpha) (fun _ => ha) x hx
  linarith

theorem npSolveMat_ok {n m : Nat} {H : Matrix (Fin n) (Fin n) K} {B D : Matrix (Fin n) (Fin m) K}
    (h : npSolveMat H B = .ok D) : H.det ≠ 0 ∧ H * D = B ∧ D = H⁻¹ * B := by
  unfold npSolveMat at h
  split at h
  · cases h
  · next hd =>
    injection h with h
    refine ⟨hd, ?_, h.symm⟩
    rw [← h, ← Matrix.mul_assoc, mul_nonsing_inv _ (isUnit_iff_ne_zero.mpr hd), Matrix.one_mul]

theorem tdot_same {n k q : Nat} (X : Matrix (Fin n) (Fin k) K) (Y : Matrix (Fin n) (Fin q) K) :
    tdot X Y = .ok (Xᵀ * Y) := by
  unfold tdot
  rw [dif_pos rfl]
  rfl

/-- One column of the ridge problem. -/
theorem ridge_column {n k : Nat} {alpha : K} (ha : 0 ≤ alpha) (Z : Matrix (Fin n) (Fin k) K)
    (y : Fin n → K) (w w' : Fin k → K) (hdet : (Zᵀ * Z + diagonal fun _ => alpha).det ≠ 0)
    (hw : (Zᵀ * Z + diagonal fun _ => alpha) *ᵥ w = Zᵀ *ᵥ y) :
    (∑ i, ((Z *ᵥ w) i - y i) ^ 2) + alpha * ∑ k, w k ^ 2 ≤
      (∑ i, ((Z *ᵥ w') i - y i) ^ 2) + alpha * ∑ k, w' k ^ 2 ∧
    ((∑ i, ((Z *ᵥ w') i - y i) ^ 2) + alpha * ∑ k, w' k ^ 2 =
      (∑ i, ((Z *ᵥ w) i - y i) ^ 2) + alpha * ∑ k, w k ^ 2 → w' = w) := by
  have key : ∀ v : Fin k → K,
      regEnergy (1 : Matrix (Fin n) (Fin n) K) Z (-y) (diagonal fun _ => alpha) 0 v =
      (∑ i, ((Z *ᵥ v) i - y i) ^ 2) + alpha * ∑ k, v k ^ 2 := by
    intro v
    unfold regEnergy
    rw [one_mulVec, zero_add, diag_quad, Finset.mul_sum]
    congr 1
    simp only [dotProduct]
    refine Finset.sum_congr rfl (fun i _ => ?_)
    simp only [Pi.add_apply, Pi.neg_apply]
    ring
  have h := regEnergy_min (W := (1 : Matrix (Fin n) (Fin n) K)) (transpose_one)
    (fun x => by rw [one_mulVec]; exact dot_self_nonneg x) Z (-y)
    (P := diagonal fun _ => alpha) (diagonal_transpose _)
    (fun x => diag_psd (fun _ => ha) x) 0 w (by rwa [Matrix.mul_one])
    (by rw [Matrix.mul_one, hw, one_mulVec, mulVec_neg, mulVec_zero, add_zero, neg_neg]) w'
  rwa [key, key] at h

/-- The ridge problem with a matrix of coefficients. -/
theorem ridge_matrix {n k q : Nat} {alpha : K} (ha : 0 ≤ alpha) (Z : Matrix (Fin n) (Fin k) K)
    (Y : Matrix (Fin n) (Fin q) K) (W W' : Matrix (Fin k) (Fin q) K)
    (hdet : (Zᵀ * Z + diagonal fun _ => alpha).det ≠ 0)
    (hW : (Zᵀ * Z + diagonal fun _ => alpha) * W = Zᵀ * Y) :
    (∑ i, ∑ j, ((Z * W) i j - Y i j) ^ 2) + alpha * ∑ k, ∑ j, W k j ^ 2 ≤
      (∑ i, ∑ j, ((Z * W') i j - Y i j) ^ 2) + alpha * ∑ k, ∑ j, W' k j ^ 2 ∧
    ((∑ i, ∑ j, ((Z * W') i j - Y i j) ^ 2) + alpha * ∑ k, ∑ j, W' k j ^ 2 =
      (∑ i, ∑ j, ((Z * W) i j - Y i j) ^ 2) + alpha * ∑ k, ∑ j, W k j ^ 2 → W' = W) := by
  have split : ∀ V : Matrix (Fin k) (Fin q) K,
      (∑ i, ∑ j, ((Z * V) i j - Y i j) ^ 2) + alpha * ∑ k, ∑ j, V k j ^ 2 =
      ∑ j, ((∑ i, ((Z *ᵥ fun k => V k j) i - Y i j) ^ 2) + alpha * ∑ k, V k j ^ 2) := by
    intro V
    rw [Finset.sum_add_distrib, ← Finset.mul_sum, Finset.sum_comm (s := Finset.univ (α := Fin n)),
      Finset.sum_comm (s := Finset.univ (α := Fin k))]
    rfl
  have col : ∀ j, _ := fun j => ridge_column ha Z (fun i => Y i j) (fun k => W k j)
    (fun k => W' k j) hdet (by
      funext i
      have := congrFun (congrFun hW i) j
      simpa [Matrix.mul_apply, mulVec, dotProduct] using this)
  rw [split, split]
  refine ⟨Finset.sum_le_sum (fun j _ => (col j).1), fun h => ?_⟩
  have h2 := (Finset.sum_eq_sum_iff_of_le (fun j _ => (col j).1)).mp h.symm
  funext i j
  exact congrFun ((col j).2 (h2 j (Finset.mem_univ _)).symm) i

/-- Coefficients of an affine map as one matrix. -/
def joinAB (bias : Bool) {d q : Nat} (A : Matrix (Fin d) (Fin q) K) (b : Fin q → K) :
    Matrix (Fin (width bias d)) (Fin q) K :=
  match bias with
  | true => Matrix.of (Fin.snoc (α := fun _ : Fin (d + 1) => Fin q → K) A b)
  | false => A

def partA (bias : Bool) {d q : Nat} (W : Matrix (Fin (width bias d)) (Fin q) K) :
    Matrix (Fin d) (Fin q) K :=
  match bias, W with
  | true, W => Matrix.of fun k => W (Fin.castSucc k)
  | false, W => W

def partB (bias : Bool) {d q : Nat} (W : Matrix (Fin (width bias d)) (Fin q) K) : Fin q → K :=
  match bias, W with
  | true, W => W (Fin.last d)
  | false, _ => 0

theorem partB_false {d q : Nat} (bias : Bool) (W : Matrix (Fin (width bias d)) (Fin q) K)
    (h : bias = false) : partB bias W = 0 := by subst h; rfl

theorem join_parts (bias : Bool) {d q : Nat} (W : Matrix (Fin (width bias d)) (Fin q) K) :
    joinAB bias (partA bias W) (partB bias W) = W := by
  cases bias with
  | false => rfl
  | true =>
    funext i
    refine Fin.lastCases ?_ (fun i => ?_) i
    · exact Fin.snoc_last (α := fun _ : Fin (d + 1) => Fin q → K) _ _
    · exact Fin.snoc_castSucc (α := fun _ : Fin (d + 1) => Fin q → K) _ _ i

theorem partA_join (bias : Bool) {d q : Nat} (A : Matrix (Fin d) (Fin q) K) (b : Fin q → K) :
    partA bias (joinAB bias A b) = A := by
  cases bias with
  | false => rfl
  | true =>
    funext i
    exact Fin.snoc_castSucc (α := fun _ : Fin (d + 1) => Fin q → K) _ _ i

theorem partB_join (bias : Bool) {d q : Nat} (A : Matrix (Fin d) (Fin q) K) (b : Fin q → K)
    (hb : bias = false → b = 0) : partB bias (joinAB bias A b) = b := by
  cases bias with
  | false => exact (hb rfl).symm
  | true => exact Fin.snoc_last (α := fun _ : Fin (d + 1) => Fin q → K) _ _

theorem addBias1_vecMul (bias : Bool) {d q : Nat} (x : Fin d → K)
    (W : Matrix (Fin (width bias d)) (Fin q) K) :
    addBias1 bias x ᵥ* W = x ᵥ* partA bias W + partB bias W := by
  cases bias with
  | false => simp [addBias1, partA, partB]
  | true =>
    funext j
    simp only [Matrix.vecMul, dotProduct, Pi.add_apply]
    refine (Fin.sum_univ_castSucc _).trans ?_
    simp [addBias1, partA, partB]

theorem addBias_row (bias : Bool) {n d : Nat} (X : Matrix (Fin n) (Fin d) K) (i : Fin n) :
    addBias bias X i = addBias1 bias (X i) := by
  cases bias <;> rfl

theorem addBias_mul (bias : Bool) {n d q : Nat} (X : Matrix (Fin n) (Fin d) K)
    (W : Matrix (Fin (width bias d)) (Fin q) K) (i : Fin n) (j : Fin q) :
    (addBias bias X * W) i j = (∑ k, X i k * partA bias W k j) + partB bias W j := by
  have := congrFun (addBias1_vecMul bias (X i) W) j
  rw [← addBias_row] at this
  exact this

theorem sq_parts (bias : Bool) {d q : Nat} (W : Matrix (Fin (width bias d)) (Fin q) K) :
    ∑ k, ∑ j, W k j ^ 2 = (∑ k, ∑ j, partA bias W k j ^ 2) + ∑ j, partB bias W j ^ 2 := by
  cases bias with
  | false => simp [partA, partB]
  | true =>
    refine (Fin.sum_univ_castSucc _).trans ?_
    simp [partA, partB]

theorem ridgeCost_parts (bias : Bool) {n d q : Nat} (alpha : K) (X : Matrix (Fin n) (Fin d) K)
    (Y : Matrix (Fin n) (Fin q) K) (W : Matrix (Fin (width bias d)) (Fin q) K) :
    (∑ i, ∑ j, ((addBias bias X * W) i j - Y i j) ^ 2) + alpha * ∑ k, ∑ j, W k j ^ 2 =
      ridgeCost alpha X Y (partA bias W) (partB bias W) := by
  unfold ridgeCost
  rw [sq_parts]
  simp only [addBias_mul]

/-- What a successful training leaves behind. -/
theorem trainCore_ok {n k q : Nat} {st st' : Irl K k q} {X : Matrix (Fin n) (Fin k) K}
    {Y : Matrix (Fin n) (Fin q) K} (h : trainCore st X Y = (st', .ok ())) :
    (normal st.alpha X).det ≠ 0 ∧
    st' = { st with
      V := if st.incrementable then some (normal st.alpha X)⁻¹ else st.V
      W := some ((normal st.alpha X)⁻¹ * (Xᵀ * Y)) } := by
  unfold trainCore at h
  rw [tdot_same] at h
  simp only [npInv, npSolveMat, bind, Except.bind] at h
  by_cases hd : (normal st.alpha X).det = 0
  · simp only [hd, if_true] at h
    split at h <;> cases h
  · simp only [hd, if_false] at h
    refine ⟨hd, ?_⟩
    split at h <;> (next hi => simp only [Prod.mk.injEq] at h; rw [← h.1]; simp [hi])

theorem trainCore_of_det {n k q : Nat} {st : Irl K k q} {X : Matrix (Fin n) (Fin k) K}
    {Y : Matrix (Fin n) (Fin q) K} (hd : (normal st.alpha X).det ≠ 0) :
    trainCore st X Y = ({ st with
      V := if st.incrementable then some (normal st.alpha X)⁻¹ else st.V
      W := some ((normal st.alpha X)⁻¹ * (Xᵀ * Y)) }, .ok ()) := by
  unfold trainCore
  rw [tdot_same]
  simp only [npInv, npSolveMat, bind, Except.bind, hd, if_false]
  split <;> (next hi => simp [hi])

/-! ### Sums over the samples -/

theorem sum_fin_list {A M : Type} [AddCommMonoid M] (l : List A) (f : A → M) :
    ∑ i : Fin l.length, f l[i] = (l.map f).sum := by
  rw [← List.sum_ofFn]
  congr 1
  apply List.ext_getElem
  · simp
  · intro i h1 h2
    simp

/-- `XᵀX` of the samples. -/
def gram (bias : Bool) {d q : Nat} (l : Samples K d q) :
    Matrix (Fin (width bias d)) (Fin (width bias d)) K :=
  (addBias bias (inputs l))ᵀ * addBias bias (inputs l)

/-- `XᵀY` of the samples. -/
def cross (bias : Bool) {d q : Nat} (l : Samples K d q) :
    Matrix (Fin (width bias d)) (Fin q) K :=
  (addBias bias (inputs l))ᵀ * outputs l

theorem gram_apply (bias : Bool) {d q : Nat} (l : Samples K d q) (a b) :
    gram bias l a b = (l.map fun s => addBias1 bias s.1 a * addBias1 bias s.1 b).sum := by
  rw [← sum_fin_list]
  simp only [gram, Matrix.mul_apply, transpose_apply, addBias_row]
  rfl

theorem cross_apply (bias : Bool) {d q : Nat} (l : Samples K d q) (a) (b) :
    cross bias l a b = (l.map fun s => addBias1 bias s.1 a * s.2 b).sum := by
  rw [← sum_fin_list]
  simp only [cross, Matrix.mul_apply, transpose_apply, addBias_row]
  rfl

theorem gram_append (bias : Bool) {d q : Nat} (l m : Samples K d q) :
    gram bias (l ++ m) = gram bias l + gram bias m := by
  funext a b
  simp [gram_apply, Matrix.add_apply]

theorem cross_append (bias : Bool) {d q : Nat} (l m : Samples K d q) :
    cross bias (l ++ m) = cross bias l + cross bias m := by
  funext a b
  simp [cross_apply, Matrix.add_apply]

/-- Regularised normal matrix of the samples. -/
abbrev nrm (bias : Bool) {d q : Nat} (l : Samples K d q) :
    Matrix (Fin (width bias d)) (Fin (width bias d)) K := gram bias l + 1

theorem normal_one (bias : Bool) {d q : Nat} (l : Samples K d q) :
    normal 1 (addBias bias (inputs l)) = nrm bias l := by
  rw [normal_eq]
  simp [nrm, gram, diagonal_one]

theorem nrm_det (bias : Bool) {d q : Nat} (l : Samples K d q) : (nrm bias l).det ≠ 0 := by
  rw [← normal_one]
  exact normal_det_ne one_pos _

theorem nrm_symm (bias : Bool) {d q : Nat} (l : Samples K d q) : (nrm bias l)ᵀ = nrm bias l := by
  simp [nrm, gram, transpose_mul]

theorem gram_quad (bias : Bool) {d q : Nat} (l : Samples K d q) (x) :
    0 ≤ x ⬝ᵥ (gram bias l *ᵥ x) := by
  rw [gram, ← mulVec_mulVec, dot_transpose]
  exact dot_self_nonneg _

/-- `1 + X V Xᵀ` is invertible when `V` is the inverse of the normal matrix. -/
theorem update_det (bias : Bool) {d q n : Nat} (l : Samples K d q)
    (X : Matrix (Fin n) (Fin (width bias d)) K) :
    (X * (nrm bias l)⁻¹ * Xᵀ + 1).det ≠ 0 := by
  apply det_ne_zero_of_pos
  intro x hx
  rw [add_mulVec, dotProduct_add, one_mulVec, ← mulVec_mulVec, ← mulVec_mulVec]
  have h1 : x ⬝ᵥ (X *ᵥ ((nrm bias l)⁻¹ *ᵥ (Xᵀ *ᵥ x))) =
      (Xᵀ *ᵥ x) ⬝ᵥ ((nrm bias l)⁻¹ *ᵥ (Xᵀ *ᵥ x)) := by
    have := dot_transpose Xᵀ ((nrm bias l)⁻¹ *ᵥ (Xᵀ *ᵥ x)) x
    rwa [transpose_transpose] at this
  rw [h1]
  have h2 : 0 < x ⬝ᵥ x := by
    have := diag_pos (w := fun _ : Fin n => (1 : K)) (fun _ => one_pos) x hx
    simpa using this
  have h3 : ∀ y, 0 ≤ y ⬝ᵥ ((nrm bias l)⁻¹ *ᵥ y) := by
    intro y
    have hy : nrm bias l *ᵥ ((nrm bias l)⁻¹ *ᵥ y) = y := by
      rw [mulVec_mulVec, mul_nonsing_inv _ (isUnit_iff_ne_zero.mpr (nrm_det bias l)), one_mulVec]
    set z := (nrm bias l)⁻¹ *ᵥ y
    rw [← hy, dotProduct_comm, nrm, add_mulVec, dotProduct_add, one_mulVec]
    have := gram_quad bias l z
    have := dot_self_nonneg z
    linarith
  have := h3 (Xᵀ *ᵥ x)
  linarith

/-- The state left by batch training with `alpha = 1`. -/
noncomputable def batchState (bias : Bool) {d q : Nat} (l : Samples K d q) : Irl K (width bias d) q :=
  ⟨1, true, some (nrm bias l)⁻¹, some ((nrm bias l)⁻¹ * cross bias l)⟩

theorem train_batch (bias : Bool) {d q : Nat} (st : Irl K (width bias d) q) (ha : st.alpha = 1)
    (hi : st.incrementable = true) (l : Samples K d q) :
    train bias st (inputs l) (outputs l) = (batchState bias l, .ok ()) := by
  unfold train
  rw [trainCore_of_det (by rw [ha, normal_one]; exact nrm_det bias l)]
  simp only [ha, hi, normal_one, if_true, batchState, cross]

theorem increment_batch (bias : Bool) {d q : Nat} (l m : Samples K d q) :
    increment bias (batchState bias l) (inputs m) (outputs m) =
      (batchState bias (l ++ m), .ok ()) := by
  have hd := nrm_det bias l
  have hu : IsUnit (nrm bias l).det := isUnit_iff_ne_zero.mpr hd
  set X := addBias bias (inputs m) with hX
  have hU := update_det bias l X
  have e1 : nrm bias (l ++ m) = nrm bias l + Xᵀ * (1 : Matrix (Fin m.length) (Fin m.length) K) * X := by
    rw [nrm, gram_append, nrm, Matrix.mul_one]
    simp only [gram, hX]
    abel
  have hinv : (nrm bias (l ++ m))⁻¹ =
      (nrm bias l)⁻¹ - (nrm bias l)⁻¹ * Xᵀ * (X * (nrm bias l)⁻¹ * Xᵀ + 1)⁻¹ * X *
        (nrm bias l)⁻¹ := by
    rw [e1, Matrix.add_mul_mul_inv_eq_sub _ _ _ _ ((Matrix.isUnit_iff_isUnit_det _).mpr hu)
      isUnit_one]
    · rw [inv_one, add_comm (1 : Matrix (Fin m.length) (Fin m.length) K)]
    · rw [inv_one, add_comm, Matrix.isUnit_iff_isUnit_det]
      exact isUnit_iff_ne_zero.mpr hU
  have hdiag : (diagonal fun _ => (1 : K)) = (1 : Matrix (Fin m.length) (Fin m.length) K) :=
    diagonal_one
  unfold increment incrementCore
  simp only [batchState, if_true, one_ne_zero, if_false, npInv, ← hX, tdot_same]
  rw [hdiag]
  simp only [hU, if_false]
  have hc : Xᵀ * outputs m = cross bias m := rfl
  rw [hc, cross_append, hinv]
  congr 3
  simp only [Matrix.mul_add, Matrix.sub_mul, Matrix.mul_assoc]

/-! ### A regressor with one feature and one output -/

theorem det1 (M : Matrix (Fin 1) (Fin 1) K) : M.det = M 0 0 := Matrix.det_fin_one M

theorem inv1 (M : Matrix (Fin 1) (Fin 1) K) (h : M 0 0 ≠ 0) : M⁻¹ = !![(M 0 0)⁻¹] := by
  apply Matrix.inv_eq_left_inv
  ext i j
  fin_cases i; fin_cases j
  simp [Matrix.mul_apply, h]

theorem mul1 (a b : K) : (!![a] * !![b] : Matrix (Fin 1) (Fin 1) K) = !![a * b] := by
  ext i j
  fin_cases i; fin_cases j
  simp [Matrix.mul_apply]

theorem tr1 (a : K) : (!![a] : Matrix (Fin 1) (Fin 1) K)ᵀ = !![a] := by
  ext i j
  fin_cases i; fin_cases j
  rfl

theorem add1 (a b : K) : (!![a] + !![b] : Matrix (Fin 1) (Fin 1) K) = !![a + b] := by
  ext i j
  fin_cases i; fin_cases j
  rfl

theorem sub1 (a b : K) : (!![a] - !![b] : Matrix (Fin 1) (Fin 1) K) = !![a - b] := by
  ext i j
  fin_cases i; fin_cases j
  rfl

theorem diag1 (a : K) : (diagonal fun _ => a : Matrix (Fin 1) (Fin 1) K) = !![a] := by
  ext i j
  fin_cases i; fin_cases j
  simp

theorem trainOne {alpha : K} (ha : 0 ≤ alpha) (y : K) :
    trainCore (newIrl alpha true 1 1) (!![1] : Matrix (Fin 1) (Fin 1) K) !![y] =
      (⟨alpha, true, some !![(1 + alpha)⁻¹], some !![(1 + alpha)⁻¹ * y]⟩, .ok ()) := by
  have hn : normal alpha (!![1] : Matrix (Fin 1) (Fin 1) K) = !![1 + alpha] := by
    rw [normal_eq, tr1, mul1, diag1, add1, mul_one]
  have hp : (1 + alpha : K) ≠ 0 := by positivity
  rw [trainCore_of_det (by rw [det1]; simp only [newIrl, hn]; simpa using hp)]
  simp only [newIrl, hn, if_true]
  rw [inv1 _ (by simpa using hp)]
  have : (!![(1 : K)] : Matrix (Fin 1) (Fin 1) K)ᵀ * !![y] = !![y] := by
    rw [tr1, mul1, one_mul]
  rw [this, mul1]
  simp

theorem trainTwo {alpha : K} (ha : 0 ≤ alpha) :
    trainCore (newIrl alpha true 1 1) (!![1; 1] : Matrix (Fin 2) (Fin 1) K) !![0; 1] =
      (⟨alpha, true, some !![(2 + alpha)⁻¹], some !![(2 + alpha)⁻¹]⟩, .ok ()) := by
  have hn : normal alpha (!![1; 1] : Matrix (Fin 2) (Fin 1) K) = !![2 + alpha] := by
    rw [normal_eq]
    ext i j
    fin_cases i; fin_cases j
    simp [Matrix.mul_apply]
    norm_num
  have hp : (2 + alpha : K) ≠ 0 := by positivity
  rw [trainCore_of_det (by rw [det1]; simp only [newIrl, hn]; simpa using hp)]
  simp only [newIrl, hn, if_true]
  rw [inv1 _ (by simpa using hp)]
  have : (!![(1 : K); 1] : Matrix (Fin 2) (Fin 1) K)ᵀ * (!![0; 1] : Matrix (Fin 2) (Fin 1) K) = !![1] := by
    ext i j
    fin_cases i; fin_cases j
    simp [Matrix.mul_apply]
  rw [this, mul1]
  simp

theorem updateOne {alpha : K} (ha : 0 ≤ alpha) {V : K} (hV : 0 < V) :
    npInv (if alpha = 0 then (!![1] * !![V] * (!![1])ᵀ : Matrix (Fin 1) (Fin 1) K) else
      !![1] * !![V] * (!![1])ᵀ + diagonal fun _ => alpha) = .ok !![(V + alpha)⁻¹] := by
  have : (if alpha = 0 then (!![1] * !![V] * (!![1])ᵀ : Matrix (Fin 1) (Fin 1) K) else
      !![1] * !![V] * (!![1])ᵀ + diagonal fun _ => alpha) = !![V + alpha] := by
    rw [tr1, mul1, mul1, diag1, add1, one_mul, mul_one]
    split
    · next h0 => rw [h0, add_zero]
    · rfl
  have hp : V + alpha ≠ 0 := by positivity
  rw [this]
  unfold npInv
  rw [det1, if_neg (by simpa using hp), inv1 _ (by simpa using hp)]
  simp

theorem incrementOne {alpha : K} (ha : 0 ≤ alpha) (y : K) :
    incrementCore ⟨alpha, true, some !![(1 + alpha)⁻¹], some !![(1 + alpha)⁻¹ * 0]⟩
      (!![1] : Matrix (Fin 1) (Fin 1) K) !![y] =
    (⟨alpha, true, some !![(1 + alpha)⁻¹ - (1 + alpha)⁻¹ * ((1 + alpha)⁻¹ + alpha)⁻¹ *
        (1 + alpha)⁻¹],
      some !![((1 + alpha)⁻¹ - (1 + alpha)⁻¹ * ((1 + alpha)⁻¹ + alpha)⁻¹ * (1 + alpha)⁻¹) * y]⟩,
      .ok ()) := by
  have hp : (0 : K) < (1 + alpha)⁻¹ := by positivity
  unfold incrementCore
  simp only [if_true]
  rw [updateOne ha hp]
  simp only [tdot_same]
  simp only [tr1, mul1, add1, sub1, one_mul, mul_one, mul_zero, sub_zero, zero_add]

end field
end Menpofit
