import Verif.Lemmas.Regression
import Mathlib.LinearAlgebra.Matrix.Determinant.Basic
/-!
# C35–C37, C72: the regressors
-/

namespace Menpofit
open Matrix GN Reg Spec

variable {K : Type} [Field K] [LinearOrder K] [IsStrictOrderedRing K]

/-! ## C35 -/

/-- Whatever the regressor contained before, after a successful `train(X, Y)` it predicts with an
affine map (linear when created without bias) that is the unique minimiser of the ridge cost. -/
theorem C35_train_minimises (bias : Bool) {n d q : Nat} (st st' : Irl K (width bias d) q)
    (ha : 0 ≤ st.alpha) (X : Matrix (Fin n) (Fin d) K) (Y : Matrix (Fin n) (Fin q) K)
    (h : train bias st X Y = (st', .ok ())) :
    ∃ (A : Matrix (Fin d) (Fin q) K) (b : Fin q → K), (bias = false → b = 0) ∧
      (∀ x, predict bias st' x = .ok (x ᵥ* A + b)) ∧
      ∀ A' b', (bias = false → b' = 0) →
        ridgeCost st.alpha X Y A b ≤ ridgeCost st.alpha X Y A' b' ∧
        (ridgeCost st.alpha X Y A' b' = ridgeCost st.alpha X Y A b → A' = A ∧ b' = b) := by
  obtain ⟨hd, hst⟩ := trainCore_ok h
  set Z := addBias bias X with hZ
  set W := (normal st.alpha Z)⁻¹ * (Zᵀ * Y) with hW
  refine ⟨partA bias W, partB bias W, partB_false bias W, ?_, ?_⟩
  · intro x
    rw [hst]
    simp only [predict]
    rw [addBias1_vecMul]
  · intro A' b' hb'
    have hn : normal st.alpha Z * W = Zᵀ * Y := by
      rw [hW, ← Matrix.mul_assoc, mul_nonsing_inv _ (isUnit_iff_ne_zero.mpr hd), Matrix.one_mul]
    rw [normal_eq] at hd hn
    have := ridge_matrix ha Z Y W (joinAB bias A' b') hd hn
    rw [hZ, ridgeCost_parts, ridgeCost_parts, partA_join, partB_join _ _ _ hb'] at this
    refine ⟨this.1, fun he => ?_⟩
    have h2 := this.2 he
    rw [← h2, partA_join, partB_join _ _ _ hb']
    exact ⟨rfl, rfl⟩

/-- With a positive regulariser training always succeeds on data with matching rows. -/
theorem C35_train_succeeds (bias : Bool) {n d q : Nat} (st : Irl K (width bias d) q)
    (ha : 0 < st.alpha) (X : Matrix (Fin n) (Fin d) K) (Y : Matrix (Fin n) (Fin q) K) :
    ∃ st', train bias st X Y = (st', .ok ()) :=
  ⟨_, trainCore_of_det (normal_det_ne ha _)⟩

/-- Without a regulariser training succeeds exactly when the normal matrix is invertible; otherwise
it raises `LinAlgError` and leaves the regressor unchanged. -/
theorem C35_train_singular (bias : Bool) {n d q : Nat} (st : Irl K (width bias d) q)
    (X : Matrix (Fin n) (Fin d) K) (Y : Matrix (Fin n) (Fin q) K)
    (hd : ((addBias bias X)ᵀ * addBias bias X + diagonal fun _ => st.alpha).det = 0) :
    train bias st X Y = (st, .error .linAlgError) := by
  rw [← normal_eq] at hd
  unfold train trainCore
  rw [tdot_same]
  simp only [npInv, npSolveMat, bind, Except.bind, hd, if_true]
  split <;> rfl

/-- Predicting a stack of rows predicts each row. -/
theorem C35_predict_rows (bias : Bool) {n d q : Nat} (st : Irl K (width bias d) q)
    (X : Matrix (Fin n) (Fin d) K) (hn : st.W ≠ none) :
    ∃ P, predictRows bias st X = .ok P ∧ ∀ i, predict bias st (X i) = .ok (P i) := by
  unfold predictRows predict
  cases hW : st.W with
  | none => exact absurd hW hn
  | some W =>
    refine ⟨_, rfl, fun i => ?_⟩
    rw [← addBias_row]
    rfl

/-- Non-vacuity: an untrained regressor with regulariser 1/2. -/
example : ∃ st', train true (newIrl (1/2 : ℚ) false _ 1)
    (!![1; 2] : Matrix (Fin 2) (Fin 1) ℚ) !![1; 3] = (st', .ok ()) :=
  C35_train_succeeds _ _ (by norm_num [newIrl]) _ _

/-! ## C36 -/

/-- Regulariser 1: training on a first data set and incrementing with any sequence of further data
sets succeeds and leaves the regressor exactly as training once on all the data. -/
theorem C36_increment_eq_batch_partial (bias : Bool) {d q : Nat} (st : Irl K (width bias d) q)
    (ha : st.alpha = 1) (hi : st.incrementable = true) (first : Samples K d q)
    (rest : List (Samples K d q)) :
    ∃ st₁, train bias st (inputs first) (outputs first) = (st₁, .ok ()) ∧
      callEach (fun s m => increment bias s (inputs m) (outputs m)) st₁ rest =
        train bias st (inputs (first ++ rest.flatten)) (outputs (first ++ rest.flatten)) := by
  refine ⟨_, train_batch bias st ha hi first, ?_⟩
  rw [train_batch bias st ha hi]
  induction rest generalizing first with
  | nil => simp [callEach]
  | cons m rest ih =>
    simp only [callEach, increment_batch]
    rw [ih, List.flatten_cons, List.append_assoc]

/-- Non-vacuity. -/
example : (newIrl (1 : ℚ) true (width true 2) 1).alpha = 1 ∧
    (newIrl (1 : ℚ) true (width true 2) 1).incrementable = true := ⟨rfl, rfl⟩

/-- For every other regulariser (including none at all) there are two samples for which
train-then-increment and train-on-both disagree on the prediction: inputs 1 and 1, outputs 0 and 1. -/
theorem C36_increment_eq_batch_violated (alpha : K) (ha : 0 ≤ alpha) (h1 : alpha ≠ 1) :
    ∃ (st₁ st₂ st : Irl K 1 1) (x y₁ y₂ : Fin 1 → K),
      train false (d := 1) (newIrl alpha true 1 1) !![1] !![0] = (st₁, .ok ()) ∧
      increment false (d := 1) st₁ !![1] !![1] = (st₂, .ok ()) ∧
      train false (d := 1) (newIrl alpha true 1 1) !![1; 1] !![0; 1] = (st, .ok ()) ∧
      predict false (d := 1) st₂ x = .ok y₁ ∧ predict false (d := 1) st x = .ok y₂ ∧
      y₁ ≠ y₂ := by
  have t1 := trainOne (alpha := alpha) ha 0
  have t2 := trainTwo (alpha := alpha) ha
  have t3 := incrementOne (alpha := alpha) ha 1
  refine ⟨_, _, _, fun _ => 1, _, _, t1, t3, t2, rfl, rfl, ?_⟩
  intro h
  have := congrFun h 0
  simp [addBias1, Matrix.vecMul, dotProduct] at this
  have hp : (0 : K) < 1 + alpha := by linarith
  have hp2 : (0 : K) < 2 + alpha := by linarith
  have hp3 : (0 : K) < 1 + alpha * (1 + alpha) := by positivity
  field_simp at this
  apply h1
  nlinarith [this]

/-- A regressor not created as incrementable refuses increments and is left unchanged. -/
theorem C36_not_incrementable (bias : Bool) {n n' d q : Nat} (st : Irl K (width bias d) q)
    (hi : st.incrementable = false) (X : Matrix (Fin n) (Fin d) K)
    (Y : Matrix (Fin n') (Fin q) K) :
    increment bias st X Y = (st, .error .valueError) := by
  unfold increment incrementCore
  simp [hi]

/-! ## C37 -/

/-- `increment` of an inverse regressor and of the regressors based on principal components,
optimal linear maps or Procrustes always raises and changes nothing. -/
theorem C37_other_classes_refuse {n n' d q : Nat} (st : Iirl K d q) (X : Matrix (Fin n) (Fin d) K)
    (Y : Matrix (Fin n') (Fin q) K) {St A : Type} (s : St) (data : A) :
    incrementIirl st X Y = (st, .error .valueError) ∧
    incrementOther s data = (s, .error .notImplementedError) := ⟨rfl, rfl⟩

/-- A trained regressor given data with as many input rows as output rows: when `increment` raises,
nothing has changed.  (Missing: data whose numbers of rows differ, see
`C37_half_update_violated`, and regularisers other than 1, see
`C36_increment_eq_batch_violated`.) -/
theorem C37_failed_increment_unchanged_partial (bias : Bool) {n d q : Nat}
    (st st' : Irl K (width bias d) q) (hW : st.W ≠ none) (X : Matrix (Fin n) (Fin d) K)
    (Y : Matrix (Fin n) (Fin q) K) (e : PyErr)
    (h : increment bias st X Y = (st', .error e)) : st' = st := by
  unfold increment incrementCore at h
  rw [tdot_same] at h
  cases hi : st.incrementable with
  | false => rw [hi] at h; simp at h; exact h.1.symm
  | true =>
    simp only [hi, if_true] at h
    cases hV : st.V with
    | none => simp [hV] at h; exact h.1.symm
    | some V =>
      simp only [hV] at h
      split at h
      · simp at h; exact h.1.symm
      · cases hW' : st.W with
        | none => exact absurd hW' hW
        | some W => simp [hW'] at h

/-- Non-vacuity: a trained regressor whose increment raises (it is not incrementable). -/
example : ∃ st st' : Irl ℚ (width false 1) 1, st.W ≠ none ∧
    increment false (d := 1) (n := 1) (n' := 1) st !![1] !![1] = (st', .error .valueError) :=
  ⟨⟨1, false, none, some !![1]⟩, _, by simp, C36_not_incrementable _ _ rfl _ _⟩

/-- Regulariser 1: incrementing a trained regressor gives the batch-trained one. -/
theorem C37_increment_updates_partial (bias : Bool) {d q : Nat} (st : Irl K (width bias d) q)
    (ha : st.alpha = 1) (hi : st.incrementable = true) (old new : Samples K d q) :
    increment bias (train bias st (inputs old) (outputs old)).1 (inputs new) (outputs new) =
      train bias st (inputs (old ++ new)) (outputs (old ++ new)) := by
  rw [train_batch bias st ha hi, train_batch bias st ha hi]
  exact increment_batch bias old new

/-- When the new inputs and outputs have different numbers of rows, `increment` raises after it has
replaced one half of the state: the attribute `V` has changed and the weights have not. -/
theorem C37_half_update_violated :
    ∃ st₁ st₂ : Irl ℚ 1 1,
      train false (d := 1) (newIrl 1 true 1 1) !![1] !![0] = (st₁, .ok ()) ∧
      increment false (d := 1) (n := 1) (n' := 2) st₁ !![1] !![1; 1] = (st₂, .error .valueError) ∧
      st₂.W = st₁.W ∧ st₂.V ≠ st₁.V := by
  have t1 := trainOne (alpha := (1 : ℚ)) (by norm_num) 0
  have hi : incrementCore (n' := 2) ⟨1, true, some !![((1 : ℚ) + 1)⁻¹], some !![((1 : ℚ) + 1)⁻¹ * 0]⟩
      (!![1] : Matrix (Fin 1) (Fin 1) ℚ) !![1; 1] =
      (⟨1, true, some !![((1 : ℚ) + 1)⁻¹ - (1 + 1)⁻¹ * ((1 + 1)⁻¹ + 1)⁻¹ * (1 + 1)⁻¹],
        some !![((1 : ℚ) + 1)⁻¹ * 0]⟩, .error .valueError) := by
    unfold incrementCore
    simp only [if_true]
    rw [updateOne (by norm_num) (by norm_num)]
    have ht : tdot (!![1] : Matrix (Fin 1) (Fin 1) ℚ) (!![1; 1] : Matrix (Fin 2) (Fin 1) ℚ) =
        .error .valueError := by
      unfold tdot
      rw [dif_neg (by decide)]
    simp only [ht, tr1, mul1, sub1, one_mul, mul_one]
  refine ⟨_, _, t1, hi, rfl, ?_⟩
  intro h
  have h2 := congrFun (congrFun (Option.some.inj h) 0) 0
  norm_num at h2

/-! ## C72 -/

/-- Inverse regression: after a successful `train(X, Y)` there is a matrix `J`, the ridge-optimal
linear map from outputs back to inputs, such that the prediction for any `x` is the unique
output that explains `x` best through `J` under the second regulariser. -/
theorem C72_inverse_regression {n d q : Nat} (st st' : Iirl K d q) (ha : 0 ≤ st.alpha)
    (ha2 : 0 ≤ st.alpha2) (X : Matrix (Fin n) (Fin d) K) (Y : Matrix (Fin n) (Fin q) K)
    (h : trainIirl st X Y = (st', .ok ())) :
    ∃ J : Matrix (Fin q) (Fin d) K,
      (∀ J', ridgeCost st.alpha Y X J 0 ≤ ridgeCost st.alpha Y X J' 0 ∧
        (ridgeCost st.alpha Y X J' 0 = ridgeCost st.alpha Y X J 0 → J' = J)) ∧
      ∀ x, ∃ y, predictIirl st' x = .ok y ∧ ∀ y',
        explainCost st.alpha2 J x y ≤ explainCost st.alpha2 J x y' ∧
        (explainCost st.alpha2 J x y' = explainCost st.alpha2 J x y → y' = y) := by
  unfold trainIirl at h
  split at h
  · cases h
  · next base hb =>
    have hA := C35_train_minimises false (d := q) (newIrl st.alpha st.incrementable q d) base ha Y X hb
    obtain ⟨hd, hst⟩ := trainCore_ok hb
    split at h
    · cases h
    · next J hJ =>
      split at h
      · cases h
      · next W hW =>
        simp only [Prod.mk.injEq, and_true] at h
        refine ⟨J, ?_, ?_⟩
        · obtain ⟨A, b, hb0, hp, hmin⟩ := hA
          have hAJ : A = J := by
            have hb1 := hb0 rfl
            subst hb1
            ext i j
            have := hp (Pi.single i 1)
            simp only [predict, hJ, addBias1] at this
            have := congrFun (Except.ok.inj this) j
            simpa using this.symm
          have hb1 := hb0 rfl
          subst hAJ hb1
          intro J'
          have := hmin J' 0 (fun _ => rfl)
          exact ⟨this.1, fun he => (this.2 he).1⟩
        · intro x
          refine ⟨x ᵥ* W, by rw [← h]; rfl, ?_⟩
          set H := J * Jᵀ + diagonal fun _ => st.alpha2 with hH
          have hW2 : H.det ≠ 0 ∧ W = (H⁻¹ * J)ᵀ := by
            unfold invertJ at hW
            have e : (if st.alpha2 = 0 then J * Jᵀ else J * Jᵀ + diagonal fun _ => st.alpha2) = H := by
              rw [hH]
              split
              · next h0 => rw [h0]; simp
              · rfl
            simp only [e] at hW
            unfold npSolveMat at hW
            split at hW
            · cases hW
            · next hd' =>
              simp only [Except.map] at hW
              exact ⟨hd', (Except.ok.inj hW).symm⟩
          have hy : H *ᵥ (x ᵥ* W) = J *ᵥ x := by
            rw [hW2.2, ← mulVec_transpose, transpose_transpose, mulVec_mulVec, ← Matrix.mul_assoc,
              mul_nonsing_inv _ (isUnit_iff_ne_zero.mpr hW2.1), Matrix.one_mul]
          intro y'
          have key := ridge_column ha2 Jᵀ x (x ᵥ* W) y' (by rw [transpose_transpose]; exact hW2.1)
            (by rw [transpose_transpose]; exact hy)
          have e : ∀ v : Fin q → K, (∑ i, ((Jᵀ *ᵥ v) i - x i) ^ 2) + st.alpha2 * ∑ k, v k ^ 2 =
              explainCost st.alpha2 J x v := by
            intro v
            unfold explainCost
            congr 1
            refine Finset.sum_congr rfl (fun i _ => ?_)
            rw [mulVec_transpose]
            rfl
          rwa [e, e] at key

/-- Non-vacuity: positive regularisers make the training succeed. -/
theorem C72_training_succeeds {n d q : Nat} (st : Iirl K d q) (ha : 0 < st.alpha)
    (ha2 : 0 < st.alpha2) (X : Matrix (Fin n) (Fin d) K) (Y : Matrix (Fin n) (Fin q) K) :
    ∃ st', trainIirl st X Y = (st', .ok ()) := by
  unfold trainIirl
  rw [trainCore_of_det (st := newIrl st.alpha st.incrementable q d) (normal_det_ne ha Y)]
  simp only [newIrl]
  unfold invertJ npSolveMat
  have : ∀ J : Matrix (Fin q) (Fin d) K, (if st.alpha2 = 0 then J * Jᵀ else
      J * Jᵀ + diagonal fun _ => st.alpha2).det ≠ 0 := by
    intro J
    rw [if_neg ha2.ne']
    have h := normal_det_ne ha2 Jᵀ
    rwa [normal_eq, transpose_transpose] at h
  simp only [this, if_false, Except.map]
  exact ⟨_, rfl⟩

example : ∃ st', trainIirl (newIirl (1 : ℚ) 2 2 1) (!![1, 0; 2, 1] : Matrix (Fin 2) (Fin 2) ℚ)
    (!![1; 3] : Matrix (Fin 2) (Fin 1) ℚ) = (st', .ok ()) :=
  C72_training_succeeds _ (by norm_num [newIirl]) (by norm_num [newIirl]) _ _

end Menpofit
