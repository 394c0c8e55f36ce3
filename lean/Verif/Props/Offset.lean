import Verif.Props.Regression
import Mathlib.LinearAlgebra.Matrix.DotProduct
import Mathlib.Tactic.Linarith
import Mathlib.Tactic.FieldSimp
import Mathlib.Tactic.Ring
/-!
# C121: a bias absorbs constant offsets
-/

namespace Menpofit
open Matrix GN Reg Spec

variable {K : Type} [Field K] [LinearOrder K] [IsStrictOrderedRing K]

omit [LinearOrder K] [IsStrictOrderedRing K] in
/-- Helper: a product with the extended matrix. -/
theorem addBias_mulVec {n d : Nat} (X : Matrix (Fin n) (Fin d) K) (v : Fin (d + 1) → K) (i : Fin n) :
    (addBias true X *ᵥ v) i = (∑ k, X i k * v (Fin.castSucc k)) + v (Fin.last d) := by
  show (∑ j : Fin (d + 1), (Fin.snoc (X i) 1 : Fin (d + 1) → K) j * v j) = _
  rw [Fin.sum_univ_castSucc]
  simp

/-- Helper: the samples moved by `f`, extended by the bias column, have an invertible normal matrix
when the original ones do. -/
theorem offset_det {n d : Nat} (X : Matrix (Fin n) (Fin d) K) (f : Fin d → K)
    (h : (normal 0 (addBias true X)).det ≠ 0) :
    (normal 0 (addBias true (Matrix.of fun i k => X i k + f k))).det ≠ 0 := by
  rw [normal_eq] at h ⊢
  intro h0
  apply h
  have hz : (diagonal fun _ => 0 : Matrix (Fin (width true d)) (Fin (width true d)) K) = 0 :=
    diagonal_zero
  rw [hz, add_zero] at h0 ⊢
  obtain ⟨v, hv, hm⟩ := exists_mulVec_eq_zero_iff.mpr h0
  obtain ⟨Z', hZ'⟩ : ∃ Z', Z' = addBias true (Matrix.of fun i k => X i k + f k) := ⟨_, rfl⟩
  rw [← hZ'] at hm
  have hZv : Z' *ᵥ v = 0 := by
    have h1 : v ⬝ᵥ ((Z'ᵀ * Z') *ᵥ v) = 0 := by rw [hm]; simp
    rw [← mulVec_mulVec, dot_transpose] at h1
    exact dotProduct_self_eq_zero.mp h1
  have hrow : ∀ i, (∑ k, (X i k + f k) * v (Fin.castSucc k)) + v (Fin.last d) = 0 := by
    intro i
    have := congrFun hZv i
    rw [hZ'] at this
    exact (addBias_mulVec _ v i).symm.trans this
  rw [← exists_mulVec_eq_zero_iff]
  refine ⟨(Fin.snoc (fun k => v (Fin.castSucc k)) (v (Fin.last d) + ∑ k, f k * v (Fin.castSucc k)) :
    Fin (d + 1) → K), ?_, ?_⟩
  · intro hw
    apply hv
    have hk : ∀ k : Fin d, v (Fin.castSucc k) = 0 := by
      intro k
      have := congrFun hw (Fin.castSucc k)
      simpa using this
    have hl := congrFun hw (Fin.last d)
    simp only [Fin.snoc_last, hk, mul_zero, Finset.sum_const_zero, add_zero] at hl
    funext j
    refine Fin.lastCases ?_ ?_ j
    · exact hl
    · exact hk
  · rw [← mulVec_mulVec]
    have : addBias true X *ᵥ (Fin.snoc (fun k => v (Fin.castSucc k))
        (v (Fin.last d) + ∑ k, f k * v (Fin.castSucc k)) : Fin (d + 1) → K) = 0 := by
      funext i
      have := hrow i
      rw [addBias_mulVec]
      simp only [Fin.snoc_castSucc, Fin.snoc_last, Pi.zero_apply]
      rw [← this]
      simp only [add_mul, Finset.sum_add_distrib]
      ring
    rw [this, mulVec_zero]

/-- A least-squares regressor with bias and without regulariser: adding `f` to every feature vector
and `c` to every target, during training, changes nothing but that: training succeeds again and the
prediction for a moved feature vector is the old prediction moved by `c`. -/
theorem C121_offsets_partial {n d q : Nat} (st st' : Irl K (width true d) q) (ha : st.alpha = 0)
    (X : Matrix (Fin n) (Fin d) K) (Y : Matrix (Fin n) (Fin q) K) (f : Fin d → K) (c : Fin q → K)
    (h : train true st X Y = (st', .ok ())) :
    ∃ st'', train true st (Matrix.of fun i k => X i k + f k) (Matrix.of fun i j => Y i j + c j) =
        (st'', .ok ()) ∧
      ∀ x, ∃ y, predict true st' x = .ok y ∧ predict true st'' (x + f) = .ok (y + c) := by
  obtain ⟨hd, -⟩ := trainCore_ok h
  have hd' : (normal st.alpha (addBias true (Matrix.of fun i k => X i k + f k))).det ≠ 0 := by
    rw [ha] at hd ⊢
    exact offset_det X f hd
  have h2 : train true st (Matrix.of fun i k => X i k + f k) (Matrix.of fun i j => Y i j + c j) = _ :=
    trainCore_of_det hd'
  refine ⟨_, h2, ?_⟩
  obtain ⟨A, b, -, hp, hmin⟩ := C35_train_minimises true st st' ha.ge X Y h
  obtain ⟨A2, b2, -, hp2, hmin2⟩ := C35_train_minimises true st _ ha.ge _ _ h2
  have cost : ∀ A' b', ridgeCost st.alpha (Matrix.of fun i k => X i k + f k)
      (Matrix.of fun i j => Y i j + c j) A' (b' + c - f ᵥ* A') = ridgeCost st.alpha X Y A' b' := by
    intro A' b'
    simp only [ridgeCost, ha, zero_mul, add_zero, of_apply]
    refine Finset.sum_congr rfl fun i _ => Finset.sum_congr rfl fun j _ => ?_
    simp only [Pi.sub_apply, Pi.add_apply, vecMul, dotProduct, add_mul, Finset.sum_add_distrib]
    ring
  have e1 := hmin A2 (b2 - c + f ᵥ* A2) (by simp)
  have e2 := hmin2 A (b + c - f ᵥ* A) (by simp)
  have hb : b2 - c + f ᵥ* A2 + c - f ᵥ* A2 = b2 := by abel
  rw [cost] at e2
  have c2 := cost A2 (b2 - c + f ᵥ* A2)
  rw [hb] at c2
  obtain ⟨rfl, rfl⟩ := e2.2 (le_antisymm (by rw [c2]; exact e1.1) e2.1)
  intro x
  refine ⟨_, hp x, ?_⟩
  rw [hp2]
  congr 1
  rw [add_vecMul]
  abel

/-- Non-vacuity: two samples in one dimension. -/
example : ∃ st', train true (newIrl (0 : ℚ) false _ 1)
    (!![1; 2] : Matrix (Fin 2) (Fin 1) ℚ) !![1; 3] = (st', .ok ()) := by
  refine ⟨_, trainCore_of_det ?_⟩
  simp only [newIrl]
  rw [normal_eq]
  have he : ((addBias true (!![1; 2] : Matrix (Fin 2) (Fin 1) ℚ))ᵀ *
      addBias true (!![1; 2] : Matrix (Fin 2) (Fin 1) ℚ) +
      diagonal fun _ => 0) = (!![5, 3; 3, 2] : Matrix (Fin 2) (Fin 2) ℚ) := by
    ext i j
    rw [Matrix.add_apply, Matrix.mul_apply, Fin.sum_univ_two]
    fin_cases i <;> fin_cases j <;> simp [addBias, Fin.snoc] <;> norm_num
  rw [he]
  have : (!![5, 3; 3, 2] : Matrix (Fin 2) (Fin 2) ℚ).det = 1 := by
    rw [det_fin_two]; norm_num
  intro h
  have h' : (!![5, 3; 3, 2] : Matrix (Fin 2) (Fin 2) ℚ).det = 0 := h
  rw [this] at h'
  exact one_ne_zero h'

/-- With any regulariser the bias is regularised too: after training on the single sample `0 ↦ t + c`
the prediction at 0 is not the one after training on `0 ↦ t` moved by `c`, for every `c ≠ 0`. -/
theorem C121_regularised_violated (alpha : K) (ha : 0 < alpha) (t c : K) (hc : c ≠ 0)
    (incrementable : Bool) :
    ∃ (st₁ st₂ : Irl K (width true 1) 1) (y₁ y₂ : Fin 1 → K),
      train true (newIrl alpha incrementable _ 1) (!![0] : Matrix (Fin 1) (Fin 1) K) !![t] =
        (st₁, .ok ()) ∧
      train true (newIrl alpha incrementable _ 1) (!![0] : Matrix (Fin 1) (Fin 1) K) !![t + c] =
        (st₂, .ok ()) ∧
      predict true st₁ ![0] = .ok y₁ ∧ predict true st₂ ![0] = .ok y₂ ∧ y₂ ≠ y₁ + ![c] := by
  have main : ∀ (s : K) (st : Irl K (width true 1) 1),
      train true (newIrl alpha incrementable _ 1) (!![0] : Matrix (Fin 1) (Fin 1) K) !![s] =
        (st, .ok ()) → predict true st ![0] = .ok ![s / (1 + alpha)] := by
    intro s st hst
    obtain ⟨A, b, -, hp, hmin⟩ := C35_train_minimises true _ st ha.le _ _ hst
    have h1 := hmin 0 ![s / (1 + alpha)] (by simp)
    have hp1 : (1 + alpha) ≠ 0 := by positivity
    simp only [newIrl, ridgeCost] at h1
    simp at h1
    have hb : b 0 = s / (1 + alpha) := by
      have hle := h1.1
      have key : (b 0 - s) ^ 2 + alpha * (A 0 0 ^ 2 + b 0 ^ 2) =
          (s / (1 + alpha) - s) ^ 2 + alpha * (s / (1 + alpha)) ^ 2 +
            ((1 + alpha) * (b 0 - s / (1 + alpha)) ^ 2 + alpha * A 0 0 ^ 2) := by
        field_simp
        ring
      rw [key] at hle
      have hA : 0 ≤ alpha * A 0 0 ^ 2 := by positivity
      have hB : 0 ≤ (1 + alpha) * (b 0 - s / (1 + alpha)) ^ 2 := by positivity
      have : (1 + alpha) * (b 0 - s / (1 + alpha)) ^ 2 = 0 := by linarith
      rcases mul_eq_zero.mp this with h | h
      · exact absurd h hp1
      · exact sub_eq_zero.mp (pow_eq_zero_iff (two_ne_zero)|>.mp h)
    rw [hp]
    congr 1
    funext j
    fin_cases j
    simp [vecMul, dotProduct, hb]
  obtain ⟨st₁, h₁⟩ := C35_train_succeeds true (newIrl alpha incrementable _ 1) ha
    (!![0] : Matrix (Fin 1) (Fin 1) K) !![t]
  obtain ⟨st₂, h₂⟩ := C35_train_succeeds true (newIrl alpha incrementable _ 1) ha
    (!![0] : Matrix (Fin 1) (Fin 1) K) !![t + c]
  refine ⟨st₁, st₂, _, _, h₁, h₂, main _ _ h₁, main _ _ h₂, ?_⟩
  intro he
  have h0 := congrFun he 0
  simp at h0
  have hp1 : (1 + alpha) ≠ 0 := by positivity
  field_simp at h0
  have : c * alpha = 0 := by linarith
  rcases mul_eq_zero.mp this with h | h
  · exact hc h
  · exact ha.ne' h

omit [IsStrictOrderedRing K] in
/-- An inverse regressor never has a bias, whatever `bias` it was created with: whenever training on
`(X, Y)` and on targets moved by `c ≠ 0` both succeed, both predict 0 for the zero feature vector, so
the predictions do not move with the targets. -/
theorem C121_inverse_violated {n d q : Nat} (alpha alpha2 : K) (st₁ st₂ : Iirl K d q)
    (X : Matrix (Fin n) (Fin d) K) (Y : Matrix (Fin n) (Fin q) K) (c : Fin q → K) (hc : c ≠ 0)
    (h₁ : trainIirl (newIirl alpha alpha2 d q) X Y = (st₁, .ok ()))
    (h₂ : trainIirl (newIirl alpha alpha2 d q) X (Matrix.of fun i j => Y i j + c j) = (st₂, .ok ())) :
    ∃ y₁ y₂, predictIirl st₁ 0 = .ok y₁ ∧ predictIirl st₂ 0 = .ok y₂ ∧ y₂ ≠ y₁ + c := by
  have main : ∀ (Z : Matrix (Fin n) (Fin q) K) (st : Iirl K d q),
      trainIirl (newIirl alpha alpha2 d q) X Z = (st, .ok ()) → predictIirl st 0 = .ok 0 := by
    intro Z st h
    unfold trainIirl at h
    split at h
    · cases h
    · split at h
      · cases h
      · split at h
        · cases h
        · simp only [Prod.mk.injEq, and_true] at h
          rw [← h]
          simp [predictIirl]
  refine ⟨_, _, main _ _ h₁, main _ _ h₂, ?_⟩
  intro he
  apply hc
  rw [zero_add] at he
  exact he.symm

/-- Non-vacuity: positive regularisers make every training succeed. -/
example : ∃ st₁ st₂ : Iirl ℚ 2 1, trainIirl (newIirl (1 : ℚ) 2 2 1) !![1, 0; 2, 1] !![1; 3] =
      (st₁, .ok ()) ∧
    trainIirl (newIirl (1 : ℚ) 2 2 1) !![1, 0; 2, 1]
      (Matrix.of fun i j => (!![1; 3] : Matrix (Fin 2) (Fin 1) ℚ) i j + ![5] j) = (st₂, .ok ()) := by
  obtain ⟨s, hs⟩ := C72_training_succeeds (newIirl (1 : ℚ) 2 2 1) (by norm_num [newIirl])
    (by norm_num [newIirl]) !![1, 0; 2, 1] !![1; 3]
  obtain ⟨t, ht⟩ := C72_training_succeeds (newIirl (1 : ℚ) 2 2 1) (by norm_num [newIirl])
    (by norm_num [newIirl]) !![1, 0; 2, 1]
    (Matrix.of fun i j => (!![1; 3] : Matrix (Fin 2) (Fin 1) ℚ) i j + ![5] j)
  exact ⟨s, t, hs, ht⟩

end Menpofit
