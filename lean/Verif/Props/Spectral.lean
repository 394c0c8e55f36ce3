import Verif.Lemmas.SpectralExist
/-!
# C97-C99: principal component, orthogonal Procrustes and optimal linear regression
-/

namespace Menpofit
open Matrix GN Reg Spec

/-! ## C97 Principal component regression -/

/-- Without a requested share of variance the regressor predicts with the least squares map of smallest
coefficients. -/
theorem C97_least_squares (svd : SvdFn)
    (hsvd : ∀ n d (X : Matrix (Fin n) (Fin d) ℝ), IsSvd X (svd n d X).U (svd n d X).s (svd n d X).V)
    (bias : Bool) {n d q : Nat} (st st' : Pcr (width bias d) q) (X : Matrix (Fin n) (Fin d) ℝ)
    (Y : Matrix (Fin n) (Fin q) ℝ) (hv : st.variance = none ∨ st.variance = some 0)
    (h : trainPcr svd bias st X Y = (st', .ok ())) :
    ∃ A b, (∀ x, predictPcr bias st' x = .ok (x ᵥ* A + b)) ∧ IsLeastSquaresMap bias X Y A b := by
  have hs := hsvd n (width bias d) (addBias bias X)
  obtain ⟨k, hk, hkeq, hne, hV, hR⟩ := trainPcrCore_ok h
  have hkr : k = min n (width bias d) := by
    rw [hkeq]; rcases hv with hv | hv <;> rw [hv] <;> simp [pcrCount]
  subst hkr
  have hc : (Fin.castLE hk : Fin (min n (width bias d)) → _) = id := by funext i; rfl
  rw [hc] at hV hR
  simp only [hc, id_eq] at hne
  rw [submatrix_id_id] at hV hR
  rw [submatrix_id_id] at hR
  obtain ⟨hN, hM⟩ := svd_solution hs hne Y
  refine ⟨_, _, fun x => ?_, leastSquaresMap bias hN hM⟩
  unfold predictPcr
  rw [hV, hR]
  simp only
  rw [← addBias1_vecMul]
  congr 1
  rw [vecMul_vecMul, vecMul_vecMul]
  congr 1
  simp only [id_eq]
  rw [Matrix.mul_assoc,
    ← Matrix.mul_assoc (svd n (width bias d) (addBias bias X)).V, hs.right, Matrix.one_mul]

/-- Training without a requested share succeeds exactly if the samples (with the column of ones) have full rank. -/
theorem C97_trains_iff_full_rank (svd : SvdFn)
    (hsvd : ∀ n d (X : Matrix (Fin n) (Fin d) ℝ), IsSvd X (svd n d X).U (svd n d X).s (svd n d X).V)
    (bias : Bool) {n d q : Nat} (st : Pcr (width bias d) q) (X : Matrix (Fin n) (Fin d) ℝ)
    (Y : Matrix (Fin n) (Fin q) ℝ) (hv : st.variance = none ∨ st.variance = some 0) :
    (trainPcr svd bias st X Y).2 =
      if (addBias bias X).rank = min n (width bias d) then .ok () else .error .linAlgError := by
  have hs := hsvd n (width bias d) (addBias bias X)
  rw [if_congr (svd_rank hs) rfl rfl]
  have hkr : pcrCount (svd n (width bias d) (addBias bias X)).s st.variance = min n (width bias d) := by
    rcases hv with hv | hv <;> rw [hv] <;> simp [pcrCount]
  unfold trainPcr trainPcrCore
  simp only [tdot_same]
  split_ifs with hne
  · rw [npInv_diagonal (fun i => hne _)]
  · have hex : ∃ i, (svd n (width bias d) (addBias bias X)).s i = 0 := by
      push Not at hne; exact hne
    obtain ⟨i, hi⟩ := hex
    have : npInv (diagonal fun j : Fin (pcrCount (svd n (width bias d) (addBias bias X)).s st.variance) =>
        (svd n (width bias d) (addBias bias X)).s (Fin.castLE (pcrCount_le _ st.variance) j)) = .error .linAlgError := by
      unfold npInv
      rw [if_pos]
      rw [det_diagonal]
      exact Finset.prod_eq_zero (Finset.mem_univ (Fin.cast hkr.symm i)) hi
    rw [this]

/-- With a requested share `v` the regressor is the least squares solution within the span of some of the leading
right singular vectors, namely those whose cumulative share stays below `v`. -/
theorem C97_variance_partial (svd : SvdFn)
    (hsvd : ∀ n d (X : Matrix (Fin n) (Fin d) ℝ), IsSvd X (svd n d X).U (svd n d X).s (svd n d X).V)
    (bias : Bool) {n d q : Nat} (st st' : Pcr (width bias d) q) (X : Matrix (Fin n) (Fin d) ℝ)
    (Y : Matrix (Fin n) (Fin q) ℝ) (v : ℝ) (hv : st.variance = some v) (hv0 : v ≠ 0) (hX : addBias bias X ≠ 0)
    (h : trainPcr svd bias st X Y = (st', .ok ())) :
    ∃ (k : Nat) (hk : k ≤ min n (width bias d)) (B : Matrix (Fin k) (Fin q) ℝ),
      (∀ i : Fin (min n (width bias d)),
        i.val < k ↔ share (svd n (width bias d) (addBias bias X)).s (i.val + 1) < v) ∧
      (∀ x, predictPcr bias st' x = .ok (addBias1 bias x ᵥ*
        ((svd n (width bias d) (addBias bias X)).V.submatrix (Fin.castLE hk) id)ᵀ ᵥ* B)) ∧
      ∀ B' : Matrix (Fin k) (Fin q) ℝ,
        sqSize (addBias bias X * ((svd n (width bias d) (addBias bias X)).V.submatrix (Fin.castLE hk) id)ᵀ * B - Y) ≤
        sqSize (addBias bias X * ((svd n (width bias d) (addBias bias X)).V.submatrix (Fin.castLE hk) id)ᵀ * B' - Y) := by
  have hs := hsvd n (width bias d) (addBias bias X)
  obtain ⟨k, hk, hkeq, hne, hV, hR⟩ := trainPcrCore_ok h
  refine ⟨k, hk, (diagonal fun i => ((svd n (width bias d) (addBias bias X)).s (Fin.castLE hk i))⁻¹) *
    (((svd n (width bias d) (addBias bias X)).U.submatrix id (Fin.castLE hk))ᵀ * Y), fun i => ?_, fun x => ?_,
    fun B' => ?_⟩
  · rw [hkeq, hv]
    simp only [pcrCount, hv0, if_false]
    refine keep_spec hs.nonneg ?_ v i
    intro h0
    apply hX
    have hz := (Finset.sum_eq_zero_iff_of_nonneg (s := Finset.univ)
      (f := (svd n (width bias d) (addBias bias X)).s) fun i _ => hs.nonneg i).1 h0
    have hd : diagonal (svd n (width bias d) (addBias bias X)).s = 0 := by
      rw [← diagonal_zero]; congr 1; funext i; exact hz i (Finset.mem_univ i)
    rw [hs.product, hd, Matrix.mul_zero, Matrix.zero_mul]
  · unfold predictPcr
    rw [hV, hR]
    simp only
    congr 1
    rw [vecMul_vecMul, Matrix.mul_assoc, ← Matrix.mul_assoc _ (_ᵀ),
      submatrix_right hs.right (Fin.castLE_injective hk), Matrix.one_mul]
  · have hN := svd_truncated hs (Fin.castLE_injective hk) hne Y
    have := normal_least hN B'
    have h2 := sqSize_nonneg (addBias bias X *
      ((svd n (width bias d) (addBias bias X)).V.submatrix (Fin.castLE hk) id)ᵀ * (B' -
        (diagonal fun i => ((svd n (width bias d) (addBias bias X)).s (Fin.castLE hk i))⁻¹) *
    (((svd n (width bias d) (addBias bias X)).U.submatrix id (Fin.castLE hk))ᵀ * Y)))
    linarith

/-- The directions kept never reach the requested share. -/
theorem C97_variance_violated (svd : SvdFn)
    (hsvd : ∀ n d (X : Matrix (Fin n) (Fin d) ℝ), IsSvd X (svd n d X).U (svd n d X).s (svd n d X).V)
    (bias : Bool) {n d q : Nat} (st st' : Pcr (width bias d) q) (X : Matrix (Fin n) (Fin d) ℝ)
    (Y : Matrix (Fin n) (Fin q) ℝ) (v : ℝ) (hv : st.variance = some v) (hv0 : 0 < v) (hX : addBias bias X ≠ 0)
    (h : trainPcr svd bias st X Y = (st', .ok ())) :
    ∃ (k : Nat) (V : Matrix (Fin k) (Fin (width bias d)) ℝ), st'.V = some ⟨k, V⟩ ∧
      share (svd n (width bias d) (addBias bias X)).s k < v := by
  obtain ⟨k, hk, hkeq, hne, hV, hR⟩ := trainPcrCore_ok h
  obtain ⟨k2, hk2, _, hs2, _⟩ := C97_variance_partial svd hsvd bias st st' X Y v hv hv0.ne' hX h
  refine ⟨k, _, hV, ?_⟩
  have hs := hsvd n (width bias d) (addBias bias X)
  have h0 : ∑ i, (svd n (width bias d) (addBias bias X)).s i ≠ 0 := by
    intro h0
    apply hX
    have hz := (Finset.sum_eq_zero_iff_of_nonneg (s := Finset.univ)
      (f := (svd n (width bias d) (addBias bias X)).s) fun i _ => hs.nonneg i).1 h0
    have hd : diagonal (svd n (width bias d) (addBias bias X)).s = 0 := by
      rw [← diagonal_zero]; congr 1; funext i; exact hz i (Finset.mem_univ i)
    rw [hs.product, hd, Matrix.mul_zero, Matrix.zero_mul]
  have hkk : k = keep (svd n (width bias d) (addBias bias X)).s v := by
    rw [hkeq, hv]; simp [pcrCount, hv0.ne']
  cases k with
  | zero => rw [share_zero]; exact hv0
  | succ k =>
    have := (keep_spec hs.nonneg h0 v ⟨k, by omega⟩).1 (by rw [← hkk]; exact Nat.lt_succ_self k)
    exact this

/-- One sample with one feature and all variance requested: every prediction is zero, though a least squares
prediction of the sample itself is its target. -/
theorem C97_all_variance_violated (svd : SvdFn)
    (hsvd : ∀ n d (X : Matrix (Fin n) (Fin d) ℝ), IsSvd X (svd n d X).U (svd n d X).s (svd n d X).V) :
    ∃ st', trainPcr svd false (⟨some 1, none, none⟩ : Pcr 1 1) (!![1] : Matrix (Fin 1) (Fin 1) ℝ) !![1] = (st', .ok ()) ∧
      ∀ x, predictPcr false st' x = .ok 0 := by
  have hs := hsvd 1 1 !![1]
  have hs1 : (svd 1 1 !![1]).s (0 : Fin 1) ≠ 0 := by
    intro h0
    have hd : diagonal (svd 1 1 !![1]).s = 0 := by
      rw [← diagonal_zero]; congr 1; funext i; rw [Fin.eq_zero i]; exact h0
    have := hs.product
    rw [hd, Matrix.mul_zero, Matrix.zero_mul] at this
    have := congrFun (congrFun this 0) 0
    simp at this
  have hk : pcrCount (svd 1 1 !![1]).s (some 1) = 0 := by
    simp only [pcrCount, one_ne_zero, if_false]
    by_contra hne
    have h0 : ∑ i, (svd 1 1 !![1]).s i ≠ 0 := by
      rw [show (∑ i, (svd 1 1 !![1]).s i) = (svd 1 1 !![1]).s (0 : Fin 1) from Fin.sum_univ_one _]; exact hs1
    have := (keep_spec hs.nonneg h0 1 (0 : Fin 1)).1 (Nat.pos_of_ne_zero hne)
    have hsh : share (svd 1 1 !![1]).s 1 = 1 := by
      unfold share
      rw [Finset.filter_true_of_mem (fun i _ => i.2), div_self h0]
    exact absurd this (by rw [show ((0 : Fin 1).val + 1) = 1 from rfl, hsh]; exact lt_irrefl _)
  have htr : (trainPcr svd false (⟨some 1, none, none⟩ : Pcr 1 1) (!![1] : Matrix (Fin 1) (Fin 1) ℝ)
      (!![1] : Matrix (Fin 1) (Fin 1) ℝ)).2 = .ok () := by
    unfold trainPcr trainPcrCore
    simp only [tdot_same]
    rw [npInv_diagonal]
    intro i
    exact (Nat.not_lt_zero _ (lt_of_lt_of_eq i.2 hk)).elim
  refine ⟨(trainPcr svd false (⟨some 1, none, none⟩ : Pcr 1 1) (!![1] : Matrix (Fin 1) (Fin 1) ℝ)
      (!![1] : Matrix (Fin 1) (Fin 1) ℝ)).1, Prod.ext rfl htr, fun x => ?_⟩
  obtain ⟨k, hk', hkeq, hne, hV, hR⟩ := trainPcrCore_ok
    (show trainPcrCore svd (⟨some 1, none, none⟩ : Pcr 1 1) (!![1] : Matrix (Fin 1) (Fin 1) ℝ)
      (!![1] : Matrix (Fin 1) (Fin 1) ℝ) = (_, .ok ()) from Prod.ext rfl htr)
  have hk0 : k = 0 := hkeq.trans hk
  subst hk0
  unfold predictPcr
  unfold trainPcr
  simp only [addBias]
  rw [hV, hR]
  simp only
  congr 1
  funext j
  simp [Matrix.vecMul, dotProduct, Matrix.mul_apply]

example : ∃ svd : SvdFn,
    (∀ n d (X : Matrix (Fin n) (Fin d) ℝ), IsSvd X (svd n d X).U (svd n d X).s (svd n d X).V) ∧
    (trainPcr svd true (⟨none, none, none⟩ : Pcr 2 1) (!![0; 1; 2] : Matrix (Fin 3) (Fin 1) ℝ)
      (!![1; 3; 4] : Matrix (Fin 3) (Fin 1) ℝ)).2 = .ok () := by
  obtain ⟨svd, hsvd⟩ := exists_lawful_svd
  refine ⟨svd, hsvd, ?_⟩
  rw [C97_trains_iff_full_rank svd hsvd true _ _ _ (Or.inl rfl), if_pos]
  obtain ⟨Z, hZ⟩ : ∃ Z : Matrix (Fin 3) (Fin 2) ℝ, Z = addBias true (!![0; 1; 2] : Matrix (Fin 3) (Fin 1) ℝ) := ⟨_, rfl⟩
  have hZ' : Z = !![0, 1; 1, 1; 2, 1] := by
    rw [hZ]; ext i j; fin_cases i <;> fin_cases j <;> rfl
  rw [← hZ]
  change Z.rank = 2
  rw [← rank_transpose_mul_self, hZ', rank_of_isUnit]
  · simp
  · rw [isUnit_iff_isUnit_det, det_fin_two]
    simp [mul_apply, Fin.sum_univ_three]
    norm_num

/-- Training that fails can still change what the regressor predicts. -/
theorem C97_failed_training_violated (svd : SvdFn)
    (hsvd : ∀ n d (X : Matrix (Fin n) (Fin d) ℝ), IsSvd X (svd n d X).U (svd n d X).s (svd n d X).V) :
    ∃ st1 st2, trainPcr svd false (⟨none, none, none⟩ : Pcr 2 1) (!![1, 0] : Matrix (Fin 1) (Fin 2) ℝ)
        (!![1] : Matrix (Fin 1) (Fin 1) ℝ) = (st1, .ok ()) ∧
      predictPcr false st1 ![1, 0] = .ok ![1] ∧
      trainPcr svd false st1 (!![0, 1] : Matrix (Fin 1) (Fin 2) ℝ) (!![1; 1] : Matrix (Fin 2) (Fin 1) ℝ) =
        (st2, .error .valueError) ∧
      predictPcr false st2 ![1, 0] = .ok ![0] := by
  have hrank : ∀ Z : Matrix (Fin 1) (Fin 2) ℝ, Z ≠ 0 → Z.rank = min 1 2 := by
    intro Z hZ
    have hs := hsvd 1 2 Z
    rw [svd_rank hs]
    intro i hi
    apply hZ
    have hd : diagonal (svd 1 2 Z).s = 0 := by
      rw [← diagonal_zero]; congr 1; funext j
      have hij : j = i := by
        have h1 : j.val < 1 := j.2
        have h2 : i.val < 1 := i.2
        apply Fin.ext; omega
      rw [hij]; exact hi
    rw [hs.product, hd, Matrix.mul_zero, Matrix.zero_mul]
  have hX1 : (!![1, 0] : Matrix (Fin 1) (Fin 2) ℝ) ≠ 0 := by
    intro h; have := congrFun (congrFun h 0) 0; simp at this
  have hX2 : (!![0, 1] : Matrix (Fin 1) (Fin 2) ℝ) ≠ 0 := by
    intro h; have := congrFun (congrFun h 0) 1; simp at this
  have ht1 := C97_trains_iff_full_rank svd hsvd false (⟨none, none, none⟩ : Pcr 2 1)
    (!![1, 0] : Matrix (Fin 1) (Fin 2) ℝ) (!![1] : Matrix (Fin 1) (Fin 1) ℝ) (Or.inl rfl)
  rw [if_pos (show (addBias false (!![1, 0] : Matrix (Fin 1) (Fin 2) ℝ)).rank = min 1 (width false 2) from
    hrank _ hX1)] at ht1
  obtain ⟨st1, hst1⟩ : ∃ st1, trainPcr svd false (⟨none, none, none⟩ : Pcr 2 1)
    (!![1, 0] : Matrix (Fin 1) (Fin 2) ℝ) (!![1] : Matrix (Fin 1) (Fin 1) ℝ) = (st1, .ok ()) := ⟨_, Prod.ext rfl ht1⟩
  obtain ⟨A, b, hp, hb, hA⟩ := C97_least_squares svd hsvd false _ st1 _ _ (Or.inl rfl) hst1
  have hb0 := hb rfl
  subst hb0
  have hcost := (hA !![1; 0] 0 fun _ => rfl).1
  simp [ridgeCost, Fin.sum_univ_two] at hcost
  have hA1 : A 0 0 = 1 := by nlinarith [sq_nonneg (A 0 0 - 1)]
  have hvar : st1.variance = none := by
    have : (trainPcr svd false (⟨none, none, none⟩ : Pcr 2 1) (!![1, 0] : Matrix (Fin 1) (Fin 2) ℝ)
      (!![1] : Matrix (Fin 1) (Fin 1) ℝ)).1 = st1 := congrArg Prod.fst hst1
    rw [← this]
    unfold trainPcr trainPcrCore
    simp only
    split
    · rfl
    · split <;> rfl
  obtain ⟨k, hk, hkeq, _, hV1, hR1⟩ := trainPcrCore_ok hst1
  have hs2 := hsvd 1 2 (!![0, 1] : Matrix (Fin 1) (Fin 2) ℝ)
  have hne2 := (svd_rank hs2).1 (hrank _ hX2)
  have hsv : pcrCount (svd 1 2 (!![0, 1] : Matrix (Fin 1) (Fin 2) ℝ)).s st1.variance = 1 := by rw [hvar]; rfl
  have htr2 : trainPcr svd false st1 (!![0, 1] : Matrix (Fin 1) (Fin 2) ℝ) (!![1; 1] : Matrix (Fin 2) (Fin 1) ℝ) =
      ({ st1 with V := some ⟨_, (svd 1 2 (!![0, 1] : Matrix (Fin 1) (Fin 2) ℝ)).V.submatrix
        (Fin.castLE (pcrCount_le (svd 1 2 (!![0, 1] : Matrix (Fin 1) (Fin 2) ℝ)).s st1.variance)) id⟩ },
        .error .valueError) := by
    have gen : ∀ st : Pcr 2 1,
        trainPcrCore svd st (!![0, 1] : Matrix (Fin 1) (Fin 2) ℝ) (!![1; 1] : Matrix (Fin 2) (Fin 1) ℝ) =
        ({ st with V := some ⟨_, (svd 1 2 (!![0, 1] : Matrix (Fin 1) (Fin 2) ℝ)).V.submatrix
          (Fin.castLE (pcrCount_le (svd 1 2 (!![0, 1] : Matrix (Fin 1) (Fin 2) ℝ)).s st.variance)) id⟩ },
          .error .valueError) := by
      intro st
      unfold trainPcrCore
      simp only
      rw [npInv_diagonal (fun i => hne2 _)]
      rfl
    exact gen st1
  refine ⟨st1, _, hst1, ?_, htr2, ?_⟩
  · rw [hp]
    congr 1
    funext j
    rw [Fin.eq_zero j]
    simp [Matrix.vecMul, dotProduct, Fin.sum_univ_two, hA1]
  · have hv0 : ∀ i : Fin 1, (svd 1 2 (!![0, 1] : Matrix (Fin 1) (Fin 2) ℝ)).V i 0 = 0 := by
      intro i
      have := congrFun (congrFun (svd_left hs2) i) 0
      rw [diagonal_mul, mul_apply] at this
      simp at this
      exact this.resolve_left (hne2 i)
    unfold predictPcr
    simp only [hR1]
    congr 1
    have hz : addBias1 false (![1, 0] : Fin 2 → ℝ) ᵥ* ((svd 1 2 (!![0, 1] : Matrix (Fin 1) (Fin 2) ℝ)).V.submatrix
        (Fin.castLE (pcrCount_le (svd 1 2 (!![0, 1] : Matrix (Fin 1) (Fin 2) ℝ)).s st1.variance)) id)ᵀ = 0 := by
      funext i
      simp only [Matrix.vecMul, dotProduct, transpose_apply, submatrix_apply, addBias1, id_eq, Pi.zero_apply]
      refine (Fin.sum_univ_two _).trans ?_
      rw [hv0]
      simp
    rw [hz]
    funext j
    rw [Fin.eq_zero j]
    simp

/-! ## C98 Orthogonal Procrustes regression -/

/-- Without whitening the trained map does not lengthen any sample, and among the maps that do not its predictions
agree best with the targets. -/
theorem C98_largest_correlation (svd : SvdFn) (pca : PcaFn)
    (hsvd : ∀ n d (X : Matrix (Fin n) (Fin d) ℝ), IsSvd X (svd n d X).U (svd n d X).s (svd n d X).V)
    (bias : Bool) {n d q : Nat} (st : Opp (width bias d) q) (hw : st.whiten = false)
    (X : Matrix (Fin n) (Fin d) ℝ) (Y : Matrix (Fin n) (Fin q) ℝ) :
    ∃ (st' : Opp (width bias d) q) (R : Matrix (Fin (width bias d)) (Fin q) ℝ),
      trainOpp svd pca bias st X Y = (st', .ok ()) ∧
      (∀ x, predictR bias st'.R x = .ok (addBias1 bias x ᵥ* R)) ∧
      (∀ z, (z ᵥ* R) ⬝ᵥ (z ᵥ* R) ≤ z ⬝ᵥ z) ∧
      ∀ R' : Matrix (Fin (width bias d)) (Fin q) ℝ, (∀ z, (z ᵥ* R') ⬝ᵥ (z ᵥ* R') ≤ z ⬝ᵥ z) →
        ∑ i, (addBias1 bias (X i) ᵥ* R') ⬝ᵥ Y i ≤ ∑ i, (addBias1 bias (X i) ᵥ* R) ⬝ᵥ Y i := by
  have hs := hsvd (width bias d) q ((addBias bias X)ᵀ * Y)
  refine ⟨{ st with R := some ((svd (width bias d) q ((addBias bias X)ᵀ * Y)).U *
    (svd (width bias d) q ((addBias bias X)ᵀ * Y)).V) }, _, ?_, fun x => rfl, ?_, fun R' hR' => ?_⟩
  · unfold trainOpp trainOppCore
    simp only [hw, Bool.false_eq_true, if_false, tdot_same]
  · exact contracts_transpose (procrustes_contracts hs)
  · have h1 := procrustes_max hs R' (contracts_untranspose hR')
    rw [← fro_predictions, ← fro_predictions]
    exact le_of_eq_of_le (fro_comm _ _) (h1.trans (le_of_eq (fro_comm _ _)))

/-- If there are at most as many features (bias included) as outputs, the map preserves lengths and has the least
squared error among the maps that do. -/
theorem C98_length_preserving_partial (svd : SvdFn) (pca : PcaFn)
    (hsvd : ∀ n d (X : Matrix (Fin n) (Fin d) ℝ), IsSvd X (svd n d X).U (svd n d X).s (svd n d X).V)
    (bias : Bool) {n d q : Nat} (hdq : width bias d ≤ q) (st : Opp (width bias d) q) (hw : st.whiten = false)
    (X : Matrix (Fin n) (Fin d) ℝ) (Y : Matrix (Fin n) (Fin q) ℝ) :
    ∃ (st' : Opp (width bias d) q) (R : Matrix (Fin (width bias d)) (Fin q) ℝ),
      trainOpp svd pca bias st X Y = (st', .ok ()) ∧
      (∀ x, predictR bias st'.R x = .ok (addBias1 bias x ᵥ* R)) ∧ R * Rᵀ = 1 ∧
      ∀ R' : Matrix (Fin (width bias d)) (Fin q) ℝ, R' * R'ᵀ = 1 →
        ∑ i, (addBias1 bias (X i) ᵥ* R - Y i) ⬝ᵥ (addBias1 bias (X i) ᵥ* R - Y i) ≤
        ∑ i, (addBias1 bias (X i) ᵥ* R' - Y i) ⬝ᵥ (addBias1 bias (X i) ᵥ* R' - Y i) := by
  have hs := hsvd (width bias d) q ((addBias bias X)ᵀ * Y)
  have hU := (mul_eq_one_comm_of_card_eq _ _ _ (by simp [hdq])).1 hs.left
  have hRR : (svd (width bias d) q ((addBias bias X)ᵀ * Y)).U * (svd (width bias d) q ((addBias bias X)ᵀ * Y)).V *
      ((svd (width bias d) q ((addBias bias X)ᵀ * Y)).U * (svd (width bias d) q ((addBias bias X)ᵀ * Y)).V)ᵀ = 1 := by
    rw [transpose_mul, Matrix.mul_assoc, ← Matrix.mul_assoc _ (_ᵀ) (_ᵀ), hs.right, Matrix.one_mul]
    exact hU
  refine ⟨{ st with R := some ((svd (width bias d) q ((addBias bias X)ᵀ * Y)).U *
    (svd (width bias d) q ((addBias bias X)ᵀ * Y)).V) }, _, ?_, fun x => rfl, hRR, fun R' hR' => ?_⟩
  · unfold trainOpp trainOppCore
    simp only [hw, Bool.false_eq_true, if_false, tdot_same]
  · have hc : ∀ z, (z ᵥ* R') ⬝ᵥ (z ᵥ* R') ≤ z ⬝ᵥ z := fun z => le_of_eq (by
      rw [← dotProduct_mulVec, ← vecMul_transpose, vecMul_vecMul, hR', vecMul_one])
    have h1 := procrustes_max hs R' (contracts_untranspose hc)
    rw [← fro_mul_left, ← fro_mul_left] at h1
    rw [← sqSize_predictions, ← sqSize_predictions, sqSize_sub, sqSize_sub,
      sqSize_preserved hRR, sqSize_preserved hR']
    linarith

/-- With more features than outputs the error need not be least: a map with orthonormal columns fits these two
samples exactly, the trained one does not. -/
theorem C98_more_features_violated (svd : SvdFn) (pca : PcaFn)
    (hsvd : ∀ n d (X : Matrix (Fin n) (Fin d) ℝ), IsSvd X (svd n d X).U (svd n d X).s (svd n d X).V) :
    ∃ (st' : Opp 2 1) (R R' : Matrix (Fin 2) (Fin 1) ℝ),
      trainOpp svd pca false (⟨false, none⟩ : Opp 2 1) (!![2, 1; 0, 1] : Matrix (Fin 2) (Fin 2) ℝ)
        (!![1; 1] : Matrix (Fin 2) (Fin 1) ℝ) = (st', .ok ()) ∧
      (∀ x, predictR false st'.R x = .ok (x ᵥ* R)) ∧ Rᵀ * R = 1 ∧ R'ᵀ * R' = 1 ∧
      (!![2, 1; 0, 1] : Matrix (Fin 2) (Fin 2) ℝ) * R' = !![1; 1] ∧
      0 < sqSize ((!![2, 1; 0, 1] : Matrix (Fin 2) (Fin 2) ℝ) * R - !![1; 1]) := by
  have hs := hsvd 2 1 ((!![2, 1; 0, 1] : Matrix (Fin 2) (Fin 2) ℝ)ᵀ * (!![1; 1] : Matrix (Fin 2) (Fin 1) ℝ))
  obtain ⟨f, hf⟩ : ∃ f, f = svd 2 1 ((!![2, 1; 0, 1] : Matrix (Fin 2) (Fin 2) ℝ)ᵀ * (!![1; 1] : Matrix (Fin 2) (Fin 1) ℝ)) := ⟨_, rfl⟩
  rw [← hf] at hs
  have hM : (!![2, 1; 0, 1] : Matrix (Fin 2) (Fin 2) ℝ)ᵀ * (!![1; 1] : Matrix (Fin 2) (Fin 1) ℝ) = !![2; 2] := by
    ext i j; fin_cases i <;> fin_cases j <;> simp [mul_apply, Fin.sum_univ_two]; norm_num
  rw [hM] at hs
  have hV := (mul_eq_one_comm_of_card_eq _ _ _ (by simp)).1 hs.right
  have hRR : (f.U * f.V)ᵀ * (f.U * f.V) = 1 := by
    rw [transpose_mul, Matrix.mul_assoc, ← Matrix.mul_assoc f.Uᵀ, hs.left, Matrix.one_mul, hV]
  refine ⟨⟨false, some (f.U * f.V)⟩, f.U * f.V, !![0; 1], ?_, fun x => rfl, hRR, ?_, ?_, ?_⟩
  · unfold trainOpp trainOppCore
    simp only [Bool.false_eq_true, if_false, tdot_same, addBias]
    rw [hf]
    rfl
  · ext i j; fin_cases i; fin_cases j; simp [mul_apply, Fin.sum_univ_two]
  · ext i j; fin_cases i <;> fin_cases j <;> simp [mul_apply, Fin.sum_univ_two]
  · refine lt_of_le_of_ne (sqSize_nonneg _) fun h0 => ?_
    have h1 := sub_eq_zero.1 (sqSize_eq_zero h0.symm)
    obtain ⟨R, hR⟩ : ∃ R : Matrix (Fin 2) (Fin 1) ℝ, R = f.U * f.V := ⟨_, rfl⟩
    rw [← hR] at h1 hRR
    have ha := congrFun (congrFun h1 0) 0
    have hb := congrFun (congrFun h1 1) 0
    simp [mul_apply, Fin.sum_univ_two] at ha hb
    have hR0 : R 0 0 = 0 := by linarith
    have h2 := congrFun (congrFun (svd_single hs) 0) 0
    rw [Matrix.smul_apply] at h2
    rw [hR] at hR0
    rw [hR0] at h2
    simp at h2

/-- With whitening and at most as many outputs as features (bias included) the trained map has orthonormal columns
and is the one nearest to the least squares map. -/
theorem C98_whitened_partial (svd : SvdFn) (pca : PcaFn)
    (hsvd : ∀ n d (X : Matrix (Fin n) (Fin d) ℝ), IsSvd X (svd n d X).U (svd n d X).s (svd n d X).V)
    (hpca : ∀ n d (X : Matrix (Fin n) (Fin d) ℝ), IsPca X (pca n d X).U (pca n d X).l)
    (bias : Bool) {n d q : Nat} (hn : 0 < n) (hdq : q ≤ width bias d) (st : Opp (width bias d) q)
    (hw : st.whiten = true) (X : Matrix (Fin n) (Fin d) ℝ) (Y : Matrix (Fin n) (Fin q) ℝ) :
    ∃ (st' : Opp (width bias d) q) (R S : Matrix (Fin (width bias d)) (Fin q) ℝ) (A : Matrix (Fin d) (Fin q) ℝ)
      (b : Fin q → ℝ),
      trainOpp svd pca bias st X Y = (st', .ok ()) ∧
      (∀ x, predictR bias st'.R x = .ok (addBias1 bias x ᵥ* R)) ∧
      (∀ x, addBias1 bias x ᵥ* S = x ᵥ* A + b) ∧ IsLeastSquaresMap bias X Y A b ∧
      Rᵀ * R = 1 ∧ ∀ R' : Matrix (Fin (width bias d)) (Fin q) ℝ, R'ᵀ * R' = 1 → sqSize (R - S) ≤ sqSize (R' - S) := by
  have hn' : (n : ℝ) ≠ 0 := Nat.cast_ne_zero.2 (by omega)
  have hp := hpca n (width bias d) (addBias bias X)
  obtain ⟨W, hW⟩ : ∃ W, W = (diagonal fun i => (Real.sqrt ((pca n (width bias d) (addBias bias X)).l i))⁻¹) *
    (pca n (width bias d) (addBias bias X)).U := ⟨_, rfl⟩
  obtain ⟨S, hS⟩ : ∃ S : Matrix (Fin (width bias d)) (Fin q) ℝ,
    S = (n : ℝ)⁻¹ • (Wᵀ * (W * ((addBias bias X)ᵀ * Y))) := ⟨_, rfl⟩
  obtain ⟨hN, M, hM⟩ := pca_solution hp hn hW Y
  rw [← hS] at hN hM
  have hXY : (addBias bias X * Wᵀ * W)ᵀ * Y = (n : ℝ) • S := by
    rw [hS, smul_smul, mul_inv_cancel₀ hn', one_smul, transpose_mul, transpose_mul, transpose_transpose]
    simp only [Matrix.mul_assoc]
  obtain ⟨f, hf⟩ : ∃ f, f = svd (width bias d) q ((n : ℝ) • S) := ⟨_, rfl⟩
  have hs := hsvd (width bias d) q ((n : ℝ) • S)
  rw [← hf] at hs
  have hV := (mul_eq_one_comm_of_card_eq _ _ _ (by simp [hdq])).1 hs.right
  have hRR : (f.U * f.V)ᵀ * (f.U * f.V) = 1 := by
    rw [transpose_mul, Matrix.mul_assoc, ← Matrix.mul_assoc f.Uᵀ, hs.left, Matrix.one_mul, hV]
  refine ⟨{ st with R := some (f.U * f.V) }, f.U * f.V, S, _, _, ?_, fun x => rfl,
    fun x => addBias1_vecMul bias x S, leastSquaresMap bias hN hM, hRR, fun R' hR' => ?_⟩
  · unfold trainOpp trainOppCore
    simp only [hw, if_true, whiten_positive hp.positive, Except.map, tdot_same]
    rw [← hW, hXY, ← hf, ← hw]
  · have size : ∀ T : Matrix (Fin (width bias d)) (Fin q) ℝ, Tᵀ * T = 1 → sqSize T = q := by
      intro T hT
      rw [sqSize_fro, fro_trace, hT, trace_one, Fintype.card_fin]
    have h1 := procrustes_max hs R' (fun x => le_of_eq (by
      rw [dotProduct_mulVec, ← mulVec_transpose, mulVec_mulVec, hR', one_mulVec]))
    have e : ∀ T : Matrix (Fin (width bias d)) (Fin q) ℝ, fro T ((n : ℝ) • S) = n * fro T S := by
      intro T
      unfold fro
      rw [Finset.mul_sum]
      refine Finset.sum_congr rfl fun i _ => ?_
      rw [Finset.mul_sum]
      refine Finset.sum_congr rfl fun j _ => ?_
      rw [Matrix.smul_apply, smul_eq_mul]; ring
    rw [e, e] at h1
    have h2 := le_of_mul_le_mul_left h1 (Nat.cast_pos.2 hn)
    rw [sqSize_sub, sqSize_sub, size _ hRR, size _ hR']
    linarith

example : ∃ (svd : SvdFn) (pca : PcaFn),
    (∀ n d (X : Matrix (Fin n) (Fin d) ℝ), IsSvd X (svd n d X).U (svd n d X).s (svd n d X).V) ∧
    ∀ n d (X : Matrix (Fin n) (Fin d) ℝ), IsPca X (pca n d X).U (pca n d X).l := by
  obtain ⟨svd, h⟩ := exists_lawful_svd
  obtain ⟨pca, _, h', _⟩ := exists_lawful
  exact ⟨svd, pca, h, h'⟩

/-! ## C99 Optimal linear regression -/

/-- Training always succeeds. -/
theorem C99_trains (pca : PcaFn) (pinv : PinvFn)
    (hpca : ∀ n d (X : Matrix (Fin n) (Fin d) ℝ), IsPca X (pca n d X).U (pca n d X).l)
    (bias : Bool) {n d q : Nat} (st : Optimal (width bias d) q) (X : Matrix (Fin n) (Fin d) ℝ)
    (Y : Matrix (Fin n) (Fin q) ℝ) : (trainOptimal pca pinv bias st X Y).2 = .ok () := by
  have hp := hpca n (width bias d) (addBias bias X)
  unfold trainOptimal trainOptimalCore
  simp only
  rw [whiten_positive (fun i => hp.positive _)]
  simp only [tdot_same]

/-- Without a requested share of variance the regressor predicts with the least squares map of smallest
coefficients. -/
theorem C99_least_squares (pca : PcaFn) (pinv : PinvFn)
    (hpca : ∀ n d (X : Matrix (Fin n) (Fin d) ℝ), IsPca X (pca n d X).U (pca n d X).l)
    (hpinv : ∀ n d (X : Matrix (Fin n) (Fin d) ℝ), IsPinv X (pinv n d X))
    (bias : Bool) {n d q : Nat} (hn : 0 < n) (st st' : Optimal (width bias d) q) (X : Matrix (Fin n) (Fin d) ℝ)
    (Y : Matrix (Fin n) (Fin q) ℝ) (hv : st.variance = none)
    (h : trainOptimal pca pinv bias st X Y = (st', .ok ())) :
    ∃ A b, (∀ x, predictR bias st'.R x = .ok (x ᵥ* A + b)) ∧ IsLeastSquaresMap bias X Y A b := by
  obtain ⟨k, hk, hkeq, W, hW, hR⟩ := trainOptimalCore_ok hpca hpinv hn h
  have hkr : k = (pca n (width bias d) (addBias bias X)).k := by rw [hkeq, hv]; rfl
  subst hkr
  have hc : (Fin.castLE hk : Fin (pca n (width bias d) (addBias bias X)).k → _) = id := by funext i; rfl
  simp only [hc, id_eq, submatrix_id_id] at hW
  obtain ⟨hN, M, hM⟩ := pca_solution (hpca n (width bias d) (addBias bias X)) hn hW Y
  refine ⟨_, _, fun x => ?_, leastSquaresMap bias hN hM⟩
  rw [hR, ← addBias1_vecMul]
  rfl

/-- With a requested share `v` the regressor is the least squares solution within the span of some of the leading
principal components, namely those whose cumulative share stays below `v`. -/
theorem C99_variance_partial (pca : PcaFn) (pinv : PinvFn)
    (hpca : ∀ n d (X : Matrix (Fin n) (Fin d) ℝ), IsPca X (pca n d X).U (pca n d X).l)
    (hpinv : ∀ n d (X : Matrix (Fin n) (Fin d) ℝ), IsPinv X (pinv n d X))
    (bias : Bool) {n d q : Nat} (hn : 0 < n) (st st' : Optimal (width bias d) q) (X : Matrix (Fin n) (Fin d) ℝ)
    (Y : Matrix (Fin n) (Fin q) ℝ) (v : ℝ) (hv : st.variance = some v)
    (h : trainOptimal pca pinv bias st X Y = (st', .ok ())) :
    ∃ (k : Nat) (hk : k ≤ (pca n (width bias d) (addBias bias X)).k) (B : Matrix (Fin k) (Fin q) ℝ),
      (∀ i : Fin (pca n (width bias d) (addBias bias X)).k,
        i.val < k ↔ share (pca n (width bias d) (addBias bias X)).l (i.val + 1) < v) ∧
      (∀ x, predictR bias st'.R x = .ok (addBias1 bias x ᵥ*
        ((pca n (width bias d) (addBias bias X)).U.submatrix (Fin.castLE hk) id)ᵀ ᵥ* B)) ∧
      ∀ B' : Matrix (Fin k) (Fin q) ℝ,
        sqSize (addBias bias X * ((pca n (width bias d) (addBias bias X)).U.submatrix (Fin.castLE hk) id)ᵀ * B - Y) ≤
        sqSize (addBias bias X * ((pca n (width bias d) (addBias bias X)).U.submatrix (Fin.castLE hk) id)ᵀ * B' - Y) := by
  have hp := hpca n (width bias d) (addBias bias X)
  obtain ⟨k, hk, hkeq, W, hW, hR⟩ := trainOptimalCore_ok hpca hpinv hn h
  obtain ⟨B, hB, hmin⟩ := pca_truncated hp hn (Fin.castLE_injective hk) hW Y
  refine ⟨k, hk, B, fun i => ?_, fun x => ?_, hmin⟩
  · rw [hkeq, hv]
    refine keep_spec (fun i => (hp.positive i).le) ?_ v i
    have hpos : 0 < ∑ j, (pca n (width bias d) (addBias bias X)).l j :=
      Finset.sum_pos (fun j _ => hp.positive j) ⟨i, Finset.mem_univ i⟩
    exact hpos.ne'
  · rw [hR, hB, vecMul_vecMul]
    rfl

/-- All variance requested (or less): the share of the components kept is always smaller, so the regressor is not
the least squares one; for one sample with one feature every prediction is zero. -/
theorem C99_all_variance_violated (pca : PcaFn) (pinv : PinvFn)
    (hpca : ∀ n d (X : Matrix (Fin n) (Fin d) ℝ), IsPca X (pca n d X).U (pca n d X).l)
    (hpinv : ∀ n d (X : Matrix (Fin n) (Fin d) ℝ), IsPinv X (pinv n d X)) :
    ∃ st', trainOptimal pca pinv false (⟨some 1, none⟩ : Optimal 1 1) (!![1] : Matrix (Fin 1) (Fin 1) ℝ)
        (!![1] : Matrix (Fin 1) (Fin 1) ℝ) = (st', .ok ()) ∧ ∀ x, predictR false st'.R x = .ok 0 := by
  have ht := C99_trains pca pinv hpca false (⟨some 1, none⟩ : Optimal 1 1) (!![1] : Matrix (Fin 1) (Fin 1) ℝ)
        (!![1] : Matrix (Fin 1) (Fin 1) ℝ)
  obtain ⟨st', hst⟩ : ∃ st', trainOptimal pca pinv false (⟨some 1, none⟩ : Optimal 1 1)
    (!![1] : Matrix (Fin 1) (Fin 1) ℝ) (!![1] : Matrix (Fin 1) (Fin 1) ℝ) = (st', .ok ()) := ⟨_, Prod.ext rfl ht⟩
  refine ⟨st', hst, fun x => ?_⟩
  obtain ⟨k, hk, B, hsh, hpr, _⟩ := C99_variance_partial pca pinv hpca hpinv false Nat.one_pos _ st' _ _ 1 rfl hst
  have hp := hpca 1 1 (!![1] : Matrix (Fin 1) (Fin 1) ℝ)
  have hk1 : (pca 1 1 (!![1] : Matrix (Fin 1) (Fin 1) ℝ)).k ≤ 1 := by
    have h1 := rank_mul_le_left (pca 1 1 (!![1] : Matrix (Fin 1) (Fin 1) ℝ)).U
      (pca 1 1 (!![1] : Matrix (Fin 1) (Fin 1) ℝ)).Uᵀ
    rw [hp.orthonormal, rank_one, Fintype.card_fin] at h1
    exact h1.trans (rank_le_width _)
  have hk0 : k = 0 := by
    by_contra hne
    have hk' : k ≤ (pca 1 1 (!![1] : Matrix (Fin 1) (Fin 1) ℝ)).k := hk
    have hlt : (⟨0, by omega⟩ : Fin (pca 1 1 (!![1] : Matrix (Fin 1) (Fin 1) ℝ)).k).val < k := Nat.pos_of_ne_zero hne
    have h2 := (hsh ⟨0, by omega⟩).1 hlt
    have hone : share (pca 1 1 (!![1] : Matrix (Fin 1) (Fin 1) ℝ)).l 1 = 1 := by
      unfold share
      rw [Finset.filter_true_of_mem (fun i _ => lt_of_lt_of_le i.2 hk1), div_self]
      exact (Finset.sum_pos (fun j _ => hp.positive j) ⟨⟨0, by omega⟩, Finset.mem_univ _⟩).ne'
    exact absurd h2 (by
      change ¬ share (pca 1 1 (!![1] : Matrix (Fin 1) (Fin 1) ℝ)).l 1 < 1
      rw [hone]; exact lt_irrefl _)
  subst hk0
  rw [hpr]
  congr 1

/-- The three regressors without regularisation are interchangeable: trained successfully on the same samples,
principal component regression, optimal linear regression and ridge regression with weight zero make the same
predictions. -/
theorem C99_agree (svd : SvdFn) (pca : PcaFn) (pinv : PinvFn)
    (hsvd : ∀ n d (X : Matrix (Fin n) (Fin d) ℝ), IsSvd X (svd n d X).U (svd n d X).s (svd n d X).V)
    (hpca : ∀ n d (X : Matrix (Fin n) (Fin d) ℝ), IsPca X (pca n d X).U (pca n d X).l)
    (hpinv : ∀ n d (X : Matrix (Fin n) (Fin d) ℝ), IsPinv X (pinv n d X))
    (bias inc : Bool) {n d q : Nat} (hn : 0 < n) (X : Matrix (Fin n) (Fin d) ℝ) (Y : Matrix (Fin n) (Fin q) ℝ)
    {p : Pcr (width bias d) q} {o : Optimal (width bias d) q} {r : Irl ℝ (width bias d) q}
    (hr : train bias (newIrl (0 : ℝ) inc (width bias d) q) X Y = (r, .ok ()))
    (ho : trainOptimal pca pinv bias ⟨none, none⟩ X Y = (o, .ok ()))
    (hp : trainPcr svd bias ⟨none, none, none⟩ X Y = (p, .ok ())) (x : Fin d → ℝ) :
    predictPcr bias p x = predict bias r x ∧ predictR bias o.R x = predict bias r x := by
  obtain ⟨A1, b1, h1, hL1⟩ := C97_least_squares svd hsvd bias _ p X Y (Or.inl rfl) hp
  obtain ⟨A2, b2, h2, hL2⟩ := C99_least_squares pca pinv hpca hpinv bias hn _ o X Y rfl ho
  obtain ⟨hdet, hst⟩ := trainCore_ok hr
  obtain ⟨W, hW⟩ : ∃ W, W = (normal 0 (addBias bias X))⁻¹ * ((addBias bias X)ᵀ * Y) := ⟨_, rfl⟩
  obtain ⟨G, hG⟩ : ∃ G, G = (addBias bias X)ᵀ * addBias bias X := ⟨_, rfl⟩
  have hnorm : normal (0 : ℝ) (addBias bias X) = G := by
    rw [normal_eq, hG]
    have : (diagonal fun _ => (0 : ℝ)) = (0 : Matrix (Fin (width bias d)) (Fin (width bias d)) ℝ) := diagonal_zero
    rw [this, add_zero]
  have hdet' : IsUnit G.det := by
    rw [← hnorm]; exact isUnit_iff_ne_zero.2 hdet
  have hN : (addBias bias X)ᵀ * (addBias bias X * W) = (addBias bias X)ᵀ * Y := by
    rw [← Matrix.mul_assoc, ← hG, hW, hnorm, ← Matrix.mul_assoc, mul_nonsing_inv _ hdet', Matrix.one_mul]
  have hM : W = (addBias bias X)ᵀ * (addBias bias X * (G⁻¹ * W)) := by
    rw [← Matrix.mul_assoc, ← Matrix.mul_assoc, ← hG, mul_nonsing_inv _ hdet', Matrix.one_mul]
  have hL3 := leastSquaresMap bias hN hM
  have h3 : predict bias r x = .ok (x ᵥ* partA bias W + partB bias W) := by
    rw [← addBias1_vecMul, hst, hW]
    rfl
  obtain ⟨rfl, rfl⟩ := leastSquaresMap_unique bias hL3 hL1
  obtain ⟨rfl, rfl⟩ := leastSquaresMap_unique bias hL3 hL2
  exact ⟨(h1 x).trans h3.symm, (h2 x).trans h3.symm⟩

example : ∃ (pca : PcaFn) (pinv : PinvFn),
    (∀ n d (X : Matrix (Fin n) (Fin d) ℝ), IsPca X (pca n d X).U (pca n d X).l) ∧
    (∀ n d (X : Matrix (Fin n) (Fin d) ℝ), IsPinv X (pinv n d X)) ∧
    (trainOptimal pca pinv true (⟨none, none⟩ : Optimal 2 1) (!![0; 1; 2] : Matrix (Fin 3) (Fin 1) ℝ)
      (!![1; 3; 4] : Matrix (Fin 3) (Fin 1) ℝ)).2 = .ok () ∧
    (train true (newIrl (0 : ℝ) false _ _) (!![0; 1; 2] : Matrix (Fin 3) (Fin 1) ℝ)
      (!![1; 3; 4] : Matrix (Fin 3) (Fin 1) ℝ)).2 = .ok () := by
  obtain ⟨pca, pinv, h, h'⟩ := exists_lawful
  refine ⟨pca, pinv, h, h', C99_trains pca pinv h true _ _ _, ?_⟩
  unfold train
  rw [trainCore_of_det]
  obtain ⟨Z, hZ⟩ : ∃ Z : Matrix (Fin 3) (Fin 2) ℝ, Z = addBias true (!![0; 1; 2] : Matrix (Fin 3) (Fin 1) ℝ) := ⟨_, rfl⟩
  have hZ' : Z = !![0, 1; 1, 1; 2, 1] := by
    rw [hZ]; ext i j; fin_cases i <;> fin_cases j <;> rfl
  rw [← hZ]
  change (normal 0 Z).det ≠ 0
  rw [normal_eq, hZ', det_fin_two]
  simp [mul_apply, Fin.sum_univ_three]
  norm_num

end Menpofit
