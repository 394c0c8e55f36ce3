import Verif.Lemmas.Descent
import Verif.Lemmas.Spectral
/-!
# C135: supervised descent training improves the training shapes
-/

namespace Menpofit
open Sdm Spec SdmReg Reg GN Matrix

section
variable {K V I : Type} [Field K] [LinearOrder K] [IsStrictOrderedRing K] {d q : Nat}

/-- **C135**, for any class of regressors that predict their training data at least as well as zero does: the summed
squared distance of the training shapes from the ground truth never rises from one stage to the next, nor over the
whole training. -/
theorem C135_any_regressor {Row R : Type} (ops : RegOps Row (Fin q → K) R) (hz : BeatsZero ops)
    (co : Coord V (Fin q → K)) (hco : ∀ w, co.proj (co.inst w) = w) (feat : I → V → Row) (junk : Nat → Fin q → K)
    (n : Nat) (regs : List R) (ims : List I) (gts : List V) (cur : List (List V))
    (h1 : ims.length = cur.length) (h2 : gts.length = cur.length) (c : Nat) (hc : ∀ ss ∈ cur, ss.length = c)
    (r : List R × List (List V) × List (Stage V (Fin q → K) Row))
    (h : Sdm.train ops co feat junk n false regs ims gts cur = .ok r) :
    ((cur :: r.2.2.map Stage.after).map (totalError co.proj gts)).Pairwise (fun a b => b ≤ a) ∧
      totalError co.proj gts r.2.1 ≤ totalError co.proj gts cur := by
  unfold Sdm.train at h
  rw [if_neg (by simp)] at h
  obtain ⟨dl, hd, h⟩ := bind_ok h
  have e := computeDelta_ok hd h2 hc
  subst e
  obtain ⟨-, k2, k3⟩ := stages_ok hco n 0 _ _ _ r h h1 h2 rfl rfl
  obtain ⟨new, k4, k5⟩ := stages_train n 0 _ _ _ r h
  refine chain_mono r.2.2 cur r.2.1 ?_ k3
  intro s hs
  obtain ⟨reg, hreg⟩ : ∃ reg, ops.train s.features s.delta = .ok reg ∧ s.predicted = ops.predict reg s.features := by
    clear k3 k2 k4 h
    obtain ⟨l, hl⟩ : ∃ l, l = r.2.2 := ⟨_, rfl⟩
    rw [← hl] at hs k5
    clear hl
    induction k5 with
    | nil => cases hs
    | cons hx _ ih =>
      rcases List.mem_cons.mp hs with rfl | hs
      · exact ⟨_, hx⟩
      · exact ih hs
  exact stage_improves hz (k2 s hs) hreg.1 hreg.2

/-- **C135** for the default regressors (`IRLRegression`, with or without bias), any non-negative regulariser: after
every stage of the training the shapes are in total at least as close to the ground truth as before. -/
theorem C135_newton_partial (alpha : K) (ha : 0 ≤ alpha) (bias incrementable : Bool)
    (co : Coord V (Fin q → K)) (hco : ∀ w, co.proj (co.inst w) = w) (feat : I → V → Fin d → K)
    (junk : Nat → Fin q → K) (n : Nat) (regs : List (Irl K (width bias d) q)) (ims : List I) (gts : List V)
    (cur : List (List V)) (h1 : ims.length = cur.length) (h2 : gts.length = cur.length) (c : Nat)
    (hc : ∀ ss ∈ cur, ss.length = c) (r)
    (h : Sdm.train (irlOps alpha bias incrementable d q) co feat junk n false regs ims gts cur = .ok r) :
    ((cur :: r.2.2.map Stage.after).map (totalError co.proj gts)).Pairwise (fun a b => b ≤ a) ∧
      totalError co.proj gts r.2.1 ≤ totalError co.proj gts cur :=
  C135_any_regressor _ (irl_beatsZero ha bias incrementable) co hco feat junk n regs ims gts cur h1 h2 c hc r h

/-- **C135**: with a bias and no regulariser, after every stage the shapes of the training set are off by nothing on
average: their offsets from the ground truth add up to zero. -/
theorem C135_no_drift (incrementable : Bool)
    (co : Coord V (Fin q → K)) (hco : ∀ w, co.proj (co.inst w) = w) (feat : I → V → Fin d → K)
    (junk : Nat → Fin q → K) (n : Nat) (regs : List (Irl K (width true d) q)) (ims : List I) (gts : List V)
    (cur : List (List V)) (h1 : ims.length = cur.length) (h2 : gts.length = cur.length) (c : Nat)
    (hc : ∀ ss ∈ cur, ss.length = c) (r)
    (h : Sdm.train (irlOps 0 true incrementable d q) co feat junk n false regs ims gts cur = .ok r) :
    ∀ s ∈ r.2.2, totalOffset co.proj gts s.after = 0 := by
  unfold Sdm.train at h
  rw [if_neg (by simp)] at h
  obtain ⟨dl, hd, h⟩ := bind_ok h
  have e := computeDelta_ok hd h2 hc
  subst e
  obtain ⟨-, k2, -⟩ := stages_ok hco n 0 _ _ _ r h h1 h2 rfl rfl
  obtain ⟨new, -, k5⟩ := stages_train n 0 _ _ _ r h
  intro s hs
  have hcs := k2 s hs
  obtain ⟨reg, ht, hp⟩ : ∃ reg, (irlOps (0 : K) true incrementable d q).train s.features s.delta = .ok reg ∧
      s.predicted = (irlOps 0 true incrementable d q).predict reg s.features := by
    clear k2 h hcs
    obtain ⟨l, hl⟩ : ∃ l, l = r.2.2 := ⟨_, rfl⟩
    rw [← hl] at hs k5
    clear hl
    induction k5 with
    | nil => cases hs
    | cons hx _ ih =>
      rcases List.mem_cons.mp hs with rfl | hs
      · exact ⟨_, hx⟩
      · exact ih hs
  obtain ⟨hl, W, hpr, -, hn⟩ := irl_trained ht
  -- offsets after the stage: targets minus predictions
  have e1 : totalOffset co.proj gts s.after = (List.zipWith (fun y p => y - p) s.delta s.predicted).sum := by
    unfold totalOffset
    rw [perShape_zipWith (fun g s => co.proj g - co.proj s), perShape_const (fun g => g) gts s.before s.after hcs.counts]
    have : List.zipWith (fun g t => co.proj g - co.proj t) (perShape (fun g _ => g) gts s.before) s.after.flatten =
        List.zipWith (fun g w => co.proj g - w) (perShape (fun g _ => g) gts s.before) (s.after.flatten.map co.proj) := by
      rw [List.zipWith_map_right]
    rw [this, hcs.steps]
    have shift : ∀ (G B : List V) (P : List (Fin q → K)),
        List.zipWith (fun g w => co.proj g - w) G (List.zipWith (fun c e => co.proj c + e) B P) =
          List.zipWith (fun y p => y - p) (List.zipWith (fun g c => co.proj g - co.proj c) G B) P := by
      intro G
      induction G with
      | nil => intro B P; simp
      | cons g G ih =>
        intro B P
        cases B with
        | nil => simp
        | cons b B =>
          cases P with
          | nil => simp
          | cons p P => simp only [List.zipWith_cons_cons, ih, List.cons.injEq, and_true]; abel
    rw [shift, hcs.targets, ← perShape_zipWith]
  rw [e1, hp, hpr]
  have e2 : List.zipWith (fun y p => y - p) s.delta (List.ofFn fun i => (addBias true (stack s.features) * W) i) =
      List.ofFn fun i : Fin s.features.length => stack s.delta (Fin.cast hl.symm i) -
        (addBias true (stack s.features) * W) i := by
    apply List.ext_get
    · simp [hl]
    · intro i a b
      simp only [List.get_eq_getElem, List.getElem_zipWith, List.getElem_ofFn]
      rfl
  rw [e2, List.sum_ofFn]
  rw [normal_eq] at hn
  have hz : (diagonal fun _ : Fin (width true d) => (0 : K)) = 0 := by ext i j; simp [diagonal_apply]
  rw [hz, add_zero, Matrix.mul_assoc] at hn
  funext j
  have := congrFun (congrFun hn (Fin.last d)) j
  simp only [Matrix.mul_apply (M := (addBias true (stack s.features))ᵀ), transpose_apply, addBias_row, addBias1,
    of_apply] at this
  have hlast : ∀ x : Fin d → K, (Fin.snoc x 1 : Fin (d + 1) → K) (Fin.last d) = 1 := fun x => Fin.snoc_last _ _
  simp only [hlast, one_mul] at this
  simp only [Finset.sum_apply, Pi.sub_apply, Finset.sum_sub_distrib, Pi.zero_apply]
  rw [this]
  exact sub_self _

end

/-- **C135** for principal component regression. -/
theorem C135_pcr {V I : Type} {d q : Nat} (svd : SvdFn)
    (hsvd : ∀ n d (X : Matrix (Fin n) (Fin d) ℝ), IsSvd X (svd n d X).U (svd n d X).s (svd n d X).V)
    (variance : Option ℝ) (bias : Bool)
    (co : Coord V (Fin q → ℝ)) (hco : ∀ w, co.proj (co.inst w) = w) (feat : I → V → Fin d → ℝ)
    (junk : Nat → Fin q → ℝ) (n : Nat) (regs : List (Pcr (width bias d) q)) (ims : List I) (gts : List V)
    (cur : List (List V)) (h1 : ims.length = cur.length) (h2 : gts.length = cur.length) (c : Nat)
    (hc : ∀ ss ∈ cur, ss.length = c) (r)
    (h : Sdm.train (pcrOps svd variance bias d q) co feat junk n false regs ims gts cur = .ok r) :
    ((cur :: r.2.2.map Stage.after).map (totalError co.proj gts)).Pairwise (fun a b => b ≤ a) ∧
      totalError co.proj gts r.2.1 ≤ totalError co.proj gts cur := by
  refine C135_any_regressor _ ?_ co hco feat junk n regs ims gts cur h1 h2 c hc r h
  intro xs ys st ht
  simp only [pcrOps] at ht
  obtain ⟨o, ho⟩ : ∃ o, trainPcr svd bias ⟨variance, none, none⟩ (stack xs) (stack ys) = o := ⟨_, rfl⟩
  rw [ho] at ht
  obtain ⟨st', res⟩ := o
  cases res with
  | error e => cases ht
  | ok u =>
    have hr : st' = st := by simpa [Except.map] using ht
    subst hr
    have hl : xs.length = ys.length := by
      by_contra hne
      unfold trainPcr trainPcrCore tdot at ho
      simp only [dif_neg hne] at ho
      split at ho <;> simp at ho
    have gen : ∀ (n m : Nat) (e : n = m) (Y : Matrix (Fin m) (Fin q) ℝ) (X : Matrix (Fin n) (Fin d) ℝ),
        trainPcr svd bias ⟨variance, none, none⟩ X Y =
          trainPcr svd bias ⟨variance, none, none⟩ X (Matrix.of fun i => Y (Fin.cast e i)) := by
      rintro n _ rfl Y X
      rfl
    rw [gen _ _ hl] at ho
    have hs := hsvd xs.length (width bias d) (addBias bias (stack xs))
    obtain ⟨k, hk, -, hne, hV, hR⟩ := trainPcrCore_ok ho
    obtain ⟨Vk, hVk⟩ : ∃ Vk, Vk = (svd xs.length (width bias d) (addBias bias (stack xs))).V.submatrix (Fin.castLE hk) id :=
      ⟨_, rfl⟩
    obtain ⟨B, hB⟩ : ∃ B, B = (diagonal fun i => ((svd xs.length (width bias d) (addBias bias (stack xs))).s (Fin.castLE hk i))⁻¹) *
        (((svd xs.length (width bias d) (addBias bias (stack xs))).U.submatrix id (Fin.castLE hk))ᵀ *
          (Matrix.of fun i => stack ys (Fin.cast hl i))) := ⟨_, rfl⟩
    have hpred : (pcrOps svd variance bias d q).predict st' xs =
        List.ofFn fun i => (addBias bias (stack xs) * Vkᵀ * B) i := by
      simp only [pcrOps]
      apply List.ext_get
      · simp
      · intro i a b
        have hp : ∀ x, predictPcr bias st' x = .ok (addBias1 bias x ᵥ* Vkᵀ ᵥ* B) := by
          intro x
          unfold predictPcr
          rw [hV, hR]
          simp only
          congr 1
          rw [hB, hVk, vecMul_vecMul, Matrix.mul_assoc, ← Matrix.mul_assoc _ (_ᵀ),
            submatrix_right hs.right (Fin.castLE_injective hk), Matrix.one_mul]
        simp only [List.get_eq_getElem, List.getElem_map, List.getElem_ofFn, hp, orZero]
        funext j
        rw [vecMul_vecMul]
        refine Eq.trans ?_ (congrFun (congrFun (Matrix.mul_assoc (addBias bias (stack xs)) Vkᵀ B) _) j).symm
        cases bias <;> rfl
    have hN := svd_truncated hs (Fin.castLE_injective hk) hne (Matrix.of fun i => stack ys (Fin.cast hl i))
    rw [← hVk, ← hB] at hN
    have hmin := normal_least hN 0
    rw [hpred, sum_rows ys hl.symm, sum_rows_zero]
    have a1 : ∑ i, ∑ j, ((addBias bias (stack xs) * Vkᵀ * B) i j - stack ys (Fin.cast hl i) j) ^ 2 =
        sqSize (addBias bias (stack xs) * Vkᵀ * B - Matrix.of fun i => stack ys (Fin.cast hl i)) := rfl
    have a2 : sqSize (addBias bias (stack xs) * Vkᵀ * (0 : Matrix (Fin k) (Fin q) ℝ) - Matrix.of fun i => stack ys (Fin.cast hl i)) =
        ∑ i, ∑ j, (stack ys i j) ^ 2 := by
      have : ∀ (n m : Nat) (e : n = m) (Y : Matrix (Fin m) (Fin q) ℝ),
          sqSize ((0 : Matrix (Fin n) (Fin q) ℝ) - Matrix.of fun i => Y (Fin.cast e i)) = ∑ i, ∑ j, (Y i j) ^ 2 := by
        rintro n _ rfl Y
        simp [sqSize]
      rw [Matrix.mul_zero]
      exact this _ _ _ _
    have a3 := sqSize_nonneg (addBias bias (stack xs) * Vkᵀ * ((0 : Matrix (Fin k) (Fin q) ℝ) - B))
    rw [a2] at hmin
    rw [a1]
    linarith

end Menpofit
