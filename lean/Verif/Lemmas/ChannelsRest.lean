import Verif.Lemmas.Channels
import Verif.Lemmas.TurnedSdm
import Verif.Model.ClmRuns
/-!
# Lemmas: unified fits, correlation filters and regression on pictures with mixed channels
-/

namespace Menpofit
namespace Mix
set_option linter.unusedSectionVars false
open Matrix GN Optim Spec MI Place Cf

/-! ### Unified fits -/

section
variable {N k a m : Nat} {Im W : Type} {τ : W → W} {U : Matrix (Fin m) (Fin m) ℝ} {im im' : Im}
  {env env' : ClmRun.UEnv N k a m Im W}

/-- The appearance part is mixed, the rest is the same. -/
structure Uni (U : Matrix (Fin m) (Fin m) ℝ) (τ : W → W) (im im' : Im) (env env' : ClmRun.UEnv N k a m Im W) : Prop where
  orth : Uᵀ * U = 1
  setTarget : env'.setTarget = env.setTarget
  shape : env'.shape = env.shape
  clmError : ∀ p, ClmRun.clmError env' im' p = ClmRun.clmError env im p
  J : env'.J = env.J
  prior : env'.prior = env.prior
  warp : ∀ s, env'.warp im' s = (env.warp im s).map τ
  mask : ∀ w, env'.mask (τ w) = U *ᵥ env.mask w
  aBar : env'.aBar = U *ᵥ env.aBar
  A : env'.U = U * env.U
  pinvU : env'.pinvU = env.pinvU * Uᵀ
  jPo : env'.jPo = U * env.jPo
  jac : ∀ c, env'.jac c = U * env.jac c
  invSigma2 : env'.invSigma2 = env.invSigma2
  invRho2 : env'.invRho2 = env.invRho2

/-- The states correspond. -/
def uSt (τ : W → W) {l : Nat} (s : ClmRun.UState k l W) : ClmRun.UState k l W := ⟨s.p, τ s.i, s.ec⟩

theorem uLook (h : Uni U τ im im' env env') (p : Fin k → ℝ) :
    ClmRun.look env' im' p = (ClmRun.look env im p).map (uSt τ) := by
  unfold ClmRun.look
  rw [h.clmError, h.shape, h.warp]
  cases env.warp im (env.shape p) with
  | error e => rfl
  | ok i =>
    simp only [Except.map, bind, Except.bind]
    cases ClmRun.clmError env im p <;> rfl

theorem uApp (h : Uni U τ im im' env env') (s : ClmRun.UState k (N * 2) W) :
    ClmRun.uAppearance env' (uSt τ s) = ClmRun.uAppearance env s := by
  unfold ClmRun.uAppearance
  simp only [uSt, h.mask, h.aBar, ← mulVec_sub, h.pinvU]
  rw [mulVec_mulVec, Matrix.mul_assoc, h.orth, Matrix.mul_one]

theorem uErr (h : Uni U τ im im' env env') (alg : ClmRun.UAlg) (s : ClmRun.UState k (N * 2) W) :
    ClmRun.imageError env' alg (uSt τ s) = U *ᵥ ClmRun.imageError env alg s := by
  cases alg
  · simp only [ClmRun.imageError, uSt, h.mask, h.aBar, ← mulVec_sub]
  · simp only [ClmRun.imageError, uApp h, h.A, h.aBar, ← mulVec_mulVec, ← mulVec_add]
    simp only [uSt, h.mask, ← mulVec_sub]

theorem uIncrement (h : Uni U τ im im' env env') (alg : ClmRun.UAlg) (prior : Bool) (α : ℝ)
    (s : ClmRun.UState k (N * 2) W) :
    ClmRun.increment env' alg prior α (uSt τ s) = ClmRun.increment env alg prior α s := by
  have sm : ∀ (r : ℝ) {l : Nat} (J : Matrix (Fin m) (Fin l) ℝ), r • (U * J) = U * (r • J) := fun r _ J => by
    rw [Matrix.mul_smul]
  have hp : (uSt τ s).p = s.p := rfl
  have hec : (uSt τ s).ec = s.ec := rfl
  cases alg
  · simp only [ClmRun.increment, uErr h, h.jPo, h.invSigma2, h.J, h.invRho2, h.prior, hp, hec, Unified.projectOutStep, sm,
      gram h.orth, vec h.orth]
    generalize (env.invSigma2 • env.jPo)ᵀ * env.jPo + (env.invRho2 • env.J)ᵀ * env.J = H
    by_cases hd : H.det = 0
    · simp only [npSolveMat, if_pos hd]; rfl
    · simp only [npSolveMat, if_neg hd, bind, Except.bind]
      cases npInv (H + diagonal env.prior) with
      | error e => rfl
      | ok V =>
        cases prior
        · simp only [Bool.false_eq_true, if_false]
          have e : (H⁻¹ * (U * env.invSigma2 • env.jPo)ᵀ) *ᵥ U *ᵥ ClmRun.imageError env ClmRun.UAlg.projectOut s =
              (H⁻¹ * (env.invSigma2 • env.jPo)ᵀ) *ᵥ ClmRun.imageError env ClmRun.UAlg.projectOut s := by
            rw [← mulVec_mulVec (M := H⁻¹), vec h.orth, mulVec_mulVec]
          rw [e]
        · rfl
  · simp only [ClmRun.increment]
    rw [uErr h, uApp h, h.jac, h.invSigma2, h.J, h.invRho2, h.prior, hp, hec]
    unfold Unified.alternatingStep
    simp only [sm, gram h.orth, vec h.orth]

theorem uni_run (h : Uni U τ im im' env env') (alg : ClmRun.UAlg) (prior : Bool) (α : ℝ) (maxIters : Int)
    (tol : ℝ) (costs : Bool) (init : Pts N 2) :
    ClmRun.uRun env' alg prior α maxIters tol costs im' init = ClmRun.uRun env alg prior α maxIters tol costs im init := by
  unfold ClmRun.uRun
  rw [h.setTarget, uLook h]
  cases ClmRun.look env im (env.setTarget init) with
  | error e => rfl
  | ok s =>
    simp only [Except.map, bind, Except.bind]
    have := run_moved (ClmRun.uMachine env alg prior α im) (ClmRun.uMachine env' alg prior α im') id id
      (fun s t => t = uSt τ s) maxIters tol
      (by rintro s t rfl; exact congrFun h.shape _)
      (by rintro s t rfl; simp only [ClmRun.uMachine, uApp h]; rfl)
      (by
        rintro s t rfl
        simp only [ClmRun.uMachine, uErr h, Unified.cost, dot h.orth]
        rfl)
      (by
        rintro s t rfl
        have hp : (uSt τ s).p = s.p := rfl
        simp only [ClmRun.uMachine, uIncrement h]
        cases ClmRun.increment env alg prior α s with
        | error e => exact ⟨rfl, fun e h => by cases h⟩
        | ok dp =>
          simp only [hp, uLook h]
          cases ClmRun.look env im (s.p + dp) with
          | error e => exact ⟨rfl, fun e h => by cases h⟩
          | ok s' =>
            simp only [Except.map, h.shape, uSt]
            exact ⟨trivial, fun _ _ => trivial⟩) costs s (uSt τ s) rfl
    rw [this, mapTrace_id]

end

/-! ### Features -/

section
variable {N c q : Nat} {R : Matrix (Fin c) (Fin c) ℝ}

/-- Mixing patch by patch as a matrix. -/
noncomputable def patchMat (R : Matrix (Fin c) (Fin c) ℝ) (N q : Nat) : Matrix (Fin (N * (c * q))) (Fin (N * (c * q))) ℝ :=
  (Matrix.of fun x y : Fin N × Fin (c * q) => if x.1 = y.1 then mat R q x.2 y.2 else 0).submatrix finProdFinEquiv.symm
    finProdFinEquiv.symm

theorem patch_vec (v : Fin (N * (c * q)) → ℝ) : patchMat R N q *ᵥ v = mixedPatches R v := by
  funext r
  unfold mixedPatches
  rw [← mat_vec]
  unfold patchMat mulVec dotProduct
  rw [← finProdFinEquiv.sum_comp, Fintype.sum_prod_type]
  simp

theorem patch_orth (hR : R * Rᵀ = 1) : patchMat R N q * (patchMat R N q)ᵀ = 1 := by
  unfold patchMat
  rw [transpose_submatrix, submatrix_mul_equiv]
  have : (Matrix.of fun x y : Fin N × Fin (c * q) => if x.1 = y.1 then mat R q x.2 y.2 else 0) *
      (Matrix.of fun x y : Fin N × Fin (c * q) => if x.1 = y.1 then mat R q x.2 y.2 else 0)ᵀ = 1 := by
    ext x y
    rw [mul_apply, Fintype.sum_prod_type]
    have ho : mat R q * (mat R q)ᵀ = 1 := mul_eq_one_comm.1 (mat_orth (q := q) hR)
    have h := congrFun (congrFun ho x.2) y.2
    rw [mul_apply] at h
    simp only [transpose_apply] at h
    have e : ∀ i : Fin N, (∑ j, (Matrix.of fun x y : Fin N × Fin (c * q) => if x.1 = y.1 then mat R q x.2 y.2 else 0) x (i, j) *
        (Matrix.of fun x y : Fin N × Fin (c * q) => if x.1 = y.1 then mat R q x.2 y.2 else 0)ᵀ (i, j) y) =
        if x.1 = i then (if y.1 = i then (1 : Matrix (Fin (c * q)) (Fin (c * q)) ℝ) x.2 y.2 else 0) else 0 := by
      intro i
      simp only [of_apply, transpose_apply]
      split_ifs with h1 h2
      · exact h
      · simp
      · simp
      · simp
    simp only [e, Finset.sum_ite_eq, Finset.mem_univ, if_true, one_apply, Prod.ext_iff]
    by_cases h1 : x.1 = y.1
    · simp [h1]
    · have h2 : ¬ y.1 = x.1 := fun h => h1 h.symm
      simp [h1, h2]
  rw [this, submatrix_one_equiv]

end

section
variable {d : Nat}

/-- Any orthogonal change of the features, with the column of ones. -/
theorem biased_orth (bias : Bool) {U : Matrix (Fin d) (Fin d) ℝ} (hU : U * Uᵀ = 1) : ∃ T', Turned.Biased bias U T' := by
  cases bias with
  | false => exact ⟨U, hU, fun X => rfl⟩
  | true =>
    obtain ⟨T, h00, h01, h10, h11⟩ : ∃ T : Matrix (Fin (d + 1)) (Fin (d + 1)) ℝ,
        (∀ i j, T (Fin.castSucc i) (Fin.castSucc j) = U i j) ∧ (∀ i, T (Fin.castSucc i) (Fin.last d) = 0) ∧
        (∀ j, T (Fin.last d) (Fin.castSucc j) = 0) ∧ T (Fin.last d) (Fin.last d) = 1 :=
      ⟨of fun i => (Fin.snoc (α := fun _ => Fin (d + 1) → ℝ) (fun i => (Fin.snoc (U i) 0 : Fin (d + 1) → ℝ))
        (Fin.snoc 0 1 : Fin (d + 1) → ℝ)) i, by simp, by simp, by simp, by simp⟩
    refine ⟨T, ?_, fun X => ?_⟩
    · show (T * Tᵀ : Matrix (Fin (d + 1)) (Fin (d + 1)) ℝ) = 1
      ext i j
      rw [mul_apply, Fin.sum_univ_castSucc]
      refine Fin.lastCases ?_ (fun i => ?_) i <;> refine Fin.lastCases ?_ (fun j => ?_) j
      · simp [h10, h11]
      · simp [h10, h11, h01, one_apply, (Fin.castSucc_ne_last j).symm]
      · simp [h10, h11, h01, one_apply, Fin.castSucc_ne_last i]
      · have := congrFun (congrFun hU i) j
        rw [mul_apply] at this
        simpa [h00, h01, one_apply] using this
    · show (of fun i => (Fin.snoc ((X * Uᵀ) i) 1 : Fin (d + 1) → ℝ)) =
        (of fun i => (Fin.snoc (X i) 1 : Fin (d + 1) → ℝ)) * Tᵀ
      ext i j
      rw [mul_apply, Fin.sum_univ_castSucc]
      refine Fin.lastCases ?_ (fun j => ?_) j
      · simp [h10, h11]
      · simp [h00, h01, mul_apply]

end

/-! ### Correlation filters -/

section
variable {k D : Nat} {R : Matrix (Fin k) (Fin k) ℝ} {F : Type}

/-- Mixing as a matrix on the vectors of the filters. -/
noncomputable def ixMat (R : Matrix (Fin k) (Fin k) ℝ) (D : Nat) : Matrix (Ix k D) (Ix k D) ℂ :=
  Matrix.of fun x y => if x.2 = y.2 then (R x.1 y.1 : ℂ) else 0

theorem ix_vec (f : Ix k D → ℂ) : ixMat R D *ᵥ f = mixedFilter R f := by
  funext x
  unfold ixMat mixedFilter mulVec dotProduct
  rw [Fintype.sum_prod_type]
  simp

theorem ix_conj : (ixMat R D)ᴴ = (ixMat R D)ᵀ := by
  ext x y
  simp only [conjTranspose_apply, transpose_apply, ixMat, of_apply]
  split_ifs <;> simp

theorem ix_energy (B : Matrix (Ix k D) (Ix k D) ℂ) : ixMat R D * B * (ixMat R D)ᵀ = mixedEnergy R B := by
  have e : ixMat R D * B = of fun x y => ∑ i, (R x.1 i : ℂ) * B (i, x.2) y := by
    ext x y
    rw [mul_apply, Fintype.sum_prod_type]
    simp [ixMat]
  ext x y
  rw [e, mul_apply, Fintype.sum_prod_type]
  simp only [of_apply, transpose_apply, ixMat, mul_ite, mul_zero, Finset.sum_ite_eq, Finset.mem_univ, if_true, mixedEnergy,
    Finset.sum_mul]
  exact Finset.sum_comm

theorem ix_orth (hR : R * Rᵀ = 1) : ixMat R D * (ixMat R D)ᵀ = 1 := by
  ext x y
  rw [mul_apply, Fintype.sum_prod_type]
  simp only [ixMat, of_apply, transpose_apply, ite_mul, zero_mul, Finset.sum_ite_eq, Finset.mem_univ, if_true, mul_ite, mul_zero]
  have h := congrFun (congrFun hR x.1) y.1
  rw [mul_apply] at h
  simp only [transpose_apply] at h
  have h' : ∑ j, (R x.1 j : ℂ) * (R y.1 j : ℂ) = ((1 : Matrix (Fin k) (Fin k) ℝ) x.1 y.1 : ℝ) := by
    rw [← h]
    push_cast
    rfl
  by_cases hxy : x.2 = y.2
  · simp only [hxy, if_true, h', one_apply, Prod.ext_iff, and_true]
    split_ifs <;> simp
  · have : x ≠ y := fun h => hxy (by rw [h])
    simp [hxy, one_apply, this]

theorem diagX_mixed (x : Spectrum k D) : diagX (mixedSpectrum R x) = diagX x * (ixMat R D)ᵀ := by
  ext j y
  rw [mul_apply, Fintype.sum_prod_type]
  simp only [diagX, of_apply, transpose_apply, ixMat, mixedSpectrum, ite_mul, zero_mul, mul_ite, mul_zero,
    Finset.sum_ite_eq, Finset.mem_univ, if_true]
  split_ifs with h
  · exact Finset.sum_congr rfl fun i _ => mul_comm _ _
  · simp

theorem sums_mixed (X : List (Spectrum k D)) (y : Fin D → ℂ) :
    mccfSums (X.map (mixedSpectrum R)) y = (mixedFilter R (mccfSums X y).1, mixedEnergy R (mccfSums X y).2) := by
  unfold mccfSums
  have hz : ((0 : Ix k D → ℂ), (0 : Matrix (Ix k D) (Ix k D) ℂ)) =
      (ixMat R D *ᵥ 0, ixMat R D * 0 * (ixMat R D)ᵀ) := by simp
  rw [← ix_vec, ← ix_energy]
  conv_lhs => rw [hz]
  generalize (0 : Ix k D → ℂ) = a
  generalize (0 : Matrix (Ix k D) (Ix k D) ℂ) = b
  induction X generalizing a b with
  | nil => rfl
  | cons x X ih =>
    simp only [List.map_cons, List.foldl_cons]
    have e1 : ixMat R D *ᵥ a + (diagX (mixedSpectrum R x))ᴴ *ᵥ y = ixMat R D *ᵥ (a + (diagX x)ᴴ *ᵥ y) := by
      rw [diagX_mixed, conjTranspose_mul, ← mulVec_mulVec, mulVec_add, ← ix_conj, conjTranspose_conjTranspose]
    have e2 : ixMat R D * b * (ixMat R D)ᵀ + (diagX (mixedSpectrum R x))ᴴ * diagX (mixedSpectrum R x) =
        ixMat R D * (b + (diagX x)ᴴ * diagX x) * (ixMat R D)ᵀ := by
      rw [diagX_mixed, conjTranspose_mul, ← ix_conj, conjTranspose_conjTranspose, Matrix.mul_add, Matrix.add_mul]
      simp only [Matrix.mul_assoc]
    rw [e1, e2]
    exact ih _ _

theorem filter_mixed (hR : R * Rᵀ = 1) (a : Ix k D → ℂ) (B : Matrix (Ix k D) (Ix k D) ℂ) (l : ℝ) :
    mccfFilter (mixedFilter R a) (mixedEnergy R B) l = mixedFilter R (mccfFilter a B l) := by
  have ho := ix_orth (D := D) hR
  have ho' := mul_eq_one_comm.1 ho
  unfold mccfFilter
  have e : mixedEnergy R B + (l : ℂ) • (1 : Matrix (Ix k D) (Ix k D) ℂ) =
      ixMat R D * (B + (l : ℂ) • 1) * (ixMat R D)ᵀ := by
    rw [← ix_energy, Matrix.mul_add, Matrix.add_mul, Matrix.mul_smul, Matrix.smul_mul, Matrix.mul_one, ho]
  rw [e, Matrix.mul_inv_rev, Matrix.mul_inv_rev, inv_eq_right_inv ho', inv_eq_right_inv ho, ← ix_vec, ← ix_vec,
    mulVec_mulVec, mulVec_mulVec]
  congr 1
  rw [Matrix.mul_assoc, Matrix.mul_assoc, ho', Matrix.mul_one]

theorem mixedFilter_add (a b : Ix k D → ℂ) (r s : ℂ) :
    r • mixedFilter R a + s • mixedFilter R b = mixedFilter R (r • a + s • b) := by
  simp only [← ix_vec, mulVec_add, mulVec_smul]

theorem mixedEnergy_add (A B : Matrix (Ix k D) (Ix k D) ℂ) (r s : ℂ) :
    r • mixedEnergy R A + s • mixedEnergy R B = mixedEnergy R (r • A + s • B) := by
  simp only [← ix_energy, Matrix.mul_add, Matrix.add_mul, Matrix.mul_smul, Matrix.smul_mul]

theorem mccf_mixed (hR : R * Rᵀ = 1) {back : (Ix k D → ℂ) → F} {β : F → F} (hb : ∀ f, back (mixedFilter R f) = β (back f))
    (X : List (Spectrum k D)) (y : Fin D → ℂ) (l : ℝ) :
    mccf back (X.map (mixedSpectrum R)) y l = mixedExpert R β (mccf back X y l) := by
  simp only [mccf, sums_mixed, filter_mixed hR, hb, mixedExpert]

theorem imccf_mixed (hR : R * Rᵀ = 1) {back : (Ix k D → ℂ) → F} {β : F → F} (hb : ∀ f, back (mixedFilter R f) = β (back f))
    (A : Ix k D → ℂ) (B : Matrix (Ix k D) (Ix k D) ℂ) (n : ℝ) (X : List (Spectrum k D)) (y : Fin D → ℂ) (l f : ℝ) :
    imccf back (mixedFilter R A) (mixedEnergy R B) n (X.map (mixedSpectrum R)) y l f =
      mixedExpert R β (imccf back A B n X y l f) := by
  simp only [imccf, sums_mixed, mixedFilter_add, mixedEnergy_add, filter_mixed hR, hb, mixedExpert, List.length_map]

theorem mapM_map {α β γ : Type} (f : β → Except PyErr γ) (g : α → β) (l : List α) :
    (l.map g).mapM f = l.mapM fun x => f (g x) := by
  induction l with
  | nil => rfl
  | cons x l ih => simp only [List.map_cons, List.mapM_cons, ih]

theorem mapM_ok {α γ δ : Type} (f : α → Except PyErr γ) (g : γ → δ) (l : List α) :
    (l.mapM fun x => (f x).map g) = (l.mapM f).map (List.map g) := by
  induction l with
  | nil => rfl
  | cons x l ih =>
    simp only [List.mapM_cons, ih]
    cases f x with
    | error e => rfl
    | ok y =>
      simp only [Except.map, bind, Except.bind]
      cases List.mapM f l <;> rfl

/-- The patch of one landmark in one example. -/
noncomputable def pick (i : Nat) (ex : List (Spectrum k D)) : Except PyErr (Spectrum k D) :=
  match ex[i]? with
  | some p => .ok p
  | none => .error .indexError

theorem train_eq (back : (Ix k D → ℂ) → F) (y : Fin D → ℂ) (l : ℝ) (e : List (Spectrum k D)) (es : List (List (Spectrum k D))) :
    trainEnsemble back y l (e :: es) =
      ((List.range e.length).mapM fun i => ((e :: es).mapM (pick i)).bind fun P => .ok (mccf back P y l)).bind fun X =>
        .ok ⟨es.length + 1, X⟩ := rfl

/-- The increment of one expert. -/
noncomputable def more (back : (Ix k D → ℂ) → F) (y : Fin D → ℂ) (l n : ℝ) (old : Option (MccfOut F k D))
    (P : List (Spectrum k D)) : Except PyErr (MccfOut F k D) :=
  match old with
  | none => .error .indexError
  | some old => .ok (imccf back old.sXY old.sXX n P y l 1)

theorem increment_eq (back : (Ix k D → ℂ) → F) (y : Fin D → ℂ) (l : ℝ) (st : Ensemble F k D) (e : List (Spectrum k D))
    (es : List (List (Spectrum k D))) :
    incrementEnsemble back y l st (e :: es) =
      ((List.range e.length).mapM fun i => ((e :: es).mapM (pick i)).bind fun P =>
        more back y l ((st.nImages + (e :: es).length : ℕ) : ℝ) st.experts[i]? P).bind fun X =>
        .ok ⟨st.nImages + (e :: es).length, X⟩ := by
  unfold incrementEnsemble
  simp only [bind]
  refine congrArg (fun f : Nat → Except PyErr (MccfOut F k D) => ((List.range e.length).mapM f).bind fun X =>
    (.ok ⟨st.nImages + (e :: es).length, X⟩ : Except PyErr (Ensemble F k D))) (funext fun i => ?_)
  refine congrArg (fun f => ((e :: es).mapM (pick i)).bind f) (funext fun P => ?_)
  cases st.experts[i]? <;> rfl

theorem patches_mixed (examples : List (List (Spectrum k D))) (i : Nat) :
    (examples.map (List.map (mixedSpectrum R))).mapM (pick i) =
      (examples.mapM (pick i)).map (List.map (mixedSpectrum R)) := by
  rw [mapM_map, ← mapM_ok]
  congr 1
  funext ex
  unfold pick
  rw [List.getElem?_map]
  cases ex[i]? <;> rfl

theorem train_mixed (hR : R * Rᵀ = 1) {back : (Ix k D → ℂ) → F} {β : F → F} (hb : ∀ f, back (mixedFilter R f) = β (back f))
    (y : Fin D → ℂ) (l : ℝ) (examples : List (List (Spectrum k D))) :
    trainEnsemble back y l (examples.map (List.map (mixedSpectrum R))) =
      (trainEnsemble back y l examples).map (mixedEnsemble R β) := by
  cases examples with
  | nil => rfl
  | cons e es =>
    have h2 : ∀ i : Nat, (((e :: es).map (List.map (mixedSpectrum R))).mapM (pick i)).bind
          (fun P => (.ok (mccf back P y l) : Except PyErr (MccfOut F k D))) =
        (((e :: es).mapM (pick i)).bind fun P => .ok (mccf back P y l)).map (mixedExpert R β) := by
      intro i
      rw [patches_mixed]
      cases (e :: es).mapM (pick i) with
      | error e => rfl
      | ok X => simp only [Except.map, Except.bind, mccf_mixed hR hb]
    rw [List.map_cons, train_eq, train_eq, ← List.map_cons]
    simp only [h2]
    rw [mapM_ok, List.length_map, List.length_map]
    generalize (List.range e.length).mapM (m := Except PyErr) _ = r
    cases r <;> rfl

theorem increment_mixed (hR : R * Rᵀ = 1) {back : (Ix k D → ℂ) → F} {β : F → F}
    (hb : ∀ f, back (mixedFilter R f) = β (back f)) (y : Fin D → ℂ) (l : ℝ) (st : Ensemble F k D)
    (examples : List (List (Spectrum k D))) :
    incrementEnsemble back y l (mixedEnsemble R β st) (examples.map (List.map (mixedSpectrum R))) =
      (incrementEnsemble back y l st examples).map (mixedEnsemble R β) := by
  cases examples with
  | nil => rfl
  | cons e es =>
    have h2 : ∀ (i : Nat) (n : ℝ), (((e :: es).map (List.map (mixedSpectrum R))).mapM (pick i)).bind
          (fun P => more back y l n (mixedEnsemble R β st).experts[i]? P) =
        (((e :: es).mapM (pick i)).bind fun P => more back y l n st.experts[i]? P).map (mixedExpert R β) := by
      intro i n
      rw [patches_mixed]
      cases (e :: es).mapM (pick i) with
      | error e => rfl
      | ok X =>
        simp only [Except.map, Except.bind, mixedEnsemble, List.getElem?_map]
        cases st.experts[i]? with
        | none => rfl
        | some old => simp only [Option.map, more, mixedExpert, imccf_mixed hR hb]
    rw [List.map_cons, increment_eq, increment_eq, ← List.map_cons]
    simp only [h2]
    rw [mapM_ok, List.length_map, List.length_map]
    have hn : (mixedEnsemble R β st).nImages = st.nImages := rfl
    rw [hn]
    generalize (List.range e.length).mapM (m := Except PyErr) _ = r
    cases r <;> rfl

theorem response_mixed (hR : R * Rᵀ = 1) (f : Ix k D → ℂ) (x : Spectrum k D) (p : Fin D) :
    responseTo (fun i p => mixedFilter R f (i, p)) (mixedSpectrum R x) p = responseTo (fun i p => f (i, p)) x p := by
  have ho : (R.map (fun r : ℝ => (r : ℂ)))ᵀ * R.map (fun r : ℝ => (r : ℂ)) = 1 := by
    have := congrArg (fun M : Matrix (Fin k) (Fin k) ℝ => M.map (Complex.ofRealHom)) (mul_eq_one_comm.1 hR)
    simp only [Matrix.map_mul, transpose_map, Matrix.map_one _ (map_zero _) (map_one _)] at this
    exact this
  have h : (R.map (fun r : ℝ => (r : ℂ)) *ᵥ fun j => f (j, p)) ⬝ᵥ (R.map (fun r : ℝ => (r : ℂ)) *ᵥ fun j => x j p) =
      (fun j => f (j, p)) ⬝ᵥ fun j => x j p := by
    rw [dotProduct_mulVec, vecMul_mulVec, ho, vecMul_one]
  exact h

end

end Mix
end Menpofit
