import Verif.Lemmas.SameSpace
import Verif.Lemmas.Expression
import Verif.Spec.Reparametrised
import Verif.Model.Unified
/-!
# Lemmas for C151
-/

namespace Menpofit
namespace Reparametrised
open Matrix GN Spec Optim

variable {K : Type} [Field K] [DecidableEq K] {n a m : Nat} {S Im W E : Type}

theorem ml_basis {R : Matrix (Fin n) (Fin n) K} (hR : R.det ≠ 0) (G J : Matrix (Fin m) (Fin n) K) (e : Fin m → K) :
    (solveShapeMl ((G * R)ᵀ * (J * R)) (G * R) e).map (R *ᵥ ·) = solveShapeMl (Gᵀ * J) G e := by
  have hs := SameSpace.solve_basis (Gᵀ * J) R (Gᵀ *ᵥ e) hR
  simp only [solveShapeMl, transpose_mul]
  rw [← hs, ← mulVec_mulVec, show Rᵀ * Gᵀ * (J * R) = Rᵀ * (Gᵀ * J) * R by simp only [Matrix.mul_assoc]]
  generalize npSolve (K := K) (n := n) _ _ = r
  cases r with
  | error e => rfl
  | ok q => simp only [Except.map, mulVec_neg]

theorem precompute_basis {R : Matrix (Fin n) (Fin n) K} (hR : R.det ≠ 0) (Q : Matrix (Fin m) (Fin m) K)
    (J : Matrix (Fin m) (Fin n) K) {cache : Cache n m K} (hc : precompute Q J = .ok cache) :
    ∃ cache', precompute Q (J * R) = .ok cache' ∧ R * cache'.pinvQJ = cache.pinvQJ := by
  have u : IsUnit R.det := isUnit_iff_ne_zero.2 hR
  have uT : IsUnit Rᵀ.det := by rw [det_transpose]; exact u
  have e1 : (Q * (J * R))ᵀ * (J * R) = Rᵀ * ((Q * J)ᵀ * J) * R := by
    rw [← Matrix.mul_assoc Q, transpose_mul]; simp only [Matrix.mul_assoc]
  simp only [precompute, npSolveMat, bind, Except.bind, e1] at hc ⊢
  by_cases h : ((Q * J)ᵀ * J).det = 0
  · rw [if_pos h] at hc; cases hc
  · rw [if_neg h] at hc
    have h' : (Rᵀ * ((Q * J)ᵀ * J) * R).det ≠ 0 := by
      rw [det_mul, det_mul, det_transpose]
      exact mul_ne_zero (mul_ne_zero hR h) hR
    rw [if_neg h']
    cases hc
    refine ⟨_, rfl, ?_⟩
    simp only [Matrix.mul_inv_rev]
    rw [← Matrix.mul_assoc Q, transpose_mul (Q * J) R]
    simp only [← Matrix.mul_assoc]
    rw [mul_nonsing_inv _ u, Matrix.one_mul, Matrix.mul_assoc _ (Rᵀ)⁻¹, nonsing_inv_mul _ uT, Matrix.mul_one]

/-- The relation between two runs. -/
structure PRel (R : Matrix (Fin n) (Fin n) K) (inverse : Bool) (s t : PState n m K W) : Prop where
  p : R *ᵥ t.p = s.p
  i : t.i = s.i
  cache : inverse = true → R * t.cache.pinvQJ = s.cache.pinvQJ

theorem po_rel {R : Matrix (Fin n) (Fin n) K} {env env' : Env n m K S Im W E} (hz : Spec.Reparametrised R env env')
    (inverse : Bool) (im : Im) (s t : PState n m K W) (h : PRel R inverse s t) :
    (poStep env' inverse false im t).2 = (poStep env inverse false im s).2 ∧
      ∀ e, (poStep env inverse false im s).2 = .ok e →
        PRel R inverse (poStep env inverse false im s).1 (poStep env' inverse false im t).1 := by
  have hr : (if inverse = true then solveInverse env' false t else (t.cache, solveForward env' false t)).2.map (R *ᵥ ·) =
      (if inverse = true then solveInverse env false s else (s.cache, solveForward env false s)).2 := by
    cases inverse with
    | false =>
      simp only [Bool.false_eq_true, if_false, solveForward, hz.mask, hz.aBar, hz.Q, hz.jac, h.i]
      rw [← Matrix.mul_assoc env.Q, ml_basis hz.invertible]
    | true =>
      simp only [if_true, solveInverse, Bool.false_eq_true, if_false, hz.mask, hz.aBar, h.i, Except.map, ← h.cache rfl,
        mulVec_neg, mulVec_mulVec]
  have hc1 : (if inverse = true then solveInverse env' false t else (t.cache, solveForward env' false t)).1 = t.cache := by
    cases inverse <;> simp [solveInverse]
  have hc2 : (if inverse = true then solveInverse env false s else (s.cache, solveForward env false s)).1 = s.cache := by
    cases inverse <;> simp [solveInverse]
  simp only [poStep, hc1, hc2]
  rw [← hr]
  generalize (if inverse = true then solveInverse env' false t else (t.cache, solveForward env' false t)).2 = r
  cases r with
  | error e => exact ⟨rfl, fun e he => by cases he⟩
  | ok dp =>
    have hp : R *ᵥ (if inverse = true then t.p - dp else t.p + dp) =
        if inverse = true then s.p - R *ᵥ dp else s.p + R *ᵥ dp := by
      cases inverse <;> simp [mulVec_sub, mulVec_add, h.p]
    simp only [Except.map, hz.warp, hz.target, hz.dist, hp, h.p]
    cases env.warp im (if inverse = true then s.p - R *ᵥ dp else s.p + R *ᵥ dp) with
    | error e => exact ⟨rfl, fun e he => by cases he⟩
    | ok i => exact ⟨rfl, fun e _ => ⟨hp, rfl, h.cache⟩⟩

/-! ### Explicit appearance -/

/-- The relation between two runs. -/
structure ARel (R : Matrix (Fin n) (Fin n) K) (s t : Aam.St n a m K W) : Prop where
  p : R *ᵥ t.p = s.p
  c : t.c = s.c
  i : t.i = s.i
  Jdp : t.Jdp = s.Jdp

variable {z z' : Aam.Setup n a m K S Im W E} {R : Matrix (Fin n) (Fin n) K}

omit [DecidableEq K] in
theorem jac (hz : ReparametrisedAam R z z') {s t : Aam.St n a m K W} (h : ARel R s t) (inverse : Bool) :
    Aam.jacobian z' inverse t = Aam.jacobian z inverse s * R := by
  cases inverse
  · simp [Aam.jacobian, hz.jacI, h.i]
  · simp [Aam.jacobian, hz.jacA, h.c]

omit [DecidableEq K] in
theorem app (hz : ReparametrisedAam R z z') (c : Fin a → K) : Aam.appearance z' c = Aam.appearance z c := by
  simp only [Aam.appearance, hz.aBar, hz.A]

omit [DecidableEq K] in
theorem advance_rel (hz : ReparametrisedAam R z z') {s t : Aam.St n a m K W} (h : ARel R s t) (inverse : Bool) (im : Im)
    (J : Matrix (Fin m) (Fin n) K) (dp : Fin n → K) (c c' : W → Fin a → K) (hc : ∀ i, c' i = c i) :
    (Aam.advance z' inverse im t (J * R) dp c').2 = (Aam.advance z inverse im s J (R *ᵥ dp) c).2 ∧
      ∀ e, (Aam.advance z inverse im s J (R *ᵥ dp) c).2 = .ok e →
        ARel R (Aam.advance z inverse im s J (R *ᵥ dp) c).1 (Aam.advance z' inverse im t (J * R) dp c').1 := by
  have hp : R *ᵥ Aam.updateWarp inverse t.p dp = Aam.updateWarp inverse s.p (R *ᵥ dp) := by
    cases inverse <;> simp [Aam.updateWarp, mulVec_sub, mulVec_add, h.p]
  simp only [Aam.advance, hz.warp, hz.dist, hz.target, h.p, hp]
  cases z.warp im (Aam.updateWarp inverse s.p (R *ᵥ dp)) with
  | error e => exact ⟨rfl, fun e he => by cases he⟩
  | ok i => exact ⟨rfl, fun e _ => ⟨hp, hc i, rfl, by simp only [mulVec_mulVec]⟩⟩

theorem alt_rel (hz : ReparametrisedAam R z z') (inverse : Bool) (im : Im) (s t : Aam.St n a m K W) (h : ARel R s t) :
    (Aam.altStep z' inverse false im t).2 = (Aam.altStep z inverse false im s).2 ∧
      ∀ e, (Aam.altStep z inverse false im s).2 = .ok e →
        ARel R (Aam.altStep z inverse false im s).1 (Aam.altStep z' inverse false im t).1 := by
  simp only [Aam.altStep, Aam.altAppearance, Aam.altShape, Bool.false_eq_true, if_false, jac hz h, app hz, hz.mask,
    h.i, h.Jdp, h.c, hz.A, hz.pinvA]
  rw [← ml_basis hz.invertible (Aam.jacobian z inverse s)]
  generalize solveShapeMl ((Aam.jacobian z inverse s * R)ᵀ * (Aam.jacobian z inverse s * R)) _ _ = r
  cases r with
  | error e => exact ⟨rfl, fun e he => by cases he⟩
  | ok dp => exact advance_rel hz h _ _ _ _ _ _ (fun _ => rfl)

theorem mod_rel (hz : ReparametrisedAam R z z') (inverse : Bool) (im : Im) (s t : Aam.St n a m K W) (h : ARel R s t) :
    (Aam.modStep z' inverse false im t).2 = (Aam.modStep z inverse false im s).2 ∧
      ∀ e, (Aam.modStep z inverse false im s).2 = .ok e →
        ARel R (Aam.modStep z inverse false im s).1 (Aam.modStep z' inverse false im t).1 := by
  simp only [Aam.modStep, Bool.false_eq_true, if_false, jac hz h, app hz, hz.mask, h.i, h.c, hz.aBar, hz.pinvA]
  rw [← ml_basis hz.invertible (Aam.jacobian z inverse s)]
  generalize solveShapeMl ((Aam.jacobian z inverse s * R)ᵀ * (Aam.jacobian z inverse s * R)) _ _ = r
  cases r with
  | error e => exact ⟨rfl, fun e he => by cases he⟩
  | ok dp => exact advance_rel hz h _ _ _ _ _ _ (fun _ => rfl)

theorem wib_rel (hz : ReparametrisedAam R z z') (inverse : Bool) (im : Im) (s t : Aam.St n a m K W) (h : ARel R s t) :
    (Aam.wibStep z' inverse false im t).2 = (Aam.wibStep z inverse false im s).2 ∧
      ∀ e, (Aam.wibStep z inverse false im s).2 = .ok e →
        ARel R (Aam.wibStep z inverse false im s).1 (Aam.wibStep z' inverse false im t).1 := by
  simp only [Aam.wibStep, Lighting.projectOutMat_eq, Bool.false_eq_true, if_false, jac hz h, app hz, hz.mask, h.i, h.c,
    hz.aBar, hz.pinvA, hz.A, ← Matrix.mul_assoc (1 - z.A * z.pinvA)]
  rw [← ml_basis hz.invertible ((1 - z.A * z.pinvA) * Aam.jacobian z inverse s)]
  generalize solveShapeMl (((1 - z.A * z.pinvA) * Aam.jacobian z inverse s * R)ᵀ * (Aam.jacobian z inverse s * R)) _ _ = r
  cases r with
  | error e => exact ⟨rfl, fun e he => by cases he⟩
  | ok dp => exact advance_rel hz h _ _ _ _ _ _ (fun i => by simp only [mulVec_mulVec])

/-! ### Simultaneous -/

omit [DecidableEq K] in
theorem sim_mul (A : Matrix (Fin m) (Fin a) K) (J : Matrix (Fin m) (Fin n) K) (R : Matrix (Fin n) (Fin n) K) :
    Aam.simJacobian A (J * R) = Aam.simJacobian A J *
      (reindex finSumFinEquiv finSumFinEquiv (fromBlocks (1 : Matrix (Fin a) (Fin a) K) 0 0 R)) := by
  ext r j
  rw [mul_apply, Fin.sum_univ_add]
  refine Fin.addCases (fun j => ?_) (fun j => ?_) j
  · simp [Aam.simJacobian, one_apply]
  · simp [Aam.simJacobian, mul_apply]

omit [DecidableEq K] in
theorem basis_det (R : Matrix (Fin n) (Fin n) K) :
    (reindex finSumFinEquiv finSumFinEquiv (fromBlocks (1 : Matrix (Fin a) (Fin a) K) 0 0 R)).det = R.det := by
  rw [det_reindex_self, det_fromBlocks_zero₂₁, det_one, one_mul]

omit [DecidableEq K] in
theorem basis_left (R : Matrix (Fin n) (Fin n) K) (q : Fin (a + n) → K) (i : Fin a) :
    (reindex finSumFinEquiv finSumFinEquiv (fromBlocks (1 : Matrix (Fin a) (Fin a) K) 0 0 R) *ᵥ q) (Fin.castAdd n i) =
      q (Fin.castAdd n i) := by
  rw [mulVec, dotProduct, Fin.sum_univ_add]
  simp [one_apply]

omit [DecidableEq K] in
theorem basis_right (R : Matrix (Fin n) (Fin n) K) (q : Fin (a + n) → K) (i : Fin n) :
    (reindex finSumFinEquiv finSumFinEquiv (fromBlocks (1 : Matrix (Fin a) (Fin a) K) 0 0 R) *ᵥ q) (Fin.natAdd a i) =
      (R *ᵥ fun j => q (Fin.natAdd a j)) i := by
  rw [mulVec, dotProduct, Fin.sum_univ_add]
  simp [mulVec, dotProduct]

theorem sim_solve (A : Matrix (Fin m) (Fin a) K) {R : Matrix (Fin n) (Fin n) K} (hR : R.det ≠ 0)
    (J : Matrix (Fin m) (Fin n) K) (e : Fin m → K) :
    (Aam.solveAllMl ((Aam.simJacobian A (J * R))ᵀ * Aam.simJacobian A (J * R)) (Aam.simJacobian A (J * R)) e).map
        (fun q => (q.1, R *ᵥ q.2)) =
      Aam.solveAllMl ((Aam.simJacobian A J)ᵀ * Aam.simJacobian A J) (Aam.simJacobian A J) e := by
  have hs := SameSpace.solve_basis ((Aam.simJacobian A J)ᵀ * Aam.simJacobian A J)
    (reindex finSumFinEquiv finSumFinEquiv (fromBlocks (1 : Matrix (Fin a) (Fin a) K) 0 0 R))
    ((Aam.simJacobian A J)ᵀ *ᵥ e) (by rw [basis_det]; exact hR)
  simp only [Aam.solveAllMl, sim_mul, transpose_mul]
  rw [← hs, ← mulVec_mulVec, ← Matrix.mul_assoc, Matrix.mul_assoc _ _ (Aam.simJacobian A J)]
  generalize npSolve (K := K) (n := a + n) _ _ = r
  cases r with
  | error e => rfl
  | ok q =>
    simp only [Except.map, basis_left, basis_right]
    congr 2
    funext i
    rw [show (fun i => -q (Fin.natAdd a i)) = -(fun i => q (Fin.natAdd a i)) from rfl, mulVec_neg, Pi.neg_apply]

theorem sim_rel (hz : ReparametrisedAam R z z') (inverse : Bool) (im : Im) (s t : Aam.St n a m K W) (h : ARel R s t) :
    (Aam.simStep z' inverse false im t).2 = (Aam.simStep z inverse false im s).2 ∧
      ∀ e, (Aam.simStep z inverse false im s).2 = .ok e →
        ARel R (Aam.simStep z inverse false im s).1 (Aam.simStep z' inverse false im t).1 := by
  have hs := sim_solve z.A hz.invertible (Aam.jacobian z inverse s) (z.mask s.i - Aam.appearance z s.c)
  simp only [Aam.simStep, Bool.false_eq_true, if_false, jac hz h, app hz, hz.mask, h.i, h.c, hz.A, ← hs]
  generalize Aam.solveAllMl ((Aam.simJacobian z.A (Aam.jacobian z inverse s * R))ᵀ *
    Aam.simJacobian z.A (Aam.jacobian z inverse s * R)) _ _ = r
  cases r with
  | error e => exact ⟨rfl, fun e he => by cases he⟩
  | ok q => exact advance_rel hz h _ _ _ _ _ _ (fun _ => rfl)

theorem step_rel (hz : ReparametrisedAam R z z') (alg : Aam.Alg) (inverse : Bool) (im : Im) (s t : Aam.St n a m K W)
    (h : ARel R s t) :
    (Aam.step z' alg inverse false im t).2 = (Aam.step z alg inverse false im s).2 ∧
      ∀ e, (Aam.step z alg inverse false im s).2 = .ok e →
        ARel R (Aam.step z alg inverse false im s).1 (Aam.step z' alg inverse false im t).1 := by
  cases alg with
  | simultaneous => exact sim_rel hz inverse im s t h
  | alternating => exact alt_rel hz inverse im s t h
  | modifiedAlternating => exact mod_rel hz inverse im s t h
  | wiberg => exact wib_rel hz inverse im s t h

/-! ### Constrained local and unified models -/

section
variable {l k N : Nat}

/-- `pinv` in another basis. -/
theorem mat_basis {R : Matrix (Fin n) (Fin n) K} (hR : R.det ≠ 0) (H : Matrix (Fin n) (Fin n) K)
    (B : Matrix (Fin n) (Fin m) K) : (npSolveMat (Rᵀ * H * R) (Rᵀ * B)).map (R * ·) = npSolveMat H B := by
  have u : IsUnit R.det := isUnit_iff_ne_zero.2 hR
  have uT : IsUnit Rᵀ.det := by rw [det_transpose]; exact u
  have hd : (Rᵀ * H * R).det = 0 ↔ H.det = 0 := by
    rw [det_mul, det_mul, det_transpose]
    simp [hR]
  by_cases h : H.det = 0
  · rw [npSolveMat, npSolveMat, if_pos h, if_pos (hd.2 h)]; rfl
  · rw [npSolveMat, npSolveMat, if_neg h, if_neg (fun h' => h (hd.1 h'))]
    simp only [Except.map, Matrix.mul_inv_rev, ← Matrix.mul_assoc]
    rw [mul_nonsing_inv _ u, Matrix.one_mul, Matrix.mul_assoc _ (Rᵀ)⁻¹, nonsing_inv_mul _ uT, Matrix.mul_one]

theorem clm_basis {R : Matrix (Fin n) (Fin n) K} (hR : R.det ≠ 0) (J : Matrix (Fin m) (Fin n) K) (e : Fin m → K) :
    (clmMlStep (J * R) e).map (R *ᵥ ·) = clmMlStep J e := by
  have hs := mat_basis hR (Jᵀ * J) Jᵀ
  simp only [clmMlStep, transpose_mul]
  rw [← hs, show Rᵀ * Jᵀ * (J * R) = Rᵀ * (Jᵀ * J) * R by simp only [Matrix.mul_assoc]]
  cases npSolveMat (Rᵀ * (Jᵀ * J) * R) (Rᵀ * Jᵀ) with
  | error e => rfl
  | ok q => simp only [Except.map, bind, Except.bind, pure, Except.pure, mulVec_mulVec]

omit [DecidableEq K] in
theorem gram_basis (R : Matrix (Fin n) (Fin n) K) (x : K) (J : Matrix (Fin m) (Fin n) K) :
    (x • (J * R))ᵀ * (J * R) = Rᵀ * ((x • J)ᵀ * J) * R := by
  rw [← Matrix.smul_mul, transpose_mul]
  simp only [Matrix.mul_assoc]

theorem unified_po {R : Matrix (Fin n) (Fin n) K} (hR : R.det ≠ 0) (Ja : Matrix (Fin m) (Fin n) K) (x : K)
    (Jc : Matrix (Fin l) (Fin n) K) (y : K) (prior prior' p p' : Fin n → K) (α : K) (ea : Fin m → K) (ec : Fin l → K)
    (h : ((x • Ja)ᵀ * Ja + (y • Jc)ᵀ * Jc + diagonal prior).det ≠ 0)
    (h' : ((x • (Ja * R))ᵀ * (Ja * R) + (y • (Jc * R))ᵀ * (Jc * R) + diagonal prior').det ≠ 0) :
    (Unified.projectOutStep (Ja * R) x (Jc * R) y prior' p' false α ea ec).map (R *ᵥ ·) =
      Unified.projectOutStep Ja x Jc y prior p false α ea ec := by
  have s1 := mat_basis hR ((x • Ja)ᵀ * Ja + (y • Jc)ᵀ * Jc) (x • Ja)ᵀ
  have s2 := mat_basis hR ((x • Ja)ᵀ * Ja + (y • Jc)ᵀ * Jc) (y • Jc)ᵀ
  have e0 : (x • (Ja * R))ᵀ * (Ja * R) + (y • (Jc * R))ᵀ * (Jc * R) =
      Rᵀ * ((x • Ja)ᵀ * Ja + (y • Jc)ᵀ * Jc) * R := by
    rw [gram_basis, gram_basis, Matrix.mul_add, Matrix.add_mul]
  have e1 : (x • (Ja * R))ᵀ = Rᵀ * (x • Ja)ᵀ := by rw [← Matrix.smul_mul, transpose_mul]
  have e2 : (y • (Jc * R))ᵀ = Rᵀ * (y • Jc)ᵀ := by rw [← Matrix.smul_mul, transpose_mul]
  simp only [Unified.projectOutStep, npInv, if_neg h, if_neg h']
  rw [e0, e1, e2, ← s1, ← s2]
  generalize npSolveMat _ (Rᵀ * (x • Ja)ᵀ) = r1
  generalize npSolveMat _ (Rᵀ * (y • Jc)ᵀ) = r2
  cases r1 with
  | error e => rfl
  | ok q =>
    cases r2 with
    | error e => rfl
    | ok q' =>
      simp only [Except.map, bind, Except.bind, pure, Except.pure, Bool.false_eq_true, if_false, mulVec_add, mulVec_mulVec]

theorem unified_alt {R : Matrix (Fin n) (Fin n) K} (hR : R.det ≠ 0) (Ja : Matrix (Fin m) (Fin n) K) (x : K)
    (Jc : Matrix (Fin l) (Fin n) K) (y : K) (prior prior' p p' : Fin n → K) (α : K) (ea : Fin m → K) (ec : Fin l → K) :
    (Unified.alternatingStep (Ja * R) x (Jc * R) y prior' p' false α ea ec).map (R *ᵥ ·) =
      Unified.alternatingStep Ja x Jc y prior p false α ea ec := by
  have e0 : α • ((x • (Ja * R))ᵀ * (Ja * R)) + (1 - α) • ((y • (Jc * R))ᵀ * (Jc * R)) =
      Rᵀ * (α • ((x • Ja)ᵀ * Ja) + (1 - α) • ((y • Jc)ᵀ * Jc)) * R := by
    rw [gram_basis, gram_basis, Matrix.mul_add, Matrix.add_mul]
    simp only [Matrix.mul_smul, Matrix.smul_mul]
  have e1 : α • ((x • (Ja * R))ᵀ *ᵥ ea) + (1 - α) • ((y • (Jc * R))ᵀ *ᵥ ec) =
      Rᵀ *ᵥ (α • ((x • Ja)ᵀ *ᵥ ea) + (1 - α) • ((y • Jc)ᵀ *ᵥ ec)) := by
    rw [← Matrix.smul_mul, ← Matrix.smul_mul, transpose_mul, transpose_mul, ← mulVec_mulVec, ← mulVec_mulVec,
      mulVec_add, mulVec_smul, mulVec_smul]
  simp only [Unified.alternatingStep, Bool.false_eq_true, if_false, e0, e1]
  exact SameSpace.solve_basis _ R _ hR

end

end Reparametrised
end Menpofit
