import Verif.Spec.Channels
import Verif.Lemmas.Turned
/-!
# Lemmas: fits on pictures with mixed channels
-/

namespace Menpofit
namespace Mix
set_option linter.unusedSectionVars false
open Matrix GN Optim Spec MI Place

section
variable {c q : Nat} {R : Matrix (Fin c) (Fin c) ℝ}

/-- Mixing feature vectors as a matrix. -/
noncomputable def mat (R : Matrix (Fin c) (Fin c) ℝ) (q : Nat) : Matrix (Fin (c * q)) (Fin (c * q)) ℝ :=
  (Matrix.of fun x y : Fin c × Fin q => if x.2 = y.2 then R x.1 y.1 else 0).submatrix finProdFinEquiv.symm
    finProdFinEquiv.symm

theorem mat_vec (v : Fin (c * q) → ℝ) : mat R q *ᵥ v = mixedFeatures R v := by
  funext r
  unfold mat mixedFeatures mulVec dotProduct
  rw [← finProdFinEquiv.sum_comp, Fintype.sum_prod_type]
  simp

theorem block_orth (hR : R * Rᵀ = 1) :
    (Matrix.of fun x y : Fin c × Fin q => if x.2 = y.2 then R x.1 y.1 else 0) *
      (Matrix.of fun x y : Fin c × Fin q => if x.2 = y.2 then R x.1 y.1 else 0)ᵀ = 1 := by
  ext x y
  rw [mul_apply, Fintype.sum_prod_type]
  simp only [of_apply, transpose_apply, ite_mul, zero_mul, Finset.sum_ite_eq, Finset.mem_univ, if_true, mul_ite, mul_zero]
  have h := congrFun (congrFun hR x.1) y.1
  rw [mul_apply] at h
  simp only [transpose_apply] at h
  by_cases hxy : y.2 = x.2
  · simp only [hxy, if_true, h, one_apply, Prod.ext_iff, and_true]
  · have : x ≠ y := fun h => hxy (by rw [h])
    have h2 : ¬ x.2 = y.2 := fun h => hxy h.symm
    simp [h2, one_apply, this]

theorem mat_orth (hR : R * Rᵀ = 1) : (mat R q)ᵀ * mat R q = 1 := by
  rw [mul_eq_one_comm]
  unfold mat
  rw [transpose_submatrix, submatrix_mul_equiv, block_orth hR, submatrix_one_equiv]

end

/-! ### Solvers -/

section
variable {K : Type} [Field K] [DecidableEq K] {m n k a : Nat} {U : Matrix (Fin m) (Fin m) K}

theorem gram (hU : Uᵀ * U = 1) (I : Matrix (Fin m) (Fin k) K) (J : Matrix (Fin m) (Fin n) K) :
    (U * I)ᵀ * (U * J) = Iᵀ * J := by
  rw [transpose_mul, Matrix.mul_assoc, ← Matrix.mul_assoc Uᵀ, hU, Matrix.one_mul]

theorem vec (hU : Uᵀ * U = 1) (J : Matrix (Fin m) (Fin n) K) (e : Fin m → K) :
    (U * J)ᵀ *ᵥ (U *ᵥ e) = Jᵀ *ᵥ e := by
  rw [transpose_mul, mulVec_mulVec, Matrix.mul_assoc, hU, Matrix.mul_one]

theorem dot (hU : Uᵀ * U = 1) (x y : Fin m → K) : (U *ᵥ x) ⬝ᵥ (U *ᵥ y) = x ⬝ᵥ y := by
  rw [dotProduct_mulVec, vecMul_mulVec, hU, vecMul_one]

theorem shapeMap (H : Matrix (Fin n) (Fin n) K) {J : Matrix (Fin m) (Fin n) K} {e : Fin m → K}
    {J' : Matrix (Fin m) (Fin n) K} {e' : Fin m → K} (h : J'ᵀ *ᵥ e' = Jᵀ *ᵥ e) (P p : Fin k → K) :
    solveShapeMap H J' e' P p = solveShapeMap H J e P p := by
  unfold solveShapeMap mapStep
  simp only [h]

theorem shapeMl (H : Matrix (Fin n) (Fin n) K) {J : Matrix (Fin m) (Fin n) K} {e : Fin m → K}
    {J' : Matrix (Fin m) (Fin n) K} {e' : Fin m → K} (h : J'ᵀ *ᵥ e' = Jᵀ *ᵥ e) :
    solveShapeMl H J' e' = solveShapeMl H J e := by
  unfold solveShapeMl
  rw [h]

theorem allMap (H : Matrix (Fin (a + n)) (Fin (a + n)) K) {J : Matrix (Fin m) (Fin (a + n)) K} {e : Fin m → K}
    {J' : Matrix (Fin m) (Fin (a + n)) K} {e' : Fin m → K} (h : J'ᵀ *ᵥ e' = Jᵀ *ᵥ e) (Q c : Fin a → K) (P p : Fin n → K) :
    solveAllMap H J' e' Q c P p = solveAllMap H J e Q c P p := by
  unfold solveAllMap mapStep
  simp only [h]

theorem allMl (H : Matrix (Fin (a + n)) (Fin (a + n)) K) {J : Matrix (Fin m) (Fin (a + n)) K} {e : Fin m → K}
    {J' : Matrix (Fin m) (Fin (a + n)) K} {e' : Fin m → K} (h : J'ᵀ *ᵥ e' = Jᵀ *ᵥ e) :
    Aam.solveAllMl H J' e' = Aam.solveAllMl H J e := by
  unfold Aam.solveAllMl
  rw [h]

theorem simJac (A : Matrix (Fin m) (Fin a) K) (J : Matrix (Fin m) (Fin n) K) :
    Aam.simJacobian (U * A) (U * J) = U * Aam.simJacobian A J := by
  ext r i
  rw [mul_apply]
  unfold Aam.simJacobian
  refine Fin.addCases (fun i => ?_) (fun i => ?_) i
  · simp [mul_apply]
  · simp [mul_apply]

end

/-! ### The active appearance model algorithms -/

/-- Everything that is measured on pixels is multiplied by an orthogonal matrix. -/
structure Aam' {K S Im W E : Type} [Field K] {n a m : Nat} (U : Matrix (Fin m) (Fin m) K) (τ : W → W) (im im' : Im)
    (z z' : Aam.Setup n a m K S Im W E) : Prop where
  orth : Uᵀ * U = 1
  setTarget : z'.setTarget = z.setTarget
  target : z'.target = z.target
  warp : ∀ p, z'.warp im' p = (z.warp im p).map τ
  mask : ∀ w, z'.mask (τ w) = U *ᵥ z.mask w
  jacI : ∀ w, z'.jacI (τ w) = U * z.jacI w
  jacA : ∀ c, z'.jacA c = U * z.jacA c
  aBar : z'.aBar = U *ᵥ z.aBar
  A : z'.A = U * z.A
  pinvA : z'.pinvA = z.pinvA * Uᵀ
  priorS : z'.priorS = z.priorS
  priorA : z'.priorA = z.priorA
  dist : z'.dist = z.dist

section
variable {K : Type} [Field K] [DecidableEq K] {n a m : Nat} {S Im W E : Type} [LinearOrder E] {τ : W → W}
  {U : Matrix (Fin m) (Fin m) K} {im im' : Im} {z z' : Aam.Setup n a m K S Im W E}

/-- The states correspond. -/
def st (U : Matrix (Fin m) (Fin m) K) (τ : W → W) (s : Aam.St n a m K W) : Aam.St n a m K W :=
  ⟨s.p, s.c, τ s.i, U *ᵥ s.Jdp⟩

theorem pinv_vec (h : Aam' U τ im im' z z') (x : Fin m → K) : z'.pinvA *ᵥ (U *ᵥ x) = z.pinvA *ᵥ x := by
  rw [h.pinvA, mulVec_mulVec, Matrix.mul_assoc, h.orth, Matrix.mul_one]

theorem appearance (h : Aam' U τ im im' z z') (c : Fin a → K) : Aam.appearance z' c = U *ᵥ Aam.appearance z c := by
  unfold Aam.appearance
  rw [h.aBar, h.A, mulVec_add, mulVec_mulVec]

theorem jacobian (h : Aam' U τ im im' z z') (inverse : Bool) (s : Aam.St n a m K W) :
    Aam.jacobian z' inverse (st U τ s) = U * Aam.jacobian z inverse s := by
  unfold Aam.jacobian
  cases inverse
  · exact h.jacI s.i
  · exact h.jacA s.c

theorem error (h : Aam' U τ im im' z z') (s : Aam.St n a m K W) :
    z'.mask (st U τ s).i - Aam.appearance z' (st U τ s).c = U *ᵥ (z.mask s.i - Aam.appearance z s.c) := by
  simp only [st, appearance h, h.mask, mulVec_sub]

theorem advance (h : Aam' U τ im im' z z') (inverse : Bool) (s : Aam.St n a m K W)
    (J : Matrix (Fin m) (Fin n) K) (dp : Fin n → K) (c c' : W → Fin a → K) (hc : ∀ w, c' (τ w) = c w) :
    (Aam.advance z' inverse im' (st U τ s) (U * J) dp c').2 = (Aam.advance z inverse im s J dp c).2 ∧
    ∀ e, (Aam.advance z inverse im s J dp c).2 = .ok e →
      (Aam.advance z' inverse im' (st U τ s) (U * J) dp c').1 = st U τ (Aam.advance z inverse im s J dp c).1 := by
  have hp : (st U τ s).p = s.p := rfl
  unfold Aam.advance
  simp only [hp, h.warp]
  cases z.warp im (Aam.updateWarp inverse s.p dp) with
  | error e => exact ⟨rfl, fun e h => by cases h⟩
  | ok i' =>
    simp only [Except.map, h.target, h.dist, hc, st, ← mulVec_mulVec]
    exact ⟨trivial, fun _ _ => trivial⟩

theorem step (h : Aam' U τ im im' z z') (alg : Aam.Alg) (inverse map : Bool)
    (ha : alg = .alternating → map = true → a ≠ m) (s : Aam.St n a m K W) :
    (Aam.step z' alg inverse map im' (st U τ s)).2 = (Aam.step z alg inverse map im s).2 ∧
    ∀ e, (Aam.step z alg inverse map im s).2 = .ok e →
      (Aam.step z' alg inverse map im' (st U τ s)).1 = st U τ (Aam.step z alg inverse map im s).1 := by
  have hJ := jacobian h inverse s
  have he := error h s
  have hp : (st U τ s).p = s.p := rfl
  have hcc : (st U τ s).c = s.c := rfl
  have hj : (st U τ s).Jdp = U *ᵥ s.Jdp := rfl
  have hi : (st U τ s).i = τ s.i := rfl
  cases alg with
  | simultaneous =>
    simp only [Aam.step, Aam.simStep]
    rw [hJ, he, h.A, simJac, gram h.orth, hp, hcc, h.priorS, h.priorA, allMap _ (vec h.orth _ _), allMl _ (vec h.orth _ _)]
    generalize (if map = true then _ else _ : Except PyErr ((Fin a → K) × (Fin n → K))) = r
    cases r with
    | error e => exact ⟨rfl, fun e h => by cases h⟩
    | ok v => exact advance h inverse s _ v.2 _ _ fun _ => rfl
  | alternating =>
    have h1 : Aam.altAppearance z' map (st U τ s) = Aam.altAppearance z map s := by
      unfold Aam.altAppearance
      simp only [he]
      cases hmap : map with
      | false =>
        simp only [Bool.false_eq_true, if_false]
        rw [hj, ← mulVec_add, pinv_vec h]
      | true =>
        have hne := ha rfl hmap
        unfold Aam.npDot Aam.npAdd
        simp only [if_true, dif_neg hne, bind, Except.bind]
    have h2 : ∀ dc, Aam.altShape z' inverse map (st U τ s) dc = Aam.altShape z inverse map s dc := by
      intro dc
      unfold Aam.altShape
      simp only [he, hJ]
      cases hmap : map with
      | false =>
        simp only [Bool.false_eq_true, if_false]
        rw [h.A, gram h.orth, ← mulVec_mulVec, ← mulVec_sub, shapeMl _ (vec h.orth _ _)]
      | true =>
        have hn : ¬ m = a := fun hh => ha rfl hmap hh.symm
        unfold Aam.npDot Aam.npAdd
        simp only [if_true, dif_neg hn, bind, Except.bind]
    simp only [Aam.step, Aam.altStep, h1]
    cases Aam.altAppearance z map s with
    | error e => exact ⟨rfl, fun e h => by cases h⟩
    | ok dc =>
      simp only [h2]
      cases Aam.altShape z inverse map s dc with
      | error e => exact ⟨rfl, fun e h => by cases h⟩
      | ok dp =>
        simp only [hJ]
        exact advance h inverse s _ dp _ _ fun _ => rfl
  | modifiedAlternating =>
    simp only [Aam.step, Aam.modStep]
    rw [hJ, he, gram h.orth, hp, h.priorS, shapeMap _ (vec h.orth _ _), shapeMl _ (vec h.orth _ _)]
    generalize (if map = true then _ else _ : Except PyErr (Fin n → K)) = r
    cases r with
    | error e => exact ⟨rfl, fun e h => by cases h⟩
    | ok v => exact advance h inverse s _ v _ _ fun w => by rw [h.mask, h.aBar, ← mulVec_sub, pinv_vec h]
  | wiberg =>
    have hq : Aam.projectOutMat z' (U * Aam.jacobian z inverse s) = U * Aam.projectOutMat z (Aam.jacobian z inverse s) := by
      unfold Aam.projectOutMat
      have e : z.pinvA * Uᵀ * (U * Aam.jacobian z inverse s) = z.pinvA * Aam.jacobian z inverse s := by
        rw [Matrix.mul_assoc, ← Matrix.mul_assoc Uᵀ, h.orth, Matrix.one_mul]
      rw [h.A, h.pinvA, e, Matrix.mul_sub, Matrix.mul_assoc]
    simp only [Aam.step, Aam.wibStep]
    rw [hJ, hi, h.mask, h.aBar, ← mulVec_sub, hq, gram h.orth, hp, h.priorS, shapeMap _ (vec h.orth _ _),
      shapeMl _ (vec h.orth _ _)]
    generalize (if map = true then _ else _ : Except PyErr (Fin n → K)) = r
    cases r with
    | error e => exact ⟨rfl, fun e h => by cases h⟩
    | ok v =>
      refine advance h inverse s _ v _ _ fun w => ?_
      rw [hcc, h.mask, appearance h, ← mulVec_mulVec, ← mulVec_sub, ← mulVec_add, pinv_vec h]

theorem cost (h : Aam' U τ im im' z z') (alg : Aam.Alg) (s : Aam.St n a m K W) :
    Aam.cost z' alg (st U τ s) = Aam.cost z alg s := by
  have he := error h s
  cases alg with
  | wiberg =>
    have hi : (st U τ s).i = τ s.i := rfl
    simp only [Aam.cost, hi, h.mask, h.aBar, ← mulVec_sub]
    unfold Aam.projectOut
    rw [pinv_vec h, h.A, ← mulVec_mulVec, ← mulVec_sub, dot h.orth]
  | simultaneous => simp only [Aam.cost]; rw [he, dot h.orth]
  | alternating => simp only [Aam.cost]; rw [he, dot h.orth]
  | modifiedAlternating => simp only [Aam.cost]; rw [he, dot h.orth]

theorem mapTrace_id {S V C : Type} (x : Except PyErr (Trace S V C)) : x.map (mapTrace id id) = x := by
  cases x with
  | error e => rfl
  | ok r => simp [Except.map, mapTrace]

theorem aam_run (h : Aam' U τ im im' z z') (alg : Aam.Alg) (inverse map : Bool)
    (ha : alg = .alternating → map = true → a ≠ m) (maxIters : Int) (tol : E) (costs : Bool) (init : S) :
    Aam.run z' alg inverse map maxIters tol costs im' init = Aam.run z alg inverse map maxIters tol costs im init := by
  unfold Aam.run
  simp only [h.setTarget, h.warp]
  cases z.warp im (z.setTarget init) with
  | error e => rfl
  | ok i =>
    simp only [Except.map]
    have := run_moved (Aam.machine z alg inverse map im) (Aam.machine z' alg inverse map im') id id
      (fun s t => t = st U τ s) maxIters tol
      (by rintro s t rfl; exact congrFun h.target _) (by rintro s t rfl; rfl)
      (by rintro s t rfl; exact cost h alg s)
      (by rintro s t rfl; exact step h alg inverse map ha s) costs
      ⟨z.setTarget init, z.pinvA *ᵥ (z.mask i - z.aBar), i, 0⟩
      ⟨z.setTarget init, z'.pinvA *ᵥ (z'.mask (τ i) - z'.aBar), τ i, 0⟩
      (by rw [h.mask, h.aBar, ← mulVec_sub, pinv_vec h]; simp [st])
    rw [this, mapTrace_id]

end

/-! ### The project-out algorithms -/

section
variable {K : Type} [Field K] [DecidableEq K] {n m : Nat} {S Im W E : Type} [LinearOrder E] {τ : W → W}
  {U : Matrix (Fin m) (Fin m) K} {im im' : Im} {z z' : GN.Env n m K S Im W E}

/-- The same for the project-out algorithms. -/
structure Po {K S Im W E : Type} [Field K] {n m : Nat} (U : Matrix (Fin m) (Fin m) K) (τ : W → W) (im im' : Im)
    (z z' : GN.Env n m K S Im W E) : Prop where
  orth : Uᵀ * U = 1
  setTarget : z'.setTarget = z.setTarget
  target : z'.target = z.target
  warp : ∀ p, z'.warp im' p = (z.warp im p).map τ
  mask : ∀ w, z'.mask (τ w) = U *ᵥ z.mask w
  jac : ∀ w, z'.jac (τ w) = U * z.jac w
  aBar : z'.aBar = U *ᵥ z.aBar
  Q : z'.Q = U * z.Q * Uᵀ
  prior : z'.prior = z.prior
  dist : z'.dist = z.dist

theorem po_of_aam {a : Nat} {z z' : Aam.Setup n a m K S Im W E} (h : Aam' U τ im im' z z') :
    Po U τ im im' (Aam.projectOutEnv z) (Aam.projectOutEnv z') := by
  refine ⟨h.orth, h.setTarget, h.target, h.warp, h.mask, h.jacI, h.aBar, ?_, h.priorS, h.dist⟩
  show 1 - z'.A * z'.pinvA = U * (1 - z.A * z.pinvA) * Uᵀ
  rw [h.A, h.pinvA, Matrix.mul_sub, Matrix.mul_one, Matrix.sub_mul, mul_eq_one_comm.1 h.orth]
  simp only [Matrix.mul_assoc]

/-- The cache of the mixed problem. -/
def cacheOf (U : Matrix (Fin m) (Fin m) K) (c : Cache n m K) : Cache n m K := ⟨U * c.QJ, c.JQJ, c.pinvQJ * Uᵀ⟩

/-- The states correspond. -/
def poSt (U : Matrix (Fin m) (Fin m) K) (τ : W → W) (s : PState n m K W) : PState n m K W :=
  ⟨cacheOf U s.cache, s.p, τ s.i⟩

theorem qj (hU : Uᵀ * U = 1) (Q : Matrix (Fin m) (Fin m) K) (J : Matrix (Fin m) (Fin n) K) :
    U * Q * Uᵀ * (U * J) = U * (Q * J) := by
  have : U * Q * Uᵀ * (U * J) = U * (Q * ((Uᵀ * U) * J)) := by simp only [Matrix.mul_assoc]
  rw [this, hU, Matrix.one_mul]

theorem precompute (hU : Uᵀ * U = 1) (Q : Matrix (Fin m) (Fin m) K) (J : Matrix (Fin m) (Fin n) K) :
    GN.precompute (U * Q * Uᵀ) (U * J) = (GN.precompute Q J).map (cacheOf U) := by
  unfold GN.precompute
  simp only [qj hU, gram hU]
  unfold npSolveMat
  split_ifs
  · rfl
  · simp only [bind, Except.bind, pure, Except.pure, Except.map, cacheOf, transpose_mul, Matrix.mul_assoc]

theorem poSolve (h : Po U τ im im' z z') (inverse map : Bool) (s : PState n m K W) :
    (if inverse then solveInverse z' map (poSt U τ s) else ((poSt U τ s).cache, solveForward z' map (poSt U τ s))) =
      (cacheOf U (if inverse then solveInverse z map s else (s.cache, solveForward z map s)).1,
        (if inverse then solveInverse z map s else (s.cache, solveForward z map s)).2) := by
  cases inverse
  · simp only [Bool.false_eq_true, if_false, solveForward, poSt, h.mask, h.aBar, h.jac, h.Q, qj h.orth, gram h.orth,
      ← mulVec_sub, h.prior]
    rw [shapeMap _ (vec h.orth _ _), shapeMl _ (vec h.orth _ _)]
  · simp only [if_true, solveInverse, poSt, h.mask, h.aBar, ← mulVec_sub, h.prior]
    cases map
    · simp only [Bool.false_eq_true, if_false, cacheOf]
      rw [mulVec_mulVec, Matrix.mul_assoc, h.orth, Matrix.mul_one]
    · simp only [if_true, cacheOf]
      rw [shapeMap _ (vec h.orth _ _)]

theorem poStep (h : Po U τ im im' z z') (inverse map : Bool) (s : PState n m K W) :
    (GN.poStep z' inverse map im' (poSt U τ s)).2 = (GN.poStep z inverse map im s).2 ∧
    ∀ e, (GN.poStep z inverse map im s).2 = .ok e →
      (GN.poStep z' inverse map im' (poSt U τ s)).1 = poSt U τ (GN.poStep z inverse map im s).1 := by
  unfold GN.poStep
  simp only [poSolve h]
  cases (if inverse then solveInverse z map s else (s.cache, solveForward z map s)).2 with
  | error e => exact ⟨rfl, fun e h => by cases h⟩
  | ok dp =>
    have hp : (poSt U τ s).p = s.p := rfl
    simp only [hp, h.warp]
    cases z.warp im (if inverse then s.p - dp else s.p + dp) with
    | error e => exact ⟨rfl, fun e h => by cases h⟩
    | ok i' =>
      simp only [Except.map, h.target, h.dist]
      exact ⟨trivial, fun _ _ => rfl⟩

theorem po_run (h : Po U τ im im' z z') (inverse : Bool) (tol : E) (cache : Cache n m K) (init : S)
    (maxIters : Int) (costs map : Bool) :
    (poRun z' inverse tol (cacheOf U cache) ⟨im', init, maxIters, costs, map⟩).2 =
      (poRun z inverse tol cache ⟨im, init, maxIters, costs, map⟩).2 := by
  unfold poRun
  simp only [h.setTarget, h.warp]
  cases z.warp im (z.setTarget init) with
  | error e => rfl
  | ok i =>
    simp only [Except.map]
    have := run_moved (poMachine z inverse map im) (poMachine z' inverse map im') id id
      (fun s t => t = poSt U τ s) maxIters tol
      (by rintro s t rfl; exact congrFun h.target _) (by rintro s t rfl; rfl)
      (by
        rintro s t rfl
        simp only [poMachine, poSt, h.mask, h.aBar, h.Q, ← mulVec_sub]
        rw [mulVec_mulVec, Matrix.mul_assoc, h.orth, Matrix.mul_one, ← mulVec_mulVec, dot h.orth])
      (by rintro s t rfl; exact poStep h inverse map s) costs
      ⟨cache, z.setTarget init, i⟩ ⟨cacheOf U cache, z.setTarget init, τ i⟩ rfl
    rw [this, mapTrace_id]

theorem po_whole (h : Po U τ im im' z z') (inverse : Bool) (tol : E) (J : Matrix (Fin m) (Fin n) K) (init : S)
    (maxIters : Int) (costs map : Bool) :
    ((GN.precompute z'.Q (U * J)).bind fun c => (poRun z' inverse tol c ⟨im', init, maxIters, costs, map⟩).2) =
      (GN.precompute z.Q J).bind fun c => (poRun z inverse tol c ⟨im, init, maxIters, costs, map⟩).2 := by
  rw [h.Q, precompute h.orth]
  cases GN.precompute z.Q J with
  | error e => rfl
  | ok c =>
    simp only [Except.map, Except.bind]
    exact po_run h inverse tol c init maxIters costs map

end

end Mix
end Menpofit
