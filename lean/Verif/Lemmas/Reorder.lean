import Verif.Spec.Reorder
import Verif.Lemmas.PlacementRuns
import Verif.Lemmas.Renumber
/-!
# Lemmas: fits with renumbered landmarks and reordered features
-/

namespace Menpofit
namespace Renum
open MI Spec Matrix GN Optim Place

section
variable {m n k l : Nat} (ρ : Equiv.Perm (Fin m))

theorem rows_gram (A : Matrix (Fin m) (Fin n) ℝ) (B : Matrix (Fin m) (Fin k) ℝ) :
    (reorderRows ρ A)ᵀ * reorderRows ρ B = Aᵀ * B := by
  ext i j
  simp only [Matrix.mul_apply, Matrix.transpose_apply, reorderRows, Matrix.submatrix_apply, id]
  exact Equiv.sum_comp ρ fun x => A x i * B x j

theorem rows_vec (A : Matrix (Fin m) (Fin n) ℝ) (e : Fin m → ℝ) :
    (reorderRows ρ A)ᵀ *ᵥ (fun i => e (ρ i)) = Aᵀ *ᵥ e := by
  funext i
  simp only [mulVec, dotProduct, Matrix.transpose_apply, reorderRows, Matrix.submatrix_apply, id]
  exact Equiv.sum_comp ρ fun x => A x i * e x

theorem cols_vec (P : Matrix (Fin n) (Fin m) ℝ) (e : Fin m → ℝ) :
    reorderCols ρ P *ᵥ (fun i => e (ρ i)) = P *ᵥ e := by
  funext i
  simp only [mulVec, dotProduct, reorderCols, Matrix.submatrix_apply, id]
  exact Equiv.sum_comp ρ fun x => P i x * e x

theorem cols_mul (P : Matrix (Fin n) (Fin m) ℝ) (B : Matrix (Fin m) (Fin k) ℝ) :
    reorderCols ρ P * reorderRows ρ B = P * B := by
  ext i j
  simp only [Matrix.mul_apply, reorderCols, reorderRows, Matrix.submatrix_apply, id]
  exact Equiv.sum_comp ρ fun x => P i x * B x j

theorem rows_apply (A : Matrix (Fin m) (Fin n) ℝ) (c : Fin n → ℝ) :
    reorderRows ρ A *ᵥ c = fun i => (A *ᵥ c) (ρ i) := rfl

theorem rows_mul (A : Matrix (Fin m) (Fin n) ℝ) (B : Matrix (Fin n) (Fin k) ℝ) :
    reorderRows ρ A * B = reorderRows ρ (A * B) := rfl

theorem rows_sub (A B : Matrix (Fin m) (Fin n) ℝ) : reorderRows ρ A - reorderRows ρ B = reorderRows ρ (A - B) := rfl

theorem rows_smul (c : ℝ) (A : Matrix (Fin m) (Fin n) ℝ) : c • reorderRows ρ A = reorderRows ρ (c • A) := rfl

theorem rows_transpose (A : Matrix (Fin m) (Fin n) ℝ) : (reorderRows ρ A)ᵀ = reorderCols ρ Aᵀ := rfl

theorem mul_cols (P : Matrix (Fin n) (Fin n) ℝ) (B : Matrix (Fin n) (Fin m) ℝ) :
    P * reorderCols ρ B = reorderCols ρ (P * B) := rfl

theorem vec_dot (u v : Fin m → ℝ) : (fun i => u (ρ i)) ⬝ᵥ (fun i => v (ρ i)) = u ⬝ᵥ v :=
  Equiv.sum_comp ρ fun x => u x * v x

theorem solveMat_cols (H : Matrix (Fin n) (Fin n) ℝ) (B : Matrix (Fin n) (Fin m) ℝ) :
    npSolveMat H (reorderCols ρ B) = (npSolveMat H B).map (reorderCols ρ) := by
  unfold npSolveMat
  split
  · rfl
  · simp only [mul_cols, Except.map]

theorem shapeMl (H : Matrix (Fin n) (Fin n) ℝ) (J : Matrix (Fin m) (Fin n) ℝ) (e : Fin m → ℝ) :
    solveShapeMl H (reorderRows ρ J) (fun i => e (ρ i)) = solveShapeMl H J e := by
  unfold solveShapeMl
  rw [rows_vec]

theorem mapStep_rows (H : Matrix (Fin n) (Fin n) ℝ) (J : Matrix (Fin m) (Fin n) ℝ) (e : Fin m → ℝ) (prior p : Fin n → ℝ) :
    mapStep H (reorderRows ρ J) (fun i => e (ρ i)) prior p = mapStep H J e prior p := by
  unfold mapStep
  rw [rows_vec]

theorem shapeMap (H : Matrix (Fin n) (Fin n) ℝ) (J : Matrix (Fin m) (Fin n) ℝ) (e : Fin m → ℝ) (prior p : Fin k → ℝ) :
    solveShapeMap H (reorderRows ρ J) (fun i => e (ρ i)) prior p = solveShapeMap H J e prior p := by
  unfold solveShapeMap
  simp only [mapStep_rows]

theorem allMl {a : Nat} (H : Matrix (Fin (a + n)) (Fin (a + n)) ℝ) (J : Matrix (Fin m) (Fin (a + n)) ℝ) (e : Fin m → ℝ) :
    Aam.solveAllMl H (reorderRows ρ J) (fun i => e (ρ i)) = Aam.solveAllMl H J e := by
  unfold Aam.solveAllMl
  rw [rows_vec]

theorem allMap (H : Matrix (Fin n) (Fin n) ℝ) (J : Matrix (Fin m) (Fin n) ℝ) (e : Fin m → ℝ) (priorA c : Fin k → ℝ)
    (prior p : Fin l → ℝ) :
    solveAllMap H (reorderRows ρ J) (fun i => e (ρ i)) priorA c prior p = solveAllMap H J e priorA c prior p := by
  unfold solveAllMap
  simp only [mapStep_rows]

theorem sim_rows {a : Nat} (A : Matrix (Fin m) (Fin a) ℝ) (J : Matrix (Fin m) (Fin n) ℝ) :
    Aam.simJacobian (reorderRows ρ A) (reorderRows ρ J) = reorderRows ρ (Aam.simJacobian A J) := rfl

end

/-! ### The active appearance model algorithms -/

section
variable {N n a m : Nat} {Im W : Type} {σ : Equiv.Perm (Fin N)} {ρ : Equiv.Perm (Fin m)} {g : W → W}
  {z z' : Aam.Setup n a m ℝ (Pts N 2) Im W ℝ}

/-- The states correspond. -/
def stMap (ρ : Equiv.Perm (Fin m)) (g : W → W) (s : Aam.St n a m ℝ W) : Aam.St n a m ℝ W :=
  ⟨s.p, s.c, g s.i, fun i => s.Jdp (ρ i)⟩

theorem jacobian_st (h : ReorderedAam σ ρ g z z') (inverse : Bool) (s : Aam.St n a m ℝ W) :
    Aam.jacobian z' inverse (stMap ρ g s) = reorderRows ρ (Aam.jacobian z inverse s) := by
  unfold Aam.jacobian
  cases inverse
  · exact h.jacI s.i
  · exact h.jacA s.c

theorem error_st (h : ReorderedAam σ ρ g z z') (s : Aam.St n a m ℝ W) :
    z'.mask (stMap ρ g s).i - Aam.appearance z' (stMap ρ g s).c =
      fun i => (z.mask s.i - Aam.appearance z s.c) (ρ i) := by
  unfold Aam.appearance
  simp only [stMap, h.mask, h.aBar, h.A, rows_apply]
  rfl

theorem mean_st (h : ReorderedAam σ ρ g z z') (i : W) :
    z'.mask (g i) - z'.aBar = fun j => (z.mask i - z.aBar) (ρ j) := by
  simp only [h.mask, h.aBar]
  rfl

theorem advance_st (h : ReorderedAam σ ρ g z z') (inverse : Bool) (im : Im) (s : Aam.St n a m ℝ W)
    (J : Matrix (Fin m) (Fin n) ℝ) (dp : Fin n → ℝ) (c c' : W → Fin a → ℝ) (hc : ∀ w, c' (g w) = c w) :
    (Aam.advance z' inverse im (stMap ρ g s) (reorderRows ρ J) dp c').2 = (Aam.advance z inverse im s J dp c).2 ∧
    ∀ e, (Aam.advance z inverse im s J dp c).2 = .ok e →
      (Aam.advance z' inverse im (stMap ρ g s) (reorderRows ρ J) dp c').1 =
        stMap ρ g (Aam.advance z inverse im s J dp c).1 := by
  unfold Aam.advance
  simp only [h.warp, stMap]
  cases z.warp im (Aam.updateWarp inverse s.p dp) with
  | error e => exact ⟨rfl, fun e h => by cases h⟩
  | ok i' =>
    simp only [Except.map, h.target, h.dist, hc, rows_apply]
    exact ⟨trivial, fun _ _ => trivial⟩

theorem step_st (h : ReorderedAam σ ρ g z z') (alg : Aam.Alg) (inverse map : Bool)
    (ha : alg = .alternating → map = true → ρ = 1 ∨ a ≠ m) (im : Im) (s : Aam.St n a m ℝ W) :
    (Aam.step z' alg inverse map im (stMap ρ g s)).2 = (Aam.step z alg inverse map im s).2 ∧
    ∀ e, (Aam.step z alg inverse map im s).2 = .ok e →
      (Aam.step z' alg inverse map im (stMap ρ g s)).1 = stMap ρ g (Aam.step z alg inverse map im s).1 := by
  have hJ := jacobian_st h inverse s
  have he := error_st h s
  have hm := mean_st h s.i
  cases alg with
  | simultaneous =>
    simp only [Aam.step, Aam.simStep, hJ, he, h.A, sim_rows, rows_gram, allMap, allMl, h.priorA, h.priorS]
    have e1 : (stMap ρ g s).c = s.c := rfl
    have e2 : (stMap ρ g s).p = s.p := rfl
    rw [e1, e2]
    generalize (if map = true then _ else _ : Except PyErr ((Fin a → ℝ) × (Fin n → ℝ))) = r
    cases r with
    | error e => exact ⟨rfl, fun e h => by cases h⟩
    | ok v => exact advance_st h inverse im s _ v.2 _ _ fun _ => rfl
  | alternating =>
    have h1 : Aam.altAppearance z' map (stMap ρ g s) = Aam.altAppearance z map s := by
      unfold Aam.altAppearance
      simp only [he, h.A, h.pinvA, h.priorA]
      have e1 : (stMap ρ g s).c = s.c := rfl
      have e2 : (fun i => (z.mask s.i - Aam.appearance z s.c) (ρ i)) + (stMap ρ g s).Jdp =
          fun i => (z.mask s.i - Aam.appearance z s.c + s.Jdp) (ρ i) := rfl
      rw [e1, e2, rows_gram, cols_vec]
      cases hmap : map with
      | false => rfl
      | true =>
        simp only [if_true]
        rcases ha rfl hmap with hρ | hne
        · subst hρ; rfl
        · have hn : ¬ m = a := fun h => hne h.symm
          unfold Aam.npDot Aam.npAdd
          simp only [dif_neg hne, bind, Except.bind]
    have h2 : ∀ dc, Aam.altShape z' inverse map (stMap ρ g s) dc = Aam.altShape z inverse map s dc := by
      intro dc
      unfold Aam.altShape
      simp only [he, hJ, h.A, h.priorS, rows_gram]
      have e2 : (stMap ρ g s).p = s.p := rfl
      rw [e2]
      cases hmap : map with
      | false =>
        simp only [Bool.false_eq_true, if_false]
        exact shapeMl ρ _ _ (z.mask s.i - Aam.appearance z s.c - z.A *ᵥ dc)
      | true =>
        simp only [if_true]
        rcases ha rfl hmap with hρ | hne
        · subst hρ; rfl
        · have hn : ¬ m = a := fun h => hne h.symm
          unfold Aam.npDot
          simp only [dif_neg hn, bind, Except.bind]
    simp only [Aam.step, Aam.altStep, h1, h2, hJ]
    cases Aam.altAppearance z map s with
    | error e => exact ⟨rfl, fun e h => by cases h⟩
    | ok dc =>
      simp only
      cases Aam.altShape z inverse map s dc with
      | error e => exact ⟨rfl, fun e h => by cases h⟩
      | ok dp => exact advance_st h inverse im s _ dp _ _ fun _ => rfl
  | modifiedAlternating =>
    simp only [Aam.step, Aam.modStep, hJ, he, rows_gram, shapeMap, shapeMl, h.priorS]
    have e2 : (stMap ρ g s).p = s.p := rfl
    rw [e2]
    generalize (if map = true then _ else _ : Except PyErr (Fin n → ℝ)) = r
    cases r with
    | error e => exact ⟨rfl, fun e h => by cases h⟩
    | ok v =>
      refine advance_st h inverse im s _ v _ _ fun w => ?_
      rw [mean_st h, h.pinvA, cols_vec]
  | wiberg =>
    have hq : Aam.projectOutMat z' (reorderRows ρ (Aam.jacobian z inverse s)) =
        reorderRows ρ (Aam.projectOutMat z (Aam.jacobian z inverse s)) := by
      unfold Aam.projectOutMat
      rw [h.A, h.pinvA, cols_mul, rows_mul, rows_sub]
    have hm' : z'.mask (stMap ρ g s).i - z'.aBar = fun j => (z.mask s.i - z.aBar) (ρ j) := hm
    simp only [Aam.step, Aam.wibStep, hJ, hm', hq, rows_gram, shapeMap, shapeMl, h.priorS]
    have e2 : (stMap ρ g s).p = s.p := rfl
    rw [e2]
    generalize (if map = true then _ else _ : Except PyErr (Fin n → ℝ)) = r
    cases r with
    | error e => exact ⟨rfl, fun e h => by cases h⟩
    | ok v =>
      refine advance_st h inverse im s _ v _ _ fun w => ?_
      have e3 := error_st h { s with i := w }
      simp only [stMap] at e3 ⊢
      rw [e3, rows_apply, h.pinvA]
      congr 1
      exact cols_vec ρ _ (z.mask w - Aam.appearance z s.c + Aam.jacobian z inverse s *ᵥ v)

theorem cost_st (h : ReorderedAam σ ρ g z z') (alg : Aam.Alg) (s : Aam.St n a m ℝ W) :
    Aam.cost z' alg (stMap ρ g s) = Aam.cost z alg s := by
  have he := error_st h s
  have hm' : z'.mask (stMap ρ g s).i - z'.aBar = fun j => (z.mask s.i - z.aBar) (ρ j) := mean_st h s.i
  cases alg <;> simp only [Aam.cost, he, hm']
  · exact vec_dot ρ _ _
  · exact vec_dot ρ _ _
  · exact vec_dot ρ _ _
  · unfold Aam.projectOut
    rw [h.A, h.pinvA, cols_vec, rows_apply]
    exact vec_dot ρ (z.mask s.i - z.aBar) (z.mask s.i - z.aBar - z.A *ᵥ z.pinvA *ᵥ (z.mask s.i - z.aBar))

theorem aam_run (h : ReorderedAam σ ρ g z z') (alg : Aam.Alg) (inverse map : Bool)
    (ha : alg = .alternating → map = true → ρ = 1 ∨ a ≠ m) (maxIters : Int) (tol : ℝ) (costs : Bool) (im : Im)
    (init : Pts N 2) :
    Aam.run z' alg inverse map maxIters tol costs im (renumber σ init) =
      (Aam.run z alg inverse map maxIters tol costs im init).map (renumberTraceA σ rfl) := by
  unfold Aam.run
  simp only [h.setTarget, h.warp]
  cases z.warp im (z.setTarget init) with
  | error e => rfl
  | ok i =>
    simp only [Except.map]
    have := run_moved (Aam.machine z alg inverse map im) (Aam.machine z' alg inverse map im) (renumber σ) id
      (fun s t => t = stMap ρ g s) maxIters tol
      (by rintro s t rfl; exact h.target _) (by rintro s t rfl; rfl)
      (by rintro s t rfl; exact cost_st h alg s)
      (by rintro s t rfl; exact step_st h alg inverse map ha im s) costs
      ⟨z.setTarget init, z.pinvA *ᵥ (z.mask i - z.aBar), i, 0⟩
      ⟨z.setTarget init, z'.pinvA *ᵥ (z'.mask (g i) - z'.aBar), g i, 0⟩
      (by rw [mean_st h, h.pinvA, cols_vec]; rfl)
    rw [this]
    cases (Optim.run (Aam.machine z alg inverse map im) false maxIters tol costs
      ⟨z.setTarget init, z.pinvA *ᵥ (z.mask i - z.aBar), i, 0⟩).2 with
    | error e => rfl
    | ok r => simp [Except.map, mapTrace, renumberTraceA]

end

/-! ### The project-out algorithms -/

section
variable {N n m : Nat} {Im W : Type} {σ : Equiv.Perm (Fin N)} {ρ : Equiv.Perm (Fin m)} {g : W → W}
  {z z' : GN.Env n m ℝ (Pts N 2) Im W ℝ}

/-- The states correspond. -/
def poMap (ρ : Equiv.Perm (Fin m)) (g : W → W) (s : PState n m ℝ W) : PState n m ℝ W :=
  ⟨reorderCache ρ s.cache, s.p, g s.i⟩

theorem sub_rows (Q : Matrix (Fin m) (Fin m) ℝ) (J : Matrix (Fin m) (Fin n) ℝ) :
    Q.submatrix ρ ρ * reorderRows ρ J = reorderRows ρ (Q * J) := by
  ext i j
  simp only [Matrix.mul_apply, reorderRows, Matrix.submatrix_apply, id]
  exact Equiv.sum_comp ρ fun x => Q (ρ i) x * J x j

theorem sub_vec (Q : Matrix (Fin m) (Fin m) ℝ) (e : Fin m → ℝ) :
    Q.submatrix ρ ρ *ᵥ (fun i => e (ρ i)) = fun i => (Q *ᵥ e) (ρ i) := by
  funext i
  simp only [mulVec, dotProduct, Matrix.submatrix_apply]
  exact Equiv.sum_comp ρ fun x => Q (ρ i) x * e x

theorem poMean (h : ReorderedPo σ ρ g z z') (i : W) :
    z'.mask (g i) - z'.aBar = fun j => (z.mask i - z.aBar) (ρ j) := by
  simp only [h.mask, h.aBar]
  rfl

theorem precompute_rows (Q : Matrix (Fin m) (Fin m) ℝ) (J : Matrix (Fin m) (Fin n) ℝ) :
    precompute (Q.submatrix ρ ρ) (reorderRows ρ J) = (precompute Q J).map (reorderCache ρ) := by
  unfold precompute
  simp only [sub_rows, rows_gram]
  rw [rows_transpose, solveMat_cols]
  cases npSolveMat ((Q * J)ᵀ * J) (Q * J)ᵀ <;> rfl

theorem poSolve (h : ReorderedPo σ ρ g z z') (inverse map : Bool) (s : PState n m ℝ W) :
    (if inverse then solveInverse z' map (poMap ρ g s) else ((poMap ρ g s).cache, solveForward z' map (poMap ρ g s))) =
      (reorderCache ρ (if inverse then solveInverse z map s else (s.cache, solveForward z map s)).1,
        (if inverse then solveInverse z map s else (s.cache, solveForward z map s)).2) := by
  cases inverse
  · simp only [Bool.false_eq_true, if_false, solveForward, poMap, poMean h, h.jac, h.Q, sub_rows, rows_gram, h.prior,
      shapeMap, shapeMl]
  · simp only [if_true, solveInverse, poMap, poMean h, h.prior]
    cases map
    · simp only [Bool.false_eq_true, if_false, reorderCache, cols_vec]
    · simp only [if_true, reorderCache, shapeMap]

theorem poStep_st (h : ReorderedPo σ ρ g z z') (inverse map : Bool) (im : Im) (s : PState n m ℝ W) :
    (poStep z' inverse map im (poMap ρ g s)).2 = (poStep z inverse map im s).2 ∧
    (poStep z' inverse map im (poMap ρ g s)).1.cache = reorderCache ρ (poStep z inverse map im s).1.cache ∧
    ∀ e, (poStep z inverse map im s).2 = .ok e →
      (poStep z' inverse map im (poMap ρ g s)).1 = poMap ρ g (poStep z inverse map im s).1 := by
  unfold poStep
  simp only [poSolve h]
  cases (if inverse then solveInverse z map s else (s.cache, solveForward z map s)).2 with
  | error e => exact ⟨rfl, rfl, fun e h => by cases h⟩
  | ok dp =>
    simp only [poMap, h.warp]
    cases z.warp im (if inverse then s.p - dp else s.p + dp) with
    | error e => exact ⟨rfl, rfl, fun e h => by cases h⟩
    | ok i' =>
      simp only [Except.map, h.target, h.dist]
      exact ⟨trivial, trivial, fun _ _ => trivial⟩

theorem poLoop_cache (h : ReorderedPo σ ρ g z z') (inverse map : Bool) (im : Im) (maxIters : Int) (tol : ℝ) (costs : Bool) :
    ∀ (k : Nat) (j : Int) (eps : Option ℝ) (s : PState n m ℝ W) (tr tr' : Trace (Pts N 2) (Fin n → ℝ) ℝ),
      (maxIters - j).toNat = k →
      (loop (poMachine z' inverse map im) costs maxIters tol j eps (poMap ρ g s) tr').1.cache =
        reorderCache ρ (loop (poMachine z inverse map im) costs maxIters tol j eps s tr).1.cache := by
  intro k
  induction k with
  | zero =>
    intro j eps s tr tr' hk
    rw [loop_unfold, loop_unfold (poMachine z inverse map im), if_neg (by omega), if_neg (by omega)]
    rfl
  | succ k ih =>
    intro j eps s tr tr' hk
    rw [loop_unfold, loop_unfold (poMachine z inverse map im)]
    by_cases hg : j < maxIters ∧ goOn tol eps
    · rw [if_pos hg, if_pos hg]
      obtain ⟨h1, h2, h3⟩ := poStep_st h inverse map im s
      change ((poMachine z' inverse map im).step (poMap ρ g s)).2 = ((poMachine z inverse map im).step s).2 at h1
      change ((poMachine z' inverse map im).step (poMap ρ g s)).1.cache =
        reorderCache ρ ((poMachine z inverse map im).step s).1.cache at h2
      change ∀ e, ((poMachine z inverse map im).step s).2 = .ok e →
        ((poMachine z' inverse map im).step (poMap ρ g s)).1 = poMap ρ g ((poMachine z inverse map im).step s).1 at h3
      rcases hs1 : (poMachine z inverse map im).step s with ⟨s', x⟩
      rcases hs2 : (poMachine z' inverse map im).step (poMap ρ g s) with ⟨t', y⟩
      rw [hs1, hs2] at h1 h2 h3
      simp only at h1 h2 h3
      subst h1
      cases y with
      | error e => exact h2
      | ok e =>
        simp only
        rw [h3 e rfl]
        exact ih (j + 1) (some e) s' _ _ (by omega)
    · rw [if_neg hg, if_neg hg]; rfl

theorem poRun_st (h : ReorderedPo σ ρ g z z') (inverse : Bool) (tol : ℝ) (cache : Cache n m ℝ)
    (x : Input (Pts N 2) Im ℝ) :
    poRun z' inverse tol (reorderCache ρ cache) { x with init := renumber σ x.init } =
      (reorderCache ρ (poRun z inverse tol cache x).1,
        (poRun z inverse tol cache x).2.map (renumberTrace σ rfl)) := by
  unfold poRun
  simp only [h.setTarget, h.warp]
  cases z.warp x.im (z.setTarget x.init) with
  | error e => rfl
  | ok i =>
    simp only [Except.map]
    refine Prod.ext ?_ ?_
    · exact poLoop_cache h inverse x.map x.im x.maxIters tol false _ 0 none ⟨cache, z.setTarget x.init, i⟩ _ _ rfl
    · have := run_moved (poMachine z inverse x.map x.im) (poMachine z' inverse x.map x.im) (renumber σ) id
        (fun s t => t = poMap ρ g s) x.maxIters tol
        (by rintro s t rfl; exact h.target _) (by rintro s t rfl; rfl)
        (by
          rintro s t rfl
          simp only [poMachine, poMap, poMean h, h.Q, sub_vec]
          exact vec_dot ρ _ _)
        (by rintro s t rfl; exact ⟨(poStep_st h inverse x.map x.im s).1, (poStep_st h inverse x.map x.im s).2.2⟩) x.costs
        ⟨cache, z.setTarget x.init, i⟩ ⟨reorderCache ρ cache, z.setTarget x.init, g i⟩ rfl
      simp only
      rw [this]
      cases (Optim.run (poMachine z inverse x.map x.im) false x.maxIters tol x.costs ⟨cache, z.setTarget x.init, i⟩).2 with
      | error e => rfl
      | ok r => simp [Except.map, mapTrace, renumberTrace]

end

section
variable {N n a m : Nat} {Im W : Type} {σ : Equiv.Perm (Fin N)} {ρ : Equiv.Perm (Fin m)} {g : W → W}
  {z z' : Aam.Setup n a m ℝ (Pts N 2) Im W ℝ}

theorem po_of_aam (h : ReorderedAam σ ρ g z z') : ReorderedPo σ ρ g (Aam.projectOutEnv z) (Aam.projectOutEnv z') := by
  refine ⟨h.setTarget, h.target, h.warp, h.mask, h.jacI, h.aBar, ?_, h.priorS, h.dist⟩
  show 1 - z'.A * z'.pinvA = (1 - z.A * z.pinvA).submatrix ρ ρ
  rw [h.A, h.pinvA]
  ext i j
  simp [Matrix.one_apply, Matrix.mul_apply, reorderRows, reorderCols]

/-- Construction and run. -/
theorem po_whole {z z' : GN.Env n m ℝ (Pts N 2) Im W ℝ} (h : ReorderedPo σ ρ g z z') (inverse : Bool) (tol : ℝ)
    (J : Matrix (Fin m) (Fin n) ℝ) (x : GN.Input (Pts N 2) Im ℝ) :
    ((precompute z'.Q (reorderRows ρ J)).bind fun c =>
        (poRun z' inverse tol c { x with init := renumber σ x.init }).2) =
      ((precompute z.Q J).bind fun c => (poRun z inverse tol c x).2).map (renumberTrace σ rfl) := by
  rw [h.Q, precompute_rows]
  cases precompute z.Q J with
  | error e => rfl
  | ok c =>
    simp only [Except.map, Except.bind]
    rw [poRun_st h]
    rfl

end

/-! ### Constrained local models and unified models -/

section
variable {N k : Nat} {Im : Type} {σ : Equiv.Perm (Fin N)} {env env' : ClmRun.Env N k Im}

theorem ravel_map (v : Fin N → ℝ × ℝ) :
    Clm.ravel (fun i => v (σ i)) = fun r => Clm.ravel v (coordinates σ r) := by
  funext r
  simp [Clm.ravel, coordinates]

theorem distance_map (s s' : Pts N 2) :
    ClmRun.shapeDistance (renumber σ s) (renumber σ s') = ClmRun.shapeDistance s s' := by
  unfold ClmRun.shapeDistance
  congr 1
  exact sum_renumber σ fun x => (s x - s' x) ^ 2

theorem clmMl (ρ : Equiv.Perm (Fin (N * 2))) (J : Matrix (Fin (N * 2)) (Fin k) ℝ) (e : Fin (N * 2) → ℝ) :
    clmMlStep (reorderRows ρ J) (fun i => e (ρ i)) = clmMlStep J e := by
  unfold clmMlStep
  rw [rows_gram, rows_transpose, solveMat_cols]
  cases npSolveMat (Jᵀ * J) Jᵀ with
  | error e => rfl
  | ok P => simp only [Except.map, bind, Except.bind, cols_vec]

theorem clmMap (ρ : Equiv.Perm (Fin (N * 2))) (J : Matrix (Fin (N * 2)) (Fin k) ℝ) (prior : Fin k → ℝ)
    (e : Fin (N * 2) → ℝ) (p : Fin k → ℝ) :
    clmMapStep (reorderRows ρ J) prior (fun i => e (ρ i)) p = clmMapStep J prior e p := by
  unfold clmMapStep
  rw [rows_gram, rows_vec]

theorem landmarks_map (s : Pts N 2) (i : Fin N) : ClmRun.landmarks (renumber σ s) i = ClmRun.landmarks s (σ i) := rfl

theorem update_clm (h : RenumberedClm σ env env') (alg : ClmRun.Alg) (map : Bool) (im : Im) (p : Fin k → ℝ) :
    ClmRun.update env' alg map im p = ClmRun.update env alg map im p := by
  cases alg
  · simp only [ClmRun.update, ClmRun.asmStep, h.shape, h.respond, h.h, h.w, h.c, h.J, h.prior, landmarks_map]
    cases env.respond im (env.shape p) with
    | error e => rfl
    | ok r =>
      simp only [Except.map, bind, Except.bind, renumberMaps]
      rw [ravel_map (σ := σ) fun i => Clm.asmError env.h env.w env.c (ClmRun.landmarks (env.shape p) i) (r i), clmMl,
        clmMap]
  · simp only [ClmRun.update, h.shape, h.respond, h.h, h.w, h.c, h.J, h.prior, landmarks_map]
    cases env.respond im (env.shape p) with
    | error e => rfl
    | ok r =>
      simp only [Except.map, bind, Except.bind, renumberMaps]
      rw [ravel_map (σ := σ) fun i => Clm.rlmsError env.h env.w env.c (ClmRun.landmarks (env.shape p) i) (r i), clmMl,
        clmMap]

theorem clm_run (h : RenumberedClm σ env env') (alg : ClmRun.Alg) (map : Bool) (maxIters : Int) (tol : ℝ) (im : Im)
    (init : Pts N 2) :
    ClmRun.run env' alg map maxIters tol im (renumber σ init) =
      (ClmRun.run env alg map maxIters tol im init).map (renumberTrace σ rfl) := by
  unfold ClmRun.run
  rw [h.setTarget]
  have := run_moved (ClmRun.machine env alg map im) (ClmRun.machine env' alg map im) (renumber σ) id
    (fun s t => t = s) maxIters tol
    (by rintro s t rfl; exact h.shape _) (by rintro s t rfl; rfl) (by rintro s t rfl; rfl)
    (by
      rintro s t rfl
      simp only [ClmRun.machine, update_clm h]
      cases ClmRun.update env alg map im t with
      | error e => exact ⟨rfl, fun e h => by cases h⟩
      | ok p' =>
        simp only [h.shape, distance_map]
        exact ⟨trivial, fun _ _ => trivial⟩) false (env.setTarget init) (env.setTarget init) rfl
  rw [this]
  cases (Optim.run (ClmRun.machine env alg map im) false maxIters tol false (env.setTarget init)).2 with
  | error e => rfl
  | ok r => simp [Except.map, mapTrace, renumberTrace]

end

section
variable {N k a m : Nat} {Im W : Type} {σ : Equiv.Perm (Fin N)} {ρ : Equiv.Perm (Fin m)} {g : W → W}
  {env env' : ClmRun.UEnv N k a m Im W}

/-- The states correspond. -/
def uMap (σ : Equiv.Perm (Fin N)) (g : W → W) (s : ClmRun.UState k (N * 2) W) : ClmRun.UState k (N * 2) W :=
  ⟨s.p, g s.i, fun i => s.ec (coordinates σ i)⟩

theorem look_map (h : ReorderedUnified σ ρ g env env') (im : Im) (p : Fin k → ℝ) :
    ClmRun.look env' im p = (ClmRun.look env im p).map (uMap σ g) := by
  unfold ClmRun.look ClmRun.clmError
  simp only [h.clm.shape, h.warp, h.clm.respond, h.clm.h, h.clm.w, h.clm.c, landmarks_map]
  cases env.warp im (env.shape p) with
  | error e => rfl
  | ok i =>
    simp only [Except.map, bind, Except.bind]
    cases env.respond im (env.shape p) with
    | error e => rfl
    | ok r =>
      simp only [renumberMaps, pure, Except.pure, uMap]
      rw [ravel_map (σ := σ) fun i => Clm.rlmsError env.h env.w env.c (ClmRun.landmarks (env.shape p) i) (r i)]

theorem appearance_map (h : ReorderedUnified σ ρ g env env') (s : ClmRun.UState k (N * 2) W) :
    ClmRun.uAppearance env' (uMap σ g s) = ClmRun.uAppearance env s := by
  unfold ClmRun.uAppearance
  have e : env'.mask (uMap σ g s).i - env'.aBar = fun i => (env.mask s.i - env.aBar) (ρ i) := by
    simp only [uMap, h.mask, h.aBar]; rfl
  rw [e, h.pinvU, cols_vec]

theorem imageError_map (h : ReorderedUnified σ ρ g env env') (alg : ClmRun.UAlg) (s : ClmRun.UState k (N * 2) W) :
    ClmRun.imageError env' alg (uMap σ g s) = fun i => ClmRun.imageError env alg s (ρ i) := by
  cases alg
  · simp only [ClmRun.imageError, uMap, h.mask, h.aBar]; rfl
  · simp only [ClmRun.imageError, appearance_map h, h.U, h.aBar, rows_apply]
    simp only [uMap, h.mask]
    rfl

theorem projectOutStep_rows {n l : Nat} (ρ : Equiv.Perm (Fin m)) (ρ' : Equiv.Perm (Fin l))
    (Ja : Matrix (Fin m) (Fin n) ℝ) (s : ℝ) (Jc : Matrix (Fin l) (Fin n) ℝ)
    (r : ℝ) (prior p : Fin n → ℝ) (u : Bool) (α : ℝ) (ea : Fin m → ℝ) (ec : Fin l → ℝ) :
    Unified.projectOutStep (reorderRows ρ Ja) s (reorderRows ρ' Jc) r prior p u α (fun i => ea (ρ i)) (fun i => ec (ρ' i)) =
      Unified.projectOutStep Ja s Jc r prior p u α ea ec := by
  unfold Unified.projectOutStep
  simp only [rows_smul, rows_gram, rows_vec]
  rw [rows_transpose, rows_transpose, solveMat_cols, solveMat_cols]
  cases npSolveMat ((s • Ja)ᵀ * Ja + (r • Jc)ᵀ * Jc) (s • Ja)ᵀ with
  | error e => rfl
  | ok P =>
    simp only [Except.map, bind, Except.bind]
    cases npSolveMat ((s • Ja)ᵀ * Ja + (r • Jc)ᵀ * Jc) (r • Jc)ᵀ with
    | error e => rfl
    | ok P' => simp only [cols_vec]

theorem alternatingStep_rows {n l : Nat} (ρ : Equiv.Perm (Fin m)) (ρ' : Equiv.Perm (Fin l))
    (Ja : Matrix (Fin m) (Fin n) ℝ) (s : ℝ) (Jc : Matrix (Fin l) (Fin n) ℝ)
    (r : ℝ) (prior p : Fin n → ℝ) (u : Bool) (α : ℝ) (ea : Fin m → ℝ) (ec : Fin l → ℝ) :
    Unified.alternatingStep (reorderRows ρ Ja) s (reorderRows ρ' Jc) r prior p u α (fun i => ea (ρ i)) (fun i => ec (ρ' i)) =
      Unified.alternatingStep Ja s Jc r prior p u α ea ec := by
  unfold Unified.alternatingStep
  simp only [rows_smul, rows_gram, rows_vec]

theorem increment_map (h : ReorderedUnified σ ρ g env env') (alg : ClmRun.UAlg) (prior : Bool) (α : ℝ)
    (s : ClmRun.UState k (N * 2) W) :
    ClmRun.increment env' alg prior α (uMap σ g s) = ClmRun.increment env alg prior α s := by
  cases alg
  · simp only [ClmRun.increment, imageError_map h, h.jPo, h.invSigma2, h.clm.J, h.invRho2, h.clm.prior]
    exact projectOutStep_rows ρ (coordinates σ) _ _ _ _ _ _ _ _ _ _
  · simp only [ClmRun.increment, imageError_map h, appearance_map h, h.jac, h.invSigma2, h.clm.J, h.invRho2, h.clm.prior]
    exact alternatingStep_rows ρ (coordinates σ) _ _ _ _ _ _ _ _ _ _

theorem unified_run (h : ReorderedUnified σ ρ g env env') (alg : ClmRun.UAlg) (prior : Bool) (α : ℝ) (maxIters : Int)
    (tol : ℝ) (costs : Bool) (im : Im) (init : Pts N 2) :
    ClmRun.uRun env' alg prior α maxIters tol costs im (renumber σ init) =
      (ClmRun.uRun env alg prior α maxIters tol costs im init).map (renumberTraceA σ rfl) := by
  unfold ClmRun.uRun
  rw [h.clm.setTarget, look_map h]
  cases ClmRun.look env im (env.setTarget init) with
  | error e => rfl
  | ok s =>
    simp only [Except.map, bind, Except.bind]
    have := run_moved (ClmRun.uMachine env alg prior α im) (ClmRun.uMachine env' alg prior α im) (renumber σ) id
      (fun s t => t = uMap σ g s) maxIters tol
      (by rintro s t rfl; exact h.clm.shape _)
      (by rintro s t rfl; simp only [ClmRun.uMachine, appearance_map h]; rfl)
      (by
        rintro s t rfl
        simp only [ClmRun.uMachine, imageError_map h, Unified.cost]
        congr 1
        · congr 1
          exact vec_dot ρ _ _
        · exact vec_dot (coordinates σ) _ _)
      (by
        rintro s t rfl
        simp only [ClmRun.uMachine, increment_map h]
        cases ClmRun.increment env alg prior α s with
        | error e => exact ⟨rfl, fun e h => by cases h⟩
        | ok dp =>
          simp only [look_map h]
          have e0 : (uMap σ g s).p = s.p := rfl
          rw [e0]
          cases ClmRun.look env im (s.p + dp) with
          | error e => exact ⟨rfl, fun e h => by cases h⟩
          | ok s' =>
            simp only [Except.map, h.clm.shape, uMap, distance_map]
            exact ⟨trivial, fun _ _ => trivial⟩) costs s (uMap σ g s) rfl
    rw [this]
    cases (Optim.run (ClmRun.uMachine env alg prior α im) false maxIters tol costs s).2 with
    | error e => rfl
    | ok r => simp [Except.map, mapTrace, renumberTraceA]

end

end Renum
end Menpofit
