import Verif.Lemmas.Lighting
import Verif.Lemmas.GaussNewton
import Verif.Spec.Expression
/-!
# Lemmas for C149: project-out fits do not see appearance variations
-/

namespace Menpofit
namespace Expression
open Matrix GN Spec Lighting

variable {K : Type} [Field K] [DecidableEq K] {n a m : Nat} {S Im W E : Type}

omit [DecidableEq K] in
theorem learned {z : Aam.Setup n a m K S Im W E} (h : z.A * z.pinvA * z.A = z.A) (c : Fin a → K) :
    z.A *ᵥ (z.pinvA *ᵥ (z.A *ᵥ c)) = z.A *ᵥ c := by
  rw [mulVec_mulVec, mulVec_mulVec, h]

omit [DecidableEq K] in
theorem out_mat {z : Aam.Setup n a m K S Im W E} (h : z.A * z.pinvA * z.A = z.A) (B : Matrix (Fin a) (Fin n) K) :
    (1 - z.A * z.pinvA) * (z.A * B) = 0 := by
  rw [← Matrix.mul_assoc, Matrix.sub_mul, Matrix.one_mul, h, sub_self, Matrix.zero_mul]

omit [DecidableEq K] in
theorem hess {z : Aam.Setup n a m K S Im W E} (h : z.A * z.pinvA * z.A = z.A)
    (hs : (z.A * z.pinvA)ᵀ = z.A * z.pinvA) (J : Matrix (Fin m) (Fin n) K) (B : Matrix (Fin a) (Fin n) K) :
    ((1 - z.A * z.pinvA) * J)ᵀ * (J + z.A * B) = ((1 - z.A * z.pinvA) * J)ᵀ * J := by
  rw [Matrix.mul_add, transpose_mul, po_symm hs, Matrix.mul_assoc Jᵀ _ (z.A * B), out_mat h, Matrix.mul_zero, add_zero]

/-- The relation between two runs. -/
structure ERel (z : Aam.Setup n a m K S Im W E) (inverse : Bool) (s t : PState n m K W) : Prop where
  p : t.p = s.p
  cache : t.cache = s.cache
  mask : ∃ c : Fin a → K, z.mask t.i = z.mask s.i + z.A *ᵥ c
  jacI : inverse = false → ∃ B : Matrix (Fin a) (Fin n) K, z.jacI t.i = z.jacI s.i + z.A * B
  blind : inverse = true → ∀ c : Fin a → K, s.cache.QJᵀ *ᵥ (z.A *ᵥ c) = 0 ∧ s.cache.pinvQJ *ᵥ (z.A *ᵥ c) = 0

theorem step_rel {z : Aam.Setup n a m K S Im W E} {im im' : Im} (h1 : z.A * z.pinvA * z.A = z.A)
    (hp : (z.A * z.pinvA)ᵀ = z.A * z.pinvA) (inverse map : Bool)
    (hb : ∀ p, BothWays (fun i i' => (∃ c : Fin a → K, z.mask i' = z.mask i + z.A *ᵥ c) ∧
      (inverse = false → ∃ B : Matrix (Fin a) (Fin n) K, z.jacI i' = z.jacI i + z.A * B))
      (z.warp im p) (z.warp im' p))
    (s t : PState n m K W) (h : ERel z inverse s t) :
    (poStep (Aam.projectOutEnv z) inverse map im' t).2 = (poStep (Aam.projectOutEnv z) inverse map im s).2 ∧
      ∀ e, (poStep (Aam.projectOutEnv z) inverse map im s).2 = .ok e →
        ERel z inverse (poStep (Aam.projectOutEnv z) inverse map im s).1
          (poStep (Aam.projectOutEnv z) inverse map im' t).1 := by
  obtain ⟨c, hc⟩ := h.mask
  have e1 : z.mask t.i - z.aBar = z.mask s.i - z.aBar + z.A *ᵥ c := by rw [hc]; abel
  have hr : (if inverse = true then solveInverse (Aam.projectOutEnv z) map t
      else (t.cache, solveForward (Aam.projectOutEnv z) map t)) =
      (if inverse = true then solveInverse (Aam.projectOutEnv z) map s
      else (s.cache, solveForward (Aam.projectOutEnv z) map s)) := by
    cases inverse with
    | false =>
      obtain ⟨B, hB⟩ := h.jacI rfl
      have hb' := po_blind (learned h1 c) hp (z.jacI s.i)
      have hq : (1 - z.A * z.pinvA) * (z.jacI s.i + z.A * B) = (1 - z.A * z.pinvA) * z.jacI s.i := by
        rw [Matrix.mul_add, out_mat h1, add_zero]
      simp only [Bool.false_eq_true, if_false, h.cache]
      congr 1
      simp only [solveForward, Aam.projectOutEnv, e1, hB, h.p, hq, hess h1 hp]
      rw [solveMl_blind _ _ _ _ hb', solveMap_blind _ _ _ _ _ _ hb']
    | true =>
      obtain ⟨b1, b2⟩ := h.blind rfl c
      simp only [if_true]
      simp only [solveInverse, Aam.projectOutEnv, e1, h.cache, h.p]
      rw [solveMap_blind _ _ _ _ _ _ b1, mulVec_add, b2, add_zero]
  have hc' : (if inverse = true then solveInverse (Aam.projectOutEnv z) map s
      else (s.cache, solveForward (Aam.projectOutEnv z) map s)).1.QJ = s.cache.QJ ∧
      (if inverse = true then solveInverse (Aam.projectOutEnv z) map s
      else (s.cache, solveForward (Aam.projectOutEnv z) map s)).1.pinvQJ = s.cache.pinvQJ := by
    cases inverse
    · exact ⟨rfl, rfl⟩
    · simp only [solveInverse, if_true]
      cases map <;> exact ⟨rfl, rfl⟩
  have hbl := h.blind
  simp only [poStep, hr, h.p]
  generalize (if inverse = true then solveInverse (Aam.projectOutEnv z) map s
      else (s.cache, solveForward (Aam.projectOutEnv z) map s)) = r at hc'
  rcases r with ⟨c', x⟩
  cases x with
  | error e => exact ⟨rfl, fun e he => by cases he⟩
  | ok dp =>
    simp only
    have hw := hb (if inverse = true then s.p - dp else s.p + dp)
    simp only [Aam.projectOutEnv]
    generalize z.warp im (if inverse = true then s.p - dp else s.p + dp) = x at hw
    generalize z.warp im' (if inverse = true then s.p - dp else s.p + dp) = y at hw
    cases x <;> cases y <;> simp only [BothWays] at hw
    · exact ⟨by rw [hw], fun e he => by cases he⟩
    · refine ⟨rfl, fun e _ => ⟨rfl, rfl, hw.1, hw.2, fun hi v => ?_⟩⟩
      simp only at hc' ⊢
      rw [hc'.1, hc'.2]
      exact hbl hi v

theorem run_rel [LinearOrder E] {z : Aam.Setup n a m K S Im W E} {im im' : Im} (h1 : z.A * z.pinvA * z.A = z.A)
    (hp : (z.A * z.pinvA)ᵀ = z.A * z.pinvA) (inverse : Bool)
    (hb : ∀ p, BothWays (fun i i' => (∃ c : Fin a → K, z.mask i' = z.mask i + z.A *ᵥ c) ∧
      (inverse = false → ∃ B : Matrix (Fin a) (Fin n) K, z.jacI i' = z.jacI i + z.A * B))
      (z.warp im p) (z.warp im' p)) (cache : Cache n m K)
    (hc : inverse = true → ∀ c : Fin a → K, cache.QJᵀ *ᵥ (z.A *ᵥ c) = 0 ∧ cache.pinvQJ *ᵥ (z.A *ᵥ c) = 0)
    (tol : E) (init : S) (maxIters : Int) (costs map : Bool) :
    (poRun (Aam.projectOutEnv z) inverse tol cache ⟨im', init, maxIters, costs, map⟩).2 =
      (poRun (Aam.projectOutEnv z) inverse tol cache ⟨im, init, maxIters, costs, map⟩).2 := by
  have hw := hb (z.setTarget init)
  have e1 : (Aam.projectOutEnv z).warp = z.warp := rfl
  have e2 : (Aam.projectOutEnv z).setTarget = z.setTarget := rfl
  simp only [poRun, e1, e2]
  generalize z.warp im (z.setTarget init) = x at hw
  generalize z.warp im' (z.setTarget init) = y at hw
  rcases x with _ | i <;> rcases y with _ | i' <;> simp only [Spec.BothWays] at hw
  · rw [hw]
  · dsimp only
    rw [Lighting.run_lit (poMachine (Aam.projectOutEnv z) inverse map im) (poMachine (Aam.projectOutEnv z) inverse map im')
      id id (ERel z inverse) maxIters tol
      (fun s t h => by simp only [poMachine, h.p])
      (fun s t h => by simp only [poMachine, h.p, id])
      (fun s t h => ?_)
      (fun s t h => step_rel h1 hp inverse map hb s t h) costs
      ⟨cache, z.setTarget init, i⟩ ⟨cache, z.setTarget init, i'⟩
      ⟨rfl, rfl, hw.1, hw.2, hc⟩]
    · generalize (Optim.run (poMachine (Aam.projectOutEnv z) inverse map im) false maxIters tol costs _).2 = r
      cases r <;> simp [Except.map, Lighting.mapRun]
    · obtain ⟨c, hc⟩ := h.mask
      have e3 : z.mask t.i - z.aBar = z.mask s.i - z.aBar + z.A *ᵥ c := by rw [hc]; abel
      simp only [poMachine, Aam.projectOutEnv, e3, id]
      exact Lighting.po_cost (learned h1 c) hp _

/-- No run changes the projected steepest descent images or the pseudo-inverse. -/
theorem keeps [LinearOrder E] (env : Env n m K S Im W E) (inverse : Bool) (tol : E) (cache : Cache n m K)
    (hist : List (Input S Im E)) :
    (afterRuns env inverse tol cache hist).QJ = cache.QJ ∧
      (afterRuns env inverse tol cache hist).pinvQJ = cache.pinvQJ := by
  unfold afterRuns
  induction hist generalizing cache with
  | nil => exact ⟨rfl, rfl⟩
  | cons y ys ih =>
    rw [List.foldl_cons]
    have key : (poRun env inverse tol cache y).1.QJ = cache.QJ ∧
        (poRun env inverse tol cache y).1.pinvQJ = cache.pinvQJ := by
      unfold poRun
      simp only
      cases hw : env.warp y.im (env.setTarget y.init) with
      | error e => exact ⟨rfl, rfl⟩
      | ok i =>
        simp only
        refine loop_inv _ false y.maxIters tol
          (fun st : PState n m K W => st.cache.QJ = cache.QJ ∧ st.cache.pinvQJ = cache.pinvQJ) ?_ _ 0
          none _ _ rfl ⟨rfl, rfl⟩
        intro b hb
        have hr : (if inverse then solveInverse env y.map b
            else (b.cache, solveForward env y.map b)).1.QJ = cache.QJ ∧
            (if inverse then solveInverse env y.map b
            else (b.cache, solveForward env y.map b)).1.pinvQJ = cache.pinvQJ := by
          cases inverse <;> cases y.map <;> simp [solveInverse, hb.1, hb.2]
        show (poStep env inverse y.map y.im b).1.cache.QJ = cache.QJ ∧
          (poStep env inverse y.map y.im b).1.cache.pinvQJ = cache.pinvQJ
        unfold poStep
        simp only
        split
        · exact hr
        · split <;> exact hr
    rw [← key.1, ← key.2]
    exact ih _

/-! ### Wiberg -/

/-- The relation between two forward Wiberg runs. -/
structure WRel (z : Aam.Setup n a m K S Im W E) (s t : Aam.St n a m K W) : Prop where
  p : t.p = s.p
  mask : ∃ c : Fin a → K, z.mask t.i = z.mask s.i + z.A *ᵥ c
  jacI : ∃ B : Matrix (Fin a) (Fin n) K, z.jacI t.i = z.jacI s.i + z.A * B

theorem wib_rel {z : Aam.Setup n a m K S Im W E} {im im' : Im} (h1 : z.A * z.pinvA * z.A = z.A)
    (hp : (z.A * z.pinvA)ᵀ = z.A * z.pinvA) (map : Bool) (hb : DifferInExpressionWhole z im im')
    (s t : Aam.St n a m K W) (h : WRel z s t) :
    (Aam.wibStep z false map im' t).2 = (Aam.wibStep z false map im s).2 ∧
      ∀ e, (Aam.wibStep z false map im s).2 = .ok e →
        WRel z (Aam.wibStep z false map im s).1 (Aam.wibStep z false map im' t).1 := by
  obtain ⟨c, hc⟩ := h.mask
  obtain ⟨B, hB⟩ := h.jacI
  have e1 : z.mask t.i - z.aBar = z.mask s.i - z.aBar + z.A *ᵥ c := by rw [hc]; abel
  have hb' := po_blind (learned h1 c) hp (z.jacI s.i)
  have hq : (1 - z.A * z.pinvA) * (z.jacI s.i + z.A * B) = (1 - z.A * z.pinvA) * z.jacI s.i := by
    rw [Matrix.mul_add, out_mat h1, add_zero]
  have hr : (if map = true then (solveShapeMap ((Aam.projectOutMat z (z.jacI t.i))ᵀ * z.jacI t.i)
        (Aam.projectOutMat z (z.jacI t.i)) (z.mask t.i - z.aBar) z.priorS t.p).2
      else solveShapeMl ((Aam.projectOutMat z (z.jacI t.i))ᵀ * z.jacI t.i) (Aam.projectOutMat z (z.jacI t.i))
        (z.mask t.i - z.aBar)) =
      (if map = true then (solveShapeMap ((Aam.projectOutMat z (z.jacI s.i))ᵀ * z.jacI s.i)
        (Aam.projectOutMat z (z.jacI s.i)) (z.mask s.i - z.aBar) z.priorS s.p).2
      else solveShapeMl ((Aam.projectOutMat z (z.jacI s.i))ᵀ * z.jacI s.i) (Aam.projectOutMat z (z.jacI s.i))
        (z.mask s.i - z.aBar)) := by
    simp only [projectOutMat_eq, e1, hB, h.p, hq, hess h1 hp]
    rw [solveMl_blind _ _ _ _ hb', solveMap_blind _ _ _ _ _ _ hb']
  simp only [Aam.wibStep, Aam.jacobian, Bool.false_eq_true, if_false, hr]
  generalize (if map = true then (solveShapeMap ((Aam.projectOutMat z (z.jacI s.i))ᵀ * z.jacI s.i)
        (Aam.projectOutMat z (z.jacI s.i)) (z.mask s.i - z.aBar) z.priorS s.p).2
      else solveShapeMl ((Aam.projectOutMat z (z.jacI s.i))ᵀ * z.jacI s.i) (Aam.projectOutMat z (z.jacI s.i))
        (z.mask s.i - z.aBar)) = r
  cases r with
  | error e => exact ⟨rfl, fun e he => by cases he⟩
  | ok dp =>
    simp only [Aam.advance, Aam.updateWarp, Bool.false_eq_true, if_false, h.p]
    have hw := hb (s.p + dp)
    generalize z.warp im (s.p + dp) = x at hw
    generalize z.warp im' (s.p + dp) = y at hw
    cases x <;> cases y <;> simp only [BothWays] at hw
    · exact ⟨by rw [hw], fun e he => by cases he⟩
    · exact ⟨rfl, fun e _ => ⟨rfl, hw.1, hw.2⟩⟩

end Expression
end Menpofit
