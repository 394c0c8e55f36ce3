import Verif.Lemmas.Lighting
import Verif.Lemmas.LkResidual
import Verif.Lemmas.PatchNorm
import Verif.Model.LkRuns
import Verif.Model.ClmRuns
/-!
# The light of a picture (C138)
-/

namespace Menpofit
open Matrix GN Lk

/-! ## Lucas-Kanade fits -/

section
variable {c h w n : Nat} {Im T S V : Type}

/-- C138, forward compositional: with the residuals that normalise (ECC, gradient images, gradient correlation)
the whole fit is the same, whatever the light of the picture and of the template. -/
theorem C138_forward_compositional (env : Lk.Env c h w Im T) (hgrad : Spec.IsGradient env.grad)
    (tr : Lk.Transform n T S V) (dW : Jac h w n) (template template' : Planes c h w)
    (ht : Spec.Relit (fun i : Px c h w => template i.1 i.2) fun i => template' i.1 i.2) (im im' : Im)
    (hi : Spec.RelitPicture env im im') (eps : ℝ) (t : T) (initial : S) (maxIters : Int) :
    (∀ s, fcRun (ecc env) env tr dW template' eps s t im' initial maxIters =
      fcRun (ecc env) env tr dW template eps s t im initial maxIters) ∧
    (∀ s, fcRun (gradientImages env) env tr dW template' eps s t im' initial maxIters =
      fcRun (gradientImages env) env tr dW template eps s t im initial maxIters) ∧
    (∀ s, fcRun (gradientCorrelation env) env tr dW template' eps s t im' initial maxIters =
      fcRun (gradientCorrelation env) env tr dW template eps s t im initial maxIters) := by
  have hn : ∀ t, normalise (env.warp im' t) = normalise (env.warp im t) := fun t => normalise_relit (hi t)
  have hnt := normalise_relit ht
  have hr : ∀ t, regularise (env.grad (env.warp im' t)) = regularise (env.grad (env.warp im t)) := by
    intro t
    obtain ⟨a, b, ha, hx⟩ := hi t
    exact regularise_gain ha (hgrad _ _ a b fun i p => hx (i, p))
  have ho : ∀ t, orientation (env.grad (env.warp im' t)) = orientation (env.grad (env.warp im t)) := by
    intro t
    obtain ⟨a, b, ha, hx⟩ := hi t
    exact orientation_gain ha (hgrad _ _ a b fun i p => hx (i, p))
  have he : ∀ g t, gradientError env g (env.warp im' t) = gradientError env g (env.warp im t) := by
    intro g t
    funext x
    simp only [gradientError, hr]
  refine ⟨fun s => ?_, fun s => ?_, fun s => ?_⟩
  · simp only [fcRun, fcMachine, fcIncrement, ecc, normaliseSource, hn, hnt]
  · simp only [fcRun, fcMachine, fcIncrement, gradientImages, gradientOf, hr, he]
  · simp only [fcRun, fcMachine, fcIncrement, gradientCorrelation, gradientOf, ho]

/-- C138, inverse compositional: construction with the template and the whole fit. -/
theorem C138_inverse_compositional (env : Lk.Env c h w Im T) (hgrad : Spec.IsGradient env.grad)
    (tr : Lk.Transform n T S V) (pinv : T → (Fin n → ℝ) → (Fin n → ℝ)) (dW : Jac h w n)
    (template template' : Planes c h w)
    (ht : Spec.Relit (fun i : Px c h w => template i.1 i.2) fun i => template' i.1 i.2) (im im' : Im)
    (hi : Spec.RelitPicture env im im') (eps : ℝ) (t : T) (initial : S) (maxIters : Int) :
    (∀ s, icFit (ecc env) env tr pinv dW template' eps s t im' initial maxIters =
      icFit (ecc env) env tr pinv dW template eps s t im initial maxIters) ∧
    (∀ s, icFit (gradientImages env) env tr pinv dW template' eps s t im' initial maxIters =
      icFit (gradientImages env) env tr pinv dW template eps s t im initial maxIters) ∧
    (∀ s, icFit (gradientCorrelation env) env tr pinv dW template' eps s t im' initial maxIters =
      icFit (gradientCorrelation env) env tr pinv dW template eps s t im initial maxIters) := by
  have hn : ∀ t, normalise (env.warp im' t) = normalise (env.warp im t) := fun t => normalise_relit (hi t)
  have hnt := normalise_relit ht
  have hr : ∀ t, regularise (env.grad (env.warp im' t)) = regularise (env.grad (env.warp im t)) := by
    intro t
    obtain ⟨a, b, ha, hx⟩ := hi t
    exact regularise_gain ha (hgrad _ _ a b fun i p => hx (i, p))
  have ho : ∀ t, orientation (env.grad (env.warp im' t)) = orientation (env.grad (env.warp im t)) := by
    intro t
    obtain ⟨a, b, ha, hx⟩ := hi t
    exact orientation_gain ha (hgrad _ _ a b fun i p => hx (i, p))
  have he : ∀ g t, gradientError env g (env.warp im' t) = gradientError env g (env.warp im t) := by
    intro g t
    funext x
    simp only [gradientError, hr]
  obtain ⟨a', b', ha', ht⟩ := ht
  have g2 := hgrad template template' a' b' fun i p => ht (i, p)
  have r2 := regularise_gain ha' g2
  have o2 := orientation_gain ha' g2
  refine ⟨fun s => ?_, fun s => ?_, fun s => ?_⟩
  · simp only [icFit, icRun, icMachine, icPrecompute, icIncrement, ecc, normaliseSource, hn, hnt]
  · simp only [icFit, icRun, icMachine, icPrecompute, icIncrement, gradientImages, gradientOf, r2, he]
  · simp only [icFit, icRun, icMachine, icPrecompute, icIncrement, gradientCorrelation, gradientOf, o2, ho]

/-- C138, forward additive: here the gradient is that of the whole picture. -/
theorem C138_forward_additive (env : Lk.Env c h w Im T) (hgrad : Spec.IsGradient env.grad)
    (tr : Lk.Transform n T S V) (add : T → (Fin n → ℝ) → T) (dW : T → Jac h w n) (template template' : Planes c h w)
    (ht : Spec.Relit (fun i : Px c h w => template i.1 i.2) fun i => template' i.1 i.2) (im im' : Im)
    (hi : Spec.RelitPicture env im im') (hw : Spec.RelitWhole env im im') (eps : ℝ) (t : T) (initial : S)
    (maxIters : Int) :
    (∀ s, faRun (ecc env) env tr add dW template' eps s t im' initial maxIters =
      faRun (ecc env) env tr add dW template eps s t im initial maxIters) ∧
    (∀ s, faRun (gradientImages env) env tr add dW template' eps s t im' initial maxIters =
      faRun (gradientImages env) env tr add dW template eps s t im initial maxIters) ∧
    (∀ s, faRun (gradientCorrelation env) env tr add dW template' eps s t im' initial maxIters =
      faRun (gradientCorrelation env) env tr add dW template eps s t im initial maxIters) := by
  have hn : ∀ t, normalise (env.warp im' t) = normalise (env.warp im t) := fun t => normalise_relit (hi t)
  have hnt := normalise_relit ht
  have hr : ∀ t, regularise (env.grad (env.warp im' t)) = regularise (env.grad (env.warp im t)) := by
    intro t
    obtain ⟨a, b, ha, hx⟩ := hi t
    exact regularise_gain ha (hgrad _ _ a b fun i p => hx (i, p))
  have ho : ∀ t, orientation (env.grad (env.warp im' t)) = orientation (env.grad (env.warp im t)) := by
    intro t
    obtain ⟨a, b, ha, hx⟩ := hi t
    exact orientation_gain ha (hgrad _ _ a b fun i p => hx (i, p))
  have he : ∀ g t, gradientError env g (env.warp im' t) = gradientError env g (env.warp im t) := by
    intro g t
    funext x
    simp only [gradientError, hr]
  obtain ⟨hno, a', ha', hg⟩ := hw
  have r2 : ∀ t, regularise (env.fwdGrad im' t) = regularise (env.fwdGrad im t) := fun t => regularise_gain ha' (hg t)
  have o2 : ∀ t, orientation (env.fwdGrad im' t) = orientation (env.fwdGrad im t) :=
    fun t => orientation_gain ha' (hg t)
  refine ⟨fun s => ?_, fun s => ?_, fun s => ?_⟩
  · simp only [faRun, faMachine, faIncrement, ecc, normaliseSource, hn, hnt, hno]
  · simp only [faRun, faMachine, faIncrement, gradientImages, gradientOf, r2, he]
  · simp only [faRun, faMachine, faIncrement, gradientCorrelation, gradientOf, o2, ho]

/-- Two pixels; the picture is a ramp with the given contrast and brightness. -/
def rampEnv : Lk.Env 1 1 2 (ℝ × ℝ) ℝ where
  warp im t := fun _ p => im.1 * (t + p.2.val) + im.2
  grad x d := fun i _ => if d = 1 then x i (0, 1) - x i (0, 0) else 0
  fwdGrad im _ d := fun _ _ => if d = 1 then im.1 else 0
  normIm _ := .ok (1, 0)

/-- Shifting along the ramp. -/
def rampShift : Lk.Transform 1 ℝ ℝ ℝ where
  compose t d := t + d 0
  target t := t
  vector t := t
  setTarget _ s := s

theorem rampEnv_relit (g b : ℝ) (hg : 0 < g) : Spec.RelitPicture rampEnv (1, 0) (g, b) :=
  fun t => ⟨g, b, hg, fun i => by simp [rampEnv]⟩

theorem rampEnv_gradient : Spec.IsGradient rampEnv.grad := by
  intro x y a b hy d i p
  simp only [rampEnv]
  split
  · rw [hy, hy]; ring
  · simp

/-- The hypotheses are met: gain two and brightness three. -/
example : Spec.IsGradient rampEnv.grad ∧ Spec.RelitPicture rampEnv (1, 0) (2, 3) ∧
    Spec.RelitWhole rampEnv (1, 0) (2, 3) ∧
    Spec.Relit (fun i : Px 1 1 2 => rampEnv.warp (1, 0) 5 i.1 i.2) fun i => rampEnv.warp (2, 3) 5 i.1 i.2 := by
  refine ⟨rampEnv_gradient, rampEnv_relit 2 3 (by norm_num), ⟨rfl, 2, by norm_num, ?_⟩,
    rampEnv_relit 2 3 (by norm_num) 5⟩
  intro t d i p
  simp only [rampEnv]
  split <;> norm_num

theorem ramp_ssd_step (b t : ℝ) : (Lk.fcMachine (Lk.ssd rampEnv none) rampEnv rampShift
    (fun d _ _ => if d = 1 then 1 else 0) (rampEnv.warp (1, 0) 5) (1, b)).step ((), t) =
      (((), 5 - b), .ok |t + b - 5|) := by
  have hs : Lk.sdi (n := 1) (rampEnv.grad (rampEnv.warp (1, b) t)) (fun d _ _ => if d = 1 then 1 else 0) =
      Matrix.of fun _ _ => 1 := by
    funext x k; simp [Lk.sdi, rampEnv]
  have hi : Lk.fcIncrement (Lk.ssd rampEnv none) (fun d _ _ => if d = 1 then 1 else 0) (rampEnv.warp (1, 0) 5) ()
      (rampEnv.warp (1, b) t) = .ok ((), fun _ : Fin 1 => -(t + b - 5)) := by
    simp only [Lk.fcIncrement, Lk.ssd, Lk.gradientOf, bind, Except.bind, pure, Except.pure, hs]
    have hm : (Matrix.map (Matrix.of fun _ _ => 1 : Matrix (Lk.Px 1 1 2) (Fin 1) ℝ) fun x : ℝ => (x : ℂ)) =
        Matrix.of fun _ _ => 1 := by
      ext i j; simp
    have hd : (Matrix.of fun _ _ => 1 : Matrix (Lk.Px 1 1 2) (Fin 1) ℂ).transpose *
        (Matrix.of fun _ _ => 1 : Matrix (Lk.Px 1 1 2) (Fin 1) ℂ) = (2 : ℂ) • 1 := by
      ext i j; fin_cases i; fin_cases j
      simp [Matrix.mul_apply]
    have hinv : ((2 : ℂ) • (1 : Matrix (Fin 1) (Fin 1) ℂ))⁻¹ = (1 / 2 : ℂ) • 1 := by
      apply Matrix.inv_eq_right_inv
      simp [smul_smul]
    have hdet : ((2 : ℂ) • (1 : Matrix (Fin 1) (Fin 1) ℂ)).det ≠ 0 := by simp
    rw [hm, hd]
    simp only [Lk.solveRe, GN.npSolve, if_neg hdet, hinv, Except.map]
    congr 2
    funext i
    obtain rfl : i = 0 := Subsingleton.elim _ _
    simp [Matrix.mulVec, dotProduct, Lk.cx, Lk.difference, rampEnv, Fintype.sum_prod_type]
    ring
  simp only [Lk.fcMachine, hi, rampShift]
  congr 1
  · congr 1; ring
  · rw [← Real.sqrt_sq_eq_abs]; simp only [dotProduct, Fin.sum_univ_one]; congr 2; ring

/-- C138 fails for the sum of squared differences: a brighter picture of the template is fitted elsewhere. -/
theorem C138_ssd_violated : ∃ (env : Lk.Env 1 1 2 (ℝ × ℝ) ℝ) (tr : Lk.Transform 1 ℝ ℝ ℝ) (dW : Jac 1 2 1)
    (template : Planes 1 1 2) (im im' : ℝ × ℝ), Spec.IsGradient env.grad ∧ Spec.RelitPicture env im im' ∧
    fcRun (ssd env none) env tr dW template 0 () 0 im 0 1 = .ok ⟨[0, 5], [0, 5], none⟩ ∧
    fcRun (ssd env none) env tr dW template 0 () 0 im' 0 1 = .ok ⟨[0, 3], [0, 3], none⟩ := by
  refine ⟨rampEnv, rampShift, fun d _ _ => if d = 1 then 1 else 0, rampEnv.warp (1, 0) 5, (1, 0), (1, 2),
    rampEnv_gradient, rampEnv_relit 1 2 one_pos, ?_, ?_⟩
  all_goals
    simp only [Lk.fcRun, Optim.run]
    rw [loop_unfold, if_pos ⟨by decide, trivial⟩]
    rw [ramp_ssd_step]
    simp only
    rw [loop_unfold, if_neg (by simp)]
    simp [fcMachine, rampShift]
    try norm_num

end

/-! ## Constrained local models -/

section
variable {N k : Nat} {Im : Type}

/-- C138, constrained local models whose experts see normalised patches: if every patch of the second picture is
the patch of the first with its own contrast and brightness, both algorithms return the same. -/
theorem C138_clm (env : ClmRun.Env N k Im) (extract : Im → ℝ × ℝ → List (List (List ℝ)))
    (score : List (List (List ℝ)) → Except PyErr (Fin N → List ℝ))
    (henv : ∀ im s, env.respond im s =
      score (PatchNorm.extractPatches (extract im) (List.ofFn (ClmRun.landmarks s))))
    (im im' : Im) (hlit : ∀ l, ∃ g b : ℝ, 0 < g ∧
      (extract im' l).flatten = (extract im l).flatten.map (Spec.relit g b))
    (alg : ClmRun.Alg) (map : Bool) (maxIters : Int) (tol : ℝ) (init : MI.Pts N 2) :
    ClmRun.run env alg map maxIters tol im' init = ClmRun.run env alg map maxIters tol im init := by
  choose g b hg hl using hlit
  have hp : ∀ shape : List (ℝ × ℝ),
      PatchNorm.extractPatches (extract im') shape = PatchNorm.extractPatches (extract im) shape := by
    intro shape
    simp only [PatchNorm.extractPatches, PatchNorm.normalise4, List.map_map]
    refine List.map_congr_left fun l _ => ?_
    simp only [Function.comp]
    rw [hl l, flatten_relit, normed_relit (hg l), List.map_map]
    congr 1
    refine List.map_congr_left fun v _ => ?_
    simp [Spec.relit]
  have hr : ∀ s, env.respond im' s = env.respond im s := fun s => by rw [henv, henv, hp]
  simp only [ClmRun.run, ClmRun.machine, ClmRun.update, ClmRun.asmStep, hr]

/-- One landmark whose patch is two pixels of a ramp. -/
example : ∃ (extract : ℝ × ℝ → ℝ × ℝ → List (List (List ℝ))),
    (∀ l, ∃ g b : ℝ, 0 < g ∧ (extract (2, 3) l).flatten = (extract (1, 0) l).flatten.map (Spec.relit g b)) ∧
    PatchNorm.extractPatches (extract (1, 0)) [(5, 5)] ≠ [[[0, 0]]] := by
  refine ⟨fun im l => [[[im.1 * l.1 + im.2, im.1 * (l.1 + 1) + im.2]]], fun l => ⟨2, 3, by norm_num, ?_⟩, ?_⟩
  · simp [Spec.relit]
  · have h2 : Real.sqrt (1 / 2) ≠ 0 := by positivity
    simp [PatchNorm.extractPatches, PatchNorm.normalise4, PatchNorm.normed, PatchNorm.centred, PatchNorm.avg,
      PatchNorm.len, PatchNorm.split]
    norm_num

end

/-! ## Active appearance models -/

section
variable {K : Type} [Field K] [DecidableEq K] {n a m : Nat} {S Im W E : Type} [LinearOrder E]

/-- C138, brightness: an appearance model that contains a change of brightness absorbs it.  With every algorithm
that estimates appearance the shapes, the shape parameters and the costs of the whole fit are the same; the
appearance parameters are shifted by those of the change.  MAP inference is included where the prior does not
see the appearance. -/
theorem C138_brightness_partial (z : Aam.Setup n a m K S Im W E) (hp : Spec.IsPinv z.A z.pinvA) (u : Fin m → K)
    (im im' : Im) (hb : Spec.Brighter z u im im') (alg : Aam.Alg) (inverse map : Bool)
    (hmap : map = false ∨ alg = .modifiedAlternating ∨ alg = .wiberg) (maxIters : Int) (tol : E) (costs : Bool)
    (init : S) :
    Aam.run z alg inverse map maxIters tol costs im' init =
      (Aam.run z alg inverse map maxIters tol costs im init).map (Spec.ShiftedAppearance (z.pinvA *ᵥ u)) := by
  have hs := hp.ap_symm
  have hw := hb.warps (z.setTarget init)
  simp only [Aam.run]
  generalize z.warp im (z.setTarget init) = x at hw
  generalize z.warp im' (z.setTarget init) = y at hw
  rcases x with _ | i <;> rcases y with _ | i' <;> simp only [Spec.BothWays] at hw
  · rw [hw]; rfl
  · dsimp only
    rw [Lighting.run_lit (Aam.machine z alg inverse map im) (Aam.machine z alg inverse map im')
      (fun q => (q.1, q.2 + z.pinvA *ᵥ u)) id (Lighting.Rel z u) maxIters tol
      (fun s t h => by simp only [Aam.machine, h.p])
      (fun s t h => by simp only [Aam.machine, h.p, h.c])
      (fun s t h => Lighting.cost_lit hb hs alg s t h)
      (fun s t h => Lighting.step_lit hb hs alg inverse map hmap s t h) costs
      ⟨z.setTarget init, z.pinvA *ᵥ (z.mask i - z.aBar), i, 0⟩ ⟨z.setTarget init, z.pinvA *ᵥ (z.mask i' - z.aBar), i', 0⟩
      ⟨rfl, ?_, hw.1, hw.2, rfl⟩]
    · congr 1
      funext r
      simp [Lighting.mapRun, Spec.ShiftedAppearance]
    · simp only [hw.1]
      rw [← mulVec_add]; congr 1; abel

/-- C138, brightness: the project-out algorithms, forward and inverse, with and without the prior. -/
theorem C138_brightness_project_out (z : Aam.Setup n a m K S Im W E) (hp : Spec.IsPinv z.A z.pinvA) (u : Fin m → K)
    (im im' : Im) (hb : Spec.Brighter z u im im') (inverse : Bool) (J : Matrix (Fin m) (Fin n) K) (cache : Cache n m K)
    (hc : precompute (Aam.projectOutEnv z).Q J = .ok cache) (tol : E) (init : S) (maxIters : Int)
    (costs map : Bool) :
    (poRun (Aam.projectOutEnv z) inverse tol cache ⟨im', init, maxIters, costs, map⟩).2 =
      (poRun (Aam.projectOutEnv z) inverse tol cache ⟨im, init, maxIters, costs, map⟩).2 := by
  have hs := hp.ap_symm
  obtain ⟨b1, b2⟩ := Lighting.precompute_blind hb.learned hs J hc
  have hw := hb.warps (z.setTarget init)
  have e1 : (Aam.projectOutEnv z).warp = z.warp := rfl
  have e2 : (Aam.projectOutEnv z).setTarget = z.setTarget := rfl
  simp only [poRun, e1, e2]
  generalize z.warp im (z.setTarget init) = x at hw
  generalize z.warp im' (z.setTarget init) = y at hw
  rcases x with _ | i <;> rcases y with _ | i' <;> simp only [Spec.BothWays] at hw
  · rw [hw]
  · dsimp only
    rw [Lighting.run_lit (poMachine (Aam.projectOutEnv z) inverse map im) (poMachine (Aam.projectOutEnv z) inverse map im')
      id id (Lighting.PRel z u) maxIters tol
      (fun s t h => by simp only [poMachine, h.p])
      (fun s t h => by simp only [poMachine, h.p, id])
      (fun s t h => ?_)
      (fun s t h => Lighting.po_step_lit hb hs inverse map s t h) costs
      ⟨cache, z.setTarget init, i⟩ ⟨cache, z.setTarget init, i'⟩
      ⟨rfl, rfl, hw.1, hw.2, b1, b2⟩]
    · generalize (Optim.run (poMachine (Aam.projectOutEnv z) inverse map im) false maxIters tol costs _).2 = r
      cases r <;> simp [Except.map, Lighting.mapRun]
    · have e3 : z.mask t.i - z.aBar = z.mask s.i - z.aBar + u := by rw [h.mask]; abel
      simp only [poMachine, Aam.projectOutEnv, e3, id]
      exact Lighting.po_cost hb.learned hs _

/-- C138, contrast: forward project-out with an appearance model that contains its own mean.  The costs are
multiplied by the square of the contrast. -/
theorem C138_contrast_partial (z : Aam.Setup n a m K S Im W E) (hp : Spec.IsPinv z.A z.pinvA)
    (hm : z.A *ᵥ (z.pinvA *ᵥ z.aBar) = z.aBar) (g : K) (hg : g ≠ 0) (u : Fin m → K)
    (im im' : Im) (hb : Spec.Contrasted z g u im im') (cache : Cache n m K) (tol : E) (init : S) (maxIters : Int)
    (costs : Bool) :
    (poRun (Aam.projectOutEnv z) false tol cache ⟨im', init, maxIters, costs, false⟩).2 =
      (poRun (Aam.projectOutEnv z) false tol cache ⟨im, init, maxIters, costs, false⟩).2.map
        (Spec.ScaledCosts (g * g)) := by
  have hs := hp.ap_symm
  have hw := hb.warps (z.setTarget init)
  have e1 : (Aam.projectOutEnv z).warp = z.warp := rfl
  have e2 : (Aam.projectOutEnv z).setTarget = z.setTarget := rfl
  simp only [poRun, e1, e2]
  generalize z.warp im (z.setTarget init) = x at hw
  generalize z.warp im' (z.setTarget init) = y at hw
  rcases x with _ | i <;> rcases y with _ | i' <;> simp only [Spec.BothWays] at hw
  · rw [hw]; rfl
  · dsimp only
    rw [Lighting.run_lit (poMachine (Aam.projectOutEnv z) false false im) (poMachine (Aam.projectOutEnv z) false false im')
      id (g * g * ·) (Lighting.GRel z g u) maxIters tol
      (fun s t h => by simp only [poMachine, h.p])
      (fun s t h => by simp only [poMachine, h.p, id])
      (fun s t h => ?_)
      (fun s t h => Lighting.gain_step hg hb hm hs s t h) costs
      ⟨cache, z.setTarget init, i⟩ ⟨cache, z.setTarget init, i'⟩
      ⟨rfl, hw.1, hw.2⟩]
    · congr 1
      funext r
      simp [Lighting.mapRun, Spec.ScaledCosts]
    · simp only [poMachine, Aam.projectOutEnv, h.mask]
      exact Lighting.gain_cost hb.learned hm hs _

end

/-! ### Instances and counterexamples -/

/-- Two features `(x, y)`, one shape parameter that moves the first, one appearance component: brightness. -/
def lampSetup (priorA : ℚ) : Aam.Setup 1 1 2 ℚ ℚ ℚ (ℚ × ℚ) ℚ where
  setTarget s := fun _ => s
  target p := p 0
  warp im p := .ok (p 0 + im, im)
  mask x := ![x.1, x.2]
  jacI _ := !![1; 0]
  jacA _ := !![-1; 0]
  aBar := 0
  A := !![1; 1]
  pinvA := !![1 / 2, 1 / 2]
  priorS := 0
  priorA := fun _ => priorA
  dist s s' := |s - s'|

theorem lampSetup_pinv (q : ℚ) : Spec.IsPinv (lampSetup q).A (lampSetup q).pinvA := by
  constructor <;> simp only [lampSetup] <;> decide +kernel

theorem lampSetup_brighter (q b : ℚ) : Spec.Brighter (lampSetup q) (fun _ => b) 0 b := by
  refine ⟨?_, fun c => rfl, fun p => ⟨?_, rfl⟩⟩
  · funext i
    fin_cases i <;> simp [lampSetup, mulVec, dotProduct, Fin.sum_univ_two] <;> ring
  · funext i
    fin_cases i <;> simp [lampSetup]

theorem lit_precompute_ok {n m : Nat} {Q : Matrix (Fin m) (Fin m) ℚ} {J : Matrix (Fin m) (Fin n) ℚ}
    (h : ((Q * J)ᵀ * J).det ≠ 0) :
    precompute Q J = .ok ⟨Q * J, (Q * J)ᵀ * J, ((Q * J)ᵀ * J)⁻¹ * (Q * J)ᵀ⟩ := by
  simp only [precompute, npSolveMat]
  rw [if_neg h]
  rfl

/-- The hypotheses of `C138_brightness_partial` and `C138_brightness_project_out` are met, and the cache exists. -/
example : Spec.IsPinv (lampSetup 0).A (lampSetup 0).pinvA ∧ Spec.Brighter (lampSetup 0) (fun _ => 3) 0 3 ∧
    ∃ cache, precompute (Aam.projectOutEnv (lampSetup 0)).Q !![-1; 0] = .ok cache := by
  refine ⟨lampSetup_pinv 0, lampSetup_brighter 0 3, ?_⟩
  refine ⟨_, lit_precompute_ok ?_⟩
  simp only [Aam.projectOutEnv, lampSetup]
  decide +kernel

theorem lamp_solve {n : Nat} {H : Matrix (Fin n) (Fin n) ℚ} {b d : Fin n → ℚ} (h : H.det ≠ 0) (hd : H *ᵥ d = b) :
    npSolve H b = .ok d := by
  rw [npSolve, if_neg h, ← hd, mulVec_mulVec, nonsing_inv_mul _ (isUnit_iff_ne_zero.2 h), one_mulVec]

theorem lamp_sim (b : ℚ) :
    Aam.step (lampSetup 1) .simultaneous false true b ⟨fun _ => 0, fun _ => b, (b, b), 0⟩ =
      (⟨fun _ => -(b / 2), fun _ => b / 2, (-(b / 2) + b, b), ![-(b / 2), 0]⟩, .ok |b / 2|) := by
  have hJ : Aam.simJacobian (lampSetup 1).A (Aam.jacobian (lampSetup 1) false ⟨fun _ => 0, fun _ => b, (b, b), 0⟩) =
      !![-1, 1; -1, 0] := by
    ext i j
    fin_cases i <;> fin_cases j <;> simp [Aam.simJacobian, Aam.jacobian, lampSetup, Fin.append, Fin.addCases]
  have he : (lampSetup 1).mask (b, b) - Aam.appearance (lampSetup 1) (fun _ => b) = 0 := by
    funext i
    fin_cases i <;> simp [Aam.appearance, lampSetup, dotProduct]
  have hs : solveAllMap (!![-1, 1; -1, 0]ᵀ * !![-1, 1; -1, 0]) !![-1, 1; -1, 0] (0 : Fin 2 → ℚ) (lampSetup 1).priorA
      (fun _ => b) (lampSetup 1).priorS (fun _ => 0) = .ok (fun _ => -(b / 2), fun _ => -(b / 2)) := by
    unfold solveAllMap
    rw [if_pos (by decide), dif_pos rfl]
    simp only [mapStep]
    rw [lamp_solve (d := ![b / 2, b / 2])]
    · simp only [Except.map]
      congr 2
      · funext i
        obtain rfl : i = 0 := Subsingleton.elim _ _
        simp
      · funext i
        obtain rfl : i = ⟨0, by omega⟩ := by
          apply Fin.ext
          have := i.isLt
          show i.val = 0
          omega
        simp
    · decide +kernel
    · funext i
      fin_cases i <;> simp [lampSetup, mulVec, dotProduct, Fin.sum_univ_two, Fin.append, Fin.addCases, mul_apply] <;> ring
  simp only [Aam.step, Aam.simStep, if_true, he, hJ]
  rw [hs]
  simp only [Except.map, Aam.advance, Aam.updateWarp, Bool.false_eq_true, if_false, lampSetup, Aam.jacobian]
  have h1 : (fun _ => 0 : Fin 1 → ℚ) + (fun _ => -(b / 2)) = fun _ => -(b / 2) := by funext i; simp
  have h2 : (fun _ => b : Fin 1 → ℚ) + (fun _ => -(b / 2)) = fun _ => b / 2 := by funext i; simp; ring
  have h3 : (!![1; 0] : Matrix (Fin 2) (Fin 1) ℚ) *ᵥ (fun _ => -(b / 2)) = ![-(b / 2), 0] := by
    funext i; fin_cases i <;> simp [mulVec, dotProduct]
  congr 1
  · rw [h1, h2, h3]
  · rw [h1]; simp

/-- C138 fails with MAP inference of the simultaneous algorithm: the prior of the appearance pulls on a brighter
picture and the shape moves. -/
theorem C138_map_violated : ∃ (z : Aam.Setup 1 1 2 ℚ ℚ ℚ (ℚ × ℚ) ℚ) (u : Fin 2 → ℚ) (im im' : ℚ),
    Spec.IsPinv z.A z.pinvA ∧ Spec.Brighter z u im im' ∧
    (Aam.run z .simultaneous false true 1 0 false im 0).map (·.shapes) = .ok [0, 0] ∧
    (Aam.run z .simultaneous false true 1 0 false im' 0).map (·.shapes) = .ok [0, -1 / 2] := by
  have hrun : ∀ b : ℚ, (Aam.run (lampSetup 1) .simultaneous false true 1 0 false b 0).map (·.shapes) =
      .ok [0, -(b / 2)] := by
    intro b
    have h0 : (lampSetup 1).warp b ((lampSetup 1).setTarget 0) = .ok (b, b) := by simp [lampSetup]
    have hc : (lampSetup 1).pinvA *ᵥ ((lampSetup 1).mask (b, b) - (lampSetup 1).aBar) = fun _ => b := by
      funext i
      fin_cases i
      simp [lampSetup, mulVec, dotProduct, Fin.sum_univ_two]; ring
    have hp : (lampSetup 1).setTarget 0 = fun _ => 0 := rfl
    simp only [Aam.run, h0, Optim.run]
    rw [hc, hp, loop_unfold, if_pos ⟨by decide, trivial⟩]
    have hm : (Aam.machine (lampSetup 1) .simultaneous false true b).step = Aam.step (lampSetup 1) .simultaneous false true b := rfl
    rw [hm, lamp_sim]
    simp only
    rw [loop_unfold, if_neg (by simp)]
    simp [Aam.machine, Except.map, lampSetup]
  refine ⟨lampSetup 1, fun _ => 1, 0, 1, lampSetup_pinv 1, lampSetup_brighter 1 1, ?_, ?_⟩
  · rw [hrun]; simp
  · rw [hrun]; norm_num

/-- A ramp of slope `im` seen at one pixel; nothing is projected out. -/
def slopeSetup : Aam.Setup 1 0 1 ℚ ℚ ℚ (ℚ × ℚ) ℚ where
  setTarget s := fun _ => s
  target p := p 0
  warp im p := .ok (im * p 0, im)
  mask x := fun _ => x.1
  jacI x := !![x.2]
  jacA _ := !![-1]
  aBar := 0
  A := 0
  pinvA := 0
  priorS := 0
  priorA := 0
  dist s s' := |s - s'|

/-- The cache of the inverse algorithm for the ramp of slope one. -/
def slopeCache : Cache 1 1 ℚ := ⟨!![-1], 1, !![-1]⟩

theorem slopeCache_eq : precompute (Aam.projectOutEnv slopeSetup).Q (slopeSetup.jacA 0) = .ok slopeCache := by
  have hQ : (Aam.projectOutEnv slopeSetup).Q = 1 := by simp [Aam.projectOutEnv, slopeSetup]
  have hJ : slopeSetup.jacA 0 = !![-1] := rfl
  have h1 : (!![-1] : Matrix (Fin 1) (Fin 1) ℚ)ᵀ * !![-1] = 1 := by decide +kernel
  rw [hQ, hJ, lit_precompute_ok]
  · rw [Matrix.one_mul, h1, inv_one, Matrix.one_mul, slopeCache]
    congr 2
    decide +kernel
  · rw [Matrix.one_mul, h1]; simp

theorem slope_contrasted (g : ℚ) : Spec.Contrasted slopeSetup g 0 1 g :=
  ⟨by simp, fun p => ⟨by funext i; simp [slopeSetup], by ext i j; simp [slopeSetup]⟩⟩

/-- C138 fails for inverse project-out: with twice the contrast the increments are twice as long. -/
theorem C138_inverse_contrast_violated : ∃ (z : Aam.Setup 1 0 1 ℚ ℚ ℚ (ℚ × ℚ) ℚ) (cache : Cache 1 1 ℚ) (im im' : ℚ),
    Spec.IsPinv z.A z.pinvA ∧ z.A *ᵥ (z.pinvA *ᵥ z.aBar) = z.aBar ∧ Spec.Contrasted z 2 0 im im' ∧
    precompute (Aam.projectOutEnv z).Q (z.jacA 0) = .ok cache ∧
    (poRun (Aam.projectOutEnv z) true 0 cache ⟨im, 1, 1, false, false⟩).2 = .ok ⟨[1, 0], [fun _ => 1, fun _ => 0], none⟩ ∧
    (poRun (Aam.projectOutEnv z) true 0 cache ⟨im', 1, 1, false, false⟩).2 =
      .ok ⟨[1, -1], [fun _ => 1, fun _ => -1], none⟩ := by
  have hrun : ∀ b : ℚ, (poRun (Aam.projectOutEnv slopeSetup) true 0 slopeCache ⟨b, 1, 1, false, false⟩).2 =
      .ok ⟨[1, 1 - b], [fun _ => 1, fun _ => 1 - b], none⟩ := by
    intro b
    have hstep : poStep (Aam.projectOutEnv slopeSetup) true false b ⟨slopeCache, fun _ => 1, (b, b)⟩ =
        (⟨slopeCache, fun _ => 1 - b, (b * (1 - b), b)⟩, .ok |b|) := by
      have hd : -(slopeCache.pinvQJ *ᵥ ((Aam.projectOutEnv slopeSetup).mask (b, b) - (Aam.projectOutEnv slopeSetup).aBar)) =
          fun _ => b := by
        funext i
        simp [slopeCache, Aam.projectOutEnv, slopeSetup, dotProduct]
      have hp : (fun _ => 1 : Fin 1 → ℚ) - (fun _ => b) = fun _ => 1 - b := rfl
      simp only [poStep, solveInverse, Bool.false_eq_true, if_false, if_true, hd, hp]
      simp [Aam.projectOutEnv, slopeSetup]
    have hm : (poMachine (Aam.projectOutEnv slopeSetup) true false b).step =
      poStep (Aam.projectOutEnv slopeSetup) true false b := rfl
    have h0 : (Aam.projectOutEnv slopeSetup).warp b ((Aam.projectOutEnv slopeSetup).setTarget 1) = .ok (b, b) := by
      simp [Aam.projectOutEnv, slopeSetup]
    have hp : (Aam.projectOutEnv slopeSetup).setTarget 1 = fun _ => 1 := rfl
    simp only [poRun, h0, Optim.run]
    rw [hp, loop_unfold, if_pos ⟨by decide, trivial⟩, hm, hstep]
    simp only
    rw [loop_unfold, if_neg (by simp)]
    simp [poMachine, Aam.projectOutEnv, slopeSetup]
  refine ⟨slopeSetup, slopeCache, 1, 2, ⟨?_, ?_, ?_, ?_⟩, by simp [slopeSetup], slope_contrasted 2, slopeCache_eq, ?_, ?_⟩
  · simp [slopeSetup]
  · simp [slopeSetup]
  · simp [slopeSetup]
  · simp [slopeSetup]
  · rw [hrun]; norm_num
  · rw [hrun]; norm_num

/-! ## Whole fits -/

section
variable {S P F R : Type} [DecidableEq F]
open Fitter

/-- C138, the fitter: if rescaling and features turn pictures that are alike into pictures that are alike, and the
algorithm of every scale returns the same on pictures that are alike, then the fitted results of all scales are the
same, and so are the landmarks left on the picture. -/
theorem C138_fitter (Alike : P → P → Prop) (ext : Ext S P F) (hk : Spec.KeepsLight Alike ext) (final : R → S)
    (features : List F) (scales : List Rat) (algs : List (Algorithm S P R))
    (halg : ∀ a ∈ algs, ∀ v w, Spec.LitAs Alike v w → a w = a v) (image image' : Img S P)
    (hi : Spec.LitAs Alike image image') (init : S) (maxIters : Checks.MaxIters) (gt : Option S) :
    (fitFromShape ext final features scales algs image' init maxIters gt).1 =
      (fitFromShape ext final features scales algs image init maxIters gt).1 ∧
    (fitFromShape ext final features scales algs image' init maxIters gt).2.map Prod.snd =
      (fitFromShape ext final features scales algs image init maxIters gt).2.map Prod.snd := by
  obtain ⟨hlm, hpx⟩ := hi
  have hlit : ∀ lm : String → Option S, Spec.LitAs Alike ⟨lm, image.px⟩ ⟨lm, image'.px⟩ := fun lm => ⟨rfl, hpx⟩
  rcases gt with _ | gt
  all_goals
    simp only [fitFromShape, prepareImage, hlm]
    generalize hx : prepBody ext features scales ⟨_, image.px⟩ init _ = x
    generalize hy : prepBody ext features scales ⟨_, image'.px⟩ init _ = y
    have hb : Spec.BothWays (Lighting.PreparedLit Alike) x y := by
      rw [← hx, ← hy]
      exact Lighting.prepBody_lit hk _ _ (hlit _) _ _
    rcases x with e | p <;> rcases y with e' | q <;> simp only [Spec.BothWays] at hb
    · subst hb; exact ⟨rfl, rfl⟩
    · refine ⟨rfl, ?_⟩
      simp only [bind, Except.bind, hb.initialShapes, hb.gtShapes, hb.affine, hb.scale]
      cases Checks.checkMaxIters maxIters scales.length with
      | error e => rfl
      | ok iters =>
        simp only
        have hf := Lighting.fitLoop_lit final (Lighting.mkLevels_lit features scales hb.images p.affine p.scale p.gtShapes
          iters algs halg)
        cases p.initialShapes with
        | nil => rfl
        | cons s0 _ =>
          simp only
          rw [hf s0]
          cases fitLoop (F := F) final s0 _ <;> rfl

/-- The hypotheses of `C138_fitter` are met: pictures that are numbers, alike if one is a brighter version of the
other; rescaling keeps them, the feature subtracts the mean. -/
example : ∃ (ext : Ext ℚ (ℚ × ℚ) Unit) (alg : Algorithm ℚ (ℚ × ℚ) ℚ) (image image' : Img ℚ (ℚ × ℚ)),
    Spec.KeepsLight (fun x y => y.1 - x.1 = y.2 - x.2) ext ∧
    (∀ v w, Spec.LitAs (fun x y : ℚ × ℚ => y.1 - x.1 = y.2 - x.2) v w → alg w = alg v) ∧
    Spec.LitAs (fun x y => y.1 - x.1 = y.2 - x.2) image image' ∧ image.px ≠ image'.px ∧
    ((fitFromShape (F := Unit) (R := ℚ) ext (fun r : ℚ => r) [()] [1] [alg] image 0 (.int 5) none).2.map Prod.snd).toOption = some [2] := by
  refine ⟨⟨.ok, fun _ i => .ok ⟨i.lm, (i.px.1 - i.px.2, 0)⟩, fun _ _ => .ok 1, fun i _ => .ok (i, 1)⟩,
    fun i _ _ _ => .ok (i.px.1 - i.px.2), ⟨fun _ => none, (3, 1)⟩, ⟨fun _ => none, (5, 3)⟩, ?_, ?_, ?_, ?_, ?_⟩
  · refine ⟨fun x y h => h, fun f x y h => ⟨h.lm, ?_⟩, fun x y s h => ⟨h, rfl⟩⟩
    have := h.px
    simp only at this ⊢
    linarith
  · intro v w h
    funext s g i
    have := h.px
    simp only at this ⊢
    congr 1
    linarith
  · exact ⟨rfl, by norm_num⟩
  · intro h; simp at h
  · decide +kernel

end

end Menpofit
