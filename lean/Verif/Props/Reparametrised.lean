import Verif.Lemmas.Reparametrised
import Verif.Lemmas.ReparametrisedLk
import Verif.Props.Lighting
/-!
# How the shapes of a model are parametrised does not matter without a prior (C151)
-/

namespace Menpofit
open Matrix GN

section
variable {K : Type} [Field K] [DecidableEq K] {n a m : Nat} {S Im W E : Type} [LinearOrder E]

/-- C151, project-out and template algorithms, forward and inverse, without the prior: two models that describe the
same shapes with other parameters report the same shapes and costs and translated parameters, or the same exception,
whatever the two algorithm objects fitted before. -/
theorem C151_project_out (R : Matrix (Fin n) (Fin n) K) (env env' : Env n m K S Im W E)
    (hz : Spec.Reparametrised R env env') (J : Matrix (Fin m) (Fin n) K) (cache : Cache n m K)
    (hc : precompute env.Q J = .ok cache) :
    ∃ cache', precompute env'.Q (J * R) = .ok cache' ∧
      ∀ (inverse : Bool) (tol : E) (hist hist' : List (Input S Im E)) (im : Im) (init : S) (maxIters : Int) (costs : Bool),
        (poRun env' inverse tol (afterRuns env' inverse tol cache' hist') ⟨im, init, maxIters, costs, false⟩).2.map
            (Spec.TranslatedParams (R *ᵥ ·)) =
          (poRun env inverse tol (afterRuns env inverse tol cache hist) ⟨im, init, maxIters, costs, false⟩).2 := by
  obtain ⟨cache', h1, h2⟩ := Reparametrised.precompute_basis hz.invertible env.Q J hc
  refine ⟨cache', by rw [hz.Q]; exact h1, fun inverse tol hist hist' im init maxIters costs => ?_⟩
  obtain ⟨_, k1⟩ := Expression.keeps env inverse tol cache hist
  obtain ⟨_, k2⟩ := Expression.keeps env' inverse tol cache' hist'
  simp only [poRun, hz.warp, hz.setTarget]
  cases env.warp im (env.setTarget init) with
  | error e => rfl
  | ok i =>
    have := SameSpace.run_see false (poMachine env inverse false im) (poMachine env' inverse false im) id (R *ᵥ ·)
      (Reparametrised.PRel R inverse) maxIters tol
      (fun s t h => by simp only [poMachine, hz.target, h.p])
      (fun s t h => by simp only [poMachine, h.p, id])
      (fun s t h => by simp only [poMachine, hz.mask, hz.aBar, hz.Q, h.i])
      (fun s t h => Reparametrised.po_rel hz inverse im s t h) costs
      ⟨afterRuns env inverse tol cache hist, env.setTarget init, i⟩
      ⟨afterRuns env' inverse tol cache' hist', env'.setTarget init, i⟩
      ⟨hz.setTarget init, rfl, fun _ => by rw [k1, k2]; exact h2⟩
    refine Eq.trans this ?_
    dsimp only
    generalize (Optim.run (poMachine env inverse false im) false maxIters tol costs _).2 = r
    cases r <;> simp [Except.map, SameSpace.see]

/-- C151, the algorithms with an explicit appearance: the same shapes, appearance parameters and costs, and translated
shape parameters. -/
theorem C151_appearance (R : Matrix (Fin n) (Fin n) K) (z z' : Aam.Setup n a m K S Im W E)
    (hz : Spec.ReparametrisedAam R z z') (alg : Aam.Alg) (inverse : Bool) (maxIters : Int) (tol : E) (costs : Bool)
    (im : Im) (init : S) :
    (Aam.run z' alg inverse false maxIters tol costs im init).map
        (Spec.TranslatedParams fun q => (R *ᵥ q.1, q.2)) =
      Aam.run z alg inverse false maxIters tol costs im init := by
  simp only [Aam.run, hz.warp, hz.setTarget]
  cases z.warp im (z.setTarget init) with
  | error e => rfl
  | ok i =>
    have := SameSpace.run_see false (Aam.machine z alg inverse false im) (Aam.machine z' alg inverse false im) id
      (fun q => (R *ᵥ q.1, q.2)) (Reparametrised.ARel R) maxIters tol
      (fun s t h => by simp only [Aam.machine, hz.target, h.p])
      (fun s t h => by simp only [Aam.machine, h.p, h.c, id])
      (fun s t h => by
        cases alg <;> simp only [Aam.machine, Aam.cost, Lighting.projectOut_eq, Reparametrised.app hz, hz.mask, hz.aBar,
          hz.A, hz.pinvA, h.i, h.c])
      (fun s t h => Reparametrised.step_rel hz alg inverse im s t h) costs
      ⟨z.setTarget init, z.pinvA *ᵥ (z.mask i - z.aBar), i, 0⟩
      ⟨z'.setTarget init, z'.pinvA *ᵥ (z'.mask i - z'.aBar), i, 0⟩
      ⟨hz.setTarget init, by rw [hz.pinvA, hz.mask, hz.aBar], rfl, rfl⟩
    refine Eq.trans this ?_
    dsimp only
    generalize (Optim.run (Aam.machine z alg inverse false im) false maxIters tol costs _).2 = r
    cases r <;> simp [Except.map, SameSpace.see]

end

/-! ## Constrained local and unified models -/

section
variable {N k a m : Nat} {Im W : Type}

/-- C151, active shape model and regularised landmark mean-shift without the prior. -/
theorem C151_clm (R : Matrix (Fin k) (Fin k) ℝ) (env env' : ClmRun.Env N k Im) (hz : Spec.ReparametrisedClm R env env')
    (alg : ClmRun.Alg) (maxIters : Int) (tol : ℝ) (im : Im) (init : MI.Pts N 2) :
    (ClmRun.run env' alg false maxIters tol im init).map (Spec.TranslatedParams (R *ᵥ ·)) =
      ClmRun.run env alg false maxIters tol im init := by
  have hu : ∀ p, (ClmRun.update env' alg false im p).map (R *ᵥ ·) = ClmRun.update env alg false im (R *ᵥ p) := by
    intro p
    cases alg with
    | activeShape =>
      simp only [ClmRun.update, ClmRun.asmStep, hz.shape, hz.respond, hz.h, hz.w, hz.c, hz.J, Bool.false_eq_true, if_false]
      cases env.respond im (env.shape (R *ᵥ p)) with
      | error e => rfl
      | ok r =>
        simp only [bind, Except.bind, pure, Except.pure]
        rw [← Reparametrised.clm_basis hz.invertible env.J]
        generalize clmMlStep (env.J * R) _ = x
        cases x <;> simp [Except.map, mulVec_add]
    | meanShift =>
      simp only [ClmRun.update, hz.shape, hz.respond, hz.h, hz.w, hz.c, hz.J, Bool.false_eq_true, if_false]
      cases env.respond im (env.shape (R *ᵥ p)) with
      | error e => rfl
      | ok r =>
        simp only [bind, Except.bind, pure, Except.pure]
        rw [← Reparametrised.clm_basis hz.invertible env.J]
        generalize clmMlStep (env.J * R) _ = x
        cases x <;> simp [Except.map, mulVec_add]
  have := SameSpace.run_see false (ClmRun.machine env alg false im) (ClmRun.machine env' alg false im) id (R *ᵥ ·)
    (fun s t => R *ᵥ t = s) maxIters tol
    (fun s t h => by simp only [ClmRun.machine, hz.shape, h])
    (fun s t h => by simp only [ClmRun.machine, h, id])
    (fun s t h => rfl)
    (fun s t h => by
      subst h
      simp only [ClmRun.machine, ← hu]
      cases ClmRun.update env' alg false im t with
      | error e => exact ⟨rfl, fun e he => by cases he⟩
      | ok q => exact ⟨by simp only [Except.map, hz.shape], fun e _ => rfl⟩) false
    (env.setTarget init) (env'.setTarget init) (hz.setTarget init)
  refine Eq.trans this ?_
  simp only [ClmRun.run]
  generalize (Optim.run (ClmRun.machine env alg false im) false maxIters tol false _).2 = r
  cases r <;> simp [Except.map, SameSpace.see]

/-- C151, the unified algorithms without the prior. -/
theorem C151_unified (R : Matrix (Fin k) (Fin k) ℝ) (env env' : ClmRun.UEnv N k a m Im W)
    (hz : Spec.ReparametrisedUnified R env env') (alg : ClmRun.UAlg) (α : ℝ) (maxIters : Int) (tol : ℝ) (costs : Bool)
    (im : Im) (init : MI.Pts N 2) :
    (ClmRun.uRun env' alg false α maxIters tol costs im init).map (Spec.TranslatedParams fun q => (R *ᵥ q.1, q.2)) =
      ClmRun.uRun env alg false α maxIters tol costs im init := by
  let T : ClmRun.UState k (N * 2) W → ClmRun.UState k (N * 2) W := fun t => ⟨R *ᵥ t.p, t.i, t.ec⟩
  have hl : ∀ p, (ClmRun.look env' im p).map T = ClmRun.look env im (R *ᵥ p) := by
    intro p
    simp only [ClmRun.look, ClmRun.clmError, hz.warp, hz.shape, hz.respond, hz.h, hz.w, hz.c]
    cases env.warp im (env.shape (R *ᵥ p)) with
    | error e => rfl
    | ok i => cases env.respond im (env.shape (R *ᵥ p)) <;> rfl
  have ha : ∀ t, ClmRun.uAppearance env' t = ClmRun.uAppearance env (T t) := by
    intro t; simp only [ClmRun.uAppearance, hz.pinvU, hz.mask, hz.aBar, T]
  have he : ∀ t, ClmRun.imageError env' alg t = ClmRun.imageError env alg (T t) := by
    intro t
    cases alg <;> simp only [ClmRun.imageError, ha, hz.U, hz.aBar, hz.mask, T]
  have hi : ∀ t, (ClmRun.increment env' alg false α t).map (R *ᵥ ·) = ClmRun.increment env alg false α (T t) := by
    intro t
    have h' := hz.regular'
    rw [hz.jPo, hz.J, hz.invSigma2, hz.invRho2] at h'
    cases alg with
    | projectOut =>
      simp only [ClmRun.increment, he, hz.jPo, hz.J, hz.invSigma2, hz.invRho2]
      exact Reparametrised.unified_po hz.invertible _ _ _ _ _ _ _ _ _ _ _ hz.regular h'
    | alternating =>
      simp only [ClmRun.increment, he, ha, hz.jac, hz.J, hz.invSigma2, hz.invRho2]
      exact Reparametrised.unified_alt hz.invertible _ _ _ _ _ _ _ _ _ _ _
  simp only [ClmRun.uRun]
  have h0 := hl (env'.setTarget init)
  rw [hz.setTarget] at h0
  rw [← h0]
  cases ClmRun.look env' im (env'.setTarget init) with
  | error e => rfl
  | ok t0 =>
    simp only [Except.map, bind, Except.bind]
    have := SameSpace.run_see false (ClmRun.uMachine env alg false α im) (ClmRun.uMachine env' alg false α im) id
      (fun q => (R *ᵥ q.1, q.2)) (fun s t => T t = s) maxIters tol
      (fun s t h => by subst h; simp only [ClmRun.uMachine, hz.shape, T])
      (fun s t h => by subst h; simp only [ClmRun.uMachine, ha, id, T])
      (fun s t h => by subst h; simp only [ClmRun.uMachine, he, T])
      (fun s t h => by
        subst h
        simp only [ClmRun.uMachine, ← hi]
        cases ClmRun.increment env' alg false α t with
        | error e => exact ⟨rfl, fun e he => by cases he⟩
        | ok dp =>
          have h1 : (T t).p + R *ᵥ dp = R *ᵥ (t.p + dp) := by rw [mulVec_add]
          simp only [Except.map, h1, ← hl]
          cases ClmRun.look env' im (t.p + dp) with
          | error e => exact ⟨rfl, fun e he => by cases he⟩
          | ok s' => exact ⟨by simp only [Except.map, hz.shape, T], fun e _ => rfl⟩) costs (T t0) t0 rfl
    refine Eq.trans this ?_
    generalize (Optim.run (ClmRun.uMachine env alg false α im) false maxIters tol costs _).2 = r
    cases r <;> simp [Except.map, SameSpace.see]

end

/-! ## Lucas-Kanade fits -/

section
variable {c h w n : Nat} {Im T S V V' : Type}

/-- C151, forward compositional Lucas-Kanade with the sum of squared differences, for rotations, reflections and
permutations of the parameters (other changes are missing: see `C151_lk_violated`). -/
theorem C151_lk_partial (env : Lk.Env c h w Im T) (kernel : Option (Dft.Pos h w → ℂ)) (R : Matrix (Fin n) (Fin n) ℝ)
    (hR : Rᵀ * R = 1) (f : V' → V) (tr : Lk.Transform n T S V) (tr' : Lk.Transform n T S V') (dW dW' : Lk.Jac h w n)
    (hz : Spec.ReparametrisedLk R f tr tr' dW dW') (template : Lk.Planes c h w) (eps : ℝ) (t : T) (im : Im) (initial : S)
    (maxIters : Int) :
    (Lk.fcRun (Lk.ssd env kernel) env tr' dW' template eps () t im initial maxIters).map (Spec.TranslatedParams f) =
      Lk.fcRun (Lk.ssd env kernel) env tr dW template eps () t im initial maxIters := by
  have hi : ∀ x, (Lk.fcIncrement (Lk.ssd env kernel) dW' template () x).map (fun q => (q.1, R *ᵥ q.2)) =
      Lk.fcIncrement (Lk.ssd env kernel) dW template () x := fun x =>
    ReparametrisedLk.ssd_basis env kernel (ReparametrisedLk.det_orth hR) (.frame x) hz.chain x template
  have := SameSpace.run_see true (Lk.fcMachine (Lk.ssd env kernel) env tr dW template im)
    (Lk.fcMachine (Lk.ssd env kernel) env tr' dW' template im) id f Eq maxIters eps
    (fun s t h => by subst h; simp only [Lk.fcMachine, hz.target])
    (fun s t h => by subst h; simp only [Lk.fcMachine, hz.vector, id])
    (fun s t h => rfl)
    (fun s t h => by
      subst h
      obtain ⟨⟨⟩, t0⟩ := s
      simp only [Lk.fcMachine, ← hi]
      cases Lk.fcIncrement (Lk.ssd env kernel) dW' template () (env.warp im t0) with
      | error e => exact ⟨rfl, fun e he => by cases he⟩
      | ok q => exact ⟨by simp only [Except.map, ReparametrisedLk.norm_basis hR], fun e _ => by
          simp only [Except.map, hz.compose]⟩) false
    ((), tr.setTarget t initial) ((), tr'.setTarget t initial) (by rw [hz.setTarget])
  refine Eq.trans this ?_
  simp only [Lk.fcRun]
  generalize (Optim.run (Lk.fcMachine (Lk.ssd env kernel) env tr dW template im) true maxIters eps false _).2 = r
  cases r <;> simp [Except.map, SameSpace.see]

/-- The same for the forward additive algorithm. -/
theorem C151_lk_additive_partial (env : Lk.Env c h w Im T) (kernel : Option (Dft.Pos h w → ℂ))
    (R : Matrix (Fin n) (Fin n) ℝ) (hR : Rᵀ * R = 1) (f : V' → V) (tr : Lk.Transform n T S V) (tr' : Lk.Transform n T S V')
    (add add' : T → (Fin n → ℝ) → T) (hadd : ∀ t d, add' t d = add t (R *ᵥ d)) (dW dW' : T → Lk.Jac h w n)
    (hz : ∀ t, Spec.ReparametrisedLk R f tr tr' (dW t) (dW' t)) (template : Lk.Planes c h w) (eps : ℝ) (t : T) (im : Im)
    (initial : S) (maxIters : Int) :
    (Lk.faRun (Lk.ssd env kernel) env tr' add' dW' template eps () t im initial maxIters).map (Spec.TranslatedParams f) =
      Lk.faRun (Lk.ssd env kernel) env tr add dW template eps () t im initial maxIters := by
  have hi : ∀ x, (Lk.faIncrement (Lk.ssd env kernel) env (dW' x) template () im x).map (fun q => (q.1, R *ᵥ q.2)) =
      Lk.faIncrement (Lk.ssd env kernel) env (dW x) template () im x := fun x =>
    ReparametrisedLk.ssd_basis env kernel (ReparametrisedLk.det_orth hR) (.forward im x) (hz x).chain (env.warp im x) template
  have := SameSpace.run_see true (Lk.faMachine (Lk.ssd env kernel) env tr add dW template im)
    (Lk.faMachine (Lk.ssd env kernel) env tr' add' dW' template im) id f Eq maxIters eps
    (fun s t h => by subst h; simp only [Lk.faMachine, (hz s.2).target])
    (fun s t h => by subst h; simp only [Lk.faMachine, (hz s.2).vector, id])
    (fun s t h => rfl)
    (fun s t h => by
      subst h
      obtain ⟨⟨⟩, t0⟩ := s
      simp only [Lk.faMachine, ← hi]
      cases Lk.faIncrement (Lk.ssd env kernel) env (dW' t0) template () im t0 with
      | error e => exact ⟨rfl, fun e he => by cases he⟩
      | ok q => exact ⟨by simp only [Except.map, ReparametrisedLk.norm_basis hR], fun e _ => by
          simp only [Except.map, hadd]⟩) false
    ((), tr.setTarget t initial) ((), tr'.setTarget t initial) (by rw [(hz t).setTarget])
  refine Eq.trans this ?_
  simp only [Lk.faRun]
  generalize (Optim.run (Lk.faMachine (Lk.ssd env kernel) env tr add dW template im) true maxIters eps false _).2 = r
  cases r <;> simp [Except.map, SameSpace.see]

/-- The same for the inverse compositional algorithm, when inverting an increment is a matter of what it does. -/
theorem C151_lk_inverse_partial (env : Lk.Env c h w Im T) (kernel : Option (Dft.Pos h w → ℂ))
    (R : Matrix (Fin n) (Fin n) ℝ) (hR : Rᵀ * R = 1) (f : V' → V) (tr : Lk.Transform n T S V) (tr' : Lk.Transform n T S V')
    (pinv pinv' : T → (Fin n → ℝ) → Fin n → ℝ) (hpinv : ∀ t d, R *ᵥ pinv' t d = pinv t (R *ᵥ d)) (dW dW' : Lk.Jac h w n)
    (hz : Spec.ReparametrisedLk R f tr tr' dW dW') (template : Lk.Planes c h w) (eps : ℝ) (t : T) (im : Im)
    (initial : S) (maxIters : Int) :
    (Lk.icFit (Lk.ssd env kernel) env tr' pinv' dW' template eps () t im initial maxIters).map
        (Spec.TranslatedParams f) =
      Lk.icFit (Lk.ssd env kernel) env tr pinv dW template eps () t im initial maxIters := by
  obtain ⟨pre, pre', h1, h2, hi⟩ :=
    ReparametrisedLk.ssd_ic_basis env kernel (ReparametrisedLk.det_orth hR) hz.chain template
  simp only [Lk.icFit, h1, h2, bind, Except.bind]
  have := SameSpace.run_see true (Lk.icMachine (Lk.ssd env kernel) env tr pinv template pre.2.1 pre.2.2 im)
    (Lk.icMachine (Lk.ssd env kernel) env tr' pinv' template pre'.2.1 pre'.2.2 im) id f Eq maxIters eps
    (fun s t h => by subst h; simp only [Lk.icMachine, hz.target])
    (fun s t h => by subst h; simp only [Lk.icMachine, hz.vector, id])
    (fun s t h => rfl)
    (fun s t h => by
      subst h
      obtain ⟨⟨⟩, t0⟩ := s
      simp only [Lk.icMachine, ← hi]
      cases Lk.icIncrement (Lk.ssd env kernel) ((), pre'.2.1, pre'.2.2) template (env.warp im t0) with
      | error e => exact ⟨rfl, fun e he => by cases he⟩
      | ok q => exact ⟨by simp only [Except.map, ReparametrisedLk.norm_basis hR], fun e _ => by
          simp only [Except.map, hz.compose, hpinv]⟩) false
    ((), tr.setTarget t initial) ((), tr'.setTarget t initial) (by rw [hz.setTarget])
  refine Eq.trans this ?_
  simp only [Lk.icRun]
  generalize (Optim.run (Lk.icMachine (Lk.ssd env kernel) env tr pinv template pre.2.1 pre.2.2 im) true maxIters eps
    false _).2 = r
  cases r <;> simp [Except.map, SameSpace.see]

end

/-- Shifting along the ramp, `r` units per unit of the parameter. -/
noncomputable def rampUnits (r : ℝ) : Lk.Transform 1 ℝ ℝ ℝ where
  compose t d := t + r * d 0
  target t := t
  vector t := t / r
  setTarget _ s := s

theorem rampUnits_step (r : ℝ) (hr : 0 < r) (t : ℝ) : (Lk.fcMachine (Lk.ssd rampEnv none) rampEnv (rampUnits r)
    (fun d _ _ => if d = 1 then r else 0) (rampEnv.warp (1, 0) 5) (1, 0)).step ((), t) =
      (((), 5), .ok (|t - 5| / r)) := by
  have hs : Lk.sdi (n := 1) (rampEnv.grad (rampEnv.warp (1, 0) t)) (fun d _ _ => if d = 1 then r else 0) =
      Matrix.of fun _ _ => r := by
    funext x k; simp [Lk.sdi, rampEnv]
  have hc : (r : ℂ) ≠ 0 := by exact_mod_cast hr.ne'
  have hi : Lk.fcIncrement (Lk.ssd rampEnv none) (fun d _ _ => if d = 1 then r else 0) (rampEnv.warp (1, 0) 5) ()
      (rampEnv.warp (1, 0) t) = .ok ((), fun _ : Fin 1 => -((t - 5) / r)) := by
    simp only [Lk.fcIncrement, Lk.ssd, Lk.gradientOf, bind, Except.bind, pure, Except.pure, hs]
    have hm : (Matrix.map (Matrix.of fun _ _ => r : Matrix (Lk.Px 1 1 2) (Fin 1) ℝ) fun x : ℝ => (x : ℂ)) =
        Matrix.of fun _ _ => (r : ℂ) := by
      ext i j; simp
    have hd : (Matrix.of fun _ _ => (r : ℂ) : Matrix (Lk.Px 1 1 2) (Fin 1) ℂ).transpose *
        (Matrix.of fun _ _ => (r : ℂ) : Matrix (Lk.Px 1 1 2) (Fin 1) ℂ) = (2 * r * r : ℂ) • 1 := by
      ext i j; fin_cases i; fin_cases j
      simp [Matrix.mul_apply]
      ring
    have hq : (2 * r * r : ℂ) ≠ 0 := by simp [hc]
    have hinv : ((2 * r * r : ℂ) • (1 : Matrix (Fin 1) (Fin 1) ℂ))⁻¹ = (1 / (2 * r * r) : ℂ) • 1 := by
      apply Matrix.inv_eq_right_inv
      rw [Matrix.smul_mul, Matrix.one_mul, smul_smul, mul_one_div, div_self hq, one_smul]
    have hdet : ((2 * r * r : ℂ) • (1 : Matrix (Fin 1) (Fin 1) ℂ)).det ≠ 0 := by simp [hc]
    rw [hm, hd]
    simp only [Lk.solveRe, GN.npSolve, if_neg hdet, hinv, Except.map]
    congr 2
    funext i
    obtain rfl : i = 0 := Subsingleton.elim _ _
    have hv : (((1 / (2 * r * r) : ℂ) • (1 : Matrix (Fin 1) (Fin 1) ℂ)) *ᵥ
        ((Matrix.of fun _ _ => (r : ℂ) : Matrix (Lk.Px 1 1 2) (Fin 1) ℂ).transpose *ᵥ
          Lk.cx (Lk.difference (rampEnv.warp (1, 0) t) (rampEnv.warp (1, 0) 5)))) 0 = (((t - 5) / r : ℝ) : ℂ) := by
      simp [Matrix.mulVec, dotProduct, Lk.cx, Lk.difference, rampEnv, Fintype.sum_prod_type]
      field_simp
    rw [Pi.neg_apply, hv, Complex.ofReal_re]
  simp only [Lk.fcMachine, hi, rampUnits]
  congr 1
  · congr 1; field_simp; ring
  · simp only [dotProduct, Fin.sum_univ_one, neg_mul_neg, Real.sqrt_mul_self_eq_abs, abs_div, abs_of_pos hr]

/-- C151 fails for Lucas-Kanade fits: they stop when the norm of the increment of the parameters is small, so the unit
of the parameters decides how long they go on. -/
theorem C151_lk_violated : ∃ (env : Lk.Env 1 1 2 (ℝ × ℝ) ℝ) (R : Matrix (Fin 1) (Fin 1) ℝ) (f : ℝ → ℝ)
    (tr tr' : Lk.Transform 1 ℝ ℝ ℝ) (dW dW' : Lk.Jac 1 2 1) (template : Lk.Planes 1 1 2) (im : ℝ × ℝ),
    R.det ≠ 0 ∧ Spec.ReparametrisedLk R f tr tr' dW dW' ∧
    (Lk.fcRun (Lk.ssd env none) env tr dW template (1 / 100) () 0 im 0 2).map (·.shapes) = .ok [0, 5, 5] ∧
    (Lk.fcRun (Lk.ssd env none) env tr' dW' template (1 / 100) () 0 im 0 2).map (·.shapes) = .ok [0, 5] := by
  refine ⟨rampEnv, !![1000], (1000 * ·), rampUnits 1, rampUnits 1000, fun d _ _ => if d = 1 then 1 else 0,
    fun d _ _ => if d = 1 then 1000 else 0, rampEnv.warp (1, 0) 5, (1, 0), by simp,
    ⟨fun d x k => ?_, fun t d => ?_, rfl, rfl, fun t => ?_⟩, ?_, ?_⟩
  · fin_cases k
    simp
  · simp [rampUnits, mulVec, dotProduct]
  · simp only [rampUnits]; ring
  · simp only [Lk.fcRun, Optim.run]
    rw [loop_unfold, if_pos ⟨by decide, trivial⟩, rampUnits_step 1 one_pos]
    simp only
    rw [loop_unfold, if_pos ⟨by decide, by simp [Optim.goOn, rampUnits]; norm_num⟩, rampUnits_step 1 one_pos]
    simp only
    rw [loop_unfold, if_neg (by simp)]
    simp [Lk.fcMachine, rampUnits, Except.map]
  · simp only [Lk.fcRun, Optim.run]
    rw [loop_unfold, if_pos ⟨by decide, trivial⟩, rampUnits_step 1000 (by norm_num)]
    simp only
    rw [loop_unfold, if_neg (by simp [Optim.goOn, rampUnits]; norm_num)]
    simp [Lk.fcMachine, rampUnits, Except.map]

/-- The hypotheses of the three theorems are met by a reflection (with `compose` as `add`, and increments inverted by
their sign). -/
example : (∀ (t : ℝ) (d : Fin 1 → ℝ), (rampUnits (-1)).compose t d = (rampUnits 1).compose t ((!![-1] : Matrix (Fin 1) (Fin 1) ℝ) *ᵥ d)) ∧
    (∀ d : Fin 1 → ℝ, (!![-1] : Matrix (Fin 1) (Fin 1) ℝ) *ᵥ (-d) = -((!![-1] : Matrix (Fin 1) (Fin 1) ℝ) *ᵥ d)) ∧
    (!![-1] : Matrix (Fin 1) (Fin 1) ℝ)ᵀ * !![-1] = 1 ∧
    Spec.ReparametrisedLk !![-1] (fun v => -v) (rampUnits 1) (rampUnits (-1))
      (fun d (_ : Dft.Pos 1 2) _ => if d = 1 then 1 else 0) (fun d _ _ => if d = 1 then -1 else 0) := by
  refine ⟨fun t d => by simp [rampUnits, dotProduct], fun d => mulVec_neg _ _, ?_, fun d x k => ?_, fun t d => ?_, rfl, rfl,
    fun t => ?_⟩
  · ext i j
    fin_cases i; fin_cases j
    simp [mul_apply]
  · fin_cases k
    simp only [Fin.sum_univ_one]; split <;> simp
  · simp [rampUnits, mulVec, dotProduct]
  · simp only [rampUnits]; ring

/-! ### An instance -/

/-- Shapes are pairs of numbers; the parameters are their coordinates with respect to the columns of `R`. -/
def frameSetup (R T : Matrix (Fin 2) (Fin 2) ℚ) : Aam.Setup 2 1 3 ℚ (Fin 2 → ℚ) ℚ (Fin 3 → ℚ) ℚ where
  setTarget s := T *ᵥ s
  target p := R *ᵥ p
  warp im p := .ok ![(R *ᵥ p) 0 - im, (R *ᵥ p) 1, 1]
  mask x := x
  jacI _ := (!![1, 0; 0, 1; 0, 0] : Matrix (Fin 3) (Fin 2) ℚ) * R
  jacA c := !![1 + c 0, 0; 0, 1; 0, 0] * R
  aBar := 0
  A := !![0; 0; 1]
  pinvA := !![0, 0, 1]
  priorS := 0
  priorA := 0
  dist s s' := |s 0 - s' 0| + |s 1 - s' 1|

theorem frame_reparametrised {R T : Matrix (Fin 2) (Fin 2) ℚ} (hR : R.det ≠ 0) (hT : R * T = 1) :
    Spec.ReparametrisedAam R (frameSetup 1 1) (frameSetup R T) where
  invertible := hR
  setTarget s := by simp only [frameSetup, mulVec_mulVec, hT]
  target p := by simp only [frameSetup, one_mulVec]
  warp im p := by simp only [frameSetup, one_mulVec]
  jacI i := by simp only [frameSetup, Matrix.mul_one]
  jacA c := by simp only [frameSetup, Matrix.mul_one]
  mask := rfl
  aBar := rfl
  A := rfl
  pinvA := rfl
  dist := rfl

/-- The hypotheses of the two theorems are met by a sheared frame. -/
example : Spec.ReparametrisedAam !![1, 2; 0, 1] (frameSetup 1 1) (frameSetup !![1, 2; 0, 1] !![1, -2; 0, 1]) ∧
    Spec.Reparametrised !![1, 2; 0, 1] (Aam.projectOutEnv (frameSetup 1 1))
      (Aam.projectOutEnv (frameSetup !![1, 2; 0, 1] !![1, -2; 0, 1])) ∧
    ∃ cache, precompute (Aam.projectOutEnv (frameSetup 1 1)).Q !![1, 0; 0, 1; 0, 0] = .ok cache := by
  have h := frame_reparametrised (R := !![1, 2; 0, 1]) (T := !![1, -2; 0, 1]) (by decide +kernel) (by decide +kernel)
  refine ⟨h, ⟨h.invertible, h.setTarget, h.target, h.warp, h.jacI, h.mask, h.aBar, ?_, h.dist⟩, ?_⟩
  · rfl
  · simp only [precompute, npSolveMat]
    rw [if_neg (by simp only [Aam.projectOutEnv, frameSetup]; decide +kernel)]
    exact ⟨_, rfl⟩

/-- One landmark that moves along the first axis, `r` units per unit of its parameter. -/
noncomputable def railEnv (r : ℝ) : ClmRun.UEnv 1 1 1 1 ℝ ℝ where
  setTarget s := fun _ => s (0, 0) / r
  shape p := fun x => if x.2 = 0 then r * p 0 else 0
  respond im _ := .ok fun _ => [im]
  h := 1
  w := 1
  c := 1
  J := Matrix.of fun i _ => if i.val = 0 then r else 0
  prior := fun _ => 1
  warp im s := .ok (im * s (0, 0))
  mask x := fun _ => x
  aBar := 0
  U := 1
  pinvU := 1
  jPo := Matrix.of fun _ _ => 3 * r
  jac c := Matrix.of fun _ _ => (1 + c 0) * r
  invSigma2 := 1
  invRho2 := 1

/-- The hypotheses of `C151_clm` and `C151_unified` are met: a rail measured in feet and one in yards. -/
example : Spec.ReparametrisedUnified !![3] (railEnv 1) (railEnv 3) ∧
    Spec.ReparametrisedClm !![3] (railEnv 1).toEnv (railEnv 3).toEnv := by
  have h : Spec.ReparametrisedUnified !![3] (railEnv 1) (railEnv 3) := by
    refine ⟨⟨by simp, fun s => ?_, fun p => ?_, ?_, rfl, rfl, rfl, rfl⟩, ?_, fun c => ?_, rfl, rfl, rfl, rfl, rfl, rfl, rfl,
      ?_, ?_⟩
    · funext i
      fin_cases i
      simp [railEnv, mulVec, dotProduct]
      ring
    · funext x
      simp [railEnv, mulVec, dotProduct]
    · ext i j
      fin_cases j
      simp [railEnv, mul_apply]
    · ext i j
      fin_cases j
      simp [railEnv, mul_apply]
    · ext i j
      fin_cases j
      simp [railEnv, mul_apply]
    · simp [railEnv, mul_apply, Fin.sum_univ_two]
      norm_num
    · simp [railEnv, mul_apply, Fin.sum_univ_two]
      norm_num
  exact ⟨h, h.toReparametrisedClm⟩

end Menpofit
