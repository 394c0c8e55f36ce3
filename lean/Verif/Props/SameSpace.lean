import Verif.Lemmas.SameSpace
/-!
# Only the space the appearance components span matters (C150)
-/

namespace Menpofit
open Matrix GN

section
variable {K : Type} [Field K] [DecidableEq K] {n a a' m : Nat} {S Im W E : Type} [LinearOrder E]

/-- C150, project-out: the algorithms made from two models whose components span the same space prepare the same
things, and after the same history of fits every fit has the same outcome and leaves the same behind. -/
theorem C150_project_out (z : Aam.Setup n a m K S Im W E) (z' : Aam.Setup n a' m K S Im W E)
    (hz : Spec.SameSpace z z') (hp : Spec.IsPinv z.A z.pinvA) (hp' : Spec.IsPinv z'.A z'.pinvA) (inverse : Bool)
    (J : Matrix (Fin m) (Fin n) K) (tol : E) (hist : List (Input S Im E)) (x : Input S Im E) :
    precompute (Aam.projectOutEnv z').Q J = precompute (Aam.projectOutEnv z).Q J ∧
    ∀ cache : Cache n m K, poRun (Aam.projectOutEnv z') inverse tol (afterRuns (Aam.projectOutEnv z') inverse tol cache hist) x =
      poRun (Aam.projectOutEnv z) inverse tol (afterRuns (Aam.projectOutEnv z) inverse tol cache hist) x := by
  have h : Aam.projectOutEnv z' = Aam.projectOutEnv z := by
    simp only [Aam.projectOutEnv, hz.setTarget, hz.target, hz.warp, hz.mask, hz.jacI, hz.aBar, hz.priorS, hz.dist,
      SameSpace.proj hz hp hp']
  rw [h]
  exact ⟨rfl, fun _ => rfl⟩

/-- C150, the modified alternating and Wiberg algorithms with and without the prior, and the alternating one without:
the same shapes, shape parameters, costs and appearances, or the same exception. -/
theorem C150_alternating_wiberg (z : Aam.Setup n a m K S Im W E) (z' : Aam.Setup n a' m K S Im W E)
    (hz : Spec.SameSpace z z') (hp : Spec.IsPinv z.A z.pinvA) (hp' : Spec.IsPinv z'.A z'.pinvA) (alg : Aam.Alg)
    (map : Bool) (halg : alg ≠ .simultaneous) (hmap : alg = .alternating → map = false) (inverse : Bool) (maxIters : Int)
    (tol : E) (costs : Bool) (im : Im) (init : S) :
    (Aam.run z' alg inverse map maxIters tol costs im init).map (Spec.Looks z') =
      (Aam.run z alg inverse map maxIters tol costs im init).map (Spec.Looks z) := by
  refine SameSpace.aam_run hz hp hp' alg inverse map maxIters tol costs im init (fun s t h => ?_)
  cases alg with
  | simultaneous => exact absurd rfl halg
  | alternating => rw [hmap rfl]; exact SameSpace.alt_rel hz hp hp' inverse im s t h
  | modifiedAlternating => exact SameSpace.mod_rel hz hp hp' inverse map im s t h
  | wiberg => exact SameSpace.wib_rel hz hp hp' inverse map im s t h

/-- C150, the simultaneous algorithm without the prior: the components of one model are the other's in another basis. -/
theorem C150_simultaneous (z z' : Aam.Setup n a m K S Im W E) (hz : Spec.SameSpace z z')
    (hp : Spec.IsPinv z.A z.pinvA) (hp' : Spec.IsPinv z'.A z'.pinvA) (R : Matrix (Fin a) (Fin a) K) (hR : R.det ≠ 0)
    (hA : z'.A = z.A * R) (inverse : Bool) (maxIters : Int) (tol : E) (costs : Bool) (im : Im) (init : S) :
    (Aam.run z' .simultaneous inverse false maxIters tol costs im init).map (Spec.Looks z') =
      (Aam.run z .simultaneous inverse false maxIters tol costs im init).map (Spec.Looks z) :=
  SameSpace.aam_run hz hp hp' .simultaneous inverse false maxIters tol costs im init
    (fun s t h => SameSpace.sim_rel hz hR hA inverse im s t h)

end

/-- C150, the unified algorithms, with and without the prior. -/
theorem C150_unified {N k a a' m : Nat} {Im W : Type} (env : ClmRun.UEnv N k a m Im W) (env' : ClmRun.UEnv N k a' m Im W)
    (hz : Spec.SameSpaceUnified env env') (hp : Spec.IsPinv env.U env.pinvU) (hp' : Spec.IsPinv env'.U env'.pinvU)
    (alg : ClmRun.UAlg) (prior : Bool) (α : ℝ) (maxIters : Int) (tol : ℝ) (costs : Bool) (im : Im) (init : MI.Pts N 2) :
    (ClmRun.uRun env' alg prior α maxIters tol costs im init).map (Spec.LooksUnified env') =
      (ClmRun.uRun env alg prior α maxIters tol costs im init).map (Spec.LooksUnified env) := by
  obtain ⟨R, hR⟩ := hz.forth
  obtain ⟨T, hT⟩ := hz.back
  have hproj := SameSpace.proj_eq hp hp' hR hT
  have hU : ∀ s, env'.U *ᵥ ClmRun.uAppearance env' s = env.U *ᵥ ClmRun.uAppearance env s := by
    intro s
    simp only [ClmRun.uAppearance, mulVec_mulVec, hproj, hz.mask, hz.aBar]
  have he : ∀ s, ClmRun.imageError env' alg s = ClmRun.imageError env alg s := by
    intro s
    cases alg <;> simp only [ClmRun.imageError, hU, hz.mask, hz.aBar]
  have hl : ∀ p, ClmRun.look env' im p = ClmRun.look env im p := by
    intro p
    simp only [ClmRun.look, ClmRun.clmError, hz.warp, hz.clm]
  have hi : ∀ s, ClmRun.increment env' alg prior α s = ClmRun.increment env alg prior α s := by
    intro s
    cases alg
    · simp only [ClmRun.increment, he, hz.jPo, hz.invSigma2, hz.invRho2, hz.clm]
    · simp only [ClmRun.increment, he, hz.jac _ _ (hU s), hz.invSigma2, hz.invRho2, hz.clm]
  simp only [ClmRun.uRun, hl, hz.clm]
  cases ClmRun.look env im (env.setTarget init) with
  | error e => rfl
  | ok s0 =>
    exact SameSpace.run_see false (ClmRun.uMachine env alg prior α im) (ClmRun.uMachine env' alg prior α im)
      (fun q => (q.1, env.U *ᵥ q.2)) (fun q => (q.1, env'.U *ᵥ q.2)) Eq maxIters tol
      (fun s t h => by subst h; simp only [ClmRun.uMachine, hz.clm])
      (fun s t h => by subst h; simp only [ClmRun.uMachine, hU])
      (fun s t h => by subst h; simp only [ClmRun.uMachine, he])
      (fun s t h => by
        subst h
        simp only [ClmRun.uMachine, hi, hl, hz.clm]
        exact ⟨trivial, fun e _ => trivial⟩) costs s0 s0 rfl

/-! ### Instances -/

/-- Three features, one shape parameter, components given. -/
def basisSetup {a : Nat} (A : Matrix (Fin 3) (Fin a) ℚ) (P : Matrix (Fin a) (Fin 3) ℚ) :
    Aam.Setup 1 a 3 ℚ ℚ ℚ (ℚ × ℚ) ℚ where
  setTarget s := fun _ => s
  target p := p 0
  warp im p := .ok (p 0 + im, im)
  mask x := ![x.1, x.2, 2 * x.1]
  jacI _ := !![1; 0; 2]
  jacA c := Matrix.of fun i _ => 1 + (A *ᵥ c) i
  aBar := 0
  A := A
  pinvA := P
  priorS := 1
  priorA := 1
  dist s s' := |s - s'|

theorem basisSetup_space {a a' : Nat} {A : Matrix (Fin 3) (Fin a) ℚ} {P : Matrix (Fin a) (Fin 3) ℚ}
    {A' : Matrix (Fin 3) (Fin a') ℚ} {P' : Matrix (Fin a') (Fin 3) ℚ} {R : Matrix (Fin a) (Fin a') ℚ}
    {T : Matrix (Fin a') (Fin a) ℚ} (hR : A' = A * R) (hT : A = A' * T) :
    Spec.SameSpace (basisSetup A P) (basisSetup A' P') where
  setTarget := rfl
  target := rfl
  warp := rfl
  mask := rfl
  jacI := rfl
  aBar := rfl
  priorS := rfl
  dist := rfl
  forth := ⟨R, hR⟩
  back := ⟨T, hT⟩
  jacA c c' h := by
    have h' : A' *ᵥ c' = A *ᵥ c := h
    simp only [basisSetup, h']

/-- The hypotheses of `C150_project_out` and `C150_alternating_wiberg` are met by models with one and with two
components. -/
example : ∃ (P : Matrix (Fin 1) (Fin 3) ℚ) (P' : Matrix (Fin 2) (Fin 3) ℚ),
    Spec.SameSpace (basisSetup !![1; 1; 0] P) (basisSetup !![1, 2; 1, 2; 0, 0] P') ∧
    Spec.IsPinv (basisSetup !![1; 1; 0] P).A (basisSetup !![1; 1; 0] P).pinvA ∧
    Spec.IsPinv (basisSetup !![1, 2; 1, 2; 0, 0] P').A (basisSetup !![1, 2; 1, 2; 0, 0] P').pinvA := by
  refine ⟨!![1 / 2, 1 / 2, 0], !![1 / 10, 1 / 10, 0; 1 / 5, 1 / 5, 0],
    basisSetup_space (R := !![1, 2]) (T := !![1; 0]) (by decide +kernel) (by decide +kernel), ?_, ?_⟩
  · constructor <;> simp only [basisSetup] <;> decide +kernel
  · constructor <;> simp only [basisSetup] <;> decide +kernel

/-- Those of `C150_simultaneous` are met by two bases of a plane. -/
example : ∃ (A A' : Matrix (Fin 3) (Fin 2) ℚ) (P P' : Matrix (Fin 2) (Fin 3) ℚ) (R : Matrix (Fin 2) (Fin 2) ℚ),
    Spec.SameSpace (basisSetup A P) (basisSetup A' P') ∧ Spec.IsPinv A P ∧ Spec.IsPinv A' P' ∧ R.det ≠ 0 ∧
    A' = A * R ∧ A ≠ A' := by
  refine ⟨!![1, 0; 0, 1; 0, 0], !![1, 1; 0, 1; 0, 0], !![1, 0, 0; 0, 1, 0], !![1, -1, 0; 0, 1, 0], !![1, 1; 0, 1],
    basisSetup_space (R := !![1, 1; 0, 1]) (T := !![1, -1; 0, 1]) (by decide +kernel) (by decide +kernel), ?_, ?_, ?_, ?_, ?_⟩
  · constructor <;> decide +kernel
  · constructor <;> decide +kernel
  · decide +kernel
  · decide +kernel
  · decide +kernel

/-- One landmark, one appearance feature; the components are given. -/
noncomputable def pairEnv {a : Nat} (U : Matrix (Fin 2) (Fin a) ℝ) (P : Matrix (Fin a) (Fin 2) ℝ) :
    ClmRun.UEnv 1 1 a 2 ℝ ℝ where
  setTarget s := fun _ => s (0, 0)
  shape p := fun x => if x.2 = 0 then p 0 else 0
  respond im _ := .ok fun _ => [im]
  h := 1
  w := 1
  c := 1
  J := Matrix.of fun i _ => if i.val = 0 then 1 else 0
  prior := fun _ => 1
  warp im s := .ok (im * s (0, 0))
  mask x := ![x, 1]
  aBar := 0
  U := U
  pinvU := P
  jPo := Matrix.of fun _ _ => 3
  jac c := Matrix.of fun i _ => 1 + (U *ᵥ c) i
  invSigma2 := 1
  invRho2 := 1

/-- The hypotheses of `C150_unified` are met: one component, and its double. -/
example : Spec.SameSpaceUnified (pairEnv !![1; 0] !![1, 0]) (pairEnv !![2; 0] !![1 / 2, 0]) ∧
    Spec.IsPinv (pairEnv !![1; 0] !![1, 0]).U (pairEnv !![1; 0] !![1, 0]).pinvU ∧
    Spec.IsPinv (pairEnv !![2; 0] !![1 / 2, 0]).U (pairEnv !![2; 0] !![1 / 2, 0]).pinvU := by
  refine ⟨⟨rfl, rfl, rfl, rfl, rfl, rfl, rfl, ⟨!![2], ?_⟩, ⟨!![1 / 2], ?_⟩, fun c c' h => ?_⟩, ?_, ?_⟩
  · simp [pairEnv]
  · simp [pairEnv]
  · have h' : !![2; 0] *ᵥ c' = !![1; 0] *ᵥ c := h
    simp only [pairEnv, h']
  · constructor <;> ext i j <;> fin_cases i <;> fin_cases j <;> simp [pairEnv, mul_apply]
  · constructor <;> ext i j <;> fin_cases i <;> fin_cases j <;> simp [pairEnv, mul_apply]

end Menpofit
