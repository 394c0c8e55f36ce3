import Verif.Lemmas.Signs
import Verif.Lemmas.Recount
import Verif.Lemmas.TurnedSdm
/-!
# Properties: the signs of principal components do not matter (C139)
-/

namespace Menpofit
open MI Spec Matrix Place

/-! ### Shape models -/

section
variable {n : Nat} {ortho : Ortho n}

/-- **C139** (building a shape model).  From statistics whose components have other signs, an `OrthoPDM` with the same
state is built, up to the signs of its components and weights, or the same exception is raised. -/
theorem C139_shape_model (ho : SignBlind ortho) (ε : Nat → ℝ) (hs : Signs ε) (m : Pca n 2) :
    ∃ ε', Signs ε' ∧ newOPdm ortho (flipPca ε m) = (newOPdm ortho m).map (flipPdm ε') :=
  Sign.newOPdm ho hs m

/-- **C139** (using a shape model).  With other signs, setting a target and the number of active components does the same
(same target, same exception, weights with the other signs), a parameter vector with the other signs sets the same shape,
and incrementing does the same up to signs. -/
theorem C139_shape_model_operations (ho : SignBlind ortho) (ε : Nat → ℝ) (hs : Signs ε) (p : OPdm n) :
    (∀ c, oSetTarget (flipPdm ε p) c = (flipPdm ε (oSetTarget p c).1, (oSetTarget p c).2)) ∧
    (∀ k, oSetActive (flipPdm ε p) k = (flipPdm ε (oSetActive p k).1, (oSetActive p k).2)) ∧
    (∀ v, oFromVector (flipPdm ε p) (flipVector ε v) = (oFromVector p v).map (flipPdm ε)) ∧
    ∀ ε₂, Signs ε₂ → ∀ m, ∃ ε', Signs ε' ∧
      oIncrement ortho (flipPdm ε p) (flipPca ε₂ m) = (flipPdm ε' (oIncrement ortho p m).1, (oIncrement ortho p m).2) :=
  ⟨Sign.oSetTarget hs p, Sign.oSetActive hs p, Sign.oFromVector hs p, fun _ h2 m => Sign.oIncrement ho h2 p m⟩

/-- **C139** (the history of a shape model).  Whatever targets and numbers of components are set and whatever statistics
the model is incremented with, the target of the model never depends on the signs of the components, nor do its
similarity weights; its other weights do so only in sign. -/
theorem C139_shape_model_history (ho : SignBlind ortho) (ε : Nat → ℝ) (hs : Signs ε) (m : Pca n 2) (p : OPdm n)
    (hp : newOPdm ortho m = .ok p) (ops ops' : List (PdmOp n 2)) (h : List.Forall₂ SameUpToSigns ops ops') :
    ∃ p' ε', newOPdm ortho (flipPca ε m) = .ok p' ∧ Signs ε' ∧
      (ops'.foldl (opdmStep ortho) p').target = (ops.foldl (opdmStep ortho) p).target ∧
      (ops'.foldl (opdmStep ortho) p').simWeights = (ops.foldl (opdmStep ortho) p).simWeights ∧
      (ops'.foldl (opdmStep ortho) p').weights = flipWeights ε' (ops.foldl (opdmStep ortho) p).weights := by
  obtain ⟨ε₁, h1, e1⟩ := Sign.newOPdm ho hs m
  rw [hp] at e1
  have key : ∀ (ops ops' : List (PdmOp n 2)), List.Forall₂ SameUpToSigns ops ops' → ∀ (ε : Nat → ℝ), Signs ε →
      ∀ p : OPdm n, ∃ ε', Signs ε' ∧
        ops'.foldl (opdmStep ortho) (flipPdm ε p) = flipPdm ε' (ops.foldl (opdmStep ortho) p) := by
    intro ops ops' h
    induction h with
    | nil => exact fun ε h p => ⟨ε, h, rfl⟩
    | cons ho' _ ih =>
      intro ε hε p
      rw [List.foldl_cons, List.foldl_cons]
      cases ho' with
      | target c =>
        have e : opdmStep ortho (flipPdm ε p) (.target c) = flipPdm ε (opdmStep ortho p (.target c)) := by
          simp only [opdmStep, Sign.oSetTarget hε]
        rw [e]
        exact ih ε hε _
      | active k =>
        have e : opdmStep ortho (flipPdm ε p) (.active k) = flipPdm ε (opdmStep ortho p (.active k)) := by
          simp only [opdmStep, Sign.oSetActive hε]
        rw [e]
        exact ih ε hε _
      | increment m ε₂ h2 =>
        obtain ⟨ε₃, h3, e3⟩ := Sign.oIncrement ho h2 (ε := ε) p m
        have e : opdmStep ortho (flipPdm ε p) (.increment (flipPca ε₂ m)) = flipPdm ε₃ (opdmStep ortho p (.increment m)) := by
          simp only [opdmStep, e3]
        rw [e]
        exact ih ε₃ h3 _
  obtain ⟨ε', h', e'⟩ := key ops ops' h ε₁ h1 p
  refine ⟨flipPdm ε₁ p, ε', e1, h', ?_, ?_, ?_⟩ <;> rw [e'] <;> rfl

end

/-- Scaling every component to unit length does not look at signs. -/
theorem unitLength_signs {n : Nat} : SignBlind (n := n) fun a b =>
    (a.map fun v => (1 / Real.sqrt (v ⬝ᵥ v)) • v, b.map fun v => (1 / Real.sqrt (v ⬝ᵥ v)) • v) := by
  intro ε hs a b
  refine ⟨ε, hs, ?_⟩
  simp only [Prod.mk.injEq, true_and]
  induction b generalizing ε with
  | nil => rfl
  | cons c b ih =>
    rw [Sign.comps_shift, List.map_cons, List.map_cons, Sign.comps_shift, ih (fun i => ε (i + 1)) fun i => hs (i + 1)]
    congr 1
    rw [smul_dotProduct, dotProduct_smul, smul_smul (ε 0) (ε 0), Sign.sq hs, one_smul, smul_comm]

/-- A square that gets wider. -/
noncomputable def signSquare : Pca 4 2 :=
  ⟨fun ij => ![![-1, -1], ![-1, 1], ![1, 1], ![1, -1]] ij.1 ij.2,
    [fun ij => ![![0, -1], ![0, 1], ![0, 1], ![0, -1]] ij.1 ij.2], 1⟩

/-- A model of it is built, and its component has two signs. -/
example : (∃ p, newOPdm (fun a b => (a, b)) signSquare = .ok p) ∧ flipPca (fun _ => -1) signSquare ≠ signSquare ∧
    Signs fun _ : Nat => (-1 : ℝ) := by
  refine ⟨⟨_, rfl⟩, fun h => ?_, fun _ => Or.inr rfl⟩
  have := congrArg (fun m : Pca 4 2 => (m.comps.getD 0 0) (1, 1)) h
  simp [flipPca, flipComps, signSquare] at this
  norm_num at this

/-- **C139** (weights given by the user) is violated: the same weights, given to a model whose components have other
signs, make another shape.  Weights chosen by hand therefore mean different shapes on different machines. -/
theorem C139_weights_violated :
    ∃ (m : Pca 4 2) (ε : Nat → ℝ) (w : List ℝ), Signs ε ∧ (flipPca ε m).inst w ≠ m.inst w := by
  refine ⟨signSquare, fun _ => -1, [1], fun _ => Or.inr rfl, fun h => ?_⟩
  simp only [Pca.inst, Pca.active, flipPca, flipComps, signSquare, instanceOf, combine, List.mapIdx_cons, List.mapIdx_nil,
    List.take_succ_cons, List.take_nil, List.length_cons, List.length_nil, List.zipWith_cons_cons, 
    List.take_zero, List.zipWith_nil_right, List.sum_cons, List.sum_nil, lt_irrefl, if_false, gt_iff_lt, Except.ok.injEq] at h
  have := congrFun h (1, 1)
  norm_num at this

/-! ### Fits -/

section
variable {N q : Nat} {Pic C : Type} {ε : Nat → ℝ}

theorem recount_turned {S C : Type} {k k' : Nat} (h : k' = k) (x : Except PyErr (Optim.Trace S (Fin k → ℝ) C)) :
    (x.map (turnedTrace id (Sign.mat ε k))).map (recount h) = x.map (flipTrace ε h) := by
  subst h
  cases x with
  | error e => rfl
  | ok r => simp [Except.map, turnedTrace, recount, flipTrace, Sign.mat, Sign.diag_vec]

theorem flipped_clm (hs : Signs ε) (M : OPdm N) (h4 : M.simComps.length = 4) (h w : Nat) (offs : Fin q → Warp.P 2)
    (sample : Pic → Warp.P 2 → C) (expert : Fin N → (Fin q → C) → List ℝ) (c rho2 : ℝ)
    (L : Fin M.model.active.length → ℝ) (alg : ClmRun.Alg) (im : Pic) :
    TurnedClm id 1 (Sign.mat ε (nPar M)) alg im im (clmEnv M h w offs sample expert c (Shared.jacobian M _) rho2 L)
      (recountClm (Sign.nPar ε M) (clmEnv (flipPdm ε M) h w offs sample expert c (Shared.jacobian (flipPdm ε M) _) rho2
        fun i => L (Fin.cast (Sign.active_length ε M.model) i))) := by
  refine ⟨by simp, Sign.diag_orth (Sign.mat_signs hs _), fun s => ?_, fun p => ?_, ?_, fun _ _ => rfl, ?_, fun p => ?_⟩
  · rw [Sign.mat, Sign.diag_vec]
    funext i
    exact Sign.params hs M h4 s i
  · rw [Sign.mat, Sign.diag_vec]
    exact Sign.shape hs M p
  · have e : (recountClm (Sign.nPar ε M) (clmEnv (flipPdm ε M) h w offs sample expert c
        (Shared.jacobian (flipPdm ε M) _) rho2 fun i => L (Fin.cast (Sign.active_length ε M.model) i))).prior =
        clmPrior rho2 L := by
      funext i
      exact append_recount (Sign.active_length ε M.model) (Sign.nPar ε M) (fun _ => 0) (fun j => rho2 / L j) i
    rw [e]
    exact Sign.diag_comm _ _
  · show (Shared.jacobian (flipPdm ε M) _).submatrix id _ = _
    rw [Sign.jacobian ε M (Sign.nPar ε M), Sign.mat, Matrix.one_mul, Sign.mul_diag]
    rfl
  · simp only [Matrix.one_mulVec]
    rfl

/-- **C139** (constrained local models).  Active shape model and regularised landmark mean-shift, with or without prior:
with a shape model whose components have other signs, every fit finds the same shapes, with parameters of the other
signs, or raises the same exception. -/
theorem C139_clm (hs : Signs ε) (M : OPdm N) (h4 : M.simComps.length = 4) (h w : Nat) (offs : Fin q → Warp.P 2)
    (sample : Pic → Warp.P 2 → C) (expert : Fin N → (Fin q → C) → List ℝ) (c rho2 : ℝ)
    (L : Fin M.model.active.length → ℝ) (alg : ClmRun.Alg) (map : Bool) (maxIters : Int) (tol : ℝ) (im : Pic)
    (init : Pts N 2) :
    ClmRun.run (clmEnv (flipPdm ε M) h w offs sample expert c (Shared.jacobian (flipPdm ε M) _) rho2
        fun i => L (Fin.cast (Sign.active_length ε M.model) i)) alg map maxIters tol im init =
      (ClmRun.run (clmEnv M h w offs sample expert c (Shared.jacobian M _) rho2 L) alg map maxIters tol im init).map
        (flipTrace ε (Sign.nPar ε M)) := by
  rw [recountClm_run (Sign.nPar ε M)]
  have := Turned.clm_run (flipped_clm hs M h4 h w offs sample expert c rho2 L alg im) map maxIters tol init
  rw [id] at this
  rw [this, recount_turned]

theorem recountA_turned {S C : Type} {k k' a : Nat} {δ : Fin a → ℝ} (h : k' = k)
    (x : Except PyErr (Optim.Trace S ((Fin k → ℝ) × (Fin a → ℝ)) C)) :
    (x.map (turnedTraceA id (Sign.mat ε k) (diagonal δ))).map (recountA h) = x.map (flipTraceA ε δ h) := by
  subst h
  cases x with
  | error e => rfl
  | ok r => simp [Except.map, turnedTraceA, recountA, flipTraceA, Sign.mat, Sign.diag_vec]

variable {a m : Nat} {W : Type} {δ : Fin a → ℝ}

theorem flipped_aam (hs : Signs ε) (hδ : Signs δ) (M : OPdm N) (h4 : M.simComps.length = 4)
    (look : Pic → Pts N 2 → Except PyErr W) (z : Appearance (nPar M) a m W) (z' : Appearance (nPar (flipPdm ε M)) a m W)
    (hz : FlippedAppearance ε δ (Sign.nPar ε M) z z') (s2 : ℝ) (L : Fin M.model.active.length → ℝ) (im : Pic) :
    TurnedAam id (Sign.mat ε (nPar M)) (diagonal δ) im im (aamSetup M look z s2 L)
      (recountAam (Sign.nPar ε M) (aamSetup (flipPdm ε M) look z' s2
        fun i => L (Fin.cast (Sign.active_length ε M.model) i))) := by
  refine ⟨Sign.diag_orth (Sign.mat_signs hs _), Sign.diag_orth hδ, fun s => ?_, fun p => ?_, fun p => ?_, ?_, fun w => ?_,
    fun c => ?_, hz.aBar, ?_, ?_, ?_, ?_, fun _ _ => rfl⟩
  · rw [Sign.mat, Sign.diag_vec]
    funext i
    exact Sign.params hs M h4 s i
  · rw [Sign.mat, Sign.diag_vec]
    exact Sign.shape hs M p
  · rw [Sign.mat, Sign.diag_vec]
    exact congrArg (look im) (Sign.shape hs M p)
  · funext w; exact hz.mask w
  · show (z'.jacI w).submatrix id _ = _
    rw [hz.jacI, Sign.mat, Sign.mul_diag]
    rfl
  · rw [Sign.diag_vec]
    show (z'.jacA fun j => δ j * c j).submatrix id _ = _
    rw [hz.jacA, Sign.mat, Sign.mul_diag]
    rfl
  · rw [Sign.mul_diag]
    ext r j
    exact hz.A r j
  · rw [Sign.diag_mul]
    ext j r
    exact hz.pinvA j r
  · have e : (recountAam (Sign.nPar ε M) (aamSetup (flipPdm ε M) look z' s2
        fun i => L (Fin.cast (Sign.active_length ε M.model) i))).priorS = aamPrior s2 L := by
      funext i
      exact append_recount (Sign.active_length ε M.model) (Sign.nPar ε M) (fun _ => 1) (fun j => s2 / L j) i
    rw [e]
    exact Sign.diag_comm _ _
  · show diagonal z'.priorA * _ = _
    rw [hz.priorA]
    exact Sign.diag_comm _ _

/-- **C139** (active appearance models).  Simultaneous, alternating, modified alternating and Wiberg algorithms, forward
and inverse, with or without prior: with shape and appearance components of other signs, every fit finds the same shapes
and costs, with parameters of the other signs, or raises the same exception.  Missing: the alternating algorithms with
prior when there are as many appearance components as features (`C139_alternating_violated`). -/
theorem C139_aam_partial (hs : Signs ε) (hδ : Signs δ) (M : OPdm N) (h4 : M.simComps.length = 4)
    (look : Pic → Pts N 2 → Except PyErr W) (z : Appearance (nPar M) a m W) (z' : Appearance (nPar (flipPdm ε M)) a m W)
    (hz : FlippedAppearance ε δ (Sign.nPar ε M) z z') (s2 : ℝ) (L : Fin M.model.active.length → ℝ) (alg : Aam.Alg)
    (inverse map : Bool) (ha : alg = .alternating → map = true → a ≠ m) (maxIters : Int) (tol : ℝ) (costs : Bool) (im : Pic)
    (init : Pts N 2) :
    Aam.run (aamSetup (flipPdm ε M) look z' s2 fun i => L (Fin.cast (Sign.active_length ε M.model) i)) alg inverse map
        maxIters tol costs im init =
      (Aam.run (aamSetup M look z s2 L) alg inverse map maxIters tol costs im init).map
        (flipTraceA ε δ (Sign.nPar ε M)) := by
  rw [recountAam_run (Sign.nPar ε M)]
  have := Turned.aam_run (flipped_aam hs hδ M h4 look z z' hz s2 L im) alg inverse map ha maxIters tol costs init
  rw [id] at this
  rw [this, recountA_turned]

/-- **C139** (project-out active appearance models, forward and inverse).  Construction and fit with components of other
signs: the same shapes and costs, with parameters of the other signs, or the same exception. -/
theorem C139_project_out (hs : Signs ε) (hδ : Signs δ) (M : OPdm N) (h4 : M.simComps.length = 4)
    (look : Pic → Pts N 2 → Except PyErr W) (z : Appearance (nPar M) a m W) (z' : Appearance (nPar (flipPdm ε M)) a m W)
    (hz : FlippedAppearance ε δ (Sign.nPar ε M) z z') (s2 : ℝ) (L : Fin M.model.active.length → ℝ) (inverse : Bool)
    (tol : ℝ) (J : Matrix (Fin m) (Fin (nPar M)) ℝ) (x : GN.Input (Pts N 2) Pic ℝ)
    (env : GN.Env (nPar M) m ℝ (Pts N 2) Pic W ℝ) (henv : env = Aam.projectOutEnv (aamSetup M look z s2 L))
    (env' : GN.Env (nPar (flipPdm ε M)) m ℝ (Pts N 2) Pic W ℝ) (henv' : env' = Aam.projectOutEnv (aamSetup
      (flipPdm ε M) look z' s2 fun i => L (Fin.cast (Sign.active_length ε M.model) i))) :
    ((GN.precompute env'.Q (flipCols ε (Sign.nPar ε M) J)).bind fun c => (GN.poRun env' inverse tol c x).2) =
      ((GN.precompute env.Q J).bind fun c => (GN.poRun env inverse tol c x).2).map (flipTrace ε (Sign.nPar ε M)) := by
  have hp := Turned.po_of_aam (flipped_aam hs hδ M h4 look z z' hz s2 L x.im)
  subst henv henv'
  rw [recountAam_po (Sign.nPar ε M)]
  have := Turned.po_whole hp inverse tol J x.init x.maxIters x.costs x.map
  have e1 : (flipCols ε (Sign.nPar ε M) J).submatrix id (Fin.cast (Sign.nPar ε M).symm) =
      J * (Sign.mat ε (nPar M))ᵀ := by
    rw [Sign.mat, Sign.mul_diag]
    rfl
  rw [id] at this
  rw [e1]
  refine (congrArg (Except.map (recount (Sign.nPar ε M))) this).trans ?_
  exact recount_turned _ _

/-- **C139** (unified models).  Project-out and alternating regularised landmark mean-shift, with or without prior and with
any weight: with shape and appearance components of other signs, every fit finds the same shapes and costs, with
parameters of the other signs, or raises the same exception. -/
theorem C139_unified (hs : Signs ε) (hδ : Signs δ) (M : OPdm N) (h4 : M.simComps.length = 4) (h w : Nat)
    (offs : Fin q → Warp.P 2) (sample : Pic → Warp.P 2 → C) (expert : Fin N → (Fin q → C) → List ℝ) (c rho2 : ℝ)
    (L : Fin M.model.active.length → ℝ) (look : Pic → Pts N 2 → Except PyErr W) (z : Appearance (nPar M) a m W)
    (z' : Appearance (nPar (flipPdm ε M)) a m W) (hz : FlippedAppearance ε δ (Sign.nPar ε M) z z')
    (jPo : Matrix (Fin m) (Fin (nPar M)) ℝ) (invSigma2 invRho2 : ℝ) (alg : ClmRun.UAlg) (prior : Bool) (α : ℝ)
    (maxIters : Int) (tol : ℝ) (costs : Bool) (im : Pic) (init : Pts N 2) :
    ClmRun.uRun (unifiedEnv (flipPdm ε M) (clmEnv (flipPdm ε M) h w offs sample expert c
        (Shared.jacobian (flipPdm ε M) _) rho2 fun i => L (Fin.cast (Sign.active_length ε M.model) i)) look z'
        (flipCols ε (Sign.nPar ε M) jPo) invSigma2 invRho2) alg prior α maxIters tol costs im init =
      (ClmRun.uRun (unifiedEnv M (clmEnv M h w offs sample expert c (Shared.jacobian M _) rho2 L) look z jPo invSigma2
        invRho2) alg prior α maxIters tol costs im init).map (flipTraceA ε δ (Sign.nPar ε M)) := by
  rw [recountUnified_run (Sign.nPar ε M)]
  have hu : TurnedUnified id 1 (Sign.mat ε (nPar M)) (diagonal δ) im im
      (unifiedEnv M (clmEnv M h w offs sample expert c (Shared.jacobian M _) rho2 L) look z jPo invSigma2 invRho2)
      (recountUnified (Sign.nPar ε M) (unifiedEnv (flipPdm ε M) (clmEnv (flipPdm ε M) h w offs sample expert c
        (Shared.jacobian (flipPdm ε M) _) rho2 fun i => L (Fin.cast (Sign.active_length ε M.model) i)) look z'
        (flipCols ε (Sign.nPar ε M) jPo) invSigma2 invRho2)) := by
    refine ⟨flipped_clm hs M h4 h w offs sample expert c rho2 L .meanShift im, Sign.diag_orth hδ, fun _ => rfl, ?_, hz.aBar,
      ?_, ?_, ?_, fun c => ?_, rfl, rfl⟩
    · funext w; exact hz.mask w
    · rw [Sign.mul_diag]
      ext r j
      exact hz.A r j
    · rw [Sign.diag_mul]
      ext j r
      exact hz.pinvA j r
    · rw [Sign.mat, Sign.mul_diag]
      rfl
    · rw [Sign.diag_vec]
      show (z'.jacA fun j => δ j * c j).submatrix id _ = _
      rw [hz.jacA, Sign.mat, Sign.mul_diag]
      rfl
  have := Turned.unified_run hu alg prior α maxIters tol costs init
  rw [id] at this
  rw [this, recountA_turned]

/-- The appearance side of a model can be given any signs, so the hypotheses above can be met for every model. -/
example (hδ : Signs δ) (M : OPdm N) (z : Appearance (nPar M) a m W) :
    ∃ z' : Appearance (nPar (flipPdm ε M)) a m W, FlippedAppearance ε δ (Sign.nPar ε M) z z' := by
  refine ⟨⟨z.mask, fun w => flipCols ε (Sign.nPar ε M) (z.jacI w), fun c => flipCols ε (Sign.nPar ε M)
    (z.jacA fun j => δ j * c j), z.aBar, of fun r j => δ j * z.A r j, of fun j r => δ j * z.pinvA j r, z.priorA⟩,
    fun _ => rfl, fun _ => rfl, fun c => ?_, rfl, fun _ _ => rfl, fun _ _ => rfl, rfl⟩
  simp only [← mul_assoc, Sign.sq hδ, one_mul]

end

/-- The steepest descent images of any texture are the texture's gradients times the Jacobian of the shape model, so they
change sign with the components: this is the hypothesis on Jacobians made above. -/
theorem C139_jacobian {N m k k' : Nat} (ε : Nat → ℝ) (M : OPdm N) (h : k' = k) (B : Matrix (Fin m) (Fin (N * 2)) ℝ) :
    B * Shared.jacobian (flipPdm ε M) k' = flipCols ε h (B * Shared.jacobian M k) := by
  rw [Sign.jacobian ε M h]
  ext r i
  simp only [flipCols, mul_apply, of_apply, Finset.mul_sum]
  exact Finset.sum_congr rfl fun j _ => by ring

/-! ### Supervised descent -/

section
open Sdm SdmReg Reg Translate

theorem sameFits_turned {V W Row R I : Type} [AddCommGroup W] {ops : RegOps Row W R} {τ : Row → Row} {ω : W → W} {κ : R → R}
    (ht : Translates ops τ ω κ) {co co' : Coord V W} (hc : Coords co co' id ω) {feat feat' : I → V → Row}
    (hf : ∀ im v, feat' im v = τ (feat im v)) (junk : Nat → W) (n : Nat) (first : Batch I V) (more : List (Batch I V)) :
    trainAndFitParameters ops co' feat' (fun k => ω (junk k)) n first more =
      trainAndFitParameters ops co feat junk n first more := by
  have hb : ∀ b : Batch I V, b.translate id = b := fun b => by simp [Batch.translate]
  have hbs : more.map (Batch.translate id) = more := by
    have : (Batch.translate id : Batch I V → Batch I V) = id := funext hb
    rw [this, List.map_id]
  have h := afterTraining_map ht hc hf junk n first more
  rw [hb, hbs] at h
  unfold trainAndFitParameters
  rw [h]
  cases afterTraining ops co feat junk n first more with
  | error e => rfl
  | ok regs =>
    simp only [Except.map]
    congr 1
    funext im s
    have := fitParamShapes_map ht hc hf im regs s
    simp only [id] at this
    rw [this]
    cases fitParamShapes ops co feat im regs s with
    | error e => rfl
    | ok l => simp [Except.map]

theorem sameFits_features {V Row R I : Type} [AddCommGroup V] {ops : RegOps Row V R} {τ : Row → Row} {κ : R → R}
    (ht : Translates ops τ id κ) {feat feat' : I → V → Row}
    (hf : ∀ im v, feat' im v = τ (feat im v)) (junk : Nat → V) (n : Nat) (first : Batch I V) (more : List (Batch I V)) :
    trainAndFit ops feat' junk n first more = trainAndFit ops feat junk n first more := by
  have hb : ∀ b : Batch I V, b.translate id = b := fun b => by simp [Batch.translate]
  have hbs : more.map (Batch.translate id) = more := by
    have : (Batch.translate id : Batch I V → Batch I V) = id := funext hb
    rw [this, List.map_id]
  have hc : Coords (plain V) (plain V) id id := ⟨fun _ => rfl, fun _ => rfl, fun _ _ => rfl, fun _ _ => rfl⟩
  have h := afterTraining_map ht hc hf junk n first more
  rw [hb, hbs] at h
  unfold trainAndFit
  simp only [id] at h
  rw [h]
  cases afterTraining ops (plain V) feat junk n first more with
  | error e => rfl
  | ok regs =>
    simp only [Except.map]
    congr 1
    funext im s
    have := cascade_map id κ (fun r x => fitStep_map ht hc hf im r x) regs s
    simp only [id] at this
    unfold fitShapes
    rw [this]
    cases Result.cascade (fitStep ops (plain V) feat im) s regs with
    | error e => rfl
    | ok l => simp [Except.map]

/-- **C139** (supervised descent on the parameters of a shape model, and on features that were projected on principal
components).  With shape parameters of other signs (`δ`) and features of other signs (`τ`), training, any number of
increments and every later fit give the same shapes or raise the same exceptions: for either linear regression, any
regularisation, with or without bias. -/
theorem C139_parametric_descent {I V : Type} {d q : Nat} (τ : Fin d → ℝ) (hτ : Signs τ) (δ : Fin q → ℝ) (hδ : Signs δ)
    (co co' : Coord V (Fin q → ℝ)) (hp : ∀ v, co'.proj v = fun i => δ i * co.proj v i)
    (hi : ∀ w, co'.inst (fun i => δ i * w i) = co.inst w) (feat feat' : I → V → Fin d → ℝ)
    (hf : ∀ im v, feat' im v = fun i => τ i * feat im v i)
    (junk : Nat → Fin q → ℝ) (n : Nat) (first : Batch I V) (more : List (Batch I V)) :
    (∀ (α : ℝ) (bias inc : Bool),
      trainAndFitParameters (irlOps α bias inc d q) co' feat' (fun k i => δ i * junk k i) n first more =
        trainAndFitParameters (irlOps α bias inc d q) co feat junk n first more) ∧
    ∀ α α2 : ℝ,
      trainAndFitParameters (iirlOps α α2 d q) co' feat' (fun k i => δ i * junk k i) n first more =
        trainAndFitParameters (iirlOps α α2 d q) co feat junk n first more := by
  have hc : Coords co co' id (diagonal δ *ᵥ ·) :=
    ⟨fun v => by rw [Sign.diag_vec]; exact hp v, fun w => by rw [Sign.diag_vec]; exact hi w,
      fun a b => Matrix.mulVec_add _ _ _, fun a b => Matrix.mulVec_sub _ _ _⟩
  have hf' : ∀ im v, feat' im v = diagonal τ *ᵥ feat im v := fun im v => by rw [Sign.diag_vec]; exact hf im v
  have hj : (fun k i => δ i * junk k i) = fun k => diagonal δ *ᵥ junk k := by
    funext k
    rw [Sign.diag_vec]
  constructor
  · intro α bias inc
    obtain ⟨T', hb⟩ := Turned.biased_signs bias (Sign.sq hτ)
    rw [hj]
    exact sameFits_turned (Turned.irlOps_turn α inc hb (diagonal δ)) hc hf' junk n first more
  · intro α α2
    rw [hj]
    exact sameFits_turned (Turned.iirlOps_turn α α2 (Sign.diag_orth hτ) (Sign.diag_orth hδ)) hc hf' junk n first more

/-- **C139** (supervised descent on shapes with features that were projected on principal components).  The signs of the
features do not matter to training, increments and fits. -/
theorem C139_supervised_descent {I : Type} {d q : Nat} (τ : Fin d → ℝ) (hτ : Signs τ) (feat feat' : I → (Fin q → ℝ) → Fin d → ℝ)
    (hf : ∀ im v, feat' im v = fun i => τ i * feat im v i)
    (junk : Nat → Fin q → ℝ) (n : Nat) (first : Batch I (Fin q → ℝ)) (more : List (Batch I (Fin q → ℝ))) :
    (∀ (α : ℝ) (bias inc : Bool),
      trainAndFit (irlOps α bias inc d q) feat' junk n first more =
        trainAndFit (irlOps α bias inc d q) feat junk n first more) ∧
    ∀ α α2 : ℝ,
      trainAndFit (iirlOps α α2 d q) feat' junk n first more = trainAndFit (iirlOps α α2 d q) feat junk n first more := by
  have hf' : ∀ im v, feat' im v = diagonal τ *ᵥ feat im v := fun im v => by rw [Sign.diag_vec]; exact hf im v
  have h1 : ((1 : Matrix (Fin q) (Fin q) ℝ) *ᵥ ·) = id := by funext v; simp
  constructor
  · intro α bias inc
    obtain ⟨T', hb⟩ := Turned.biased_signs bias (Sign.sq hτ)
    have := Turned.irlOps_turn α inc hb (1 : Matrix (Fin q) (Fin q) ℝ)
    rw [h1] at this
    exact sameFits_features this hf' junk n first more
  · intro α α2
    have := Turned.iirlOps_turn α α2 (d := d) (q := q) (Sign.diag_orth hτ) (G := 1) (by simp)
    rw [h1] at this
    exact sameFits_features this hf' junk n first more

/-- One mode of variation with two signs. -/
example : ∃ (co co' : Coord (Fin 2 → ℝ) (Fin 1 → ℝ)) (δ : Fin 1 → ℝ), Signs δ ∧
    (∀ v, co'.proj v = fun i => δ i * co.proj v i) ∧ (∀ w, co'.inst (fun i => δ i * w i) = co.inst w) ∧ co ≠ co' := by
  refine ⟨⟨fun v => ![v 0], fun w => ![w 0, 0]⟩, ⟨fun v => ![-v 0], fun w => ![-w 0, 0]⟩, fun _ => -1, fun _ => Or.inr rfl,
    fun v => ?_, fun w => ?_, fun h => ?_⟩
  · funext i; fin_cases i; simp
  · simp
  · have := congrFun (congrFun (congrArg Coord.inst h) ![1]) 0
    norm_num at this

end

end Menpofit
