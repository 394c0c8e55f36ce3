import Verif.Lemmas.Reorder
import Verif.Model.SharedModel
/-!
# Properties: how landmarks are numbered and features are ordered does not matter to fits (C136)
-/

namespace Menpofit
open MI Spec Matrix Place Warp

section
variable {N : Nat} (σ : Equiv.Perm (Fin N))

theorem nPar_renumber (M : OPdm N) : nPar (renumberPdm σ M) = nPar M :=
  congrArg (4 + ·) (Renum.active_length σ M.model)

theorem pdmParams_renumber (M : OPdm N) (s : Pts N 2) (i : Fin (nPar M)) :
    pdmParams (renumberPdm σ M) (renumber σ s) (Fin.cast (nPar_renumber σ M).symm i) = pdmParams M s i := by
  have e : (⟨N, 2, renumber σ s⟩ : Cloud) = renumberCloud σ ⟨N, 2, s⟩ := by
    simp [renumberCloud, Renum.cloud_fit_self]
  unfold pdmParams
  rw [e, Renum.oSetTarget]
  rfl

theorem ofFn_cast {k k' : Nat} (h : k' = k) (v : Fin k → ℝ) :
    List.ofFn (fun i : Fin k' => v (Fin.cast h i)) = List.ofFn v := by
  subst h; rfl

theorem pdmShape_renumber (M : OPdm N) (v : Fin (nPar M) → ℝ) :
    pdmShape (renumberPdm σ M) (fun i => v (Fin.cast (nPar_renumber σ M) i)) = renumber σ (pdmShape M v) := by
  unfold pdmShape
  rw [ofFn_cast, Renum.oFromVector]
  cases oFromVector M (List.ofFn v) <;> rfl

theorem append_cast {k k' : Nat} (e : k' = k) (h : 4 + k' = 4 + k) (u : Fin 4 → ℝ) (f : Fin k → ℝ) (i : Fin (4 + k)) :
    Fin.append u (fun j : Fin k' => f (Fin.cast e j)) (Fin.cast h.symm i) = Fin.append u f i := by
  subst e; rfl

theorem point_renumber (s : Pts N 2) (i : Fin N) : point (renumber σ s) i = point s (σ i) := rfl

theorem getD_renumber (l : List (Pts N 2)) (k : Nat) : (l.map (renumber σ)).getD k 0 = renumber σ (l.getD k 0) := by
  simp only [List.getD_eq_getElem?_getD, List.getElem?_map]
  cases l[k]? <;> rfl

theorem jacobian_renumber (M : OPdm N) (k : Nat) :
    Shared.jacobian (renumberPdm σ M) k = reorderRows (coordinates σ) (Shared.jacobian M k) := by
  ext r c
  simp only [Shared.jacobian, reorderRows, Matrix.submatrix_apply, Matrix.of_apply, id, coordinates, Homog.opdmDdp,
    Homog.gpdmDdp, Homog.pdmDdp, Equiv.trans_apply, Equiv.symm_apply_apply]
  rw [show (renumberPdm σ M).model.active = M.model.active.map (renumber σ) from Renum.active σ M.model,
    show (renumberPdm σ M).simComps = M.simComps.map (renumber σ) from rfl, getD_renumber, getD_renumber]
  rfl

end

/-! ### Parameters counted by an equal number -/

section
variable {N k k' : Nat} {Im : Type}

/-- The same constrained local model with its parameters counted by an equal number. -/
def castClm (h : k' = k) (env : ClmRun.Env N k' Im) : ClmRun.Env N k Im where
  setTarget s i := env.setTarget s (Fin.cast h.symm i)
  shape v := env.shape fun i => v (Fin.cast h i)
  respond := env.respond
  h := env.h
  w := env.w
  c := env.c
  J := env.J.submatrix id (Fin.cast h.symm)
  prior i := env.prior (Fin.cast h.symm i)

theorem castClm_run (h : k' = k) (env : ClmRun.Env N k' Im) (alg : ClmRun.Alg) (map : Bool) (maxIters : Int) (tol : ℝ)
    (im : Im) (init : Pts N 2) :
    ClmRun.run env alg map maxIters tol im init =
      (ClmRun.run (castClm h env) alg map maxIters tol im init).map (renumberTrace 1 h) := by
  subst h
  have e : castClm rfl env = env := rfl
  rw [e]
  cases ClmRun.run env alg map maxIters tol im init with
  | error e => rfl
  | ok r =>
    have e1 : renumber (n := N) (d := 2) 1 = id := rfl
    simp [Except.map, renumberTrace, e1]

end

/-! ### Constrained local models -/

section
variable {N q : Nat} {Pic C : Type} (σ : Equiv.Perm (Fin N))

theorem probabilityMap_renumber (h w : Nat) (f : Fin N → List ℝ) :
    ((Clm.probabilityMap h w (List.ofFn fun i => f (σ i))).map fun maps (i : Fin N) => maps.getD i.val []) =
      ((Clm.probabilityMap h w (List.ofFn f)).map fun maps (i : Fin N) => maps.getD i.val []).map (renumberMaps σ) := by
  unfold Clm.probabilityMap
  simp only [List.length_ofFn, List.map_ofFn]
  have hall : ∀ (t : Fin N → List ℝ), (List.ofFn fun i => t (σ i)).all (fun m => decide (0 < m.sum)) =
      (List.ofFn t).all fun m => decide (0 < m.sum) := by
    intro t
    rw [Bool.eq_iff_iff]
    simp only [List.all_eq_true, List.mem_ofFn', Set.mem_range, forall_exists_index, forall_apply_eq_imp_iff]
    exact ⟨fun h i => by simpa using h (σ.symm i), fun h i => h (σ i)⟩
  have hg : ∀ (t : Fin N → List ℝ), (fun i : Fin N => (List.ofFn t).getD i.val []) = t := by
    intro t
    funext i
    simp
  have hf := hall ((fun m => m.map (· - Stats.npMin m)) ∘ f)
  simp only [Function.comp_def] at hf ⊢
  rw [hf]
  split_ifs
  · rfl
  · simp only [Except.map, hg]; rfl
  · simp only [Except.map, hg]; rfl
  · rfl

theorem respond_renumber (h w : Nat) (offs : Fin q → P 2) (sample : Pic → P 2 → C)
    (expert : Fin N → (Fin q → C) → List ℝ) (im : Pic) (s : Pts N 2) :
    respond h w offs sample (fun i => expert (σ i)) im (renumber σ s) =
      (respond h w offs sample expert im s).map (renumberMaps σ) :=
  probabilityMap_renumber σ h w fun i => expert i (patches offs sample im s i)

theorem renumbered_clm (M : OPdm N) (h w : Nat) (offs : Fin q → P 2) (sample : Pic → P 2 → C)
    (expert : Fin N → (Fin q → C) → List ℝ) (c rho2 : ℝ) (L : Fin M.model.active.length → ℝ) :
    RenumberedClm σ (clmEnv M h w offs sample expert c (Shared.jacobian M _) rho2 L)
      (castClm (nPar_renumber σ M) (clmEnv (renumberPdm σ M) h w offs sample (fun i => expert (σ i)) c
        (Shared.jacobian (renumberPdm σ M) _) rho2 fun i => L (Fin.cast (Renum.active_length σ M.model) i))) := by
  refine ⟨fun s => ?_, fun v => ?_, fun im s => ?_, rfl, rfl, rfl, ?_, ?_⟩
  · funext i
    exact pdmParams_renumber σ M s i
  · exact pdmShape_renumber σ M v
  · exact respond_renumber σ h w offs sample expert im s
  · show (Shared.jacobian (renumberPdm σ M) _).submatrix id _ = _
    rw [jacobian_renumber]
    ext r i
    simp only [reorderRows, Matrix.submatrix_apply, id, Shared.jacobian, Matrix.of_apply, Fin.val_cast]
    rfl
  · funext i
    exact append_cast (Renum.active_length σ M.model) (nPar_renumber σ M) (fun _ => 0) (fun j => rho2 / L j) i

/-- **C136** (constrained local models).  Active shape model and regularised landmark mean-shift, with or without prior:
the fit with renumbered shape model, experts and initial shape is the fit, renumbered, with the same parameters (or the
same exception). -/
theorem C136_clm (M : OPdm N) (h w : Nat) (offs : Fin q → P 2) (sample : Pic → P 2 → C)
    (expert : Fin N → (Fin q → C) → List ℝ) (c rho2 : ℝ) (L : Fin M.model.active.length → ℝ) (alg : ClmRun.Alg)
    (map : Bool) (maxIters : Int) (tol : ℝ) (im : Pic) (init : Pts N 2) :
    ClmRun.run (clmEnv (renumberPdm σ M) h w offs sample (fun i => expert (σ i)) c
        (Shared.jacobian (renumberPdm σ M) _) rho2 fun i => L (Fin.cast (Renum.active_length σ M.model) i))
        alg map maxIters tol im (renumber σ init) =
      (ClmRun.run (clmEnv M h w offs sample expert c (Shared.jacobian M _) rho2 L) alg map maxIters tol im init).map
        (renumberTrace σ (nPar_renumber σ M)) := by
  rw [castClm_run (nPar_renumber σ M), Renum.clm_run (env := clmEnv M h w offs sample expert c (Shared.jacobian M _) rho2 L)]
  · cases ClmRun.run (clmEnv M h w offs sample expert c (Shared.jacobian M _) rho2 L) alg map maxIters tol im init with
    | error e => rfl
    | ok r =>
      have e1 : renumber (n := N) (d := 2) 1 = id := rfl
      simp [Except.map, renumberTrace, e1]
  · exact renumbered_clm σ M h w offs sample expert c rho2 L

/-! ### Ways of looking at a picture -/

/-- **C136** (warps).  A piecewise affine warp with renumbered vertices shows the same of the picture; the patches around
renumbered landmarks are the patches, renumbered. -/
theorem C136_warps (mesh : Pwa N) (pixels offs : Fin q → P 2) (sample : Pic → P 2 → C) (im : Pic) (s : Pts N 2) :
    pwaWarp (renumberMesh σ mesh) pixels sample im (renumber σ s) = pwaWarp mesh pixels sample im s ∧
    patches offs sample im (renumber σ s) = renumberMaps σ (patches offs sample im s) := by
  refine ⟨?_, rfl⟩
  have e : ∀ l, ({ renumberMesh σ mesh with target := point (renumber σ s) } : Pwa N).apply (pixels l) =
      ({ mesh with target := point s } : Pwa N).apply (pixels l) := by
    intro l
    simp only [Pwa.apply, renumberMesh, Option.map_map]
    congr 1
    funext d
    simp only [Function.comp, point_renumber, Equiv.apply_symm_apply]
  unfold pwaWarp
  simp only [e]

/-! ### Active appearance models -/

variable {a m : Nat} {W : Type}

/-- The same active appearance model with its parameters counted by an equal number. -/
def castAam {k k' : Nat} {Im : Type} (h : k' = k) (z : Aam.Setup k' a m ℝ (Pts N 2) Im W ℝ) :
    Aam.Setup k a m ℝ (Pts N 2) Im W ℝ where
  setTarget s i := z.setTarget s (Fin.cast h.symm i)
  target v := z.target fun i => v (Fin.cast h i)
  warp im v := z.warp im fun i => v (Fin.cast h i)
  mask := z.mask
  jacI w := (z.jacI w).submatrix id (Fin.cast h.symm)
  jacA c := (z.jacA c).submatrix id (Fin.cast h.symm)
  aBar := z.aBar
  A := z.A
  pinvA := z.pinvA
  priorS i := z.priorS (Fin.cast h.symm i)
  priorA := z.priorA
  dist := z.dist

theorem castAam_run {k k' : Nat} {Im : Type} (h : k' = k) (z : Aam.Setup k' a m ℝ (Pts N 2) Im W ℝ) (alg : Aam.Alg)
    (inverse map : Bool) (maxIters : Int) (tol : ℝ) (costs : Bool) (im : Im) (init : Pts N 2) :
    Aam.run z alg inverse map maxIters tol costs im init =
      (Aam.run (castAam h z) alg inverse map maxIters tol costs im init).map (renumberTraceA 1 h) := by
  subst h
  have e : castAam rfl z = z := rfl
  rw [e]
  cases Aam.run z alg inverse map maxIters tol costs im init with
  | error e => rfl
  | ok r =>
    have e1 : renumber (n := N) (d := 2) 1 = id := rfl
    simp [Except.map, renumberTraceA, e1]

theorem castAam_po {k k' : Nat} {Im : Type} (h : k' = k) (z : Aam.Setup k' a m ℝ (Pts N 2) Im W ℝ) (inverse : Bool)
    (tol : ℝ) (J : Matrix (Fin m) (Fin k') ℝ) (x : GN.Input (Pts N 2) Im ℝ) :
    ((GN.precompute (Aam.projectOutEnv z).Q J).bind fun c => (GN.poRun (Aam.projectOutEnv z) inverse tol c x).2) =
      ((GN.precompute (Aam.projectOutEnv (castAam h z)).Q (J.submatrix id (Fin.cast h.symm))).bind fun c =>
        (GN.poRun (Aam.projectOutEnv (castAam h z)) inverse tol c x).2).map (renumberTrace 1 h) := by
  subst h
  have e : castAam rfl z = z := rfl
  have e' : J.submatrix id (Fin.cast rfl) = J := rfl
  rw [e, e']
  generalize ((GN.precompute (Aam.projectOutEnv z).Q J).bind fun c => (GN.poRun (Aam.projectOutEnv z) inverse tol c x).2) = r
  cases r with
  | error e => rfl
  | ok r =>
    have e1 : renumber (n := N) (d := 2) 1 = id := rfl
    simp [Except.map, renumberTrace, e1]

theorem aamPrior_renumber (M : OPdm N) (s2 : ℝ) (L : Fin M.model.active.length → ℝ) (i : Fin (nPar M)) :
    aamPrior s2 (fun i => L (Fin.cast (Renum.active_length σ M.model) i)) (Fin.cast (nPar_renumber σ M).symm i) =
      aamPrior s2 L i :=
  append_cast (Renum.active_length σ M.model) (nPar_renumber σ M) (fun _ => 1) (fun j => s2 / L j) i

theorem reordered_aam (M : OPdm N) (look look' : Pic → Pts N 2 → Except PyErr W) (ρ : Equiv.Perm (Fin m)) (g : W → W)
    (hl : ∀ im s, look' im (renumber σ s) = (look im s).map g) (z : Appearance (nPar M) a m W)
    (z' : Appearance (nPar (renumberPdm σ M)) a m W) (hz : ReorderedAppearance ρ g (nPar_renumber σ M) z z') (s2 : ℝ)
    (L : Fin M.model.active.length → ℝ) :
    ReorderedAam σ ρ g (aamSetup M look z s2 L) (castAam (nPar_renumber σ M) (aamSetup (renumberPdm σ M) look' z' s2
      fun i => L (Fin.cast (Renum.active_length σ M.model) i))) := by
  refine ⟨fun s => ?_, fun v => ?_, fun im v => ?_, hz.mask, fun w => ?_, fun c => ?_, hz.aBar, hz.A, hz.pinvA, ?_,
    hz.priorA, Renum.distance_map⟩
  · funext i
    exact pdmParams_renumber σ M s i
  · exact pdmShape_renumber σ M v
  · show look' im (pdmShape (renumberPdm σ M) _) = (look im (pdmShape M v)).map g
    rw [pdmShape_renumber, hl]
  · show (z'.jacI (g w)).submatrix id _ = reorderRows ρ (z.jacI w)
    rw [hz.jacI]; rfl
  · show (z'.jacA c).submatrix id _ = reorderRows ρ (z.jacA c)
    rw [hz.jacA]; rfl
  · funext i
    exact aamPrior_renumber σ M s2 L i

/-- **C136** (active appearance models with explicit appearance).  With renumbered landmarks and reordered features, the
fit is the fit, renumbered, with the same parameters, appearance parameters and costs (or the same exception). -/
theorem C136_aam_partial (M : OPdm N) (look look' : Pic → Pts N 2 → Except PyErr W) (ρ : Equiv.Perm (Fin m)) (g : W → W)
    (hl : ∀ im s, look' im (renumber σ s) = (look im s).map g) (z : Appearance (nPar M) a m W)
    (z' : Appearance (nPar (renumberPdm σ M)) a m W) (hz : ReorderedAppearance ρ g (nPar_renumber σ M) z z') (s2 : ℝ)
    (L : Fin M.model.active.length → ℝ) (alg : Aam.Alg) (inverse map : Bool)
    (ha : alg = .alternating → map = true → ρ = 1 ∨ a ≠ m) (maxIters : Int) (tol : ℝ) (costs : Bool) (im : Pic)
    (init : Pts N 2) :
    Aam.run (aamSetup (renumberPdm σ M) look' z' s2 fun i => L (Fin.cast (Renum.active_length σ M.model) i)) alg inverse map
        maxIters tol costs im (renumber σ init) =
      (Aam.run (aamSetup M look z s2 L) alg inverse map maxIters tol costs im init).map
        (renumberTraceA σ (nPar_renumber σ M)) := by
  rw [castAam_run (nPar_renumber σ M), Renum.aam_run (reordered_aam σ M look look' ρ g hl z z' hz s2 L) alg inverse map ha]
  cases Aam.run (aamSetup M look z s2 L) alg inverse map maxIters tol costs im init with
  | error e => rfl
  | ok r =>
    have e1 : renumber (n := N) (d := 2) 1 = id := rfl
    simp [Except.map, renumberTraceA, e1]

theorem reordered_po (M : OPdm N) (look look' : Pic → Pts N 2 → Except PyErr W) (ρ : Equiv.Perm (Fin m)) (g : W → W)
    (hl : ∀ im s, look' im (renumber σ s) = (look im s).map g) (z : Appearance (nPar M) a m W)
    (z' : Appearance (nPar (renumberPdm σ M)) a m W) (hz : ReorderedAppearance ρ g (nPar_renumber σ M) z z') (s2 : ℝ)
    (L : Fin M.model.active.length → ℝ) :
    ReorderedPo σ ρ g (Aam.projectOutEnv (aamSetup M look z s2 L)) (Aam.projectOutEnv (castAam (nPar_renumber σ M)
      (aamSetup (renumberPdm σ M) look' z' s2 fun i => L (Fin.cast (Renum.active_length σ M.model) i)))) :=
  Renum.po_of_aam (reordered_aam σ M look look' ρ g hl z z' hz s2 L)

/-- **C136** (project-out active appearance models, forward and inverse).  Construction and fit with renumbered landmarks
and reordered features: the fit is the fit, renumbered, with the same parameters and costs (or the same exception). -/
theorem C136_project_out (M : OPdm N) (look look' : Pic → Pts N 2 → Except PyErr W) (ρ : Equiv.Perm (Fin m)) (g : W → W)
    (hl : ∀ im s, look' im (renumber σ s) = (look im s).map g) (z : Appearance (nPar M) a m W)
    (z' : Appearance (nPar (renumberPdm σ M)) a m W) (hz : ReorderedAppearance ρ g (nPar_renumber σ M) z z') (s2 : ℝ)
    (L : Fin M.model.active.length → ℝ) (inverse : Bool) (tol : ℝ) (J : Matrix (Fin m) (Fin (nPar M)) ℝ)
    (x : GN.Input (Pts N 2) Pic ℝ)
    (env : GN.Env (nPar M) m ℝ (Pts N 2) Pic W ℝ) (henv : env = Aam.projectOutEnv (aamSetup M look z s2 L))
    (env' : GN.Env (nPar (renumberPdm σ M)) m ℝ (Pts N 2) Pic W ℝ) (henv' : env' = Aam.projectOutEnv (aamSetup
      (renumberPdm σ M) look' z' s2 fun i => L (Fin.cast (Renum.active_length σ M.model) i))) :
    ((GN.precompute env'.Q (J.submatrix ρ (Fin.cast (nPar_renumber σ M)))).bind fun c =>
        (GN.poRun env' inverse tol c { x with init := renumber σ x.init }).2) =
      ((GN.precompute env.Q J).bind fun c => (GN.poRun env inverse tol c x).2).map
        (renumberTrace σ (nPar_renumber σ M)) := by
  have hp := reordered_po σ M look look' ρ g hl z z' hz s2 L
  subst henv henv'
  rw [castAam_po (nPar_renumber σ M)]
  have := Renum.po_whole hp inverse tol J x
  have e1 : (J.submatrix ρ (Fin.cast (nPar_renumber σ M))).submatrix id (Fin.cast (nPar_renumber σ M).symm) =
      reorderRows ρ J := rfl
  rw [e1, this]
  generalize ((GN.precompute (Aam.projectOutEnv (aamSetup M look z s2 L)).Q J).bind fun c =>
    (GN.poRun (Aam.projectOutEnv (aamSetup M look z s2 L)) inverse tol c x).2) = r
  cases r with
  | error e => rfl
  | ok r =>
    have e1 : renumber (n := N) (d := 2) 1 = id := rfl
    simp [Except.map, renumberTrace, e1]

end

end Menpofit

namespace Menpofit
open MI Spec Matrix Place Warp

section
variable {N : Nat} {Pic : Type} (σ : Equiv.Perm (Fin N)) {a m : Nat} {W : Type}

/-- The same unified model with its parameters counted by an equal number. -/
def castUnified {k k' : Nat} {Im : Type} (h : k' = k) (env : ClmRun.UEnv N k' a m Im W) : ClmRun.UEnv N k a m Im W :=
  { castClm h env.toEnv with
    warp := env.warp
    mask := env.mask
    aBar := env.aBar
    U := env.U
    pinvU := env.pinvU
    jPo := env.jPo.submatrix id (Fin.cast h.symm)
    jac := fun c => (env.jac c).submatrix id (Fin.cast h.symm)
    invSigma2 := env.invSigma2
    invRho2 := env.invRho2 }

theorem castUnified_run {k k' : Nat} {Im : Type} (h : k' = k) (env : ClmRun.UEnv N k' a m Im W) (alg : ClmRun.UAlg)
    (prior : Bool) (α : ℝ) (maxIters : Int) (tol : ℝ) (costs : Bool) (im : Im) (init : Pts N 2) :
    ClmRun.uRun env alg prior α maxIters tol costs im init =
      (ClmRun.uRun (castUnified h env) alg prior α maxIters tol costs im init).map (renumberTraceA 1 h) := by
  subst h
  have e : castUnified rfl env = env := rfl
  rw [e]
  cases ClmRun.uRun env alg prior α maxIters tol costs im init with
  | error e => rfl
  | ok r =>
    have e1 : renumber (n := N) (d := 2) 1 = id := rfl
    simp [Except.map, renumberTraceA, e1]

/-- **C136** (unified models).  Project-out and alternating regularised landmark mean-shift, with or without prior and
with any weight: with renumbered landmarks and reordered features, the fit is the fit, renumbered, with the same
parameters, appearance parameters and costs (or the same exception). -/
theorem C136_unified {q : Nat} {C : Type} (M : OPdm N) (h w : Nat) (offs : Fin q → P 2) (sample : Pic → P 2 → C)
    (expert : Fin N → (Fin q → C) → List ℝ) (c rho2 : ℝ) (L : Fin M.model.active.length → ℝ)
    (look look' : Pic → Pts N 2 → Except PyErr W) (ρ : Equiv.Perm (Fin m)) (g : W → W)
    (hl : ∀ im s, look' im (renumber σ s) = (look im s).map g) (z : Appearance (nPar M) a m W)
    (z' : Appearance (nPar (renumberPdm σ M)) a m W) (hz : ReorderedAppearance ρ g (nPar_renumber σ M) z z')
    (jPo : Matrix (Fin m) (Fin (nPar M)) ℝ) (invSigma2 invRho2 : ℝ) (alg : ClmRun.UAlg) (prior : Bool) (α : ℝ)
    (maxIters : Int) (tol : ℝ) (costs : Bool) (im : Pic) (init : Pts N 2) :
    ClmRun.uRun (unifiedEnv (renumberPdm σ M) (clmEnv (renumberPdm σ M) h w offs sample (fun i => expert (σ i)) c
        (Shared.jacobian (renumberPdm σ M) _) rho2 fun i => L (Fin.cast (Renum.active_length σ M.model) i)) look' z'
        (jPo.submatrix ρ (Fin.cast (nPar_renumber σ M))) invSigma2 invRho2) alg prior α maxIters tol costs im
        (renumber σ init) =
      (ClmRun.uRun (unifiedEnv M (clmEnv M h w offs sample expert c (Shared.jacobian M _) rho2 L) look z jPo invSigma2
        invRho2) alg prior α maxIters tol costs im init).map (renumberTraceA σ (nPar_renumber σ M)) := by
  rw [castUnified_run (nPar_renumber σ M), Renum.unified_run (ρ := ρ) (g := g) (env := unifiedEnv M (clmEnv M h w offs
    sample expert c (Shared.jacobian M _) rho2 L) look z jPo invSigma2 invRho2)]
  · generalize ClmRun.uRun (unifiedEnv M (clmEnv M h w offs sample expert c (Shared.jacobian M _) rho2 L) look z jPo
      invSigma2 invRho2) alg prior α maxIters tol costs im init = r
    cases r with
    | error e => rfl
    | ok r =>
      have e1 : renumber (n := N) (d := 2) 1 = id := rfl
      simp [Except.map, renumberTraceA, e1]
  · refine ⟨renumbered_clm σ M h w offs sample expert c rho2 L, hl, hz.mask, hz.aBar, hz.A, hz.pinvA, rfl, fun c => ?_,
      rfl, rfl⟩
    show (z'.jacA c).submatrix id _ = reorderRows ρ (z.jacA c)
    rw [hz.jacA]; rfl

/-- Every appearance side can be reordered in every way (`g` is the identity when the masking does the reordering), so
the hypotheses of the theorems above can be met for every model, every numbering and every order of the features. -/
example (M : OPdm N) (ρ : Equiv.Perm (Fin m)) (look : Pic → Pts N 2 → Except PyErr W) (z : Appearance (nPar M) a m W) :
    ∃ (look' : Pic → Pts N 2 → Except PyErr W) (z' : Appearance (nPar (renumberPdm σ M)) a m W),
      (∀ im s, look' im (renumber σ s) = (look im s).map id) ∧ ReorderedAppearance ρ id (nPar_renumber σ M) z z' := by
  refine ⟨fun im s => look im (renumber σ.symm s), ⟨fun w i => z.mask w (ρ i),
    fun w => (z.jacI w).submatrix ρ (Fin.cast (nPar_renumber σ M)), fun c => (z.jacA c).submatrix ρ (Fin.cast
    (nPar_renumber σ M)), fun i => z.aBar (ρ i), reorderRows ρ z.A, reorderCols ρ z.pinvA, z.priorA⟩, fun im s => ?_,
    fun _ => rfl, fun _ => rfl, fun _ => rfl, rfl, rfl, rfl, rfl⟩
  have : renumber σ.symm (renumber σ s) = s := by
    funext ij
    simp [renumber]
  simp only [this]
  cases look im s <;> rfl

end
end Menpofit
