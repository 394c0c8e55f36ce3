import Verif.Lemmas.MirrorFits
import Verif.Lemmas.MirrorMaps
import Verif.Props.TransposeFits
/-!
# Properties: a mirrored picture is fitted to the mirrored shape (C142)
-/

namespace Menpofit
open MI Spec Matrix Place

section
variable {N q : Nat} {Pic C : Type} {e : Fin 4 → ℝ} {ε : Nat → ℝ}

/-! ### Constrained local models -/

theorem reflectedPoint_add (x y : Warp.P 2) : reflectedPoint (x + y) = reflectedPoint x + reflectedPoint y := by
  ext i
  fin_cases i <;> simp [reflectedPoint] <;> ring

theorem reflectedPoint_smul (r : ℝ) (x : Warp.P 2) : reflectedPoint (r • x) = r • reflectedPoint x := by
  ext i
  fin_cases i <;> simp [reflectedPoint]

theorem reflectedPoint_sub (x y : Warp.P 2) : reflectedPoint (x - y) = reflectedPoint x - reflectedPoint y := by
  ext i
  fin_cases i <;> simp [reflectedPoint] <;> ring

theorem point_reflected (s : Pts N 2) (i : Fin N) : point (reflected s) i = reflectedPoint (point s i) := by
  ext j
  fin_cases j <;> simp [point, reflected, mirrorSign, reflectedPoint]

variable {h w : Nat} {κ : Equiv.Perm (Fin q)} {offs offs' : Fin q → Warp.P 2} {sample sample' : Pic → Warp.P 2 → C}
  {im im' : Pic} {expert expert' : Fin N → (Fin q → C) → List ℝ}

theorem patches_reflected (ho : ∀ o, offs' o = reflectedPoint (offs (κ o))) (hs : ∀ x, sample' im' (reflectedPoint x) = sample im x)
    (s : Pts N 2) (i : Fin N) :
    patches offs' sample' im' (reflected s) i = fun o => patches offs sample im s i (κ o) := by
  funext o
  unfold patches
  rw [point_reflected, ho, ← reflectedPoint_add, hs]

theorem respond_reflected (hx : ReflectedExperts h w κ offs offs' sample sample' im im' expert expert') (s : Pts N 2) :
    respond h w offs' sample' expert' im' (reflected s) =
      (respond h w offs sample expert im s).map fun r i => reflectedMap h w (r i) := by
  unfold respond
  have e1 : (List.ofFn fun i => expert' i (patches offs' sample' im' (reflected s) i)) =
      (List.ofFn fun i => expert i (patches offs sample im s i)).map (reflectedMap h w) := by
    rw [List.map_ofFn]
    congr 1
    funext i
    rw [patches_reflected hx.pixels hx.picture]
    exact hx.response i _
  rw [e1, Mirror.probabilityMap_map _ fun l hm => by
    obtain ⟨i, rfl⟩ := (List.mem_ofFn' _ _).1 hm
    exact hx.fills i _]
  cases hr : Clm.probabilityMap h w (List.ofFn fun i => expert i (patches offs sample im s i)) with
  | error e => rfl
  | ok r =>
    have hl := Cross.probabilityMap_count hr
    rw [List.length_ofFn] at hl
    simp only [Except.map]
    congr 1
    funext i
    have hi : i.val < r.length := by rw [hl]; exact i.isLt
    rw [List.getD_eq_getElem _ _ hi, List.getD_eq_getElem _ _ (by simpa using hi), List.getElem_map]

theorem ravel_flip (v : Fin N → ℝ × ℝ) : Clm.ravel (fun i => Mirror.flip (v i)) = Mirror.axes N *ᵥ Clm.ravel v := by
  rw [Mirror.axes_vec]
  funext r
  unfold Clm.ravel
  dsimp only
  generalize (finProdFinEquiv.symm r).1 = i
  generalize (finProdFinEquiv.symm r).2 = j
  fin_cases j <;> simp [mirrorSign, Mirror.flip]

theorem landmarks_reflected (s : Pts N 2) (i : Fin N) :
    ClmRun.landmarks (reflected s) i = Mirror.flip (ClmRun.landmarks s i) := by
  simp [ClmRun.landmarks, reflected, mirrorSign, Mirror.flip]

theorem reflected_clm (he : Signs e) (M : OPdm N) (h4 : M.simComps.length = 4)
    (hb : M.glob.b = 0) (hw : w % 2 = 1)
    (hx : ReflectedExperts h w κ offs offs' sample sample' im im' expert expert') (c rho2 : ℝ)
    (L : Fin M.model.active.length → ℝ) (alg : ClmRun.Alg)
    (hp : alg = .activeShape → w % 4 = 1 ∧ ∀ i P, ∃ y x, PeaksAt h w (expert i P) y x) :
    TurnedClm reflected (Mirror.axes N) (Mirror.mat e _) alg im im'
      (clmEnv M h w offs sample expert c (Shared.jacobian M _) rho2 L)
      (recountClm (Mirror.nPar e M) (clmEnv (reflectedPdm e M) h w offs' sample' expert' c
        (Shared.jacobian (reflectedPdm e M) _) rho2 fun i => L (Fin.cast (Mirror.active_length M.model) i))) := by
  refine ⟨Mirror.axes_orth N, Mirror.mat_orth he, fun s => ?_, fun p => ?_, ?_, Mirror.distance, ?_, fun p => ?_⟩
  · rw [Mirror.mat_vec]
    funext i
    exact Mirror.params he M h4 s i
  · rw [Mirror.mat_vec]
    exact Mirror.shape he M h4 p
  · have e1 : (recountClm (Mirror.nPar e M) (clmEnv (reflectedPdm e M) h w offs' sample' expert' c
        (Shared.jacobian (reflectedPdm e M) _) rho2 fun i => L (Fin.cast (Mirror.active_length M.model) i))).prior =
        clmPrior rho2 L := by
      funext i
      exact append_recount (Mirror.active_length M.model) (Mirror.nPar e M) (fun _ => 0) (fun j => rho2 / L j) i
    rw [e1]
    exact Mirror.mat_prior _
  · show (Shared.jacobian (reflectedPdm e M) _).submatrix id _ = _
    rw [Mirror.jacobian M hb (Mirror.nPar e M)]
    rfl
  · show (respond h w offs' sample' expert' im' (reflected (pdmShape M p))).map _ =
      (respond h w offs sample expert im (pdmShape M p)).map _
    rw [respond_reflected hx]
    generalize pdmShape M p = s
    cases hr : respond h w offs sample expert im s with
    | error e => rfl
    | ok r =>
      simp only [Except.map, Except.ok.injEq]
      cases alg with
      | activeShape =>
        have hpk : ∀ i, ∃ y x, PeaksAt h w (r i) y x := respond_mem hr (fun l => ∃ y x, PeaksAt h w l y x)
          fun maps hm => Cross.probabilityMap_peaks (fun l hl => by
            obtain ⟨i, rfl⟩ := (List.mem_ofFn' _ _).1 hl
            exact (hp rfl).2 i _) hm
        show Clm.ravel (fun i => Clm.asmError h w c _ (reflectedMap h w (r i))) =
          Mirror.axes N *ᵥ Clm.ravel fun i => Clm.asmError h w c _ (r i)
        rw [← ravel_flip]
        congr 1
        funext i
        obtain ⟨y, x, hyx⟩ := hpk i
        rw [landmarks_reflected, Mirror.asm (hp rfl).1 c _ _ hyx]
      | meanShift =>
        have hlen : ∀ i, (r i).length = h * w := respond_mem hr (fun l => l.length = h * w)
          fun maps hm => Cross.probabilityMap_length (fun l hl => by
            obtain ⟨i, rfl⟩ := (List.mem_ofFn' _ _).1 hl
            exact hx.fills i _) hm
        show Clm.ravel (fun i => Clm.rlmsError h w c _ (reflectedMap h w (r i))) =
          Mirror.axes N *ᵥ Clm.ravel fun i => Clm.rlmsError h w c _ (r i)
        rw [← ravel_flip]
        congr 1
        funext i
        rw [landmarks_reflected, Mirror.rlms hw c _ _ (hlen i)]

/-- **C142** (constrained local models).  Regularised landmark mean-shift and active shape model, with or without prior: in
the picture in a mirror, with the reflected shape model (whatever the signs of its components) and the reflected experts and
initial shape, every fit finds the reflected shapes or raises the same exception.  The search window must have a column in
its middle (`C142_window_violated`) and the shape model must have been free of rotation when the fitter was built
(`C142_rotation_violated`).  For the active shape model the width of the window must leave the remainder 1 when divided by
4 (`C142_active_shape_violated`) and every response map must have a single peak. -/
theorem C142_clm_partial (he : Signs e) (hε : Signs ε) (M : OPdm N) (h4 : M.simComps.length = 4)
    (hb : M.glob.b = 0) (hw : w % 2 = 1)
    (hx : ReflectedExperts h w κ offs offs' sample sample' im im' expert expert') (c rho2 : ℝ)
    (L : Fin M.model.active.length → ℝ) (alg : ClmRun.Alg)
    (hp : alg = .activeShape → w % 4 = 1 ∧ ∀ i P, ∃ y x, PeaksAt h w (expert i P) y x)
    (map : Bool) (maxIters : Int) (tol : ℝ) (init : Pts N 2) :
    (ClmRun.run (clmEnv (flipPdm ε (reflectedPdm e M)) h w offs' sample' expert' c
        (Shared.jacobian (flipPdm ε (reflectedPdm e M)) _) rho2 fun i => L (Fin.cast (Mirror.components e ε M) i))
        alg map maxIters tol im' (reflected init)).map (fun r => r.shapes) =
      (ClmRun.run (clmEnv M h w offs sample expert c (Shared.jacobian M _) rho2 L) alg map maxIters tol im init).map
        fun r => r.shapes.map reflected := by
  have e1 := C139_clm hε (reflectedPdm e M) rfl h w offs' sample' expert' c rho2
    (fun i => L (Fin.cast (Mirror.active_length M.model) i)) alg map maxIters tol im' (reflected init)
  have e2 := Turned.clm_run (reflected_clm he M h4 hb hw hx c rho2 L alg hp) map maxIters tol init
  refine (congrArg (Except.map _) e1).trans ?_
  rw [recountClm_run (Mirror.nPar e M), e2]
  cases ClmRun.run (clmEnv M h w offs sample expert c (Shared.jacobian M _) rho2 L) alg map maxIters tol im init <;> rfl

/-- **C142** (regularised landmark mean-shift).  Whatever the response maps; the search window must
have a column in its middle and the shape model must have been free of rotation when the fitter was built. -/
theorem C142_mean_shift_partial (he : Signs e) (hε : Signs ε) (M : OPdm N) (h4 : M.simComps.length = 4)
    (hb : M.glob.b = 0) (hw : w % 2 = 1)
    (hx : ReflectedExperts h w κ offs offs' sample sample' im im' expert expert') (c rho2 : ℝ)
    (L : Fin M.model.active.length → ℝ) (map : Bool) (maxIters : Int) (tol : ℝ) (init : Pts N 2) :
    (ClmRun.run (clmEnv (flipPdm ε (reflectedPdm e M)) h w offs' sample' expert' c
        (Shared.jacobian (flipPdm ε (reflectedPdm e M)) _) rho2 fun i => L (Fin.cast (Mirror.components e ε M) i))
        .meanShift map maxIters tol im' (reflected init)).map (fun r => r.shapes) =
      (ClmRun.run (clmEnv M h w offs sample expert c (Shared.jacobian M _) rho2 L) .meanShift map maxIters tol im init).map
        fun r => r.shapes.map reflected :=
  C142_clm_partial he hε M h4 hb hw hx c rho2 L .meanShift (fun h => nomatch h) map maxIters tol init

/-! ### Ways of looking at a picture -/

/-- **C142** (warps).  A piecewise affine warp with reflected template and landmarks shows the same of the picture in a
mirror, pixel by pixel; the patches around reflected landmarks hold the same pixels. -/
theorem C142_warps (mesh : Warp.Pwa N) (pixels pixels' : Fin q → Warp.P 2)
    (hpix : ∀ o, pixels' o = reflectedPoint (pixels (κ o))) (ho : ∀ o, offs' o = reflectedPoint (offs (κ o)))
    (hs : ∀ x, sample' im' (reflectedPoint x) = sample im x) (s : Pts N 2) :
    pwaWarp (reflectedMesh mesh) pixels' sample' im' (reflected s) =
      (pwaWarp mesh pixels sample im s).map (fun f o => f (κ o)) ∧
    ∀ i o, patches offs' sample' im' (reflected s) i o = patches offs sample im s i (κ o) := by
  refine ⟨?_, fun i o => congrFun (patches_reflected ho hs s i) o⟩
  have hw : ∀ x : Warp.P 2, reflectedPoint (reflectedPoint x) = x := by
    intro x
    ext i
    fin_cases i <;> simp [reflectedPoint]
  have e1 : ∀ o, ({ reflectedMesh mesh with target := point (reflected s) } : Warp.Pwa N).apply (pixels' o) =
      (({ mesh with target := point s } : Warp.Pwa N).apply (pixels (κ o))).map reflectedPoint := by
    intro o
    simp only [Warp.Pwa.apply, reflectedMesh, hpix, hw, Option.map_map]
    congr 1
    funext l
    simp only [Function.comp, point_reflected, reflectedPoint_add, reflectedPoint_smul, reflectedPoint_sub]
  unfold pwaWarp
  simp only [e1, Option.isSome_map]
  have e2 : (∀ o, (({ mesh with target := point s } : Warp.Pwa N).apply (pixels (κ o))).isSome = true) ↔
      ∀ o, (({ mesh with target := point s } : Warp.Pwa N).apply (pixels o)).isSome = true :=
    ⟨fun H o => by simpa using H (κ.symm o), fun H o => H (κ o)⟩
  rw [if_congr e2 rfl rfl]
  split_ifs with hall
  · simp only [Except.map, Except.ok.injEq]
    funext o
    cases hv : ({ mesh with target := point s } : Warp.Pwa N).apply (pixels (κ o)) with
    | none =>
      have := hall (κ o)
      rw [hv] at this
      cases this
    | some x => exact hs x
  · rfl

/-- The steepest descent images of the reflected texture, whose horizontal gradients have the other sign, are those of the
texture with columns with the signs of the reflected parameters: this is the hypothesis on Jacobians
(`reflectedAppearance`) made below.  The global transform of the shape model must be free of rotation. -/
theorem C142_jacobian_partial {m : Nat} (e : Fin 4 → ℝ) (M : OPdm N) (hb : M.glob.b = 0) (B : Matrix (Fin m) (Fin (N * 2)) ℝ) :
    (of fun r i => mirrorSign (finProdFinEquiv.symm i).2 * B r i) * Shared.jacobian (reflectedPdm e M) (nPar (reflectedPdm e M)) =
      (reflectedCols e (B * Shared.jacobian M (nPar M))).submatrix id (Fin.cast (Mirror.nPar e M)) := by
  rw [Mirror.jacobian M hb (Mirror.nPar e M), Mirror.mul_mat]
  ext r i
  rw [mul_apply]
  simp only [submatrix_apply, id, reflectedCols, of_apply, Mirror.axes, diagonal_mul]
  rw [mul_apply, Finset.mul_sum]
  refine Finset.sum_congr rfl fun j _ => ?_
  rw [Fin.val_cast]
  linear_combination simSign e i * B r j * Shared.jacobian M (nPar M) j (Fin.cast (Mirror.nPar e M) i) *
    Mirror.sign_sq (finProdFinEquiv.symm j).2

/-! ### Active appearance models -/

variable {a m : Nat} {W : Type} {δ : Fin a → ℝ}

theorem reflected_aam (he : Signs e) (M : OPdm N) (h4 : M.simComps.length = 4) {look look' : Pic → Pts N 2 → Except PyErr W}
    (hl : ∀ s, look' im' (reflected s) = look im s) (z : Appearance (nPar M) a m W) (s2 : ℝ)
    (L : Fin M.model.active.length → ℝ) :
    TurnedAam reflected (Mirror.mat e _) 1 im im' (aamSetup M look z s2 L)
      (recountAam (Mirror.nPar e M) (aamSetup (reflectedPdm e M) look' (reflectedAppearance e (Mirror.nPar e M) z) s2
        fun i => L (Fin.cast (Mirror.active_length M.model) i))) := by
  refine ⟨Mirror.mat_orth he, by simp, fun s => ?_, fun p => ?_, fun p => ?_, rfl, fun w => ?_,
    fun c => ?_, rfl, ?_, ?_, ?_, ?_, Mirror.distance⟩
  · rw [Mirror.mat_vec]
    funext i
    exact Mirror.params he M h4 s i
  · rw [Mirror.mat_vec]
    exact Mirror.shape he M h4 p
  · rw [Mirror.mat_vec]
    refine (congrArg (look' im') (Mirror.shape he M h4 p)).trans (hl _)
  · rw [Mirror.mul_mat]
    rfl
  · rw [Mirror.mul_mat, Matrix.one_mulVec]
    rfl
  · rw [Matrix.transpose_one, Matrix.mul_one]
    rfl
  · rw [Matrix.one_mul]
    rfl
  · have e1 : (recountAam (Mirror.nPar e M) (aamSetup (reflectedPdm e M) look' (reflectedAppearance e (Mirror.nPar e M) z) s2
        fun i => L (Fin.cast (Mirror.active_length M.model) i))).priorS = aamPrior s2 L := by
      funext i
      exact append_recount (Mirror.active_length M.model) (Mirror.nPar e M) (fun _ => 1) (fun j => s2 / L j) i
    rw [e1]
    exact Mirror.mat_prior _
  · rw [Matrix.one_mul, Matrix.mul_one]
    rfl

/-- **C142** (active appearance models).  Simultaneous, alternating, modified alternating and Wiberg algorithms, forward
and inverse, with or without prior: in the picture in a mirror, with the reflected model (whatever
the signs of its shape and appearance components), every fit finds the reflected shapes with the same costs, or raises
the same exception.  Missing, because of the signs: the alternating algorithms with prior when there are as many
appearance components as features (`C139_alternating_violated`). -/
theorem C142_aam_partial (he : Signs e) (hε : Signs ε) (hδ : Signs δ) (M : OPdm N) (h4 : M.simComps.length = 4)
    (look look' : Pic → Pts N 2 → Except PyErr W) (hl : ∀ s, look' im' (reflected s) = look im s)
    (z : Appearance (nPar M) a m W) (z' : Appearance (nPar (flipPdm ε (reflectedPdm e M))) a m W)
    (hz : FlippedAppearance ε δ (Sign.nPar ε (reflectedPdm e M)) (reflectedAppearance e (Mirror.nPar e M) z) z') (s2 : ℝ)
    (L : Fin M.model.active.length → ℝ) (alg : Aam.Alg) (inverse map : Bool)
    (ha : alg = .alternating → map = true → a ≠ m) (maxIters : Int) (tol : ℝ) (costs : Bool) (init : Pts N 2) :
    (Aam.run (aamSetup (flipPdm ε (reflectedPdm e M)) look' z' s2 fun i => L (Fin.cast (Mirror.components e ε M) i)) alg
        inverse map maxIters tol costs im' (reflected init)).map (fun r => (r.shapes, r.costs)) =
      (Aam.run (aamSetup M look z s2 L) alg inverse map maxIters tol costs im init).map
        fun r => (r.shapes.map reflected, r.costs) := by
  have e1 := C139_aam_partial hε hδ (reflectedPdm e M) rfl look' (reflectedAppearance e (Mirror.nPar e M) z) z' hz s2
    (fun i => L (Fin.cast (Mirror.active_length M.model) i)) alg inverse map ha maxIters tol costs im' (reflected init)
  have e2 := Turned.aam_run (reflected_aam he M h4 hl z s2 L) alg inverse map ha maxIters tol costs init
  refine (congrArg (Except.map _) e1).trans ?_
  rw [recountAam_run (Mirror.nPar e M), e2]
  cases Aam.run (aamSetup M look z s2 L) alg inverse map maxIters tol costs im init <;> rfl

/-- **C142** (project-out active appearance models, forward and inverse).  Construction and fit on the picture in a mirror:
the reflected shapes with the same costs, or the same exception. -/
theorem C142_project_out (he : Signs e) (hε : Signs ε) (hδ : Signs δ) (M : OPdm N) (h4 : M.simComps.length = 4)
    (look look' : Pic → Pts N 2 → Except PyErr W) (hl : ∀ s, look' im' (reflected s) = look im s)
    (z : Appearance (nPar M) a m W) (z' : Appearance (nPar (flipPdm ε (reflectedPdm e M))) a m W)
    (hz : FlippedAppearance ε δ (Sign.nPar ε (reflectedPdm e M)) (reflectedAppearance e (Mirror.nPar e M) z) z') (s2 : ℝ)
    (L : Fin M.model.active.length → ℝ) (inverse : Bool) (tol : ℝ) (J : Matrix (Fin m) (Fin (nPar M)) ℝ)
    (J' : Matrix (Fin m) (Fin (nPar (flipPdm ε (reflectedPdm e M)))) ℝ)
    (hJ : J' = flipCols ε (Sign.nPar ε (reflectedPdm e M))
      ((reflectedCols e J).submatrix id (Fin.cast (Mirror.nPar e M))))
    (init : Pts N 2) (maxIters : Int) (costs map : Bool)
    (env : GN.Env (nPar M) m ℝ (Pts N 2) Pic W ℝ) (henv : env = Aam.projectOutEnv (aamSetup M look z s2 L))
    (env' : GN.Env (nPar (flipPdm ε (reflectedPdm e M))) m ℝ (Pts N 2) Pic W ℝ)
    (henv' : env' = Aam.projectOutEnv (aamSetup (flipPdm ε (reflectedPdm e M)) look' z' s2
      fun i => L (Fin.cast (Mirror.components e ε M) i))) :
    ((GN.precompute env'.Q J').bind fun c =>
        (GN.poRun env' inverse tol c ⟨im', reflected init, maxIters, costs, map⟩).2).map
        (fun r => (r.shapes, r.costs)) =
      ((GN.precompute env.Q J).bind fun c => (GN.poRun env inverse tol c ⟨im, init, maxIters, costs, map⟩).2).map
        fun r => (r.shapes.map reflected, r.costs) := by
  subst hJ
  have e1 := C139_project_out hε hδ (reflectedPdm e M) rfl look' (reflectedAppearance e (Mirror.nPar e M) z) z' hz s2
    (fun i => L (Fin.cast (Mirror.active_length M.model) i)) inverse tol
    ((reflectedCols e J).submatrix id (Fin.cast (Mirror.nPar e M))) ⟨im', reflected init, maxIters, costs, map⟩ _ rfl env'
    henv'
  have e2 := Turned.po_whole (Turned.po_of_aam (reflected_aam he M h4 hl z s2 L)) inverse tol J init maxIters costs map
  refine (congrArg (Except.map _) e1).trans ?_
  rw [recountAam_po (Mirror.nPar e M)]
  have e3 : ((reflectedCols e J).submatrix id (Fin.cast (Mirror.nPar e M))).submatrix id (Fin.cast (Mirror.nPar e M).symm) =
      J * (Mirror.mat e _)ᵀ := by
    rw [Mirror.mul_mat]
    rfl
  rw [e3, e2]
  subst henv
  generalize ((GN.precompute (Aam.projectOutEnv (aamSetup M look z s2 L)).Q J).bind fun c =>
    (GN.poRun (Aam.projectOutEnv (aamSetup M look z s2 L)) inverse tol c ⟨im, init, maxIters, costs, map⟩).2) = r
  cases r <;> rfl

/-- **C142** (unified models).  Project-out and alternating regularised landmark mean-shift on the picture in a mirror: the
reflected shapes with the same costs, or the same exception, under the conditions of `C142_mean_shift_partial`. -/
theorem C142_unified_partial (he : Signs e) (hε : Signs ε) (hδ : Signs δ) (M : OPdm N) (h4 : M.simComps.length = 4)
    (hb : M.glob.b = 0) (hw : w % 2 = 1)
    (hx : ReflectedExperts h w κ offs offs' sample sample' im im' expert expert') (c rho2 : ℝ)
    (L : Fin M.model.active.length → ℝ)
    (look look' : Pic → Pts N 2 → Except PyErr W) (hl : ∀ s, look' im' (reflected s) = look im s)
    (z : Appearance (nPar M) a m W) (z' : Appearance (nPar (flipPdm ε (reflectedPdm e M))) a m W)
    (hz : FlippedAppearance ε δ (Sign.nPar ε (reflectedPdm e M)) (reflectedAppearance e (Mirror.nPar e M) z) z')
    (jPo : Matrix (Fin m) (Fin (nPar M)) ℝ) (invSigma2 invRho2 : ℝ) (alg : ClmRun.UAlg) (prior : Bool) (α : ℝ)
    (maxIters : Int) (tol : ℝ) (costs : Bool) (init : Pts N 2) :
    (ClmRun.uRun (unifiedEnv (flipPdm ε (reflectedPdm e M)) (clmEnv (flipPdm ε (reflectedPdm e M)) h w offs' sample'
        expert' c (Shared.jacobian (flipPdm ε (reflectedPdm e M)) _) rho2
        fun i => L (Fin.cast (Mirror.components e ε M) i)) look' z'
        (flipCols ε (Sign.nPar ε (reflectedPdm e M)) ((reflectedCols e jPo).submatrix id (Fin.cast (Mirror.nPar e M))))
        invSigma2 invRho2) alg prior α maxIters tol costs im' (reflected init)).map (fun r => (r.shapes, r.costs)) =
      (ClmRun.uRun (unifiedEnv M (clmEnv M h w offs sample expert c (Shared.jacobian M _) rho2 L) look z jPo invSigma2
        invRho2) alg prior α maxIters tol costs im init).map fun r => (r.shapes.map reflected, r.costs) := by
  have e1 := C139_unified hε hδ (reflectedPdm e M) rfl h w offs' sample' expert' c rho2
    (fun i => L (Fin.cast (Mirror.active_length M.model) i)) look' (reflectedAppearance e (Mirror.nPar e M) z) z' hz
    ((reflectedCols e jPo).submatrix id (Fin.cast (Mirror.nPar e M))) invSigma2 invRho2 alg prior α maxIters tol costs im'
    (reflected init)
  have hu : TurnedUnified reflected (Mirror.axes N) (Mirror.mat e _) 1 im im'
      (unifiedEnv M (clmEnv M h w offs sample expert c (Shared.jacobian M _) rho2 L) look z jPo invSigma2 invRho2)
      (recountUnified (Mirror.nPar e M) (unifiedEnv (reflectedPdm e M) (clmEnv (reflectedPdm e M) h w offs' sample' expert'
        c (Shared.jacobian (reflectedPdm e M) _) rho2 fun i => L (Fin.cast (Mirror.active_length M.model) i)) look'
        (reflectedAppearance e (Mirror.nPar e M) z) ((reflectedCols e jPo).submatrix id (Fin.cast (Mirror.nPar e M)))
        invSigma2 invRho2)) := by
    refine ⟨reflected_clm he M h4 hb hw hx c rho2 L .meanShift (fun h => nomatch h), by simp, hl, rfl, rfl, ?_, ?_, ?_, fun c => ?_,
      rfl, rfl⟩
    · rw [Matrix.transpose_one, Matrix.mul_one]
      rfl
    · rw [Matrix.one_mul]
      rfl
    · rw [Mirror.mul_mat]
      rfl
    · rw [Mirror.mul_mat, Matrix.one_mulVec]
      rfl
  have e2 := Turned.unified_run hu alg prior α maxIters tol costs init
  refine (congrArg (Except.map _) e1).trans ?_
  rw [recountUnified_run (Mirror.nPar e M), e2]
  generalize ClmRun.uRun (unifiedEnv M (clmEnv M h w offs sample expert c (Shared.jacobian M _) rho2 L) look z jPo
    invSigma2 invRho2) alg prior α maxIters tol costs im init = r
  cases r <;> rfl

/-- Every model, picture and set of experts has a reflected one, so the hypotheses above can be met. -/
example (h w : Nat) (offs : Fin q → Warp.P 2) (sample : Pic → Warp.P 2 → C) (im : Pic)
    (expert : Fin N → (Fin q → C) → List ℝ) (hf : ∀ i P, (expert i P).length = h * w) (κ : Equiv.Perm (Fin q)) :
    ∃ offs' sample' expert', ReflectedExperts h w κ offs offs' sample sample' im im expert expert' := by
  refine ⟨fun o => reflectedPoint (offs (κ o)), fun im x => sample im (reflectedPoint x),
    fun i P => reflectedMap h w (expert i fun o => P (κ.symm o)), fun _ => rfl, fun x => ?_, fun i P => ?_, hf⟩
  · congr 1
    ext i
    fin_cases i <;> simp [reflectedPoint]
  · simp

/-- Experts with a single peak in a window of suitable width. -/
example : 5 % 4 = 1 ∧ ∀ (i : Fin 3) (P : Fin 4 → ℝ), ∃ y x, PeaksAt 1 5 ((fun _ _ => [0, 1, 0, 0, 0] : Fin 3 → (Fin 4 → ℝ) → List ℝ) i P) y x := by
  refine ⟨rfl, fun i P => ⟨0, 1, by omega, by omega, rfl, fun k v hk hne => ⟨1, rfl, ?_⟩⟩⟩
  match k, hk with
  | 0, hk => simp at hk; rw [← hk]; norm_num
  | 1, _ => omega
  | 2, hk => simp at hk; rw [← hk]; norm_num
  | 3, hk => simp at hk; rw [← hk]; norm_num
  | 4, hk => simp at hk; rw [← hk]; norm_num
  | k + 5, hk => simp at hk

end

/-- **C142** (search windows) is violated for windows of even width: they reach one pixel further to the left than to the
right.  Where the experts see no difference at all, a landmark is moved to the left, and to the left in the mirror too. -/
theorem C142_window_violated (c : ℝ) (hc : 0 < c) (p : ℝ × ℝ) :
    ∃ response : List ℝ, response.length = 1 * 2 ∧ reflectedMap 1 2 response = response ∧
      (Clm.rlmsError 1 2 c p response).2 < 0 ∧
      (Clm.rlmsError 1 2 c (p.1, -p.2) (reflectedMap 1 2 response)).2 < 0 := by
  have e1 : reflectedMap 1 2 [1, 1] = [1, 1] := by simp [reflectedMap, List.range_succ]
  have e3 : Clm.offsets 1 2 = [(0, -1), (0, 0)] := by decide
  have key : ∀ q : ℝ × ℝ, (Clm.rlmsError 1 2 c q [1, 1]).2 < 0 := by
    intro q
    unfold Clm.rlmsError Clm.rlmsTarget Clm.weightedMean Clm.candidates
    rw [e3]
    simp only [List.map_cons, List.map_nil, List.sum_cons, List.sum_nil, List.zipWith_cons_cons, List.zipWith_nil_left]
    push_cast
    have hA := gauss_pos hc (0, -1)
    have hB := gauss_pos hc (0, 0)
    generalize Clm.gauss c (0, -1) = A at *
    generalize Clm.gauss c (0, 0) = B at *
    have hS : 0 < A + B := by linarith
    have e4 : (1 * A / (1 * A + (1 * B + 0)) * (q.2 + -1) + (1 * B / (1 * A + (1 * B + 0)) * (q.2 + 0) + 0)) - q.2 =
        -(A / (A + B)) := by
      field_simp
      ring
    have e5 : 0 < A / (A + B) := div_pos hA hS
    rw [e4]
    linarith
  exact ⟨[1, 1], rfl, e1, key p, e1.symm ▸ key _⟩

/-- **C142** (active shape model) is violated for windows of width 3, 7, 11, …: half of the width is rounded to the even
neighbour, so the column in the middle counts as one to the left of the landmark.  A response map with a single peak in the
middle column, the same in the mirror, moves the landmark to the left, and to the left in the mirror too. -/
theorem C142_active_shape_violated (c : ℝ) (hc : 0 < c) (p : ℝ × ℝ) :
    ∃ response : List ℝ, PeaksAt 2 3 response 0 1 ∧ reflectedMap 2 3 response = response ∧
      (Clm.asmError 2 3 c p response).2 < 0 ∧
      (Clm.asmError 2 3 c (p.1, -p.2) (reflectedMap 2 3 response)).2 < 0 := by
  have e1 : reflectedMap 2 3 [0, 1, 0, 0, 0, 0] = [0, 1, 0, 0, 0, 0] := by simp [reflectedMap, List.range_succ]
  have hp : PeaksAt 2 3 [0, 1, 0, 0, 0, 0] 0 1 := by
    refine ⟨by omega, by omega, rfl, fun k v hk hne => ⟨1, rfl, ?_⟩⟩
    match k, hk with
    | 0, hk => simp at hk; rw [← hk]; norm_num
    | 1, _ => omega
    | 2, hk => simp at hk; rw [← hk]; norm_num
    | 3, hk => simp at hk; rw [← hk]; norm_num
    | 4, hk => simp at hk; rw [← hk]; norm_num
    | 5, hk => simp at hk; rw [← hk]; norm_num
    | k + 6, hk => simp at hk
  have e2 : Clm.asmPeak 2 3 [0, 1, 0, 0, 0, 0] = (-1, -1) := by
    unfold Clm.asmPeak
    rw [argmax_peak hp]
    rfl
  have e3 : Clm.offsets 2 3 = [(-1, -1), (-1, 0), (-1, 1), (0, -1), (0, 0), (0, 1)] := by decide
  have lt : ∀ y : ℝ, Clm.gauss c (y, -2) < Clm.gauss c (y, 0) := by
    intro y
    unfold Clm.gauss
    have hd : 0 < 2 * Real.pi * c := by have := Real.pi_pos; positivity
    refine div_lt_div_of_pos_right (Real.exp_lt_exp.2 ?_) hd
    refine div_lt_div_of_pos_right ?_ (by positivity)
    norm_num
  have key : ∀ q : ℝ × ℝ, (Clm.asmError 2 3 c q [0, 1, 0, 0, 0, 0]).2 < 0 := by
    intro q
    unfold Clm.asmError Clm.asmTarget Clm.weightedMean Clm.candidates
    rw [e2, e3]
    simp only [List.map_cons, List.map_nil, List.sum_cons, List.sum_nil, List.zipWith_cons_cons, List.zipWith_nil_left]
    push_cast
    norm_num
    have h1 := lt (-2)
    have h2 := lt (-1)
    have g1 := gauss_pos hc (-2, -2)
    have g2 := gauss_pos hc (-2, -1)
    have g3 := gauss_pos hc (-2, 0)
    have g4 := gauss_pos hc (-1, -2)
    have g5 := gauss_pos hc (-1, -1)
    have g6 := gauss_pos hc (-1, 0)
    generalize Clm.gauss c (-2, -2) = A at *
    generalize Clm.gauss c (-2, -1) = B at *
    generalize Clm.gauss c (-2, 0) = C at *
    generalize Clm.gauss c (-1, -2) = D at *
    generalize Clm.gauss c (-1, -1) = E at *
    generalize Clm.gauss c (-1, 0) = F at *
    have hS : 0 < A + (B + (C + (D + (E + F)))) := by linarith
    obtain ⟨S, hSe⟩ : ∃ S, S = A + (B + (C + (D + (E + F)))) := ⟨_, rfl⟩
    rw [← hSe] at hS ⊢
    have e4 : A / S * (q.2 + -1) + (B / S * q.2 + (C / S * (q.2 + 1) + (D / S * (q.2 + -1) + (E / S * q.2 + F / S * (q.2 + 1))))) =
        q.2 + ((C - A) + (F - D)) / S := by
      field_simp
      linear_combination (-q.2) * hSe
    rw [e4]
    have : 0 < ((C - A) + (F - D)) / S := div_pos (by linarith) hS
    linarith
  exact ⟨_, hp, e1, key p, e1.symm ▸ key _⟩

/-- **C142** (Jacobians) is violated whenever the shape model was rotated when the fitter was built (its state then is that
of the last shape it was given) and its first component moves anything: the derivative kept by the fitter is not the
reflected one, whatever the signs. -/
theorem C142_rotation_violated {N : Nat} (M : OPdm N) (hb : M.glob.b ≠ 0) (x : Fin N × Fin 2)
    (hx : M.model.active.getD 0 0 x ≠ 0) (e : Fin 4 → ℝ) :
    Shared.jacobian (reflectedPdm e M) (nPar (reflectedPdm e M)) ≠
      (reflectedCols e (of fun r i => mirrorSign (finProdFinEquiv.symm r).2 * Shared.jacobian M (nPar M) r i)).submatrix id
        (Fin.cast (Mirror.nPar e M)) := by
  intro h
  have hl : 0 < M.model.active.length := by
    by_contra h0
    apply hx
    rw [List.getD_eq_default _ _ (by omega)]
    rfl
  have hl' : 4 < nPar (reflectedPdm e M) := by
    rw [Mirror.nPar]
    show 4 < 4 + M.model.active.length
    omega
  have h1 := congrFun (congrFun h (finProdFinEquiv x)) ⟨4, hl'⟩
  simp only [Shared.jacobian, reflectedCols, Matrix.of_apply, submatrix_apply, id, Homog.opdmDdp, Homog.gpdmDdp, Homog.pdmDdp,
    Fin.cast_mk, Equiv.symm_apply_apply] at h1
  rw [show (reflectedPdm e M).model.active = M.model.active.map reflected from Mirror.active M.model,
    Mirror.getD_reflected] at h1
  have hs : simSign e 4 = 1 := by simp [simSign]
  obtain ⟨i, j⟩ := x
  simp only [hs, one_mul, lt_irrefl, if_false, Nat.sub_self, Fin.sum_univ_two, Homog.simDdx, reflectedPdm, reflectedSim,
    reflected] at h1
  generalize M.model.active.getD 0 0 (i, j) = v at *
  have h2 : M.glob.b = -M.glob.b := by
    fin_cases j <;> simp [mirrorSign] at h1 <;> rcases h1 with h1 | h1 <;> first | exact absurd h1 hx | linarith
  exact hb (by linarith)

/-- A shape model in such a state. -/
example : ∃ M : OPdm 2, M.glob.b ≠ 0 ∧ M.model.active.getD 0 0 (0, 1) ≠ 0 :=
  ⟨⟨⟨0, [fun _ => 1], 1⟩, [0], 0, 0, [0, 0, 0, 0], [0, 0, 0, 0], 0, ⟨1, 1, 0, 0⟩⟩, one_ne_zero, by simp [Pca.active]⟩

/-! ### Supervised descent -/

section
open Sdm SdmReg Reg Translate

/-- **C142** (supervised descent on shapes).  Training, any number of increments and every later fit with reflected shapes,
and features in an order `τ` of their own, give the reflected shapes or raise the same exceptions: for either linear
regression, any regularisation, with or without bias. -/
theorem C142_supervised_descent {I : Type} {d N : Nat} (τ : Equiv.Perm (Fin d))
    (feat feat' : I → (Fin (N * 2) → ℝ) → Fin d → ℝ)
    (hf : ∀ im v, feat' im (reflectedFlat v) = reorder τ (feat im v))
    (junk : Nat → Fin (N * 2) → ℝ) (n : Nat) (first : Batch I (Fin (N * 2) → ℝ))
    (more : List (Batch I (Fin (N * 2) → ℝ))) :
    (∀ (α : ℝ) (bias inc : Bool),
      SameFits reflectedFlat (trainAndFit (irlOps α bias inc d (N * 2)) feat junk n first more)
        (trainAndFit (irlOps α bias inc d (N * 2)) feat' (fun k => reflectedFlat (junk k)) n
          (first.translate reflectedFlat) (more.map (Batch.translate reflectedFlat)))) ∧
    ∀ α α2 : ℝ,
      SameFits reflectedFlat (trainAndFit (iirlOps α α2 d (N * 2)) feat junk n first more)
        (trainAndFit (iirlOps α α2 d (N * 2)) feat' (fun k => reflectedFlat (junk k)) n
          (first.translate reflectedFlat) (more.map (Batch.translate reflectedFlat))) := by
  have h1 : Signs fun _ : Fin d => (1 : ℝ) := fun _ => Or.inl rfl
  have hr : ∀ v : Fin (N * 2) → ℝ, ((Mirror.axes N *ᵥ ·) ∘ reorder 1) v = reflectedFlat v := fun v => Mirror.axes_vec v
  have hR : reflectedFlat = (Mirror.axes N *ᵥ ·) ∘ reorder 1 := funext fun v => (hr v).symm
  have hf' : ∀ im v, feat' im (((Mirror.axes N *ᵥ ·) ∘ reorder 1) v) =
      ((diagonal (fun _ : Fin d => (1 : ℝ)) *ᵥ ·) ∘ reorder τ) (feat im v) := by
    intro im v
    rw [hr, hf]
    simp
  rw [hR]
  constructor
  · intro α bias inc
    obtain ⟨T', hb⟩ := Turned.biased_signs bias (Sign.sq h1)
    exact sameFits_plain (Turned.translates_comp (irlOps_translates α bias inc τ 1)
      (Turned.irlOps_turn α inc hb (Mirror.axes N))) (fun a b => Matrix.mulVec_add _ _ _)
      (fun a b => Matrix.mulVec_sub _ _ _) hf' junk n first more
  · intro α α2
    exact sameFits_plain (Turned.translates_comp (iirlOps_translates α α2 τ 1)
      (Turned.iirlOps_turn α α2 (Sign.diag_orth h1) (Mirror.axes_orth N))) (fun a b => Matrix.mulVec_add _ _ _)
      (fun a b => Matrix.mulVec_sub _ _ _) hf' junk n first more

/-- **C142** (supervised descent on the parameters of a shape model).  The parameters of the reflected shape model have
other signs (`C142_shape_model_operations`); training, increments and fits give the
reflected shapes or raise the same exceptions. -/
theorem C142_parametric_descent {I V : Type} {d k : Nat} (τ : Equiv.Perm (Fin d)) (ν : V → V) (e : Fin 4 → ℝ) (he : Signs e)
    (co co' : Coord V (Fin (4 + k) → ℝ)) (hp : ∀ v, co'.proj (ν v) = fun i : Fin (4 + k) => simSign e i * co.proj v i)
    (hi : ∀ w, co'.inst (fun i : Fin (4 + k) => simSign e i * w i) = ν (co.inst w))
    (feat feat' : I → V → Fin d → ℝ) (hf : ∀ im v, feat' im (ν v) = reorder τ (feat im v))
    (junk : Nat → Fin (4 + k) → ℝ) (n : Nat) (first : Batch I V) (more : List (Batch I V)) :
    (∀ (α : ℝ) (bias inc : Bool),
      SameFits ν (trainAndFitParameters (irlOps α bias inc d (4 + k)) co feat junk n first more)
        (trainAndFitParameters (irlOps α bias inc d (4 + k)) co' feat' (fun j (i : Fin (4 + k)) => simSign e i * junk j i) n
          (first.translate ν) (more.map (Batch.translate ν)))) ∧
    ∀ α α2 : ℝ,
      SameFits ν (trainAndFitParameters (iirlOps α α2 d (4 + k)) co feat junk n first more)
        (trainAndFitParameters (iirlOps α α2 d (4 + k)) co' feat' (fun j (i : Fin (4 + k)) => simSign e i * junk j i) n
          (first.translate ν) (more.map (Batch.translate ν))) := by
  have h1 : Signs fun _ : Fin d => (1 : ℝ) := fun _ => Or.inl rfl
  have hr : ∀ v : Fin (4 + k) → ℝ, reorder (1 : Equiv.Perm (Fin (4 + k))) v = v := fun _ => rfl
  have hc : Coords co co' ν ((Mirror.mat e k *ᵥ ·) ∘ reorder 1) :=
    ⟨fun v => by simp only [Function.comp, hr, Mirror.mat_vec]; exact hp v,
      fun w => by simp only [Function.comp, hr, Mirror.mat_vec]; exact hi w,
      fun a b => Matrix.mulVec_add _ _ _, fun a b => Matrix.mulVec_sub _ _ _⟩
  have hf' : ∀ im v, feat' im (ν v) = ((diagonal (fun _ : Fin d => (1 : ℝ)) *ᵥ ·) ∘ reorder τ) (feat im v) := by
    intro im v
    rw [hf]
    simp
  have hj : (fun (j : Nat) (i : Fin (4 + k)) => simSign e i * junk j i) =
      fun j => ((Mirror.mat e k *ᵥ ·) ∘ reorder 1) (junk j) := by
    funext j
    simp only [Function.comp, hr, Mirror.mat_vec]
  rw [hj]
  constructor
  · intro α bias inc
    obtain ⟨T', hb⟩ := Turned.biased_signs bias (Sign.sq h1)
    exact sameFits_crossed (Turned.translates_comp (irlOps_translates α bias inc τ 1)
      (Turned.irlOps_turn α inc hb (Mirror.mat e k))) hc hf' junk n first more
  · intro α α2
    exact sameFits_crossed (Turned.translates_comp (iirlOps_translates α α2 τ 1)
      (Turned.iirlOps_turn α α2 (Sign.diag_orth h1) (Mirror.mat_orth he))) hc hf' junk n first more

end
end Menpofit
