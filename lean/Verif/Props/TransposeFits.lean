import Verif.Lemmas.TransposeFits
import Verif.Lemmas.TransposeMaps
import Verif.Props.Signs
import Verif.Props.RenumberSdm
/-!
# Properties: rows and columns are treated alike by fits (C140)
-/

namespace Menpofit
open MI Spec Matrix Place

section
variable {N q : Nat} {Pic C : Type} {e : Fin 4 → ℝ} {ε : Nat → ℝ}

/-! ### Constrained local models -/

theorem otherWay_add (x y : Warp.P 2) : otherWay (x + y) = otherWay x + otherWay y := by
  ext i
  fin_cases i <;> simp [otherWay]

theorem otherWay_smul (r : ℝ) (x : Warp.P 2) : otherWay (r • x) = r • otherWay x := by
  ext i
  fin_cases i <;> simp [otherWay]

theorem otherWay_sub (x y : Warp.P 2) : otherWay (x - y) = otherWay x - otherWay y := by
  ext i
  fin_cases i <;> simp [otherWay]

theorem point_transposed (s : Pts N 2) (i : Fin N) : point (transposed s) i = otherWay (point s i) := by
  ext j
  fin_cases j <;> rfl

variable {h w : Nat} {κ : Equiv.Perm (Fin q)} {offs offs' : Fin q → Warp.P 2} {sample sample' : Pic → Warp.P 2 → C}
  {im im' : Pic} {expert expert' : Fin N → (Fin q → C) → List ℝ}

theorem patches_transposed (ho : ∀ o, offs' o = otherWay (offs (κ o))) (hs : ∀ x, sample' im' (otherWay x) = sample im x)
    (s : Pts N 2) (i : Fin N) :
    patches offs' sample' im' (transposed s) i = fun o => patches offs sample im s i (κ o) := by
  funext o
  unfold patches
  rw [point_transposed, ho, ← otherWay_add, hs]

theorem respond_transposed (hx : CrossedExperts h w κ offs offs' sample sample' im im' expert expert') (s : Pts N 2) :
    respond w h offs' sample' expert' im' (transposed s) =
      (respond h w offs sample expert im s).map fun r i => transposedMap h w (r i) := by
  unfold respond
  have e1 : (List.ofFn fun i => expert' i (patches offs' sample' im' (transposed s) i)) =
      (List.ofFn fun i => expert i (patches offs sample im s i)).map (transposedMap h w) := by
    rw [List.map_ofFn]
    congr 1
    funext i
    rw [patches_transposed hx.pixels hx.picture]
    exact hx.response i _
  rw [e1, Cross.probabilityMap_map _ fun l hm => by
    obtain ⟨i, rfl⟩ := (List.mem_ofFn' _ _).1 hm
    exact hx.fills i _]
  cases hr : Clm.probabilityMap h w (List.ofFn fun i => expert i (patches offs sample im s i)) with
  | error e => rfl
  | ok r =>
    have hl := Cross.probabilityMap_count hr
    rw [List.length_ofFn] at hl
    simp only [Except.map]
    congr 1
    funext i
    have hi : i.val < r.length := by rw [hl]; exact i.isLt
    rw [List.getD_eq_getElem _ _ hi, List.getD_eq_getElem _ _ (by simpa using hi), List.getElem_map]

theorem respond_mem {s : Pts N 2} {r : Fin N → List ℝ} (hr : respond h w offs sample expert im s = .ok r)
    (P : List ℝ → Prop) (hP : ∀ maps, Clm.probabilityMap h w
      (List.ofFn fun i => expert i (patches offs sample im s i)) = .ok maps → ∀ l ∈ maps, P l) (i : Fin N) : P (r i) := by
  unfold respond at hr
  cases hm : Clm.probabilityMap h w (List.ofFn fun i => expert i (patches offs sample im s i)) with
  | error e => rw [hm] at hr; cases hr
  | ok maps =>
    rw [hm] at hr
    simp only [Except.map, Except.ok.injEq] at hr
    subst hr
    have hl := Cross.probabilityMap_count hm
    rw [List.length_ofFn] at hl
    have hi : i.val < maps.length := by rw [hl]; exact i.isLt
    show P (maps.getD i.val [])
    rw [List.getD_eq_getElem _ _ hi]
    exact hP _ hm _ (List.getElem_mem hi)

theorem ravel_swap (v : Fin N → ℝ × ℝ) : Clm.ravel (fun i => (v i).swap) = Turned.order (Cross.axes N) *ᵥ Clm.ravel v := by
  rw [Turned.order_vec]
  funext r
  have hr : finProdFinEquiv.symm (Cross.axes N r) =
      ((finProdFinEquiv.symm r).1, (finProdFinEquiv.symm r).2.rev) := by
    simp [Cross.axes, otherAxis]
  unfold Clm.ravel
  simp only [hr]
  generalize (finProdFinEquiv.symm r).1 = i
  generalize (finProdFinEquiv.symm r).2 = j
  fin_cases j <;> rfl

theorem landmarks_transposed (s : Pts N 2) (i : Fin N) :
    ClmRun.landmarks (transposed s) i = (ClmRun.landmarks s i).swap := rfl

theorem crossed_clm (he : Signs e) (M : OPdm N) (h4 : M.simComps.length = 4)
    (hx : CrossedExperts h w κ offs offs' sample sample' im im' expert expert') (c rho2 : ℝ)
    (L : Fin M.model.active.length → ℝ) (alg : ClmRun.Alg)
    (hp : alg = .activeShape → ∀ i P, ∃ y x, PeaksAt h w (expert i P) y x) :
    TurnedClm transposed (Turned.order (Cross.axes N)) (Cross.mat e _) alg im im'
      (clmEnv M h w offs sample expert c (Shared.jacobian M _) rho2 L)
      (recountClm (Cross.nPar e M) (clmEnv (transposedPdm e M) w h offs' sample' expert' c
        (Shared.jacobian (transposedPdm e M) _) rho2 fun i => L (Fin.cast (Cross.active_length M.model) i))) := by
  refine ⟨Turned.order_orth _, Cross.mat_orth he, fun s => ?_, fun p => ?_, ?_, Cross.distance, ?_, fun p => ?_⟩
  · rw [Cross.mat_vec]
    funext i
    exact Cross.params he M h4 s i
  · rw [Cross.mat_vec]
    exact Cross.shape he M h4 p
  · have e1 : (recountClm (Cross.nPar e M) (clmEnv (transposedPdm e M) w h offs' sample' expert' c
        (Shared.jacobian (transposedPdm e M) _) rho2 fun i => L (Fin.cast (Cross.active_length M.model) i))).prior =
        clmPrior rho2 L := by
      funext i
      exact append_recount (Cross.active_length M.model) (Cross.nPar e M) (fun _ => 0) (fun j => rho2 / L j) i
    rw [e1]
    exact Cross.mat_prior _ _
  · show (Shared.jacobian (transposedPdm e M) _).submatrix id _ = _
    rw [Cross.jacobian M (Cross.nPar e M), Turned.order_mul]
    rfl
  · show (respond w h offs' sample' expert' im' (transposed (pdmShape M p))).map _ =
      (respond h w offs sample expert im (pdmShape M p)).map _
    rw [respond_transposed hx]
    generalize pdmShape M p = s
    cases hr : respond h w offs sample expert im s with
    | error e => rfl
    | ok r =>
      simp only [Except.map, Except.ok.injEq]
      cases alg with
      | activeShape =>
        have hpk : ∀ i, ∃ y x, PeaksAt h w (r i) y x := respond_mem hr (fun l => ∃ y x, PeaksAt h w l y x)
          fun maps hm => Cross.probabilityMap_peaks (fun l hl => by
            obtain ⟨i, rfl⟩ := (List.mem_ofFn' _ _).1 hl
            exact hp rfl i _) hm
        show Clm.ravel (fun i => Clm.asmError w h c _ (transposedMap h w (r i))) =
          Turned.order (Cross.axes N) *ᵥ Clm.ravel fun i => Clm.asmError h w c _ (r i)
        rw [← ravel_swap]
        congr 1
        funext i
        obtain ⟨y, x, hyx⟩ := hpk i
        rw [landmarks_transposed, Cross.asm c _ _ hyx]
      | meanShift =>
        have hlen : ∀ i, (r i).length = h * w := respond_mem hr (fun l => l.length = h * w)
          fun maps hm => Cross.probabilityMap_length (fun l hl => by
            obtain ⟨i, rfl⟩ := (List.mem_ofFn' _ _).1 hl
            exact hx.fills i _) hm
        show Clm.ravel (fun i => Clm.rlmsError w h c _ (transposedMap h w (r i))) =
          Turned.order (Cross.axes N) *ᵥ Clm.ravel fun i => Clm.rlmsError h w c _ (r i)
        rw [← ravel_swap]
        congr 1
        funext i
        rw [landmarks_transposed, Cross.rlms c _ _ (hlen i)]

/-- **C140** (constrained local models).  Regularised landmark mean-shift and active shape model, with or without prior: in
the picture with rows and columns exchanged, with the exchanged shape model (whatever the signs of its components) and the
exchanged experts and initial shape, every fit finds the exchanged shapes or raises the same exception.  For the active
shape model every response map must have a single peak (`C140_active_shape_violated`). -/
theorem C140_clm_partial (he : Signs e) (hε : Signs ε) (M : OPdm N) (h4 : M.simComps.length = 4)
    (hx : CrossedExperts h w κ offs offs' sample sample' im im' expert expert') (c rho2 : ℝ)
    (L : Fin M.model.active.length → ℝ) (alg : ClmRun.Alg)
    (hp : alg = .activeShape → ∀ i P, ∃ y x, PeaksAt h w (expert i P) y x)
    (map : Bool) (maxIters : Int) (tol : ℝ) (init : Pts N 2) :
    (ClmRun.run (clmEnv (flipPdm ε (transposedPdm e M)) w h offs' sample' expert' c
        (Shared.jacobian (flipPdm ε (transposedPdm e M)) _) rho2 fun i => L (Fin.cast (Cross.components e ε M) i))
        alg map maxIters tol im' (transposed init)).map (fun r => r.shapes) =
      (ClmRun.run (clmEnv M h w offs sample expert c (Shared.jacobian M _) rho2 L) alg map maxIters tol im init).map
        fun r => r.shapes.map transposed := by
  have e1 := C139_clm hε (transposedPdm e M) rfl w h offs' sample' expert' c rho2
    (fun i => L (Fin.cast (Cross.active_length M.model) i)) alg map maxIters tol im' (transposed init)
  have e2 := Turned.clm_run (crossed_clm he M h4 hx c rho2 L alg hp) map maxIters tol init
  refine (congrArg (Except.map _) e1).trans ?_
  rw [recountClm_run (Cross.nPar e M), e2]
  cases ClmRun.run (clmEnv M h w offs sample expert c (Shared.jacobian M _) rho2 L) alg map maxIters tol im init <;> rfl

/-- **C140** (regularised landmark mean-shift).  Here nothing is missing: whatever the response maps. -/
theorem C140_mean_shift (he : Signs e) (hε : Signs ε) (M : OPdm N) (h4 : M.simComps.length = 4)
    (hx : CrossedExperts h w κ offs offs' sample sample' im im' expert expert') (c rho2 : ℝ)
    (L : Fin M.model.active.length → ℝ) (map : Bool) (maxIters : Int) (tol : ℝ) (init : Pts N 2) :
    (ClmRun.run (clmEnv (flipPdm ε (transposedPdm e M)) w h offs' sample' expert' c
        (Shared.jacobian (flipPdm ε (transposedPdm e M)) _) rho2 fun i => L (Fin.cast (Cross.components e ε M) i))
        .meanShift map maxIters tol im' (transposed init)).map (fun r => r.shapes) =
      (ClmRun.run (clmEnv M h w offs sample expert c (Shared.jacobian M _) rho2 L) .meanShift map maxIters tol im init).map
        fun r => r.shapes.map transposed :=
  C140_clm_partial he hε M h4 hx c rho2 L .meanShift (fun h => nomatch h) map maxIters tol init

/-! ### Ways of looking at a picture -/

/-- **C140** (warps).  A piecewise affine warp with exchanged template and landmarks shows the same of the exchanged
picture, pixel by pixel; the patches around exchanged landmarks hold the same pixels. -/
theorem C140_warps (mesh : Warp.Pwa N) (pixels pixels' : Fin q → Warp.P 2)
    (hpix : ∀ o, pixels' o = otherWay (pixels (κ o))) (ho : ∀ o, offs' o = otherWay (offs (κ o)))
    (hs : ∀ x, sample' im' (otherWay x) = sample im x) (s : Pts N 2) :
    pwaWarp (crossedMesh mesh) pixels' sample' im' (transposed s) =
      (pwaWarp mesh pixels sample im s).map (fun f o => f (κ o)) ∧
    ∀ i o, patches offs' sample' im' (transposed s) i o = patches offs sample im s i (κ o) := by
  refine ⟨?_, fun i o => congrFun (patches_transposed ho hs s i) o⟩
  have hw : ∀ x : Warp.P 2, otherWay (otherWay x) = x := by
    intro x
    ext i
    fin_cases i <;> rfl
  have e1 : ∀ o, ({ crossedMesh mesh with target := point (transposed s) } : Warp.Pwa N).apply (pixels' o) =
      (({ mesh with target := point s } : Warp.Pwa N).apply (pixels (κ o))).map otherWay := by
    intro o
    simp only [Warp.Pwa.apply, crossedMesh, hpix, hw, Option.map_map]
    congr 1
    funext l
    simp only [Function.comp, point_transposed, otherWay_add, otherWay_smul, otherWay_sub]
  unfold pwaWarp
  simp only [e1, Option.isSome_map]
  have e2 : (∀ o, (({ mesh with target := point s } : Warp.Pwa N).apply (pixels (κ o))).isSome = true) ↔
      ∀ o, (({ mesh with target := point s } : Warp.Pwa N).apply (pixels o)).isSome = true :=
    ⟨fun H o => by simpa using H (κ.symm o), fun H o => H (κ o)⟩
  rw [if_congr e2 rfl rfl]
  split_ifs with hall
  · simp only [Except.map, Except.ok.injEq]
    funext o
    cases hv : ({ mesh with target := point s } : Warp.Pwa N).apply (pixels (κ o)) with
    | none =>
      have := hall (κ o)
      rw [hv] at this
      cases this
    | some x => exact hs x
  · rfl

/-- The steepest descent images of the exchanged texture, whose gradients are exchanged, are those of the texture with
columns in the order of the exchanged parameters: this is the hypothesis on Jacobians (`crossedAppearance`) made below. -/
theorem C140_jacobian {m : Nat} (e : Fin 4 → ℝ) (M : OPdm N) (B : Matrix (Fin m) (Fin (N * 2)) ℝ) :
    (of fun r i => B r (otherAxis i)) * Shared.jacobian (transposedPdm e M) (nPar (transposedPdm e M)) =
      (crossedCols e (B * Shared.jacobian M (nPar M))).submatrix id (Fin.cast (Cross.nPar e M)) := by
  rw [Cross.jacobian M (Cross.nPar e M), Cross.mul_mat]
  ext r i
  simp only [mul_apply, of_apply, submatrix_apply, id, crossedCols, Finset.mul_sum]
  rw [← Equiv.sum_comp (Cross.axes N)]
  refine Finset.sum_congr rfl fun j _ => ?_
  have : otherAxis (Cross.axes N j) = j := Cross.otherAxis_twice j
  rw [this]
  have h2 : Cross.axes N (Cross.axes N j) = j := Cross.otherAxis_twice j
  rw [h2]
  ring

/-! ### Active appearance models -/

variable {a m : Nat} {W : Type} {δ : Fin a → ℝ}

theorem crossed_aam (he : Signs e) (M : OPdm N) (h4 : M.simComps.length = 4) {look look' : Pic → Pts N 2 → Except PyErr W}
    (hl : ∀ s, look' im' (transposed s) = look im s) (z : Appearance (nPar M) a m W) (s2 : ℝ)
    (L : Fin M.model.active.length → ℝ) :
    TurnedAam transposed (Cross.mat e _) 1 im im' (aamSetup M look z s2 L)
      (recountAam (Cross.nPar e M) (aamSetup (transposedPdm e M) look' (crossedAppearance e (Cross.nPar e M) z) s2
        fun i => L (Fin.cast (Cross.active_length M.model) i))) := by
  refine ⟨Cross.mat_orth he, by simp, fun s => ?_, fun p => ?_, fun p => ?_, rfl, fun w => ?_,
    fun c => ?_, rfl, ?_, ?_, ?_, ?_, Cross.distance⟩
  · rw [Cross.mat_vec]
    funext i
    exact Cross.params he M h4 s i
  · rw [Cross.mat_vec]
    exact Cross.shape he M h4 p
  · rw [Cross.mat_vec]
    refine (congrArg (look' im') (Cross.shape he M h4 p)).trans (hl _)
  · rw [Cross.mul_mat]
    rfl
  · rw [Cross.mul_mat, Matrix.one_mulVec]
    rfl
  · rw [Matrix.transpose_one, Matrix.mul_one]
    rfl
  · rw [Matrix.one_mul]
    rfl
  · have e1 : (recountAam (Cross.nPar e M) (aamSetup (transposedPdm e M) look' (crossedAppearance e (Cross.nPar e M) z) s2
        fun i => L (Fin.cast (Cross.active_length M.model) i))).priorS = aamPrior s2 L := by
      funext i
      exact append_recount (Cross.active_length M.model) (Cross.nPar e M) (fun _ => 1) (fun j => s2 / L j) i
    rw [e1]
    exact Cross.mat_prior _ _
  · rw [Matrix.one_mul, Matrix.mul_one]
    rfl

/-- **C140** (active appearance models).  Simultaneous, alternating, modified alternating and Wiberg algorithms, forward
and inverse, with or without prior: in the picture with rows and columns exchanged, with the exchanged model (whatever
the signs of its shape and appearance components), every fit finds the exchanged shapes with the same costs, or raises
the same exception.  Missing, because of the signs: the alternating algorithms with prior when there are as many
appearance components as features (`C139_alternating_violated`). -/
theorem C140_aam_partial (he : Signs e) (hε : Signs ε) (hδ : Signs δ) (M : OPdm N) (h4 : M.simComps.length = 4)
    (look look' : Pic → Pts N 2 → Except PyErr W) (hl : ∀ s, look' im' (transposed s) = look im s)
    (z : Appearance (nPar M) a m W) (z' : Appearance (nPar (flipPdm ε (transposedPdm e M))) a m W)
    (hz : FlippedAppearance ε δ (Sign.nPar ε (transposedPdm e M)) (crossedAppearance e (Cross.nPar e M) z) z') (s2 : ℝ)
    (L : Fin M.model.active.length → ℝ) (alg : Aam.Alg) (inverse map : Bool)
    (ha : alg = .alternating → map = true → a ≠ m) (maxIters : Int) (tol : ℝ) (costs : Bool) (init : Pts N 2) :
    (Aam.run (aamSetup (flipPdm ε (transposedPdm e M)) look' z' s2 fun i => L (Fin.cast (Cross.components e ε M) i)) alg
        inverse map maxIters tol costs im' (transposed init)).map (fun r => (r.shapes, r.costs)) =
      (Aam.run (aamSetup M look z s2 L) alg inverse map maxIters tol costs im init).map
        fun r => (r.shapes.map transposed, r.costs) := by
  have e1 := C139_aam_partial hε hδ (transposedPdm e M) rfl look' (crossedAppearance e (Cross.nPar e M) z) z' hz s2
    (fun i => L (Fin.cast (Cross.active_length M.model) i)) alg inverse map ha maxIters tol costs im' (transposed init)
  have e2 := Turned.aam_run (crossed_aam he M h4 hl z s2 L) alg inverse map ha maxIters tol costs init
  refine (congrArg (Except.map _) e1).trans ?_
  rw [recountAam_run (Cross.nPar e M), e2]
  cases Aam.run (aamSetup M look z s2 L) alg inverse map maxIters tol costs im init <;> rfl

/-- **C140** (project-out active appearance models, forward and inverse).  Construction and fit on the exchanged picture:
the exchanged shapes with the same costs, or the same exception. -/
theorem C140_project_out (he : Signs e) (hε : Signs ε) (hδ : Signs δ) (M : OPdm N) (h4 : M.simComps.length = 4)
    (look look' : Pic → Pts N 2 → Except PyErr W) (hl : ∀ s, look' im' (transposed s) = look im s)
    (z : Appearance (nPar M) a m W) (z' : Appearance (nPar (flipPdm ε (transposedPdm e M))) a m W)
    (hz : FlippedAppearance ε δ (Sign.nPar ε (transposedPdm e M)) (crossedAppearance e (Cross.nPar e M) z) z') (s2 : ℝ)
    (L : Fin M.model.active.length → ℝ) (inverse : Bool) (tol : ℝ) (J : Matrix (Fin m) (Fin (nPar M)) ℝ)
    (J' : Matrix (Fin m) (Fin (nPar (flipPdm ε (transposedPdm e M)))) ℝ)
    (hJ : J' = flipCols ε (Sign.nPar ε (transposedPdm e M))
      ((crossedCols e J).submatrix id (Fin.cast (Cross.nPar e M))))
    (init : Pts N 2) (maxIters : Int) (costs map : Bool)
    (env : GN.Env (nPar M) m ℝ (Pts N 2) Pic W ℝ) (henv : env = Aam.projectOutEnv (aamSetup M look z s2 L))
    (env' : GN.Env (nPar (flipPdm ε (transposedPdm e M))) m ℝ (Pts N 2) Pic W ℝ)
    (henv' : env' = Aam.projectOutEnv (aamSetup (flipPdm ε (transposedPdm e M)) look' z' s2
      fun i => L (Fin.cast (Cross.components e ε M) i))) :
    ((GN.precompute env'.Q J').bind fun c =>
        (GN.poRun env' inverse tol c ⟨im', transposed init, maxIters, costs, map⟩).2).map
        (fun r => (r.shapes, r.costs)) =
      ((GN.precompute env.Q J).bind fun c => (GN.poRun env inverse tol c ⟨im, init, maxIters, costs, map⟩).2).map
        fun r => (r.shapes.map transposed, r.costs) := by
  subst hJ
  have e1 := C139_project_out hε hδ (transposedPdm e M) rfl look' (crossedAppearance e (Cross.nPar e M) z) z' hz s2
    (fun i => L (Fin.cast (Cross.active_length M.model) i)) inverse tol
    ((crossedCols e J).submatrix id (Fin.cast (Cross.nPar e M))) ⟨im', transposed init, maxIters, costs, map⟩ _ rfl env'
    henv'
  have e2 := Turned.po_whole (Turned.po_of_aam (crossed_aam he M h4 hl z s2 L)) inverse tol J init maxIters costs map
  refine (congrArg (Except.map _) e1).trans ?_
  rw [recountAam_po (Cross.nPar e M)]
  have e3 : ((crossedCols e J).submatrix id (Fin.cast (Cross.nPar e M))).submatrix id (Fin.cast (Cross.nPar e M).symm) =
      J * (Cross.mat e _)ᵀ := by
    rw [Cross.mul_mat]
    rfl
  rw [e3, e2]
  subst henv
  generalize ((GN.precompute (Aam.projectOutEnv (aamSetup M look z s2 L)).Q J).bind fun c =>
    (GN.poRun (Aam.projectOutEnv (aamSetup M look z s2 L)) inverse tol c ⟨im, init, maxIters, costs, map⟩).2) = r
  cases r <;> rfl

/-- **C140** (unified models).  Project-out and alternating regularised landmark mean-shift on the exchanged picture: the
exchanged shapes with the same costs, or the same exception. -/
theorem C140_unified (he : Signs e) (hε : Signs ε) (hδ : Signs δ) (M : OPdm N) (h4 : M.simComps.length = 4)
    (hx : CrossedExperts h w κ offs offs' sample sample' im im' expert expert') (c rho2 : ℝ)
    (L : Fin M.model.active.length → ℝ)
    (look look' : Pic → Pts N 2 → Except PyErr W) (hl : ∀ s, look' im' (transposed s) = look im s)
    (z : Appearance (nPar M) a m W) (z' : Appearance (nPar (flipPdm ε (transposedPdm e M))) a m W)
    (hz : FlippedAppearance ε δ (Sign.nPar ε (transposedPdm e M)) (crossedAppearance e (Cross.nPar e M) z) z')
    (jPo : Matrix (Fin m) (Fin (nPar M)) ℝ) (invSigma2 invRho2 : ℝ) (alg : ClmRun.UAlg) (prior : Bool) (α : ℝ)
    (maxIters : Int) (tol : ℝ) (costs : Bool) (init : Pts N 2) :
    (ClmRun.uRun (unifiedEnv (flipPdm ε (transposedPdm e M)) (clmEnv (flipPdm ε (transposedPdm e M)) w h offs' sample'
        expert' c (Shared.jacobian (flipPdm ε (transposedPdm e M)) _) rho2
        fun i => L (Fin.cast (Cross.components e ε M) i)) look' z'
        (flipCols ε (Sign.nPar ε (transposedPdm e M)) ((crossedCols e jPo).submatrix id (Fin.cast (Cross.nPar e M))))
        invSigma2 invRho2) alg prior α maxIters tol costs im' (transposed init)).map (fun r => (r.shapes, r.costs)) =
      (ClmRun.uRun (unifiedEnv M (clmEnv M h w offs sample expert c (Shared.jacobian M _) rho2 L) look z jPo invSigma2
        invRho2) alg prior α maxIters tol costs im init).map fun r => (r.shapes.map transposed, r.costs) := by
  have e1 := C139_unified hε hδ (transposedPdm e M) rfl w h offs' sample' expert' c rho2
    (fun i => L (Fin.cast (Cross.active_length M.model) i)) look' (crossedAppearance e (Cross.nPar e M) z) z' hz
    ((crossedCols e jPo).submatrix id (Fin.cast (Cross.nPar e M))) invSigma2 invRho2 alg prior α maxIters tol costs im'
    (transposed init)
  have hu : TurnedUnified transposed (Turned.order (Cross.axes N)) (Cross.mat e _) 1 im im'
      (unifiedEnv M (clmEnv M h w offs sample expert c (Shared.jacobian M _) rho2 L) look z jPo invSigma2 invRho2)
      (recountUnified (Cross.nPar e M) (unifiedEnv (transposedPdm e M) (clmEnv (transposedPdm e M) w h offs' sample' expert'
        c (Shared.jacobian (transposedPdm e M) _) rho2 fun i => L (Fin.cast (Cross.active_length M.model) i)) look'
        (crossedAppearance e (Cross.nPar e M) z) ((crossedCols e jPo).submatrix id (Fin.cast (Cross.nPar e M)))
        invSigma2 invRho2)) := by
    refine ⟨crossed_clm he M h4 hx c rho2 L .meanShift (fun h => nomatch h), by simp, hl, rfl, rfl, ?_, ?_, ?_, fun c => ?_,
      rfl, rfl⟩
    · rw [Matrix.transpose_one, Matrix.mul_one]
      rfl
    · rw [Matrix.one_mul]
      rfl
    · rw [Cross.mul_mat]
      rfl
    · rw [Cross.mul_mat, Matrix.one_mulVec]
      rfl
  have e2 := Turned.unified_run hu alg prior α maxIters tol costs init
  refine (congrArg (Except.map _) e1).trans ?_
  rw [recountUnified_run (Cross.nPar e M), e2]
  generalize ClmRun.uRun (unifiedEnv M (clmEnv M h w offs sample expert c (Shared.jacobian M _) rho2 L) look z jPo
    invSigma2 invRho2) alg prior α maxIters tol costs im init = r
  cases r <;> rfl

/-- Every model, picture and set of experts has an exchanged one, so the hypotheses above can be met. -/
example (h w : Nat) (offs : Fin q → Warp.P 2) (sample : Pic → Warp.P 2 → C) (im : Pic)
    (expert : Fin N → (Fin q → C) → List ℝ) (hf : ∀ i P, (expert i P).length = h * w) (κ : Equiv.Perm (Fin q)) :
    ∃ offs' sample' expert', CrossedExperts h w κ offs offs' sample sample' im im expert expert' := by
  refine ⟨fun o => otherWay (offs (κ o)), fun im x => sample im (otherWay x),
    fun i P => transposedMap h w (expert i fun o => P (κ.symm o)), fun _ => rfl, fun x => ?_, fun i P => ?_, hf⟩
  · congr 1
    ext i
    fin_cases i <;> rfl
  · simp

/-- Experts with a single peak. -/
example : ∀ (i : Fin 3) (P : Fin 4 → ℝ), ∃ y x, PeaksAt 2 2 ((fun _ _ => [0, 1, 0, 0] : Fin 3 → (Fin 4 → ℝ) → List ℝ) i P) y x := by
  intro i P
  refine ⟨0, 1, by omega, by omega, rfl, fun k v hk hne => ⟨1, rfl, ?_⟩⟩
  match k, hk with
  | 0, hk => simp at hk; rw [← hk]; norm_num
  | 1, _ => omega
  | 2, hk => simp at hk; rw [← hk]; norm_num
  | 3, hk => simp at hk; rw [← hk]; norm_num
  | k + 4, hk => simp at hk

end

/-- **C140** (active shape model) is violated when a response map has two equal peaks: the first one in reading order is
taken, and reading order is not the same after the exchange.  This map equals its exchange, and the landmark is on the
diagonal, yet it is not moved along the diagonal. -/
theorem C140_active_shape_violated (c : ℝ) (hc : 0 < c) :
    ∃ response : List ℝ, response.length = 2 * 2 ∧
      Clm.asmTarget 2 2 c ((0, 0) : ℝ × ℝ).swap (transposedMap 2 2 response) ≠
        (Clm.asmTarget 2 2 c (0, 0) response).swap := by
  refine ⟨[0, 1, 1, 0], rfl, fun h => ?_⟩
  have e1 : transposedMap 2 2 [0, 1, 1, 0] = [0, 1, 1, 0] := by
    simp [transposedMap, List.range_succ]
  have hm : Stats.npMax ([0, 1, 1, 0] : List ℝ) = 1 := by simp [Stats.npMax]
  have e2 : Clm.asmPeak 2 2 [0, 1, 1, 0] = (-1, 0) := by
    have ha : Clm.argmax [0, 1, 1, 0] = 1 := by
      unfold Clm.argmax
      rw [hm]
      simp [List.findIdx_cons]
    unfold Clm.asmPeak
    rw [ha]
    rfl
  have e3 : Clm.offsets 2 2 = [(-1, -1), (-1, 0), (0, -1), (0, 0)] := by decide
  rw [e1] at h
  have h1 := congrArg Prod.fst h
  unfold Clm.asmTarget Clm.weightedMean Clm.candidates at h1
  rw [e2, e3] at h1
  simp only [List.map_cons, List.map_nil, List.sum_cons, List.sum_nil, List.zipWith_cons_cons, List.zipWith_nil_left,
    Prod.swap] at h1
  push_cast at h1
  have key : Clm.gauss c (-2, 0) = Clm.gauss c (-1, -1) := by
    have hpos : ∀ v, 0 < Clm.gauss c v := gauss_pos hc
    have ht : 0 < Clm.gauss c (-2, -1) + (Clm.gauss c (-2, 0) + (Clm.gauss c (-1, -1) +
        (Clm.gauss c (-1, 0) + 0))) := by
      have := hpos (-2, -1); have := hpos (-2, 0); have := hpos (-1, -1)
      have := hpos (-1, 0)
      linarith
    generalize Clm.gauss c (-2, -1) = A at h1 ht
    generalize Clm.gauss c (-2, 0) = B at h1 ht ⊢
    generalize Clm.gauss c (-1, -1) = D at h1 ht ⊢
    generalize Clm.gauss c (-1, 0) = E at h1 ht
    have h2 : B / (A + (B + (D + (E + 0)))) = D / (A + (B + (D + (E + 0)))) := by linarith
    exact (div_left_inj' ht.ne').1 h2
  unfold Clm.gauss at key
  have hd : (2 * Real.pi * c) ≠ 0 := by have := Real.pi_pos; positivity
  rw [div_left_inj' hd, Real.exp_eq_exp, div_left_inj' (by positivity)] at key
  norm_num at key

/-! ### Supervised descent -/

section
open Sdm SdmReg Reg Translate

/-- **C140** (supervised descent on shapes).  Training, any number of increments and every later fit with shapes whose
rows and columns are exchanged, and features in an order `τ` of their own, give the exchanged shapes or raise the same
exceptions: for either linear regression, any regularisation, with or without bias. -/
theorem C140_supervised_descent {I : Type} {d N : Nat} (τ : Equiv.Perm (Fin d))
    (feat feat' : I → (Fin (N * 2) → ℝ) → Fin d → ℝ)
    (hf : ∀ im v, feat' im (fun i => v (otherAxis i)) = reorder τ (feat im v))
    (junk : Nat → Fin (N * 2) → ℝ) (n : Nat) (first : Batch I (Fin (N * 2) → ℝ))
    (more : List (Batch I (Fin (N * 2) → ℝ))) :
    (∀ (α : ℝ) (bias inc : Bool),
      SameFits (fun v i => v (otherAxis i)) (trainAndFit (irlOps α bias inc d (N * 2)) feat junk n first more)
        (trainAndFit (irlOps α bias inc d (N * 2)) feat' (fun k i => junk k (otherAxis i)) n
          (first.translate fun v i => v (otherAxis i)) (more.map (Batch.translate fun v i => v (otherAxis i))))) ∧
    ∀ α α2 : ℝ,
      SameFits (fun v i => v (otherAxis i)) (trainAndFit (iirlOps α α2 d (N * 2)) feat junk n first more)
        (trainAndFit (iirlOps α α2 d (N * 2)) feat' (fun k i => junk k (otherAxis i)) n
          (first.translate fun v i => v (otherAxis i)) (more.map (Batch.translate fun v i => v (otherAxis i)))) :=
  C136_supervised_descent τ (Cross.axes N) feat feat' hf junk n first more

theorem sameFits_crossed {V W Row R I : Type} [AddCommGroup W] {ops : RegOps Row W R} {τ : Row → Row} {ν : V → V}
    {ω : W → W} {κ : R → R} (ht : Translates ops τ ω κ) {co co' : Coord V W} (hc : Coords co co' ν ω)
    {feat feat' : I → V → Row} (hf : ∀ im v, feat' im (ν v) = τ (feat im v)) (junk : Nat → W) (n : Nat)
    (first : Batch I V) (more : List (Batch I V)) :
    SameFits ν (trainAndFitParameters ops co feat junk n first more)
      (trainAndFitParameters ops co' feat' (fun k => ω (junk k)) n (first.translate ν) (more.map (Batch.translate ν))) := by
  have h := afterTraining_map ht hc hf junk n first more
  unfold SameFits trainAndFitParameters
  rw [h]
  cases afterTraining ops co feat junk n first more with
  | error e => rfl
  | ok regs =>
    simp only [Except.map]
    congr 1
    funext im s
    exact fitParamShapes_map ht hc hf im regs s

/-- **C140** (supervised descent on the parameters of a shape model).  The parameters of the exchanged shape model have
other signs and the two translations exchanged (`C140_shape_model_operations`); training, increments and fits give the
exchanged shapes or raise the same exceptions. -/
theorem C140_parametric_descent {I V : Type} {d k : Nat} (τ : Equiv.Perm (Fin d)) (ν : V → V) (e : Fin 4 → ℝ) (he : Signs e)
    (co co' : Coord V (Fin (4 + k) → ℝ)) (hp : ∀ v, co'.proj (ν v) = fun i : Fin (4 + k) => simSign e i * co.proj v (simParam i))
    (hi : ∀ w, co'.inst (fun i : Fin (4 + k) => simSign e i * w (simParam i)) = ν (co.inst w))
    (feat feat' : I → V → Fin d → ℝ) (hf : ∀ im v, feat' im (ν v) = reorder τ (feat im v))
    (junk : Nat → Fin (4 + k) → ℝ) (n : Nat) (first : Batch I V) (more : List (Batch I V)) :
    (∀ (α : ℝ) (bias inc : Bool),
      SameFits ν (trainAndFitParameters (irlOps α bias inc d (4 + k)) co feat junk n first more)
        (trainAndFitParameters (irlOps α bias inc d (4 + k)) co' feat' (fun j (i : Fin (4 + k)) => simSign e i * junk j (simParam i)) n
          (first.translate ν) (more.map (Batch.translate ν)))) ∧
    ∀ α α2 : ℝ,
      SameFits ν (trainAndFitParameters (iirlOps α α2 d (4 + k)) co feat junk n first more)
        (trainAndFitParameters (iirlOps α α2 d (4 + k)) co' feat' (fun j (i : Fin (4 + k)) => simSign e i * junk j (simParam i)) n
          (first.translate ν) (more.map (Batch.translate ν))) := by
  have h1 : Signs fun _ : Fin d => (1 : ℝ) := fun _ => Or.inl rfl
  have hr : ∀ v : Fin (4 + k) → ℝ, reorder (1 : Equiv.Perm (Fin (4 + k))) v = v := fun _ => rfl
  have hc : Coords co co' ν ((Cross.mat e k *ᵥ ·) ∘ reorder 1) :=
    ⟨fun v => by simp only [Function.comp, hr, Cross.mat_vec]; exact hp v,
      fun w => by simp only [Function.comp, hr, Cross.mat_vec]; exact hi w,
      fun a b => Matrix.mulVec_add _ _ _, fun a b => Matrix.mulVec_sub _ _ _⟩
  have hf' : ∀ im v, feat' im (ν v) = ((diagonal (fun _ : Fin d => (1 : ℝ)) *ᵥ ·) ∘ reorder τ) (feat im v) := by
    intro im v
    rw [hf]
    simp
  have hj : (fun (j : Nat) (i : Fin (4 + k)) => simSign e i * junk j (simParam i)) =
      fun j => ((Cross.mat e k *ᵥ ·) ∘ reorder 1) (junk j) := by
    funext j
    simp only [Function.comp, hr, Cross.mat_vec]
  rw [hj]
  constructor
  · intro α bias inc
    obtain ⟨T', hb⟩ := Turned.biased_signs bias (Sign.sq h1)
    exact sameFits_crossed (Turned.translates_comp (irlOps_translates α bias inc τ 1)
      (Turned.irlOps_turn α inc hb (Cross.mat e k))) hc hf' junk n first more
  · intro α α2
    exact sameFits_crossed (Turned.translates_comp (iirlOps_translates α α2 τ 1)
      (Turned.iirlOps_turn α α2 (Sign.diag_orth h1) (Cross.mat_orth he))) hc hf' junk n first more

end
end Menpofit
