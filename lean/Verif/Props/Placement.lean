import Verif.Lemmas.PlacementRuns
import Verif.Lemmas.SharedWitness
import Verif.Lemmas.FixedPoint
import Verif.Model.Sdm
/-!
# Properties: where the face is in the picture does not matter (C124)
-/

namespace Menpofit
open MI Matrix Warp ClmRun Spec Optim GN Place

section
variable {N q : Nat} {Pic C : Type}

/-- **C124** (shape models).  Whatever was done with an `OrthoPDM` since its construction: moving a
target by `t` adds a fixed vector to the parameters, which concerns the similarity only and
does not depend on the target; the new target is the old one moved by `t`, and adding the vector to any parameters moves the
shape they stand for by `t`. -/
theorem C124_shape_model (ortho : Ortho N) (m : Pca N 2)
    (h0 : OrthoSpec ortho (similarityComponents m.mean) m.comps) (M₀ : OPdm N)
    (hn : newOPdm ortho m = .ok M₀) (ops : List (PdmOp N 2))
    (ho : ∀ m', .increment m' ∈ ops → OrthoSpec ortho (similarityComponents m'.mean) m'.comps)
    (M : OPdm N) (hM : M = ops.foldl (opdmStep ortho) M₀) (t : Fin 2 → ℝ) :
    ∃ τ : Fin (nPar M) → ℝ, OnlySimilarity τ ∧
      (∀ s, pdmParams M (movedShape t s) = pdmParams M s + τ) ∧
      (∀ s, (oSetTarget M ⟨N, 2, movedShape t s⟩).1.target =
        movedShape t (oSetTarget M ⟨N, 2, s⟩).1.target) ∧
      ∀ v, pdmShape M (v + τ) = movedShape t (pdmShape M v) := by
  have h : Movable M := by rw [hM]; exact movable_reach ortho m h0 hn ops ho
  exact ⟨shiftOf M t, shiftOf_only h t, pdmParams_moved h t, fun s => (set_moved h t s).2.2, pdmShape_moved h t⟩

theorem point_moved (t : Fin 2 → ℝ) (s : Pts N 2) (i : Fin N) :
    point (movedShape t s) i = point s i + WithLp.toLp 2 t := by
  ext j
  match j with
  | 0 => simp [point, movedShape]
  | 1 => simp [point, movedShape]

/-- **C124** (warps).  What a piecewise affine warp onto the shape, or patches around its
landmarks (with any normalisation), show of the picture does not change when picture and shape are moved together. -/
theorem C124_warps {W : Type} (mesh : Pwa N) (pixels offs : Fin q → P 2) (sample : Pic → P 2 → C)
    (normalise : (Fin N → Fin q → C) → W) :
    FollowsPicture sample (pwaWarp mesh pixels sample) ∧
    FollowsPicture sample (patchWarp (N := N) offs normalise sample) ∧
    FollowsPicture sample (patches (N := N) offs sample) := by
  have hp : FollowsPicture sample (patches (N := N) offs sample) := by
    intro t im im' h s
    funext i o
    simp only [patches, point_moved]
    rw [add_right_comm, h]
  refine ⟨?_, ?_, hp⟩
  · intro t im im' h s
    have e : ∀ l, ({ mesh with target := point (movedShape t s) } : Pwa N).apply (pixels l) =
        (({ mesh with target := point s } : Pwa N).apply (pixels l)).map (· + WithLp.toLp 2 t) := by
      intro l
      simp only [Pwa.apply, Option.map_map]
      congr 1
      funext d
      simp only [Function.comp, point_moved]
      module
    unfold pwaWarp
    simp only [e, Option.isSome_map]
    by_cases hc : ∀ l, (({ mesh with target := point s } : Pwa N).apply (pixels l)).isSome
    · rw [if_pos hc, if_pos hc]
      congr 1
      funext l
      obtain ⟨x, hx⟩ := Option.isSome_iff_exists.1 (hc l)
      rw [hx]
      exact h x
    · rw [if_neg hc, if_neg hc]
  · intro t im im' h s
    unfold patchWarp
    rw [hp t im im' h s]

/-- **C124** (digital pictures).  A picture of pixels without borders, sampled with linear
interpolation, moved by a whole number of pixels, is a moved picture. -/
theorem C124_digital (f : Int → Int → ℝ) (a b : Int) :
    MovedPicture bilinear ![(a : ℝ), (b : ℝ)] f fun i j => f (i - a) (j - b) := by
  intro x
  have e0 : (x + WithLp.toLp 2 ![(a : ℝ), (b : ℝ)]) 0 = x 0 + a := by simp
  have e1 : (x + WithLp.toLp 2 ![(a : ℝ), (b : ℝ)]) 1 = x 1 + b := by simp
  simp only [bilinear, e0, e1, Int.floor_add_intCast]
  have h1 : ∀ i : Int, i + a - a = i := by intro i; ring
  have h2 : ∀ i : Int, i + a + 1 - a = i + 1 := by intro i; ring
  have h3 : ∀ i : Int, i + b - b = i := by intro i; ring
  have h4 : ∀ i : Int, i + b + 1 - b = i + 1 := by intro i; ring
  rw [h1, h2, h3, h4]
  push_cast
  ring

/-! ### The algorithms -/

variable {a m : Nat} {W : Type}

/-- **C124** for the AAM algorithms with explicit appearance, forward and inverse, without a prior
(`map_inference` off): the fit of the moved picture from the moved shape is the fit of the picture,
moved, with the same appearance parameters and costs (or the same exception). -/
theorem C124_aam_partial (ortho : Ortho N) (mdl : Pca N 2)
    (h0 : OrthoSpec ortho (similarityComponents mdl.mean) mdl.comps) (M₀ : OPdm N)
    (hn : newOPdm ortho mdl = .ok M₀) (ops : List (PdmOp N 2))
    (ho : ∀ m', .increment m' ∈ ops → OrthoSpec ortho (similarityComponents m'.mean) m'.comps)
    (M : OPdm N) (hM : M = ops.foldl (opdmStep ortho) M₀)
    (sample : Pic → P 2 → C) (look : Pic → Pts N 2 → Except PyErr W) (hl : FollowsPicture sample look)
    (z : Appearance (nPar M) a m W) (s2 : ℝ) (L : Fin M.model.active.length → ℝ) (t : Fin 2 → ℝ) :
    ∃ τ : Fin (nPar M) → ℝ, OnlySimilarity τ ∧
      ∀ im im', MovedPicture sample t im im' →
      ∀ (alg : Aam.Alg) (inverse : Bool) (maxIters : Int) (tol : ℝ) (costs : Bool) (init : Pts N 2),
        Aam.run (aamSetup M look z s2 L) alg inverse false maxIters tol costs im' (movedShape t init) =
          (Aam.run (aamSetup M look z s2 L) alg inverse false maxIters tol costs im init).map
            (movedTrace t fun v => (v.1 + τ, v.2)) := by
  have h : Movable M := by rw [hM]; exact movable_reach ortho mdl h0 hn ops ho
  refine ⟨shiftOf M t, shiftOf_only h t, ?_⟩
  intro im im' hp alg inverse maxIters tol costs init
  refine aam_moved (aamSetup M look z s2 L) (movedShape t) (shiftOf M t) im im' ?_ alg inverse false
    (fun h => by cases h) maxIters tol costs init
  refine ⟨pdmParams_moved h t, pdmShape_moved h t, fun p => ?_, distance_moved t⟩
  show look im' (pdmShape M (p + shiftOf M t)) = look im (pdmShape M p)
  rw [pdmShape_moved h t, hl t im im' hp]

/-- **C124** for the project-out AAM algorithms and the ATM algorithms, forward and inverse,
whatever the algorithm object was used for before (any cache), without a prior. -/
theorem C124_project_out_partial (ortho : Ortho N) (mdl : Pca N 2)
    (h0 : OrthoSpec ortho (similarityComponents mdl.mean) mdl.comps) (M₀ : OPdm N)
    (hn : newOPdm ortho mdl = .ok M₀) (ops : List (PdmOp N 2))
    (ho : ∀ m', .increment m' ∈ ops → OrthoSpec ortho (similarityComponents m'.mean) m'.comps)
    (M : OPdm N) (hM : M = ops.foldl (opdmStep ortho) M₀)
    (sample : Pic → P 2 → C) (look : Pic → Pts N 2 → Except PyErr W) (hl : FollowsPicture sample look)
    (z : Appearance (nPar M) a m W) (s2 : ℝ) (L : Fin M.model.active.length → ℝ) (t : Fin 2 → ℝ) :
    ∃ τ : Fin (nPar M) → ℝ, OnlySimilarity τ ∧
      ∀ im im', MovedPicture sample t im im' →
      ∀ env, env = Aam.projectOutEnv (aamSetup M look z s2 L) ∨ env = atmEnv M look z s2 L →
      ∀ (inverse : Bool) (tol : ℝ) (cache : Cache (nPar M) m ℝ) (maxIters : Int) (costs : Bool)
        (init : Pts N 2),
        (poRun env inverse tol cache ⟨im', movedShape t init, maxIters, costs, false⟩).2 =
          (poRun env inverse tol cache ⟨im, init, maxIters, costs, false⟩).2.map
            (movedTrace t (· + τ)) := by
  have h : Movable M := by rw [hM]; exact movable_reach ortho mdl h0 hn ops ho
  refine ⟨shiftOf M t, shiftOf_only h t, ?_⟩
  intro im im' hp env henv inverse tol cache maxIters costs init
  refine po_moved env (movedShape t) (shiftOf M t) inverse tol cache
    ⟨im, init, maxIters, costs, false⟩ ⟨im', movedShape t init, maxIters, costs, false⟩ ?_ rfl
    (fun h => by cases h)
  have hw : ∀ p, look im' (pdmShape M (p + shiftOf M t)) = look im (pdmShape M p) := by
    intro p; rw [pdmShape_moved h t, hl t im im' hp]
  rcases henv with rfl | rfl
  · exact ⟨pdmParams_moved h t, pdmShape_moved h t, hw, distance_moved t⟩
  · exact ⟨pdmParams_moved h t, pdmShape_moved h t, hw, distance_moved t⟩

theorem clm_corresponds {M : OPdm N} (h : Movable M) (hh w : Nat) (offs : Fin q → P 2)
    (sample : Pic → P 2 → C) (expert : Fin N → (Fin q → C) → List ℝ)
    (hx : ∀ i patch, (expert i patch).length = hh * w) (c : ℝ) (hc : 0 < c)
    (J : Matrix (Fin (N * 2)) (Fin (nPar M)) ℝ) (rho2 : ℝ) (L : Fin M.model.active.length → ℝ)
    (t : Fin 2 → ℝ) (im im' : Pic) (hp : MovedPicture sample t im im') :
    ClmCorresponds (clmEnv M hh w offs sample expert c J rho2 L) t (shiftOf M t) im im' := by
  have hpat : ∀ s : Pts N 2, patches offs sample im' (movedShape t s) = patches offs sample im s :=
    (C124_warps (W := Unit) ⟨fun _ => 0, fun _ => 0, fun _ => none⟩ offs offs sample fun _ => ()).2.2 t im im' hp
  refine ⟨pdmParams_moved h t, pdmShape_moved h t, ?_, ?_, hc, ?_⟩
  · intro s
    show respond hh w offs sample expert im' (movedShape t s) = respond hh w offs sample expert im s
    unfold respond
    rw [hpat]
  · intro s r hr i
    change respond hh w offs sample expert im s = .ok r at hr
    unfold respond at hr
    cases ho : Clm.probabilityMap hh w (List.ofFn fun i => expert i (patches offs sample im s i)) with
    | error e => rw [ho] at hr; cases hr
    | ok out =>
      rw [ho] at hr
      injection hr with hr
      obtain ⟨h1, h2⟩ := probMap_ok (fun m hm => by
        obtain ⟨i, rfl⟩ := List.mem_ofFn' .. |>.1 hm
        exact hx _ _) ho
      rw [← hr]
      simp only
      have hi : i.val < out.length := by rw [h1]; simp
      rw [List.getD_eq_getElem _ _ hi]
      exact h2 _ (List.getElem_mem hi)
  · funext i
    show clmPrior rho2 L i * shiftOf M t i = 0
    by_cases hi : i.val < 4
    · have : clmPrior rho2 L i = 0 := by
        have e : i = Fin.castAdd _ ⟨i.val, hi⟩ := rfl
        rw [e, clmPrior, Fin.append_left]
      rw [this, zero_mul]
    · rw [shiftOf_only h t i (by omega), mul_zero]

/-- **C124** for the constrained local models (active shape model and regularised landmark
mean-shift), with and without a prior: their prior does not concern the similarity. -/
theorem C124_clm (ortho : Ortho N) (mdl : Pca N 2)
    (h0 : OrthoSpec ortho (similarityComponents mdl.mean) mdl.comps) (M₀ : OPdm N)
    (hn : newOPdm ortho mdl = .ok M₀) (ops : List (PdmOp N 2))
    (ho : ∀ m', .increment m' ∈ ops → OrthoSpec ortho (similarityComponents m'.mean) m'.comps)
    (M : OPdm N) (hM : M = ops.foldl (opdmStep ortho) M₀)
    (h w : Nat) (offs : Fin q → P 2) (sample : Pic → P 2 → C) (expert : Fin N → (Fin q → C) → List ℝ)
    (hx : ∀ i patch, (expert i patch).length = h * w) (c : ℝ) (hc : 0 < c)
    (J : Matrix (Fin (N * 2)) (Fin (nPar M)) ℝ) (rho2 : ℝ) (L : Fin M.model.active.length → ℝ)
    (t : Fin 2 → ℝ) :
    ∃ τ : Fin (nPar M) → ℝ, OnlySimilarity τ ∧
      ∀ im im', MovedPicture sample t im im' →
      ∀ (alg : ClmRun.Alg) (map : Bool) (maxIters : Int) (tol : ℝ) (init : Pts N 2),
        ClmRun.run (clmEnv M h w offs sample expert c J rho2 L) alg map maxIters tol im' (movedShape t init) =
          (ClmRun.run (clmEnv M h w offs sample expert c J rho2 L) alg map maxIters tol im init).map
            (movedTrace t (· + τ)) := by
  have hm : Movable M := by rw [hM]; exact movable_reach ortho mdl h0 hn ops ho
  exact ⟨shiftOf M t, shiftOf_only hm t, fun im im' hp alg map maxIters tol init =>
    clm_moved (clm_corresponds hm h w offs sample expert hx c hc J rho2 L t im im' hp) alg map maxIters tol init⟩

/-- **C124** for the unified algorithms, with and without a prior. -/
theorem C124_unified (ortho : Ortho N) (mdl : Pca N 2)
    (h0 : OrthoSpec ortho (similarityComponents mdl.mean) mdl.comps) (M₀ : OPdm N)
    (hn : newOPdm ortho mdl = .ok M₀) (ops : List (PdmOp N 2))
    (ho : ∀ m', .increment m' ∈ ops → OrthoSpec ortho (similarityComponents m'.mean) m'.comps)
    (M : OPdm N) (hM : M = ops.foldl (opdmStep ortho) M₀)
    (h w : Nat) (offs : Fin q → P 2) (sample : Pic → P 2 → C) (expert : Fin N → (Fin q → C) → List ℝ)
    (hx : ∀ i patch, (expert i patch).length = h * w) (c : ℝ) (hc : 0 < c)
    (J : Matrix (Fin (N * 2)) (Fin (nPar M)) ℝ) (L : Fin M.model.active.length → ℝ)
    (look : Pic → Pts N 2 → Except PyErr W) (hl : FollowsPicture sample look)
    (z : Appearance (nPar M) a m W) (jPo : Matrix (Fin m) (Fin (nPar M)) ℝ) (invSigma2 invRho2 : ℝ)
    (t : Fin 2 → ℝ) :
    ∃ τ : Fin (nPar M) → ℝ, OnlySimilarity τ ∧
      ∀ im im', MovedPicture sample t im im' →
      ∀ env, env = unifiedEnv M (clmEnv M h w offs sample expert c J 1 L) look z jPo invSigma2 invRho2 →
      ∀ (alg : ClmRun.UAlg) (prior : Bool) (α : ℝ) (maxIters : Int) (tol : ℝ) (costs : Bool) (init : Pts N 2),
        ClmRun.uRun env alg prior α maxIters tol costs im' (movedShape t init) =
          (ClmRun.uRun env alg prior α maxIters tol costs im init).map
            (movedTrace t fun v => (v.1 + τ, v.2)) := by
  have hm : Movable M := by rw [hM]; exact movable_reach ortho mdl h0 hn ops ho
  refine ⟨shiftOf M t, shiftOf_only hm t, ?_⟩
  intro im im' hp env henv alg prior α maxIters tol costs init
  subst henv
  have hc' := clm_corresponds hm h w offs sample expert hx c hc J 1 L t im im' hp
  refine unified_moved ?_ ?_ alg prior α maxIters tol costs init
  · exact ⟨hc'.1, hc'.2, hc'.3, hc'.4, hc'.5, hc'.6⟩
  · intro s; exact hl t im im' hp s

/-- **C124** for supervised descent: non-parametric regression of shapes, and regression of the
parameters of an `OrthoPDM`. -/
theorem C124_sdm {Row Reg : Type} (ortho : Ortho N) (mdl : Pca N 2)
    (h0 : OrthoSpec ortho (similarityComponents mdl.mean) mdl.comps) (M₀ : OPdm N)
    (hn : newOPdm ortho mdl = .ok M₀) (ops : List (PdmOp N 2))
    (ho : ∀ m', .increment m' ∈ ops → OrthoSpec ortho (similarityComponents m'.mean) m'.comps)
    (M : OPdm N) (hM : M = ops.foldl (opdmStep ortho) M₀)
    (sample : Pic → P 2 → C) (feat : Pic → Pts N 2 → Row) (hf : FollowsPicture sample feat)
    (t : Fin 2 → ℝ) (im im' : Pic) (hp : MovedPicture sample t im im') (init : Pts N 2) :
    (∀ (rg : Sdm.RegOps Row (Pts N 2) Reg) (regs : List Reg),
      Sdm.fitShapes rg feat im' regs (movedShape t init) =
        (Sdm.fitShapes rg feat im regs init).map (List.map (movedShape t))) ∧
    (∀ (rg : Sdm.RegOps Row (Fin (nPar M) → ℝ) Reg) (regs : List Reg),
      Sdm.fitParamShapes rg ⟨pdmParams M, pdmShape M⟩ feat im' regs (movedShape t init) =
        (Sdm.fitParamShapes rg ⟨pdmParams M, pdmShape M⟩ feat im regs init).map
          (List.map (movedShape t))) := by
  have hm : Movable M := by rw [hM]; exact movable_reach ortho mdl h0 hn ops ho
  have casc : ∀ {X R : Type} (f : X → X) (st st' : R → X → Except PyErr X),
      (∀ r x, st' r (f x) = (st r x).map f) → ∀ regs x,
      Result.cascade st' (f x) regs = (Result.cascade st x regs).map (List.map f) := by
    intro X R f st st' h regs
    induction regs with
    | nil => intro x; rfl
    | cons r rs ih =>
      intro x
      simp only [Result.cascade, h]
      cases st r x with
      | error e => rfl
      | ok x' =>
        simp only [Except.map, bind, Except.bind, ih]
        cases Result.cascade st x' rs with
        | error e => rfl
        | ok l => rfl
  constructor
  · intro rg regs
    unfold Sdm.fitShapes
    apply casc
    intro r x
    simp only [Sdm.fitStep, hf t im im' hp, Sdm.plain, id]
    split
    · simp only [Except.map, movedShape_eq, add_right_comm]
    · rfl
  · intro rg regs
    unfold Sdm.fitParamShapes
    simp only [pdmParams_moved hm t]
    rw [casc (· + shiftOf M t) (Sdm.fitParamStep rg ⟨pdmParams M, pdmShape M⟩ feat im)]
    · cases Result.cascade (Sdm.fitParamStep rg ⟨pdmParams M, pdmShape M⟩ feat im) (pdmParams M init) regs with
      | error e => rfl
      | ok l =>
        simp only [Except.map, bind, Except.bind, pure, Except.pure, List.map_map]
        congr 1
        apply List.map_congr_left
        intro v _
        exact pdmShape_moved hm t v
    · intro r x
      simp only [Sdm.fitParamStep, pdmShape_moved hm t, hf t im im' hp]
      split
      · simp only [Except.map, add_right_comm]
      · rfl

/-! ### With a prior -/

theorem shiftOf_ne {M : OPdm N} (h : Movable M) {t : Fin 2 → ℝ} (ht : t ≠ 0) : shiftOf M t ≠ 0 := by
  intro h0
  apply ht
  have h1 : M.simComps.map (fun c => c ⬝ᵥ trans N t) = List.replicate 4 (0 : ℝ) := by
    apply List.ext_getElem
    · simp [h.four]
    · intro i hi hi'
      have h4 : i < 4 := by simpa using hi'
      have := congrFun h0 ⟨i, by show i < 4 + _; omega⟩
      simp only [shiftOf, Pi.zero_apply] at this
      rw [List.getD_eq_getElem _ _ hi] at this
      rw [this, List.getElem_replicate]
  have h2 := combine_span h.orth (h.span t)
  rw [h1, combine_zero] at h2
  funext j
  have := congrFun h2 (⟨0, movable_pos h⟩, j)
  exact this.symm

/-- **C124** fails with `map_inference` for the project-out AAM and the ATM algorithms: their prior pulls
the position of the face towards that of the mean shape.  For every shape model and every
non-zero vector: if the initial shape has zero parameters and shows exactly what the
appearance model (template) expects, then fitting the moved picture from the moved shape never gives the
moved result. -/
theorem C124_prior_violated (ortho : Ortho N) (mdl : Pca N 2)
    (h0 : OrthoSpec ortho (similarityComponents mdl.mean) mdl.comps) (M₀ : OPdm N)
    (hn : newOPdm ortho mdl = .ok M₀) (ops : List (PdmOp N 2))
    (ho : ∀ m', .increment m' ∈ ops → OrthoSpec ortho (similarityComponents m'.mean) m'.comps)
    (M : OPdm N) (hM : M = ops.foldl (opdmStep ortho) M₀)
    (sample : Pic → P 2 → C) (look : Pic → Pts N 2 → Except PyErr W) (hl : FollowsPicture sample look)
    (z : Appearance (nPar M) a m W) (s2 : ℝ) (L : Fin M.model.active.length → ℝ)
    (t : Fin 2 → ℝ) (ht : t ≠ 0) (im im' : Pic) (hp : MovedPicture sample t im im')
    (env : GN.Env (nPar M) m ℝ (Pts N 2) Pic W ℝ)
    (henv : env = Aam.projectOutEnv (aamSetup M look z s2 L) ∨ env = atmEnv M look z s2 L)
    (hQ : env.Qᵀ = env.Q) (inverse : Bool) (tol : ℝ) (cache : Cache (nPar M) m ℝ)
    (J₀ : Matrix (Fin m) (Fin (nPar M)) ℝ) (hcache : cache.QJ = env.Q * J₀)
    (maxIters : Int) (hmax : 0 < maxIters) (costs : Bool) (init : Pts N 2)
    (hinit : pdmParams M init = 0) (i : W) (hi : look im (pdmShape M 0) = .ok i)
    (hperfect : env.Q *ᵥ (z.mask i - z.aBar) = 0)
    (r' : Trace (Pts N 2) (Fin (nPar M) → ℝ) ℝ)
    (hr' : (poRun env inverse tol cache ⟨im', movedShape t init, maxIters, costs, true⟩).2 = .ok r') :
    ∀ r, (poRun env inverse tol cache ⟨im, init, maxIters, costs, true⟩).2 = .ok r →
      ∀ τ : Fin (nPar M) → ℝ, r' ≠ movedTrace t (· + τ) r := by
  have hmv : Movable M := by rw [hM]; exact movable_reach ortho mdl h0 hn ops ho
  have f1 : env.setTarget = pdmParams M := by rcases henv with rfl | rfl <;> rfl
  have f3 : ∀ im p, env.warp im p = look im (pdmShape M p) := by rcases henv with rfl | rfl <;> exact fun _ _ => rfl
  have f4 : env.mask = z.mask := by rcases henv with rfl | rfl <;> rfl
  have f5 : env.aBar = z.aBar := by rcases henv with rfl | rfl <;> rfl
  have f6 : env.prior = aamPrior s2 L := by rcases henv with rfl | rfl <;> rfl
  have hproj : ∀ J : Matrix (Fin m) (Fin (nPar M)) ℝ, (env.Q * J)ᵀ *ᵥ (env.mask i - env.aBar) = 0 := by
    intro J
    rw [transpose_mul, hQ, ← mulVec_mulVec, f4, f5, hperfect, mulVec_zero]
  -- the first iteration from parameters where the appearance is perfect
  have first : ∀ (pic : Pic) (s : Pts N 2) (r : Trace (Pts N 2) (Fin (nPar M) → ℝ) ℝ),
      look pic (pdmShape M (pdmParams M s)) = .ok i →
      (poRun env inverse tol cache ⟨pic, s, maxIters, costs, true⟩).2 = .ok r →
      r.params[0]? = some (pdmParams M s) ∧
      ∃ (d : Fin (nPar M) → ℝ) (H : Matrix (Fin (nPar M)) (Fin (nPar M)) ℝ), H.det ≠ 0 ∧
        H *ᵥ d = -(env.prior * pdmParams M s) ∧
        r.params[1]? = some (if inverse then pdmParams M s - d else pdmParams M s + d) := by
    intro pic s r hlook hr
    have hrun : (poRun env inverse tol cache ⟨pic, s, maxIters, costs, true⟩).2 =
        (Optim.run (poMachine env inverse true pic) false maxIters tol costs ⟨cache, pdmParams M s, i⟩).2 := by
      unfold poRun
      simp only [f1, f3, hlook]
    rw [hrun] at hr
    have hzero : r.params[0]? = some (pdmParams M s) := by
      obtain ⟨K, st, mv, h0, -, -, -, -, -, -, -, hpar, -⟩ := loop_spec _ false maxIters tol _ 0 none _
        (Optim.run (poMachine env inverse true pic) false maxIters tol costs ⟨cache, pdmParams M s, i⟩).1 _ r rfl
        (Prod.ext rfl hr)
      rw [hpar]; rfl
    obtain ⟨s', eps, hstep, hpar⟩ := run_second _ _ _ _ _ _ hmax hr
    refine ⟨hzero, ?_⟩
    have nz : ∀ (H : Matrix (Fin (nPar M)) (Fin (nPar M)) ℝ) (J : Matrix (Fin m) (Fin (nPar M)) ℝ)
        (d : Fin (nPar M) → ℝ), Jᵀ *ᵥ (env.mask i - env.aBar) = 0 →
        (solveShapeMap H J (env.mask i - env.aBar) env.prior (pdmParams M s)).2 = .ok d →
        ∃ H' : Matrix (Fin (nPar M)) (Fin (nPar M)) ℝ, H'.det ≠ 0 ∧ H' *ᵥ d = -(env.prior * pdmParams M s) := by
      intro H J d hJ hd
      have h2 := solveShapeMap_ok hd
      unfold mapStep at h2
      simp only [npSolve] at h2
      split at h2
      · cases h2
      · next hdet =>
        injection h2 with h2
        refine ⟨_, hdet, ?_⟩
        rw [← h2, hJ, add_zero, mulVec_neg, mulVec_mulVec,
          Matrix.mul_nonsing_inv _ (isUnit_iff_ne_zero.mpr hdet), one_mulVec]
    simp only [poMachine, poStep] at hstep
    cases inverse with
    | true =>
      simp only [if_true, solveInverse] at hstep
      cases hd : (solveShapeMap cache.JQJ cache.QJ (env.mask i - env.aBar) env.prior (pdmParams M s)).2 with
      | error e => simp only [hd] at hstep; cases hstep
      | ok d =>
        simp only [hd] at hstep
        obtain ⟨H, h1, h2⟩ := nz _ _ d (by rw [hcache, hproj]) hd
        refine ⟨d, H, h1, h2, ?_⟩
        rw [hpar]
        split at hstep
        · cases hstep
        · injection hstep with hstep
          rw [← hstep]; rfl
    | false =>
      simp only [Bool.false_eq_true, if_false, solveForward, if_true] at hstep
      cases hd : (solveShapeMap ((env.Q * env.jac i)ᵀ * env.jac i) (env.Q * env.jac i)
          (env.mask i - env.aBar) env.prior (pdmParams M s)).2 with
      | error e => simp only [hd] at hstep; cases hstep
      | ok d =>
        simp only [hd] at hstep
        obtain ⟨H, h1, h2⟩ := nz _ _ d (hproj _) hd
        refine ⟨d, H, h1, h2, ?_⟩
        rw [hpar]
        split at hstep
        · cases hstep
        · injection hstep with hstep
          rw [← hstep]; rfl
  intro r hr τ hτ
  obtain ⟨a0, d, H, hd, hH, a1⟩ := first im init r (by rw [hinit]; exact hi) hr
  have hlook' : look im' (pdmShape M (pdmParams M (movedShape t init))) = .ok i := by
    rw [pdmParams_moved hmv, pdmShape_moved hmv, hl t im im' hp, hinit]; exact hi
  obtain ⟨b0, d', H', hd', hH', b1⟩ := first im' (movedShape t init) r' hlook' hr'
  have dz : d = 0 := by
    rw [hinit, mul_zero, neg_zero] at hH
    by_contra hne
    exact hd (exists_mulVec_eq_zero_iff.mp ⟨d, hne, hH⟩)
  rw [hτ] at b0 b1
  simp only [movedTrace, List.getElem?_map, a0, a1, Option.map_some, Option.some.injEq, hinit, dz] at b0 b1
  have hd0 : d' = 0 := by
    rw [← b0] at b1
    cases inverse with
    | true =>
      simp only [if_true, sub_zero, zero_add] at b1
      exact (sub_eq_self.mp b1.symm)
    | false =>
      simp only [Bool.false_eq_true, if_false, add_zero, zero_add] at b1
      exact (left_eq_add.mp b1)
  rw [hd0, mulVec_zero, pdmParams_moved hmv, hinit, zero_add] at hH'
  apply shiftOf_ne hmv ht
  funext k
  have h3 := congrFun hH' k
  simp only [Pi.zero_apply, Pi.neg_apply, Pi.mul_apply, f6] at h3
  by_cases hk : k.val < 4
  · have e : aamPrior s2 L k = 1 := by
      have e : k = Fin.castAdd _ ⟨k.val, hk⟩ := rfl
      rw [e, aamPrior, Fin.append_left]
    rw [e, one_mul] at h3
    simpa using h3.symm
  · exact shiftOf_only hmv t k (by omega)

end

/-! ### The hypotheses are met -/

/-- The shape model of a cross with two components, and what was done with it: nothing. -/
example : OrthoSpec crossOrtho (similarityComponents Shared.xModel.mean) Shared.xModel.comps ∧
    newOPdm crossOrtho Shared.xModel = .ok (Shared.xAt 1 0) ∧ nPar (Shared.xAt 1 0) = 6 :=
  ⟨Shared.xSpec, Shared.x_new, rfl⟩

/-- A continuous picture moved by any vector. -/
example (f : P 2 → ℝ) (t : Fin 2 → ℝ) :
    MovedPicture (fun (f : P 2 → ℝ) x => f x) t f fun x => f (x - WithLp.toLp 2 t) := by
  intro x; simp

/-- Experts whose maps have the right size: the patch itself, read row by row. -/
example (i : Fin 4) (patch : Fin (3 * 5) → ℝ) :
    ((fun (_ : Fin 4) (p : Fin (3 * 5) → ℝ) => List.ofFn p) i patch).length = 3 * 5 := by simp

theorem cross_params : pdmParams (Shared.xAt 1 0) MI.cross = 0 := by
  have h1 : oSetTarget (Shared.xAt 1 0) ⟨4, 2, MI.cross⟩ = (Shared.xAt 1 0, .ok ()) := by
    have := Shared.x_setTarget one_ne_zero 1 0
    rwa [one_smul] at this
  funext i
  simp only [pdmParams, h1]
  have : oAsVector (Shared.xAt 1 0) = List.replicate 6 0 := by
    simp [oAsVector, Shared.xAt, List.replicate]
  rw [this]
  have hi : i.val < 6 := i.isLt
  rw [List.getD_eq_getElem _ _ (by simpa using hi), List.getElem_replicate]
  rfl

/-- A template of six features: the picture at the landmarks of the cross (two of them twice). -/
noncomputable def crossTemplate (f : P 2 → ℝ) :
    Appearance (nPar (Shared.xAt 1 0)) 1 6 (Fin 4 → Fin 1 → ℝ) where
  mask w := fun l => w (Fin.ofNat 4 l.val) 0
  jacI _ := (1 : Matrix (Fin 6) (Fin 6) ℝ)
  jacA _ := (1 : Matrix (Fin 6) (Fin 6) ℝ)
  aBar := fun l => f (point (pdmShape (Shared.xAt 1 0) 0) (Fin.ofNat 4 l.val))
  A := 0
  pinvA := 0
  priorA := 1

/-- One iteration of an inverse algorithm with a prior returns if nothing raises. -/
theorem one_map_iteration {n m : Nat} {Im W : Type} {S : Type} (hn : n ≤ 256) (env : GN.Env n m ℝ S Im W ℝ)
    (hw : ∀ im p, ∃ i, env.warp im p = .ok i) (cache : Cache n m ℝ)
    (hdet : (cache.JQJ + diagonal env.prior).det ≠ 0) (im : Im) (init : S) :
    ∃ r', (poRun env true 0 cache ⟨im, init, 1, false, true⟩).2 = .ok r' := by
  obtain ⟨i, hi⟩ := hw im (env.setTarget init)
  unfold poRun
  simp only [hi]
  unfold Optim.run
  rw [loop_unfold, if_pos ⟨by norm_num, trivial⟩]
  simp only [poMachine, poStep, solveInverse, if_true]
  rw [solveShapeMap_same hn]
  simp only [mapStep, npSolve, if_neg hdet, Except.map]
  generalize (_ : Fin n → ℝ) - _ = p'
  obtain ⟨j, hj⟩ := hw im p'
  simp only [hj]
  rw [loop_unfold, if_neg (by norm_num)]
  exact ⟨_, rfl⟩

/-- The hypotheses of `C124_prior_violated` are met by this template, for every continuous
picture and every vector: the run from the moved cross in the moved picture returns. -/
example (f : P 2 → ℝ) (t : Fin 2 → ℝ) :
    let sample := fun (f : P 2 → ℝ) x => f x
    let look := patchWarp (N := 4) (fun _ : Fin 1 => 0) id sample
    let env := atmEnv (Shared.xAt 1 0) look (crossTemplate f) 1 1
    let cache : Cache (nPar (Shared.xAt 1 0)) 6 ℝ := ⟨(1 : Matrix (Fin 6) (Fin 6) ℝ), (1 : Matrix (Fin 6) (Fin 6) ℝ),
      (1 : Matrix (Fin 6) (Fin 6) ℝ)⟩
    FollowsPicture sample look ∧ env.Qᵀ = env.Q ∧ cache.QJ = env.Q * (1 : Matrix (Fin 6) (Fin 6) ℝ) ∧
    pdmParams (Shared.xAt 1 0) MI.cross = 0 ∧
    (∃ i, look f (pdmShape (Shared.xAt 1 0) 0) = .ok i ∧
      env.Q *ᵥ ((crossTemplate f).mask i - (crossTemplate f).aBar) = 0) ∧
    ∃ r', (poRun env true 0 cache
      ⟨fun x => f (x - WithLp.toLp 2 t), movedShape t MI.cross, 1, false, true⟩).2 = .ok r' := by
  intro sample look env cache
  refine ⟨(C124_warps ⟨fun _ => 0, fun _ => 0, fun _ => none⟩ (fun _ => 0) (fun _ : Fin 1 => 0) sample id).2.1,
    transpose_one, (Matrix.one_mul _).symm, cross_params, ⟨_, rfl, ?_⟩, ?_⟩
  · have : (crossTemplate f).mask (id (patches (fun _ : Fin 1 => (0 : P 2)) sample f
        (pdmShape (Shared.xAt 1 0) 0))) = (crossTemplate f).aBar := by
      funext l
      simp [crossTemplate, patches, sample]
    rw [this, sub_self, mulVec_zero]
  · have hprior : env.prior = 1 := by
      funext k
      show aamPrior 1 1 k = 1
      refine Fin.addCases (fun i => ?_) (fun i => ?_) k
      · rw [aamPrior, Fin.append_left]
      · rw [aamPrior, Fin.append_right]; simp
    refine one_map_iteration (by show 6 ≤ 256; norm_num) env (fun im p => ⟨_, rfl⟩) cache ?_ _ _
    rw [hprior]
    have : cache.JQJ + diagonal (1 : Fin (nPar (Shared.xAt 1 0)) → ℝ) = diagonal fun _ => (2 : ℝ) := by
      show (1 : Matrix (Fin 6) (Fin 6) ℝ) + diagonal (1 : Fin 6 → ℝ) = diagonal fun _ => (2 : ℝ)
      rw [← diagonal_one, diagonal_add]
      congr 1
      funext i
      norm_num
    rw [this, det_diagonal]
    exact Finset.prod_ne_zero_iff.2 fun i _ => two_ne_zero

end Menpofit
