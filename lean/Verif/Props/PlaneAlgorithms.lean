import Verif.Lemmas.PlaneFits
import Verif.Props.Placement
/-!
# Properties: the algorithms of the package follow the face (C128)
-/

namespace Menpofit
open MI Warp Fitter Plane Spec Result Place

variable {N q : Nat} {C V K : Type}

theorem moved_of_zoomed {u : Fin 2 → ℝ} {im im' : Pic N C} (h : ZoomedImage 1 u im im') :
    MovedPicture (fun (f : P 2 → C) x => f x) u im.px im'.px := by
  intro x
  have := h.pixels x
  rwa [one_smul] at this

/-- **C128**: the algorithms of constrained local models follow the face, with and without a prior,
whatever was done with their shape model before. -/
theorem C128_clm (ortho : Ortho N) (mdl : Pca N 2)
    (h0 : OrthoSpec ortho (similarityComponents mdl.mean) mdl.comps) (M₀ : OPdm N)
    (hn : newOPdm ortho mdl = .ok M₀) (ops : List (PdmOp N 2))
    (ho : ∀ m', .increment m' ∈ ops → OrthoSpec ortho (similarityComponents m'.mean) m'.comps)
    (M : OPdm N) (hM : M = ops.foldl (opdmStep ortho) M₀)
    (h w : Nat) (offs : Fin q → P 2) (expert : Fin N → (Fin q → C) → List ℝ)
    (hx : ∀ i patch, (expert i patch).length = h * w) (c : ℝ) (hc : 0 < c)
    (J : Matrix (Fin (N * 2)) (Fin (nPar M)) ℝ) (rho2 : ℝ) (L : Fin M.model.active.length → ℝ)
    (alg : ClmRun.Alg) (map : Bool) (tol : ℝ) :
    FollowsFace (clmAlgorithm (clmEnv M h w offs (fun (f : P 2 → C) x => f x) expert c J rho2 L) alg map tol :
      Algorithm (Pts N 2) (P 2 → C) (Res (Pts N 2) (List ℝ) K)) := by
  intro u im im' hz s gt n
  obtain ⟨τ, -, ht⟩ := C124_clm ortho mdl h0 M₀ hn ops ho M hM h w offs (fun (f : P 2 → C) x => f x) expert hx c hc J
    rho2 L u
  unfold clmAlgorithm
  rw [ht im.px im'.px (moved_of_zoomed hz) alg map n tol s]
  cases ClmRun.run (clmEnv M h w offs (fun (f : P 2 → C) x => f x) expert c J rho2 L) alg map n tol im.px s with
  | error e => rfl
  | ok tr =>
    simp only [Except.map, bind, Except.bind, movedTrace]
    exact param_sim (movedShape u) tr.shapes _ _ (by simp) (some s) gt none

/-- **C128**: the AAM algorithms with explicit appearance follow the face, without a prior. -/
theorem C128_aam_partial {a m : Nat} {W : Type} (ortho : Ortho N) (mdl : Pca N 2)
    (h0 : OrthoSpec ortho (similarityComponents mdl.mean) mdl.comps) (M₀ : OPdm N)
    (hn : newOPdm ortho mdl = .ok M₀) (ops : List (PdmOp N 2))
    (ho : ∀ m', .increment m' ∈ ops → OrthoSpec ortho (similarityComponents m'.mean) m'.comps)
    (M : OPdm N) (hM : M = ops.foldl (opdmStep ortho) M₀)
    (look : (P 2 → C) → Pts N 2 → Except PyErr W) (hl : FollowsPicture (fun (f : P 2 → C) x => f x) look)
    (z : Appearance (nPar M) a m W) (s2 : ℝ) (L : Fin M.model.active.length → ℝ)
    (alg : Aam.Alg) (inverse : Bool) (tol : ℝ) (costs : Bool) :
    FollowsFace (aamAlgorithm (aamSetup M look z s2 L) alg inverse tol costs) := by
  intro u im im' hz s gt n
  obtain ⟨τ, -, ht⟩ := C124_aam_partial ortho mdl h0 M₀ hn ops ho M hM (fun (f : P 2 → C) x => f x) look hl z s2 L u
  unfold aamAlgorithm
  rw [ht im.px im'.px (moved_of_zoomed hz) alg inverse n tol costs s]
  cases Aam.run (aamSetup M look z s2 L) alg inverse false n tol costs im.px s with
  | error e => rfl
  | ok tr =>
    simp only [Except.map, bind, Except.bind, movedTrace]
    exact param_sim (movedShape u) tr.shapes _ _ (by simp) (some s) gt _

/-- **C128**: non-parametric supervised descent follows the face, with features of the patches around the
landmarks or any others that follow the picture. -/
theorem C128_sdm {Row Reg : Type} (rg : Sdm.RegOps Row (Pts N 2) Reg) (feat : (P 2 → C) → Pts N 2 → Row)
    (hf : FollowsPicture (fun (f : P 2 → C) x => f x) feat) (regs : List Reg) :
    FollowsFace (sdmAlgorithm rg feat regs : Algorithm (Pts N 2) (P 2 → C) (Res (Pts N 2) V K)) := by
  intro u im im' hz s gt n
  unfold sdmAlgorithm fitNonParametric
  have step : ∀ r x, Sdm.fitStep rg (Sdm.plain _) feat im'.px r (movedShape u x) =
      (Sdm.fitStep rg (Sdm.plain _) feat im.px r x).map (movedShape u) := by
    intro r x
    simp only [Sdm.fitStep, hf u im.px im'.px (moved_of_zoomed hz), Sdm.plain, id]
    split
    · simp only [Except.map, movedShape_eq, add_right_comm]
    · rfl
  have casc : ∀ regs x, cascade (Sdm.fitStep rg (Sdm.plain _) feat im'.px) (movedShape u x) regs =
      (cascade (Sdm.fitStep rg (Sdm.plain _) feat im.px) x regs).map (List.map (movedShape u)) := by
    intro regs
    induction regs with
    | nil => intro x; rfl
    | cons r rs ih =>
      intro x
      simp only [cascade, step]
      cases Sdm.fitStep rg (Sdm.plain _) feat im.px r x with
      | error e => rfl
      | ok x' =>
        simp only [Except.map, bind, Except.bind, ih]
        cases cascade (Sdm.fitStep rg (Sdm.plain _) feat im.px) x' rs with
        | error e => rfl
        | ok l => rfl
  rw [casc]
  cases cascade (Sdm.fitStep rg (Sdm.plain _) feat im.px) s regs with
  | error e => rfl
  | ok l =>
    simp only [Except.map, bind, Except.bind]
    exact nonParam_sim (movedShape u) l (some s) gt none

/-- **C128**: the project-out AAM algorithms and the ATM algorithms follow the face, without a prior and
whatever the algorithm object was used for before. -/
theorem C128_project_out_partial {a m : Nat} {W : Type} (ortho : Ortho N) (mdl : Pca N 2)
    (h0 : OrthoSpec ortho (similarityComponents mdl.mean) mdl.comps) (M₀ : OPdm N)
    (hn : newOPdm ortho mdl = .ok M₀) (ops : List (PdmOp N 2))
    (ho : ∀ m', .increment m' ∈ ops → OrthoSpec ortho (similarityComponents m'.mean) m'.comps)
    (M : OPdm N) (hM : M = ops.foldl (opdmStep ortho) M₀)
    (look : (P 2 → C) → Pts N 2 → Except PyErr W) (hl : FollowsPicture (fun (f : P 2 → C) x => f x) look)
    (z : Appearance (nPar M) a m W) (s2 : ℝ) (L : Fin M.model.active.length → ℝ)
    (env : GN.Env (nPar M) m ℝ (Pts N 2) (P 2 → C) W ℝ)
    (henv : env = Aam.projectOutEnv (aamSetup M look z s2 L) ∨ env = atmEnv M look z s2 L)
    (inverse : Bool) (tol : ℝ) (cache : GN.Cache (nPar M) m ℝ) (costs : Bool) :
    FollowsFace (poAlgorithm env inverse tol cache costs) := by
  intro u im im' hz s gt n
  obtain ⟨τ, -, ht⟩ := C124_project_out_partial ortho mdl h0 M₀ hn ops ho M hM (fun (f : P 2 → C) x => f x) look hl z
    s2 L u
  unfold poAlgorithm
  rw [ht im.px im'.px (moved_of_zoomed hz) env henv inverse tol cache n costs s]
  cases (GN.poRun env inverse tol cache ⟨im.px, s, n, costs, false⟩).2 with
  | error e => rfl
  | ok tr =>
    simp only [Except.map, bind, Except.bind, movedTrace]
    exact param_sim (movedShape u) tr.shapes _ _ (by simp) (some s) gt _

/-- **C128**: the unified algorithms follow the face, with and without a prior. -/
theorem C128_unified {a m : Nat} {W : Type} (ortho : Ortho N) (mdl : Pca N 2)
    (h0 : OrthoSpec ortho (similarityComponents mdl.mean) mdl.comps) (M₀ : OPdm N)
    (hn : newOPdm ortho mdl = .ok M₀) (ops : List (PdmOp N 2))
    (ho : ∀ m', .increment m' ∈ ops → OrthoSpec ortho (similarityComponents m'.mean) m'.comps)
    (M : OPdm N) (hM : M = ops.foldl (opdmStep ortho) M₀)
    (h w : Nat) (offs : Fin q → P 2) (expert : Fin N → (Fin q → C) → List ℝ)
    (hx : ∀ i patch, (expert i patch).length = h * w) (c : ℝ) (hc : 0 < c)
    (J : Matrix (Fin (N * 2)) (Fin (nPar M)) ℝ) (L : Fin M.model.active.length → ℝ)
    (look : (P 2 → C) → Pts N 2 → Except PyErr W) (hl : FollowsPicture (fun (f : P 2 → C) x => f x) look)
    (z : Appearance (nPar M) a m W) (jPo : Matrix (Fin m) (Fin (nPar M)) ℝ) (invSigma2 invRho2 : ℝ)
    (alg : ClmRun.UAlg) (prior : Bool) (α tol : ℝ) (costs : Bool) :
    FollowsFace (unifiedAlgorithm (unifiedEnv M (clmEnv M h w offs (fun (f : P 2 → C) x => f x) expert c J 1 L) look z jPo
      invSigma2 invRho2) alg prior α tol costs) := by
  intro u im im' hz s gt n
  obtain ⟨τ, -, ht⟩ := C124_unified ortho mdl h0 M₀ hn ops ho M hM h w offs (fun (f : P 2 → C) x => f x) expert hx c hc J
    L look hl z jPo invSigma2 invRho2 u
  unfold unifiedAlgorithm
  rw [ht im.px im'.px (moved_of_zoomed hz) _ rfl alg prior α n tol costs s]
  cases ClmRun.uRun (unifiedEnv M (clmEnv M h w offs (fun (f : P 2 → C) x => f x) expert c J 1 L) look z jPo
      invSigma2 invRho2) alg prior α n tol costs im.px s with
  | error e => rfl
  | ok tr =>
    simp only [Except.map, bind, Except.bind, movedTrace]
    exact param_sim (movedShape u) tr.shapes _ _ (by simp) (some s) gt _

/-- **C128**: parametric supervised descent and the supervised descent algorithms of AAMs follow the face. -/
theorem C128_sdm_parametric {Row Reg : Type} (ortho : Ortho N) (mdl : Pca N 2)
    (h0 : OrthoSpec ortho (similarityComponents mdl.mean) mdl.comps) (M₀ : OPdm N)
    (hn : newOPdm ortho mdl = .ok M₀) (ops : List (PdmOp N 2))
    (ho : ∀ m', .increment m' ∈ ops → OrthoSpec ortho (similarityComponents m'.mean) m'.comps)
    (M : OPdm N) (hM : M = ops.foldl (opdmStep ortho) M₀)
    (rg : Sdm.RegOps Row (Fin (nPar M) → ℝ) Reg) (feat : (P 2 → C) → Pts N 2 → Row)
    (hf : FollowsPicture (fun (f : P 2 → C) x => f x) feat) (regs : List Reg) :
    FollowsFace (sdmParametricAlgorithm rg ⟨pdmParams M, pdmShape M⟩ feat regs :
      Algorithm (Pts N 2) (P 2 → C) (Res (Pts N 2) (Fin (nPar M) → ℝ) K)) ∧
    FollowsFace (aamSdAlgorithm rg ⟨pdmParams M, pdmShape M⟩ feat regs :
      Algorithm (Pts N 2) (P 2 → C) (Res (Pts N 2) (Fin (nPar M) → ℝ) K)) := by
  have hm : Movable M := by rw [hM]; exact movable_reach ortho mdl h0 hn ops ho
  have casc : ∀ (u : Fin 2 → ℝ) (px px' : P 2 → C), MovedPicture (fun (f : P 2 → C) x => f x) u px px' → ∀ regs p,
      cascade (Sdm.fitParamStep rg ⟨pdmParams M, pdmShape M⟩ feat px') (p + shiftOf M u) regs =
      (cascade (Sdm.fitParamStep rg ⟨pdmParams M, pdmShape M⟩ feat px) p regs).map (List.map (· + shiftOf M u)) := by
    intro u px px' hp regs
    have step : ∀ r p, Sdm.fitParamStep rg ⟨pdmParams M, pdmShape M⟩ feat px' r (p + shiftOf M u) =
        (Sdm.fitParamStep rg ⟨pdmParams M, pdmShape M⟩ feat px r p).map (· + shiftOf M u) := by
      intro r p
      simp only [Sdm.fitParamStep, pdmShape_moved hm u, hf u px px' hp]
      split
      · simp only [Except.map, add_right_comm]
      · rfl
    induction regs with
    | nil => intro x; rfl
    | cons r rs ih =>
      intro x
      simp only [cascade, step]
      cases Sdm.fitParamStep rg ⟨pdmParams M, pdmShape M⟩ feat px r x with
      | error e => rfl
      | ok x' =>
        simp only [Except.map, bind, Except.bind, ih]
        cases cascade (Sdm.fitParamStep rg ⟨pdmParams M, pdmShape M⟩ feat px) x' rs with
        | error e => rfl
        | ok l => rfl
  have shapes : ∀ (u : Fin 2 → ℝ) (l : List (Fin (nPar M) → ℝ)),
      (l.map (· + shiftOf M u)).map (pdmShape M) = (l.map (pdmShape M)).map (movedShape u) := by
    intro u l
    simp only [List.map_map]
    apply List.map_congr_left
    intro v _
    exact pdmShape_moved hm u v
  refine ⟨?_, ?_⟩
  · intro u im im' hz s gt n
    unfold sdmParametricAlgorithm fitParametric
    simp only [pdmParams_moved hm u, casc u im.px im'.px (moved_of_zoomed hz)]
    cases cascade (Sdm.fitParamStep rg ⟨pdmParams M, pdmShape M⟩ feat im.px) (pdmParams M s) regs with
    | error e => rfl
    | ok l =>
      simp only [Except.map, bind, Except.bind, shapes]
      exact param_sim (movedShape u) (l.map (pdmShape M)) _ _ (by simp) (some s) gt _
  · intro u im im' hz s gt n
    unfold aamSdAlgorithm fitAamSd
    simp only [pdmParams_moved hm u, casc u im.px im'.px (moved_of_zoomed hz)]
    cases cascade (Sdm.fitParamStep rg ⟨pdmParams M, pdmShape M⟩ feat im.px) (pdmParams M s) regs with
    | error e => rfl
    | ok l =>
      simp only [Except.map, bind, Except.bind, shapes, pdmShape_moved hm u]
      exact param_sim (movedShape u) (pdmShape M (pdmParams M s) :: l.map (pdmShape M)) _ _ (by simp) (some s) gt _

/-! ### The hypotheses are met -/

/-- A shape model that can be built, experts whose maps have the right size, patches as features of supervised descent
and patches as what an AAM or an ATM reads. -/
example : (∀ (i : Fin 4) (patch : Fin (3 * 5) → ℝ),
    ((fun (_ : Fin 4) (p : Fin (3 * 5) → ℝ) => List.ofFn p) i patch).length = 3 * 5) ∧
    OrthoSpec crossOrtho (similarityComponents Shared.xModel.mean) Shared.xModel.comps ∧
    newOPdm crossOrtho Shared.xModel = .ok (Shared.xAt 1 0) ∧
    FollowsPicture (fun (f : P 2 → ℝ) x => f x)
      (patches (N := 4) (fun o : Fin 2 => if o = 0 then 0 else WithLp.toLp 2 1) fun (f : P 2 → ℝ) x => f x) ∧
    FollowsPicture (fun (f : P 2 → ℝ) x => f x)
      (patchWarp (N := 4) (fun o : Fin 2 => if o = 0 then 0 else WithLp.toLp 2 1) (id : (Fin 4 → Fin 2 → ℝ) → _)
        fun (f : P 2 → ℝ) x => f x) := by
  refine ⟨by simp, Shared.xSpec, Shared.x_new, ?_, ?_⟩
  · exact (C124_warps (W := Unit) ⟨fun _ => 0, fun _ => 0, fun _ => none⟩ (fun o : Fin 2 => 0) _ _ fun _ => ()).2.2
  · exact (C124_warps ⟨fun _ => 0, fun _ => 0, fun _ => none⟩ (fun o : Fin 2 => 0) _ _ id).2.1

end Menpofit
