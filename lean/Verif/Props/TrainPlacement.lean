import Verif.Lemmas.SdmStart
import Verif.Lemmas.SharedWitness
/-!
# Properties: where the faces are in their training pictures does not matter to training (C129)
-/

namespace Menpofit
open MI Spec Place Noise

variable {N : Nat} {Pic C Row Reg : Type}

/-- **C129**.  Training and incrementing the regressors of one scale of a supervised descent method,
with every training picture, its ground truth and the shapes training starts from moved by a vector of
its own: training raises the same exception or returns the same regressors, and in every
stage of the cascade the features, the regressed differences and the predictions are the same and
all shapes of a picture are moved by its vector.  For non-parametric and parametric shapes, all regressors and
all features that follow the picture. -/
theorem C129_training (ortho : Ortho N) (mdl : Pca N 2)
    (h0 : OrthoSpec ortho (similarityComponents mdl.mean) mdl.comps) (M₀ : OPdm N)
    (hn : newOPdm ortho mdl = .ok M₀) (ops : List (PdmOp N 2))
    (ho : ∀ m', .increment m' ∈ ops → OrthoSpec ortho (similarityComponents m'.mean) m'.comps)
    (M : OPdm N) (hM : M = ops.foldl (opdmStep ortho) M₀)
    (sample : Pic → Warp.P 2 → C) (feat : Pic → Pts N 2 → Row) (hf : FollowsPicture sample feat)
    (nIterations : Nat) (increment : Bool) (regs : List Reg)
    (S : List (MovedSample N Pic)) (hS : ∀ x ∈ S, MovedPicture sample x.vec x.picture x.moved) :
    (∀ (rg : Sdm.RegOps Row (Pts N 2) Reg) (junk : Nat → Pts N 2),
      Sdm.train rg (Sdm.plain _) feat junk nIterations increment regs (S.map (·.moved))
          (S.map fun x => movedShape x.vec x.gt) (S.map fun x => x.shapes.map (movedShape x.vec)) =
        (Sdm.train rg (Sdm.plain _) feat junk nIterations increment regs (S.map (·.picture)) (S.map (·.gt))
          (S.map (·.shapes))).map (movedTraining (S.map (·.vec)))) ∧
    (∀ (rg : Sdm.RegOps Row (Fin (nPar M) → ℝ) Reg) (junk : Nat → Fin (nPar M) → ℝ),
      Sdm.train rg ⟨pdmParams M, pdmShape M⟩ feat junk nIterations increment regs (S.map (·.moved))
          (S.map fun x => movedShape x.vec x.gt) (S.map fun x => x.shapes.map (movedShape x.vec)) =
        (Sdm.train rg ⟨pdmParams M, pdmShape M⟩ feat junk nIterations increment regs (S.map (·.picture))
          (S.map (·.gt)) (S.map (·.shapes))).map (movedTraining (S.map (·.vec)))) := by
  have h : Movable M := by rw [hM]; exact movable_reach ortho mdl h0 hn ops ho
  refine ⟨fun rg junk => ?_, fun rg junk => ?_⟩
  · exact Sdm.train_moved rg (τ := fun t => Place.trans N t) ⟨fun t s => rfl, fun t w => rfl⟩ hf junk nIterations
      increment regs S hS
  · exact Sdm.train_moved rg (τ := shiftOf M) ⟨fun t s => pdmParams_moved h t s, fun t w => pdmShape_moved h t w⟩ hf
      junk nIterations increment regs S hS

/-! ### The shapes training starts from -/

/-- **C129**: perturbations of a ground truth follow the face.  With the same random draws, the noisy shape of
a shape and a box moved by `t` is the noisy shape, moved by `t`; so are the shapes training starts
from. -/
theorem C129_starting_shapes (kind : String) (percentage : Percentage) (rotation : Bool) (d : Draws)
    (t : Fin 2 → ℝ) :
    (∀ (shape : Pts N 2) (bb : Pts 4 2),
      noisyShapeFromBoundingBox (movedShape t shape) (movedShape t bb) kind percentage rotation d =
        (noisyShapeFromBoundingBox shape bb kind percentage rotation d).map (movedShape t)) ∧
    (∀ reference gt : Pts N 2,
      Sdm.startShape reference (movedShape t gt) kind percentage rotation d =
        (Sdm.startShape reference gt kind percentage rotation d).map (movedShape t)) :=
  ⟨fun shape bb => noisyShape_moved shape bb kind percentage rotation d t,
    fun reference gt => Sdm.startShape_moved reference gt kind percentage rotation d t⟩

/-- A training picture, its copy moved by a vector, the ground truth and the draws of its perturbations. -/
structure MovedImage (N : Nat) (Pic : Type) where
  picture : Pic
  moved : Pic
  vec : Fin 2 → ℝ
  gt : Pts N 2
  draws : List Draws

theorem mapM_starts (reference : Pts N 2) (kind : String) (pct : Percentage) (rot : Bool) :
    ∀ S : List (MovedImage N Pic),
      (∃ e, (S.map fun x => (⟨x.picture, x.gt, x.draws⟩ : Sdm.TrainImage Pic N)).mapM
          (fun x => x.draws.mapM (Sdm.startShape reference x.gt kind pct rot)) = .error e ∧
        (S.map fun x => (⟨x.moved, movedShape x.vec x.gt, x.draws⟩ : Sdm.TrainImage Pic N)).mapM
          (fun x => x.draws.mapM (Sdm.startShape reference x.gt kind pct rot)) = .error e) ∨
      ∃ S' : List (MovedSample N Pic), S'.map (·.picture) = S.map (·.picture) ∧ S'.map (·.moved) = S.map (·.moved) ∧
        S'.map (·.vec) = S.map (·.vec) ∧ S'.map (·.gt) = S.map (·.gt) ∧
        (S.map fun x => (⟨x.picture, x.gt, x.draws⟩ : Sdm.TrainImage Pic N)).mapM
          (fun x => x.draws.mapM (Sdm.startShape reference x.gt kind pct rot)) = .ok (S'.map (·.shapes)) ∧
        (S.map fun x => (⟨x.moved, movedShape x.vec x.gt, x.draws⟩ : Sdm.TrainImage Pic N)).mapM
          (fun x => x.draws.mapM (Sdm.startShape reference x.gt kind pct rot)) =
            .ok (S'.map fun x => x.shapes.map (movedShape x.vec)) ∧
        S'.map (fun x => movedShape x.vec x.gt) = S.map (fun x => movedShape x.vec x.gt) ∧
        ∀ y ∈ S', ∃ x ∈ S, y.picture = x.picture ∧ y.moved = x.moved ∧ y.vec = x.vec := by
  intro S
  induction S with
  | nil => right; exact ⟨[], rfl, rfl, rfl, rfl, rfl, rfl, rfl, by simp⟩
  | cons x S ih =>
    simp only [List.map_cons, List.mapM_cons]
    rw [Sdm.mapM_moved (Sdm.startShape reference x.gt kind pct rot) _ (movedShape x.vec)
      (fun d => Sdm.startShape_moved reference x.gt kind pct rot d x.vec) x.draws]
    cases x.draws.mapM (Sdm.startShape reference x.gt kind pct rot) with
    | error e => left; exact ⟨e, rfl, rfl⟩
    | ok ss =>
      rcases ih with ⟨e, h1, h2⟩ | ⟨S', h1, h2, h3, h4, h5, h6, h7, h8⟩
      · left
        refine ⟨e, ?_, ?_⟩
        · rw [h1]; rfl
        · rw [h2]; rfl
      · right
        refine ⟨⟨x.picture, x.moved, x.vec, x.gt, ss⟩ :: S', by simp [h1], by simp [h2], by simp [h3], by simp [h4], ?_, ?_,
          by simp [h7], ?_⟩
        · rw [h5]; rfl
        · rw [h6]; rfl
        · intro y hy
          rcases List.mem_cons.1 hy with rfl | hy
          · exact ⟨x, by simp, rfl, rfl, rfl⟩
          · obtain ⟨z, hz, e⟩ := h8 y hy
            exact ⟨z, by simp [hz], e⟩

/-- **C129** for training from ground truths, including the perturbations (drawn with the same random
numbers): the regressors do not depend on where the faces are in their pictures. -/
theorem C129_training_from_gt (ortho : Ortho N) (mdl : Pca N 2)
    (h0 : OrthoSpec ortho (similarityComponents mdl.mean) mdl.comps) (M₀ : OPdm N)
    (hn : newOPdm ortho mdl = .ok M₀) (ops : List (PdmOp N 2))
    (ho : ∀ m', .increment m' ∈ ops → OrthoSpec ortho (similarityComponents m'.mean) m'.comps)
    (M : OPdm N) (hM : M = ops.foldl (opdmStep ortho) M₀)
    (sample : Pic → Warp.P 2 → C) (feat : Pic → Pts N 2 → Row) (hf : FollowsPicture sample feat)
    (reference : Pts N 2) (kind : String) (percentage : Percentage) (rotation : Bool)
    (nIterations : Nat) (increment : Bool) (regs : List Reg)
    (S : List (MovedImage N Pic)) (hS : ∀ x ∈ S, MovedPicture sample x.vec x.picture x.moved) :
    (∀ (rg : Sdm.RegOps Row (Pts N 2) Reg) (junk : Nat → Pts N 2),
      Sdm.trainFromGt reference kind percentage rotation rg (Sdm.plain _) feat junk nIterations increment regs
          (S.map fun x => ⟨x.moved, movedShape x.vec x.gt, x.draws⟩) =
        (Sdm.trainFromGt reference kind percentage rotation rg (Sdm.plain _) feat junk nIterations increment regs
          (S.map fun x => ⟨x.picture, x.gt, x.draws⟩)).map (movedTraining (S.map (·.vec)))) ∧
    (∀ (rg : Sdm.RegOps Row (Fin (nPar M) → ℝ) Reg) (junk : Nat → Fin (nPar M) → ℝ),
      Sdm.trainFromGt reference kind percentage rotation rg ⟨pdmParams M, pdmShape M⟩ feat junk nIterations increment
          regs (S.map fun x => ⟨x.moved, movedShape x.vec x.gt, x.draws⟩) =
        (Sdm.trainFromGt reference kind percentage rotation rg ⟨pdmParams M, pdmShape M⟩ feat junk nIterations increment
          regs (S.map fun x => ⟨x.picture, x.gt, x.draws⟩)).map (movedTraining (S.map (·.vec)))) := by
  unfold Sdm.trainFromGt
  rcases mapM_starts reference kind percentage rotation S with ⟨e, h1, h2⟩ | ⟨S', h1, h2, h3, h4, h5, h6, h7, h8⟩
  · constructor <;> · intro rg junk; rw [h1, h2]; rfl
  · have key := C129_training ortho mdl h0 M₀ hn ops ho M hM sample feat hf nIterations increment regs S' (by
      intro y hy
      obtain ⟨x, hx, e1, e2, e3⟩ := h8 y hy
      rw [e1, e2, e3]; exact hS x hx)
    rw [h5, h6]
    simp only [bind, Except.bind, List.map_map, Function.comp_def]
    rw [h1, h2, h3, h4, h7] at key
    exact key

/-! ### Perturbations of a reference shape -/

/-- The vector `v`, turned by `θ` and scaled by `c`. -/
noncomputable def turnedVec (c θ : ℝ) (v : Fin 2 → ℝ) : Fin 2 → ℝ :=
  ![c * (Real.cos θ * v 0 - Real.sin θ * v 1), c * (Real.sin θ * v 0 + Real.cos θ * v 1)]

/-- **C129** for perturbations of one reference shape towards the boxes of faces (`noise_type='uniform'`): the noise
turns and scales about the centre of the box of the face, but is applied to the reference shape before
it is brought to the face.  If the face is moved by `t`, the noisy shape is moved by `t` and, in
addition, by `κ (t - turned t)` where `κ` is the size of the face relative to the reference
shape. -/
theorem C129_reference_partial (hN : N ≠ 0) (shape : Pts N 2) (bb : Pts 4 2) (p0 p1 p2 : ℝ) (d : Draws) (t : Fin 2 → ℝ) :
    ∃ (r : Pts N 2) (sb : Pts 4 2) (κ : ℝ), boundingBox shape = .ok sb ∧ κ = Real.sqrt (spread bb) / Real.sqrt (spread sb) ∧
      noisyShapeFromBoundingBox shape bb "uniform" (.list [p0, p1, p2]) false d = .ok r ∧
      noisyShapeFromBoundingBox shape (movedShape t bb) "uniform" (.list [p0, p1, p2]) false d =
        .ok (movedShape (t + κ • (t - turnedVec (1 + p0 / 2 * (2 * d.scale - 1)) (p1 * Real.pi * (2 * d.rot - 1)) t)) r) := by
  obtain ⟨sb, hsb⟩ : ∃ sb, boundingBox shape = .ok sb := by simp [boundingBox, hN]
  obtain ⟨τ, hτ⟩ : ∃ τ : Fin 2 → ℝ, τ = ![p2 * rangeOf bb 0 * (2 * d.tr 0 - 1), p2 * rangeOf bb 1 * (2 * d.tr 1 - 1)] :=
    ⟨_, rfl⟩
  have form : ∀ x : Pts 4 2, (∀ j, rangeOf x j = rangeOf bb j) →
      noisyShapeFromBoundingBox shape x "uniform" (.list [p0, p1, p2]) false d =
      .ok ((alignSim false sb x).apply (turned (centroid x) (1 + p0 / 2 * (2 * d.scale - 1))
        (p1 * Real.pi * (2 * d.rot - 1)) τ shape)) := by
    intro x hx
    have hno : noise x "uniform" [p0, p1, p2] d = .ok (p0 * (1 / 2) * (2 * d.scale - 1), p1 * 180 * (2 * d.rot - 1),
        fun j => p2 * rangeOf x j * (2 * d.tr j - 1)) := rfl
    have e := noise_apply x (1 + p0 * (1 / 2) * (2 * d.scale - 1)) (p1 * 180 * (2 * d.rot - 1))
      (p2 * rangeOf x 0 * (2 * d.tr 0 - 1)) (p2 * rangeOf x 1 * (2 * d.tr 1 - 1)) shape
    simp only [noisyShapeFromBoundingBox, hsb, noisyAlignment, percentages, bind, Except.bind, pure, Except.pure,
      List.length_cons, List.length_nil]
    rw [if_neg (by norm_num)]
    simp only
    rw [hno]
    simp only
    rw [after_apply, e, hτ, hx 0, hx 1, show p1 * 180 * (2 * d.rot - 1) * (Real.pi / 180) =
      p1 * Real.pi * (2 * d.rot - 1) by ring, show p0 * (1 / 2) = p0 / 2 by ring]
  refine ⟨_, sb, _, hsb, rfl, form bb fun _ => rfl, ?_⟩
  rw [form (movedShape t bb) (range_moved (by norm_num) t bb)]
  congr 1
  have hcen : ∀ j, centroid (movedShape t bb) j = centroid bb j + t j := by
    intro j; rw [Place.movedShape_eq, Place.centroid_trans (by norm_num)]
  have hcd : centred (movedShape t bb) = centred bb := by
    rw [Place.movedShape_eq, Place.centred_trans (by norm_num)]
  simp only [alignSim, Bool.false_eq_true, if_false, hcd, hcen, spread_eq]
  generalize Real.sqrt (centred bb ⬝ᵥ centred bb) / Real.sqrt (centred sb ⬝ᵥ centred sb) = κ
  generalize 1 + p0 / 2 * (2 * d.scale - 1) = c
  generalize p1 * Real.pi * (2 * d.rot - 1) = θ
  funext ⟨i, j⟩
  match j with
  | 0 => simp [Sim.apply, turned, movedShape, hcen, turnedVec, Matrix.vecHead, Matrix.vecTail]; ring
  | 1 => simp [Sim.apply, turned, movedShape, hcen, turnedVec, Matrix.vecHead, Matrix.vecTail]; ring

/-- **C129** fails for perturbations of one reference shape: with scale noise only, for every reference shape
and box of positive size, every draw that changes the scale, and every `t ≠ 0`, the noisy
shape for the face moved by `t` is not the noisy shape, moved by `t`. -/
theorem C129_reference_violated (hN : N ≠ 0) (shape : Pts N 2) (bb sb : Pts 4 2) (hsb : boundingBox shape = .ok sb)
    (h1 : spread bb ≠ 0) (h2 : spread sb ≠ 0) (p0 p2 : ℝ) (hp : p0 ≠ 0) (d : Draws) (hd : d.scale ≠ 1 / 2)
    (t : Fin 2 → ℝ) (ht : t ≠ 0) :
    ∃ r r', noisyShapeFromBoundingBox shape bb "uniform" (.list [p0, 0, p2]) false d = .ok r ∧
      noisyShapeFromBoundingBox shape (movedShape t bb) "uniform" (.list [p0, 0, p2]) false d = .ok r' ∧
      r' ≠ movedShape t r := by
  obtain ⟨r, sb', κ, e1, e2, e3, e4⟩ := C129_reference_partial hN shape bb p0 0 p2 d t
  rw [hsb] at e1
  injection e1 with e1
  subst e1
  refine ⟨r, _, e3, e4, ?_⟩
  have hκ : κ ≠ 0 := by
    rw [e2]
    have a1 : 0 < spread bb := lt_of_le_of_ne (by rw [spread_eq]; exact pts_dot_self_nonneg _) (Ne.symm h1)
    have a2 : 0 < spread sb := lt_of_le_of_ne (by rw [spread_eq]; exact pts_dot_self_nonneg _) (Ne.symm h2)
    have := Real.sqrt_pos.2 a1
    have := Real.sqrt_pos.2 a2
    positivity
  intro h
  apply ht
  have hd' : 2 * d.scale - 1 ≠ 0 := fun h => hd (by linarith)
  funext j
  have := congrFun h (⟨0, Nat.pos_of_ne_zero hN⟩, j)
  have hz : κ * (p0 / 2 * (2 * d.scale - 1)) * t j = 0 := by
    match j with
    | 0 =>
      simp only [movedShape, turnedVec, Pi.add_apply, Pi.smul_apply, Pi.sub_apply, smul_eq_mul, zero_mul, Real.cos_zero,
        Real.sin_zero, Matrix.cons_val_zero, Matrix.cons_val_one] at this
      linear_combination (-1 : ℝ) * this
    | 1 =>
      simp only [movedShape, turnedVec, Pi.add_apply, Pi.smul_apply, Pi.sub_apply, smul_eq_mul, zero_mul, Real.cos_zero,
        Real.sin_zero, Matrix.cons_val_zero, Matrix.cons_val_one] at this
      linear_combination (-1 : ℝ) * this
  simpa [hκ, hp, hd'] using hz

/-! ### The hypotheses are met -/

/-- A shape model, patches as features, and a picture with its moved copy. -/
example (f : Warp.P 2 → ℝ) (t : Fin 2 → ℝ) :
    OrthoSpec crossOrtho (similarityComponents Shared.xModel.mean) Shared.xModel.comps ∧
    newOPdm crossOrtho Shared.xModel = .ok (Shared.xAt 1 0) ∧
    FollowsPicture (fun (f : Warp.P 2 → ℝ) x => f x)
      (patches (N := 4) (fun o : Fin 2 => if o = 0 then 0 else WithLp.toLp 2 1) fun (f : Warp.P 2 → ℝ) x => f x) ∧
    MovedPicture (fun (f : Warp.P 2 → ℝ) x => f x) t f (fun x => f (x - WithLp.toLp 2 t)) := by
  refine ⟨Shared.xSpec, Shared.x_new, ?_, fun x => by simp⟩
  intro t im im' h s
  funext i o
  simp only [patches]
  rw [show point (movedShape t s) i = point s i + WithLp.toLp 2 t by
    ext j; fin_cases j <;> simp [point, movedShape], add_right_comm]
  exact h _

/-- The unit square: its box, and its spread. -/
example : boundingBox (box 0 1) = .ok (box 0 1) ∧ spread (box 0 1) ≠ 0 := by
  constructor
  · have h0 : ∀ j, axisMin (box 0 1) j = 0 := by
      intro j
      fin_cases j <;> simp [axisMin, box, List.ofFn_succ, Stats.npMin]
    have h1 : ∀ j, axisMax (box 0 1) j = 1 := by
      intro j
      fin_cases j <;> simp [axisMax, box, List.ofFn_succ, Stats.npMax]
    simp only [boundingBox, if_neg (show ¬ 4 = 0 by norm_num)]
    congr 2 <;> funext j
    · exact h0 j
    · exact h1 j
  · simp only [spread, centroid, box, Fin.sum_univ_four]
    norm_num [Fin.ext_iff]

end Menpofit
