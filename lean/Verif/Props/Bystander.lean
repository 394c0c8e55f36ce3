import Verif.Lemmas.Bystander
import Verif.Model.AamSolvers
import Verif.Model.ClmRuns
import Verif.Lemmas.SharedWitness
/-!
# Properties: asking for errors or costs does not change a fit (C145)
-/

namespace Menpofit
open MI Warp Fitter Plane Spec Result Bystander

variable {N : Nat} {C F V K : Type}

/-- **C145**.  A multi-scale fit, parametric or not, called with the same picture, initial shape and
numbers of iterations, but with another ground truth (or none) and with algorithms asked to report
costs or not: both calls raise the same exception, or both return and all shapes, parameters and numbers
of iterations of the results are the same.  The results have the ground truths that were given, and
costs if and only if the algorithms report them. -/
theorem C145_fit [DecidableEq F] (fe : Features F C) (reference : Pts N 2) (parametric : Bool)
    (features : List F) (scales : List Rat) (costs costs' : Bool)
    (algs algs' : List (Algorithm (Pts N 2) (P 2 → C) (Res (Pts N 2) V K)))
    (ha : List.Forall₂ (SameAlgorithm costs costs') algs algs') (im : Pic N C) (init : Pts N 2)
    (maxIters : Checks.MaxIters) (gt gt' : Option (Pts N 2)) :
    BothReturn (fun r r' => SameJourney r r' ∧ (r.gt = gt ∧ r'.gt = gt') ∧
        r.costs.isSome = costs ∧ r'.costs.isSome = costs')
      (Plane.fitFromShape fe reference parametric features scales algs im init maxIters gt)
      (Plane.fitFromShape fe reference parametric features scales algs' im init maxIters gt') := by
  unfold Plane.fitFromShape
  refine Plane.both_bind (fitter_rel (plane_careless fe reference _ _) im features scales init ha maxIters) ?_
  rintro ⟨p, rs⟩ ⟨p', rs'⟩ ⟨hp, hr⟩
  simp only at hp hr ⊢
  rw [hp.affine, hp.scale]
  cases parametric with
  | true => exact multiParam_rel hr _ _ _ gt gt'
  | false => exact multi_rel hr _ _ _ gt gt'

/-- **C145** for fits from a bounding box. -/
theorem C145_fit_from_bb [DecidableEq F] (fe : Features F C) (reference : Pts N 2) (parametric : Bool)
    (features : List F) (scales : List Rat) (costs costs' : Bool)
    (algs algs' : List (Algorithm (Pts N 2) (P 2 → C) (Res (Pts N 2) V K)))
    (ha : List.Forall₂ (SameAlgorithm costs costs') algs algs') (im : Pic N C) (bb : Pts 4 2)
    (maxIters : Checks.MaxIters) (gt gt' : Option (Pts N 2)) :
    BothReturn (fun r r' => SameJourney r r' ∧ (r.gt = gt ∧ r'.gt = gt') ∧
        r.costs.isSome = costs ∧ r'.costs.isSome = costs')
      (Plane.fitFromBb fe reference parametric features scales algs im bb maxIters gt)
      (Plane.fitFromBb fe reference parametric features scales algs' im bb maxIters gt') := by
  unfold Plane.fitFromBb
  refine Plane.both_bind (Bystander.both_eq rfl) ?_
  rintro _ init rfl
  exact C145_fit fe reference parametric features scales costs costs' algs algs' ha im init maxIters gt gt'

/-- **C145** for the picture that was passed: whether a ground truth is given or not, afterwards it has
the same landmarks, up to the group that is used for the ground truth. -/
theorem C145_picture {R : Type} [DecidableEq F] (fe : Features F C) (reference : Pts N 2) (final : R → Pts N 2)
    (features : List F) (scales : List Rat) (algs algs' : List (Algorithm (Pts N 2) (P 2 → C) R)) (im : Pic N C)
    (init : Pts N 2) (maxIters : Checks.MaxIters) (gt gt' : Option (Pts N 2)) (g : String) (hg : g ≠ "__gt_shape") :
    (Fitter.fitFromShape (Plane.ext fe reference) final features scales algs' im init maxIters gt').1 g =
      (Fitter.fitFromShape (Plane.ext fe reference) final features scales algs im init maxIters gt).1 g := by
  have hb := body_rel (plane_careless fe reference _ _) (attach_rel im init gt gt') features scales init
  unfold Fitter.fitFromShape prepareImage
  simp only
  revert hb
  generalize prepBody (Plane.ext fe reference) features scales ⟨_, im.px⟩ init gt = a
  generalize prepBody (Plane.ext fe reference) features scales ⟨_, im.px⟩ init gt' = b
  intro hb
  cases a <;> cases b <;> first
    | exact hb.elim
    | (cases gt <;> cases gt' <;> simp [attach, detach, hg])

/-- **C145** for the loop of all optimisers: asked for costs or not, a run leaves the same state behind
and raises the same exception or visits the same shapes with the same parameters. -/
theorem C145_loop {σ S E : Type} [LinearOrder E] (m : Optim.Machine σ S V K E) (lk : Bool) (maxIters : Int)
    (tol : E) (costs costs' : Bool) (s : σ) :
    (Optim.run m lk maxIters tol costs' s).1 = (Optim.run m lk maxIters tol costs s).1 ∧
    BothReturn (fun tr tr' => SameTrace tr tr' ∧ tr.costs.isSome = costs ∧ tr'.costs.isSome = costs')
      (Optim.run m lk maxIters tol costs s).2 (Optim.run m lk maxIters tol costs' s).2 := by
  have h := optim_rel m lk maxIters tol _ 0 none s
    ⟨[m.shape s], [m.params s], if costs then some (if lk then [] else [m.cost s]) else none⟩
    ⟨[m.shape s], [m.params s], if costs' then some (if lk then [] else [m.cost s]) else none⟩ rfl ⟨rfl, rfl⟩
  have e : ∀ b : Bool, (if b then some (if lk then [] else [m.cost s]) else none : Option (List K)).isSome = b := by
    intro b; cases b <;> rfl
  simp only [e] at h
  exact h

theorem param_same {S : Type} {shapes shapes' : List S} {ps ps' : List V} (hs : shapes' = shapes) (hp : ps' = ps)
    (init gt gt' : Option S) {cs cs' : Option (List K)} {c c' : Bool} (hc : cs.isSome = c) (hc' : cs'.isSome = c') :
    BothReturn (fun r r' => SameJourney r r' ∧ r.costs.isSome = c ∧ r'.costs.isSome = c')
      (Result.param shapes ps init gt cs : Except PyErr (Res S V K)) (Result.param shapes' ps' init gt' cs') := by
  subst hs hp
  unfold Result.param Result.nonParam
  cases shapes'.getLast? with
  | none => rfl
  | some f => exact ⟨⟨rfl, rfl, rfl, rfl, rfl, rfl, rfl⟩, hc, hc'⟩

/-- **C145** for the AAM algorithms with explicit appearance. -/
theorem C145_aam {n a m : Nat} {W : Type} (z : Aam.Setup n a m ℝ (Pts N 2) (P 2 → C) W ℝ) (alg : Aam.Alg)
    (inverse : Bool) (tol : ℝ) (costs costs' : Bool) :
    SameAlgorithm costs costs' (aamAlgorithm z alg inverse tol costs) (aamAlgorithm z alg inverse tol costs') := by
  intro im im' hi s gt gt' n
  unfold aamAlgorithm
  rw [hi.pixels]
  refine Plane.both_bind (R := fun tr tr' => SameTrace tr tr' ∧ tr.costs.isSome = costs ∧ tr'.costs.isSome = costs')
    ?_ fun tr tr' h => param_same h.1.shapes (by rw [h.1.params]) _ _ _ h.2.1 h.2.2
  unfold Aam.run
  simp only
  cases z.warp im.px (z.setTarget s) with
  | error e => rfl
  | ok i => exact (C145_loop _ _ _ _ costs costs' _).2

/-- **C145** for the project-out AAM algorithms and the ATM algorithms. -/
theorem C145_project_out {n m : Nat} {W : Type} (env : GN.Env n m ℝ (Pts N 2) (P 2 → C) W ℝ) (inverse : Bool)
    (tol : ℝ) (cache : GN.Cache n m ℝ) (costs costs' : Bool) :
    SameAlgorithm costs costs' (poAlgorithm env inverse tol cache costs) (poAlgorithm env inverse tol cache costs') := by
  intro im im' hi s gt gt' n
  unfold poAlgorithm
  rw [hi.pixels]
  refine Plane.both_bind (R := fun tr tr' => SameTrace tr tr' ∧ tr.costs.isSome = costs ∧ tr'.costs.isSome = costs')
    ?_ fun tr tr' h => param_same h.1.shapes (by rw [h.1.params]) _ _ _ h.2.1 h.2.2
  unfold GN.poRun
  simp only
  cases env.warp im.px (env.setTarget s) with
  | error e => rfl
  | ok i => exact (C145_loop _ _ _ _ costs costs' _).2

/-- **C145** for the unified algorithms. -/
theorem C145_unified {k a m : Nat} {W : Type} (env : ClmRun.UEnv N k a m (P 2 → C) W) (alg : ClmRun.UAlg)
    (prior : Bool) (α tol : ℝ) (costs costs' : Bool) :
    SameAlgorithm costs costs' (unifiedAlgorithm env alg prior α tol costs)
      (unifiedAlgorithm env alg prior α tol costs') := by
  intro im im' hi s gt gt' n
  unfold unifiedAlgorithm
  rw [hi.pixels]
  refine Plane.both_bind (R := fun tr tr' => SameTrace tr tr' ∧ tr.costs.isSome = costs ∧ tr'.costs.isSome = costs')
    ?_ fun tr tr' h => param_same h.1.shapes (by rw [h.1.params]) _ _ _ h.2.1 h.2.2
  unfold ClmRun.uRun
  refine Plane.both_bind (Bystander.both_eq rfl) ?_
  rintro _ x rfl
  exact (C145_loop _ _ _ _ costs costs' _).2

/-- **C145** for the CLM algorithms, which never report costs. -/
theorem C145_clm {k : Nat} (env : ClmRun.Env N k (P 2 → C)) (alg : ClmRun.Alg) (map : Bool) (tol : ℝ) :
    SameAlgorithm false false (clmAlgorithm (K := K) env alg map tol) (clmAlgorithm env alg map tol) := by
  intro im im' hi s gt gt' n
  unfold clmAlgorithm
  rw [hi.pixels]
  refine Plane.both_bind (Bystander.both_eq rfl) ?_
  rintro _ tr rfl
  exact param_same rfl rfl _ _ _ rfl rfl

/-- **C145** for supervised descent, without a shape model, with one, and of an AAM; costs are never
reported. -/
theorem C145_supervised_descent {Row Reg W : Type} [AddCommGroup W] (ops : Sdm.RegOps Row (Pts N 2) Reg)
    (opsW : Sdm.RegOps Row W Reg) (co : Sdm.Coord (Pts N 2) W) (feat : (P 2 → C) → Pts N 2 → Row)
    (regs : List Reg) :
    SameAlgorithm false false (sdmAlgorithm (V := V) (K := K) ops feat regs) (sdmAlgorithm ops feat regs) ∧
    SameAlgorithm false false (sdmParametricAlgorithm (K := K) opsW co feat regs)
      (sdmParametricAlgorithm opsW co feat regs) ∧
    SameAlgorithm false false (aamSdAlgorithm (K := K) opsW co feat regs) (aamSdAlgorithm opsW co feat regs) := by
  refine ⟨?_, ?_, ?_⟩ <;> intro im im' hi s gt gt' n
  · unfold sdmAlgorithm fitNonParametric
    rw [hi.pixels]
    refine Plane.both_bind (Bystander.both_eq rfl) ?_
    rintro _ shapes rfl
    unfold nonParam
    cases shapes.getLast? with
    | none => rfl
    | some f => exact ⟨⟨rfl, rfl, rfl, rfl, rfl, rfl, rfl⟩, rfl, rfl⟩
  · unfold sdmParametricAlgorithm fitParametric
    rw [hi.pixels]
    refine Plane.both_bind (Bystander.both_eq rfl) ?_
    rintro _ ps rfl
    exact param_same rfl rfl _ _ _ rfl rfl
  · unfold aamSdAlgorithm fitAamSd
    rw [hi.pixels]
    refine Plane.both_bind (Bystander.both_eq rfl) ?_
    rintro _ ps rfl
    exact param_same rfl rfl _ _ _ rfl rfl

/-- **C145** is false of an APS that samples only some of the pixels: where a run that is not asked for
costs returns, the same run asked for costs raises `ValueError`. -/
theorem C145_aps_violated {n m M : Nat} (a : Shared.Aps n m M) (hm : m ≠ M)
    (Kd : Shared.Kind n (Shared.ApsImage n m) (ℝ × ℝ × ℝ))
    (hK : Kd = Shared.apsInverse a ∨ Kd = Shared.apsForward a) (alg : Shared.Alg Kd) (eps : ℝ)
    (im : Shared.ApsImage n m) (init : Cloud) (maxIters : Int) (p : OPdm n) {tr}
    (h : (Shared.run Kd alg eps ⟨im, init, maxIters, false⟩ p).2 = .ok tr) :
    (Shared.run Kd alg eps ⟨im, init, maxIters, true⟩ p).2 = .error .valueError := by
  unfold Shared.run at h ⊢
  simp only at h ⊢
  rcases hs : oSetTarget p init with ⟨q, e | ⟨⟩⟩
  · rw [hs] at h; cases h
  · rw [hs] at h
    simp only at h ⊢
    have hstart : ∀ c, Kd.start im c q.target = Shared.apsStart a im c q.target := by
      intro c; rcases hK with rfl | rfl <;> rfl
    rw [hstart] at h ⊢
    cases hw : im.warp q.target with
    | error e => simp [Shared.apsStart, hw, bind, Except.bind] at h
    | ok i => simp [Shared.apsStart, hw, bind, Except.bind, Shared.appearanceCost, hm]

/-- **C145** for an APS that samples all pixels: asked for costs or not, a run leaves the same shape model
behind and raises the same exception or visits the same shapes with the same parameters. -/
theorem C145_aps_partial {n m : Nat} (a : Shared.Aps n m m)
    (Kd : Shared.Kind n (Shared.ApsImage n m) (ℝ × ℝ × ℝ))
    (hK : Kd = Shared.apsInverse a ∨ Kd = Shared.apsForward a) (alg : Shared.Alg Kd) (eps : ℝ)
    (im : Shared.ApsImage n m) (init : Cloud) (maxIters : Int) (costs costs' : Bool) (p : OPdm n) :
    (Shared.run Kd alg eps ⟨im, init, maxIters, costs'⟩ p).1 = (Shared.run Kd alg eps ⟨im, init, maxIters, costs⟩ p).1 ∧
    BothReturn (fun tr tr' => SameTrace tr tr' ∧ tr.costs.isSome = costs ∧ tr'.costs.isSome = costs')
      (Shared.run Kd alg eps ⟨im, init, maxIters, costs⟩ p).2 (Shared.run Kd alg eps ⟨im, init, maxIters, costs'⟩ p).2 := by
  have hstart : ∀ c s, Kd.start im c s = (im.warp s).map fun _ => () := by
    intro c s
    have : Kd.start im c s = Shared.apsStart a im c s := by rcases hK with rfl | rfl <;> rfl
    rw [this]
    unfold Shared.apsStart
    cases im.warp s with
    | error e => rfl
    | ok i => cases c <;> simp [bind, Except.bind, pure, Except.pure, Except.map, Shared.appearanceCost]
  have hrep : Kd.reports = true := by rcases hK with rfl | rfl <;> rfl
  unfold Shared.run
  simp only [hstart, hrep, Bool.and_true]
  rcases oSetTarget p init with ⟨q, e | ⟨⟩⟩
  · exact ⟨rfl, rfl⟩
  · simp only
    cases im.warp q.target with
    | error e => exact ⟨rfl, rfl⟩
    | ok i => exact C145_loop _ _ _ _ costs costs' _

/-- An APS with four points that samples one of its two pixels. -/
def halfAps : Shared.Aps 4 1 2 := ⟨fun _ => 0, 0, 0, 0, 0, 0, 0, false, 0⟩

/-- The hypotheses of `C145_aps_violated` are met: an APS that samples one of two pixels, run without
costs from the cross, returns. -/
example : ∃ (alg : Shared.Alg (Shared.apsForward halfAps)) (tr : _),
    (Shared.run (Shared.apsForward halfAps) alg 0 ⟨⟨fun _ => .ok 0, fun _ => 0⟩, ⟨4, 2, (1 : ℝ) • MI.cross⟩, 0, false⟩
      (Shared.xAt 1 0)).2 = .ok tr := by
  refine ⟨⟨0, 0, 0⟩, ?_⟩
  unfold Shared.run
  rw [Shared.x_setTarget one_ne_zero]
  have hs : ∀ x y, (Shared.apsForward halfAps).start x false y = (x.warp y).bind fun _ => .ok () := fun _ _ => rfl
  simp only [hs, Except.bind]
  unfold Optim.run
  rw [loop_unfold, if_neg (by simp)]
  exact ⟨_, rfl⟩

/-- The hypothesis of `C145_fit` is met by two scales of any AAM, once with costs and once without, by
C145_aam. -/
example {n a m : Nat} {W : Type} (z : Aam.Setup n a m ℝ (Pts N 2) (P 2 → C) W ℝ) :
    List.Forall₂ (SameAlgorithm true false)
      [aamAlgorithm z .simultaneous true 0 true, aamAlgorithm z .wiberg false 0 true]
      [aamAlgorithm z .simultaneous true 0 false, aamAlgorithm z .wiberg false 0 false] :=
  .cons (C145_aam z _ _ _ _ _) (.cons (C145_aam z _ _ _ _ _) .nil)

end Menpofit
