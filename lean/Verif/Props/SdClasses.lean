import Verif.Lemmas.SdClasses
import Mathlib.Algebra.Ring.Rat
/-!
# C122: options and increments of the supervised descent classes
-/

namespace Menpofit
open Sdm SdmState SdCls Spec

variable {K : Type} [Zero K]

/-- Every class accepts exactly the documented keywords (any other raises `TypeError`), and its
regressors are of the kind it is named after and have the options given, or the documented defaults.  (Missing: the bias of the
Gauss-Newton classes, see `C122_bias_violated`.) -/
theorem C122_options_partial (c : Class) (o : Opts K) :
    (onlyDocumented c o → ∃ r, construct c o = .ok r ∧ namedAfter c r ∧ honours r o ∧
      (isGaussNewton c = false → hasBias r = o.bias.getD true)) ∧
    (¬ onlyDocumented c o → construct c o = .error .typeError) := by
  cases c
  case nonParametricPCR | parametricShapePCR => exact pcr_named o _ rfl rfl (by simp [namedAfter])
  case nonParametricOptimal | parametricShapeOptimal => exact optimal_named o _ rfl rfl (by simp [namedAfter])
  case nonParametricOPP | fullyProjectOutOPP => exact opp_named o _ rfl rfl (by simp [namedAfter])
  case parametricShapeOPP => exact oppWhiten_named o _ rfl rfl (by simp [namedAfter])
  case nonParametricNewton | parametricShapeNewton | appearanceProjectOutNewton |
    appearanceMeanTemplateNewton | appearanceWeightsNewton | fullyWeightsNewton |
    fullyMeanTemplateNewton | fullyProjectOutNewton | aamMeanTemplateNewton |
    aamProjectOutNewton | aamAppearanceWeightsNewton => exact newton_named o _ rfl rfl (by simp [namedAfter])
  all_goals exact gaussNewton_named o _ rfl rfl (by simp [namedAfter])

/-- Non-vacuity. -/
example : onlyDocumented .aamProjectOutGaussNewton
    ({ alpha := some 1, alpha2 := some 2, bias := some true } : Opts ℚ) := by
  simp [onlyDocumented, documented]

/-- The Gauss-Newton classes document `bias` ("Flag that controls whether to use a bias term", by
default true), but their regressors never have one. -/
theorem C122_bias_violated (c : Class) (hc : isGaussNewton c = true) (o : Opts K) (r : Regr K)
    (h : construct c o = .ok r) : hasBias r = false := by
  obtain ⟨a, a2, b, v, w, i⟩ := o
  cases c <;> simp [isGaussNewton, documented] at hc <;>
    (cases v <;> cases w <;> cases i <;>
      simp [construct, gaussNewton, refused, SdCls.newIirl, bind, Except.bind, pure,
        Except.pure] at h <;> (rw [← h]; rfl))

/-- Non-vacuity: all nine classes, asked for a bias. -/
example (c : Class) (hc : isGaussNewton c = true) :
    construct c ({ bias := some true } : Opts ℚ) = .ok (.iirl 0 0 false false) := by
  cases c <;> first | rfl | (simp [isGaussNewton, documented] at hc)

variable {σ A V W Row T I : Type} [AddCommGroup W]

/-- Whatever the class, the options it was created with and the calls made before (any trainings,
increments and fits, on any data): `increment` of the algorithm object raises and leaves its
regressors as they are. -/
theorem C122_increment_violated (c : Class) (o : Opts K) (r : Regr K) (hr : construct c o = .ok r)
    (lib : Lib K Row W T) (cls : Cls σ A V W Row (Regr K × T) I) (hcls : cls.reg = regOps lib r)
    (a : Alg σ A (Regr K × T)) (ha : SdHistory cls a)
    (verbose : Option (V → V → V → Except PyErr Unit)) (junk : Nat → W) (ims : List I)
    (gts : List V) (cur : List (List V)) :
    (∃ e, (trainAlg cls verbose junk true a ims gts cur).2 = .error e) ∧
    (trainAlg cls verbose junk true a ims gts cur).1.regressors = a.regressors := by
  have hinc : ∀ t xs ys, ∃ e, SdCls.increment lib (r, t) xs ys = .error e := by
    intro t xs ys
    have hk := construct_kind c o r hr
    cases r with
    | irl _ _ i => rw [show i = false from hk]; exact ⟨_, rfl⟩
    | iirl _ _ _ i => rw [show i = false from hk]; exact ⟨_, rfl⟩
    | pcr | optimal | opp => exact ⟨_, rfl⟩
  have key : ∀ b : Alg σ A (Regr K × T), SdHistory cls b →
      b.regressors.length ≤ cls.nIterations ∧ ∀ q ∈ b.regressors, q.1 = r := by
    intro b hb
    induction hb with
    | new t => exact ⟨Nat.zero_le _, fun q hq => by cases hq⟩
    | train h verbose junk ims gts cur _ =>
      obtain ⟨h1, h2⟩ := C100_failed_partial cls verbose junk _ ims gts cur
      refine ⟨h1, fun q hq => ?_⟩
      obtain ⟨f, d, hfd⟩ := h2 q hq
      rw [hcls] at hfd
      unfold regOps at hfd
      simp only at hfd
      cases ht : lib.train r f d with
      | error e => rw [ht] at hfd; cases hfd
      | ok t =>
        rw [ht] at hfd
        injection hfd with hfd
        rw [← hfd]
    | increment h verbose junk ims gts cur ih =>
      rw [(increment_raises (cls := cls) (fun q hq xs ys => by
        rw [hcls]
        have := hinc q.2 xs ys
        rw [← ih.2 q hq] at this
        exact this) ih.1 verbose junk ims gts cur).2]
      exact ih
    | fit h ops im init res hres ih =>
      unfold fitParam at hres
      split at hres
      · cases hres
      · obtain ⟨q, hq, hres⟩ := bind_ok hres
        injection hres with hres
        rw [← hres]
        have := fitLoop_regs _ _ _ q hq
        simp only at this ⊢
        rw [this]
        exact ih
    | fitAam h ops im init res hres ih =>
      unfold fitAam at hres
      split at hres
      · cases hres
      · obtain ⟨q, hq, hres⟩ := bind_ok hres
        injection hres with hres
        rw [← hres]
        have := aamLoop_regs _ _ _ q hq
        simp only at this ⊢
        rw [this]
        exact ih
  obtain ⟨h1, h2⟩ := key a ha
  exact increment_raises (cls := cls) (fun q hq xs ys => by
    rw [hcls]
    have := hinc q.2 xs ys
    rw [← h2 q hq] at this
    exact this) h1 verbose junk ims gts cur

/-- A toy regressor library: nothing is learned, 0 is predicted. -/
def toySdLib : SdCls.Lib ℚ ℚ ℚ Unit where
  train _ _ _ := .ok ()
  update _ _ _ _ := .ok ()
  predict _ _ xs := xs.map fun _ => 0

/-- Non-vacuity: an object of a Newton class, successfully trained on one image with one shape, has a
regressor, and cannot be incremented with the same data. -/
example :
    let cls : Cls Unit Unit ℚ ℚ ℚ (Regr ℚ × Unit) ℚ :=
      ⟨.direct (plain ℚ), .patches (fun i v => i + v), regOps toySdLib (.irl 0 true false), 2⟩
    let p := trainAlg cls none (fun _ => 0) false (newAlg none) [1] [2] [[3]]
    construct .nonParametricNewton ({} : Opts ℚ) = .ok (.irl 0 true false) ∧
    p.2 = .ok [[3]] ∧ p.1.regressors.length = 2 ∧
    (trainAlg cls none (fun _ => 0) true p.1 [1] [2] [[3]]).2 = .error .valueError := by
  refine ⟨rfl, ?_, rfl, rfl⟩
  show Except.ok [[(3 : ℚ) + 0 + 0]] = _
  norm_num

end Menpofit
