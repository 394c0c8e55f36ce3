import Verif.Model.SdClasses
/-!
# Specification vocabulary for the supervised descent classes (C122)
-/

namespace Menpofit.Spec
open SdCls SdmState

/-- Does the regressor add a bias to its inputs? -/
def hasBias {K : Type} : Regr K → Bool
  | .irl _ b _ => b
  | .iirl _ _ b _ => b
  | .pcr _ b => b
  | .optimal _ b => b
  | .opp b _ => b

/-- The keyword arguments that the documentation of a class lists for its regressor. -/
structure Documented where
  alpha : Bool
  alpha2 : Bool
  variance : Bool
  whiten : Bool
deriving DecidableEq

/-- Newton classes document `alpha` and `bias`; Gauss-Newton classes also `alpha2`; classes named
after PCR or optimal regression document `variance` and `bias`; OPP classes `bias`, and
`ParametricShapeOPPRegression` also `whiten`. -/
def documented : Class → Documented
  | .nonParametricNewton | .parametricShapeNewton | .appearanceProjectOutNewton
  | .appearanceMeanTemplateNewton | .appearanceWeightsNewton | .fullyWeightsNewton
  | .fullyMeanTemplateNewton | .fullyProjectOutNewton | .aamMeanTemplateNewton
  | .aamProjectOutNewton | .aamAppearanceWeightsNewton => ⟨true, false, false, false⟩
  | .nonParametricGaussNewton | .parametricShapeGaussNewton | .appearanceProjectOutGaussNewton
  | .appearanceMeanTemplateGaussNewton | .appearanceWeightsGaussNewton
  | .fullyProjectOutGaussNewton | .aamMeanTemplateGaussNewton | .aamProjectOutGaussNewton
  | .aamAppearanceWeightsGaussNewton => ⟨true, true, false, false⟩
  | .nonParametricPCR | .nonParametricOptimal | .parametricShapePCR | .parametricShapeOptimal =>
    ⟨false, false, true, false⟩
  | .nonParametricOPP | .fullyProjectOutOPP => ⟨false, false, false, false⟩
  | .parametricShapeOPP => ⟨false, false, false, true⟩

/-- The Gauss-Newton classes. -/
def isGaussNewton (c : Class) : Bool := (documented c).alpha2

/-- The regressor is of the kind the class is named after: `Newton` regularised linear regression,
`GaussNewton` inverse regularised linear regression, `PCR`, `Optimal` and `OPP`. -/
def namedAfter {K : Type} (c : Class) : Regr K → Prop
  | .irl _ _ _ => c ∈ [.nonParametricNewton, .parametricShapeNewton, .appearanceProjectOutNewton,
      .appearanceMeanTemplateNewton, .appearanceWeightsNewton, .fullyWeightsNewton,
      .fullyMeanTemplateNewton, .fullyProjectOutNewton, .aamMeanTemplateNewton,
      .aamProjectOutNewton, .aamAppearanceWeightsNewton]
  | .iirl _ _ _ _ => c ∈ [.nonParametricGaussNewton, .parametricShapeGaussNewton,
      .appearanceProjectOutGaussNewton, .appearanceMeanTemplateGaussNewton,
      .appearanceWeightsGaussNewton, .fullyProjectOutGaussNewton, .aamMeanTemplateGaussNewton,
      .aamProjectOutGaussNewton, .aamAppearanceWeightsGaussNewton]
  | .pcr _ _ => c ∈ [.nonParametricPCR, .parametricShapePCR]
  | .optimal _ _ => c ∈ [.nonParametricOptimal, .parametricShapeOptimal]
  | .opp _ _ => c ∈ [.nonParametricOPP, .parametricShapeOPP, .fullyProjectOutOPP]

/-- The keywords given are among the documented ones. -/
def onlyDocumented {K : Type} (c : Class) (o : Opts K) : Prop :=
  ((documented c).alpha = false → o.alpha = none) ∧
  ((documented c).alpha2 = false → o.alpha2 = none) ∧
  ((documented c).variance = false → o.variance = none) ∧
  ((documented c).whiten = false → o.whiten = none) ∧ o.incrementable = none

/-- The regressor has the value `v` for each of its options (0 / `None` / `False` if not given). -/
def honours {K : Type} [Zero K] (r : Regr K) (o : Opts K) : Prop :=
  match r with
  | .irl a _ _ => a = o.alpha.getD 0
  | .iirl a a2 _ _ => a = o.alpha.getD 0 ∧ a2 = o.alpha2.getD 0
  | .pcr v _ => v = o.variance.getD none
  | .optimal v _ => v = o.variance.getD none
  | .opp _ w => w = o.whiten.getD false

variable {σ A V W Row Reg I : Type} [AddCommGroup W]

/-- Everything that can happen to an algorithm object: it is created, trained, incremented and used
for fitting, any number of times and in any order, and calls may raise. -/
inductive SdHistory (cls : Cls σ A V W Row Reg I) : Alg σ A Reg → Prop
  | new (t : Option σ) : SdHistory cls (newAlg t)
  | train {a : Alg σ A Reg} (h : SdHistory cls a) (verbose : Option (V → V → V → Except PyErr Unit))
      (junk : Nat → W) (ims : List I) (gts : List V) (cur : List (List V)) :
      SdHistory cls (trainAlg cls verbose junk false a ims gts cur).1
  | increment {a : Alg σ A Reg} (h : SdHistory cls a)
      (verbose : Option (V → V → V → Except PyErr Unit)) (junk : Nat → W) (ims : List I)
      (gts : List V) (cur : List (List V)) :
      SdHistory cls (trainAlg cls verbose junk true a ims gts cur).1
  | fit {a : Alg σ A Reg} (h : SdHistory cls a) (ops : ModelOps σ V W) (im : I) (init : V)
      (r : Alg σ A Reg × List V × List W) (hr : fitParam cls ops a im init = .ok r) :
      SdHistory cls r.1
  | fitAam {a : Alg σ A Reg} (h : SdHistory cls a) (ops : ModelOps σ V W) (im : I) (init : V)
      (r : Alg σ A Reg × List V × List W) (hr : fitAam cls ops a im init = .ok r) :
      SdHistory cls r.1

end Menpofit.Spec
