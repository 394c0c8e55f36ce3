import Verif.Model.SdmState
/-!
# The supervised descent classes and the regressors they create

Models the constructors of the 27 classes

* `/repo/menpofit/sdm/algorithm/nonparametric.py:86-253`
* `/repo/menpofit/sdm/algorithm/parametricshape.py:101-303`
* `/repo/menpofit/sdm/algorithm/parametricappearance.py:113-255`
* `/repo/menpofit/sdm/algorithm/fullyparametric.py:155-372`
* `/repo/menpofit/aam/algorithm/sd.py:179-479`

as far as the options of the regressors are concerned (the other options are stored unchanged), and
the constructors and `increment` methods of the regressors in `/repo/menpofit/math/regression.py`.
The numerical work of the regressors is a parameter here; `Verif.Model.Regression` and
`Verif.Model.Spectral` model it.
-/

namespace Menpofit
namespace SdCls
open Sdm SdmState

/-- The keywords of a call that concern the regressor; `none` for a keyword that is not given.
`incrementable` is an option of `IRLRegression`
(`/repo/menpofit/math/regression.py:20`) that a user might try to pass on. -/
structure Opts (K : Type) where
  alpha : Option K := none
  alpha2 : Option K := none
  bias : Option Bool := none
  variance : Option (Option K) := none
  whiten : Option Bool := none
  incrementable : Option Bool := none

/-- A regressor object right after its creation: its class and its options.
See `/repo/menpofit/math/regression.py:20-25` -/
inductive Regr (K : Type) where
  | irl (alpha : K) (bias incrementable : Bool)
  | iirl (alpha alpha2 : K) (bias incrementable : Bool)
  | pcr (variance : Option K) (bias : Bool)
  | optimal (variance : Option K) (bias : Bool)
  | opp (bias whiten : Bool)
deriving DecidableEq

/-- The classes. See `/repo/menpofit/sdm/algorithm/nonparametric.py:86-253` -/
inductive Class where
  | nonParametricNewton | nonParametricGaussNewton | nonParametricPCR | nonParametricOptimal
  | nonParametricOPP
  | parametricShapeNewton | parametricShapeGaussNewton | parametricShapeOptimal | parametricShapePCR
  | parametricShapeOPP
  | appearanceProjectOutNewton | appearanceMeanTemplateNewton | appearanceWeightsNewton
  | appearanceProjectOutGaussNewton | appearanceMeanTemplateGaussNewton
  | appearanceWeightsGaussNewton
  | fullyWeightsNewton | fullyMeanTemplateNewton | fullyProjectOutNewton
  | fullyProjectOutGaussNewton | fullyProjectOutOPP
  | aamMeanTemplateNewton | aamMeanTemplateGaussNewton | aamProjectOutNewton
  | aamProjectOutGaussNewton | aamAppearanceWeightsNewton | aamAppearanceWeightsGaussNewton
deriving DecidableEq

variable {K : Type} [Zero K]

/-- `IRLRegression(alpha=alpha, bias=bias)`, /repo/menpofit/math/regression.py:20-25; `incrementable`
keeps its default `False`. -/
def newIrl (alpha : K) (bias : Bool) (incrementable : Bool := false) : Regr K :=
  .irl alpha bias incrementable

/-- `IIRLRegression(alpha=alpha, bias=bias, alpha2=alpha2)`,
/repo/menpofit/math/regression.py:120-123: the base class is given `bias=False`. -/
def newIirl (alpha : K) (_bias : Bool) (alpha2 : K) : Regr K := .iirl alpha alpha2 false false

/-- A keyword that the signature does not have raises `TypeError`.
See `/repo/menpofit/sdm/algorithm/nonparametric.py:107-112` -/
def refused {A : Type} (o : Option A) : Except PyErr Unit :=
  match o with
  | none => .ok ()
  | some _ => .error .typeError

/-- Signature `alpha=0, bias=True` and `partial(IRLRegression, alpha=alpha, bias=bias)`:
/repo/menpofit/sdm/algorithm/nonparametric.py:107-112,
/repo/menpofit/sdm/algorithm/parametricshape.py:126-133,
/repo/menpofit/sdm/algorithm/parametricappearance.py:137-144,
/repo/menpofit/sdm/algorithm/fullyparametric.py:183-192, :227-236, :271-280,
/repo/menpofit/aam/algorithm/sd.py:207-214, :321-328, :430-438. -/
def newton (o : Opts K) : Except PyErr (Regr K) := do
  refused o.alpha2
  refused o.variance
  refused o.whiten
  refused o.incrementable
  return newIrl (o.alpha.getD 0) (o.bias.getD true)

/-- Signature `alpha=0, bias=True, alpha2=0` and
`partial(IIRLRegression, alpha=alpha, bias=bias, alpha2=alpha2)`:
/repo/menpofit/sdm/algorithm/nonparametric.py:142-148,
/repo/menpofit/sdm/algorithm/parametricshape.py:167-175,
/repo/menpofit/sdm/algorithm/parametricappearance.py:177-185,
/repo/menpofit/sdm/algorithm/fullyparametric.py:317-327,
/repo/menpofit/aam/algorithm/sd.py:247-255, :361-369, :471-479. -/
def gaussNewton (o : Opts K) : Except PyErr (Regr K) := do
  refused o.variance
  refused o.whiten
  refused o.incrementable
  return newIirl (o.alpha.getD 0) (o.bias.getD true) (o.alpha2.getD 0)

/-- Signature `variance=None, bias=True` and `partial(PCRRegression, variance=variance, bias=bias)`:
/repo/menpofit/sdm/algorithm/nonparametric.py:176-182,
/repo/menpofit/sdm/algorithm/parametricshape.py:251-259. -/
def pcr (o : Opts K) : Except PyErr (Regr K) := do
  refused o.alpha
  refused o.alpha2
  refused o.whiten
  refused o.incrementable
  return .pcr (o.variance.getD none) (o.bias.getD true)

/-- Signature `variance=None, bias=True` and
`partial(OptimalLinearRegression, variance=variance, bias=bias)`:
/repo/menpofit/sdm/algorithm/nonparametric.py:211-217,
/repo/menpofit/sdm/algorithm/parametricshape.py:207-215. -/
def optimal (o : Opts K) : Except PyErr (Regr K) := do
  refused o.alpha
  refused o.alpha2
  refused o.whiten
  refused o.incrementable
  return .optimal (o.variance.getD none) (o.bias.getD true)

/-- Signature `bias=True` and `partial(OPPRegression, bias=bias)`:
/repo/menpofit/sdm/algorithm/nonparametric.py:244-249,
/repo/menpofit/sdm/algorithm/fullyparametric.py:359-368. -/
def opp (o : Opts K) : Except PyErr (Regr K) := do
  refused o.alpha
  refused o.alpha2
  refused o.variance
  refused o.whiten
  refused o.incrementable
  return .opp (o.bias.getD true) false

/-- Signature `whiten=False, bias=True` and `partial(OPPRegression, whiten=whiten, bias=bias)`:
/repo/menpofit/sdm/algorithm/parametricshape.py:291-299. -/
def oppWhiten (o : Opts K) : Except PyErr (Regr K) := do
  refused o.alpha
  refused o.alpha2
  refused o.variance
  refused o.incrementable
  return .opp (o.bias.getD true) (o.whiten.getD false)

/-- What an object of the class, created with the keywords `o`, calls for a new regressor
(`self._regressor_cls()`, /repo/menpofit/sdm/algorithm/base.py:103). -/
def construct (c : Class) (o : Opts K) : Except PyErr (Regr K) :=
  match c with
  | .nonParametricNewton => newton o
  | .nonParametricGaussNewton => gaussNewton o
  | .nonParametricPCR => pcr o
  | .nonParametricOptimal => optimal o
  | .nonParametricOPP => opp o
  | .parametricShapeNewton => newton o
  | .parametricShapeGaussNewton => gaussNewton o
  | .parametricShapeOptimal => optimal o
  | .parametricShapePCR => pcr o
  | .parametricShapeOPP => oppWhiten o
  | .appearanceProjectOutNewton => newton o
  | .appearanceMeanTemplateNewton => newton o
  | .appearanceWeightsNewton => newton o
  | .appearanceProjectOutGaussNewton => gaussNewton o
  | .appearanceMeanTemplateGaussNewton => gaussNewton o
  | .appearanceWeightsGaussNewton => gaussNewton o
  | .fullyWeightsNewton => newton o
  | .fullyMeanTemplateNewton => newton o
  | .fullyProjectOutNewton => newton o
  | .fullyProjectOutGaussNewton => gaussNewton o
  | .fullyProjectOutOPP => opp o
  | .aamMeanTemplateNewton => newton o
  | .aamMeanTemplateGaussNewton => gaussNewton o
  | .aamProjectOutNewton => newton o
  | .aamProjectOutGaussNewton => gaussNewton o
  | .aamAppearanceWeightsNewton => newton o
  | .aamAppearanceWeightsGaussNewton => gaussNewton o

/-- The numerical work: what a regressor with given options learns (`T`).
See `/repo/menpofit/math/regression.py:27-50` -/
structure Lib (K Row W T : Type) where
  train : Regr K → List Row → List W → Except PyErr T
  update : Regr K → T → List Row → List W → Except PyErr T
  predict : Regr K → T → List Row → List W

/-- `increment` of a regressor: /repo/menpofit/math/regression.py:75-82 (`IRLRegression`), :163-172
(`IIRLRegression`, which calls the former), :253, :346 and :429 (the others). -/
def increment {Row W T : Type} (lib : Lib K Row W T) (r : Regr K × T) (xs : List Row) (ys : List W) :
    Except PyErr (Regr K × T) :=
  match r.1 with
  | .irl _ _ inc => if inc then (lib.update r.1 r.2 xs ys).map (r.1, ·) else .error .valueError
  | .iirl _ _ _ inc => if inc then (lib.update r.1 r.2 xs ys).map (r.1, ·) else .error .valueError
  | .pcr _ _ => .error .notImplementedError
  | .optimal _ _ => .error .notImplementedError
  | .opp _ _ => .error .notImplementedError

/-- The regressor class of an algorithm object: `self._regressor_cls()` followed by `train`,
/repo/menpofit/sdm/algorithm/base.py:102-110. -/
def regOps {Row W T : Type} (lib : Lib K Row W T) (r : Regr K) : RegOps Row W (Regr K × T) where
  train xs ys := (lib.train r xs ys).map (r, ·)
  increment := increment lib
  predict q xs := lib.predict q.1 q.2 xs

end SdCls
end Menpofit
