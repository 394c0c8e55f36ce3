import Verif.Model.Sdm
/-!
# Supervised descent algorithm objects

Models the objects whose methods `Verif.Model.Sdm` describes as functions: their attributes
(regressors, shape model, appearance model) and how training and fitting change them.

* `/repo/menpofit/sdm/algorithm/base.py:21-120`, `:327-413`, `:501-600`
* `/repo/menpofit/sdm/algorithm/nonparametric.py:16-83`
* `/repo/menpofit/sdm/algorithm/parametricshape.py:17-98`
* `/repo/menpofit/sdm/algorithm/parametricappearance.py:15-142`
* `/repo/menpofit/sdm/algorithm/fullyparametric.py:19-152`
* `/repo/menpofit/aam/algorithm/sd.py:15-176`, `:258-288`, `:372-399`

Simplifications: the shapes that are updated in place are returned; the methods of a shape model,
the features and the appearance features do not raise (building the models may); when one of the
loops below raises, the shape model is left in the state it had before that loop.
-/

namespace Menpofit
namespace SdmState
open Sdm

variable {σ A V W Row Reg I : Type} [AddCommGroup W]

/-- A shape model or a model driven transform in use: an object with a state.
See `/repo/menpofit/sdm/algorithm/base.py:441-459` -/
structure ModelOps (σ V W : Type) where
  setTarget : σ → V → σ
  asVector : σ → W
  fromVector : σ → W → σ
  target : σ → V

/-- What the shapes are described by: their vectors
(`/repo/menpofit/sdm/algorithm/nonparametric.py:30-36`) or the parameters of a shape model, which
`build` makes from shapes (`/repo/menpofit/sdm/algorithm/parametricshape.py:39-50`). -/
inductive Coords (σ V W : Type) where
  | direct (co : Coord V W)
  | model (ops : ModelOps σ V W) (build : List V → Except PyErr σ)

/-- The features of a shape in an image: of its patches
(`/repo/menpofit/sdm/algorithm/nonparametric.py:38-46`); of its patches and an appearance model of
them (`/repo/menpofit/sdm/algorithm/fullyparametric.py:59-84`); of the image warped by the
transform, once its target is the shape (`/repo/menpofit/aam/algorithm/sd.py:83-100`). -/
inductive Feat (σ A V Row I : Type) where
  | patches (patch : I → V → Row)
  | appearance (patch : I → V → Row) (build : List Row → Except PyErr A) (param : A → Row → Row)
  | warped (setTarget : σ → V → σ) (row : σ → I → Row)

/-- A supervised descent class. See `/repo/menpofit/sdm/algorithm/parametricshape.py:17-98` -/
structure Cls (σ A V W Row Reg I : Type) where
  coords : Coords σ V W
  feat : Feat σ A V Row I
  reg : RegOps Row W Reg
  nIterations : Nat

/-- The attributes of an algorithm object. See `/repo/menpofit/sdm/algorithm/base.py:21-46` -/
structure Alg (σ A Reg : Type) where
  regressors : List Reg
  shapeModel : Option σ
  appearanceModel : Option A

/-- `__init__`, `/repo/menpofit/sdm/algorithm/fullyparametric.py:32-39`,
`/repo/menpofit/sdm/algorithm/parametricshape.py:28-32`,
`/repo/menpofit/sdm/algorithm/parametricappearance.py:25-29`,
`/repo/menpofit/sdm/algorithm/nonparametric.py:21-23`; an AAM algorithm
(`/repo/menpofit/aam/algorithm/sd.py:37-65`) gets its transform from the interface. -/
def newAlg (transform : Option σ) : Alg σ A Reg := ⟨[], transform, none⟩

/-- The rows written by `compute_parametric_delta_x`,
`/repo/menpofit/sdm/algorithm/base.py:445-457`, for the shapes of one image. -/
def deltaImage (ops : ModelOps σ V W) (c : W) : σ → List V → σ × List (W × W)
  | s, [] => (s, [])
  | s, v :: vs =>
    let s := ops.setTarget s v
    let row := (c - ops.asVector s, c)
    let r := deltaImage ops c s vs
    (r.1, row :: r.2)

/-- The double loop, `/repo/menpofit/sdm/algorithm/base.py:445-457`. -/
def deltaLoop (ops : ModelOps σ V W) : σ → List V → List (List V) → σ × List (W × W)
  | s, g :: gs, vs :: vss =>
    let s := ops.setTarget s g
    let r := deltaImage ops (ops.asVector s) s vs
    let q := deltaLoop ops r.1 gs vss
    (q.1, r.2 ++ q.2)
  | s, _, _ => (s, [])

/-- `if self.model is None: self.model = build()`,
`/repo/menpofit/sdm/algorithm/fullyparametric.py:48-49` and `:61-64`,
`/repo/menpofit/sdm/algorithm/parametricshape.py:41-42`,
`/repo/menpofit/sdm/algorithm/parametricappearance.py:50-53`. -/
def getOrBuild {M : Type} (held : Option M) (build : Except PyErr M) : Except PyErr M :=
  match held with
  | some m => .ok m
  | none => build

/-- `_compute_delta_x`: `/repo/menpofit/sdm/algorithm/nonparametric.py:30-31`,
`/repo/menpofit/sdm/algorithm/parametricshape.py:39-45`,
`/repo/menpofit/sdm/algorithm/fullyparametric.py:46-52`, `/repo/menpofit/aam/algorithm/sd.py:73-76`,
with `compute_parametric_delta_x`, `/repo/menpofit/sdm/algorithm/base.py:440-459`.  The shape model
is built unless there is one. -/
def computeDeltaX (cls : Cls σ A V W Row Reg I) (junk : Nat → W) (a : Alg σ A Reg) (gts : List V)
    (cur : List (List V)) : Alg σ A Reg × Except PyErr (List W × List W) :=
  match cls.coords with
  | .direct co => (a, computeDelta co junk gts cur)
  | .model ops build =>
    match getOrBuild a.shapeModel (build gts) with
    | .error e => (a, .error e)
    | .ok s =>
      let a := { a with shapeModel := some s }
      match gts, cur with
      | _ :: _, first :: _ =>
        let n := gts.length * first.length
        let r := deltaLoop ops s gts cur
        if n < r.2.length then (a, .error .indexError)
        else
          let rest := (List.range (n - r.2.length)).map junk
          ({ a with shapeModel := some r.1 },
            .ok (r.2.map Prod.fst ++ rest, r.2.map Prod.snd ++ rest))
      | _, _ => (a, .error .indexError)

/-- `_compute_test_features`: `/repo/menpofit/sdm/algorithm/nonparametric.py:44-46`,
`/repo/menpofit/sdm/algorithm/fullyparametric.py:81-84`,
`/repo/menpofit/aam/algorithm/sd.py:172-176`, `:280-288`, `:394-399`. -/
def testFeature (cls : Cls σ A V W Row Reg I) (a : Alg σ A Reg) (im : I) (v : V) :
    Except PyErr (Alg σ A Reg × Row) :=
  match cls.feat with
  | .patches patch => .ok (a, patch im v)
  | .appearance patch _ param =>
    match a.appearanceModel with
    | none => .error .attributeError
    | some m => .ok (a, param m (patch im v))
  | .warped setTarget row =>
    match a.shapeModel with
    | none => .error .attributeError
    | some s =>
      let s := setTarget s v
      .ok ({ a with shapeModel := some s }, row s im)

/-- The inner loop of `_compute_training_features`, `/repo/menpofit/aam/algorithm/sd.py:91-93` and
`/repo/menpofit/sdm/algorithm/fullyparametric.py:72-74`. -/
def rowsImage (cls : Cls σ A V W Row Reg I) (im : I) : Alg σ A Reg → List V →
    Except PyErr (Alg σ A Reg × List Row)
  | a, [] => .ok (a, [])
  | a, v :: vs => do
    let r ← testFeature cls a im v
    let q ← rowsImage cls im r.1 vs
    return (q.1, r.2 :: q.2)

/-- The outer loop, `/repo/menpofit/aam/algorithm/sd.py:89-95` and
`/repo/menpofit/sdm/algorithm/fullyparametric.py:70-76`. -/
def rowsLoop (cls : Cls σ A V W Row Reg I) : Alg σ A Reg → List I → List (List V) →
    Except PyErr (Alg σ A Reg × List Row)
  | a, im :: ims, vs :: vss => do
    let r ← rowsImage cls im a vs
    let q ← rowsLoop cls r.1 ims vss
    return (q.1, r.2 ++ q.2)
  | a, _, _ => .ok (a, [])

/-- The loop and `np.vstack`, which raises `ValueError` for no rows.
See `/repo/menpofit/aam/algorithm/sd.py:89-95` -/
def rowsOf (cls : Cls σ A V W Row Reg I) (a : Alg σ A Reg) (ims : List I) (cur : List (List V)) :
    Alg σ A Reg × Except PyErr (List Row) :=
  match rowsLoop cls a ims cur with
  | .error e => (a, .error e)
  | .ok r => if r.2.length = 0 then (r.1, .error .valueError) else (r.1, .ok r.2)

/-- `_compute_training_features`: `/repo/menpofit/sdm/algorithm/nonparametric.py:38-42`,
`/repo/menpofit/sdm/algorithm/fullyparametric.py:59-76` (and
`/repo/menpofit/sdm/algorithm/parametricappearance.py:48-65`),
`/repo/menpofit/aam/algorithm/sd.py:83-95`; `build_appearance_model`,
`/repo/menpofit/sdm/algorithm/base.py:526-538`, unless there is an appearance model. -/
def trainingFeatures (cls : Cls σ A V W Row Reg I) (a : Alg σ A Reg) (ims : List I) (gts : List V)
    (cur : List (List V)) : Alg σ A Reg × Except PyErr (List Row) :=
  match cls.feat with
  | .patches patch => (a, featureRows patch ims cur)
  | .appearance patch build _ =>
    match getOrBuild a.appearanceModel (build ((gts.zip ims).map fun p => patch p.2 p.1)) with
    | .error e => (a, .error e)
    | .ok m => rowsOf cls { a with appearanceModel := some m } ims cur
  | .warped _ _ => rowsOf cls a ims cur

/-- The loop of `print_non_parametric_info`, `/repo/menpofit/sdm/algorithm/base.py:354-367`, and
`print_parametric_info`, `:397-413`, from row `j` on.  The second one leaves the shape model with
other parameters. -/
def printLoop (coords : Coords σ V W) (err : V → V → V → Except PyErr Unit) (gts : List V)
    (nPert : Nat) : Nat → Option σ → List (W × W) → Except PyErr (Option σ)
  | _, s, [] => .ok s
  | j, s, (dx, edx) :: rows =>
    match coords with
    | .direct co =>
      match gts[j / nPert]? with
      | none => .error .indexError
      | some g => do
        err (co.inst dx) (co.inst edx) g
        printLoop coords err gts nPert (j + 1) s rows
    | .model ops _ =>
      match s with
      | none => .error .attributeError
      | some s =>
        let s := ops.fromVector s dx
        let s1 := ops.target s
        let s := ops.fromVector s edx
        let s2 := ops.target s
        match gts[j / nPert]? with
        | none => .error .indexError
        | some g => do
          err s1 s2 g
          printLoop coords err gts nPert (j + 1) (some s) rows

/-- `_print_regression_info`, called if `verbose`: `/repo/menpofit/sdm/algorithm/base.py:111-115`;
`verbose` carries the error function. -/
def printInfo (cls : Cls σ A V W Row Reg I) (verbose : Option (V → V → V → Except PyErr Unit))
    (gts : List V) (nPert : Nat) (delta est : List W) (a : Alg σ A Reg) :
    Alg σ A Reg × Except PyErr Unit :=
  match verbose with
  | none => (a, .ok ())
  | some err =>
    match printLoop cls.coords err gts nPert 0 a.shapeModel (delta.zip est) with
    | .error e => (a, .error e)
    | .ok s => ({ a with shapeModel := s }, .ok ())

/-- The inner loop of `update_parametric_estimates`,
`/repo/menpofit/sdm/algorithm/base.py:486-498`, from row `j` on. -/
def updateImage (ops : ModelOps σ V W) (est gt : List W) : Nat → σ → List V →
    Except PyErr (σ × List V × List W)
  | _, s, [] => .ok (s, [], [])
  | j, s, v :: vs =>
    match est[j]?, gt[j]? with
    | some e, some g => do
      let s := ops.setTarget s v
      let cx := ops.asVector s + e
      let s := ops.fromVector s cx
      let r ← updateImage ops est gt (j + 1) s vs
      return (r.1, ops.target s :: r.2.1, (g - cx) :: r.2.2)
    | _, _ => .error .indexError

/-- The outer loop, `/repo/menpofit/sdm/algorithm/base.py:484-498`. -/
def updateLoop (ops : ModelOps σ V W) (est gt : List W) : Nat → σ → List (List V) →
    Except PyErr (σ × List (List V) × List W)
  | _, s, [] => .ok (s, [], [])
  | j, s, vs :: vss => do
    let r ← updateImage ops est gt j s vs
    let q ← updateLoop ops est gt (j + vs.length) r.1 vss
    return (q.1, r.2.1 :: q.2.1, r.2.2 ++ q.2.2)

/-- `_update_estimates`: `/repo/menpofit/sdm/algorithm/nonparametric.py:33-36`,
`/repo/menpofit/sdm/algorithm/parametricshape.py:47-50`, `/repo/menpofit/aam/algorithm/sd.py:78-81`. -/
def updateEstimates (cls : Cls σ A V W Row Reg I) (a : Alg σ A Reg) (est gt : List W)
    (cur : List (List V)) : Alg σ A Reg × Except PyErr (List (List V) × List W) :=
  match cls.coords with
  | .direct co => (a, updateAll co est gt 0 cur)
  | .model ops _ =>
    match a.shapeModel with
    | none => (a, .error .attributeError)
    | some s =>
      match updateLoop ops est gt 0 s cur with
      | .error e => (a, .error e)
      | .ok r => ({ a with shapeModel := some r.1 }, .ok r.2)

/-- Training or incrementing the regressor of stage `k`,
`/repo/menpofit/sdm/algorithm/base.py:102-107`. -/
def regress (cls : Cls σ A V W Row Reg I) (increment : Bool) (k : Nat) (a : Alg σ A Reg)
    (features : List Row) (delta : List W) : Except PyErr Reg :=
  if increment then
    match a.regressors[k]? with
    | some r => cls.reg.increment r features delta
    | none => .error .indexError
  else cls.reg.train features delta

/-- The cascade, `/repo/menpofit/sdm/algorithm/base.py:90-118`: `m` stages from stage `k` on.  The
object that is left behind is returned also when a stage raises. -/
def cascadeLoop (cls : Cls σ A V W Row Reg I)
    (verbose : Option (V → V → V → Except PyErr Unit)) (increment : Bool) (nPert : Nat)
    (ims : List I) (gts : List V) (gt : List W) : Nat → Nat → Alg σ A Reg → List W →
    List (List V) → Alg σ A Reg × Except PyErr (List (List V))
  | 0, _, a, _, cur => (a, .ok cur)
  | m + 1, k, a, delta, cur =>
    match trainingFeatures cls a ims gts cur with
    | (a, .error e) => (a, .error e)
    | (a, .ok features) =>
      match regress cls increment k a features delta with
      | .error e => (a, .error e)
      | .ok r =>
        let a := { a with
          regressors := if increment then a.regressors.set k r else a.regressors ++ [r] }
        let predicted := cls.reg.predict r features
        match printInfo cls verbose gts nPert delta predicted a with
        | (a, .error e) => (a, .error e)
        | (a, .ok _) =>
          match updateEstimates cls a predicted gt cur with
          | (a, .error e) => (a, .error e)
          | (a, .ok u) =>
            cascadeLoop cls verbose increment nPert ims gts gt m (k + 1) a
              (u.2 ++ delta.drop u.2.length) u.1

/-- `_train`, `/repo/menpofit/sdm/algorithm/base.py:74-120` (`train`, `:45-46`, and `increment`,
`:71-72`).  Only the regressors are reset. -/
def trainAlg (cls : Cls σ A V W Row Reg I) (verbose : Option (V → V → V → Except PyErr Unit))
    (junk : Nat → W) (increment : Bool) (a : Alg σ A Reg) (ims : List I) (gts : List V)
    (cur : List (List V)) : Alg σ A Reg × Except PyErr (List (List V)) :=
  if increment = true ∧ a.regressors.length = 0 then (a, .error .valueError)
  else
    let a := if increment then a else { a with regressors := [] }
    match cur, gts with
    | first :: _, _ :: _ =>
      match computeDeltaX cls junk a gts cur with
      | (a, .error e) => (a, .error e)
      | (a, .ok d) =>
        cascadeLoop cls verbose increment first.length ims gts d.2 cls.nIterations 0 a d.1 cur
    | _, _ => (a, .error .indexError)

/-- The cascade of `fit_parametric_shape`, `/repo/menpofit/sdm/algorithm/base.py:581-595`. -/
def fitLoop (cls : Cls σ A V W Row Reg I) (ops : ModelOps σ V W) (im : I) : List Reg →
    Alg σ A Reg → V → Except PyErr (Alg σ A Reg × List V × List W)
  | [], a, _ => .ok (a, [], [])
  | r :: rs, a, v => do
    let t ← testFeature cls a im v
    match cls.reg.predict r [t.2], t.1.shapeModel with
    | [dx], some s =>
      let p := ops.asVector s + dx
      let s := ops.fromVector s p
      let q ← fitLoop cls ops im rs { t.1 with shapeModel := some s } (ops.target s)
      return (q.1, ops.target s :: q.2.1, p :: q.2.2)
    | _, none => .error .attributeError
    | _, _ => .error .valueError

/-- `fit_parametric_shape`, `/repo/menpofit/sdm/algorithm/base.py:569-600`: the object left behind,
the shapes and the shape parameters (one more). -/
def fitParam (cls : Cls σ A V W Row Reg I) (ops : ModelOps σ V W) (a : Alg σ A Reg) (im : I)
    (init : V) : Except PyErr (Alg σ A Reg × List V × List W) :=
  match a.shapeModel with
  | none => .error .attributeError
  | some s => do
    let s := ops.setTarget s init
    let q ← fitLoop cls ops im a.regressors { a with shapeModel := some s } (ops.target s)
    return (q.1, q.2.1, ops.asVector s :: q.2.2)

/-- The cascade of an AAM algorithm, `/repo/menpofit/aam/algorithm/sd.py:145-158`: `p` is the last
element of `p_list`. -/
def aamLoop (cls : Cls σ A V W Row Reg I) (ops : ModelOps σ V W) (im : I) : List Reg →
    Alg σ A Reg → W → Except PyErr (Alg σ A Reg × List V × List W)
  | [], a, _ => .ok (a, [], [])
  | r :: rs, a, p =>
    match a.shapeModel with
    | none => .error .attributeError
    | some s => do
      let t ← testFeature cls a im (ops.target s)
      match cls.reg.predict r [t.2], t.1.shapeModel with
      | [dx], some s =>
        let p := p + dx
        let s := ops.fromVector s p
        let q ← aamLoop cls ops im rs { t.1 with shapeModel := some s } p
        return (q.1, ops.target s :: q.2.1, p :: q.2.2)
      | _, none => .error .attributeError
      | _, _ => .error .valueError

/-- `run` of an AAM algorithm, `/repo/menpofit/aam/algorithm/sd.py:135-163`. -/
def fitAam (cls : Cls σ A V W Row Reg I) (ops : ModelOps σ V W) (a : Alg σ A Reg) (im : I)
    (init : V) : Except PyErr (Alg σ A Reg × List V × List W) :=
  match a.shapeModel with
  | none => .error .attributeError
  | some s => do
    let s := ops.setTarget s init
    let q ← aamLoop cls ops im a.regressors { a with shapeModel := some s } (ops.asVector s)
    return (q.1, ops.target s :: q.2.1, ops.asVector s :: q.2.2)

end SdmState
end Menpofit
