import Verif.Model.Py
import Mathlib.Analysis.SpecialFunctions.Sqrt
import Mathlib.Data.Matrix.Mul
/-!
# Model instances and point distribution models

Models `/repo/menpofit/modelinstance.py`.  Exact real arithmetic.  From menpo the following are
modelled: `Targetable.set_target` (check of dimensions and number of points, then
`_target_setter`, then `_sync_state_from_target`), `Vectorizable.from_vector` (works on a
copy), `PCAModel`/`MeanLinearModel` (`instance` = mean plus weighted components, shorter weight
vectors padded with zeros, longer ones refused with `ValueError`; `project` = inner
products of the centred vector with the active components).  The statistics of a
`PCAModel` (how its mean and components are computed from data) are not modelled: they
are arbitrary.  Aliasing of weight vectors with the caller's arrays is not modelled.
-/

namespace Menpofit
namespace MI
open Matrix

noncomputable section

/-- Coordinates of `n` points in `d` dimensions, also as a vector.
See `/repo/menpofit/modelinstance.py:82-180` -/
abbrev Pts (n d : Nat) := Fin n × Fin d → ℝ

/-- A point cloud given from outside. See `/repo/menpofit/modelinstance.py:116-140` -/
structure Cloud where
  n : Nat
  d : Nat
  pts : Pts n d

/-- menpo `Targetable._verify_target`: the points when the cloud has the right shape.
See `/repo/menpofit/modelinstance.py:116-140` -/
def Cloud.fit (c : Cloud) (n d : Nat) : Option (Pts n d) :=
  if h : c.n = n ∧ c.d = d then
    some fun ij => c.pts (Fin.cast h.1.symm ij.1, Fin.cast h.2.symm ij.2)
  else none

/-- Mean, all components and number of active components of a `PCAModel`.
See `/repo/menpofit/modelinstance.py:298-309` -/
structure Pca (n d : Nat) where
  mean : Pts n d
  comps : List (Pts n d)
  nActive : Nat

/-- menpo `PCAModel.components`. See `/repo/menpofit/modelinstance.py:312-318` -/
def Pca.active {n d : Nat} (m : Pca n d) : List (Pts n d) := m.comps.take m.nActive

/-- Weighted sum of components. See `/repo/menpofit/modelinstance.py:124-133` -/
def combine {n d : Nat} (w : List ℝ) (cs : List (Pts n d)) : Pts n d :=
  (List.zipWith (fun a c => a • c) w cs).sum

/-- menpo `MeanLinearModel.project` with the given components.
See `/repo/menpofit/modelinstance.py:18-19` -/
def projectOn {n d : Nat} (mean : Pts n d) (cs : List (Pts n d)) (x : Pts n d) : List ℝ :=
  cs.map fun c => c ⬝ᵥ (x - mean)

/-- menpo `MeanLinearModel.instance` with the given components.
See `/repo/menpofit/modelinstance.py:24-25` -/
def instanceOf {n d : Nat} (mean : Pts n d) (cs : List (Pts n d)) (w : List ℝ) :
    Except PyErr (Pts n d) :=
  if cs.length < w.length then .error .valueError else .ok (mean + combine w cs)

/-- `model.project(target)` of a `PCAModel`. See `/repo/menpofit/modelinstance.py:142-160` -/
def Pca.project {n d : Nat} (m : Pca n d) (x : Pts n d) : List ℝ := projectOn m.mean m.active x

/-- `model.instance(weights)` of a `PCAModel`. See `/repo/menpofit/modelinstance.py:124-133` -/
def Pca.inst {n d : Nat} (m : Pca n d) (w : List ℝ) : Except PyErr (Pts n d) :=
  instanceOf m.mean m.active w

/-- menpo `PCAModel.n_active_components = value` for an integer.
See `/repo/menpofit/modelinstance.py:321-342` -/
def Pca.setActive {n d : Nat} (m : Pca n d) (value : Int) : Except PyErr (Pca n d) :=
  if value < 1 then .error .valueError
  else .ok { m with nActive := min value.toNat m.comps.length }

/-! ### The similarity model -/

/-- Position of a coordinate in `as_vector()` / `flatten()` of a 2D point set.
See `/repo/menpofit/modelinstance.py:42-68` -/
def flat {n : Nat} (ij : Fin n × Fin 2) : Nat := 2 * ij.1.val + ij.2.val

/-- /repo/menpofit/modelinstance.py:63-64: reversed coordinates, first one negated. -/
def rotatedCcw {n : Nat} (p : Pts n 2) : Pts n 2 := fun ij =>
  if ij.2 = 0 then -(p (ij.1, 1)) else p (ij.1, 0)

/-- /repo/menpofit/modelinstance.py:42-68 `similarity_2d_instance_model`: the four components (the
mean of the model is the shape). -/
def similarityComponents {n : Nat} (shape : Pts n 2) : List (Pts n 2) :=
  [shape, rotatedCcw shape, fun ij => if flat ij % 2 = 0 then 1 else 0,
    fun ij => if flat ij % 2 = 1 then 1 else 0]

/-! ### ModelInstance and PDM -/

/-- Attributes of a PDM: model, weights and target. See `/repo/menpofit/modelinstance.py:82-87` -/
structure Pdm (n d : Nat) where
  model : Pca n d
  weights : List ℝ
  target : Pts n d

/-- /repo/menpofit/modelinstance.py:298-309 and 82-87: a PDM around a `PCAModel`; `max_n_components`
trims the model (menpo `trim_components`). -/
def newPdm {n d : Nat} (model : Pca n d) (maxN : Option Nat) : Pdm n d :=
  let model := match maxN with
    | none => model
    | some k => { model with comps := model.comps.take k, nActive := min model.nActive k }
  ⟨model, List.replicate model.active.length 0, model.mean⟩

/-- /repo/menpofit/modelinstance.py:135-140 `_sync_state_from_target`. -/
def syncState {n d : Nat} (p : Pdm n d) : Pdm n d × Except PyErr Unit :=
  let p := { p with weights := p.model.project p.target }
  match p.model.inst p.weights with
  | .error e => (p, .error e)
  | .ok t => ({ p with target := t }, .ok ())

/-- menpo `Targetable.set_target` on a PDM (/repo/menpofit/modelinstance.py:116-140). -/
def setTarget {n d : Nat} (p : Pdm n d) (c : Cloud) : Pdm n d × Except PyErr Unit :=
  match c.fit n d with
  | none => (p, .error .valueError)
  | some t => syncState { p with target := t }

/-- /repo/menpofit/modelinstance.py:162-172 `_as_vector`. -/
def asVector {n d : Nat} (p : Pdm n d) : List ℝ := p.weights

/-- /repo/menpofit/modelinstance.py:174-180 `_from_vector_inplace` on the object itself: the weights
are assigned before the target is generated. -/
def fromVectorInplace {n d : Nat} (p : Pdm n d) (v : List ℝ) : Pdm n d × Except PyErr Unit :=
  let p := { p with weights := v }
  match p.model.inst p.weights with
  | .error e => (p, .error e)
  | .ok t => ({ p with target := t }, .ok ())

/-- menpo `Vectorizable.from_vector`: `_from_vector_inplace` on a copy, which is returned.
See `/repo/menpofit/modelinstance.py:174-180` -/
def fromVector {n d : Nat} (p : Pdm n d) (v : List ℝ) : Except PyErr (Pdm n d) :=
  match fromVectorInplace p v with
  | (_, .error e) => .error e
  | (q, .ok _) => .ok q

/-- /repo/menpofit/modelinstance.py:320-342: the setter of `n_active_components`. -/
def setActive {n d : Nat} (p : Pdm n d) (value : Int) : Pdm n d × Except PyErr Unit :=
  match p.model.setActive value with
  | .error e => (p, .error e)
  | .ok m => syncState { p with model := m }

/-- /repo/menpofit/modelinstance.py:368-408 `PDM.increment`: `newModel` is what the `PCAModel` has
become (increment and trim); then the old target is set again. -/
def incrementPdm {n d : Nat} (p : Pdm n d) (newModel : Pca n d) : Pdm n d × Except PyErr Unit :=
  let old := p.target
  setTarget { p with model := newModel } ⟨n, d, old⟩

/-! ### GlobalPDM -/

/-- The operations of a global alignment transform that a `GlobalPDM` uses (a menpo `Alignment`
with state `T`). See `/repo/menpofit/modelinstance.py:447-542` -/
structure Transforms (T : Type) (n d : Nat) where
  apply : T → Pts n d → Pts n d
  setTarget : T → Pts n d → T
  pinv : T → T
  nParams : Nat
  toVec : T → List ℝ
  ofVec : T → List ℝ → Except PyErr T

/-- Attributes of a `GlobalPDM`. See `/repo/menpofit/modelinstance.py:447-452` -/
structure GPdm (T : Type) (n d : Nat) where
  model : Pca n d
  weights : List ℝ
  target : Pts n d
  glob : T

variable {T : Type} {n d : Nat}

/-- /repo/menpofit/modelinstance.py:447-452; `ident` is `global_transform_cls(mean, mean)`. -/
def newGPdm (model : Pca n d) (ident : T) : GPdm T n d :=
  ⟨model, List.replicate model.active.length 0, model.mean, ident⟩

/-- /repo/menpofit/modelinstance.py:472-482 `_new_target_from_state`. -/
def gTargetOf (tr : Transforms T n d) (p : GPdm T n d) : Except PyErr (Pts n d) :=
  (p.model.inst p.weights).map (tr.apply p.glob)

/-- /repo/menpofit/modelinstance.py:135-140 with 484-511 (`_weights_for_target`). -/
def gSyncState (tr : Transforms T n d) (p : GPdm T n d) : GPdm T n d × Except PyErr Unit :=
  let g := tr.setTarget p.glob p.target
  let p := { p with glob := g }
  let p := { p with weights := p.model.project (tr.apply (tr.pinv g) p.target) }
  match gTargetOf tr p with
  | .error e => (p, .error e)
  | .ok t => ({ p with target := t }, .ok ())

/-- menpo `Targetable.set_target` on a `GlobalPDM`. See `/repo/menpofit/modelinstance.py:116-140` -/
def gSetTarget (tr : Transforms T n d) (p : GPdm T n d) (c : Cloud) :
    GPdm T n d × Except PyErr Unit :=
  match c.fit n d with
  | none => (p, .error .valueError)
  | some t => gSyncState tr { p with target := t }

/-- /repo/menpofit/modelinstance.py:516-526. -/
def gAsVector (tr : Transforms T n d) (p : GPdm T n d) : List ℝ := tr.toVec p.glob ++ p.weights

/-- /repo/menpofit/modelinstance.py:528-542 `_from_vector_inplace` on a copy. -/
def gFromVector (tr : Transforms T n d) (p : GPdm T n d) (v : List ℝ) :
    Except PyErr (GPdm T n d) := do
  let g ← tr.ofVec p.glob (v.take tr.nParams)
  let p := { p with glob := g, weights := v.drop tr.nParams }
  let t ← gTargetOf tr p
  .ok { p with target := t }

/-- The setter of `n_active_components`, inherited by a `GlobalPDM`. See `/repo/menpofit/modelinstance.py:320-342` -/
def gSetActive (tr : Transforms T n d) (p : GPdm T n d) (value : Int) :
    GPdm T n d × Except PyErr Unit :=
  match p.model.setActive value with
  | .error e => (p, .error e)
  | .ok m => gSyncState tr { p with model := m }

/-- `PDM.increment`, inherited by a `GlobalPDM`. See `/repo/menpofit/modelinstance.py:368-408` -/
def gIncrement (tr : Transforms T n d) (p : GPdm T n d) (newModel : Pca n d) :
    GPdm T n d × Except PyErr Unit :=
  let old := p.target
  gSetTarget tr { p with model := newModel } ⟨n, d, old⟩

/-! ### GlobalSimilarityModel -/

/-- Attributes of a `GlobalSimilarityModel`. See `/repo/menpofit/modelinstance.py:193-201` -/
structure GSim (T : Type) (n d : Nat) where
  mean : Pts n d
  target : Pts n d
  glob : T

/-- /repo/menpofit/modelinstance.py:193-201. -/
def newGSim (mean : Pts n d) (ident : T) : GSim T n d := ⟨mean, mean, ident⟩

/-- /repo/menpofit/modelinstance.py:230-241: the alignment checks the shape of the target. -/
def simSetTarget (tr : Transforms T n d) (p : GSim T n d) (c : Cloud) :
    GSim T n d × Except PyErr Unit :=
  match c.fit n d with
  | none => (p, .error .valueError)
  | some t =>
    let g := tr.setTarget p.glob t
    ({ p with glob := g, target := tr.apply g p.mean }, .ok ())

/-- /repo/menpofit/modelinstance.py:255-257 on a copy. -/
def simFromVector (tr : Transforms T n d) (p : GSim T n d) (v : List ℝ) :
    Except PyErr (GSim T n d) := do
  let g ← tr.ofVec p.glob v
  .ok { p with glob := g, target := tr.apply g p.mean }

/-! ### 2D similarity alignment and OrthoPDM -/

/-- Parameters of a 2D similarity: linear part `[[a, -b], [b, a]]`, translation.
See `/repo/menpofit/modelinstance.py:447-452` -/
structure Sim where
  a : ℝ
  b : ℝ
  tx : ℝ
  ty : ℝ

/-- menpo `Similarity.apply` in 2D. See `/repo/menpofit/modelinstance.py:472-482` -/
def Sim.apply {n : Nat} (s : Sim) (p : Pts n 2) : Pts n 2 := fun ij =>
  if ij.2 = 0 then s.a * p (ij.1, 0) - s.b * p (ij.1, 1) + s.tx
  else s.b * p (ij.1, 0) + s.a * p (ij.1, 1) + s.ty

/-- Mean of the coordinates along axis `j`. See `/repo/menpofit/modelinstance.py:513-514` -/
def centroid {n : Nat} (p : Pts n 2) (j : Fin 2) : ℝ := (∑ i, p (i, j)) / n

/-- The points with their centroid moved to the origin.
See `/repo/menpofit/modelinstance.py:513-514` -/
def centred {n : Nat} (p : Pts n 2) : Pts n 2 := fun ij => p ij - centroid p ij.2

/-- menpo `procrustes_alignment(source, target)` in 2D without mirroring: centre both, match the
norms, rotate optimally, translate to the centroid of the target.  In 2D the optimal
rotation has cosine and sine proportional to the inner products of the centred
target with the centred source and the centred source turned by 90 degrees.
See `/repo/menpofit/modelinstance.py:513-514` -/
def procrustes {n : Nat} (source target : Pts n 2) : Sim :=
  let s := centred source
  let t := centred target
  let c := s ⬝ᵥ t
  let e := rotatedCcw s ⬝ᵥ t
  let r := Real.sqrt (c ^ 2 + e ^ 2)
  let scale := Real.sqrt (t ⬝ᵥ t) / Real.sqrt (s ⬝ᵥ s)
  let a := scale * (c / r)
  let b := scale * (e / r)
  ⟨a, b, centroid target 0 - (a * centroid source 0 - b * centroid source 1),
    centroid target 1 - (b * centroid source 0 + a * centroid source 1)⟩

/-- menpo pseudoinverse of a 2D similarity (inverse of the homogeneous matrix).
See `/repo/menpofit/modelinstance.py:484-511` -/
def Sim.inv (s : Sim) : Sim :=
  let q := s.a ^ 2 + s.b ^ 2
  let a := s.a / q
  let b := -(s.b / q)
  ⟨a, b, -(a * s.tx - b * s.ty), -(b * s.tx + a * s.ty)⟩

/-- `DifferentiableAlignmentSimilarity` in 2D: source points and current similarity.  Parameters
are the entries of the homogeneous matrix minus the identity.
See `/repo/menpofit/transform/homogeneous.py:174-187` -/
def alignmentSimilarity (n : Nat) : Transforms (Pts n 2 × Sim) n 2 where
  apply g p := g.2.apply p
  setTarget g t := (g.1, procrustes g.1 t)
  pinv g := (g.1, g.2.inv)
  nParams := 4
  toVec g := [g.2.a - 1, g.2.b, g.2.tx, g.2.ty]
  ofVec g v := match v with
    | [a, b, tx, ty] => .ok (g.1, ⟨1 + a, b, tx, ty⟩)
    | _ => .error .indexError

/-- Attributes of an `OrthoPDM`: the alignment keeps its own source.
See `/repo/menpofit/modelinstance.py:609-627` -/
structure OPdm (n : Nat) where
  model : Pca n 2
  weights : List ℝ
  target : Pts n 2
  simMean : Pts n 2
  simComps : List (Pts n 2)
  simWeights : List ℝ
  source : Pts n 2
  glob : Sim

/-- menpo `orthonormalize_against_inplace`: new components of the similarity model and of the
shape model. See `/repo/menpofit/modelinstance.py:618-627` -/
abbrev Ortho (n : Nat) := List (Pts n 2) → List (Pts n 2) → List (Pts n 2) × List (Pts n 2)

/-- /repo/menpofit/modelinstance.py:618-627 `_construct_similarity_model`.  The number of active
components becomes the number of surviving components. -/
def constructSim {n : Nat} (ortho : Ortho n) (p : OPdm n) : OPdm n :=
  let mean := p.model.mean
  let o := ortho (similarityComponents mean) p.model.comps
  let model := { p.model with comps := o.2, nActive := min p.model.nActive o.2.length }
  { p with
    model := model
    simMean := mean
    simComps := o.1
    weights := List.replicate model.active.length 0
    simWeights := projectOn mean o.1 mean }

/-- /repo/menpofit/modelinstance.py:472-482. -/
def oTargetOf {n : Nat} (p : OPdm n) : Except PyErr (Pts n 2) :=
  (p.model.inst p.weights).map p.glob.apply

/-- /repo/menpofit/modelinstance.py:642-645 `_update_global_weights`. -/
def oUpdateGlobalWeights {n : Nat} (p : OPdm n) (w : List ℝ) : Except PyErr (OPdm n) := do
  let t ← instanceOf p.simMean p.simComps w
  .ok { p with simWeights := w, glob := procrustes p.source t }

/-- /repo/menpofit/modelinstance.py:609-616: constructor around a `PCAModel`. -/
def newOPdm {n : Nat} (ortho : Ortho n) (model : Pca n 2) : Except PyErr (OPdm n) := do
  let p := constructSim ortho
    ⟨model, [], model.mean, model.mean, [], [], model.mean, procrustes model.mean model.mean⟩
  let t ← oTargetOf p
  .ok { p with target := t }

/-- /repo/menpofit/modelinstance.py:135-140 with 638-645. -/
def oSyncState {n : Nat} (p : OPdm n) : OPdm n × Except PyErr Unit :=
  match oUpdateGlobalWeights p (projectOn p.simMean p.simComps p.target) with
  | .error e => (p, .error e)
  | .ok p =>
    let p := { p with weights := p.model.project (p.glob.inv.apply p.target) }
    match oTargetOf p with
    | .error e => (p, .error e)
    | .ok t => ({ p with target := t }, .ok ())

/-- menpo `Targetable.set_target` on an `OrthoPDM`. See `/repo/menpofit/modelinstance.py:116-140` -/
def oSetTarget {n : Nat} (p : OPdm n) (c : Cloud) : OPdm n × Except PyErr Unit :=
  match c.fit n 2 with
  | none => (p, .error .valueError)
  | some t => oSyncState { p with target := t }

/-- /repo/menpofit/modelinstance.py:516-526 with 629-636. -/
def oAsVector {n : Nat} (p : OPdm n) : List ℝ := p.simWeights ++ p.weights

/-- /repo/menpofit/modelinstance.py:528-534 on a copy; a similarity has 4 parameters. -/
def oFromVector {n : Nat} (p : OPdm n) (v : List ℝ) : Except PyErr (OPdm n) := do
  let p ← oUpdateGlobalWeights p (v.take 4)
  let p := { p with weights := v.drop 4 }
  let t ← oTargetOf p
  .ok { p with target := t }

/-- The setter of `n_active_components`, inherited by an `OrthoPDM`. See `/repo/menpofit/modelinstance.py:320-342` -/
def oSetActive {n : Nat} (p : OPdm n) (value : Int) : OPdm n × Except PyErr Unit :=
  match p.model.setActive value with
  | .error e => (p, .error e)
  | .ok m => oSyncState { p with model := m }

/-- /repo/menpofit/modelinstance.py:651-693 `OrthoPDM.increment`: the source of the alignment is
not updated. -/
def oIncrement {n : Nat} (ortho : Ortho n) (p : OPdm n) (newModel : Pca n 2) :
    OPdm n × Except PyErr Unit :=
  let old := p.target
  oSetTarget (constructSim ortho { p with model := newModel }) ⟨n, 2, old⟩

end
end MI
end Menpofit
