import Verif.Model.Homogeneous
import Verif.Model.GaussNewton
/-!
# Model-driven transforms

Models `/repo/menpofit/transform/modeldriven.py`: the classes `ModelDrivenTransform`,
`GlobalMDTransform` and `OrthoMDTransform` over the three kinds of shape model of
`Verif.Model.ModelInstance`.  The warp (piecewise affine or thin plate spline) is represented
by its target, its derivative with respect to the landmarks and its spatial derivative; both
derivatives are parameters here and modelled in `Verif.Model.Warps`.
-/

namespace Menpofit
namespace MDT
open Matrix MI Homog

noncomputable section

/-! ### What a model-driven transform uses of its shape model -/

/-- Operations of a PDM with state `Q`. See `/repo/menpofit/transform/modeldriven.py:37-252` -/
structure Ops (Q : Type) (n d : Nat) where
  target : Q → Pts n d
  asVector : Q → List ℝ
  setTarget : Q → Cloud → Q × Except PyErr Unit
  sync : Q → Q × Except PyErr Unit
  fromVectorInplace : Q → List ℝ → Q × Except PyErr Unit
  nParams : Q → Nat
  /-- `pdm.d_dp` -/
  ddp : Q → Except PyErr (Jac n d)
  /-- `dW/dp` at zero parameters -/
  ddp0 : Q → Except PyErr (Jac n d)

/-- A plain `PDM`. See `/repo/menpofit/modelinstance.py:283-408` -/
def plain (n d : Nat) : Ops (Pdm n d) n d where
  target p := p.target
  asVector := MI.asVector
  setTarget := MI.setTarget
  sync := syncState
  fromVectorInplace := MI.fromVectorInplace
  nParams p := p.model.active.length
  ddp p := .ok (pdmDdp p.model)
  ddp0 p := .ok (pdmDdp p.model)

/-- /repo/menpofit/modelinstance.py:528-542 `_from_vector_inplace` on the object itself. -/
def gFromVectorInplace {n : Nat} (p : GPdm (Pts n 2 × Sim) n 2) (v : List ℝ) :
    GPdm (Pts n 2 × Sim) n 2 × Except PyErr Unit :=
  match (alignmentSimilarity n).ofVec p.glob (v.take 4) with
  | .error e => (p, .error e)
  | .ok g =>
    let p := { p with glob := g, weights := v.drop 4 }
    match gTargetOf (alignmentSimilarity n) p with
    | .error e => (p, .error e)
    | .ok t => ({ p with target := t }, .ok ())

/-- A `GlobalPDM` with a 2D similarity.  `ddp0` is
/repo/menpofit/transform/modeldriven.py:363-376: the Jacobian of the global transform beside that of
the model. -/
def glob (n : Nat) : Ops (GPdm (Pts n 2 × Sim) n 2) n 2 where
  target p := p.target
  asVector := gAsVector (alignmentSimilarity n)
  setTarget := gSetTarget (alignmentSimilarity n)
  sync := gSyncState (alignmentSimilarity n)
  fromVectorInplace := gFromVectorInplace
  nParams p := 4 + p.model.active.length
  ddp := gpdmSimDdp
  ddp0 p := do
    let dq ← similarityDdp 2 fun i r => p.model.mean (i, r)
    .ok fun i k r => if k < 4 then dq i k r else pdmDdp p.model i (k - 4) r

/-- /repo/menpofit/modelinstance.py:528-534 on the object itself. -/
def oFromVectorInplace {n : Nat} (p : OPdm n) (v : List ℝ) : OPdm n × Except PyErr Unit :=
  match oUpdateGlobalWeights p (v.take 4) with
  | .error e => (p, .error e)
  | .ok p =>
    let p := { p with weights := v.drop 4 }
    match oTargetOf p with
    | .error e => (p, .error e)
    | .ok t => ({ p with target := t }, .ok ())

/-- An `OrthoPDM`. See `/repo/menpofit/modelinstance.py:586-693` -/
def ortho (n : Nat) : Ops (OPdm n) n 2 where
  target p := p.target
  asVector := oAsVector
  setTarget := oSetTarget
  sync := oSyncState
  fromVectorInplace := oFromVectorInplace
  nParams p := 4 + p.model.active.length
  ddp p := .ok (opdmDdp p)
  ddp0 p := .ok fun i k r =>
    if k < 4 then (p.simComps.getD k 0) (i, r) else pdmDdp p.model i (k - 4) r

/-! ### State -/

/-- Derivative of sampled points with respect to the landmarks: sampled point, landmark,
dimension. See `/repo/menpofit/transform/modeldriven.py:208-252` -/
abbrev DW (n d : Nat) := Nat → Fin n → Fin d → ℝ

/-- Attributes of a model-driven transform: shape model, target of the warp, address of the cached
points with the derivative computed from them.
See `/repo/menpofit/transform/modeldriven.py:37-43` -/
structure Md (Q : Type) (n d : Nat) where
  pdm : Q
  warpTarget : Pts n d
  cached : Option (Nat × DW n d)

variable {Q : Type} {n d : Nat}

/-- /repo/menpofit/transform/modeldriven.py:37-43. -/
def newMd (o : Ops Q n d) (q : Q) : Md Q n d := ⟨q, o.target q, none⟩

/-- menpo `Targetable.set_target` with /repo/menpofit/transform/modeldriven.py:81-97: the shape
model is given the target and synchronised once more. -/
def setTarget (o : Ops Q n d) (s : Md Q n d) (c : Cloud) : Md Q n d × Except PyErr Unit :=
  match c.fit n d with
  | none => (s, .error .valueError)
  | some _ =>
    match o.setTarget s.pdm c with
    | (q, .error e) => ({ s with pdm := q }, .error e)
    | (q, .ok _) =>
      match o.sync q with
      | (q, .error e) => ({ s with pdm := q }, .error e)
      | (q, .ok _) => ({ s with pdm := q, warpTarget := o.target q }, .ok ())

/-- /repo/menpofit/transform/modeldriven.py:120-124 `_from_vector_inplace`. -/
def fromVectorInplace (o : Ops Q n d) (s : Md Q n d) (v : List ℝ) : Md Q n d × Except PyErr Unit :=
  match o.fromVectorInplace s.pdm v with
  | (q, .error e) => ({ s with pdm := q }, .error e)
  | (q, .ok _) => ({ s with pdm := q, warpTarget := o.target q }, .ok ())

/-! ### Jacobian with its cache -/

/-- /repo/menpofit/transform/modeldriven.py:246-248: `tensordot` over the landmarks and the diagonal
over the dimensions. -/
def contract (dl : DW n d) (dX : Jac n d) : Nat → Nat → Fin d → ℝ :=
  fun i k r => ∑ l, dl i l r * dX l k r

/-- /repo/menpofit/transform/modeldriven.py:208-252 `d_dp`.  `heap` gives the present content of the
arrays of the caller; the cache keeps a reference (`addr`) to the array, not its content.
`ddl` is the warp's derivative with respect to the landmarks, which depends on its source only. -/
def dDp {A : Type} [DecidableEq A] (o : Ops Q n d) (ddl : A → DW n d) (heap : Nat → A) (s : Md Q n d)
    (addr : Nat) : Md Q n d × Except PyErr (Nat → Nat → Fin d → ℝ) :=
  let hit : Option (DW n d) := match s.cached with
    | none => none
    | some (a, dl) => if heap a = heap addr then some dl else none
  let (s, dl) := match hit with
    | some dl => (s, dl)
    | none => ({ s with cached := some (addr, ddl (heap addr)) }, ddl (heap addr))
  (s, do
    let dX ← o.ddp s.pdm
    .ok (contract dl dX))

/-! ### Composition -/

/-- The check NumPy's `einsum` makes of its subscripts: every letter of the output occurs in an
input. See `/repo/menpofit/transform/modeldriven.py:166-175` -/
def einsumCheck (inputs : List String) (output : String) : Except PyErr Unit :=
  if output.toList.all fun c => inputs.any fun s => s.toList.contains c then .ok ()
  else .error .valueError

/-- /repo/menpofit/transform/modeldriven.py:395-405 (and 166-175): from the two Jacobians and the
spatial derivative of the warp (point, row, column) to the change of the parameters.
`out` is the output of the first `einsum`. -/
def increment (out : String) (k : Nat) (dWdp dWdp0 : Jac n d) (dWdx : Fin n → Fin d → Fin d → ℝ)
    (delta : List ℝ) : Except PyErr (List ℝ) := do
  einsumCheck ["ijk", "ilk"] out
  let a : Jac n d := fun i l c => ∑ j, dWdx i j c * dWdp0 i l c
  let J : Matrix (Fin k) (Fin k) ℝ := Matrix.of fun j l => ∑ i, ∑ c, dWdp i j c * a i l c
  let H : Matrix (Fin k) (Fin k) ℝ := Matrix.of fun j l => ∑ i, ∑ c, dWdp i j c * dWdp i l c
  let Jp ← GN.npSolveMat H J
  if delta.length = k then .ok (List.ofFn (Jp *ᵥ fun i => delta.getD i 0)) else .error .valueError

/-- Sum of two parameter vectors; NumPy refuses different lengths.
See `/repo/menpofit/transform/modeldriven.py:405` -/
def addVec (a b : List ℝ) : Except PyErr (List ℝ) :=
  if a.length = b.length then .ok (List.zipWith (· + ·) a b) else .error .valueError

/-- /repo/menpofit/transform/modeldriven.py:333-405 and 126-175
`compose_after_from_vector_inplace`. -/
def compose (o : Ops Q n d) (out : String) (dWdx : Md Q n d → Fin n → Fin d → Fin d → ℝ)
    (s : Md Q n d) (delta : List ℝ) : Md Q n d × Except PyErr Unit :=
  let r := do
    let dWdp0 ← o.ddp0 s.pdm
    let dWdp ← o.ddp s.pdm
    let inc ← increment out (o.nParams s.pdm) dWdp dWdp0 (dWdx s) delta
    addVec (o.asVector s.pdm) inc
  match r with
  | .error e => (s, .error e)
  | .ok v => fromVectorInplace o s v

/-- /repo/menpofit/transform/modeldriven.py:254-298 (`out` is `eilk`) and 407-473 (`ilk`) `Jp`. -/
def jp (o : Ops Q n d) (out : String) (dWdx : Md Q n d → Fin n → Fin d → Fin d → ℝ) (s : Md Q n d) :
    Except PyErr (Matrix (Fin (o.nParams s.pdm)) (Fin (o.nParams s.pdm)) ℝ) := do
  let dWdp0 ← o.ddp0 s.pdm
  let dWdp ← o.ddp s.pdm
  einsumCheck ["ijk", "ilk"] out
  let a : Jac n d := fun i l c => ∑ j, dWdx s i j c * dWdp0 i l c
  GN.npSolveMat (Matrix.of fun j l => ∑ i, ∑ c, dWdp i j c * dWdp i l c)
    (Matrix.of fun j l => ∑ i, ∑ c, dWdp i j c * a i l c)

/-- `ModelDrivenTransform.compose_after_from_vector_inplace`: the output subscripts are `eilk`.
See `/repo/menpofit/transform/modeldriven.py:126-175` -/
def mdCompose (dWdx : Md (Pdm n d) n d → Fin n → Fin d → Fin d → ℝ) (s : Md (Pdm n d) n d)
    (delta : List ℝ) := compose (plain n d) "eilk" dWdx s delta

/-- `GlobalMDTransform.compose_after_from_vector_inplace`.
See `/repo/menpofit/transform/modeldriven.py:333-405` -/
def gmdCompose (dWdx : Md (GPdm (Pts n 2 × Sim) n 2) n 2 → Fin n → Fin 2 → Fin 2 → ℝ)
    (s : Md (GPdm (Pts n 2 × Sim) n 2) n 2) (delta : List ℝ) := compose (glob n) "ilk" dWdx s delta

/-- `OrthoMDTransform` inherits it. See `/repo/menpofit/transform/modeldriven.py:476-511` -/
def omdCompose (dWdx : Md (OPdm n) n 2 → Fin n → Fin 2 → Fin 2 → ℝ) (s : Md (OPdm n) n 2)
    (delta : List ℝ) := compose (ortho n) "ilk" dWdx s delta

end
end MDT
end Menpofit
