import Verif.Model.ModelInstance
/-!
# Jacobians of homogeneous transforms and of point distribution models

Models `/repo/menpofit/transform/homogeneous.py` and the `d_dp` methods of
`/repo/menpofit/modelinstance.py`.  From menpo: the parameters of an affine transform are the
entries of the homogeneous matrix minus the identity, without its last row,
column by column; those of a 2D similarity are `[a, b, tx, ty]` with linear part
`[[1+a, -b], [b, 1+a]]`.
-/

namespace Menpofit
namespace Homog
open MI

noncomputable section

/-- menpo `Affine._from_vector_inplace`: entry `(r, c)` of the homogeneous matrix.
See `/repo/menpofit/transform/homogeneous.py:9` -/
def hEntry {d : Nat} (p : Nat → ℝ) (r : Fin d) (c : Nat) : ℝ :=
  (if c = r.val then 1 else 0) + p (c * d + r.val)

/-- menpo `Affine.apply` on one point. See `/repo/menpofit/transform/homogeneous.py:9` -/
def affineApply {d : Nat} (p : Nat → ℝ) (x : Fin d → ℝ) (r : Fin d) : ℝ :=
  (∑ c : Fin d, hEntry p r c.val * x c) + hEntry p r d

/-- /repo/menpofit/transform/homogeneous.py:235-265 `affine_d_dx` (the leading axis of length one is
left out). -/
def affineDdx {d : Nat} (p : Nat → ℝ) (r c : Fin d) : ℝ := hEntry p r c.val

/-- A Jacobian: point, parameter, dimension.
See `/repo/menpofit/transform/homogeneous.py:268-324` -/
abbrev Jac (np d : Nat) := Fin np → Nat → Fin d → ℝ

/-- `jac[:, full_mask] = val` where `full_mask[s:s + n_dims]` is the identity
(/repo/menpofit/transform/homogeneous.py:314-319). -/
def setDiag {np d : Nat} (jac : Jac np d) (s : Nat) (val : Fin np → ℝ) : Jac np d :=
  fun i k r => if s ≤ k ∧ k - s = r.val then val i else jac i k r

/-- /repo/menpofit/transform/homogeneous.py:268-324 `affine_d_dp` of a `d`-dimensional affine at
points of dimension `pd`.  With `d = 0` the loop variable is never bound. -/
def affineDdp {np pd : Nat} (d : Nat) (points : Fin np → Fin pd → ℝ) : Except PyErr (Jac np d) :=
  if h : pd = d then
    let step : Jac np d × Option Nat → Fin d → Jac np d × Option Nat := fun st i =>
      let s := i.val * d
      (setDiag st.1 s fun p => points p (Fin.cast h.symm i), some s)
    let st := (List.finRange d).foldl step (fun _ _ _ => 0, none)
    match st.2 with
    | none => .error .nameError
    | some s => .ok (setDiag st.1 (s + d) fun _ => 1)
  else .error .valueError

/-- menpo `Similarity.apply` in 2D from parameters.
See `/repo/menpofit/transform/homogeneous.py:122` -/
def simApply (p : Nat → ℝ) (x : Fin 2 → ℝ) (r : Fin 2) : ℝ :=
  if r = 0 then (1 + p 0) * x 0 - p 1 * x 1 + p 2 else p 1 * x 0 + (1 + p 0) * x 1 + p 3

/-- Linear component of a 2D similarity. See `/repo/menpofit/transform/homogeneous.py:235-265` -/
def simDdx (p : Nat → ℝ) (r c : Fin 2) : ℝ :=
  if r = c then 1 + p 0 else if r = 0 then -(p 1) else p 1

/-- /repo/menpofit/transform/homogeneous.py:384-391 `_apply_jacobian_mask`. -/
def applyMask {np : Nat} (jac : Jac np 2) (mask : Fin 2 → ℝ) (row : Nat)
    (points : Fin np → Fin 2 → ℝ) : Jac np 2 :=
  fun i k r => if k = row then points i r * mask r else jac i k r

/-- /repo/menpofit/transform/homogeneous.py:327-381 `similarity_d_dp` of an `sd`-dimensional
similarity at points of dimension `pd`. -/
def similarityDdp {np pd : Nat} (sd : Nat) (points : Fin np → Fin pd → ℝ) :
    Except PyErr (Jac np 2) :=
  if h : pd = sd then
    if h2 : sd = 2 then
      let pts : Fin np → Fin 2 → ℝ := fun i r => points i (Fin.cast (h.trans h2).symm r)
      let jac : Jac np 2 := fun _ _ _ => 0
      let jac := applyMask jac (fun _ => 1) 0 pts
      let jac := applyMask jac (fun r => if r = 0 then -1 else 1) 1 (fun i r => pts i (Fin.rev r))
      let jac := applyMask jac (fun r => if r = 0 then 1 else 0) 2 (fun _ _ => 1)
      let jac := applyMask jac (fun r => if r = 0 then 0 else 1) 3 (fun _ _ => 1)
      .ok jac
    else .error .valueError
  else .error .valueError

/-! ### Point distribution models -/

/-- /repo/menpofit/modelinstance.py:353-366 `PDM.d_dp`: point, weight, dimension. -/
def pdmDdp {n d : Nat} (m : Pca n d) : Jac n d := fun i k r => (m.active.getD k 0) (i, r)

/-- /repo/menpofit/modelinstance.py:544-580 `GlobalPDM.d_dp` given the Jacobian of the global
transform at the mean (`dq`, with `nq` parameters) and its linear component (`lin`). -/
def gpdmDdp {n d : Nat} (m : Pca n d) (nq : Nat) (dq : Jac n d) (lin : Fin d → Fin d → ℝ) :
    Jac n d := fun i k r =>
  if k < nq then dq i k r else (∑ l, lin l r) * pdmDdp m i (k - nq) r

/-- /repo/menpofit/modelinstance.py:582-583 with the similarity transform of the PDM. -/
def gpdmSimDdp {n : Nat} (p : GPdm (Pts n 2 × Sim) n 2) : Except PyErr (Jac n 2) := do
  let dq ← similarityDdp 2 fun i r => p.model.mean (i, r)
  let q := fun k => ((alignmentSimilarity n).toVec p.glob).getD k 0
  .ok (gpdmDdp p.model 4 dq (simDdx q))

/-- /repo/menpofit/modelinstance.py:647-649: for an `OrthoPDM` the Jacobian of the similarity model
replaces that of the transform. -/
def opdmDdp {n : Nat} (p : OPdm n) : Jac n 2 :=
  gpdmDdp p.model 4 (fun i k r => (p.simComps.getD k 0) (i, r))
    (simDdx fun k => [p.glob.a - 1, p.glob.b, p.glob.tx, p.glob.ty].getD k 0)

/-- /repo/menpofit/modelinstance.py:268-280 `GlobalSimilarityModel.d_dp`. -/
def gsimDdp {n : Nat} (mean : Pts n 2) : Except PyErr (Jac n 2) :=
  similarityDdp 2 fun i r => mean (i, r)

end
end Homog
end Menpofit
