import Verif.Model.ModelDriven
/-!
# The transform of a linear AAM

Models `/repo/menpofit/transform/modeldriven.py:518-612` (`LinearOrthoMDTransform`) and
`/repo/menpofit/aam/algorithm/lk.py:386-442` (`LucasKanadeLinearInterface`).  The shapes of a linear
AAM are `l` landmarks followed by `m` dense points.
-/

namespace Menpofit
namespace Linear
open Matrix MI

noncomputable section

variable {l m : Nat}

/-- `points[:n_landmarks]`, `/repo/menpofit/transform/modeldriven.py:576`. -/
def landmarks (t : Pts (l + m) 2) : Pts l 2 := fun ij => t (Fin.castAdd m ij.1, ij.2)

/-- `points[n_landmarks:]`, `/repo/menpofit/transform/modeldriven.py:567` and `:595`. -/
def dense (t : Pts (l + m) 2) : Pts m 2 := fun ij => t (Fin.natAdd l ij.1, ij.2)

/-- The attributes of the transform: those of an `OrthoPDM`, `W` and `pinv_V`.
See `/repo/menpofit/transform/modeldriven.py:543-549` -/
structure Lin (l m : Nat) where
  pdm : OPdm (l + m)
  W : List (Pts (l + m) 2)
  pinvV : Matrix (Fin l × Fin 2) (Fin W.length) ℝ

/-- `V = self.W[:, :self.n_dims * self.n_landmarks]`,
`/repo/menpofit/transform/modeldriven.py:548`: the landmark coordinates come first. -/
def rowsV (W : List (Pts (l + m) 2)) : Matrix (Fin W.length) (Fin l × Fin 2) ℝ :=
  Matrix.of fun k => landmarks W[k]

/-- The constructor, `/repo/menpofit/transform/modeldriven.py:543-549`; `pinv` is
`np.linalg.pinv`. -/
def newLin (ortho : Ortho (l + m))
    (pinv : (k : Nat) → Matrix (Fin k) (Fin l × Fin 2) ℝ → Matrix (Fin l × Fin 2) (Fin k) ℝ)
    (model : Pca (l + m) 2) : Except PyErr (Lin l m) := do
  let p ← newOPdm ortho model
  let W := p.simComps ++ p.model.active
  return ⟨p, W, pinv W.length (rowsV W)⟩

/-- `np.dot(np.dot(target.as_vector(), self.pinv_V), self.W)`,
`/repo/menpofit/transform/modeldriven.py:590`. -/
def densify (s : Lin l m) (t : Pts l 2) : Pts (l + m) 2 :=
  combine (List.ofFn (t ᵥ* s.pinvV)) s.W

/-- `set_target`, `/repo/menpofit/transform/modeldriven.py:579-592`: a target with as many points as
there are landmarks is densified first (`np.dot` raises `ValueError` in other than two
dimensions). -/
def setTarget (s : Lin l m) (c : Cloud) : Lin l m × Except PyErr Unit :=
  if c.n = l then
    match c.fit l 2 with
    | none => (s, .error .valueError)
    | some t =>
      let r := oSetTarget s.pdm ⟨l + m, 2, densify s t⟩
      ({ s with pdm := r.1 }, r.2)
  else
    let r := oSetTarget s.pdm c
    ({ s with pdm := r.1 }, r.2)

/-- `sparse_target`, `/repo/menpofit/transform/modeldriven.py:570-577`. -/
def sparseTarget (s : Lin l m) : Pts l 2 := landmarks s.pdm.target

/-- `dense_target`, `/repo/menpofit/transform/modeldriven.py:561-567`. -/
def denseTarget (s : Lin l m) : Pts m 2 := dense s.pdm.target

/-- `_apply`, `/repo/menpofit/transform/modeldriven.py:594-595`: the argument is not used. -/
def apply {X : Type} (s : Lin l m) (_ : X) : Pts m 2 := dense s.pdm.target

/-- `d_dp`, `/repo/menpofit/transform/modeldriven.py:597-612`: the rows of the dense points. -/
def ddp (s : Lin l m) : Homog.Jac m 2 := fun i k r => Homog.opdmDdp s.pdm (Fin.natAdd l i) k r

/-- `from_vector`: a copy with the parameters (`W` and `pinv_V` are copied as they are).
See `/repo/menpofit/modelinstance.py:528-534` -/
def fromVector (s : Lin l m) (v : List ℝ) : Except PyErr (Lin l m) :=
  (oFromVector s.pdm v).map fun p => { s with pdm := p }

/-- `as_vector`. See `/repo/menpofit/modelinstance.py:516-526` -/
def asVector (s : Lin l m) : List ℝ := oAsVector s.pdm

/-- The setter of `n_active_components`, inherited from `PDM`
(`/repo/menpofit/modelinstance.py:320-342`): `W` and `pinv_V` stay. -/
def setActive (s : Lin l m) (value : Int) : Lin l m × Except PyErr Unit :=
  let r := oSetActive s.pdm value
  ({ s with pdm := r.1 }, r.2)

/-- The shapes of an algorithm result, `/repo/menpofit/aam/algorithm/lk.py:436-437`: computed from
the shape parameters, whatever shapes the algorithm recorded. -/
def resultShapes (s : Lin l m) : List (List ℝ) → Except PyErr (List (Pts l 2))
  | [] => .ok []
  | v :: vs => do
    let q ← fromVector s v
    let r ← resultShapes s vs
    return sparseTarget q :: r

end
end Linear
end Menpofit
