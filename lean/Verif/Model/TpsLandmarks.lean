import Verif.Model.Warps
import Mathlib.LinearAlgebra.Matrix.NonsingularInverse
import Mathlib.LinearAlgebra.Matrix.Block
/-!
# Thin plate splines and their derivative with respect to landmarks

Models `/repo/menpofit/transform/thinsplatesplines.py:27-139` and the parts of menpo's `ThinPlateSplines` it
reads: the matrix `l`, the homogeneous source points `p`, the coefficients and `_apply`.  Exact real
arithmetic; NumPy's singular value decomposition is a parameter.
-/

namespace Menpofit
namespace TpsDl
open Matrix Warp

noncomputable section

variable {m np : Nat}

/-- Rows of `l`: one per centre, then the three of the affine part.
See `/repo/menpofit/transform/thinsplatesplines.py:69-90` -/
abbrev Ix (m : Nat) := Fin m ⊕ Fin 3

/-- `(1, x, y)`. See `/repo/menpofit/transform/thinsplatesplines.py:69-73` -/
def hom (x : P 2) : Fin 3 → ℝ := ![1, x 0, x 1]

/-- menpo `ThinPlateSplines.k`: the kernel between the source points.
See `/repo/menpofit/transform/thinsplatesplines.py:82` -/
def kMat (s : Fin m → P 2) : Matrix (Fin m) (Fin m) ℝ := of fun i j => r2LogR2 (s j) (s i)

/-- menpo `ThinPlateSplines.p`. See `/repo/menpofit/transform/thinsplatesplines.py:82` -/
def pMat (s : Fin m → P 2) : Matrix (Fin m) (Fin 3) ℝ := of fun i => hom (s i)

/-- menpo `ThinPlateSplines.l`. See `/repo/menpofit/transform/thinsplatesplines.py:82` -/
def lMat (s : Fin m → P 2) : Matrix (Ix m) (Ix m) ℝ := fromBlocks (kMat s) (pMat s) (pMat s)ᵀ 0

/-- One row of menpo `ThinPlateSplines.y`: a coordinate of the target points, then three zeros.
See `/repo/menpofit/transform/thinsplatesplines.py:10-30` -/
def yRow (t : Fin m → P 2) (d : Fin 2) : Ix m → ℝ := Sum.elim (fun i => t i d) fun _ => 0

/-- `np.linalg.svd` of a square matrix. See `/repo/menpofit/transform/thinsplatesplines.py:82` -/
structure Factors (m : Nat) where
  u : Matrix (Ix m) (Fin (m + 3)) ℝ
  s : Fin (m + 3) → ℝ
  v : Matrix (Fin (m + 3)) (Ix m) ℝ

/-- `keep`, /repo/menpofit/transform/thinsplatesplines.py:83. -/
def keep (minSv : ℝ) (f : Factors m) : Nat :=
  (m + 3) - (Finset.univ.filter fun r => f.s r < minSv).card

/-- /repo/menpofit/transform/thinsplatesplines.py:82-84, and the same lines in menpo's
`_build_coefficients`. -/
def truncated (minSv : ℝ) (f : Factors m) : Matrix (Ix m) (Ix m) ℝ :=
  of fun i j => ∑ r ∈ Finset.univ.filter (fun r : Fin (m + 3) => r.val < keep minSv f),
    f.u i r * (1 / f.s r * f.v r j)

/-- menpo `ThinPlateSplines.coefficients`, one output coordinate.
See `/repo/menpofit/transform/thinsplatesplines.py:10-30` -/
def coef (minSv : ℝ) (f : Factors m) (t : Fin m → P 2) (d : Fin 2) : Ix m → ℝ :=
  truncated minSv f *ᵥ yRow t d

/-- A row of `k`, /repo/menpofit/transform/thinsplatesplines.py:69-73: the kernel between a point and the
centres, then `(1, x, y)`. -/
def kRow (s : Fin m → P 2) (x : P 2) : Ix m → ℝ := Sum.elim (fun c => r2LogR2 (s c) x) (hom x)

/-- menpo `ThinPlateSplines._apply`, output coordinate `d`.
See `/repo/menpofit/transform/thinsplatesplines.py:10-30` -/
def apply (minSv : ℝ) (f : Factors m) (s t : Fin m → P 2) (x : P 2) (d : Fin 2) : ℝ :=
  kRow s x ⬝ᵥ coef minSv f t d

/-- `inv_L`, /repo/menpofit/transform/thinsplatesplines.py:76-84.  Simplification: `np.linalg.inv` raises
exactly for singular matrices. -/
def invL (minSv : ℝ) (f : Factors m) (s : Fin m → P 2) : Matrix (Ix m) (Ix m) ℝ :=
  if (lMat s).det = 0 then truncated minSv f else (lMat s)⁻¹

/-- `dK_dl`, /repo/menpofit/transform/thinsplatesplines.py:95-113, one dimension.  In the second assignment
the two index arrays are separated by a slice, so NumPy puts their axis first: entry `(i, j, i)` is assigned
entry `(i, j)`. -/
def dK (s : Fin m → P 2) (d : Fin 2) (i j k : Fin m) : ℝ :=
  let zero : Fin m → Fin m → Fin m → ℝ := fun _ _ _ => 0
  let rows : Fin m → Fin m → Fin m → ℝ := fun i j k => if j = i then r2LogR2Ddl s s i k d else zero i j k
  let cols : Fin m → Fin m → Fin m → ℝ := fun i j k => if k = i then r2LogR2Ddl s s i j d else rows i j k
  cols i j k

/-- `dP_dli`, /repo/menpofit/transform/thinsplatesplines.py:126-128. -/
def dP (i : Fin m) (d : Fin 2) (c : Fin m) (a : Fin 3) : ℝ :=
  if c = i ∧ a = 1 ∧ d = 0 then -1 else if c = i ∧ a = 2 ∧ d = 1 then -1 else 0

/-- `dL_dl[..., i, d]`, /repo/menpofit/transform/thinsplatesplines.py:90 and 130-132. -/
def dL (s : Fin m → P 2) (i : Fin m) (d : Fin 2) : Matrix (Ix m) (Ix m) ℝ :=
  fromBlocks (of (dK s d i)) (of (dP i d)) (of (dP i d))ᵀ 0

/-- `d_dl`, /repo/menpofit/transform/thinsplatesplines.py:32-139: points, centres, dimensions. -/
def dDl (minSv : ℝ) (f : Factors m) (s : Fin m → P 2) (x : Fin np → P 2) (q : Fin np) (i : Fin m)
    (d : Fin 2) : ℝ :=
  let inv := invL minSv f s
  let omega := -(inv * (dL s i d * inv))
  (kRow s (x q) ᵥ* omega) ⬝ᵥ yRow s d

end
end TpsDl
end Menpofit
