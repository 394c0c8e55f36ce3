import Verif.Model.Py
import Verif.Model.Stats
/-!
# Error functions

Models `/repo/menpofit/error/base.py`.  A shape is an `n × d` array of reals; the wrapper
`pointcloud_to_points` (lines 7-18) only replaces a `PointCloud` by its array of
points and is not modelled.  Both shapes are assumed to have the same number
of points (NumPy would raise or broadcast otherwise).  Exact real arithmetic;
where NumPy divides by zero and returns `inf`/`nan`, Lean returns 0.
-/

namespace Menpofit
namespace Error
open Stats

noncomputable section

/-- An array of `n` points in `d` dimensions. See `/repo/menpofit/error/base.py:7-18` -/
abbrev Shape (n d : Nat) := Fin n → Fin d → ℝ

variable {n d : Nat}

/-- /repo/menpofit/error/base.py:156-181 `euclidean_error`. -/
def euclideanError (shape gt : Shape n d) : ℝ :=
  (∑ i, Real.sqrt (∑ j, (shape i j - gt i j) ^ 2)) / n

/-- /repo/menpofit/error/base.py:129-153 `root_mean_square_error` (the mean runs over all
`n * d` coordinates). -/
def rootMeanSquareError (shape gt : Shape n d) : ℝ :=
  Real.sqrt ((∑ i, ∑ j, (shape i j - gt i j) ^ 2) / (n * d : Nat))

/-- `np.max(shape, axis=0)[j] - np.min(shape, axis=0)[j]`. See `/repo/menpofit/error/base.py:43` -/
def extent (shape : Shape n d) (j : Fin d) : ℝ :=
  npMax (List.ofFn fun i => shape i j) - npMin (List.ofFn fun i => shape i j)

/-- /repo/menpofit/error/base.py:43, 67, 92, 116: `height, width = np.max(shape, axis=0) -
np.min(shape, axis=0)`.  `np.max` of no points, or unpacking other than two
values, raises `ValueError`. -/
def bbSides (shape : Shape n d) : Except PyErr (ℝ × ℝ) :=
  if n = 0 then .error .valueError
  else if h : d = 2 then
    .ok (extent shape ⟨0, by omega⟩, extent shape ⟨1, by omega⟩)
  else .error .valueError

/-- /repo/menpofit/error/base.py:22-44 `bb_area`. -/
def bbArea (shape : Shape n d) : Except PyErr ℝ := do
  let (height, width) ← bbSides shape
  pure (height * width)

/-- /repo/menpofit/error/base.py:47-68 `bb_perimeter`. -/
def bbPerimeter (shape : Shape n d) : Except PyErr ℝ := do
  let (height, width) ← bbSides shape
  pure (2 * (height + width))

/-- /repo/menpofit/error/base.py:71-93 `bb_avg_edge_length`. -/
def bbAvgEdgeLength (shape : Shape n d) : Except PyErr ℝ := do
  let (height, width) ← bbSides shape
  pure (1 / 2 * (height + width))

/-- /repo/menpofit/error/base.py:96-117 `bb_diagonal`. -/
def bbDiagonal (shape : Shape n d) : Except PyErr ℝ := do
  let (height, width) ← bbSides shape
  pure (Real.sqrt (width ^ 2 + height ^ 2))

/-- /repo/menpofit/error/base.py:120-125, 257-259: look up of `bb_norm_types`, with the
`ValueError` for unknown names. -/
def bbNormType (name : String) : Except PyErr (Shape n d → Except PyErr ℝ) :=
  if name = "avg_edge_length" then .ok bbAvgEdgeLength
  else if name = "perimeter" then .ok bbPerimeter
  else if name = "diagonal" then .ok bbDiagonal
  else if name = "area" then .ok bbArea
  else .error .valueError

/-- /repo/menpofit/error/base.py:214-263 `bb_normalised_error`. -/
def bbNormalisedError (err : Shape n d → Shape n d → ℝ) (shape gt : Shape n d)
    (normShape : Option (Shape n d)) (normType : String) : Except PyErr ℝ := do
  let norm ← bbNormType normType
  let v ← norm (normShape.getD gt)
  pure (err shape gt / v)

/-- `shape[index]` of an array with `n` rows. See `/repo/menpofit/error/base.py:185-210` -/
def rowIndex (n : Nat) (i : Int) : Except PyErr (Fin n) :=
  let j := if i < 0 then i + n else i
  if h : 0 ≤ j ∧ j < n then .ok ⟨j.toNat, by omega⟩ else .error .indexError

/-- /repo/menpofit/error/base.py:185-210 `distance_two_indices`: the Euclidean error of two
one-dimensional rows is their distance (the mean of a single number). -/
def distanceTwoIndices (index1 index2 : Int) (shape : Shape n d) : Except PyErr ℝ := do
  let i ← rowIndex n index1
  let j ← rowIndex n index2
  pure (Real.sqrt (∑ k, (shape i k - shape j k) ^ 2))

/-- /repo/menpofit/error/base.py:266-295 `distance_normalised_error`. -/
def distanceNormalisedError (err : Shape n d → Shape n d → ℝ)
    (dist : Shape n d → Shape n d → Except PyErr ℝ) (shape gt : Shape n d) : Except PyErr ℝ := do
  let v ← dist shape gt
  pure (err shape gt / v)

/-- /repo/menpofit/error/base.py:298-332 `distance_indexed_normalised_error`. -/
def distanceIndexedNormalisedError (err : Shape n d → Shape n d → ℝ) (index1 index2 : Int)
    (shape gt : Shape n d) : Except PyErr ℝ := do
  let v ← distanceTwoIndices index1 index2 gt
  pure (err shape gt / v)

/-- /repo/menpofit/error/base.py:336-385 `root_mean_square_bb_normalised_error`. -/
def rmsBbNormalisedError (shape gt : Shape n d) (normShape : Option (Shape n d))
    (normType : String) : Except PyErr ℝ :=
  bbNormalisedError rootMeanSquareError shape gt normShape normType

/-- /repo/menpofit/error/base.py:469-519 `euclidean_bb_normalised_error`. -/
def euclideanBbNormalisedError (shape gt : Shape n d) (normShape : Option (Shape n d))
    (normType : String) : Except PyErr ℝ :=
  bbNormalisedError euclideanError shape gt normShape normType

/-- /repo/menpofit/error/base.py:427-466 `root_mean_square_distance_indexed_normalised_error`. -/
def rmsDistanceIndexedNormalisedError (shape gt : Shape n d) (index1 index2 : Int) :
    Except PyErr ℝ :=
  distanceIndexedNormalisedError rootMeanSquareError index1 index2 shape gt

/-- /repo/menpofit/error/base.py:562-602 `euclidean_distance_indexed_normalised_error`. -/
def euclideanDistanceIndexedNormalisedError (shape gt : Shape n d) (index1 index2 : Int) :
    Except PyErr ℝ :=
  distanceIndexedNormalisedError euclideanError index1 index2 shape gt

end
end Error
end Menpofit
