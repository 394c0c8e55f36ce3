import Mathlib.Analysis.Complex.Norm
/-!
# Alignment of training shapes

Models `align_shapes`, `/repo/menpofit/builder.py:407-426`, with menpo's
`GeneralizedProcrustesAnalysis` and `AlignmentSimilarity` behind it, and the data shape models are
built from and incremented with (`/repo/menpofit/modelinstance.py:298-303`, `:400-404`,
`:683-687`).  A point of a 2D shape is a complex number, so that a similarity transform without
reflection is `z ↦ a z + b`; arithmetic is exact.
-/

namespace Menpofit
namespace Gpa

noncomputable section

/-- A 2D shape. See `/repo/menpofit/builder.py:407-426` -/
abbrev CShape (n : Nat) := Fin n → ℂ

variable {n : Nat}

/-- `PointCloud.centre()`. See `/repo/menpofit/builder.py:423` -/
def centre (s : CShape n) : ℂ := (∑ i, s i) / n

/-- `Translation(-s.centre()).apply(s)`, `/repo/menpofit/builder.py:423`. -/
def centred (s : CShape n) : CShape n := fun i => s i - centre s

/-- `PointCloud.norm()`: the Frobenius norm of the centred points.
See `/repo/menpofit/builder.py:425-426` -/
def size (s : CShape n) : ℝ := Real.sqrt (∑ i, ‖centred s i‖ ^ 2)

/-- The correlation of two shapes, from which menpo gets the optimal rotation (by an SVD).
See `/repo/menpofit/builder.py:425-426` -/
def correlation (s t : CShape n) : ℂ := ∑ i, (starRingEnd ℂ) (s i) * t i

/-- The optimal rotation of a centred shape onto another: the phase of the correlation.  If the
correlation is 0 all rotations are equally good and the model takes the identity.
See `/repo/menpofit/builder.py:425-426` -/
def rotation (s t : CShape n) : ℂ :=
  if correlation s t = 0 then 1 else correlation s t / ‖correlation s t‖

/-- `AlignmentSimilarity(s, t).aligned_source()` of menpo: centre, bring to the size of the target,
rotate, move to the centre of the target.  The shape must not be a single point (menpo divides
by its size). See `/repo/menpofit/builder.py:425-426` -/
def alignTo (t s : CShape n) : CShape n := fun i =>
  centre t + (size t / size s : ℝ) * rotation (centred s) (centred t) * centred s i

/-- `mean_pointcloud`. See `/repo/menpofit/builder.py:425-426` -/
def mean (shapes : List (CShape n)) : CShape n := fun i =>
  (shapes.map fun s => s i).sum / shapes.length

/-- `scale_about_centre(s, r / s.norm())` applied to `s`. See `/repo/menpofit/builder.py:425-426` -/
def rescaleTo (r : ℝ) (s : CShape n) : CShape n := fun i =>
  centre s + (r / size s : ℝ) * centred s i

/-- `np.linalg.norm(target.points - new_target.points)`. See `/repo/menpofit/builder.py:425-426` -/
def distance (s t : CShape n) : ℝ := Real.sqrt (∑ i, ‖s i - t i‖ ^ 2)

/-- menpo `GeneralizedProcrustesAnalysis._recursive_procrustes`: `r` is the size of the first
target; the fuel is what is left of the iterations. See `/repo/menpofit/builder.py:425-426` -/
def procrustes (r : ℝ) (shapes : List (CShape n)) : Nat → CShape n → List (CShape n)
  | 0, t => shapes.map (alignTo t)
  | k + 1, t =>
    let aligned := shapes.map (alignTo t)
    let t' := rescaleTo r (mean aligned)
    if distance t t' < 1 / 10 ^ 6 then aligned else procrustes r shapes k t'

/-- `align_shapes`, `/repo/menpofit/builder.py:407-426`; the first target is the mean, and there are
at most 100 iterations. -/
def alignShapes (shapes : List (CShape n)) : List (CShape n) :=
  let c := shapes.map centred
  procrustes (size (mean c)) c 100 (mean c)

/-! ### Shape models -/

/-- The aligned shapes a shape model describes: those it was built from
(`/repo/menpofit/modelinstance.py:302-303`), followed by those of each increment (`:401-404`,
`:684-687`), every batch aligned on its own.  Simplification: menpo's incremental PCA with a
forgetting factor of 1 is taken as the PCA of all the data it was given. -/
def modelData (first : List (CShape n)) (increments : List (List (CShape n))) :
    List (CShape n) :=
  alignShapes first ++ (increments.map alignShapes).flatten

/-- The total variance of the PCA of some data (up to menpo's constant factor).
See `/repo/menpofit/modelinstance.py:302-303` -/
def scatter (data : List (CShape n)) : ℝ :=
  (data.map fun s => ∑ i, ‖s i - mean data i‖ ^ 2).sum

end
end Gpa
end Menpofit
