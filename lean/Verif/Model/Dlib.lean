import Verif.Model.Py
import Verif.Model.Stats
import Mathlib.Data.Real.Archimedean
import Mathlib.Algebra.Order.Floor.Ring
/-!
# Conversions to and from dlib

Models `/repo/menpofit/dlib/conversion.py` and `/repo/menpofit/dlib/algorithm.py:45-73`.  Coordinates
are reals.  Not modelled: the conversion of pixels.
-/

namespace Menpofit
namespace Dlib

noncomputable section

/-- `int(x)` of a float: towards zero. See `/repo/menpofit/dlib/conversion.py:11` -/
def pyInt (x : ℝ) : ℤ := if 0 ≤ x then ⌊x⌋ else ⌈x⌉

/-- `dlib.rectangle`. See `/repo/menpofit/dlib/conversion.py:25` -/
structure Rect where
  left : ℤ
  top : ℤ
  right : ℤ
  bottom : ℤ

/-- `dlib.point`. See `/repo/menpofit/dlib/conversion.py:11` -/
structure Point where
  x : ℤ
  y : ℤ

/-- `pointcloud_to_dlib_parts`, `/repo/menpofit/dlib/conversion.py:10-11`; points are `(y, x)`. -/
def toParts (pc : List (ℝ × ℝ)) : List Point := pc.map fun p => ⟨pyInt p.2, pyInt p.1⟩

/-- `dlib_full_object_detection_to_pointcloud`, `/repo/menpofit/dlib/conversion.py:7` and `:14-15`
(`np.vstack` of nothing raises `ValueError`). -/
def ofParts (parts : List Point) : Except PyErr (List (ℝ × ℝ)) :=
  if parts.length = 0 then .error .valueError else .ok (parts.map fun p => ((p.y : ℝ), (p.x : ℝ)))

/-- menpo `bounding_box(closest_to_origin, opposite_corner)`: the corners in order.
See `/repo/menpofit/dlib/conversion.py:18-20` -/
def boxOf (a b : ℝ × ℝ) : List (ℝ × ℝ) := [(a.1, a.2), (b.1, a.2), (b.1, b.2), (a.1, b.2)]

/-- `dlib_rect_to_bounding_box`, `/repo/menpofit/dlib/conversion.py:18-20`. -/
def ofRect (r : Rect) : List (ℝ × ℝ) := boxOf (r.top, r.left) (r.bottom, r.right)

/-- `pointcloud_to_dlib_rect`, `/repo/menpofit/dlib/conversion.py:23-26`; `bounds()` is the smallest
and largest coordinate along each axis. -/
def toRect (pc : List (ℝ × ℝ)) : Except PyErr Rect :=
  if pc.length = 0 then .error .valueError
  else .ok ⟨pyInt (Stats.npMin (pc.map Prod.snd)), pyInt (Stats.npMin (pc.map Prod.fst)),
    pyInt (Stats.npMax (pc.map Prod.snd)), pyInt (Stats.npMax (pc.map Prod.fst))⟩

end

/-! ### Options -/

/-- The training options of dlib by name.  A name that contains two underscores is not an option but
part of every Python object. See `/repo/menpofit/dlib/conversion.py:35-39` -/
abbrev Options (A : Type) := String → A

/-- `copy_dlib_options`, `/repo/menpofit/dlib/conversion.py:35-39`: `names` is `dir(options)`, `fresh`
the new options. -/
def copyOptions {A : Type} (hidden : String → Bool) (names : List String) (fresh options : Options A) :
    Options A :=
  (names.filter fun n => !hidden n).foldl (fun o n => Function.update o n (options n)) fresh

/-- An algorithm: its number of iterations and its own options.
See `/repo/menpofit/dlib/algorithm.py:45-50` -/
structure Alg (A : Type) where
  nIterations : A
  options : Options A

/-- `DlibAlgorithm.__init__`, `/repo/menpofit/dlib/algorithm.py:45-50`. -/
def newAlg {A : Type} (hidden : String → Bool) (names : List String) (fresh options : Options A)
    (nIterations : A) : Alg A :=
  ⟨nIterations,
    Function.update (copyOptions hidden names fresh options) "cascade_depth" nIterations⟩

/-- `n_iterations = v`, `/repo/menpofit/dlib/algorithm.py:61-73`. -/
def setIterations {A : Type} (a : Alg A) (v : A) : Alg A :=
  ⟨v, Function.update a.options "cascade_depth" v⟩

end Dlib
end Menpofit
