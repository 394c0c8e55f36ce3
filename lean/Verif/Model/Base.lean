import Mathlib.Data.List.Basic
/-!
# Model of `menpofit/base.py`
-/

namespace Menpofit
namespace Base

/-- `batch`, `/repo/menpofit/base.py:7-13`.  The iterator is the list of the
elements it would still produce; `islice(it, n)` takes up to `n` of them.  The
generator stops at the first empty chunk. -/
def batch (n : Nat) (it : List α) : List (List α) :=
  let chunk := it.take n
  if _h : chunk = [] then [] else chunk :: batch n (it.drop n)
termination_by it.length
decreasing_by
  have h1 : it ≠ [] := by intro h; apply _h; simp [chunk, h]
  have h2 : n ≠ 0 := by intro h; apply _h; simp [chunk, h]
  have := List.length_pos_iff.mpr h1
  simp only [List.length_drop]; omega

/-- `start:end` of `np.mgrid` along one axis. See `/repo/menpofit/base.py:24` -/
def intRange (start stop : Int) : List Int :=
  (List.range (stop - start).toNat).map fun (i : Nat) => start + (i : Int)

/-- `build_grid`, `/repo/menpofit/base.py:16-26`.  Row-major `(h, w, 2)` array as a
list of rows of `(y, x)` offsets. -/
def buildGrid (shape : Nat × Nat) : List (List (Int × Int)) :=
  let half0 : Int := (shape.1 / 2 : Nat)
  let half1 : Int := (shape.2 / 2 : Nat)
  let end0 : Int := half0 + (shape.1 % 2 : Nat)
  let end1 : Int := half1 + (shape.2 % 2 : Nat)
  (intRange (-half0) end0).map fun y => (intRange (-half1) end1).map fun x => (y, x)

end Base
end Menpofit
