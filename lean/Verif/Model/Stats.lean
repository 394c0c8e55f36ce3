import Verif.Model.Py
import Mathlib.Algebra.Order.Field.Basic
import Mathlib.Algebra.Order.Floor.Ring
import Mathlib.Data.List.Sort
import Mathlib.Data.List.MinMax
import Mathlib.Analysis.Real.Sqrt
/-!
# NumPy statistics and the error statistics of menpofit

Models `/repo/menpofit/error/stats.py`.  Arrays are lists over an ordered field (exact
arithmetic); `nan`, `inf` and rounding are not modelled.  `np.mean`, `np.max`,
`np.min`, `np.median` are only called on non-empty arrays; their value on `[]`
stands for the `nan` of NumPy and no theorem relies on it.
-/

namespace Menpofit
namespace Stats

section Field
variable {K : Type} [Field K] [LinearOrder K]

/-- `np.mean`. See `/repo/menpofit/error/stats.py:126` -/
def npMean (l : List K) : K := l.sum / l.length

/-- `np.max`. See `/repo/menpofit/error/stats.py:130` -/
def npMax : List K → K
  | [] => 0
  | x :: xs => xs.foldl max x

/-- `np.min`. See `/repo/menpofit/error/base.py:43` -/
def npMin : List K → K
  | [] => 0
  | x :: xs => xs.foldl min x

/-- `np.median`: the middle element of the sorted array, or the mean of the two middle
ones. See `/repo/menpofit/error/stats.py:46` -/
def npMedian (l : List K) : K :=
  let s := l.mergeSort (· ≤ ·)
  if l.length % 2 = 1 then s.getD (l.length / 2) 0
  else (s.getD (l.length / 2 - 1) 0 + s.getD (l.length / 2) 0) / 2

/-- `np.count_nonzero([errors <= x])`. See `/repo/menpofit/error/stats.py:29` -/
def countLe (errors : List K) (x : K) : Nat := errors.countP fun e => decide (e ≤ x)

/-- /repo/menpofit/error/stats.py:12-29 `compute_cumulative_error`.  The division by the
Python integer `n_errors` raises for an empty error list, once a bin is
evaluated. -/
def computeCumulativeError (errors bins : List K) : Except PyErr (List K) :=
  match errors, bins with
  | _, [] => .ok []
  | [], _ :: _ => .error .zeroDivisionError
  | errors, bins => .ok (bins.map fun x => (countLe errors x : K) / errors.length)

/-- /repo/menpofit/error/stats.py:32-47 `mad`. -/
def mad (errors : List K) : K :=
  let med := npMedian errors
  npMedian (errors.map fun e => |e - med|)

/-- The parabola rule on three consecutive points (`scipy.integrate.simps`,
`_basic_simps` with sample points `x`). See `/repo/menpofit/error/stats.py:76` -/
def simpsPanel (x0 y0 x1 y1 x2 y2 : K) : K :=
  let h0 := x1 - x0
  let h1 := x2 - x1
  (h0 + h1) / 6 * (y0 * (2 - 1 / (h0 / h1)) + y1 * ((h0 + h1) * (h0 + h1) / (h0 * h1)) +
    y2 * (2 - h0 / h1))

/-- `_basic_simps` of SciPy: panels of three points, each starting where the previous one
ended. See `/repo/menpofit/error/stats.py:76` -/
def basicSimps : List (K × K) → K
  | p0 :: p1 :: p2 :: rest =>
    simpsPanel p0.1 p0.2 p1.1 p1.2 p2.1 p2.2 + basicSimps (p2 :: rest)
  | _ => 0

/-- Trapezium on the first two points. See `/repo/menpofit/error/stats.py:76` -/
def trapFirst : List (K × K) → K
  | (x0, y0) :: (x1, y1) :: _ => (x1 - x0) * (y0 + y1) / 2
  | _ => 0

/-- `scipy.integrate.simps(y, x=x)` with its default `even='avg'`: for an even number of
points the mean of the two ways to cover the points by panels and one
trapezium (at the end, or at the beginning). See `/repo/menpofit/error/stats.py:76` -/
def simps (pts : List (K × K)) : K :=
  if pts.length % 2 = 1 then basicSimps pts
  else
    (basicSimps pts.dropLast + basicSimps pts.tail) / 2 +
      (trapFirst (pts.drop (pts.length - 2)) + trapFirst pts) / 2

variable [FloorRing K]

/-- `np.arange(start, stop, step)`. See `/repo/menpofit/error/stats.py:74` -/
def arange (start stop step : K) : Except PyErr (List K) :=
  if step = 0 then .error .zeroDivisionError
  else .ok ((List.range ⌈(stop - start) / step⌉.toNat).map fun (i : Nat) => start + i * step)

/-- /repo/menpofit/error/stats.py:50-76 `area_under_curve_and_failure_rate`: the pair of the
area and the failure rate.  An empty axis makes `ced[-1]` fail. -/
def aucAndFailureRate (errors : List K) (step maxError minError : K) :
    Except PyErr (K × K) := do
  let xAxis ← arange minError (maxError + step) step
  let ced ← computeCumulativeError errors xAxis
  match ced.getLast? with
  | none => .error .indexError
  | some l => pure (simps (xAxis.zip ced) / maxError, 1 - l)

end Field

/-- `np.std`: root of the mean squared deviation. See `/repo/menpofit/error/stats.py:127` -/
noncomputable def npStd (l : List ℝ) : ℝ := Real.sqrt (npMean (l.map fun e => (e - npMean l) ^ 2))

/-- The seven statistics, in the order in which they are returned.
See `/repo/menpofit/error/stats.py:79-145` -/
structure Measures (α : Type) where
  mean : α
  std : α
  median : α
  mad : α
  max : α
  auc : α
  fail : α

/-- /repo/menpofit/error/stats.py:126-133 and 137-144: the seven statistics of one list of
errors.  `np.max` of an empty array raises `ValueError`. -/
noncomputable def measuresOne (e : List ℝ) (step maxError minError : ℝ) :
    Except PyErr (Measures ℝ) :=
  if e = [] then .error .valueError
  else do
    let a ← aucAndFailureRate e step maxError minError
    pure ⟨npMean e, npStd e, npMedian e, mad e, npMax e, a.1, a.2⟩

/-- The argument `errors`: one list of numbers or a list of lists.
See `/repo/menpofit/error/stats.py:79-145` -/
inductive Errors where
  | one (e : List ℝ)
  | many (es : List (List ℝ))

/-- The return value: seven numbers or seven lists. See `/repo/menpofit/error/stats.py:79-145` -/
inductive Stat where
  | scalars (m : Measures ℝ)
  | lists (m : Measures (List ℝ))

/-- /repo/menpofit/error/stats.py:118-135: the loop over the lists of errors, with its seven
accumulators. -/
noncomputable def measuresLoop (step maxError minError : ℝ) (acc : Measures (List ℝ)) :
    List (List ℝ) → Except PyErr (Measures (List ℝ))
  | [] => .ok acc
  | e :: es => do
    let m ← measuresOne e step maxError minError
    measuresLoop step maxError minError
      ⟨acc.mean ++ [m.mean], acc.std ++ [m.std], acc.median ++ [m.median], acc.mad ++ [m.mad],
        acc.max ++ [m.max], acc.auc ++ [m.auc], acc.fail ++ [m.fail]⟩ es

/-- /repo/menpofit/error/stats.py:79-145 `compute_statistical_measures`.  `errors[0]` of an
empty list raises `IndexError`. -/
noncomputable def computeStatisticalMeasures (errors : Errors) (step maxError minError : ℝ) :
    Except PyErr Stat :=
  match errors with
  | .one [] | .many [] => .error .indexError
  | .one e => do
    let m ← measuresOne e step maxError minError
    pure (.scalars m)
  | .many es => do
    let m ← measuresLoop step maxError minError ⟨[], [], [], [], [], [], []⟩ es
    pure (.lists m)

end Stats
end Menpofit
