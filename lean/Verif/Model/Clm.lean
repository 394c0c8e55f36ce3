import Verif.Model.Base
import Verif.Model.Stats
import Verif.Model.GaussNewton
import Mathlib.Analysis.Complex.Exponential
import Mathlib.Analysis.Real.Pi.Bounds
/-!
# Constrained local models: response maps and landmark targets

Models `/repo/menpofit/clm/expert/base.py:8-35` and the part of the runs in
`/repo/menpofit/clm/algorithm/gd.py` between the responses of the experts and the increment of the
shape parameters.  Arithmetic is exact; a response map is the list of its values row by row.
-/

namespace Menpofit
namespace Clm
open Base Stats

noncomputable section

/-- `probability_map`, `/repo/menpofit/clm/expert/base.py:9-35`, of a stack of `h × w` maps (axes
`(-2, -1)`).  The masks `nonzero` and `~nonzero` have the shape of the totals, one value per map;
indexing the stack with them raises `IndexError` unless the maps have a single pixel, and
`np.prod(axes)` is `(-2) * (-1) = 2`.  Reducing an empty map raises `ValueError`. -/
def probabilityMap (h w : Nat) (maps : List (List ℝ)) : Except PyErr (List (List ℝ)) :=
  if maps.length ≠ 0 ∧ h * w = 0 then .error .valueError
  else
    let x := maps.map fun m => m.map (· - npMin m)
    if x.all (fun m => decide (0 < m.sum)) then
      .ok (x.map fun m => m.map (· / m.sum))
    else if h = 1 ∧ w = 1 then
      .ok (x.map fun m => if 0 < m.sum then m.map (· / m.sum) else m.map fun _ => 1 / 2)
    else .error .indexError

/-- The offsets of `build_grid` row by row. See `/repo/menpofit/base.py:16-25` -/
def offsets (h w : Nat) : List (Int × Int) := (buildGrid (h, w)).flatten

/-- The positions considered for a landmark, `/repo/menpofit/clm/algorithm/gd.py:302-303` (`:159-160`). -/
def candidates (h w : Nat) (pt : ℝ × ℝ) : List (ℝ × ℝ) :=
  (offsets h w).map fun g => (pt.1 + g.1, pt.2 + g.2)

/-- `weights /= np.sum(weights)` and the weighted sum of the candidates,
`/repo/menpofit/clm/algorithm/gd.py:312-317` (`:173-178`). -/
def weightedMean (weights : List ℝ) (cands : List (ℝ × ℝ)) : ℝ × ℝ :=
  let k := weights.map (· / weights.sum)
  ((List.zipWith (fun v c => v * c.1) k cands).sum, (List.zipWith (fun v c => v * c.2) k cands).sum)

/-- `multivariate_normal(mean=np.zeros(2), cov=c).pdf`.
See `/repo/menpofit/clm/algorithm/gd.py:103` -/
def gauss (c : ℝ) (v : ℝ × ℝ) : ℝ :=
  Real.exp (-(v.1 ^ 2 + v.2 ^ 2) / (2 * c)) / (2 * Real.pi * c)

/-- The mean shift target of one landmark, `/repo/menpofit/clm/algorithm/gd.py:246-247` and `:310-317`
(`/repo/menpofit/unified_aam_clm/algorithm.py:103-108`). -/
def rlmsTarget (h w : Nat) (c : ℝ) (pt : ℝ × ℝ) (response : List ℝ) : ℝ × ℝ :=
  let kernel := (offsets h w).map fun g => gauss c ((g.1 : ℝ), (g.2 : ℝ))
  weightedMean (List.zipWith (· * ·) response kernel) (candidates h w pt)

/-- `np.round(n / 2)` of an integer: halves go to the even neighbour.
See `/repo/menpofit/clm/algorithm/gd.py:98` -/
def roundHalf (n : Nat) : Nat :=
  if n % 2 = 0 then n / 2 else if (n / 2) % 2 = 0 then n / 2 else n / 2 + 1

/-- `np.argmax`: the first index of the largest value.
See `/repo/menpofit/clm/algorithm/gd.py:165` -/
def argmax (l : List ℝ) : Nat := l.findIdx fun x => decide (x = npMax l)

/-- `max_indices - half_search_shape`, `/repo/menpofit/clm/algorithm/gd.py:98-99` and `:165-170`. -/
def asmPeak (h w : Nat) (response : List ℝ) : Int × Int :=
  ((argmax response / w : Nat) - (roundHalf h : Int), (argmax response % w : Nat) - (roundHalf w : Int))

/-- The target of one landmark in the active shape model, `/repo/menpofit/clm/algorithm/gd.py:165-178`.
Simplification: at least two landmarks and a window of at least two pixels along each axis (otherwise
SciPy drops the axis of length one and the arrays no longer match). -/
def asmTarget (h w : Nat) (c : ℝ) (pt : ℝ × ℝ) (response : List ℝ) : ℝ × ℝ :=
  let m := asmPeak h w response
  weightedMean ((offsets h w).map fun g => gauss c (((m.1 + g.1 : Int) : ℝ), ((m.2 + g.2 : Int) : ℝ)))
    (candidates h w pt)

/-- The error of one landmark in the active shape model, `/repo/menpofit/clm/algorithm/gd.py:181`. -/
def asmError (h w : Nat) (c : ℝ) (pt : ℝ × ℝ) (response : List ℝ) : ℝ × ℝ :=
  let t := asmTarget h w c pt response
  (pt.1 - t.1, pt.2 - t.2)

/-- The error of one landmark in mean-shift fitting, `/repo/menpofit/clm/algorithm/gd.py:320`. -/
def rlmsError (h w : Nat) (c : ℝ) (pt : ℝ × ℝ) (response : List ℝ) : ℝ × ℝ :=
  let t := rlmsTarget h w c pt response
  (t.1 - pt.1, t.2 - pt.2)

/-- `ravel()` of `n` points: `y₀, x₀, y₁, x₁, …`. See `/repo/menpofit/clm/algorithm/gd.py:181` -/
def ravel {n : Nat} (v : Fin n → ℝ × ℝ) : Fin (n * 2) → ℝ := fun i =>
  let q := finProdFinEquiv.symm i
  if q.2 = 0 then (v q.1).1 else (v q.1).2

/-- One iteration of regularised landmark mean-shift from the responses to the new parameters,
`/repo/menpofit/clm/algorithm/gd.py:310-332`; `shape p` is the current target, `respond` the
probability maps of the experts for it. -/
def rlmsStep {n k : Nat} (h w : Nat) (c : ℝ) (J : Matrix (Fin (n * 2)) (Fin k) ℝ)
    (prior : Fin k → ℝ) (shape : (Fin k → ℝ) → Fin n → ℝ × ℝ)
    (respond : (Fin n → ℝ × ℝ) → Except PyErr (Fin n → List ℝ)) (mapInference : Bool)
    (p : Fin k → ℝ) : Except PyErr (Fin k → ℝ) := do
  let target := shape p
  let responses ← respond target
  let error := ravel fun i => rlmsError h w c (target i) (responses i)
  let dp ← if mapInference then GN.clmMapStep J prior error p else GN.clmMlStep J error
  return p + dp

end
end Clm
end Menpofit
