import Verif.Model.Optim
import Mathlib.LinearAlgebra.Matrix.NonsingularInverse
import Mathlib.Data.Fin.Tuple.Basic
import Mathlib.Algebra.Order.Field.Basic
/-!
# Model of the Gauss-Newton solvers

`/repo/menpofit/aam/algorithm/lk.py` (interfaces and project-out algorithms),
`/repo/menpofit/atm/algorithm.py`, `/repo/menpofit/aps/algorithm/gn.py`,
`/repo/menpofit/clm/algorithm/gd.py`,
`/repo/menpofit/unified_aam_clm/algorithm.py`.  Floating point is exact
arithmetic in a field `K`; arrays are vectors and matrices with explicit sizes.
-/

namespace Menpofit
namespace GN

open Matrix

noncomputable section

variable {K : Type} [Field K] [DecidableEq K]

/-- `np.linalg.solve(H, b)`: raises `LinAlgError` for a singular matrix.
See `/repo/menpofit/aam/algorithm/lk.py:234` -/
def npSolve {n : Nat} (H : Matrix (Fin n) (Fin n) K) (b : Fin n → K) :
    Except PyErr (Fin n → K) :=
  if H.det = 0 then .error .linAlgError else .ok (H⁻¹ *ᵥ b)

/-- `np.linalg.solve(H, B)` with a matrix right-hand side.
See `/repo/menpofit/aam/algorithm/lk.py:937` -/
def npSolveMat {n m : Nat} (H : Matrix (Fin n) (Fin n) K) (B : Matrix (Fin n) (Fin m) K) :
    Except PyErr (Matrix (Fin n) (Fin m) K) :=
  if H.det = 0 then .error .linAlgError else .ok (H⁻¹ * B)

/-- `np.linalg.inv(H)`. See `/repo/menpofit/math/regression.py:46-50` -/
def npInv {n : Nat} (H : Matrix (Fin n) (Fin n) K) :
    Except PyErr (Matrix (Fin n) (Fin n) K) :=
  if H.det = 0 then .error .linAlgError else .ok H⁻¹

/-- `a is b` for two freshly created Python integers: CPython shares the objects
of the integers from -5 to 256 and no others. See `/repo/menpofit/aam/algorithm/lk.py:204-234` -/
def pyIs (a b : Nat) : Bool := a == b && a ≤ 256

/-- The lines of `solve_shape_map` after the bidirectional case,
`/repo/menpofit/aam/algorithm/lk.py:231-234`: `H += np.diag(J_prior)` in place
(the first component is `H` after the call), `Je = J_prior * p + J.T.dot(e)`,
`-np.linalg.solve(H, Je)`. -/
def mapStep {n m : Nat} (H : Matrix (Fin n) (Fin n) K) (J : Matrix (Fin m) (Fin n) K)
    (e : Fin m → K) (prior p : Fin n → K) :
    Matrix (Fin n) (Fin n) K × Except PyErr (Fin n → K) :=
  let H' := H + diagonal prior
  let Je := prior * p + Jᵀ *ᵥ e
  (H', (npSolve H' Je).map fun x => -x)

/-- `solve_shape_map`, `/repo/menpofit/aam/algorithm/lk.py:204-234`.  `p` and the prior
have `np` entries, `H` is `nH × nH`; unless `p.shape[0] is H.shape[0]` both are
doubled.  A mismatch of sizes makes `H += np.diag(J_prior)` raise `ValueError`
before `H` is changed. -/
def solveShapeMap {nH np m : Nat} (H : Matrix (Fin nH) (Fin nH) K)
    (J : Matrix (Fin m) (Fin nH) K) (e : Fin m → K) (prior p : Fin np → K) :
    Matrix (Fin nH) (Fin nH) K × Except PyErr (Fin nH → K) :=
  if pyIs np nH then
    if h : nH = np then
      mapStep H J e (fun i => prior (Fin.cast h i)) (fun i => p (Fin.cast h i))
    else (H, .error .valueError)
  else
    if h : nH = np + np then
      mapStep H J e (fun i => Fin.append prior prior (Fin.cast h i))
        (fun i => Fin.append p p (Fin.cast h i))
    else (H, .error .valueError)

/-- `solve_shape_ml`, `/repo/menpofit/aam/algorithm/lk.py:236-256`. -/
def solveShapeMl {n m : Nat} (H : Matrix (Fin n) (Fin n) K) (J : Matrix (Fin m) (Fin n) K)
    (e : Fin m → K) : Except PyErr (Fin n → K) :=
  (npSolve H (Jᵀ *ᵥ e)).map fun x => -x

/-- `_solve_all_map`, `/repo/menpofit/aam/algorithm/lk.py:10-20`: appearance (`m`) and
shape (`n`) parameters together; `H` is `nH × nH` and is a fresh matrix in every
caller (its mutation is not observable).  The result is `dq[:m], dq[m:]`. -/
def solveAllMap {nH m n k : Nat} (H : Matrix (Fin nH) (Fin nH) K)
    (J : Matrix (Fin k) (Fin nH) K) (e : Fin k → K) (priorA c : Fin m → K)
    (priorS p : Fin n → K) : Except PyErr ((Fin m → K) × (Fin (nH - m) → K)) :=
  let cut := fun (h : m ≤ nH) (q : Fin nH → K) =>
    ((fun i : Fin m => q (Fin.castLE h i)),
     (fun i : Fin (nH - m) => q ⟨m + i, by omega⟩))
  if pyIs n (nH - m) then
    if h : nH = m + n then
      (mapStep H J e (fun i => Fin.append priorA priorS (Fin.cast h i))
        (fun i => Fin.append c p (Fin.cast h i))).2.map (cut (by omega))
    else .error .valueError
  else
    if h : nH = m + (n + n) then
      (mapStep H J e (fun i => Fin.append priorA (Fin.append priorS priorS) (Fin.cast h i))
        (fun i => Fin.append c (Fin.append p p) (Fin.cast h i))).2.map (cut (by omega))
    else .error .valueError

/-! ### The project-out algorithms (AAM) and the ATM algorithms

The ATM algorithms are the same with nothing projected out
(`/repo/menpofit/atm/algorithm.py:223-375`: `Q = 1`, `a_bar = template`). -/

/-- What a project-out algorithm uses of its interface. `W` is a warped image.
See `/repo/menpofit/aam/algorithm/lk.py:833-888` -/
structure Env (n m : Nat) (K S Im W E : Type) where
  /-- `transform.set_target(shape)`: the resulting parameters -/
  setTarget : S → Fin n → K
  /-- `transform.target` at given parameters -/
  target : (Fin n → K) → S
  /-- `interface.warp(image)` at given parameters -/
  warp : Im → (Fin n → K) → Except PyErr W
  /-- `i.as_vector()[interface.i_mask]` -/
  mask : W → Fin m → K
  /-- steepest descent images of the warped image -/
  jac : W → Matrix (Fin m) (Fin n) K
  /-- `a_bar_m` -/
  aBar : Fin m → K
  /-- `I - A_m pinv(A_m)` -/
  Q : Matrix (Fin m) (Fin m) K
  /-- `s2_inv_L` -/
  prior : Fin n → K
  /-- `np.abs(np.linalg.norm(s - s'))` -/
  dist : S → S → E

/-- The attributes computed by `ProjectOutInverseCompositional._precompute`,
`/repo/menpofit/aam/algorithm/lk.py:925-937`. -/
structure Cache (n m : Nat) (K : Type) where
  QJ : Matrix (Fin m) (Fin n) K
  JQJ : Matrix (Fin n) (Fin n) K
  pinvQJ : Matrix (Fin n) (Fin m) K

/-- `_precompute` of the inverse algorithm given the Jacobian of the mean,
`/repo/menpofit/aam/algorithm/lk.py:928-937`. -/
def precompute {n m : Nat} (Q : Matrix (Fin m) (Fin m) K) (J : Matrix (Fin m) (Fin n) K) :
    Except PyErr (Cache n m K) := do
  let QJ := Q * J
  let JQJ := QJᵀ * J
  let pinv ← npSolveMat JQJ QJᵀ
  return ⟨QJ, JQJ, pinv⟩

/-- State of a run: the object's cache, the parameters, the warped image.
See `/repo/menpofit/aam/algorithm/lk.py:833-888` -/
structure PState (n m : Nat) (K W : Type) where
  cache : Cache n m K
  p : Fin n → K
  i : W

variable {n m : Nat} {S Im W E : Type}

/-- `_solve` of the forward algorithm, `/repo/menpofit/aam/algorithm/lk.py:895-910`
(ATM: `/repo/menpofit/atm/algorithm.py:323-336`). -/
def solveForward (env : Env n m K S Im W E) (map : Bool) (s : PState n m K W) :
    Except PyErr (Fin n → K) :=
  let e := env.mask s.i - env.aBar
  let J := env.jac s.i
  let QJ := env.Q * J
  let H := QJᵀ * J
  if map then (solveShapeMap H QJ e env.prior s.p).2 else solveShapeMl H QJ e

/-- `_solve` of the inverse algorithm, `/repo/menpofit/aam/algorithm/lk.py:939-946`
(ATM: `/repo/menpofit/atm/algorithm.py:363-370`).  With MAP inference the cached
Hessian itself is passed to `solve_shape_map`, which changes it in place. -/
def solveInverse (env : Env n m K S Im W E) (map : Bool) (s : PState n m K W) :
    Cache n m K × Except PyErr (Fin n → K) :=
  let e := env.mask s.i - env.aBar
  if map then
    let r := solveShapeMap s.cache.JQJ s.cache.QJ e env.prior s.p
    ({ s.cache with JQJ := r.1 }, r.2)
  else (s.cache, .ok (-(s.cache.pinvQJ *ᵥ e)))

/-- One iteration, `/repo/menpofit/aam/algorithm/lk.py:858-880`; the update of the warp
is `p + dp` (`:912-915`) or `p - dp` (`:948-951`). -/
def poStep (env : Env n m K S Im W E) (inverse map : Bool) (im : Im) (s : PState n m K W) :
    PState n m K W × Except PyErr E :=
  let r := if inverse then solveInverse env map s else (s.cache, solveForward env map s)
  match r.2 with
  | .error e => ({ s with cache := r.1 }, .error e)
  | .ok dp =>
    let p' := if inverse then s.p - dp else s.p + dp
    match env.warp im p' with
    | .error e => (⟨r.1, p', s.i⟩, .error e)
    | .ok i' => (⟨r.1, p', i'⟩, .ok (env.dist (env.target s.p) (env.target p')))

/-- `ProjectOut.run` as an optimiser; the cost is `e.T.dot(project_out(e))`
(`/repo/menpofit/aam/algorithm/lk.py:830-831`). -/
def poMachine (env : Env n m K S Im W E) (inverse map : Bool) (im : Im) :
    Optim.Machine (PState n m K W) S (Fin n → K) K E where
  step := poStep env inverse map im
  shape s := env.target s.p
  params s := s.p
  cost s := (env.mask s.i - env.aBar) ⬝ᵥ (env.Q *ᵥ (env.mask s.i - env.aBar))

/-- The arguments of a run. See `/repo/menpofit/aam/algorithm/lk.py:795-796` -/
structure Input (S Im E : Type) where
  im : Im
  init : S
  maxIters : Int
  costs : Bool
  map : Bool

/-- `ProjectOut.run`, `/repo/menpofit/aam/algorithm/lk.py:795-888`: the cache of the
algorithm object before and after the call, and what the call returns. -/
def poRun [LinearOrder E] (env : Env n m K S Im W E) (inverse : Bool) (tol : E)
    (cache : Cache n m K) (x : Input S Im E) :
    Cache n m K × Except PyErr (Optim.Trace S (Fin n → K) K) :=
  let p := env.setTarget x.init
  match env.warp x.im p with
  | .error e => (cache, .error e)
  | .ok i =>
    let r := Optim.run (poMachine env inverse x.map x.im) false x.maxIters tol x.costs ⟨cache, p, i⟩
    (r.1.cache, r.2)

/-- The cache of the algorithm object after a history of runs.
See `/repo/menpofit/aam/algorithm/lk.py:925-937` -/
def afterRuns [LinearOrder E] (env : Env n m K S Im W E) (inverse : Bool) (tol : E)
    (cache : Cache n m K) (hist : List (Input S Im E)) : Cache n m K :=
  hist.foldl (fun c x => (poRun env inverse tol c x).1) cache

/-! ### The other regularised steps -/

/-- APS `Forward.run`: the increment, `/repo/menpofit/aps/algorithm/gn.py:609-621`
(`Q_a.dot(J_a).T` is the transposed product, `:227`). -/
def apsForwardStep (J : Matrix (Fin m) (Fin n) K) (Qa : Matrix (Fin m) (Fin m) K)
    (Hs : Matrix (Fin n) (Fin n) K) (e : Fin m → K) (p : Fin n → K) :
    Except PyErr (Fin n → K) :=
  let JQ := (Qa * J)ᵀ
  let H := JQ * J + Hs
  let b := JQ *ᵥ e + Hs *ᵥ p
  (npSolve H b).map fun x => -x

/-- APS `Inverse.run`: the new parameters, `/repo/menpofit/aps/algorithm/gn.py:384-388`
and `:466-476`. `p` is the vector after the optional zeroing of the four
similarity parameters (`use_procrustes`), `q` the current parameters. -/
def apsInverseUpdate (J : Matrix (Fin m) (Fin n) K) (Qa : Matrix (Fin m) (Fin m) K)
    (Hs : Matrix (Fin n) (Fin n) K) (e : Fin m → K) (p q : Fin n → K) :
    Except PyErr (Fin n → K) := do
  let JQ := (Qa * J)ᵀ
  let inv ← npInv (JQ * J + Hs)
  return q - inv *ᵥ (JQ *ᵥ e + Hs *ᵥ p)

/-- CLM `run` with `map_inference`: the increment,
`/repo/menpofit/clm/algorithm/gd.py:55-58` and `:184-187`, `:323-326`. -/
def clmMapStep (J : Matrix (Fin m) (Fin n) K) (prior : Fin n → K) (error : Fin m → K)
    (p : Fin n → K) : Except PyErr (Fin n → K) := do
  let inv ← npInv (Jᵀ * J + diagonal prior)
  return -(inv *ᵥ (prior * p - Jᵀ *ᵥ error))

/-- CLM `run` without prior: `pinv_J.dot(error)`,
`/repo/menpofit/clm/algorithm/gd.py:57` and `:189`, `:328`. -/
def clmMlStep (J : Matrix (Fin m) (Fin n) K) (error : Fin m → K) :
    Except PyErr (Fin n → K) := do
  let pinv ← npSolveMat (Jᵀ * J) Jᵀ
  return pinv *ᵥ error

end

end GN
end Menpofit
