import Verif.Model.GaussNewton
/-!
# The Active Appearance Model optimisers

Models `/repo/menpofit/aam/algorithm/lk.py:714-1633`: project-out, simultaneous,
alternating, modified alternating and Wiberg, each forward and inverse.  The
images, warps and steepest descent images are parameters; everything the
algorithms do with the resulting arrays is modelled.  Exact arithmetic in a field.
-/

namespace Menpofit
namespace Aam

open Matrix GN

noncomputable section

variable {K : Type} [Field K] [DecidableEq K]

/-- What the optimisers use of the interface and of the models
(`/repo/menpofit/aam/algorithm/lk.py:751-779`).  `n` shape parameters, `a` appearance
parameters, `m` masked features; `W` is a warped image. -/
structure Setup (n a m : Nat) (K S Im W E : Type) where
  /-- `transform.set_target(shape)`: the resulting parameters -/
  setTarget : S → Fin n → K
  /-- `transform.target` at given parameters -/
  target : (Fin n → K) → S
  /-- `interface.warp(image)` at given parameters -/
  warp : Im → (Fin n → K) → Except PyErr W
  /-- `i.as_vector()[interface.i_mask]` -/
  mask : W → Fin m → K
  /-- steepest descent images of the warped image -/
  jacI : W → Matrix (Fin m) (Fin n) K
  /-- steepest descent images of minus the appearance instance at given parameters -/
  jacA : (Fin a → K) → Matrix (Fin m) (Fin n) K
  /-- `a_bar_m` -/
  aBar : Fin m → K
  /-- `A_m`: the masked appearance components, one per column -/
  A : Matrix (Fin m) (Fin a) K
  /-- `pinv_A_m = np.linalg.pinv(A_m)` -/
  pinvA : Matrix (Fin a) (Fin m) K
  /-- `s2_inv_L` -/
  priorS : Fin n → K
  /-- `s2_inv_S` -/
  priorA : Fin a → K
  /-- `np.abs(np.linalg.norm(s - s'))` -/
  dist : S → S → E

variable {n a m : Nat} {S Im W E : Type}

/-- `project_out` of a vector, `/repo/menpofit/aam/algorithm/lk.py:786-793` (and `:1472-1474`). -/
def projectOut (z : Setup n a m K S Im W E) (x : Fin m → K) : Fin m → K :=
  x - z.A *ᵥ (z.pinvA *ᵥ x)

/-- `project_out` of a matrix, `/repo/menpofit/aam/algorithm/lk.py:786-793` (and `:1472-1474`). -/
def projectOutMat (z : Setup n a m K S Im W E) (J : Matrix (Fin m) (Fin n) K) :
    Matrix (Fin m) (Fin n) K :=
  J - z.A * (z.pinvA * J)

/-- `appearance_model.instance(c).as_vector()[i_mask]`: mean plus a combination of the
components (menpo's `PCAModel.instance`, masked), `/repo/menpofit/aam/algorithm/lk.py:1018-1019`. -/
def appearance (z : Setup n a m K S Im W E) (c : Fin a → K) : Fin m → K := z.aBar + z.A *ᵥ c

/-- The project-out algorithms of `Verif.Model.GaussNewton` for this setup.
See `/repo/menpofit/aam/algorithm/lk.py:786-951` -/
def projectOutEnv (z : Setup n a m K S Im W E) : Env n m K S Im W E :=
  ⟨z.setTarget, z.target, z.warp, z.mask, z.jacI, z.aBar, 1 - z.A * z.pinvA, z.priorS, z.dist⟩

/-- `_solve_all_ml`, `/repo/menpofit/aam/algorithm/lk.py:23-26`. -/
def solveAllMl {k : Nat} (H : Matrix (Fin (a + n)) (Fin (a + n)) K)
    (J : Matrix (Fin k) (Fin (a + n)) K) (e : Fin k → K) :
    Except PyErr ((Fin a → K) × (Fin n → K)) :=
  (npSolve H (Jᵀ *ᵥ e)).map fun q =>
    ((fun i => -q (Fin.castAdd n i)), (fun i => -q (Fin.natAdd a i)))

/-- `np.hstack((-A, J))`, `/repo/menpofit/aam/algorithm/lk.py:1075`. -/
def simJacobian (A : Matrix (Fin m) (Fin a) K) (J : Matrix (Fin m) (Fin n) K) :
    Matrix (Fin m) (Fin (a + n)) K :=
  fun r => Fin.append (fun i => -A r i) (J r)

/-- What survives an iteration: shape parameters, appearance parameters, warped image
and (alternating only) `Jdp`. See `/repo/menpofit/aam/algorithm/lk.py:1025-1063` -/
structure St (n a m : Nat) (K W : Type) where
  p : Fin n → K
  c : Fin a → K
  i : W
  Jdp : Fin m → K

/-- `_compute_jacobian`, `/repo/menpofit/aam/algorithm/lk.py:1092-1096` and `:1111-1115`
(the same for the alternating and Wiberg algorithms). -/
def jacobian (z : Setup n a m K S Im W E) (inverse : Bool) (s : St n a m K W) :
    Matrix (Fin m) (Fin n) K :=
  if inverse then z.jacA s.c else z.jacI s.i

/-- `_update_warp`, `/repo/menpofit/aam/algorithm/lk.py:1098-1101` and `:1117-1120`. -/
def updateWarp (inverse : Bool) (p dp : Fin n → K) : Fin n → K :=
  if inverse then p - dp else p + dp

/-- The rest of an iteration once the increments are known: new appearance parameters
(a function of the newly warped image), new shape parameters, warp, movement.
See `/repo/menpofit/aam/algorithm/lk.py:1043-1060` -/
def advance (z : Setup n a m K S Im W E) (inverse : Bool) (im : Im) (s : St n a m K W)
    (J : Matrix (Fin m) (Fin n) K) (dp : Fin n → K) (c' : W → Fin a → K) :
    St n a m K W × Except PyErr E :=
  let p' := updateWarp inverse s.p dp
  match z.warp im p' with
  | .error e => ({ s with p := p' }, .error e)
  | .ok i' => (⟨p', c' i', i', J *ᵥ dp⟩, .ok (z.dist (z.target s.p) (z.target p')))

/-- One iteration of `Simultaneous.run`, `/repo/menpofit/aam/algorithm/lk.py:1030-1085`.
`solve_all_map` is `Verif.Model.GaussNewton.solveAllMap`. -/
def simStep (z : Setup n a m K S Im W E) (inverse map : Bool) (im : Im) (s : St n a m K W) :
    St n a m K W × Except PyErr E :=
  let J := jacobian z inverse s
  let Js := simJacobian z.A J
  let e := z.mask s.i - appearance z s.c
  let r := if map then
      (solveAllMap (Jsᵀ * Js) Js e z.priorA s.c z.priorS s.p).map fun q =>
        (q.1, fun i : Fin n => q.2 (Fin.cast (by omega) i))
    else solveAllMl (Jsᵀ * Js) Js e
  match r with
  | .error err => (s, .error err)
  | .ok (dc, dp) => advance z inverse im s J dp (fun _ => s.c + dc)

/-- `M.dot(v)` for a vector of another length than `M` has columns raises `ValueError`.
See `/repo/menpofit/aam/algorithm/lk.py:1214-1220` -/
def npDot {r k l : Nat} (M : Matrix (Fin r) (Fin k) K) (v : Fin l → K) :
    Except PyErr (Fin r → K) :=
  if h : k = l then .ok (M *ᵥ fun i => v (Fin.cast h i)) else .error .valueError

/-- `x + y` of two vectors of different lengths raises `ValueError` (broadcasting of vectors
of length one is not modelled: callers with length one are excluded in the
theorems). See `/repo/menpofit/aam/algorithm/lk.py:1214-1225` -/
def npAdd {k l : Nat} (x : Fin k → K) (y : Fin l → K) : Except PyErr (Fin k → K) :=
  if h : k = l then .ok (x + fun i => y (Fin.cast h i)) else .error .valueError

/-- The appearance increment of `Alternating.run`,
`/repo/menpofit/aam/algorithm/lk.py:1207-1212`.  With MAP inference the code multiplies by
`A_m`, not by its transpose. -/
def altAppearance (z : Setup n a m K S Im W E) (map : Bool) (s : St n a m K W) :
    Except PyErr (Fin a → K) :=
  let e := z.mask s.i - appearance z s.c
  if map then do
    let Ae ← npDot z.A (e + s.Jdp)
    let b ← npAdd (-(z.priorA * s.c)) Ae
    npSolve ((z.A)ᵀ * z.A + diagonal z.priorA) b
  else .ok (z.pinvA *ᵥ (e + s.Jdp))

/-- The shape increment of `Alternating.run`, `/repo/menpofit/aam/algorithm/lk.py:1214-1225`.
With MAP inference the code multiplies the appearance increment by the transpose. -/
def altShape (z : Setup n a m K S Im W E) (inverse map : Bool) (s : St n a m K W)
    (dc : Fin a → K) : Except PyErr (Fin n → K) :=
  let e := z.mask s.i - appearance z s.c
  let J := jacobian z inverse s
  if map then do
    let Adc ← npDot z.Aᵀ dc
    let r ← npAdd e (-Adc)
    (solveShapeMap (Jᵀ * J) J r z.priorS s.p).2
  else solveShapeMl (Jᵀ * J) J (e - z.A *ᵥ dc)

/-- One iteration of `Alternating.run`, `/repo/menpofit/aam/algorithm/lk.py:1206-1258`. -/
def altStep (z : Setup n a m K S Im W E) (inverse map : Bool) (im : Im) (s : St n a m K W) :
    St n a m K W × Except PyErr E :=
  match altAppearance z map s with
  | .error err => (s, .error err)
  | .ok dc =>
    match altShape z inverse map s dc with
    | .error err => (s, .error err)
    | .ok dp => advance z inverse im s (jacobian z inverse s) dp (fun _ => s.c + dc)

/-- One iteration of `ModifiedAlternating.run`, `/repo/menpofit/aam/algorithm/lk.py:1381-1421`. -/
def modStep (z : Setup n a m K S Im W E) (inverse map : Bool) (im : Im) (s : St n a m K W) :
    St n a m K W × Except PyErr E :=
  let e := z.mask s.i - appearance z s.c
  let J := jacobian z inverse s
  let r := if map then (solveShapeMap (Jᵀ * J) J e z.priorS s.p).2
    else solveShapeMl (Jᵀ * J) J e
  match r with
  | .error err => (s, .error err)
  | .ok dp => advance z inverse im s J dp (fun i' => z.pinvA *ᵥ (z.mask i' - z.aBar))

/-- One iteration of `Wiberg.run`, `/repo/menpofit/aam/algorithm/lk.py:1545-1589`. -/
def wibStep (z : Setup n a m K S Im W E) (inverse map : Bool) (im : Im) (s : St n a m K W) :
    St n a m K W × Except PyErr E :=
  let e := z.mask s.i - z.aBar
  let J := jacobian z inverse s
  let QJ := projectOutMat z J
  let r := if map then (solveShapeMap (QJᵀ * J) QJ e z.priorS s.p).2
    else solveShapeMl (QJᵀ * J) QJ e
  match r with
  | .error err => (s, .error err)
  | .ok dp => advance z inverse im s J dp
      (fun i' => s.c + z.pinvA *ᵥ (z.mask i' - appearance z s.c + J *ᵥ dp))

/-- The algorithms with an explicit appearance. See `/repo/menpofit/aam/algorithm/lk.py:973-1633` -/
inductive Alg | simultaneous | alternating | modifiedAlternating | wiberg
  deriving DecidableEq

/-- The body of the loop of each algorithm. See `/repo/menpofit/aam/algorithm/lk.py:1030-1063` -/
def step (z : Setup n a m K S Im W E) : Alg → (inverse map : Bool) → Im → St n a m K W →
    St n a m K W × Except PyErr E
  | .simultaneous => simStep z
  | .alternating => altStep z
  | .modifiedAlternating => modStep z
  | .wiberg => wibStep z

/-- The cost closures: `x.T.dot(x)` of the masked error
(`/repo/menpofit/aam/algorithm/lk.py:996-997`, `:1171-1172`, `:1345-1346`), for Wiberg
`x.T.dot(project_out(x))` of the difference to the mean (`:1511-1512`, `:1579`). -/
def cost (z : Setup n a m K S Im W E) (alg : Alg) (s : St n a m K W) : K :=
  match alg with
  | .wiberg => (z.mask s.i - z.aBar) ⬝ᵥ projectOut z (z.mask s.i - z.aBar)
  | _ => (z.mask s.i - appearance z s.c) ⬝ᵥ (z.mask s.i - appearance z s.c)

/-- The algorithms as optimisers; the parameters are the shape and the appearance
parameters (`p_list` and `c_list`). See `/repo/menpofit/aam/algorithm/lk.py:1030-1063` -/
def machine (z : Setup n a m K S Im W E) (alg : Alg) (inverse map : Bool) (im : Im) :
    Optim.Machine (St n a m K W) S ((Fin n → K) × (Fin a → K)) K E where
  step := step z alg inverse map im
  shape s := z.target s.p
  params s := (s.p, s.c)
  cost := cost z alg

/-- `run`: set the target, warp, initialise the appearance parameters by projection
(`/repo/menpofit/aam/algorithm/lk.py:999-1023`, `:1174-1199`, `:1348-1374`, `:1514-1538`), loop. -/
def run [LinearOrder E] (z : Setup n a m K S Im W E) (alg : Alg) (inverse map : Bool)
    (maxIters : Int) (tol : E) (returnCosts : Bool) (im : Im) (init : S) :
    Except PyErr (Optim.Trace S ((Fin n → K) × (Fin a → K)) K) :=
  let p := z.setTarget init
  match z.warp im p with
  | .error e => .error e
  | .ok i =>
    (Optim.run (machine z alg inverse map im) false maxIters tol returnCosts
      ⟨p, z.pinvA *ᵥ (z.mask i - z.aBar), i, 0⟩).2

end

end Aam
end Menpofit
