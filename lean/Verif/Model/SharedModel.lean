import Verif.Model.Homogeneous
import Verif.Model.GaussNewton
import Verif.Model.Optim
import Mathlib.Analysis.Real.Sqrt
/-!
# Algorithm objects that share the shape model of a trained CLM or APS

Models the constructors of `GradientDescentCLMFitter` (`/repo/menpofit/clm/fitter.py:72-87`) and
`GaussNewtonAPSFitter` (`/repo/menpofit/aps/fitter.py:143-169`), the pre-computations of their
algorithm objects and their runs, at one scale.  The algorithm objects do not copy the shape model
(`self.transform = shape_model`, `/repo/menpofit/clm/algorithm/gd.py:28`;
`transform=aps.shape_models[j]`, `/repo/menpofit/aps/fitter.py:158`): all fitters of one trained model
work on the same `OrthoPDM`, the state `p` below.  Arithmetic is exact.
-/

namespace Menpofit
namespace Shared
open Matrix MI Homog

noncomputable section

variable {n : Nat}

/-- `self.transform.d_dp(None)` as a matrix, `/repo/menpofit/clm/algorithm/gd.py:52-53` and
`/repo/menpofit/aps/algorithm/gn.py:80` with `:94-95`: the row of coordinate `d` of point `i` is
`2 * i + d` (the CLM rolls the dimension behind the points and reshapes by rows, the APS rolls it to
the front and reshapes by columns). -/
def jacobian (p : OPdm n) (k : Nat) : Matrix (Fin (n * 2)) (Fin k) ℝ :=
  Matrix.of fun r c =>
    opdmDdp p (finProdFinEquiv.symm r).1 c (finProdFinEquiv.symm r).2

/-- The number of parameters of an `OrthoPDM`. See `/repo/menpofit/modelinstance.py:516-526` -/
def nParameters (p : OPdm n) : Nat := 4 + p.model.active.length

/-- A class of algorithms: what the constructor computes from the Jacobian (`pre`), what happens
between `set_target(initial_shape)` and the loop (`start`, given `return_costs`), the increment of the
parameters, what happens after the update (the image is warped again) and the cost at the current
target.  `reports` says whether costs are returned at all.
See `/repo/menpofit/clm/algorithm/gd.py:25-31` -/
structure Kind (n : Nat) (Im C : Type) where
  A : Nat → Type
  pre : (k : Nat) → Matrix (Fin (n * 2)) (Fin k) ℝ → Except PyErr (A k)
  start : Im → Bool → Pts n 2 → Except PyErr Unit
  step : {k : Nat} → A k → Im → Pts n 2 → (Fin k → ℝ) → Except PyErr (Fin k → ℝ)
  after : Im → Pts n 2 → Except PyErr Unit
  cost : Im → Pts n 2 → C
  reports : Bool

/-- An algorithm object. See `/repo/menpofit/clm/algorithm/gd.py:25-31` -/
structure Alg {Im C : Type} (K : Kind n Im C) where
  k : Nat
  data : K.A k

variable {Im C : Type}

/-- The constructor of an algorithm object, `/repo/menpofit/clm/algorithm/gd.py:25-31`,
`/repo/menpofit/aps/algorithm/gn.py:311-314`. -/
def newAlg (K : Kind n Im C) (p : OPdm n) : Except PyErr (Alg K) := do
  let a ← K.pre (nParameters p) (jacobian p (nParameters p))
  return ⟨_, a⟩

/-- The constructor of a fitter, at one scale: `checks.set_models_components(shape_models, n_shape)`
(`/repo/menpofit/clm/fitter.py:78`, `/repo/menpofit/aps/fitter.py:146`; here an integer or `None`)
activates components of the shared model, then the algorithm object is made
(`/repo/menpofit/clm/fitter.py:81-83`, `/repo/menpofit/aps/fitter.py:155-165`).  Returns the shared
shape model afterwards. -/
def build (K : Kind n Im C) (nShape : Option Int) (p : OPdm n) : OPdm n × Except PyErr (Alg K) :=
  match nShape with
  | none => (p, newAlg K p)
  | some v =>
    match oSetActive p v with
    | (p, .error e) => (p, .error e)
    | (p, .ok ()) => (p, newAlg K p)

/-- `np.linalg.norm(s_k - self.transform.target.points)`.
See `/repo/menpofit/clm/algorithm/gd.py:198` -/
def distance (a b : Pts n 2) : ℝ := Real.sqrt (∑ x, (a x - b x) ^ 2)

/-- One iteration, `/repo/menpofit/clm/algorithm/gd.py:156-198` (`:299-337`),
`/repo/menpofit/aps/algorithm/gn.py:465-495` (`:603-645`): the increment has as many entries as the
shape model had parameters when the algorithm object was made; adding it to a parameter vector of
another length raises `ValueError` (both lengths are at least four, so nothing is broadcast; with
`map_inference` and in the APS the product with the current parameters raises it before). -/
def machine (K : Kind n Im C) (a : Alg K) (im : Im) :
    Optim.Machine (OPdm n) (Pts n 2) (List ℝ) C ℝ where
  step p :=
    if (oAsVector p).length = a.k then
      match K.step a.data im p.target (fun i => (oAsVector p).getD i 0) with
      | .error e => (p, .error e)
      | .ok dp =>
        match oFromVector p (List.zipWith (· + ·) (oAsVector p) (List.ofFn dp)) with
        | .error e => (p, .error e)
        | .ok q =>
          match K.after im q.target with
          | .error e => (q, .error e)
          | .ok () => (q, .ok (distance p.target q.target))
    else (p, .error .valueError)
  shape p := p.target
  params p := oAsVector p
  cost p := K.cost im p.target

/-- What a run is asked to do. See `/repo/menpofit/clm/algorithm/gd.py:144-146` -/
structure Request (Im : Type) where
  im : Im
  init : Cloud
  maxIters : Int
  costs : Bool

/-- `run`, `/repo/menpofit/clm/algorithm/gd.py:144-206` (`:287-345`),
`/repo/menpofit/aps/algorithm/gn.py:437-505` (`:575-655`): the shared shape model afterwards and the
result. -/
def run (K : Kind n Im C) (a : Alg K) (eps : ℝ) (r : Request Im) (p : OPdm n) :
    OPdm n × Except PyErr (Optim.Trace (Pts n 2) (List ℝ) C) :=
  match oSetTarget p r.init with
  | (p, .error e) => (p, .error e)
  | (p, .ok ()) =>
    match K.start r.im r.costs p.target with
    | .error e => (p, .error e)
    | .ok () => Optim.run (machine K a r.im) false r.maxIters eps (r.costs && K.reports) p

/-! ### Constrained local models -/

/-- What `_precompute` of a CLM algorithm stores, `/repo/menpofit/clm/algorithm/gd.py:43-58`. -/
structure ClmPre (n k : Nat) where
  J : Matrix (Fin (n * 2)) (Fin k) ℝ
  prior : Fin k → ℝ
  pinvJ : Matrix (Fin k) (Fin (n * 2)) ℝ
  invPrior : Matrix (Fin k) (Fin k) ℝ

/-- The algorithms of a CLM.  `noise` is the noise variance of the shape model with a given number of
active components and `eig` its eigenvalues (`/repo/menpofit/clm/algorithm/gd.py:44-49`); `error` is
what the experts say (`/repo/menpofit/clm/algorithm/gd.py:156-181`, `:299-320`), see `Verif.Model.Clm`;
the increment is `/repo/menpofit/clm/algorithm/gd.py:184-189` (`:323-328`). -/
def clmKind (noise : Nat → ℝ) (eig : Nat → ℝ) (map : Bool)
    (error : Im → Pts n 2 → Except PyErr (Fin (n * 2) → ℝ)) : Kind n Im Unit where
  A k := ClmPre n k
  pre k J := do
    let prior : Fin k → ℝ := fun i => if i.val < 4 then 0 else noise (k - 4) / eig (i.val - 4)
    let pinvJ ← GN.npSolveMat (Jᵀ * J) Jᵀ
    let invPrior ← GN.npInv (Jᵀ * J + diagonal prior)
    return ⟨J, prior, pinvJ, invPrior⟩
  start _ _ _ := .ok ()
  step a im s p := do
    let e ← error im s
    if map then return -(a.invPrior *ᵥ (a.prior * p - a.Jᵀ *ᵥ e))
    else return a.pinvJ *ᵥ e
  after _ _ := .ok ()
  cost _ _ := ()
  reports := false

/-! ### Active pictorial structures -/

/-- What an APS algorithm knows at one scale, for `m` sampled pixels of `M`: the part each sampled
pixel belongs to, the (masked) appearance precision and mean (`/repo/menpofit/aps/algorithm/gn.py:356-367`),
the appearance precision of all pixels, the deformation precision and mean, the weight,
`use_procrustes`, and the gradient of the template at the sampled pixels
(`/repo/menpofit/aps/algorithm/gn.py:380` with `:186`). -/
structure Aps (n m M : Nat) where
  part : Fin m → Fin n
  Qa : Matrix (Fin m) (Fin m) ℝ
  abar : Fin m → ℝ
  Qall : Matrix (Fin M) (Fin M) ℝ
  Qd : Matrix (Fin (n * 2)) (Fin (n * 2)) ℝ
  dbar : Fin (n * 2) → ℝ
  weight : ℝ
  useProcrustes : Bool
  nabla : Fin 2 → Fin m → ℝ

/-- An image as an APS sees it: the sampled pixels of the patches at a shape, and their gradient.
See `/repo/menpofit/aps/algorithm/gn.py:121-198` -/
structure ApsImage (n m : Nat) where
  warp : Pts n 2 → Except PyErr (Fin m → ℝ)
  gradient : Pts n 2 → Fin 2 → Fin m → ℝ

variable {m M : Nat}

/-- `steepest_descent_images`, `/repo/menpofit/aps/algorithm/gn.py:184-198`. -/
def sdi (part : Fin m → Fin n) (nabla : Fin 2 → Fin m → ℝ) {k : Nat}
    (J : Matrix (Fin (n * 2)) (Fin k) ℝ) : Matrix (Fin m) (Fin k) ℝ :=
  Matrix.of fun q c => ∑ d, nabla d q * J (finProdFinEquiv (part q, d)) c

/-- `self.Q_a.tolil()[x, y]` for `x, y = np.meshgrid(i_mask, i_mask)`,
`/repo/menpofit/aps/algorithm/gn.py:359-362`: entry `(r, c)` is that of the indices `i_mask[c]`,
`i_mask[r]`. -/
def maskedPrecision (mask : Fin m → Fin M) (Q : Matrix (Fin M) (Fin M) ℝ) : Matrix (Fin m) (Fin m) ℝ :=
  Matrix.of fun r c => Q (mask c) (mask r)

/-- `H_s`, `/repo/menpofit/aps/algorithm/gn.py:118-119`. -/
def hessianS (a : Aps n m M) {k : Nat} (J : Matrix (Fin (n * 2)) (Fin k) ℝ) :
    Matrix (Fin k) (Fin k) ℝ := a.weight • (Jᵀ * a.Qd * J)

/-- `p[0:4] = 0` if `use_procrustes`, `/repo/menpofit/aps/algorithm/gn.py:467-469`. -/
def zeroed (a : Aps n m M) {k : Nat} (p : Fin k → ℝ) : Fin k → ℝ := fun i =>
  if a.useProcrustes ∧ i.val < 4 then 0 else p i

/-- `as_vector()` of a shape. See `/repo/menpofit/aps/algorithm/gn.py:429-434` -/
def shapeVector (s : Pts n 2) : Fin (n * 2) → ℝ := fun r => s (finProdFinEquiv.symm r)

/-- The deformation cost, `/repo/menpofit/aps/algorithm/gn.py:429-434`. -/
def deformationCost (a : Aps n m M) (s : Pts n 2) : ℝ :=
  let x := shapeVector s - a.dbar
  (x ⬝ᵥ a.Qd *ᵥ x) * a.weight

/-- The appearance cost, `/repo/menpofit/aps/algorithm/gn.py:425-427`: menpo's `_mahalanobis_distance`
of the masked error with the precision of all pixels; a product of the wrong sizes raises
`ValueError`. -/
def appearanceCost (a : Aps n m M) (e : Fin m → ℝ) : Except PyErr ℝ :=
  if h : m = M then
    let e' : Fin M → ℝ := fun i => e (Fin.cast h.symm i)
    .ok (e' ⬝ᵥ a.Qall *ᵥ e')
  else .error .valueError

/-- Between `set_target` and the loop, `/repo/menpofit/aps/algorithm/gn.py:447-462` (`:585-600`). -/
def apsStart (a : Aps n m M) (im : ApsImage n m) (costs : Bool) (s : Pts n 2) : Except PyErr Unit := do
  let i ← im.warp s
  if costs then
    let _ ← appearanceCost a (i - a.abar)
  return ()

/-- Appearance cost, deformation cost and their sum at a shape,
`/repo/menpofit/aps/algorithm/gn.py:490-492`.  Simplification: the value for images that cannot be
warped is of no interest. -/
def apsCosts (a : Aps n m M) (im : ApsImage n m) (s : Pts n 2) : ℝ × ℝ × ℝ :=
  let d := deformationCost a s
  match (do appearanceCost a ((← im.warp s) - a.abar) : Except PyErr ℝ) with
  | .ok c => (c, d, c + d)
  | .error _ => (0, d, d)

/-- What `Inverse._precompute` stores, `/repo/menpofit/aps/algorithm/gn.py:374-388`. -/
structure InversePre (m k : Nat) where
  JQ : Matrix (Fin k) (Fin m) ℝ
  Hs : Matrix (Fin k) (Fin k) ℝ
  invH : Matrix (Fin k) (Fin k) ℝ

/-- `Inverse`, `/repo/menpofit/aps/algorithm/gn.py:374-388` and `:464-476`. -/
def apsInverse (a : Aps n m M) : Kind n (ApsImage n m) (ℝ × ℝ × ℝ) where
  A k := InversePre m k
  pre k J := do
    let Ja := sdi a.part a.nabla J
    let JQ := (a.Qa * Ja)ᵀ
    let Hs := hessianS a J
    let inv ← GN.npInv (JQ * Ja + Hs)
    return ⟨JQ, Hs, inv⟩
  start im costs s := apsStart a im costs s
  step d im s p := do
    let i ← im.warp s
    return -(d.invH *ᵥ (d.JQ *ᵥ (i - a.abar) + d.Hs *ᵥ zeroed a p))
  after im s := (im.warp s).map fun _ => ()
  cost im s := apsCosts a im s
  reports := true

/-- `Forward`, `/repo/menpofit/aps/algorithm/gn.py:520-526` and `:602-626`. -/
def apsForward (a : Aps n m M) : Kind n (ApsImage n m) (ℝ × ℝ × ℝ) where
  A k := Matrix (Fin (n * 2)) (Fin k) ℝ × Matrix (Fin k) (Fin k) ℝ
  pre k J := .ok (J, hessianS a J)
  start im costs s := apsStart a im costs s
  step d im s p := do
    let i ← im.warp s
    GN.apsForwardStep (sdi a.part (im.gradient s) d.1) a.Qa d.2 (i - a.abar) (zeroed a p)
  after im s := (im.warp s).map fun _ => ()
  cost im s := apsCosts a im s
  reports := true

end
end Shared
end Menpofit
