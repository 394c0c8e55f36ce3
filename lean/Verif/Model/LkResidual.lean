import Verif.Model.Dft
import Verif.Model.GaussNewton
import Verif.Model.Stats
import Mathlib.Analysis.SpecialFunctions.Complex.Arg
/-!
# The residuals and increments of Lucas-Kanade fitting

Models `/repo/menpofit/lk/residual.py` and the loop bodies of `/repo/menpofit/lk/algorithm.py`.  Images are
two-dimensional (`n_dims = 2`), pixels are exact real numbers, and the template's mask is full (the masked
case is declared unsupported at `/repo/menpofit/lk/residual.py:10` and `:308`).  menpo's `gradient`, its warps
and the transform are parameters.  NumPy and SciPy's vectors `(ch x h x w)` are indexed by channel and
position.
-/

namespace Menpofit
namespace Lk
open Matrix GN Dft Stats

noncomputable section

/-- Pixels of an image with `c` channels. See `/repo/menpofit/lk/residual.py:160-283` -/
abbrev Planes (c h w : Nat) := Fin c → Pos h w → ℝ

/-- Index of `as_vector()`: channel and position. See `/repo/menpofit/lk/residual.py:282-283` -/
abbrev Px (c h w : Nat) := Fin c × Pos h w

/-- `dW_dp`: dims x h x w x params. See `/repo/menpofit/lk/residual.py:201-204` -/
abbrev Jac (h w n : Nat) := Fin 2 → Pos h w → Fin n → ℝ

/-- menpo's operations.  `grad x d` is the derivative of `x` along axis `d`, each channel separately, with
the boundary pixels set to zero (`/repo/menpofit/lk/residual.py:51-52`); `fwdGrad im t` is the gradient of the
whole image warped into the template's frame (`:40-45`); `normIm` is `normalize_norm` of the whole image. -/
structure Env (c h w : Nat) (Im T : Type) where
  warp : Im → T → Planes c h w
  grad : Planes c h w → Fin 2 → Planes c h w
  fwdGrad : Im → T → Fin 2 → Planes c h w
  normIm : Im → Except PyErr Im

/-- What is handed to `steepest_descent_images`: an image in the template's frame, or the whole image with
`forward=(template, transform)`. See `/repo/menpofit/lk/residual.py:37-53` -/
inductive Source (c h w : Nat) (Im T : Type) where
  | frame (x : Planes c h w)
  | forward (im : Im) (t : T)

variable {c h w n : Nat} {Im T : Type}

/-- `Residual.gradient`, `/repo/menpofit/lk/residual.py:37-53`. -/
def gradientOf (env : Env c h w Im T) : Source c h w Im T → Fin 2 → Planes c h w
  | .frame x => env.grad x
  | .forward im t => env.fwdGrad im t

/-- `/repo/menpofit/lk/residual.py:201-204` (also `:363-366`, `:538-541`): `sdi = 0` and then, for each
dimension, `sdi += nabla[d] * dW_dp[d]`. -/
def sdi (nabla : Fin 2 → Planes c h w) (dW : Jac h w n) : Matrix (Px c h w) (Fin n) ℝ := fun x k =>
  ∑ d, nabla d x.1 x.2 * dW d x.2 k

/-- A residual object: `ρ` are its attributes.  `hessian` is called with `sdi2`.  `solve` is
`np.real(np.linalg.solve(H, sd_dp))`, `/repo/menpofit/lk/algorithm.py:140`, `:267`, `:391`. -/
structure Residual (c h w n : Nat) (Im T ρ A H B : Type) where
  images : ρ → Source c h w Im T → Jac h w n → Except PyErr (ρ × A × A)
  hessian : ρ → A → A → Except PyErr (ρ × H)
  update : ρ → A → Planes c h w → Planes c h w → Except PyErr (ρ × B)
  solve : H → B → Except PyErr (Fin n → ℝ)

variable {ρ A H B : Type}

/-- The increment of `ForwardAdditive.run`, `/repo/menpofit/lk/algorithm.py:119-140`. -/
def faIncrement (r : Residual c h w n Im T ρ A H B) (env : Env c h w Im T) (dW : Jac h w n)
    (template : Planes c h w) (s : ρ) (im : Im) (t : T) : Except PyErr (ρ × (Fin n → ℝ)) := do
  let (s1, fJ, J) ← r.images s (.forward im t) dW
  let (s2, hess) ← r.hessian s1 fJ J
  let (s3, sd) ← r.update s2 fJ (env.warp im t) template
  let dp ← r.solve hess sd
  return (s3, -dp)

/-- The increment of `ForwardCompositional.run`, `/repo/menpofit/lk/algorithm.py:252-267`; `iwxp` is the
warped image. -/
def fcIncrement (r : Residual c h w n Im T ρ A H B) (dW : Jac h w n) (template : Planes c h w) (s : ρ)
    (iwxp : Planes c h w) : Except PyErr (ρ × (Fin n → ℝ)) := do
  let (s1, fJ, J) ← r.images s (.frame iwxp) dW
  let (s2, hess) ← r.hessian s1 fJ J
  let (s3, sd) ← r.update s2 fJ iwxp template
  let dp ← r.solve hess sd
  return (s3, -dp)

/-- `InverseCompositional._precompute`, `/repo/menpofit/lk/algorithm.py:331-334`. -/
def icPrecompute (r : Residual c h w n Im T ρ A H B) (dW : Jac h w n) (template : Planes c h w) (s : ρ) :
    Except PyErr (ρ × A × H) := do
  let (s1, fJ, J) ← r.images s (.frame template) dW
  let (s2, hess) ← r.hessian s1 fJ J
  return (s2, fJ, hess)

/-- The increment of `InverseCompositional.run`, `/repo/menpofit/lk/algorithm.py:387-391`; its
pseudo-inverse is composed with the transform. -/
def icIncrement (r : Residual c h w n Im T ρ A H B) (pre : ρ × A × H) (template iwxp : Planes c h w) :
    Except PyErr (ρ × (Fin n → ℝ)) := do
  let (s, sd) ← r.update pre.1 pre.2.1 iwxp template
  let dp ← r.solve pre.2.2 sd
  return (s, dp)

/-! ### Sum of squared differences -/

/-- Real arrays are embedded in the complex numbers. See `/repo/menpofit/lk/residual.py:214-217` -/
def cx {ι : Type} (x : ι → ℝ) : ι → ℂ := fun i => (x i : ℂ)

/-- `as_vector()` of the difference, `/repo/menpofit/lk/residual.py:282` and `:443`. -/
def difference (image template : Planes c h w) : Px c h w → ℝ := fun x =>
  image x.1 x.2 - template x.1 x.2

/-- Apply `f` to every plane of every column. See `/repo/menpofit/lk/residual.py:214-217` -/
def onPlanes (f : (Pos h w → ℂ) → Pos h w → ℂ) (J : Matrix (Px c h w) (Fin n) ℂ) :
    Matrix (Px c h w) (Fin n) ℂ := fun x k => f (fun p => J (x.1, p) k) x.2

/-- `np.real(np.linalg.solve(H, sd_dp))`. See `/repo/menpofit/lk/algorithm.py:140` -/
def solveRe (hess : Matrix (Fin n) (Fin n) ℂ) (sd : Fin n → ℂ) : Except PyErr (Fin n → ℝ) :=
  (npSolve hess sd).map fun x i => (x i).re

/-- `SSD`, `/repo/menpofit/lk/residual.py:160-283`.  The kernel is a plane `h x w` in the Fourier domain;
the transposes are not conjugated. -/
def ssd (env : Env c h w Im T) (kernel : Option (Pos h w → ℂ)) :
    Residual c h w n Im T Unit (Matrix (Px c h w) (Fin n) ℂ) (Matrix (Fin n) (Fin n) ℂ) (Fin n → ℂ) where
  images _ src dW :=
    let s : Matrix (Px c h w) (Fin n) ℂ := (sdi (gradientOf env src) dW).map (fun x : ℝ => (x : ℂ))
    match kernel with
    | none => .ok ((), s, s)
    | some k => .ok ((), onPlanes (fun x => ifft2 (k * fft2 x)) s, s)
  hessian _ s s2 := .ok ((), sᵀ * s2)
  update _ s image template := .ok ((), sᵀ *ᵥ cx (difference image template))
  solve := solveRe

/-- `FourierSSD`, `/repo/menpofit/lk/residual.py:322-453`. -/
def fourierSsd (env : Env c h w Im T) (kernel : Option (Pos h w → ℂ)) :
    Residual c h w n Im T Unit (Matrix (Px c h w) (Fin n) ℂ) (Matrix (Fin n) (Fin n) ℂ) (Fin n → ℂ) where
  images _ src dW :=
    let s : Matrix (Px c h w) (Fin n) ℂ := (sdi (gradientOf env src) dW).map (fun x : ℝ => (x : ℂ))
    let f := onPlanes fft2 s
    match kernel with
    | none => .ok ((), f, f)
    | some k => .ok ((), onPlanes (fun x => k * x) f, f)
  hessian _ s s2 := .ok ((), sᴴ * s2)
  update _ s image template :=
    let e := cx (difference image template)
    .ok ((), sᴴ *ᵥ fun x : Px c h w => fft2 (fun p => e (x.1, p)) x.2)
  solve := solveRe

/-! ### Enhanced correlation coefficient -/

/-- menpo's `normalize_norm`: subtract the mean of all pixels and divide by the norm of the result; an image
without variation is refused with a `ValueError`. See `/repo/menpofit/lk/residual.py:491` -/
def normalise (x : Planes c h w) : Except PyErr (Planes c h w) :=
  let mean := (∑ i : Px c h w, x i.1 i.2) / (c * (h * w) : ℕ)
  let centred : Planes c h w := fun i p => x i p - mean
  let norm := Real.sqrt (∑ i : Px c h w, centred i.1 i.2 ^ 2)
  if norm = 0 then .error .valueError else .ok fun i p => centred i p / norm

/-- The images in the template's frame or the whole image are normalised before the gradient,
`/repo/menpofit/lk/residual.py:526-530`. -/
def normaliseSource (env : Env c h w Im T) : Source c h w Im T → Except PyErr (Source c h w Im T)
  | .frame x => (normalise x).map .frame
  | .forward im t => (env.normIm im).map fun i => .forward i t

/-- The step size of `ECC.steepest_descent_update`, `/repo/menpofit/lk/residual.py:610-632`. -/
def eccLambda {m : Type} [Fintype m] (hInv : Matrix (Fin n) (Fin n) ℝ) (s : Matrix m (Fin n) ℝ) (wn tn : m → ℝ) :
    ℝ :=
  let gt := sᵀ *ᵥ tn
  let gw := sᵀ *ᵥ wn
  let num1 := Real.sqrt (wn ⬝ᵥ wn) ^ 2
  let num2 := gw ⬝ᵥ (hInv *ᵥ gw)
  let num := num1 - num2
  let den := tn ⬝ᵥ wn - gt ⬝ᵥ (hInv *ᵥ gw)
  if den > 0 then num / den
  else
    let den3 := gt ⬝ᵥ (hInv *ᵥ gt)
    max (Real.sqrt (num2 / den3)) (-den / den3)

/-- The attributes of an `ECC` object: the inverse Hessian.
See `/repo/menpofit/lk/residual.py:610-632` -/
abbrev EccState (n : Nat) := Option (Matrix (Fin n) (Fin n) ℝ)

/-- `ECC`, `/repo/menpofit/lk/residual.py:494-636`.  `steepest_descent_update` before `hessian` raises
`AttributeError`. -/
def ecc (env : Env c h w Im T) :
    Residual c h w n Im T (EccState n) (Matrix (Px c h w) (Fin n) ℝ) (Matrix (Fin n) (Fin n) ℝ)
      (Fin n → ℝ) where
  images st src dW := do
    let src ← normaliseSource env src
    let s := sdi (gradientOf env src) dW
    return (st, s, s)
  hessian _ s s2 := do
    let hess := sᵀ * s2
    let inv ← npInv hess
    return (some inv, hess)
  update st s image template := do
    let wn ← normalise image
    let tn ← normalise template
    match st with
    | none => .error .attributeError
    | some hInv =>
      let l := eccLambda hInv s (fun x => wn x.1 x.2) (fun x => tn x.1 x.2)
      return (st, sᵀ *ᵥ fun x : Px c h w => l * wn x.1 x.2 - tn x.1 x.2)
  solve := npSolve

/-! ### Gradient images -/

/-- `np.sqrt(np.sum(pixels**2, axis=0))`: over all dimensions and channels.
See `/repo/menpofit/lk/residual.py:667` -/
def magnitude (g : Fin 2 → Planes c h w) (p : Pos h w) : ℝ :=
  Real.sqrt (∑ d, ∑ i, g d i p ^ 2)

/-- `np.median(ab)`. See `/repo/menpofit/lk/residual.py:668` -/
def medianMagnitude (g : Fin 2 → Planes c h w) : ℝ :=
  npMedian (((Finset.univ : Finset (Pos h w)).toList).map (magnitude g))

/-- `GradientImages._regularise_gradients`, `/repo/menpofit/lk/residual.py:665-671`.  (A pixel without
gradient in an image whose median is zero gives NaN in NumPy and zero here.) -/
def regularise (g : Fin 2 → Planes c h w) : Fin 2 → Planes c h w := fun d i p =>
  g d i p / (magnitude g p + medianMagnitude g)

/-- `second_grad[1, 0, ...] = second_grad[0, 1, ...]`, `/repo/menpofit/lk/residual.py:718` and `:898`:
the arguments are the dimension of the derivative and the component. -/
def fixCrossed {α : Type} (g : Fin 2 → Fin 2 → α) : Fin 2 → Fin 2 → α := fun d e =>
  if d = 1 ∧ e = 0 then g 0 1 else g d e

/-- `/repo/menpofit/lk/residual.py:713-731`; the rows are indexed by component, channel and position. -/
def gradientSdi (env : Env c h w Im T) (g : Fin 2 → Planes c h w) (dW : Jac h w n) :
    Matrix (Fin 2 × Px c h w) (Fin n) ℝ := fun x k =>
  ∑ d, fixCrossed (fun d e => env.grad (g e) d) d x.1 x.2.1 x.2.2 * dW d x.2.2 k

/-- `self._error_img` of `GradientImages`, `/repo/menpofit/lk/residual.py:792-798`, for the stored gradient
`g`. -/
def gradientError (env : Env c h w Im T) (g : Fin 2 → Planes c h w) (image : Planes c h w) :
    Fin 2 × Px c h w → ℝ := fun x =>
  regularise (env.grad image) x.1 x.2.1 x.2.2 - g x.1 x.2.1 x.2.2

/-- The cost after `steepest_descent_update`, `/repo/menpofit/lk/residual.py:815-817`. -/
def gradientCost (env : Env c h w Im T) (g : Fin 2 → Planes c h w) (image : Planes c h w) : ℝ :=
  gradientError env g image ⬝ᵥ gradientError env g image

/-- `GradientImages`, `/repo/menpofit/lk/residual.py:673-804`; the attribute is `_template_grad`. -/
def gradientImages (env : Env c h w Im T) :
    Residual c h w n Im T (Option (Fin 2 → Planes c h w)) (Matrix (Fin 2 × Px c h w) (Fin n) ℝ)
      (Matrix (Fin n) (Fin n) ℝ) (Fin n → ℝ) where
  images _ src dW :=
    let g := regularise (gradientOf env src)
    let s := gradientSdi env g dW
    .ok (some g, s, s)
  hessian st s s2 := .ok (st, sᵀ * s2)
  update st s image _ :=
    match st with
    | none => .error .attributeError
    | some g => .ok (st, sᵀ *ᵥ gradientError env g image)
  solve := npSolve

/-! ### Gradient correlation -/

/-- `np.angle(grad[1, ...] + 1j * grad[0, ...])`. See `/repo/menpofit/lk/residual.py:877` -/
def orientation (g : Fin 2 → Planes c h w) : Planes c h w := fun i p =>
  Complex.arg (⟨g 1 i p, g 0 i p⟩ : ℂ)

/-- `/repo/menpofit/lk/residual.py:893-920`. -/
def correlationSdi (env : Env c h w Im T) (phi : Planes c h w) (dW : Jac h w n) :
    Matrix (Px c h w) (Fin n) ℝ := fun x k =>
  let sinPhi : Planes c h w := fun i p => Real.sin (phi i p)
  let cosPhi : Planes c h w := fun i p => Real.cos (phi i p)
  let igo : Fin 2 → Planes c h w := fun e => if e = 0 then sinPhi else cosPhi
  let second := fixCrossed fun d e => env.grad (igo e) d
  let full : Fin 2 → Fin 2 → Planes c h w := fun d e i p =>
    if d = 1 then -sinPhi i p * second d e i p else cosPhi i p * second d e i p
  ∑ d, ∑ e, full d e x.1 x.2 * dW e x.2 k

/-- `self._error_img` of `GradientCorrelation`, `/repo/menpofit/lk/residual.py:993-1000`, for the stored
orientation `phi` and that of the warped image. -/
def correlationError (phi phiW : Planes c h w) : Px c h w → ℝ := fun x =>
  Real.cos (phi x.1 x.2) * Real.sin (phiW x.1 x.2) - Real.sin (phi x.1 x.2) * Real.cos (phiW x.1 x.2)

/-- `self._l`, `/repo/menpofit/lk/residual.py:1009-1011` and `:916`. -/
def correlationScale (phi phiW : Planes c h w) : ℝ :=
  ((c * (h * w) : ℕ) : ℝ) /
    ∑ x : Px c h w, (Real.cos (phi x.1 x.2) * Real.cos (phiW x.1 x.2) +
      Real.sin (phi x.1 x.2) * Real.sin (phiW x.1 x.2))

/-- `GradientCorrelation`, `/repo/menpofit/lk/residual.py:833-1012`; the attribute is the orientation whose
sine and cosine are stored, `_N` is the number of pixels times channels. -/
def gradientCorrelation (env : Env c h w Im T) :
    Residual c h w n Im T (Option (Planes c h w)) (Matrix (Px c h w) (Fin n) ℝ)
      (Matrix (Fin n) (Fin n) ℝ) (Fin n → ℝ) where
  images _ src dW :=
    let phi := orientation (gradientOf env src)
    let s := correlationSdi env phi dW
    .ok (some phi, s, s)
  hessian st s s2 := .ok (st, sᵀ * s2)
  update st s image _ :=
    match st with
    | none => .error .attributeError
    | some phi =>
      let phiW := orientation (env.grad image)
      .ok (st, correlationScale phi phiW • (sᵀ *ᵥ correlationError phi phiW))
  solve := npSolve

/-! ### Forward compositional fitting -/

/-- The transform: `compose t dp` is `compose_after_from_vector_inplace(dp)`.
See `/repo/menpofit/lk/algorithm.py:252-279` -/
structure Transform (n : Nat) (T S V : Type) where
  compose : T → (Fin n → ℝ) → T
  target : T → S
  vector : T → V
  setTarget : T → S → T

/-- The loop body of `ForwardCompositional.run`, `/repo/menpofit/lk/algorithm.py:252-279`; the quantity
compared is the norm of the increment.  The costs are not modelled here. -/
def fcMachine {S V : Type} (r : Residual c h w n Im T ρ A H B) (env : Env c h w Im T) (tr : Transform n T S V)
    (dW : Jac h w n) (template : Planes c h w) (im : Im) : Optim.Machine (ρ × T) S V Unit ℝ where
  step st := match fcIncrement r dW template st.1 (env.warp im st.2) with
    | .error e => (st, .error e)
    | .ok (s, dp) => ((s, tr.compose st.2 dp), .ok (Real.sqrt (dp ⬝ᵥ dp)))
  shape st := tr.target st.2
  params st := tr.vector st.2
  cost _ := ()

/-- `ForwardCompositional.run`, `/repo/menpofit/lk/algorithm.py:236-288`, without costs; `eps` is
`self.eps`. -/
def fcRun {S V : Type} (r : Residual c h w n Im T ρ A H B) (env : Env c h w Im T) (tr : Transform n T S V)
    (dW : Jac h w n) (template : Planes c h w) (eps : ℝ) (s : ρ) (t : T) (im : Im) (initial : S)
    (maxIters : Int) : Except PyErr (Optim.Trace S V Unit) :=
  (Optim.run (fcMachine r env tr dW template im) true maxIters eps false (s, tr.setTarget t initial)).2

end
end Lk
end Menpofit
