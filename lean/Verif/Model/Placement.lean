import Verif.Model.ClmRuns
import Verif.Model.AamSolvers
import Verif.Model.Warps
/-!
# Fitting with an OrthoPDM in a picture

Puts the pieces together: the shape model of a fit is an `OrthoPDM` (`Verif.Model.ModelInstance`),
its warps look at the picture through a piecewise affine warp or through patches around the
landmarks, and the priors are those the algorithms compute.  A picture is anything that can be
sampled at points of the plane.  Simplification: no borders (sampling outside the picture is not
refused), and patches are sampled at exact positions.
-/

namespace Menpofit
namespace Place
open MI Matrix Warp ClmRun

noncomputable section

variable {N q : Nat} {Pic C : Type}

/-- The number of parameters of the shape model (four for the similarity).
See `/repo/menpofit/modelinstance.py:516-526` -/
abbrev nPar (M : OPdm N) : Nat := 4 + M.model.active.length

/-- `transform.set_target(shape)` followed by `transform.as_vector()`
(`/repo/menpofit/aam/algorithm/lk.py:833-834`, `/repo/menpofit/clm/algorithm/gd.py:145-146`). -/
def pdmParams (M : OPdm N) (s : Pts N 2) : Fin (nPar M) → ℝ := fun i =>
  (oAsVector (oSetTarget M ⟨N, 2, s⟩).1).getD i.val 0

/-- `transform._from_vector_inplace(v)` followed by `transform.target`
(`/repo/menpofit/clm/algorithm/gd.py:193-195`). -/
def pdmShape (M : OPdm N) (v : Fin (nPar M) → ℝ) : Pts N 2 :=
  match oFromVector M (List.ofFn v) with
  | .ok r => r.target
  | .error _ => M.target

/-- `s2_inv_L = np.hstack((np.ones((4,)), s2 / L))`, `/repo/menpofit/aam/algorithm/lk.py:771-776` and
`/repo/menpofit/atm/algorithm.py:211-216`. -/
def aamPrior {k : Nat} (s2 : ℝ) (L : Fin k → ℝ) : Fin (4 + k) → ℝ :=
  Fin.append (fun _ => 1) fun i => s2 / L i

/-- `rho2_inv_L`, `/repo/menpofit/clm/algorithm/gd.py:46-49`; with `rho2 = 1` the prior of
`/repo/menpofit/unified_aam_clm/algorithm.py:151-153` and `:301-303`. -/
def clmPrior {k : Nat} (rho2 : ℝ) (L : Fin k → ℝ) : Fin (4 + k) → ℝ :=
  Fin.append (fun _ => 0) fun i => rho2 / L i

/-- A landmark as a point of the plane. See `/repo/menpofit/clm/algorithm/gd.py:156-160` -/
def point (s : Pts N 2) (i : Fin N) : P 2 := !₂[s (i, 0), s (i, 1)]

/-- menpo's sampling of pixels with linear interpolation (`order=1`), of a picture without borders:
the weighted mean of the four pixels around the point.
See `/repo/menpofit/aam/algorithm/lk.py:112-127` -/
def bilinear (f : Int → Int → ℝ) (x : P 2) : ℝ :=
  let i := ⌊x 0⌋
  let j := ⌊x 1⌋
  let u := x 0 - i
  let v := x 1 - j
  (1 - u) * (1 - v) * f i j + (1 - u) * v * f i (j + 1) + u * (1 - v) * f (i + 1) j +
    u * v * f (i + 1) (j + 1)

/-- `image.warp_to_mask` with a piecewise affine warp whose target is the current shape
(`/repo/menpofit/aam/algorithm/lk.py:112-127`): the picture sampled at the image of every pixel of the
template.  A pixel outside every triangle makes menpo raise (its exception is a `ValueError`
here). -/
def pwaWarp (mesh : Pwa N) (pixels : Fin q → P 2) (sample : Pic → P 2 → C) (im : Pic) (s : Pts N 2) :
    Except PyErr (Fin q → C) :=
  let w : Pwa N := { mesh with target := point s }
  if ∀ l, (w.apply (pixels l)).isSome then
    .ok fun l => sample im ((w.apply (pixels l)).getD 0)
  else .error .valueError

/-- `image.extract_patches` around the current shape
(`/repo/menpofit/aam/algorithm/lk.py:519-521`). -/
def patches (offs : Fin q → P 2) (sample : Pic → P 2 → C) (im : Pic) (s : Pts N 2) :
    Fin N → Fin q → C :=
  fun i o => sample im (point s i + offs o)

/-- The warp of the patch-based interface, `/repo/menpofit/aam/algorithm/lk.py:519-523`: extracted patches
after `patch_normalisation`. -/
def patchWarp {W : Type} (offs : Fin q → P 2) (normalise : (Fin N → Fin q → C) → W)
    (sample : Pic → P 2 → C) (im : Pic) (s : Pts N 2) : Except PyErr W :=
  .ok (normalise (patches offs sample im s))

/-- The appearance side of the algorithms. See `/repo/menpofit/aam/algorithm/lk.py:751-779` -/
structure Appearance (n a m : Nat) (W : Type) where
  mask : W → Fin m → ℝ
  jacI : W → Matrix (Fin m) (Fin n) ℝ
  jacA : (Fin a → ℝ) → Matrix (Fin m) (Fin n) ℝ
  aBar : Fin m → ℝ
  A : Matrix (Fin m) (Fin a) ℝ
  pinvA : Matrix (Fin a) (Fin m) ℝ
  priorA : Fin a → ℝ

/-- The setup of the AAM algorithms (`/repo/menpofit/aam/algorithm/lk.py:751-779`) around an `OrthoPDM`
and a way of looking at the picture. -/
def aamSetup {a m : Nat} {W : Type} (M : OPdm N) (look : Pic → Pts N 2 → Except PyErr W)
    (z : Appearance (nPar M) a m W) (s2 : ℝ) (L : Fin M.model.active.length → ℝ) :
    Aam.Setup (nPar M) a m ℝ (Pts N 2) Pic W ℝ where
  setTarget := pdmParams M
  target := pdmShape M
  warp im p := look im (pdmShape M p)
  mask := z.mask
  jacI := z.jacI
  jacA := z.jacA
  aBar := z.aBar
  A := z.A
  pinvA := z.pinvA
  priorS := aamPrior s2 L
  priorA := z.priorA
  dist := shapeDistance

/-- The setup of the ATM algorithms (`/repo/menpofit/atm/algorithm.py:203-216`): no appearance
variation is projected out. -/
def atmEnv {a m : Nat} {W : Type} (M : OPdm N) (look : Pic → Pts N 2 → Except PyErr W)
    (z : Appearance (nPar M) a m W) (s2 : ℝ) (L : Fin M.model.active.length → ℝ) :
    GN.Env (nPar M) m ℝ (Pts N 2) Pic W ℝ where
  setTarget := pdmParams M
  target := pdmShape M
  warp im p := look im (pdmShape M p)
  mask := z.mask
  jac := z.jacI
  aBar := z.aBar
  Q := 1
  prior := aamPrior s2 L
  dist := shapeDistance

/-- `predict_probability`, `/repo/menpofit/clm/expert/ensemble.py:85-88`: the maps of the experts for
the patches around the landmarks, turned into probabilities. -/
def respond (h w : Nat) (offs : Fin q → P 2) (sample : Pic → P 2 → C)
    (expert : Fin N → (Fin q → C) → List ℝ) (im : Pic) (s : Pts N 2) : Except PyErr (Fin N → List ℝ) :=
  (Clm.probabilityMap h w (List.ofFn fun i => expert i (patches offs sample im s i))).map
    fun maps i => maps.getD i.val []

/-- The setup of the CLM algorithms around an `OrthoPDM`.
See `/repo/menpofit/clm/algorithm/gd.py:33-58` -/
def clmEnv (M : OPdm N) (h w : Nat) (offs : Fin q → P 2) (sample : Pic → P 2 → C)
    (expert : Fin N → (Fin q → C) → List ℝ) (c : ℝ) (J : Matrix (Fin (N * 2)) (Fin (nPar M)) ℝ)
    (rho2 : ℝ) (L : Fin M.model.active.length → ℝ) : ClmRun.Env N (nPar M) Pic where
  setTarget := pdmParams M
  shape := pdmShape M
  respond := respond h w offs sample expert
  h := h
  w := w
  c := c
  J := J
  prior := clmPrior rho2 L

/-- The setup of the unified algorithms around an `OrthoPDM`.
See `/repo/menpofit/unified_aam_clm/algorithm.py:69-90` -/
def unifiedEnv {a m : Nat} {W : Type} (M : OPdm N) (clm : ClmRun.Env N (nPar M) Pic)
    (look : Pic → Pts N 2 → Except PyErr W) (z : Appearance (nPar M) a m W)
    (jPo : Matrix (Fin m) (Fin (nPar M)) ℝ) (invSigma2 invRho2 : ℝ) :
    ClmRun.UEnv N (nPar M) a m Pic W :=
  { clm with
    warp := look
    mask := z.mask
    aBar := z.aBar
    U := z.A
    pinvU := z.pinvA
    jPo := jPo
    jac := z.jacA
    invSigma2 := invSigma2
    invRho2 := invRho2 }

end
end Place
end Menpofit
