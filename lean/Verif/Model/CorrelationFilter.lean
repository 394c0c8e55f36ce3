import Verif.Model.Py
import Mathlib.LinearAlgebra.Matrix.NonsingularInverse
import Mathlib.Data.Complex.Basic
/-!
# Correlation filters

Models `/repo/menpofit/math/correlationfilter.py` and the ensemble of
`/repo/menpofit/clm/expert/ensemble.py`.

An image enters through the Fourier transform of its extension (padding followed by
`fft2`, lines 70-72), a function from channel and frequency to complex numbers; the
desired response through the transform of its extension.  The image-domain filter is the
function `back` of the Fourier-domain filter (inverse transform, shift, real part and
crop, lines 84-88).  Exact complex arithmetic; where NumPy divides by zero or the sparse
solver warns about a singular matrix (result `nan`), the model returns an unspecified
value, and no theorem covers that case.
-/

namespace Menpofit
namespace Cf
open Matrix ComplexConjugate

noncomputable section

/-- Transform of one extended multi-channel image: `k` channels, `D` frequencies.
See `/repo/menpofit/math/correlationfilter.py:64-76` -/
abbrev Spectrum (k D : Nat) := Fin k → Fin D → ℂ

/-- Filter, cross and auto spectral energies returned by the single-channel functions.
See `/repo/menpofit/math/correlationfilter.py:79-90` -/
structure MosseOut (F : Type) (k D : Nat) where
  f : F
  sXY : Spectrum k D
  sXX : Spectrum k D

/-- /repo/menpofit/math/correlationfilter.py:64-76: the energies accumulated over the images. -/
def mosseSums {k D : Nat} (X : List (Spectrum k D)) (y : Fin D → ℂ) :
    Spectrum k D × Spectrum k D :=
  X.foldl (fun s x =>
    (fun c j => s.1 c j + conj (x c j) * y j, fun c j => s.2 c j + conj (x c j) * x c j)) (0, 0)

/-- /repo/menpofit/math/correlationfilter.py:79: `sXY / (sXX + l)`. -/
def mosseFilter {k D : Nat} (sXY sXX : Spectrum k D) (l : ℝ) : Spectrum k D :=
  fun c j => sXY c j / (sXX c j + l)

/-- /repo/menpofit/math/correlationfilter.py:9-90 `mosse`. -/
def mosse {F : Type} {k D : Nat} (back : Spectrum k D → F) (X : List (Spectrum k D))
    (y : Fin D → ℂ) (l : ℝ) : MosseOut F k D :=
  let s := mosseSums X y
  ⟨back (mosseFilter s.1 s.2 l), s.1, s.2⟩

/-- /repo/menpofit/math/correlationfilter.py:93-200 `imosse`. -/
def imosse {F : Type} {k D : Nat} (back : Spectrum k D → F) (A B : Spectrum k D) (n_ab : ℝ)
    (X : List (Spectrum k D)) (y : Fin D → ℂ) (l f : ℝ) : MosseOut F k D :=
  let n_ab := n_ab * f
  let n_x : ℝ := X.length
  let n := n_ab + n_x
  let nu_ab := n_ab / n
  let nu_x := n_x / n
  let s := mosseSums X y
  let sXY : Spectrum k D := fun c j => (nu_ab : ℂ) * A c j + (nu_x : ℂ) * s.1 c j
  let sXX : Spectrum k D := fun c j => (nu_ab : ℂ) * B c j + (nu_x : ℂ) * s.2 c j
  ⟨back (mosseFilter sXY sXX l), sXY, sXX⟩

/-! ### Multi-channel -/

/-- Index of the vectorised filter: channel-major, `c * D + j`.
See `/repo/menpofit/math/correlationfilter.py:263-278` -/
abbrev Ix (k D : Nat) := Fin k × Fin D

/-- /repo/menpofit/math/correlationfilter.py:271-272: the sparse matrix with one diagonal per
channel, transposed: `D × (k D)`. -/
def diagX {k D : Nat} (x : Spectrum k D) : Matrix (Fin D) (Ix k D) ℂ :=
  Matrix.of fun j cj => if cj.2 = j then x cj.1 j else 0

/-- Filter, cross and auto spectral energies returned by the multi-channel functions. See `/repo/menpofit/math/correlationfilter.py:282-293` -/
structure MccfOut (F : Type) (k D : Nat) where
  f : F
  sXY : Ix k D → ℂ
  sXX : Matrix (Ix k D) (Ix k D) ℂ

/-- /repo/menpofit/math/correlationfilter.py:263-278. -/
def mccfSums {k D : Nat} (X : List (Spectrum k D)) (y : Fin D → ℂ) :
    (Ix k D → ℂ) × Matrix (Ix k D) (Ix k D) ℂ :=
  X.foldl (fun s x => (s.1 + (diagX x)ᴴ *ᵥ y, s.2 + (diagX x)ᴴ * diagX x)) (0, 0)

/-- /repo/menpofit/math/correlationfilter.py:282: `spsolve(sXX + l I, sXY)`. -/
def mccfFilter {k D : Nat} (sXY : Ix k D → ℂ) (sXX : Matrix (Ix k D) (Ix k D) ℂ) (l : ℝ) :
    Ix k D → ℂ :=
  (sXX + (l : ℂ) • (1 : Matrix (Ix k D) (Ix k D) ℂ))⁻¹ *ᵥ sXY

/-- /repo/menpofit/math/correlationfilter.py:203-293 `mccf`. -/
def mccf {F : Type} {k D : Nat} (back : (Ix k D → ℂ) → F) (X : List (Spectrum k D))
    (y : Fin D → ℂ) (l : ℝ) : MccfOut F k D :=
  let s := mccfSums X y
  ⟨back (mccfFilter s.1 s.2 l), s.1, s.2⟩

/-- /repo/menpofit/math/correlationfilter.py:296-414 `imccf`. -/
def imccf {F : Type} {k D : Nat} (back : (Ix k D → ℂ) → F) (A : Ix k D → ℂ)
    (B : Matrix (Ix k D) (Ix k D) ℂ) (n_ab : ℝ) (X : List (Spectrum k D)) (y : Fin D → ℂ)
    (l f : ℝ) : MccfOut F k D :=
  let n_ab := n_ab * f
  let n_x : ℝ := X.length
  let n := n_ab + n_x
  let nu_ab := n_ab / n
  let nu_x := n_x / n
  let s := mccfSums X y
  let sXY := (nu_ab : ℂ) • A + (nu_x : ℂ) • s.1
  let sXX := (nu_ab : ℂ) • B + (nu_x : ℂ) • s.2
  ⟨back (mccfFilter sXY sXX l), sXY, sXX⟩

/-! ### The ensemble -/

/-- Attributes of `CorrelationFilterExpertEnsemble` that training writes: the number of images and,
per expert, filter and energies. See `/repo/menpofit/clm/expert/ensemble.py:332-403` -/
structure Ensemble (F : Type) (k D : Nat) where
  nImages : Nat
  experts : List (MccfOut F k D)

/-- /repo/menpofit/clm/expert/ensemble.py:332-403 `_train` with `increment=False`, default filter
functions.  A training example is the list of the transforms of the patches around
its landmarks; `nExperts` is the number of points of the first shape; an example with
fewer points raises `IndexError` (line 364). -/
def trainEnsemble {F : Type} {k D : Nat} (back : (Ix k D → ℂ) → F) (y : Fin D → ℂ) (l : ℝ)
    (examples : List (List (Spectrum k D))) : Except PyErr (Ensemble F k D) :=
  match examples with
  | [] => .error .indexError
  | e :: _ => do
    let experts ← (List.range e.length).mapM fun i => do
      let patches ← examples.mapM fun ex =>
        match ex[i]? with
        | some p => .ok p
        | none => .error .indexError
      .ok (mccf back patches y l)
    .ok ⟨examples.length, experts⟩

/-- /repo/menpofit/clm/expert/ensemble.py:332-403 `_train` with `increment=True`: the number of
images is updated (line 351) before it is passed on as the number of old images
(line 379). -/
def incrementEnsemble {F : Type} {k D : Nat} (back : (Ix k D → ℂ) → F) (y : Fin D → ℂ) (l : ℝ)
    (st : Ensemble F k D) (examples : List (List (Spectrum k D))) :
    Except PyErr (Ensemble F k D) :=
  match examples with
  | [] => .error .indexError
  | e :: _ => do
    let nImages := st.nImages + examples.length
    let experts ← (List.range e.length).mapM fun i => do
      let patches ← examples.mapM fun ex =>
        match ex[i]? with
        | some p => .ok p
        | none => .error .indexError
      match st.experts[i]? with
      | none => .error .indexError
      | some old => .ok (imccf back old.sXY old.sXX nImages patches y l 1)
    .ok ⟨nImages, experts⟩

end
end Cf
end Menpofit
