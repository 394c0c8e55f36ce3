import Verif.Model.LkResidual
import Verif.Model.Optim
/-!
# The costs of sums of squared differences, with and without a kernel

`SSD.cost_closure` and `FourierSSD.cost_closure` (`/repo/menpofit/lk/residual.py:285-302`, `:455-471`) with NumPy's
broadcasting.  Arrays have any number of axes; shapes and indices are written with the last axis first.
-/

namespace Menpofit
namespace Lk
open Dft

noncomputable section

variable {c h w : Nat}

/-- A NumPy array: its shape and its entries, last axis first.
See `/repo/menpofit/lk/residual.py:285-302` -/
structure Arr where
  shape : List Nat
  entry : List Nat → ℂ

/-- The shape of an operation on two arrays; last axis first.
See `/repo/menpofit/lk/residual.py:299` -/
def broadcast : List Nat → List Nat → Except PyErr (List Nat)
  | [], t => .ok t
  | s, [] => .ok s
  | a :: s, b :: t => do
    let r ← broadcast s t
    if a = b then return a :: r
    else if a = 1 then return b :: r
    else if b = 1 then return a :: r
    else .error .valueError

/-- The entry of an array of shape `s` that takes part at an index of the result: axes of length one are
repeated, missing ones ignored. See `/repo/menpofit/lk/residual.py:299` -/
def pick : List Nat → List Nat → List Nat
  | n :: s, i :: is => (if n = 1 then 0 else i) :: pick s is
  | _, _ => []

/-- `a * b`. See `/repo/menpofit/lk/residual.py:299` -/
def Arr.mul (a b : Arr) : Except PyErr Arr := do
  let s ← broadcast a.shape b.shape
  return ⟨s, fun is => a.entry (pick a.shape is) * b.entry (pick b.shape is)⟩

/-- `k[..., None]`. See `/repo/menpofit/lk/residual.py:299` -/
def Arr.newAxis (k : Arr) : Arr := ⟨1 :: k.shape, fun is => k.entry is.tail⟩

/-- `fftn(x, axes=(-2, -1))` and `ifftn(x, axes=(-2, -1))`: `f` on every plane.
See `/repo/menpofit/lk/residual.py:299` -/
def Arr.onLastTwo (f : ∀ h w : Nat, (Pos h w → ℂ) → Pos h w → ℂ) (x : Arr) : Except PyErr Arr :=
  match x.shape with
  | w :: h :: _ => .ok ⟨x.shape, fun is =>
      match is with
      | v :: u :: r =>
        if hu : u < h ∧ v < w then f h w (fun p => x.entry (p.2 :: p.1 :: r)) (⟨u, hu.1⟩, ⟨v, hu.2⟩) else 0
      | _ => 0⟩
  | _ => .error .valueError

/-- The indices of an array in the order of `ravel()`. See `/repo/menpofit/lk/residual.py:301` -/
def indices : List Nat → List (List Nat)
  | [] => [[]]
  | n :: s => (indices s).flatMap fun r => (List.range n).map (· :: r)

/-- `x.ravel().T.dot(y.ravel())`. See `/repo/menpofit/lk/residual.py:301` -/
def Arr.dot (x y : Arr) : Except PyErr ℂ :=
  if x.shape.prod = y.shape.prod then
    .ok (List.zipWith (fun i j => x.entry i * y.entry j) (indices x.shape) (indices y.shape)).sum
  else .error .valueError

/-- The pixels of a picture as an array. See `/repo/menpofit/lk/residual.py:299-301` -/
def arrOf (x : Planes c h w) : Arr := ⟨[w, h, c], fun is =>
  match is with
  | [v, u, i] =>
    if hi : i < c ∧ u < h ∧ v < w then (x ⟨i, hi.1⟩ (⟨u, hi.2.1⟩, ⟨v, hi.2.2⟩) : ℂ) else 0
  | _ => 0⟩

/-- A kernel of one plane as an array. See `/repo/menpofit/lk/residual.py:299` -/
def planeArr (k : Pos h w → ℂ) : Arr := ⟨[w, h], fun is =>
  match is with
  | [v, u] => if hi : u < h ∧ v < w then k (⟨u, hi.1⟩, ⟨v, hi.2⟩) else 0
  | _ => 0⟩

/-- `x.reshape((-1,) + k.shape[-2:])` of the vector of a picture.
See `/repo/menpofit/lk/residual.py:298` -/
def reshapeLike (k : Arr) (x : Planes c h w) : Except PyErr Arr :=
  match k.shape with
  | kw :: kh :: _ =>
    if kw * kh = 0 ∨ (c * (h * w)) % (kw * kh) ≠ 0 then .error .valueError
    else .ok ⟨[kw, kh, c * (h * w) / (kw * kh)], fun is =>
      match is with
      | [v, u, i] =>
        let flat := (i * kh + u) * kw + v
        (arrOf x).entry [flat % w, flat / w % h, flat / (w * h)]
      | _ => 0⟩
  | _ => .error .valueError

/-- The part of `cost_closure` that the two classes share, `/repo/menpofit/lk/residual.py:299-301` and
`:468-470`. -/
def filteredCost (k x : Arr) : Except PyErr ℂ := do
  let fx ← x.onLastTwo fun _ _ => fft2
  let y ← k.newAxis.mul fx
  let kx ← y.onLastTwo fun _ _ => ifft2
  x.dot kx

/-- `SSD.cost_closure`, `/repo/menpofit/lk/residual.py:285-302`; `x` is the error image. -/
def ssdCost (kernel : Option Arr) (x : Planes c h w) : Except PyErr ℂ :=
  match kernel with
  | none => .ok (∑ i : Px c h w, (x i.1 i.2 : ℂ) * (x i.1 i.2 : ℂ))
  | some k => do
    let y ← reshapeLike k x
    filteredCost k y

/-- `FourierSSD.cost_closure`, `/repo/menpofit/lk/residual.py:455-471`. -/
def fourierSsdCost (kernel : Option Arr) (x : Planes c h w) : Except PyErr ℂ :=
  match kernel with
  | none => .ok (∑ i : Px c h w, (x i.1 i.2 : ℂ) * (x i.1 i.2 : ℂ))
  | some k => filteredCost k (arrOf x)

/-- The loop of each of the three algorithms with `return_costs=True`, `/repo/menpofit/lk/algorithm.py:117-155`,
`:250-282`, `:381-407`.  `body` is one iteration without the cost: the new transform and the norm of the
increment; `error` is the error image of the iteration.  The costs themselves are the third component of the
state. -/
def costMachine {T S V : Type} (body : T → Except PyErr (T × ℝ)) (error : T → Planes c h w)
    (cost : Planes c h w → Except PyErr ℂ) (shape : T → S) (vector : T → V) :
    Optim.Machine (T × List ℂ) S V Unit ℝ where
  step st := match body st.1 with
    | .error e => (st, .error e)
    | .ok (t, e) => match cost (error st.1) with
      | .error e => ((t, st.2), .error e)
      | .ok x => ((t, st.2 ++ [x]), .ok e)
  shape st := shape st.1
  params st := vector st.1
  cost _ := ()

/-- A run with `return_costs=True`: the lists of shapes and parameters, and the costs.
See `/repo/menpofit/lk/algorithm.py:117-155` -/
def costRun {T S V : Type} (body : T → Except PyErr (T × ℝ)) (error : T → Planes c h w)
    (cost : Planes c h w → Except PyErr ℂ) (shape : T → S) (vector : T → V) (eps : ℝ) (maxIters : Int) (t : T) :
    Except PyErr (Optim.Trace S V Unit × List ℂ) :=
  let r := Optim.run (costMachine body error cost shape vector) true maxIters eps false (t, [])
  r.2.map fun tr => (tr, r.1.2)

end
end Lk
end Menpofit
