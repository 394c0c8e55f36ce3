import Verif.Model.Py
/-!
# Face-specific error functions

Models `/repo/menpofit/error/human/face.py`.  A shape is its list of points; the
Euclidean error of two shapes, the distance of two points and the mean of a list
of points are parameters (they are modelled in `Verif.Model.Error`).  The eye
indices come from `menpo.landmark`, outside the repository, and are parameters.
-/

namespace Menpofit
namespace Face

variable {P K : Type}

/-- `np.delete(sp, k, 0)`. See `/repo/menpofit/error/human/face.py:14-34` -/
def npDelete (l : List P) (k : Nat) : Except PyErr (List P) :=
  if k < l.length then .ok (l.eraseIdx k) else .error .indexError

/-- /repo/menpofit/error/human/face.py:14-15. -/
def convert68to51 (shape : List P) : List P := shape.drop 17

/-- /repo/menpofit/error/human/face.py:18-23. -/
def convert68to49 (shape : List P) : Except PyErr (List P) := do
  let sp ← npDelete shape 64
  let sp ← npDelete sp 60
  pure (sp.drop 17)

/-- /repo/menpofit/error/human/face.py:26-27. -/
def convert66to49 (shape : List P) : List P := shape.drop 17

/-- /repo/menpofit/error/human/face.py:30-34. -/
def convert51to49 (shape : List P) : Except PyErr (List P) := do
  let sp ← npDelete shape 47
  npDelete sp 43

/-- The functions the errors are built from: `euclidean_error` on shapes and on two points,
`np.mean(.., axis=0)` of a list of points, and the division.
See `/repo/menpofit/error/human/face.py:82-87` -/
structure Ops (P K : Type) where
  err : List P → List P → K
  dist : P → P → K
  mean : List P → P
  div : K → K → K

/-- `s[i]` for a list index: the rows at the given indices.
See `/repo/menpofit/error/human/face.py:82-85` -/
def rows (s : List P) (idx : List Nat) : Except PyErr (List P) :=
  idx.mapM fun i => match s[i]? with
    | some p => .ok p
    | none => .error .indexError

/-- `s[i]`. See `/repo/menpofit/error/human/face.py:82-85` -/
def row (s : List P) (i : Nat) : Except PyErr P :=
  match s[i]? with
  | some p => .ok p
  | none => .error .indexError

/-- /repo/menpofit/error/base.py:298-332 `distance_indexed_normalised_error` with
`euclidean_error`. -/
def indexedError (o : Ops P K) (i j : Nat) (shape gt : List P) : Except PyErr K := do
  let p ← row gt i
  let q ← row gt j
  pure (o.div (o.err shape gt) (o.dist p q))

/-- /repo/menpofit/error/human/face.py:82-85, 136-139 `pupil_dist`; `mapping` are the indices
of the left and the right eye. -/
def pupilDist (o : Ops P K) (mapping : List Nat × List Nat) (s : List P) : Except PyErr K := do
  let l ← rows s mapping.1
  let r ← rows s mapping.2
  pure (o.dist (o.mean l) (o.mean r))

/-- /repo/menpofit/error/human/face.py:37-87 `mean_pupil_68_error`. -/
def meanPupil68Error (o : Ops P K) (mapping : List Nat × List Nat) (shape gt : List P) :
    Except PyErr K :=
  if shape.length ≠ 68 then .error .valueError
  else if gt.length ≠ 68 then .error .valueError
  else do
    let v ← pupilDist o mapping gt
    pure (o.div (o.err shape gt) v)

/-- The conversion chain to 49 points, /repo/menpofit/error/human/face.py:140-145 and
146-151. -/
def to49 (shape : List P) : Except PyErr (List P) :=
  if shape.length = 68 then convert68to49 shape
  else if shape.length = 66 then .ok (convert66to49 shape)
  else if shape.length = 51 then convert51to49 shape
  else .ok shape

/-- The admitted point counts of the 49-point errors.
See `/repo/menpofit/error/human/face.py:140-145` -/
def counts49 : List Nat := [68, 66, 51, 49]

/-- /repo/menpofit/error/human/face.py:90-153 `mean_pupil_49_error`. -/
def meanPupil49Error (o : Ops P K) (mapping : List Nat × List Nat) (shape gt : List P) :
    Except PyErr K :=
  if shape.length ∉ counts49 then .error .valueError
  else if gt.length ∉ counts49 then .error .valueError
  else do
    let shape ← to49 shape
    let gt ← to49 gt
    let v ← pupilDist o mapping gt
    pure (o.div (o.err shape gt) v)

/-- /repo/menpofit/error/human/face.py:156-201 `outer_eye_corner_68_euclidean_error`. -/
def outerEye68 (o : Ops P K) (shape gt : List P) : Except PyErr K :=
  if shape.length ≠ 68 then .error .valueError
  else if gt.length ≠ 68 then .error .valueError
  else indexedError o 36 45 shape gt

/-- /repo/menpofit/error/human/face.py:248-251. -/
def to51 (shape : List P) : List P :=
  if shape.length = 68 then convert68to51 shape else shape

/-- /repo/menpofit/error/human/face.py:204-253 `outer_eye_corner_51_euclidean_error`. -/
def outerEye51 (o : Ops P K) (shape gt : List P) : Except PyErr K :=
  if shape.length ∉ [68, 51] then .error .valueError
  else if gt.length ∉ [68, 51] then .error .valueError
  else indexedError o 19 28 (to51 shape) (to51 gt)

/-- /repo/menpofit/error/human/face.py:256-314 `outer_eye_corner_49_euclidean_error`. -/
def outerEye49 (o : Ops P K) (shape gt : List P) : Except PyErr K :=
  if shape.length ∉ counts49 then .error .valueError
  else if gt.length ∉ counts49 then .error .valueError
  else do
    let shape ← to49 shape
    let gt ← to49 gt
    indexedError o 19 28 shape gt

/-- /repo/menpofit/error/human/face.py:317-363 `bb_avg_edge_length_68_euclidean_error`; `bb`
is `bb_avg_edge_length`. -/
def bb68 (o : Ops P K) (bb : List P → K) (shape gt : List P) : Except PyErr K :=
  if shape.length ≠ 68 then .error .valueError
  else if gt.length ≠ 68 then .error .valueError
  else .ok (o.div (o.err shape gt) (bb gt))

/-- /repo/menpofit/error/human/face.py:366-421 `bb_avg_edge_length_49_euclidean_error`: the
bounding box is that of all 68 points. -/
def bb49 (o : Ops P K) (bb : List P → K) (shape gt : List P) : Except PyErr K :=
  if shape.length ∉ counts49 then .error .valueError
  else if gt.length ≠ 68 then .error .valueError
  else do
    let shape ← to49 shape
    let gt49 ← convert68to49 gt
    pure (o.div (o.err shape gt49) (bb gt))

end Face
end Menpofit
