import Verif.Model.GaussNewton
/-!
# Linear regressors

Models `/repo/menpofit/math/regression.py`.  Exact arithmetic over a field; `X` and `Y`
are matrices with one sample per row and may have different numbers of rows (NumPy
then raises `ValueError`).  An object is modelled by the pair of its state after the
call and the outcome of the call, because a method that raises may already have
assigned attributes.
-/

namespace Menpofit
namespace Reg
open Matrix GN

noncomputable section

variable {K : Type} [Field K] [DecidableEq K]

/-- Number of columns after adding the bias. See `/repo/menpofit/math/regression.py:38-40` -/
abbrev width (bias : Bool) (d : Nat) : Nat := bif bias then d + 1 else d

/-- /repo/menpofit/math/regression.py:38-40 (also 71-73): add the column of ones. -/
def addBias (bias : Bool) {n d : Nat} (X : Matrix (Fin n) (Fin d) K) :
    Matrix (Fin n) (Fin (width bias d)) K :=
  match bias with
  | true => Matrix.of fun i => (Fin.snoc (X i) 1 : Fin (d + 1) → K)
  | false => X

/-- /repo/menpofit/math/regression.py:98-102: add the bias to a single sample. -/
def addBias1 (bias : Bool) {d : Nat} (x : Fin d → K) : Fin (width bias d) → K :=
  match bias with
  | true => (Fin.snoc x 1 : Fin (d + 1) → K)
  | false => x

/-- Attributes of an `IRLRegression` with `k` features (bias included) and `q` outputs,
/repo/menpofit/math/regression.py:20-25. -/
structure Irl (K : Type) (k q : Nat) where
  alpha : K
  incrementable : Bool
  V : Option (Matrix (Fin k) (Fin k) K)
  W : Option (Matrix (Fin k) (Fin q) K)

/-- /repo/menpofit/math/regression.py:20-25 `__init__`. -/
def newIrl (alpha : K) (incrementable : Bool) (k q : Nat) : Irl K k q :=
  ⟨alpha, incrementable, none, none⟩

/-- `X.T.dot(Y)`. See `/repo/menpofit/math/regression.py:50` -/
def tdot {n n' k q : Nat} (X : Matrix (Fin n) (Fin k) K) (Y : Matrix (Fin n') (Fin q) K) :
    Except PyErr (Matrix (Fin k) (Fin q) K) :=
  if h : n = n' then .ok (Xᵀ * Matrix.of fun i => Y (Fin.cast h i)) else .error .valueError

/-- /repo/menpofit/math/regression.py:42-47: the regularised normal matrix. -/
def normal {n k : Nat} (alpha : K) (X : Matrix (Fin n) (Fin k) K) : Matrix (Fin k) (Fin k) K :=
  let XX := Xᵀ * X
  let XX := (2⁻¹ : K) • (XX + XXᵀ)
  if alpha = 0 then XX else XX + diagonal fun _ => alpha

/-- /repo/menpofit/math/regression.py:46-50 `train` after the bias was added. -/
def trainCore {n n' k q : Nat} (st : Irl K k q) (X : Matrix (Fin n) (Fin k) K)
    (Y : Matrix (Fin n') (Fin q) K) : Irl K k q × Except PyErr Unit :=
  let XX := normal st.alpha X
  if st.incrementable then
    match npInv XX with
    | .error e => (st, .error e)
    | .ok v =>
      let st := { st with V := some v }
      match tdot X Y >>= npSolveMat XX with
      | .error e => (st, .error e)
      | .ok w => ({ st with W := some w }, .ok ())
  else
    match tdot X Y >>= npSolveMat XX with
    | .error e => (st, .error e)
    | .ok w => ({ st with W := some w }, .ok ())

/-- /repo/menpofit/math/regression.py:27-50 `IRLRegression.train`. -/
def train (bias : Bool) {n n' d q : Nat} (st : Irl K (width bias d) q)
    (X : Matrix (Fin n) (Fin d) K) (Y : Matrix (Fin n') (Fin q) K) :
    Irl K (width bias d) q × Except PyErr Unit :=
  trainCore st (addBias bias X) Y

/-- /repo/menpofit/math/regression.py:75-82 `increment` after the bias was added.  `X.dot(None)`
of an untrained regressor raises `TypeError`; line 82 is evaluated after `self.V`
has been assigned. -/
def incrementCore {n n' k q : Nat} (st : Irl K k q) (X : Matrix (Fin n) (Fin k) K)
    (Y : Matrix (Fin n') (Fin q) K) : Irl K k q × Except PyErr Unit :=
  if st.incrementable then
    match st.V with
    | none => (st, .error .typeError)
    | some V =>
      let U := X * V * Xᵀ
      let U := if st.alpha = 0 then U else U + diagonal fun _ => st.alpha
      match npInv U with
      | .error e => (st, .error e)
      | .ok Ui =>
        let Q := V * Xᵀ * Ui * X
        let V' := V - Q * V
        let st := { st with V := some V' }
        match st.W, tdot X Y with
        | none, _ => (st, .error .typeError)
        | some _, .error e => (st, .error e)
        | some W, .ok XY => ({ st with W := some (W - Q * W + V' * XY) }, .ok ())
  else (st, .error .valueError)

/-- /repo/menpofit/math/regression.py:52-82 `IRLRegression.increment`. -/
def increment (bias : Bool) {n n' d q : Nat} (st : Irl K (width bias d) q)
    (X : Matrix (Fin n) (Fin d) K) (Y : Matrix (Fin n') (Fin q) K) :
    Irl K (width bias d) q × Except PyErr Unit :=
  incrementCore st (addBias bias X) Y

/-- /repo/menpofit/math/regression.py:84-103 `predict` of one sample. -/
def predict (bias : Bool) {d q : Nat} (st : Irl K (width bias d) q) (x : Fin d → K) :
    Except PyErr (Fin q → K) :=
  match st.W with
  | none => .error .typeError
  | some W => .ok (addBias1 bias x ᵥ* W)

/-- /repo/menpofit/math/regression.py:84-103 `predict` of a matrix of samples. -/
def predictRows (bias : Bool) {n d q : Nat} (st : Irl K (width bias d) q)
    (X : Matrix (Fin n) (Fin d) K) : Except PyErr (Matrix (Fin n) (Fin q) K) :=
  match st.W with
  | none => .error .typeError
  | some W => .ok (addBias bias X * W)

/-! ### IIRLRegression -/

/-- Attributes of an `IIRLRegression`: those of the base class, whose `W` is first the `q × d`
matrix `J` and finally its `d × q` pseudo-inverse; the inherited `V` is never set
because the constructor (line 122) leaves `incrementable` at `False`. -/
structure Iirl (K : Type) (d q : Nat) where
  alpha : K
  alpha2 : K
  incrementable : Bool
  W : Option (Matrix (Fin d) (Fin q) K)

/-- /repo/menpofit/math/regression.py:120-123 `__init__` (the argument `bias` is ignored). -/
def newIirl (alpha alpha2 : K) (d q : Nat) : Iirl K d q := ⟨alpha, alpha2, false, none⟩

/-- /repo/menpofit/math/regression.py:142-145: `solve(J J' + alpha2, J)'`. -/
def invertJ {d q : Nat} (alpha2 : K) (J : Matrix (Fin q) (Fin d) K) :
    Except PyErr (Matrix (Fin d) (Fin q) K) :=
  let H := J * Jᵀ
  let H := if alpha2 = 0 then H else H + diagonal fun _ => alpha2
  (npSolveMat H J).map fun M => Mᵀ

/-- /repo/menpofit/math/regression.py:125-145 `IIRLRegression.train`: the roles of `X` and `Y`
are exchanged in the call of the base class.  Simplification: when line 145
raises, the attribute `W` holds the intermediate `J` (of another shape); the
state returned here keeps the old one. -/
def trainIirl {n n' d q : Nat} (st : Iirl K d q) (X : Matrix (Fin n) (Fin d) K)
    (Y : Matrix (Fin n') (Fin q) K) : Iirl K d q × Except PyErr Unit :=
  match (trainCore (newIrl st.alpha st.incrementable q d) Y X) with
  | (_, .error e) => (st, .error e)
  | (base, .ok ()) =>
    match base.W with
    | none => (st, .error .typeError)
    | some J =>
      match invertJ st.alpha2 J with
      | .error e => (st, .error e)
      | .ok W => ({ st with W := some W }, .ok ())

/-- /repo/menpofit/math/regression.py:147-172 `IIRLRegression.increment`: line 164 calls the base
class, which raises `ValueError` unless `incrementable`.  (An object whose
`incrementable` attribute was changed from outside is not modelled.) -/
def incrementIirl {n n' d q : Nat} (st : Iirl K d q) (_X : Matrix (Fin n) (Fin d) K)
    (_Y : Matrix (Fin n') (Fin q) K) : Iirl K d q × Except PyErr Unit :=
  (st, .error .valueError)

/-- /repo/menpofit/math/regression.py:174-188 `IIRLRegression.predict`. -/
def predictIirl {d q : Nat} (st : Iirl K d q) (x : Fin d → K) : Except PyErr (Fin q → K) :=
  match st.W with
  | none => .error .typeError
  | some W => .ok (x ᵥ* W)

/-- /repo/menpofit/math/regression.py:237-253, 330-346, 413-429: `increment` of `PCRRegression`,
`OptimalLinearRegression` and `OPPRegression`. -/
def incrementOther {St A : Type} (st : St) (_data : A) : St × Except PyErr Unit :=
  (st, .error .notImplementedError)

end
end Reg
end Menpofit
