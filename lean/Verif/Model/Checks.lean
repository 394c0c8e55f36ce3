import Verif.Model.Py
/-!
# Model of `menpofit/checks.py`
-/

namespace Menpofit
namespace Checks

/-- `[x] * n`. See `/repo/menpofit/checks.py:108-116` -/
abbrev rep (n : Nat) (x : α) : List α := List.replicate n x

/-- `check_diagonal`, `/repo/menpofit/checks.py:31-33`. -/
def checkDiagonal (diagonal : Option Rat) : Except PyErr (Option Rat) :=
  match diagonal with
  | some d => if d < 20 then .error .valueError else .ok diagonal
  | none => .ok diagonal

mutual
/-- `check_scales`, `/repo/menpofit/checks.py:108-116`.  The recursive call on
`scales[1:]` keeps the kind of sequence, so it is the function on the list of
elements below.  Strings: a one-character string is neither a number nor longer
than one, and a longer one starts with such a string, so every string raises
`ValueError`.  Integer arrays: the elements are `np.int64`, which are not
`int`; a scalar `np.int64` has no `len`.  Everything without `len` raises
`TypeError`. -/
def checkScales : Py → Except PyErr (List Py)
  | .bool b => .ok [.bool b]
  | .int n => .ok [.int n]
  | .float q => .ok [.float q]
  | .list l => checkScalesSeq l
  | .tuple l => checkScalesSeq l
  | .str _ => .error .valueError
  | .ndarray [] => .error .valueError
  | .ndarray [_] => .error .valueError
  | .ndarray (_ :: _ :: _) => .error .typeError
  | .none => .error .typeError
  | .npInt _ => .error .typeError
  | .callable _ => .error .typeError
  | .cls _ => .error .typeError
  | .partialCls _ => .error .typeError
  | .obj _ _ => .error .typeError
/-- `check_scales` on a list/tuple, `/repo/menpofit/checks.py:110-116`. -/
def checkScalesSeq : List Py → Except PyErr (List Py)
  | [] => .error .valueError
  | [x] => if x.isNumber then .ok [x] else .error .valueError
  | x :: y :: r => do
      let a ← checkScales x
      let b ← checkScalesSeq (y :: r)
      return a ++ b
end

/-- `check_multi_scale_param`, `/repo/menpofit/checks.py:147-166`.  `isT` is
`isinstance(·, types)`. -/
def checkMultiScaleParam (n : Nat) (isT : Py → Bool) (param : Py) :
    Except PyErr (List Py) :=
  if isT param then .ok (rep n param)
  else match param.elems? with
    | none => .error .valueError
    | some l =>
      if l.length = 1 ∧ l.all isT then .ok ((rep n l).flatten)
      else if l.length = n ∧ l.all isT then .ok l
      else .error .valueError

/-- `check_callable`, `/repo/menpofit/checks.py:191-201`.  `len` of a value
that is neither callable nor sized raises `TypeError`. -/
def checkCallable (callables : Py) (n : Nat) : Except PyErr (List Py) :=
  if callables.isCallable then .ok (rep n callables)
  else match callables.elems? with
    | none => .error .typeError
    | some l =>
      if l.length = 1 ∧ l.all Py.isCallable then .ok ((rep n l).flatten)
      else if l.length = n ∧ l.all Py.isCallable then .ok l
      else .error .valueError

/-- The values `check_patch_shape` is documented for, plus arbitrary nesting:
an `int`, any other scalar without `len`, or a list/tuple. See `/repo/menpofit/checks.py:226-237` -/
inductive PatchArg where
  | int (n : Int)
  | scalar (id : Nat)
  | seq (l : List PatchArg)

/-- `isinstance(x, int)`. See `/repo/menpofit/checks.py:226` -/
def PatchArg.isInt : PatchArg → Bool
  | .int _ => true
  | _ => false

mutual
/-- `check_patch_shape`, `/repo/menpofit/checks.py:226-237`. `len` of a scalar
raises `TypeError`.  Recursive calls are on `patch_shape[0]` (an element) and on
`patch_shape[1:]`. -/
def checkPatchShape : PatchArg → Nat → Except PyErr (List PatchArg)
  | .int _, _ => .error .typeError
  | .scalar _, _ => .error .typeError
  | .seq l, n => checkPatchShapeSeq l n
/-- `check_patch_shape` on a list/tuple, `/repo/menpofit/checks.py:226-237`. -/
def checkPatchShapeSeq : List PatchArg → Nat → Except PyErr (List PatchArg)
  | [], n => if n = 0 then .error .indexError else .error .valueError
  | [x], _ => checkPatchShape x 1
  | x :: y :: r, n =>
      if r = [] ∧ x.isInt then .ok (rep n (.seq (x :: y :: r)))
      else if (x :: y :: r).length = n then do
        let l1 ← checkPatchShape x 1
        let l2 ← checkPatchShapeSeq (y :: r) (n - 1)
        return l1 ++ l2
      else .error .valueError
end

/-- `check_max_components`, `/repo/menpofit/checks.py:266-282`. -/
def checkMaxComponents (maxComponents : Py) (n : Nat) : Except PyErr (List Py) := do
  let l ← (match maxComponents with
    | .list [x] | .tuple [x] => .ok (rep n x)
    | .list l | .tuple l => if l.length = n then .ok l else .error .valueError
    | v => .ok (rep n v) : Except PyErr (List Py))
  if l.all fun c => c.isNone || c.isInt || c.isFloat then return l
  else .error .valueError

/-- `np.round` of an exact quotient: nearest integer, ties to even.
See `/repo/menpofit/checks.py:309-312` -/
def npRound (q : Rat) : Int :=
  let f := ⌊q⌋
  if q - f < 1 / 2 then f
  else if 1 / 2 < q - f then f + 1
  else if f % 2 = 0 then f else f + 1

/-- Conversion to `np.int64` (`np.require(..., dtype=np.int64)`): truncation
towards zero. See `/repo/menpofit/checks.py:318` -/
def truncToInt (q : Rat) : Int := if 0 ≤ q then ⌊q⌋ else ⌈q⌉

/-- The values that reach `check_max_iters`: an `int`, a list/tuple of numbers,
or something without `len` (such as `None`). See `/repo/menpofit/checks.py:308-318` -/
inductive MaxIters where
  | int (m : Int)
  | seq (l : List Rat)
  | unsized

/-- `check_max_iters`, `/repo/menpofit/checks.py:308-318` (Python 3 division). -/
def checkMaxIters (m : MaxIters) (n : Nat) : Except PyErr (List Int) :=
  match m with
  | .int m => .ok (rep n (npRound ((m : Rat) / n)))
  | .unsized => .error .typeError
  | .seq l =>
    if l.length = 1 ∧ n > 1 then .ok (rep n (npRound (l.headD 0 / n)))
    else if l.length ≠ n then .error .valueError
    else .ok (l.map truncToInt)

/-- `isinstance(s, (np.ndarray, np.int64))`. See `/repo/menpofit/checks.py:347` -/
def isSamplingElem : Py → Bool
  | .ndarray _ | .npInt _ => true
  | _ => false

/-- `check_sampling`, `/repo/menpofit/checks.py:346-363`.  The list branch tests
`sampling is None` (the whole argument, never true for a list) for each
element. -/
def checkSampling (sampling : Py) (n : Nat) : Except PyErr (List Py) :=
  if sampling.isListOrTuple ∧
      (sampling.elems?.getD []).all fun s => isSamplingElem s || sampling.isNone then
    let l := sampling.elems?.getD []
    if l.length = 1 then .ok ((rep n l).flatten)
    else if l.length = n then .ok l
    else .error .valueError
  else if isSamplingElem sampling ∨ sampling.isNone then .ok (rep n sampling)
  else .error .valueError

/-- Set an attribute on every model of a list from left to right, stopping at
the first exception; returns the models as they are afterwards.
See `/repo/menpofit/checks.py:383-397` -/
def setAll (set : M → Py → Except PyErr M) : List (M × Py) → List M × Option PyErr
  | [] => ([], none)
  | (m, v) :: r =>
    match set m v with
    | .error e => (m :: r.map Prod.fst, some e)
    | .ok m' => let (ms, e) := setAll set r; (m' :: ms, e)

/-- `set_models_components`, `/repo/menpofit/checks.py:383-397`.  `set` is the
`n_active_components` setter of a model.  Returns the models afterwards and the
exception, if any. -/
def setModelsComponents (set : M → Py → Except PyErr M) (models : List M) (v : Py) :
    List M × Option PyErr :=
  match v with
  | .none => (models, none)
  | .int n => setAll set (models.map fun m => (m, .int n))
  | .float q => setAll set (models.map fun m => (m, .float q))
  | v =>
    match v.elems? with
    | none => (models, some .typeError)
    | some l =>
      if l.length = 1 ∧ models.length > 1 then
        setAll set (models.map fun m => (m, l.headD .none))
      else if l.length = models.length then setAll set (models.zip l)
      else (models, some .valueError)

mutual
/-- `check_algorithm_cls`, `/repo/menpofit/checks.py:443-462`.  `base` is the
identity of the required base class.  A string recurses on its own first
character forever (`RecursionError`) when its length is 1 or `n_scales`. -/
def checkAlgorithmCls (base : Nat) : Py → Nat → Except PyErr (List Py)
  | .partialCls mro, n =>
      if base ∈ mro then .ok (rep n (.partialCls mro)) else .error .typeError
  | .cls mro, n => if base ∈ mro then .ok (rep n (.cls mro)) else .error .typeError
  | .list l, n => checkAlgorithmSeq base l n
  | .tuple l, n => checkAlgorithmSeq base l n
  | .str s, n =>
      if s.length = 1 ∨ (s.length = n ∧ n ≠ 0) then .error .recursionError
      else if s.length = n then .ok [] else .error .valueError
  | .ndarray l, n =>
      if l.length = 1 ∨ (l.length = n ∧ n ≠ 0) then .error .typeError
      else if l.length = n then .ok [] else .error .valueError
  | .none, _ => .error .typeError
  | .bool _, _ => .error .typeError
  | .int _, _ => .error .typeError
  | .float _, _ => .error .typeError
  | .npInt _, _ => .error .typeError
  | .callable _, _ => .error .typeError
  | .obj _ _, _ => .error .typeError
/-- The list/tuple branches, `/repo/menpofit/checks.py:449-462`. -/
def checkAlgorithmSeq (base : Nat) : List Py → Nat → Except PyErr (List Py)
  | [x], n => checkAlgorithmCls base x n
  | l, n => if l.length = n then checkAlgorithmEach base l else .error .valueError
/-- `[check_algorithm_cls(a, 1, base)[0] for a in algorithm_cls]`,
`/repo/menpofit/checks.py:453-454`. -/
def checkAlgorithmEach (base : Nat) : List Py → Except PyErr (List Py)
  | [] => .ok []
  | a :: r => do
      let c ← checkAlgorithmCls base a 1
      match c with
      | [] => .error .indexError
      | c0 :: _ => let cs ← checkAlgorithmEach base r; return c0 :: cs
end

/-- `check_graph`, `/repo/menpofit/checks.py:492-513`.  `tyOk` is
`type(g) in graph_types` (line 502-503 only wraps a single type in a list). -/
def checkGraph (tyOk : Py → Bool) (graph : Py) (n : Nat) : Except PyErr (List Py) := do
  let graphs ← (match graph with
    | .list l =>
      if l.length = 1 then .ok ((rep n l).flatten)
      else if l.length = n then .ok l
      else .error .valueError
    | g => .ok (rep n g) : Except PyErr (List Py))
  if graphs.all fun g => g.isNone || tyOk g then return graphs
  else .error .valueError

end Checks
end Menpofit
