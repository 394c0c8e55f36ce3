import Mathlib.Data.Rat.Floor
/-!
# Python values and exceptions

The universe of run-time values that reach the argument checks of menpofit.
Not a model of one source file: it is the vocabulary the models of
`menpofit/checks.py` and `menpofit/visualize/base.py` are written in.
-/

namespace Menpofit

/-- The exception classes that the modelled code can raise. See `/repo/menpofit/checks.py:31-513` -/
inductive PyErr where
  | valueError | typeError | indexError | keyError | attributeError
  | notImplementedError | linAlgError | recursionError | nameError
  | zeroDivisionError | ioError
  | userError (tag : Nat)
  deriving DecidableEq, Repr

/-- Python values.  Simplifications: floats are exact rationals; `ndarray` is
a one-dimensional integer array (the only arrays the modelled checks are
documented for); `cls mro` is a class given by the identities in its method
resolution order, `partialCls mro` is `functools.partial` of such a class;
`obj ty id` is any other object of (exact) type `ty`, not sized, not callable.
See `/repo/menpofit/checks.py:31-513` -/
inductive Py where
  | none
  | bool (b : Bool)
  | int (n : Int)
  | float (q : Rat)
  | npInt (n : Int)
  | ndarray (l : List Int)
  | str (s : String)
  | callable (id : Nat)
  | cls (mro : List Nat)
  | partialCls (mro : List Nat)
  | obj (ty id : Nat)
  | list (l : List Py)
  | tuple (l : List Py)

namespace Py

/-- `isinstance(x, (int, float))` (a `bool` is an `int`; `np.int64` is not).
See `/repo/menpofit/checks.py:108` -/
def isNumber : Py → Bool
  | .bool _ | .int _ | .float _ => true
  | _ => false

/-- `isinstance(x, int)`. See `/repo/menpofit/checks.py:279` -/
def isInt : Py → Bool
  | .bool _ | .int _ => true
  | _ => false

/-- `isinstance(x, float)`. See `/repo/menpofit/checks.py:280` -/
def isFloat : Py → Bool
  | .float _ => true
  | _ => false

/-- `x is None`. See `/repo/menpofit/checks.py:308-318` -/
def isNone : Py → Bool
  | .none => true
  | _ => false

/-- `callable(x)`: functions, classes and partials. See `/repo/menpofit/checks.py:191-201` -/
def isCallable : Py → Bool
  | .callable _ | .cls _ | .partialCls _ => true
  | _ => false

/-- The elements of a sized, iterable value in iteration order; `none` when the
value has no `len`.  A string iterates over one-character strings.
See `/repo/menpofit/checks.py:147-166` -/
def elems? : Py → Option (List Py)
  | .list l | .tuple l => some l
  | .ndarray l => some (l.map .npInt)
  | .str s => some (s.toList.map fun c => .str (String.singleton c))
  | _ => Option.none

/-- `isinstance(x, (list, tuple))`. See `/repo/menpofit/checks.py:269` -/
def isListOrTuple : Py → Bool
  | .list _ | .tuple _ => true
  | _ => false

end Py
end Menpofit
