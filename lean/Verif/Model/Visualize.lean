import Verif.Model.Py
/-!
# Plotting options

Models `_check_multi_argument`, `/repo/menpofit/visualize/base.py:6-24`, and the sequence of checks at
the start of `view_image_multiple_landmarks`, `/repo/menpofit/visualize/base.py:318-350`.  Python lists
are objects: an option that is a list is an address in a heap of lists.  Not modelled: drawing, and
menpo's `_check_colours_list`.
-/

namespace Menpofit
namespace Visualize

/-- The types that the callers ask for. See `/repo/menpofit/visualize/base.py:318-350` -/
inductive DType where
  | bool | str | int | float
  deriving DecidableEq, Repr

/-- `isinstance(v, t)`; a `bool` is an `int`. See `/repo/menpofit/visualize/base.py:6-24` -/
def isInstance (v : Py) : DType → Bool
  | .bool => match v with | .bool _ => true | _ => false
  | .str => match v with | .str _ => true | _ => false
  | .int => v.isInt
  | .float => v.isFloat

/-- The list objects of the interpreter, by address. See `/repo/menpofit/visualize/base.py:6-24` -/
abbrev Heap := List (List Py)

/-- The list at an address. See `/repo/menpofit/visualize/base.py:6-24` -/
def deref (h : Heap) (a : Nat) : List Py := h.getD a []

/-- What is passed for an option: a list object, or any other value.
See `/repo/menpofit/visualize/base.py:6-24` -/
inductive Arg where
  | ref (a : Nat)
  | val (v : Py)

/-- `[v] * n` and `l *= n` for a list `l` with the one element `v`: nothing if `n ≤ 0`.
See `/repo/menpofit/visualize/base.py:6-24` -/
def times (v : Py) (n : Nat) : List Py := List.replicate n v

/-- `_check_multi_argument`, `/repo/menpofit/visualize/base.py:6-24`: the heap afterwards and the
address of the list that is returned.  A list is never of one of the types asked for; `arg *= n` changes
the list object in place. -/
def checkMulti (h : Heap) (arg : Arg) (n : Nat) (dtypes : List DType) : Heap × Except PyErr Nat :=
  match arg with
  | .val v =>
    if dtypes.any (isInstance v) then (h ++ [times v n], .ok h.length)
    else (h, .error .valueError)
  | .ref a =>
    match deref h a with
    | [v] => (h.set a (times v n), .ok a)
    | l => if l.length ≠ n then (h, .error .valueError) else (h, .ok a)

/-- The checks of one call one after the other, `/repo/menpofit/visualize/base.py:318-350`; the first
that fails ends the call. -/
def checkAll (n : Nat) : Heap → List (Arg × List DType) → Heap × Except PyErr (List Nat)
  | h, [] => (h, .ok [])
  | h, (arg, dtypes) :: rest =>
    match checkMulti h arg n dtypes with
    | (h, .error e) => (h, .error e)
    | (h, .ok a) =>
      match checkAll n h rest with
      | (h, .error e) => (h, .error e)
      | (h, .ok as) => (h, .ok (a :: as))

end Visualize
end Menpofit
