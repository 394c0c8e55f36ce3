import Verif.Model.Py
/-!
# Specification vocabulary for argument checks

Written from the documentation of the arguments, independent of the code.
-/

namespace Menpofit
namespace Spec

mutual
/-- The numbers occurring in a value, from left to right. -/
def numbersIn : Py → List Py
  | .bool b => [.bool b]
  | .int n => [.int n]
  | .float q => [.float q]
  | .list l => numbersInList l
  | .tuple l => numbersInList l
  | _ => []
def numbersInList : List Py → List Py
  | [] => []
  | x :: r => numbersIn x ++ numbersInList r
end

/-- "One value per scale": a one-element list is repeated `n` times, any other
list is taken as it is. -/
def perScale (n : Nat) : List α → List α
  | [x] => List.replicate n x
  | l => l

/-- The list of supplied values has an admissible length for `n` scales. -/
def LengthOk (n : Nat) (l : List α) : Prop := l.length = 1 ∨ l.length = n

/-- `k` is a nearest integer to `q`, and the even one if there are two. -/
def NearestEven (q : Rat) (k : Int) : Prop :=
  |q - k| ≤ 1 / 2 ∧ (|q - k| = 1 / 2 → Even k)

/-- A class or partial of a class deriving from `base`. -/
def IsAlgorithm (base : Nat) : Py → Prop
  | .cls mro | .partialCls mro => base ∈ mro
  | _ => False

/-- What a component limit may be. -/
def isLimit (c : Py) : Prop := c.isNone = true ∨ c.isInt = true ∨ c.isFloat = true

/-- Being callable: a function, a class, or a `functools.partial` of a class. -/
inductive Callable : Py → Prop
  | function (id : Nat) : Callable (.callable id)
  | cls (mro : List Nat) : Callable (.cls mro)
  | partialCls (mro : List Nat) : Callable (.partialCls mro)

end Spec
end Menpofit
