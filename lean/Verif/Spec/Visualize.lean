import Verif.Model.Visualize
/-!
# Specification: the type of a plotting option (C68)
-/

namespace Menpofit.Spec
open Visualize

/-- The Python value is of the type; truth values are integers. -/
inductive IsOfType : Py → DType → Prop
  | bool (b : Bool) : IsOfType (.bool b) .bool
  | boolInt (b : Bool) : IsOfType (.bool b) .int
  | int (n : Int) : IsOfType (.int n) .int
  | float (q : Rat) : IsOfType (.float q) .float
  | str (s : String) : IsOfType (.str s) .str

end Menpofit.Spec
