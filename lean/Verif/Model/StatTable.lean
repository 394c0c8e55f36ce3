import Verif.Model.Stats
/-!
# The table of error statistics

Models `/repo/menpofit/visualize/textutils.py:85-259` `statistics_table`.  Setting the display precision
(line 257) is not modelled.
-/

namespace Menpofit
namespace StatTable
open Stats

noncomputable section

/-- A pandas `DataFrame`: row labels and columns in order.
See `/repo/menpofit/visualize/textutils.py:243-259` -/
structure Table where
  index : List String
  columns : List (String × List ℝ)

/-- `/repo/menpofit/visualize/textutils.py:208`. -/
def supported : List String := ["mean", "std", "median", "mad", "max", "auc", "fr"]

/-- `data[name] = values` of an `OrderedDict`: a name that is present keeps its place and gets the new
values. See `/repo/menpofit/visualize/textutils.py:227-240` -/
def setCol (cols : List (String × List ℝ)) (name : String) (v : List ℝ) : List (String × List ℝ) :=
  if cols.any fun c => c.1 = name then cols.map fun c => if c.1 = name then (name, v) else c
  else cols ++ [(name, v)]

/-- `/repo/menpofit/visualize/textutils.py:227-240`: the statements `if stat_type == ...` of one round of
the loop. -/
def addStat (m : Measures (List ℝ)) (ty name : String) (cols : List (String × List ℝ)) :
    List (String × List ℝ) :=
  let cols := if ty = "mean" then setCol cols name m.mean else cols
  let cols := if ty = "std" then setCol cols name m.std else cols
  let cols := if ty = "median" then setCol cols name m.median else cols
  let cols := if ty = "mad" then setCol cols name m.mad else cols
  let cols := if ty = "max" then setCol cols name m.max else cols
  let cols := if ty = "auc" then setCol cols name m.auc else cols
  if ty = "fr" then setCol cols name m.fail else cols

/-- `/repo/menpofit/visualize/textutils.py:222-240`. -/
def columnsLoop (m : Measures (List ℝ)) :
    List (String × List ℝ) → List (String × String) → Except PyErr (List (String × List ℝ))
  | cols, [] => .ok cols
  | cols, (ty, name) :: rest =>
    if ty ∉ supported then .error .valueError
    else columnsLoop m (addStat m ty name cols) rest

/-- `pn.DataFrame(data, index=method_names)`: every column has one value per row label.
See `/repo/menpofit/visualize/textutils.py:243` -/
def dataFrame (cols : List (String × List ℝ)) (index : List String) : Except PyErr Table :=
  if cols.all fun c => c.2.length = index.length then .ok ⟨index, cols⟩ else .error .valueError

/-- The rows of a table in the order `rows`. See `/repo/menpofit/visualize/textutils.py:245-254` -/
def reorder (t : Table) (rows : List Nat) : Table where
  index := rows.map fun i => t.index.getD i ""
  columns := t.columns.map fun c => (c.1, rows.map fun i => c.2.getD i 0)

/-- `tab.sort_values(by=name, ascending=ascending)`; `order keys ascending` is the order in which pandas
puts rows with these keys. See `/repo/menpofit/visualize/textutils.py:245-254` -/
def sortValues (order : List ℝ → Bool → List Nat) (t : Table) (name : String) (ascending : Bool) :
    Except PyErr Table :=
  match t.columns.find? fun c => c.1 = name with
  | none => .error .keyError
  | some c => .ok (reorder t (order c.2 ascending))

/-- `/repo/menpofit/visualize/textutils.py:245-254`. -/
def sortTable (order : List ℝ → Bool → List Nat) (t : Table) (types names : List String) :
    Option String → Except PyErr Table
  | none => .ok t
  | some by_ =>
    if by_ ∉ types then .error .valueError
    else
      let ascending := if by_ = "auc" then false else true
      match names[types.idxOf by_]? with
      | none => .error .indexError
      | some name => sortValues order t name ascending

/-- `/repo/menpofit/visualize/textutils.py:85-259` `statistics_table`. -/
def statisticsTable (order : List ℝ → Bool → List Nat) (errors : Errors) (methods : List String)
    (maxError step minError : ℝ) (types names : Option (List String)) (sortBy : Option String) :
    Except PyErr Table := do
  let es ← (match errors with
    | .one [] | .many [] => .error .indexError
    | .one e => .ok [e]
    | .many es => .ok es : Except PyErr (List (List ℝ)))
  match ← computeStatisticalMeasures (.many es) step maxError minError with
  | .scalars _ => .error .typeError
  | .lists m =>
    let types := types.getD supported
    let names := names.getD types
    if types.length ≠ names.length then .error .valueError
    else
      let cols ← columnsLoop m [] (types.zip names)
      let t ← dataFrame cols methods
      sortTable order t types names sortBy

end
end StatTable
end Menpofit
