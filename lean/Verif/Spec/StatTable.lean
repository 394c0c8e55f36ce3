import Verif.Model.StatTable
/-!
# Specification of the table of error statistics
-/

namespace Menpofit
namespace Spec
open Stats StatTable

/-- The statistic a type stands for. -/
def statOf (m : Measures ℝ) : String → Option ℝ
  | "mean" => some m.mean
  | "std" => some m.std
  | "median" => some m.median
  | "mad" => some m.mad
  | "max" => some m.max
  | "auc" => some m.auc
  | "fr" => some m.fail
  | _ => none

/-- The seven types, in the order in which they are shown by default. -/
def allStats : List String := ["mean", "std", "median", "mad", "max", "auc", "fr"]

/-- `order` sorts: whatever the keys, it lists every row once, and along it the keys do not decrease (or
do not increase). -/
def SortsRows (order : List ℝ → Bool → List Nat) : Prop :=
  ∀ keys asc, (order keys asc).Perm (List.range keys.length) ∧
    ((order keys asc).map fun i => keys.getD i 0).Pairwise fun a b => if asc then a ≤ b else b ≤ a

/-- `rows` lists the numbers of `n` methods in some order and `t` has these methods as its rows: row
`k` is labelled with the name of method `rows[k]`, there is one column for every type, with its
name, and its entry in row `k` is that statistic of the errors of method `rows[k]`. -/
structure TableOf (rows : List Nat) (names : List String) (ms : List (Measures ℝ))
    (cols : List (String × String)) (t : Table) : Prop where
  all : rows.Perm (List.range ms.length)
  labels : ∀ k : Nat, k < ms.length → t.index[k]? = rows[k]?.bind (names[·]?)
  count : t.index.length = ms.length ∧ t.columns.length = cols.length
  entries : ∀ (j : Nat) (ty name : String), cols[j]? = some (ty, name) →
    ∃ vals, t.columns[j]? = some (name, vals) ∧ vals.length = ms.length ∧
      ∀ k : Nat, k < ms.length → ∃ i m x, rows[k]? = some i ∧ ms[i]? = some m ∧
        statOf m ty = some x ∧ vals[k]? = some x

end Spec
end Menpofit
