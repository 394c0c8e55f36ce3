import Verif.Model.Face
import Verif.Lemmas.Result
/-!
# Helper lemmas for the face error functions
-/

namespace Menpofit
open Face

variable {P K : Type}

/-- The 49 landmarks among the 68: all from 17 on but 60 and 64. -/
theorem get_erase2 (s : List P) (a b : Nat) (hb : b < a) (i : Nat) :
    ((s.eraseIdx a).eraseIdx b)[i]? = s[if i < b then i else if i + 1 < a then i + 1 else i + 2]? := by
  rw [List.getElem?_eraseIdx]
  by_cases h1 : i < b
  · rw [if_pos h1, if_pos h1, List.getElem?_eraseIdx, if_pos (by omega)]
  · rw [if_neg h1, if_neg h1, List.getElem?_eraseIdx]
    by_cases h2 : i + 1 < a
    · rw [if_pos h2, if_pos h2]
    · rw [if_neg h2, if_neg h2]

theorem convert68to49_ok (s : List P) (h : 65 ≤ s.length) :
    convert68to49 s = .ok (((s.eraseIdx 64).eraseIdx 60).drop 17) := by
  unfold convert68to49 npDelete
  rw [if_pos (by omega)]
  simp only [bind, Except.bind, pure, Except.pure]
  rw [if_pos (by rw [List.length_eraseIdx]; split <;> omega)]

theorem convert51to49_ok (s : List P) (h : 48 ≤ s.length) :
    convert51to49 s = .ok ((s.eraseIdx 47).eraseIdx 43) := by
  unfold convert51to49 npDelete
  rw [if_pos (by omega)]
  simp only [bind, Except.bind]
  rw [if_pos (by rw [List.length_eraseIdx]; split <;> omega)]

/-- Extensionality on a known length. -/
theorem list_ext_len {l : List P} {n : Nat} (hl : l.length = n) {f : Nat → Option P}
    (idx : List Nat) (hidx : idx.length = n) (h : ∀ i (h : i < n), l[i]? = f (idx[i]'(by omega))) :
    l.map some = idx.map f := by
  apply List.ext_getElem
  · simp [hl, hidx]
  · intro i h1 h2
    simp only [List.getElem_map]
    rw [← h i (by simpa [hl] using h1), List.getElem?_eq_getElem]

end Menpofit
