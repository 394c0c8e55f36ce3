import Verif.Model.Dlib
import Verif.Lemmas.Stats
import Mathlib.Tactic.Linarith
/-!
# Lemmas about the conversions to dlib
-/

namespace Menpofit
open Dlib Stats

theorem pyInt_cast (z : ℤ) : pyInt (z : ℝ) = z := by
  unfold pyInt
  split <;> simp

theorem pyInt_close (x : ℝ) : |(pyInt x : ℝ) - x| < 1 := by
  unfold pyInt
  rw [abs_lt]
  split
  · have h1 := Int.floor_le x
    have h2 := Int.lt_floor_add_one x
    constructor <;> linarith
  · have h1 := Int.le_ceil x
    have h2 := Int.ceil_lt_add_one x
    constructor <;> linarith

theorem pyInt_mono {x y : ℝ} (h : x ≤ y) : pyInt x ≤ pyInt y := by
  unfold pyInt
  by_cases hx : 0 ≤ x
  · rw [if_pos hx, if_pos (le_trans hx h)]
    exact Int.floor_le_floor h
  · rw [if_neg hx]
    by_cases hy : 0 ≤ y
    · rw [if_pos hy]
      have h1 : ⌈x⌉ ≤ 0 := by
        rw [Int.ceil_le]; push_cast; linarith
      have h2 : 0 ≤ ⌊y⌋ := Int.floor_nonneg.2 hy
      omega
    · rw [if_neg hy]
      exact Int.ceil_le_ceil h

theorem box_bounds (a b : ℝ × ℝ) (h1 : a.1 ≤ b.1) (h2 : a.2 ≤ b.2) :
    npMin ((boxOf a b).map Prod.snd) = a.2 ∧ npMin ((boxOf a b).map Prod.fst) = a.1 ∧
    npMax ((boxOf a b).map Prod.snd) = b.2 ∧ npMax ((boxOf a b).map Prod.fst) = b.1 := by
  simp [boxOf, npMin, npMax, h1, h2]

theorem copyOptions_get {A : Type} (hidden : String → Bool) (names : List String)
    (fresh options : Options A) (n : String) :
    copyOptions hidden names fresh options n =
      if n ∈ names ∧ hidden n = false then options n else fresh n := by
  unfold copyOptions
  have key : ∀ (l : List String) (f : Options A),
      l.foldl (fun o n => Function.update o n (options n)) f n =
        if n ∈ l then options n else f n := by
    intro l
    induction l with
    | nil => intro f; simp
    | cons m l ih =>
      intro f
      rw [List.foldl_cons, ih]
      by_cases hl : n ∈ l
      · simp [hl]
      · by_cases hm : n = m
        · subst hm; simp [hl]
        · simp [hl, hm]
  rw [key]
  simp

end Menpofit
