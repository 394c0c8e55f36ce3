import Verif.Model.Stats
import Mathlib.Data.List.GetD
import Mathlib.Tactic.Linarith
import Mathlib.Tactic.Ring
import Mathlib.Tactic.Positivity
import Mathlib.Tactic.FieldSimp
/-!
# Helper lemmas for the statistics
-/
set_option linter.unusedSectionVars false

namespace Menpofit
open Stats

section
variable {K : Type} [Field K] [LinearOrder K] [IsStrictOrderedRing K]

/-! ### Maximum and minimum -/

theorem foldl_max_ge (xs : List K) : ∀ x : K, x ≤ xs.foldl max x ∧ ∀ y ∈ xs, y ≤ xs.foldl max x := by
  induction xs with
  | nil => intro x; simp
  | cons a xs ih =>
    intro x
    obtain ⟨h1, h2⟩ := ih (max x a)
    refine ⟨le_trans (le_max_left _ _) h1, ?_⟩
    intro y hy
    rcases List.mem_cons.mp hy with rfl | hy
    · exact le_trans (le_max_right _ _) h1
    · exact h2 y hy

theorem foldl_max_mem (xs : List K) : ∀ x : K, xs.foldl max x ∈ x :: xs := by
  induction xs with
  | nil => intro x; simp
  | cons a xs ih =>
    intro x
    rw [List.foldl_cons]
    rcases List.mem_cons.mp (ih (max x a)) with h | h
    · rw [h]
      rcases le_total x a with hx | hx
      · rw [max_eq_right hx]; simp
      · rw [max_eq_left hx]; simp
    · exact List.mem_cons_of_mem _ (List.mem_cons_of_mem _ h)

theorem npMax_ge {l : List K} {x : K} (hx : x ∈ l) : x ≤ npMax l := by
  cases l with
  | nil => simp at hx
  | cons a l =>
    rcases List.mem_cons.mp hx with rfl | hx
    · exact (foldl_max_ge l x).1
    · exact (foldl_max_ge l a).2 x hx

theorem npMax_mem {l : List K} (hl : l ≠ []) : npMax l ∈ l := by
  cases l with
  | nil => exact absurd rfl hl
  | cons a l => exact foldl_max_mem l a

theorem npMax_unique {l : List K} {m : K} (hm : m ∈ l) (h : ∀ x ∈ l, x ≤ m) : npMax l = m :=
  le_antisymm (h _ (npMax_mem (List.ne_nil_of_mem hm))) (npMax_ge hm)

theorem foldl_min_le (xs : List K) : ∀ x : K, xs.foldl min x ≤ x ∧ ∀ y ∈ xs, xs.foldl min x ≤ y := by
  induction xs with
  | nil => intro x; simp
  | cons a xs ih =>
    intro x
    obtain ⟨h1, h2⟩ := ih (min x a)
    refine ⟨le_trans h1 (min_le_left _ _), ?_⟩
    intro y hy
    rcases List.mem_cons.mp hy with rfl | hy
    · exact le_trans h1 (min_le_right _ _)
    · exact h2 y hy

theorem foldl_min_mem (xs : List K) : ∀ x : K, xs.foldl min x ∈ x :: xs := by
  induction xs with
  | nil => intro x; simp
  | cons a xs ih =>
    intro x
    rw [List.foldl_cons]
    rcases List.mem_cons.mp (ih (min x a)) with h | h
    · rw [h]
      rcases le_total x a with hx | hx
      · rw [min_eq_left hx]; simp
      · rw [min_eq_right hx]; simp
    · exact List.mem_cons_of_mem _ (List.mem_cons_of_mem _ h)

theorem npMin_le {l : List K} {x : K} (hx : x ∈ l) : npMin l ≤ x := by
  cases l with
  | nil => simp at hx
  | cons a l =>
    rcases List.mem_cons.mp hx with rfl | hx
    · exact (foldl_min_le l x).1
    · exact (foldl_min_le l a).2 x hx

theorem npMin_mem {l : List K} (hl : l ≠ []) : npMin l ∈ l := by
  cases l with
  | nil => exact absurd rfl hl
  | cons a l => exact foldl_min_mem l a

theorem npMin_unique {l : List K} {m : K} (hm : m ∈ l) (h : ∀ x ∈ l, m ≤ x) : npMin l = m :=
  le_antisymm (npMin_le hm) (h _ (npMin_mem (List.ne_nil_of_mem hm)))

/-! ### Median -/

theorem sorted_mergeSort (l : List K) : (l.mergeSort (fun a b => decide (a ≤ b))).Pairwise (· ≤ ·) := by
  have := List.pairwise_mergeSort (le := fun (a b : K) => decide (a ≤ b))
    (by intro a b c h1 h2; simp at *; exact le_trans h1 h2)
    (by intro a b; simp; exact le_total a b) l
  simpa using this

theorem mergeSort_unique {l s : List K} (hp : s.Perm l) (hs : s.Pairwise (· ≤ ·)) :
    l.mergeSort (fun a b => decide (a ≤ b)) = s := by
  apply List.Perm.eq_of_pairwise (le := (· ≤ ·)) _ (sorted_mergeSort l) hs
  · exact (List.mergeSort_perm l _).trans hp.symm
  · intro a b _ _ h1 h2; exact le_antisymm h1 h2

/-- The median computed from any sorted rearrangement. -/
theorem npMedian_eq {l s : List K} (hp : s.Perm l) (hs : s.Pairwise (· ≤ ·)) :
    npMedian l = if s.length % 2 = 1 then s.getD (s.length / 2) 0
      else (s.getD (s.length / 2 - 1) 0 + s.getD (s.length / 2) 0) / 2 := by
  unfold npMedian
  rw [mergeSort_unique hp hs, hp.length_eq]

theorem exists_sorted (l : List K) : ∃ s : List K, s.Perm l ∧ s.Pairwise (· ≤ ·) :=
  ⟨_, List.mergeSort_perm l _, sorted_mergeSort l⟩

theorem npMedian_perm {l l' : List K} (h : l.Perm l') : npMedian l = npMedian l' := by
  obtain ⟨s, hp, hs⟩ := exists_sorted l
  rw [npMedian_eq hp hs, npMedian_eq (hp.trans h) hs]

theorem getD_map_of_lt {α β : Type} (f : α → β) (l : List α) (i : Nat) (hi : i < l.length) (a : α) (b : β) :
    (l.map f).getD i b = f (l.getD i a) := by
  simp [List.getD, hi]

theorem npMedian_map_mono (l : List K) (hl : l ≠ []) (f : K → K) (hf : Monotone f)
    (hmid : ∀ a b, f ((a + b) / 2) = (f a + f b) / 2) :
    npMedian (l.map f) = f (npMedian l) := by
  obtain ⟨s, hp, hs⟩ := exists_sorted l
  have hpos : 0 < s.length := by
    rw [hp.length_eq]; exact List.length_pos_of_ne_nil hl
  rw [npMedian_eq hp hs, npMedian_eq (hp.map f) (hs.map f (fun _ _ h => hf h)), List.length_map]
  split
  · rw [getD_map_of_lt f s _ (by omega) 0]
  · rw [getD_map_of_lt f s _ (by omega) 0, getD_map_of_lt f s _ (by omega) 0, hmid]

theorem npMedian_neg (l : List K) (hl : l ≠ []) : npMedian (l.map fun x => -x) = -npMedian l := by
  obtain ⟨s, hp, hs⟩ := exists_sorted l
  have hpos : 0 < s.length := by
    rw [hp.length_eq]; exact List.length_pos_of_ne_nil hl
  have hp' : (s.map fun x => -x).reverse.Perm (l.map fun x => -x) :=
    (List.reverse_perm _).trans (hp.map _)
  have hs' : (s.map fun x => -x).reverse.Pairwise (· ≤ ·) := by
    rw [List.pairwise_reverse, List.pairwise_map]
    exact hs.imp (fun h => neg_le_neg h)
  have hrev : ∀ i, i < s.length → ((s.map fun x => -x).reverse).getD i 0 =
      -(s.getD (s.length - 1 - i) 0) := by
    intro i hi
    rw [List.getD_eq_getElem _ _ (by simpa using hi), List.getD_eq_getElem _ _ (by omega)]
    simp
  rw [npMedian_eq hp hs, npMedian_eq hp' hs']
  simp only [List.length_reverse, List.length_map]
  split
  · rw [hrev _ (by omega)]; congr 2; omega
  · rw [hrev _ (by omega), hrev _ (by omega)]
    have e1 : s.length - 1 - (s.length / 2 - 1) = s.length / 2 := by omega
    have e2 : s.length - 1 - s.length / 2 = s.length / 2 - 1 := by omega
    rw [e1, e2]; ring

theorem npMedian_bounds (l : List K) (hl : l ≠ []) (a b : K) (h : ∀ x ∈ l, a ≤ x ∧ x ≤ b) :
    a ≤ npMedian l ∧ npMedian l ≤ b := by
  obtain ⟨s, hp, hs⟩ := exists_sorted l
  have hpos : 0 < s.length := by
    rw [hp.length_eq]; exact List.length_pos_of_ne_nil hl
  have hm : ∀ i, i < s.length → a ≤ s.getD i 0 ∧ s.getD i 0 ≤ b := by
    intro i hi
    rw [List.getD_eq_getElem _ _ hi]
    exact h _ (hp.mem_iff.mp (List.getElem_mem hi))
  rw [npMedian_eq hp hs]
  split
  · exact hm _ (by omega)
  · have h1 := hm (s.length / 2 - 1) (by omega)
    have h2 := hm (s.length / 2) (by omega)
    constructor <;> linarith [h1.1, h1.2, h2.1, h2.2]

/-- At most half of the list lies strictly below the median, and at most half above. -/
theorem npMedian_half (l : List K) (hl : l ≠ []) :
    2 * (l.countP fun x => decide (x < npMedian l)) ≤ l.length ∧
    2 * (l.countP fun x => decide (npMedian l < x)) ≤ l.length := by
  obtain ⟨s, hp, hs⟩ := exists_sorted l
  have hpos : 0 < s.length := by
    rw [hp.length_eq]; exact List.length_pos_of_ne_nil hl
  have hmono : ∀ i j, i ≤ j → j < s.length → s.getD i 0 ≤ s.getD j 0 := by
    intro i j hij hj
    rw [List.getD_eq_getElem _ _ (by omega), List.getD_eq_getElem _ _ hj]
    rcases Nat.eq_or_lt_of_le hij with rfl | hlt
    · exact le_refl _
    · exact List.pairwise_iff_getElem.mp hs i j (by omega) hj hlt
  rw [← hp.countP_eq, ← hp.countP_eq, ← hp.length_eq]
  set m := npMedian l with hm
  have hmle : s.getD ((s.length - 1) / 2) 0 ≤ m ∧ m ≤ s.getD (s.length / 2) 0 := by
    rw [hm, npMedian_eq hp hs]
    have hle := hmono ((s.length - 1) / 2) (s.length / 2) (by omega) (by omega)
    split
    · have : (s.length - 1) / 2 = s.length / 2 := by omega
      rw [this]; exact ⟨le_refl _, le_refl _⟩
    · have : (s.length - 1) / 2 = s.length / 2 - 1 := by omega
      rw [this] at hle ⊢
      constructor <;> linarith
  constructor
  · have : (s.countP fun x => decide (x < m)) ≤ s.length / 2 := by
      rw [← List.take_append_drop (s.length / 2) s, List.countP_append]
      have h0 : (s.drop (s.length / 2)).countP (fun x => decide (x < m)) = 0 := by
        rw [List.countP_eq_zero]
        intro x hx
        obtain ⟨i, hi, rfl⟩ := List.mem_iff_getElem.mp hx
        rw [List.getElem_drop]
        have := hmono (s.length / 2) (s.length / 2 + i) (by omega) (by simp at hi; omega)
        rw [List.getD_eq_getElem (l := s) (n := s.length / 2 + i) _ (by simp at hi; omega)] at this
        simp only [decide_eq_true_eq, not_lt]
        exact le_trans hmle.2 this
      rw [List.take_append_drop, h0]
      have := List.countP_le_length (p := fun x => decide (x < m)) (l := s.take (s.length / 2))
      simp at this ⊢
      omega
    omega
  · have : (s.countP fun x => decide (m < x)) ≤ s.length / 2 := by
      rw [← List.take_append_drop ((s.length - 1) / 2 + 1) s, List.countP_append]
      have h0 : (s.take ((s.length - 1) / 2 + 1)).countP (fun x => decide (m < x)) = 0 := by
        rw [List.countP_eq_zero]
        intro x hx
        obtain ⟨i, hi, rfl⟩ := List.mem_iff_getElem.mp hx
        rw [List.getElem_take]
        have hi' : i < (s.length - 1) / 2 + 1 := by simp at hi; omega
        have := hmono i ((s.length - 1) / 2) (by omega) (by omega)
        rw [List.getD_eq_getElem (l := s) (n := i) _ (by omega)] at this
        simp only [decide_eq_true_eq, not_lt]
        exact le_trans this hmle.1
      rw [List.take_append_drop, h0]
      have := List.countP_le_length (p := fun x => decide (m < x))
        (l := s.drop ((s.length - 1) / 2 + 1))
      simp at this ⊢
      omega
    omega

end
end Menpofit
