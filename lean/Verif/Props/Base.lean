import Verif.Model.Base
import Mathlib.Data.List.Nodup
/-!
# Properties of `batch` and `build_grid` (C07, C08)
-/

namespace Menpofit
open Base

/-! ## C07 -/

theorem batch_nil (n : Nat) : batch n ([] : List α) = [] := by rw [batch]; simp

theorem batch_cons (n : Nat) (hn : 1 ≤ n) (it : List α) (h : it ≠ []) :
    batch n it = it.take n :: batch n (it.drop n) := by
  have hne : it.take n ≠ [] := by
    intro h'; rcases List.take_eq_nil_iff.mp h' with h' | h'
    · omega
    · exact h h'
  rw [batch, dif_neg hne]

/-- **C07** (partition).  For every batch size `n ≥ 1` the batches concatenate to
the stream, none is empty or larger than `n`, and every batch that is followed by
another one has exactly `n` elements. -/
theorem C07_batch_partition (n : Nat) (hn : 1 ≤ n) (it : List α) :
    (batch n it).flatten = it ∧
    (∀ c ∈ batch n it, c ≠ [] ∧ c.length ≤ n) ∧
    (∀ i, (h : i + 1 < (batch n it).length) → ((batch n it)[i]'(by omega)).length = n) := by
  induction hk : it.length using Nat.strongRecOn generalizing it with
  | _ k ih =>
  by_cases hit : it = []
  · subst hit; simp [batch_nil]
  have hpos := List.length_pos_iff.mpr hit
  obtain ⟨h1, h2, h3⟩ := ih (it.drop n).length (by simp; omega) (it.drop n) rfl
  have hb := batch_cons n hn it hit
  refine ⟨by rw [hb]; simp [h1], ?_, ?_⟩
  · intro c hc
    rw [hb] at hc
    rcases List.mem_cons.mp hc with rfl | hc
    · refine ⟨?_, by simp; omega⟩
      intro h
      rcases List.take_eq_nil_iff.mp h with h | h
      · omega
      · exact hit h
    · exact h2 c hc
  · intro i hi
    simp only [hb] at hi ⊢
    cases i with
    | zero =>
      simp only [List.getElem_cons_zero, List.length_take]
      have hlen : 0 < (batch n (it.drop n)).length := by simpa using hi
      have : it.drop n ≠ [] := by
        intro h0; rw [h0, batch_nil] at hlen; simp at hlen
      have := List.length_pos_iff.mpr this
      simp at this; omega
    | succ j =>
      simp only [List.getElem_cons_succ]
      exact h3 j (by simpa using hi)

/-- **C07** (streaming).  The first `k` batches are determined by the first `k * n`
elements: extending the stream never changes a batch that has been produced. -/
theorem C07_batch_streaming (n k : Nat) (it : List α) :
    (batch n it).take k = batch n (it.take (k * n)) := by
  by_cases hn : n = 0
  · subst hn; rw [batch]; simp [batch_nil]
  induction k generalizing it with
  | zero => simp [batch_nil]
  | succ k ih =>
    by_cases hit : it = []
    · subst hit; simp [batch_nil]
    have hn1 : 1 ≤ n := by omega
    have hpos := List.length_pos_iff.mpr hit
    have e1 : (it.take ((k + 1) * n)).take n = it.take n := by
      rw [List.take_take]; congr 1
      rw [Nat.succ_mul]; omega
    have e2 : (it.take ((k + 1) * n)).drop n = (it.drop n).take (k * n) := by
      rw [List.drop_take]; congr 1; rw [Nat.succ_mul]; omega
    have hne : it.take ((k + 1) * n) ≠ [] := by
      intro h; rcases List.take_eq_nil_iff.mp h with h | h
      · rw [Nat.succ_mul] at h; omega
      · exact hit h
    rw [batch_cons n hn1 it hit, batch_cons n hn1 _ hne, e1, e2, List.take_succ_cons, ih]

/-- **C07** (boundary).  An empty stream yields no batch; a batch size of zero
yields no batch at all (the elements are silently dropped). -/
theorem C07_batch_boundary (n : Nat) (it : List α) :
    batch n ([] : List α) = [] ∧ batch 0 it = [] := by
  constructor <;> · rw [batch]; simp

example : batch 2 [1, 2, 3, 4, 5] = [[1, 2], [3, 4], [5]] := by
  simp [batch_cons, batch_nil]

/-! ## C08 -/

theorem mem_intRange (a b y : Int) : y ∈ intRange a b ↔ a ≤ y ∧ y < b := by
  simp only [intRange, List.mem_map, List.mem_range]
  constructor
  · rintro ⟨i, hi, rfl⟩; omega
  · rintro ⟨h1, h2⟩; exact ⟨(y - a).toNat, by omega, by omega⟩

/-- **C08**.  The grid has `h` rows of `w` offsets; row `i`, column `j` holds
`(i - ⌊h/2⌋, j - ⌊w/2⌋)`. -/
theorem C08_build_grid_entries (h w : Nat) :
    (buildGrid (h, w)).length = h ∧
    ∀ i (hi : i < (buildGrid (h, w)).length),
      ((buildGrid (h, w))[i]).length = w ∧
      ∀ j (hj : j < ((buildGrid (h, w))[i]).length),
        ((buildGrid (h, w))[i])[j] = ((i : Int) - (h / 2 : Nat), (j : Int) - (w / 2 : Nat)) := by
  have hh : ((h / 2 : Nat) + (h % 2 : Nat) - -((h / 2 : Nat) : Int) : Int).toNat = h := by omega
  have hw : ((w / 2 : Nat) + (w % 2 : Nat) - -((w / 2 : Nat) : Int) : Int).toNat = w := by omega
  refine ⟨by simp only [buildGrid, intRange, List.length_map, List.length_range]; exact hh, ?_⟩
  intro i hi
  refine ⟨?_, ?_⟩
  · simp only [buildGrid, intRange, List.getElem_map, List.length_map, List.length_range]; exact hw
  · intro j hj
    simp only [buildGrid, intRange, List.getElem_map, List.getElem_range]
    ext <;> simp <;> omega

/-- **C08** (as a set).  Exactly the offsets between `-⌊h/2⌋` and `⌈h/2⌉`, resp.
`-⌊w/2⌋` and `⌈w/2⌉`, occur, each once; `(0, 0)` is among them. -/
theorem C08_build_grid_lattice (h w : Nat) :
    (∀ y x : Int, (y, x) ∈ (buildGrid (h, w)).flatten ↔
      (-((h / 2 : Nat) : Int) ≤ y ∧ y < (((h + 1) / 2 : Nat) : Int)) ∧
      (-((w / 2 : Nat) : Int) ≤ x ∧ x < (((w + 1) / 2 : Nat) : Int))) ∧
    ((buildGrid (h, w)).flatten).Nodup ∧
    (0 < h → 0 < w → ((0, 0) : Int × Int) ∈ (buildGrid (h, w)).flatten) := by
  have hmem : ∀ y x : Int, (y, x) ∈ (buildGrid (h, w)).flatten ↔
      (-((h / 2 : Nat) : Int) ≤ y ∧ y < (((h + 1) / 2 : Nat) : Int)) ∧
      (-((w / 2 : Nat) : Int) ≤ x ∧ x < (((w + 1) / 2 : Nat) : Int)) := by
    intro y x
    have eh : ((h / 2 : Nat) : Int) + (h % 2 : Nat) = ((h + 1) / 2 : Nat) := by omega
    have ew : ((w / 2 : Nat) : Int) + (w % 2 : Nat) = ((w + 1) / 2 : Nat) := by omega
    simp only [buildGrid, List.mem_flatten, List.mem_map]
    constructor
    · rintro ⟨row, ⟨y', hy', rfl⟩, hx⟩
      obtain ⟨x', hx', he⟩ := List.mem_map.mp hx
      rw [mem_intRange] at hy' hx'
      injection he with e1 e2; subst e1; subst e2
      rw [eh] at hy'; rw [ew] at hx'
      exact ⟨hy', hx'⟩
    · rintro ⟨hy, hx⟩
      refine ⟨_, ⟨y, (mem_intRange _ _ _).mpr (by rw [eh]; exact hy), rfl⟩, ?_⟩
      exact List.mem_map.mpr ⟨x, (mem_intRange _ _ _).mpr (by rw [ew]; exact hx), rfl⟩
  have hnd : ∀ a b, (intRange a b).Nodup := by
    intro a b
    exact (List.nodup_range).map (fun i j hij => by have : a + (i : Int) = a + j := hij; omega)
  refine ⟨hmem, ?_, fun h1 h2 => (hmem 0 0).mpr ⟨by omega, by omega⟩⟩
  rw [List.nodup_flatten]
  constructor
  · intro l hl
    simp only [buildGrid, List.mem_map] at hl
    obtain ⟨y, _, rfl⟩ := hl
    exact (hnd _ _).map (fun a b hab => by simpa using hab)
  · simp only [buildGrid]
    rw [List.pairwise_map]
    refine (hnd _ _).imp ?_
    intro a b hab
    intro p hp hq
    obtain ⟨_, _, rfl⟩ := List.mem_map.mp hp
    obtain ⟨_, _, he⟩ := List.mem_map.mp hq
    injection he with e1; exact hab e1.symm

example : buildGrid (3, 2) =
    [[(-1, -1), (-1, 0)], [(0, -1), (0, 0)], [(1, -1), (1, 0)]] := by decide

end Menpofit
