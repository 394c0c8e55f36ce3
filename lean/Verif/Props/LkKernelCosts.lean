import Verif.Lemmas.LkKernel
import Mathlib.Algebra.BigOperators.Fin
/-!
# C130: where the costs with a kernel are right
-/

namespace Menpofit
open Lk Spec Dft Matrix

namespace Lk

theorem indices_sum (n : Nat) (s : List Nat) (F : List Nat → ℂ) :
    ((indices (n :: s)).map F).sum = ((indices s).map fun r => ∑ v : Fin n, F (v :: r)).sum := by
  have h : ∀ l : List (List Nat), ((l.flatMap fun r => (List.range n).map (· :: r)).map F).sum =
      (l.map fun r => ∑ v : Fin n, F (v :: r)).sum := by
    intro l
    induction l with
    | nil => rfl
    | cons r l ih =>
      rw [List.flatMap_cons, List.map_append, List.sum_append, ih, List.map_cons, List.sum_cons]
      congr 1
      rw [Fin.sum_univ_eq_sum_range (fun v => F (v :: r)), List.map_map]
      rfl
  exact h _

theorem cubeSum (n : Nat) (F : List Nat → ℂ) :
    ((indices [n, n, n]).map F).sum = ∑ i : Fin n, ∑ u : Fin n, ∑ v : Fin n, F [(v : ℕ), u, i] := by
  rw [indices_sum, indices_sum, indices_sum]
  simp [indices]

theorem pick_cube {n v u i : Nat} (hv : v < n) (hu : u < n) (hi : i < n) : pick [n, n, n] [v, u, i] = [v, u, i] := by
  simp only [pick, List.cons.injEq, and_true]
  refine ⟨?_, ?_, ?_⟩ <;> split_ifs <;> omega

theorem zipWith_indices (l : List (List Nat)) (f g : List Nat → ℂ) :
    List.zipWith (fun i j => f i * g j) l l = l.map fun i => f i * g i := by
  induction l with
  | nil => rfl
  | cons a l ih => simp [ih]

theorem uniform_cost (n : Nat) [NeZero n] (a : ℝ) (x : Planes n n n) (y : Arr) (hy : y.shape = [n, n, n])
    (he : ∀ i u v : Fin n, y.entry [(v : ℕ), u, i] = (x i (u, v) : ℂ)) :
    filteredCost (planeArr fun _ : Pos n n => (a : ℂ)) y = .ok ((a * ∑ i, ∑ p, x i p ^ 2 : ℝ) : ℂ) := by
  have hn : 0 < n := Nat.pos_of_ne_zero (NeZero.ne n)
  have hb : broadcast [1, n, n] [n, n, n] = .ok [n, n, n] := by
    simp only [broadcast, bind, Except.bind, pure, Except.pure]
    by_cases h1 : 1 = n
    · simp [← h1]
    · simp [h1]
  unfold filteredCost Arr.mul Arr.newAxis
  simp only [Arr.onLastTwo, hy, bind, Except.bind, pure, Except.pure, planeArr, hb]
  simp only [Arr.dot, hy, if_true]
  rw [zipWith_indices, cubeSum]
  congr 1
  rw [Complex.ofReal_mul, Complex.ofReal_sum, Finset.mul_sum]
  refine Finset.sum_congr rfl fun i _ => ?_
  rw [Complex.ofReal_sum, Finset.mul_sum, Fintype.sum_prod_type]
  refine Finset.sum_congr rfl fun u _ => Finset.sum_congr rfl fun v _ => ?_
  rw [he]
  simp only [u.2, v.2, and_self, dite_true]
  have hz : (fun p : Pos n n => (match (pick [1, n, n] [(p.2 : ℕ), (p.1 : ℕ), (i : ℕ)]).tail with
      | [v, u] => if _ : u < n ∧ v < n then (a : ℂ) else 0
      | _ => 0) *
      (match pick [n, n, n] [(p.2 : ℕ), (p.1 : ℕ), (i : ℕ)] with
      | v :: u :: r => if hu : u < n ∧ v < n then
          fft2 (fun q : Pos n n => y.entry ((q.2 : ℕ) :: (q.1 : ℕ) :: r)) (⟨u, hu.1⟩, ⟨v, hu.2⟩) else 0
      | _ => 0)) = fft2 ((a : ℂ) • fun q : Pos n n => (x i q : ℂ)) := by
    funext p
    rw [pick_cube p.2.2 p.1.2 i.2]
    have hp : (pick [1, n, n] [(p.2 : ℕ), (p.1 : ℕ), (i : ℕ)]).tail = [(p.1 : ℕ), (i : ℕ)] := by
      simp only [pick, List.tail_cons, List.cons.injEq, and_true]
      refine ⟨?_, ?_⟩ <;> split_ifs <;> omega
    rw [hp]
    simp only [p.1.2, p.2.2, i.2, and_self, dite_true, he]
    unfold fft2
    rw [mulVec_smul]
    rfl
  have h3 := congrArg (fun g => ifft2 g ((u, v) : Pos n n)) hz
  refine (congrArg _ h3).trans ?_
  simp only [ifft2_fft2 hn hn, Pi.smul_apply, smul_eq_mul]
  push_cast
  ring

end Lk

/-- C130 (costs, part): where the same weight is given to every wave and the pictures are square with as many channels as
rows, the cost is that weight times the energy of the error image, in space and in the Fourier domain. -/
theorem C130_uniform_costs_partial (n : Nat) [NeZero n] (a : ℝ) (x : Planes n n n) :
    ssdCost (some (planeArr fun _ : Pos n n => (a : ℂ))) x = .ok ((a * ∑ i, ∑ p, x i p ^ 2 : ℝ) : ℂ) ∧
      fourierSsdCost (some (planeArr fun _ : Pos n n => (a : ℂ))) x = .ok ((a * ∑ i, ∑ p, x i p ^ 2 : ℝ) : ℂ) := by
  have hn : 0 < n := Nat.pos_of_ne_zero (NeZero.ne n)
  have ha : ∀ i u v : Fin n, (arrOf x).entry [(v : ℕ), u, i] = (x i (u, v) : ℂ) := by
    intro i u v
    simp only [arrOf, i.2, u.2, v.2, and_self, dite_true]
  refine ⟨?_, uniform_cost n a x _ rfl ha⟩
  have hpos : 0 < n * n := Nat.mul_pos hn hn
  simp only [ssdCost, reshapeLike, planeArr]
  rw [if_neg (by rw [Nat.mul_mod_left]; omega)]
  simp only [bind, Except.bind]
  refine uniform_cost n a x _ (by simp only [Nat.mul_div_cancel _ hpos]) fun i u v => ?_
  simp only
  rw [← ha i u v]
  have h1 : (((i : ℕ) * n + u) * n + v) % n = v := by rw [Nat.mul_add_mod', Nat.mod_eq_of_lt v.2]
  have h2 : (((i : ℕ) * n + u) * n + v) / n = i * n + u := by
    rw [Nat.add_comm, Nat.add_mul_div_right _ _ hn, Nat.div_eq_of_lt v.2, Nat.zero_add]
  have h3 : ((i : ℕ) * n + u) % n = u := by rw [Nat.mul_add_mod', Nat.mod_eq_of_lt u.2]
  have h4 : ((i : ℕ) * n + u) / n = i := by
    rw [Nat.add_comm, Nat.add_mul_div_right _ _ hn, Nat.div_eq_of_lt u.2, Nat.zero_add]
  rw [h1, ← Nat.div_div_eq_div_mul, h2, h3, h4]

/-- For instance with weight 2 and a picture that is 1 everywhere, of 2 by 2 pixels and 2 channels. -/
example : ssdCost (some (planeArr fun _ : Pos 2 2 => ((2 : ℝ) : ℂ))) (fun (_ : Fin 2) (_ : Pos 2 2) => (1 : ℝ)) =
    .ok ((16 : ℝ) : ℂ) := by
  rw [(C130_uniform_costs_partial 2 2 _).1]
  norm_num

end Menpofit
