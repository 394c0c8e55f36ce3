import Verif.Lemmas.Transpose
import Verif.Lemmas.Turned
import Verif.Model.SharedModel
/-!
# Lemmas: fits with rows and columns exchanged
-/

namespace Menpofit
namespace Cross
open MI Spec Matrix Place

variable {n d k : Nat} {e : Fin 4 → ℝ}

theorem simIx_twice (i : Nat) : simIx (simIx i) = i := by unfold simIx; split_ifs <;> omega

theorem simParam_twice (i : Fin (4 + k)) : simParam (simParam i) = i := Fin.ext (simIx_twice i)

theorem simIx_lt (i : Nat) : simIx i < 4 ↔ i < 4 := by unfold simIx; split_ifs <;> omega

theorem simSign_sq (he : Signs e) (i : Nat) : simSign e i * simSign e i = 1 := by
  unfold simSign
  split_ifs with h
  · exact Sign.sq he _
  · exact one_mul 1

/-- The number of components stays the same. -/
theorem components (e : Fin 4 → ℝ) (ε : Nat → ℝ) (M : OPdm n) :
    (flipPdm ε (transposedPdm e M)).model.active.length = M.model.active.length :=
  (Sign.active_length ε (transposedPca M.model)).trans (active_length M.model)

/-! ### The change of parameters as an orthogonal matrix -/

/-- The signed permutation matrix. -/
noncomputable def mat (e : Fin 4 → ℝ) (k : Nat) : Matrix (Fin (4 + k)) (Fin (4 + k)) ℝ :=
  of fun i j => if simParam i = j then simSign e i else 0

theorem mat_vec (v : Fin (4 + k) → ℝ) : mat e k *ᵥ v = fun i : Fin (4 + k) => simSign e i * v (simParam i) := by
  funext i
  simp [mulVec, dotProduct, mat]

theorem mul_mat {m : Nat} (J : Matrix (Fin m) (Fin (4 + k)) ℝ) : J * (mat e k)ᵀ = crossedCols e J := by
  ext r i
  simp [mul_apply, mat, crossedCols, mul_comm]

theorem mat_orth (he : Signs e) : mat e k * (mat e k)ᵀ = 1 := by
  rw [mul_mat]
  ext i j
  simp only [crossedCols, mat, of_apply, one_apply]
  by_cases h : i = j
  · subst h
    simp [simSign_sq he]
  · have : simParam i ≠ simParam j := fun h' => h (by rw [← simParam_twice i, h', simParam_twice])
    simp [h, this]

theorem mat_prior (u : ℝ) (L : Fin k → ℝ) :
    diagonal (Fin.append (fun _ : Fin 4 => u) L) * mat e k = mat e k * diagonal (Fin.append (fun _ : Fin 4 => u) L) := by
  have h : ∀ i : Fin (4 + k), Fin.append (fun _ : Fin 4 => u) L (simParam i) = Fin.append (fun _ : Fin 4 => u) L i := by
    intro i
    induction i using Fin.addCases with
    | left i =>
      have : simParam (Fin.castAdd k i) = Fin.castAdd k ⟨simIx i, (simIx_lt i).2 i.isLt⟩ := Fin.ext rfl
      rw [this, Fin.append_left, Fin.append_left]
    | right i =>
      have : simParam (Fin.natAdd 4 i) = Fin.natAdd 4 i := by
        apply Fin.ext
        simp only [simParam, simIx, Fin.val_natAdd]
        split_ifs <;> omega
      rw [this]
  ext i j
  rw [diagonal_mul, mul_diagonal]
  simp only [mat, of_apply]
  split_ifs with hj
  · rw [← hj, h, mul_comm]
  · simp

/-! ### Parameters and shapes -/

theorem nPar (e : Fin 4 → ℝ) (M : OPdm n) : Place.nPar (transposedPdm e M) = Place.nPar M :=
  congrArg (4 + ·) (active_length M.model)

theorem asVector (e : Fin 4 → ℝ) (q : OPdm n) (h : q.simWeights.length = 4) (i : Nat) :
    (MI.oAsVector (transposedPdm e q)).getD i 0 = simSign e i * (MI.oAsVector q).getD (simIx i) 0 := by
  unfold MI.oAsVector
  simp only [transposedPdm]
  obtain ⟨a, b, c, g, hw⟩ := four h
  rw [hw]
  simp only [crossed]
  match i with
  | 0 => simp [simSign, simIx]
  | 1 => simp [simSign, simIx]
  | 2 => simp [simSign, simIx]
  | 3 => simp [simSign, simIx]
  | i + 4 => simp [simSign, simIx]

theorem params (he : Signs e) (M : OPdm n) (h4 : M.simComps.length = 4) (s : Pts n 2) (i : Fin (Place.nPar M)) :
    Place.pdmParams (transposedPdm e M) (transposed s) (Fin.cast (nPar e M).symm i) =
      simSign e i * Place.pdmParams M s (simParam i) := by
  unfold Place.pdmParams
  have hc : (⟨n, 2, transposed s⟩ : Cloud) = transposedCloud ⟨n, 2, s⟩ := rfl
  rw [hc, oSetTarget he M h4]
  exact asVector e _ (Sign.sim_length M h4 s) _

theorem ofFn_vector (v : Fin (4 + k) → ℝ) :
    List.ofFn (fun i : Fin (4 + k) => simSign e i * v (simParam i)) = transposedVector e (List.ofFn v) := by
  have hl : (transposedVector e (List.ofFn v)).length = 4 + k := by
    simp [transposedVector, crossed]
    omega
  apply List.ext_getElem
  · rw [hl, List.length_ofFn]
  · intro i h1 h2
    have hi : i < 4 + k := by simpa using h1
    rw [List.getElem_ofFn, ← List.getD_eq_getElem _ 0 h2]
    unfold transposedVector crossed
    have g : ∀ j (hj : j < 4 + k), (List.ofFn v).getD j 0 = v ⟨j, hj⟩ := by
      intro j hj
      rw [List.getD_eq_getElem _ _ (by simpa using hj), List.getElem_ofFn]
    rw [g 0 (by omega), g 1 (by omega), g 2 (by omega), g 3 (by omega)]
    match i, hi with
    | 0, _ => simp [simSign, simParam, simIx]
    | 1, _ => simp [simSign, simParam, simIx]
    | 2, _ => simp [simSign, simParam, simIx]
    | 3, _ => simp [simSign, simParam, simIx]
    | i + 4, hi =>
      rw [List.getD_append_right _ _ _ _ (by simp)]
      have h5 : ((List.ofFn v).drop 4).getD (i + 4 - 4) 0 = v ⟨i + 4, hi⟩ := by
        rw [← g (i + 4) hi, List.getD_eq_getElem?_getD, List.getD_eq_getElem?_getD, List.getElem?_drop]
        congr 2
        omega
      refine Eq.trans ?_ h5.symm
      have h3 : simSign e (i + 4) = 1 := by simp [simSign]
      rw [h3, one_mul]
      congr 1

theorem ofFn_cast {k k' : Nat} (h : k' = k) (v : Fin k → ℝ) :
    List.ofFn (fun i : Fin k' => v (Fin.cast h i)) = List.ofFn v := by
  subst h; rfl

theorem shape (he : Signs e) (M : OPdm n) (h4 : M.simComps.length = 4) (v : Fin (Place.nPar M) → ℝ) :
    Place.pdmShape (transposedPdm e M) (fun i => simSign e i * v (simParam (Fin.cast (nPar e M) i))) =
      transposed (Place.pdmShape M v) := by
  unfold Place.pdmShape
  have h := ofFn_cast (nPar e M) fun i => simSign e i * v (simParam i)
  simp only [Fin.val_cast] at h
  rw [h, ofFn_vector, oFromVector he M h4 _ (by simp)]
  cases MI.oFromVector M (List.ofFn v) <;> rfl

theorem otherAxis_twice {N : Nat} (r : Fin (N * 2)) : otherAxis (otherAxis r) = r := by
  unfold otherAxis
  rw [Equiv.symm_apply_apply]
  simp only [Fin.rev_rev, Prod.mk.eta, Equiv.apply_symm_apply]

/-- The exchange of coordinates as a permutation. -/
def axes (N : Nat) : Equiv.Perm (Fin (N * 2)) := ⟨otherAxis, otherAxis, otherAxis_twice, otherAxis_twice⟩

theorem getD_transposed (l : List (Pts n d)) (i : Nat) : (l.map transposed).getD i 0 = transposed (l.getD i 0) := by
  simp only [List.getD_eq_getElem?_getD, List.getElem?_map]
  cases l[i]? <;> rfl

theorem getD_crossed (l : List (Pts n d)) (i : Nat) (hi : i < 4) :
    (crossed e (l.map transposed)).getD i 0 = simSign e i • transposed (l.getD (simIx i) 0) := by
  unfold crossed
  simp only [getD_transposed]
  match i, hi with
  | 0, _ => simp [simSign, simIx]
  | 1, _ => simp [simSign, simIx]
  | 2, _ => simp [simSign, simIx]
  | 3, _ => simp [simSign, simIx]

theorem jacobian (M : OPdm n) {k' : Nat} (h : k' = Place.nPar M) :
    Shared.jacobian (transposedPdm e M) k' =
      ((Shared.jacobian M (Place.nPar M)).submatrix (axes n) id * (mat e _)ᵀ).submatrix id (Fin.cast h) := by
  subst h
  rw [mul_mat]
  ext r c
  have hr : finProdFinEquiv.symm (axes n r) =
      ((finProdFinEquiv.symm r).1, (finProdFinEquiv.symm r).2.rev) := by
    simp [axes, otherAxis]
  simp only [Shared.jacobian, crossedCols, Matrix.of_apply, submatrix_apply, id, Homog.opdmDdp, Homog.gpdmDdp, Homog.pdmDdp,
    hr, Fin.cast_eq_self]
  generalize (finProdFinEquiv.symm r).1 = i
  generalize (finProdFinEquiv.symm r).2 = j
  rw [show (transposedPdm e M).model.active = M.model.active.map transposed from active M.model,
    show (transposedPdm e M).simComps = crossed e (M.simComps.map transposed) from rfl, getD_transposed]
  by_cases hc : c.val < 4
  · have hc' : (simParam c).val < 4 := (simIx_lt c).2 hc
    rw [if_pos hc, if_pos hc', getD_crossed _ _ hc]
    rfl
  · have hc' : (simParam c).val = c.val := by
      simp only [simParam, simIx]
      split_ifs <;> omega
    have hs : simSign e c = 1 := by simp [simSign, hc]
    rw [hc', if_neg hc, if_neg hc, hs, one_mul]
    have h0 : (0 : Fin 2).rev = 1 := rfl
    have h1 : (1 : Fin 2).rev = 0 := rfl
    congr 1
    simp only [Fin.sum_univ_two, Homog.simDdx, transposedPdm, transposedSim]
    fin_cases j <;> simp [h0, h1] <;> ring

theorem distance (s t : Pts n 2) :
    ClmRun.shapeDistance (transposed s) (transposed t) = ClmRun.shapeDistance s t := by
  unfold ClmRun.shapeDistance
  congr 1
  exact sum_transposed fun x => (s x - t x) ^ 2

end Cross
end Menpofit
