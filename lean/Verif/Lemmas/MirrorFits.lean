import Verif.Lemmas.Mirror
import Verif.Lemmas.Turned
import Verif.Model.SharedModel
/-!
# Lemmas: fits with left and right reflected
-/

namespace Menpofit
namespace Mirror
open MI Spec Matrix Place

variable {n k : Nat} {e : Fin 4 → ℝ}

theorem simSign_sq (he : Signs e) (i : Nat) : simSign e i * simSign e i = 1 := by
  unfold simSign
  split_ifs with h
  · exact Sign.sq he _
  · exact one_mul 1

/-- The number of components stays the same. -/
theorem components (e : Fin 4 → ℝ) (ε : Nat → ℝ) (M : OPdm n) :
    (flipPdm ε (reflectedPdm e M)).model.active.length = M.model.active.length :=
  (Sign.active_length ε (reflectedPca M.model)).trans (active_length M.model)

/-! ### The change of parameters as an orthogonal matrix -/

/-- The signs as a matrix. -/
noncomputable def mat (e : Fin 4 → ℝ) (k : Nat) : Matrix (Fin (4 + k)) (Fin (4 + k)) ℝ :=
  diagonal fun i => simSign e i

theorem mat_vec (v : Fin (4 + k) → ℝ) : mat e k *ᵥ v = fun i : Fin (4 + k) => simSign e i * v i := by
  funext i
  rw [mat, mulVec_diagonal]

theorem mul_mat {m : Nat} (J : Matrix (Fin m) (Fin (4 + k)) ℝ) : J * (mat e k)ᵀ = reflectedCols e J := by
  ext r i
  rw [mat, diagonal_transpose, mul_diagonal, reflectedCols, of_apply, mul_comm]

theorem mat_orth (he : Signs e) : mat e k * (mat e k)ᵀ = 1 := by
  rw [mat, diagonal_transpose, diagonal_mul_diagonal]
  simp only [simSign_sq he, diagonal_one]

theorem mat_prior (P : Fin (4 + k) → ℝ) : diagonal P * mat e k = mat e k * diagonal P := by
  rw [mat, diagonal_mul_diagonal, diagonal_mul_diagonal]
  simp only [mul_comm]

/-! ### Parameters and shapes -/

theorem nPar (e : Fin 4 → ℝ) (M : OPdm n) : Place.nPar (reflectedPdm e M) = Place.nPar M :=
  congrArg (4 + ·) (active_length M.model)

theorem asVector (e : Fin 4 → ℝ) (q : OPdm n) (h : q.simWeights.length = 4) (i : Nat) :
    (MI.oAsVector (reflectedPdm e q)).getD i 0 = simSign e i * (MI.oAsVector q).getD i 0 := by
  unfold MI.oAsVector
  simp only [reflectedPdm]
  obtain ⟨a, b, c, g, hw⟩ := four h
  rw [hw]
  simp only [signedSim]
  match i with
  | 0 => simp [simSign]
  | 1 => simp [simSign]
  | 2 => simp [simSign]
  | 3 => simp [simSign]
  | i + 4 => simp [simSign]

theorem params (he : Signs e) (M : OPdm n) (h4 : M.simComps.length = 4) (s : Pts n 2) (i : Fin (Place.nPar M)) :
    Place.pdmParams (reflectedPdm e M) (reflected s) (Fin.cast (nPar e M).symm i) =
      simSign e i * Place.pdmParams M s i := by
  unfold Place.pdmParams
  have hc : (⟨n, 2, reflected s⟩ : Cloud) = reflectedCloud ⟨n, 2, s⟩ := (cloud s).symm
  rw [hc, oSetTarget he M h4]
  exact asVector e _ (Sign.sim_length M h4 s) _

theorem ofFn_vector (v : Fin (4 + k) → ℝ) :
    List.ofFn (fun i : Fin (4 + k) => simSign e i * v i) = reflectedVector e (List.ofFn v) := by
  have hl : (reflectedVector e (List.ofFn v)).length = 4 + k := by
    simp [reflectedVector, signedSim]
    omega
  apply List.ext_getElem
  · rw [hl, List.length_ofFn]
  · intro i h1 h2
    have hi : i < 4 + k := by simpa using h1
    rw [List.getElem_ofFn, ← List.getD_eq_getElem _ 0 h2]
    unfold reflectedVector signedSim
    have g : ∀ j (hj : j < 4 + k), (List.ofFn v).getD j 0 = v ⟨j, hj⟩ := by
      intro j hj
      rw [List.getD_eq_getElem _ _ (by simpa using hj), List.getElem_ofFn]
    rw [g 0 (by omega), g 1 (by omega), g 2 (by omega), g 3 (by omega)]
    match i, hi with
    | 0, _ => simp [simSign]
    | 1, _ => simp [simSign]
    | 2, _ => simp [simSign]
    | 3, _ => simp [simSign]
    | i + 4, hi =>
      rw [List.getD_append_right _ _ _ _ (by simp)]
      have h5 : ((List.ofFn v).drop 4).getD (i + 4 - 4) 0 = v ⟨i + 4, hi⟩ := by
        rw [← g (i + 4) hi, List.getD_eq_getElem?_getD, List.getD_eq_getElem?_getD, List.getElem?_drop]
        congr 2
        omega
      refine Eq.trans ?_ h5.symm
      have h3 : simSign e (i + 4) = 1 := by simp [simSign]
      rw [h3, one_mul]

theorem ofFn_cast {k k' : Nat} (h : k' = k) (v : Fin k → ℝ) :
    List.ofFn (fun i : Fin k' => v (Fin.cast h i)) = List.ofFn v := by
  subst h; rfl

theorem shape (he : Signs e) (M : OPdm n) (h4 : M.simComps.length = 4) (v : Fin (Place.nPar M) → ℝ) :
    Place.pdmShape (reflectedPdm e M) (fun i => simSign e i * v (Fin.cast (nPar e M) i)) =
      reflected (Place.pdmShape M v) := by
  unfold Place.pdmShape
  have h := ofFn_cast (nPar e M) fun i => simSign e i * v i
  simp only [Fin.val_cast] at h
  rw [h, ofFn_vector, oFromVector he M h4 _ (by simp)]
  cases MI.oFromVector M (List.ofFn v) <;> rfl

/-- What the mirror does to the vector of all coordinates. -/
noncomputable def axes (N : Nat) : Matrix (Fin (N * 2)) (Fin (N * 2)) ℝ := diagonal fun r => mirrorSign (finProdFinEquiv.symm r).2

theorem axes_orth (N : Nat) : axes N * (axes N)ᵀ = 1 := by
  rw [axes, diagonal_transpose, diagonal_mul_diagonal]
  simp only [sign_sq, diagonal_one]

theorem axes_vec {N : Nat} (v : Fin (N * 2) → ℝ) : axes N *ᵥ v = fun r => mirrorSign (finProdFinEquiv.symm r).2 * v r := by
  funext r
  rw [axes, mulVec_diagonal]

theorem getD_reflected (l : List (Pts n 2)) (i : Nat) : (l.map reflected).getD i 0 = reflected (l.getD i 0) := by
  simp only [List.getD_eq_getElem?_getD, List.getElem?_map]
  cases l[i]? with
  | none => exact zero.symm
  | some a => rfl

theorem getD_signedSim (l : List (Pts n 2)) (i : Nat) (hi : i < 4) :
    (signedSim e (l.map reflected)).getD i 0 = simSign e i • reflected (l.getD i 0) := by
  unfold signedSim
  simp only [getD_reflected]
  match i, hi with
  | 0, _ => simp [simSign]
  | 1, _ => simp [simSign]
  | 2, _ => simp [simSign]
  | 3, _ => simp [simSign]

theorem jacobian (M : OPdm n) (hb : M.glob.b = 0) {k' : Nat} (h : k' = Place.nPar M) :
    Shared.jacobian (reflectedPdm e M) k' =
      (axes n * Shared.jacobian M (Place.nPar M) * (mat e _)ᵀ).submatrix id (Fin.cast h) := by
  subst h
  rw [mul_mat]
  ext r c
  simp only [Shared.jacobian, reflectedCols, Matrix.of_apply, submatrix_apply, id, Homog.opdmDdp, Homog.gpdmDdp, Homog.pdmDdp,
    Fin.cast_eq_self, axes, diagonal_mul]
  generalize (finProdFinEquiv.symm r).1 = i
  generalize (finProdFinEquiv.symm r).2 = j
  rw [show (reflectedPdm e M).model.active = M.model.active.map reflected from active M.model,
    show (reflectedPdm e M).simComps = signedSim e (M.simComps.map reflected) from rfl, getD_reflected]
  by_cases hc : c.val < 4
  · rw [if_pos hc, if_pos hc, getD_signedSim _ _ hc]
    rfl
  · have hs : simSign e c = 1 := by simp [simSign, hc]
    rw [if_neg hc, if_neg hc, hs, one_mul]
    simp only [Fin.sum_univ_two, Homog.simDdx, reflectedPdm, reflectedSim, reflected]
    fin_cases j <;> simp [mirrorSign, hb]

theorem distance (s t : Pts n 2) :
    ClmRun.shapeDistance (reflected s) (reflected t) = ClmRun.shapeDistance s t := by
  unfold ClmRun.shapeDistance
  congr 1
  refine Finset.sum_congr rfl fun x _ => ?_
  simp only [reflected]
  linear_combination (s x - t x) ^ 2 * sign_sq x.2

end Mirror
end Menpofit
