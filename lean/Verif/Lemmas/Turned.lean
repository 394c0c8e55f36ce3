import Verif.Spec.Turned
import Verif.Lemmas.PlacementRuns
/-!
# Lemmas: fits in other coordinates of the parameters
-/

namespace Menpofit
namespace Turned
set_option linter.unusedSectionVars false
open Matrix GN Optim Spec MI Place

section
variable {K : Type} [Field K] [DecidableEq K] {n m k : Nat}

theorem orth_left {F : Matrix (Fin n) (Fin n) K} (h : F * Fᵀ = 1) : Fᵀ * F = 1 :=
  mul_eq_one_comm.1 h

theorem det_turn {F : Matrix (Fin n) (Fin n) K} (h : F * Fᵀ = 1) (H : Matrix (Fin n) (Fin n) K) :
    (F * H * Fᵀ).det = H.det := by
  rw [Matrix.det_mul, Matrix.det_mul]
  have e : F.det * Fᵀ.det = 1 := by rw [← Matrix.det_mul, h, Matrix.det_one]
  rw [mul_right_comm, e, one_mul]

theorem inv_turn {F : Matrix (Fin n) (Fin n) K} (h : F * Fᵀ = 1) (H : Matrix (Fin n) (Fin n) K) (hH : H.det ≠ 0) :
    (F * H * Fᵀ)⁻¹ = F * H⁻¹ * Fᵀ := by
  have hF := orth_left h
  refine Matrix.inv_eq_right_inv ?_
  have e : F * H * Fᵀ * (F * H⁻¹ * Fᵀ) = F * (H * ((Fᵀ * F) * H⁻¹)) * Fᵀ := by simp only [Matrix.mul_assoc]
  rw [e, hF, Matrix.one_mul, Matrix.mul_nonsing_inv _ (Ne.isUnit hH), Matrix.mul_one, h]

theorem solve_turn {F : Matrix (Fin n) (Fin n) K} (h : F * Fᵀ = 1) (H : Matrix (Fin n) (Fin n) K) (b : Fin n → K) :
    npSolve (F * H * Fᵀ) (F *ᵥ b) = (npSolve H b).map fun x => F *ᵥ x := by
  unfold npSolve
  rw [det_turn h]
  split
  · rfl
  · rename_i hH
    simp only [Except.map]
    rw [inv_turn h H hH, Matrix.mulVec_mulVec, Matrix.mul_assoc, Matrix.mul_assoc, orth_left h, Matrix.mul_one,
      ← Matrix.mulVec_mulVec]

theorem solveMat_turn {F : Matrix (Fin n) (Fin n) K} (h : F * Fᵀ = 1) (H : Matrix (Fin n) (Fin n) K)
    (B : Matrix (Fin n) (Fin m) K) :
    npSolveMat (F * H * Fᵀ) (F * B) = (npSolveMat H B).map fun x => F * x := by
  unfold npSolveMat
  rw [det_turn h]
  split
  · rfl
  · rename_i hH
    simp only [Except.map]
    congr 1
    have e : (F * H⁻¹ * Fᵀ) * (F * B) = F * (H⁻¹ * ((Fᵀ * F) * B)) := by simp only [Matrix.mul_assoc]
    rw [inv_turn h H hH, e, orth_left h, Matrix.one_mul]

theorem npInv_turn {F : Matrix (Fin n) (Fin n) K} (h : F * Fᵀ = 1) (H : Matrix (Fin n) (Fin n) K) :
    npInv (F * H * Fᵀ) = (npInv H).map fun x => F * x * Fᵀ := by
  unfold npInv
  rw [det_turn h]
  split
  · rfl
  · rename_i hH
    simp only [Except.map, inv_turn h H hH]

theorem jac_gram {F : Matrix (Fin n) (Fin n) K} (I J : Matrix (Fin m) (Fin n) K) :
    (I * Fᵀ)ᵀ * (J * Fᵀ) = F * (Iᵀ * J) * Fᵀ := by
  rw [Matrix.transpose_mul, Matrix.transpose_transpose]
  simp only [Matrix.mul_assoc]

theorem jac_vec {F : Matrix (Fin n) (Fin n) K} (J : Matrix (Fin m) (Fin n) K) (e : Fin m → K) :
    (J * Fᵀ)ᵀ *ᵥ e = F *ᵥ (Jᵀ *ᵥ e) := by
  rw [Matrix.transpose_mul, Matrix.transpose_transpose, Matrix.mulVec_mulVec]

theorem jac_dp {F : Matrix (Fin n) (Fin n) K} (h : F * Fᵀ = 1) (J : Matrix (Fin m) (Fin n) K) (v : Fin n → K) :
    (J * Fᵀ) *ᵥ (F *ᵥ v) = J *ᵥ v := by
  rw [Matrix.mulVec_mulVec, Matrix.mul_assoc, orth_left h, Matrix.mul_one]

theorem prior_turn {F : Matrix (Fin n) (Fin n) K} {P P' : Fin n → K} (hP : diagonal P' * F = F * diagonal P)
    (p : Fin n → K) : P' * (F *ᵥ p) = F *ᵥ (P * p) := by
  have e : ∀ (D v : Fin n → K), D * v = diagonal D *ᵥ v := fun D v => by
    funext i; rw [Matrix.mulVec_diagonal]; rfl
  rw [e, e, Matrix.mulVec_mulVec, Matrix.mulVec_mulVec, hP]

theorem diagonal_turn {F : Matrix (Fin n) (Fin n) K} (h : F * Fᵀ = 1) {P P' : Fin n → K}
    (hP : diagonal P' * F = F * diagonal P) : diagonal P' = F * diagonal P * Fᵀ := by
  rw [← hP, Matrix.mul_assoc, h, Matrix.mul_one]

theorem mapStep_turn {F : Matrix (Fin n) (Fin n) K} (h : F * Fᵀ = 1) {P P' : Fin n → K}
    (hP : diagonal P' * F = F * diagonal P) (H : Matrix (Fin n) (Fin n) K) (J : Matrix (Fin m) (Fin n) K) (e : Fin m → K)
    (p : Fin n → K) :
    mapStep (F * H * Fᵀ) (J * Fᵀ) e P' (F *ᵥ p) =
      (F * (mapStep H J e P p).1 * Fᵀ, (mapStep H J e P p).2.map fun x => F *ᵥ x) := by
  unfold mapStep
  have e1 : F * H * Fᵀ + diagonal P' = F * (H + diagonal P) * Fᵀ := by
    rw [diagonal_turn h hP, Matrix.mul_add, Matrix.add_mul]
  simp only [e1, prior_turn hP, jac_vec, ← Matrix.mulVec_add, solve_turn h]
  cases npSolve (H + diagonal P) (P * p + Jᵀ *ᵥ e) with
  | error e => rfl
  | ok x => simp only [Except.map, Matrix.mulVec_neg]

theorem solveShapeMap_eq (H : Matrix (Fin n) (Fin n) K) (J : Matrix (Fin m) (Fin n) K) (e : Fin m → K) (P p : Fin n → K) :
    solveShapeMap H J e P p = if n ≤ 256 then mapStep H J e P p else (H, .error .valueError) := by
  unfold solveShapeMap pyIs
  by_cases hn : n ≤ 256
  · simp [hn]
  · have h2 : ¬ n = n + n := by omega
    simp only [hn, decide_false, Bool.and_false, Bool.false_eq_true, if_false, dif_neg h2]

theorem shapeMap_turn {F : Matrix (Fin n) (Fin n) K} (h : F * Fᵀ = 1) {P P' : Fin n → K}
    (hP : diagonal P' * F = F * diagonal P) (H : Matrix (Fin n) (Fin n) K) (J : Matrix (Fin m) (Fin n) K) (e : Fin m → K)
    (p : Fin n → K) :
    solveShapeMap (F * H * Fᵀ) (J * Fᵀ) e P' (F *ᵥ p) =
      (F * (solveShapeMap H J e P p).1 * Fᵀ, (solveShapeMap H J e P p).2.map fun x => F *ᵥ x) := by
  rw [solveShapeMap_eq, solveShapeMap_eq]
  split
  · exact mapStep_turn h hP H J e p
  · rfl

theorem shapeMl_turn {F : Matrix (Fin n) (Fin n) K} (h : F * Fᵀ = 1) (H : Matrix (Fin n) (Fin n) K)
    (J : Matrix (Fin m) (Fin n) K) (e : Fin m → K) :
    solveShapeMl (F * H * Fᵀ) (J * Fᵀ) e = (solveShapeMl H J e).map fun x => F *ᵥ x := by
  unfold solveShapeMl
  rw [jac_vec, solve_turn h]
  cases npSolve H (Jᵀ *ᵥ e) with
  | error e => rfl
  | ok x => simp only [Except.map, Matrix.mulVec_neg]

end

/-! ### Appearance and shape parameters together -/

section
variable {K : Type} [Field K] [DecidableEq K] {n a m : Nat}

/-- `G` on the appearance parameters, `F` on the shape parameters. -/
def both (G : Matrix (Fin a) (Fin a) K) (F : Matrix (Fin n) (Fin n) K) : Matrix (Fin (a + n)) (Fin (a + n)) K :=
  (Matrix.fromBlocks G 0 0 F).submatrix finSumFinEquiv.symm finSumFinEquiv.symm

theorem both_transpose (G : Matrix (Fin a) (Fin a) K) (F : Matrix (Fin n) (Fin n) K) : (both G F)ᵀ = both Gᵀ Fᵀ := by
  unfold both
  rw [Matrix.transpose_submatrix, Matrix.fromBlocks_transpose]
  simp

theorem both_mul (G G' : Matrix (Fin a) (Fin a) K) (F F' : Matrix (Fin n) (Fin n) K) :
    both G F * both G' F' = both (G * G') (F * F') := by
  unfold both
  rw [Matrix.submatrix_mul_equiv, Matrix.fromBlocks_multiply]
  simp

theorem both_one : both (1 : Matrix (Fin a) (Fin a) K) (1 : Matrix (Fin n) (Fin n) K) = 1 := by
  unfold both
  rw [Matrix.fromBlocks_one, Matrix.submatrix_one_equiv]

theorem both_orth {G : Matrix (Fin a) (Fin a) K} {F : Matrix (Fin n) (Fin n) K} (hG : G * Gᵀ = 1) (hF : F * Fᵀ = 1) :
    both G F * (both G F)ᵀ = 1 := by
  rw [both_transpose, both_mul, hG, hF, both_one]

theorem both_append (G : Matrix (Fin a) (Fin a) K) (F : Matrix (Fin n) (Fin n) K) (c : Fin a → K) (p : Fin n → K) :
    both G F *ᵥ Fin.append c p = Fin.append (G *ᵥ c) (F *ᵥ p) := by
  funext i
  unfold both
  rw [Matrix.submatrix_mulVec_equiv]
  simp only [Function.comp, Equiv.symm_symm]
  have e : (fun x => Fin.append c p (finSumFinEquiv x)) = Sum.elim c p := by
    funext x; cases x <;> simp
  rw [show (Fin.append c p ∘ ⇑finSumFinEquiv) = Sum.elim c p from e, Matrix.fromBlocks_mulVec]
  refine Fin.addCases (fun j => ?_) (fun j => ?_) i <;> simp

theorem both_diagonal {G : Matrix (Fin a) (Fin a) K} {F : Matrix (Fin n) (Fin n) K} {P P' : Fin n → K} {Q Q' : Fin a → K}
    (hP : diagonal P' * F = F * diagonal P) (hQ : diagonal Q' * G = G * diagonal Q) :
    diagonal (Fin.append Q' P') * both G F = both G F * diagonal (Fin.append Q P) := by
  have e : ∀ (Q : Fin a → K) (P : Fin n → K), diagonal (Fin.append Q P) = both (diagonal Q) (diagonal P) := by
    intro Q P
    ext i j
    unfold both
    refine Fin.addCases (fun i => ?_) (fun i => ?_) i <;> refine Fin.addCases (fun j => ?_) (fun j => ?_) j <;>
      simp [Matrix.diagonal_apply, Fin.ext_iff] <;> omega
  rw [e, e, both_mul, both_mul, hP, hQ]

theorem sim_turn {G : Matrix (Fin a) (Fin a) K} {F : Matrix (Fin n) (Fin n) K} (A : Matrix (Fin m) (Fin a) K)
    (J : Matrix (Fin m) (Fin n) K) :
    Aam.simJacobian (A * Gᵀ) (J * Fᵀ) = Aam.simJacobian A J * (both G F)ᵀ := by
  ext r i
  have e : ∀ (M : Matrix (Fin (a + n)) (Fin (a + n)) K) (B : Matrix (Fin m) (Fin (a + n)) K),
      (B * Mᵀ) r i = (M *ᵥ B r) i := by
    intro M B
    simp only [Matrix.mul_apply, Matrix.transpose_apply, mulVec, dotProduct]
    exact Finset.sum_congr rfl fun _ _ => mul_comm _ _
  rw [e]
  unfold Aam.simJacobian
  rw [both_append]
  have e1 : (fun i => -(A * Gᵀ) r i) = G *ᵥ fun i => -A r i := by
    funext i
    simp only [Matrix.mul_apply, Matrix.transpose_apply, mulVec, dotProduct, mul_neg, Finset.sum_neg_distrib]
    congr 1
    exact Finset.sum_congr rfl fun _ _ => mul_comm _ _
  have e2 : (J * Fᵀ) r = F *ᵥ J r := by
    funext i
    simp only [Matrix.mul_apply, Matrix.transpose_apply, mulVec, dotProduct]
    exact Finset.sum_congr rfl fun _ _ => mul_comm _ _
  rw [e1, e2]

/-- Cutting a vector of all parameters. -/
theorem cut_both (G : Matrix (Fin a) (Fin a) K) (F : Matrix (Fin n) (Fin n) K) (q : Fin (a + n) → K) :
    (fun i => (both G F *ᵥ q) (Fin.castAdd n i)) = G *ᵥ (fun i => q (Fin.castAdd n i)) ∧
    (fun i => (both G F *ᵥ q) (Fin.natAdd a i)) = F *ᵥ (fun i => q (Fin.natAdd a i)) := by
  have e : q = Fin.append (fun i => q (Fin.castAdd n i)) (fun i => q (Fin.natAdd a i)) := by
    funext i
    refine Fin.addCases (fun j => ?_) (fun j => ?_) i <;> simp
  rw [e, both_append]
  constructor <;> funext i <;> simp

theorem allMl_turn {G : Matrix (Fin a) (Fin a) K} {F : Matrix (Fin n) (Fin n) K} (hG : G * Gᵀ = 1) (hF : F * Fᵀ = 1)
    (H : Matrix (Fin (a + n)) (Fin (a + n)) K) (J : Matrix (Fin m) (Fin (a + n)) K) (e : Fin m → K) :
    Aam.solveAllMl (both G F * H * (both G F)ᵀ) (J * (both G F)ᵀ) e =
      (Aam.solveAllMl H J e).map fun x => (G *ᵥ x.1, F *ᵥ x.2) := by
  unfold Aam.solveAllMl
  rw [jac_vec, solve_turn (both_orth hG hF)]
  cases npSolve H (Jᵀ *ᵥ e) with
  | error e => rfl
  | ok q =>
    simp only [Except.map]
    obtain ⟨h1, h2⟩ := cut_both G F (-q)
    rw [Matrix.mulVec_neg] at h1 h2
    simp only [Pi.neg_apply] at h1 h2
    rw [h1, h2]

/-- What the simultaneous algorithm does with `solve_all_map`. -/
noncomputable def allMap (H : Matrix (Fin (a + n)) (Fin (a + n)) K) (J : Matrix (Fin m) (Fin (a + n)) K) (e : Fin m → K)
    (Q c : Fin a → K) (P p : Fin n → K) : Except PyErr ((Fin a → K) × (Fin n → K)) :=
  (solveAllMap H J e Q c P p).map fun q => (q.1, fun i : Fin n => q.2 (Fin.cast (by omega) i))

theorem allMap_eq (H : Matrix (Fin (a + n)) (Fin (a + n)) K) (J : Matrix (Fin m) (Fin (a + n)) K) (e : Fin m → K)
    (Q c : Fin a → K) (P p : Fin n → K) :
    allMap H J e Q c P p = if n ≤ 256 then (mapStep H J e (Fin.append Q P) (Fin.append c p)).2.map fun q =>
      (fun i => q (Fin.castAdd n i), fun i => q (Fin.natAdd a i)) else .error .valueError := by
  unfold allMap solveAllMap pyIs
  have hs : a + n - a = n := by omega
  by_cases hn : n ≤ 256
  · simp only [hs, beq_self_eq_true, hn, decide_true, Bool.and_true, if_true, dif_pos]
    have e1 : (mapStep H J e (fun i => Fin.append Q P (Fin.cast rfl i)) fun i => Fin.append c p (Fin.cast rfl i)) =
        mapStep H J e (Fin.append Q P) (Fin.append c p) := rfl
    rw [e1]
    generalize (mapStep H J e (Fin.append Q P) (Fin.append c p)).2 = r
    cases r <;> rfl
  · have h2 : ¬ a + n = a + (n + n) := by omega
    simp only [hn, decide_false, Bool.and_false, Bool.false_eq_true, if_false, dif_neg h2]
    rfl

theorem allMap_turn {G : Matrix (Fin a) (Fin a) K} {F : Matrix (Fin n) (Fin n) K} (hG : G * Gᵀ = 1) (hF : F * Fᵀ = 1)
    {P P' : Fin n → K} {Q Q' : Fin a → K} (hP : diagonal P' * F = F * diagonal P) (hQ : diagonal Q' * G = G * diagonal Q)
    (H : Matrix (Fin (a + n)) (Fin (a + n)) K) (J : Matrix (Fin m) (Fin (a + n)) K) (e : Fin m → K) (c : Fin a → K)
    (p : Fin n → K) :
    allMap (both G F * H * (both G F)ᵀ) (J * (both G F)ᵀ) e Q' (G *ᵥ c) P' (F *ᵥ p) =
      (allMap H J e Q c P p).map fun x => (G *ᵥ x.1, F *ᵥ x.2) := by
  rw [allMap_eq, allMap_eq]
  split
  · rw [← both_append, mapStep_turn (both_orth hG hF) (both_diagonal hP hQ)]
    cases (mapStep H J e (Fin.append Q P) (Fin.append c p)).2 with
    | error e => rfl
    | ok q =>
      simp only [Except.map]
      obtain ⟨h1, h2⟩ := cut_both G F q
      rw [h1, h2]
  · rfl

end

/-! ### The active appearance model algorithms -/

section
variable {K : Type} [Field K] [DecidableEq K] {n a m : Nat} {S Im W E : Type} [LinearOrder E] {f : S → S}
  {F : Matrix (Fin n) (Fin n) K} {G : Matrix (Fin a) (Fin a) K} {im im' : Im} {z z' : Aam.Setup n a m K S Im W E}

/-- The states correspond. -/
def turnSt (F : Matrix (Fin n) (Fin n) K) (G : Matrix (Fin a) (Fin a) K) (s : Aam.St n a m K W) : Aam.St n a m K W :=
  ⟨F *ᵥ s.p, G *ᵥ s.c, s.i, s.Jdp⟩

theorem appearance_turn (h : TurnedAam f F G im im' z z') (c : Fin a → K) :
    Aam.appearance z' (G *ᵥ c) = Aam.appearance z c := by
  unfold Aam.appearance
  rw [h.aBar, h.A, jac_dp h.orthG]

theorem jacobian_turn (h : TurnedAam f F G im im' z z') (inverse : Bool) (s : Aam.St n a m K W) :
    Aam.jacobian z' inverse (turnSt F G s) = Aam.jacobian z inverse s * Fᵀ := by
  unfold Aam.jacobian
  cases inverse
  · exact h.jacI s.i
  · exact h.jacA s.c

theorem error_turn (h : TurnedAam f F G im im' z z') (s : Aam.St n a m K W) :
    z'.mask (turnSt F G s).i - Aam.appearance z' (turnSt F G s).c = z.mask s.i - Aam.appearance z s.c := by
  simp only [turnSt, appearance_turn h, h.mask]

theorem advance_turn (h : TurnedAam f F G im im' z z') (inverse : Bool) (s : Aam.St n a m K W)
    (J : Matrix (Fin m) (Fin n) K) (dp : Fin n → K) (c c' : W → Fin a → K) (hc : ∀ w, c' w = G *ᵥ c w) :
    (Aam.advance z' inverse im' (turnSt F G s) (J * Fᵀ) (F *ᵥ dp) c').2 = (Aam.advance z inverse im s J dp c).2 ∧
    ∀ e, (Aam.advance z inverse im s J dp c).2 = .ok e →
      (Aam.advance z' inverse im' (turnSt F G s) (J * Fᵀ) (F *ᵥ dp) c').1 =
        turnSt F G (Aam.advance z inverse im s J dp c).1 := by
  have hu : Aam.updateWarp inverse (turnSt F G s).p (F *ᵥ dp) = F *ᵥ Aam.updateWarp inverse s.p dp := by
    cases inverse <;> simp only [Aam.updateWarp, turnSt, Bool.false_eq_true, if_false, if_true, Matrix.mulVec_add,
      Matrix.mulVec_sub]
  have ht : (turnSt F G s).p = F *ᵥ s.p := rfl
  unfold Aam.advance
  simp only [hu, h.warp]
  cases z.warp im (Aam.updateWarp inverse s.p dp) with
  | error e => exact ⟨rfl, fun e h => by cases h⟩
  | ok i' =>
    simp only [ht, h.target, h.dist, hc, jac_dp h.orthF, turnSt]
    exact ⟨trivial, fun _ _ => trivial⟩

theorem step_turn (h : TurnedAam f F G im im' z z') (alg : Aam.Alg) (inverse map : Bool)
    (ha : alg = .alternating → map = true → a ≠ m) (s : Aam.St n a m K W) :
    (Aam.step z' alg inverse map im' (turnSt F G s)).2 = (Aam.step z alg inverse map im s).2 ∧
    ∀ e, (Aam.step z alg inverse map im s).2 = .ok e →
      (Aam.step z' alg inverse map im' (turnSt F G s)).1 = turnSt F G (Aam.step z alg inverse map im s).1 := by
  have hJ := jacobian_turn h inverse s
  have he := error_turn h s
  have hA : ∀ x : Fin m → K, z'.pinvA *ᵥ x = G *ᵥ (z.pinvA *ᵥ x) := fun x => by rw [h.pinvA, Matrix.mulVec_mulVec]
  have hp : (turnSt F G s).p = F *ᵥ s.p := rfl
  have hcc : (turnSt F G s).c = G *ᵥ s.c := rfl
  have hj : (turnSt F G s).Jdp = s.Jdp := rfl
  have hi : (turnSt F G s).i = s.i := rfl
  cases alg with
  | simultaneous =>
    have hr : (if map then allMap ((Aam.simJacobian z'.A (Aam.jacobian z' inverse (turnSt F G s)))ᵀ *
          Aam.simJacobian z'.A (Aam.jacobian z' inverse (turnSt F G s)))
          (Aam.simJacobian z'.A (Aam.jacobian z' inverse (turnSt F G s)))
          (z'.mask (turnSt F G s).i - Aam.appearance z' (turnSt F G s).c) z'.priorA (turnSt F G s).c z'.priorS (turnSt F G s).p
        else Aam.solveAllMl ((Aam.simJacobian z'.A (Aam.jacobian z' inverse (turnSt F G s)))ᵀ *
          Aam.simJacobian z'.A (Aam.jacobian z' inverse (turnSt F G s)))
          (Aam.simJacobian z'.A (Aam.jacobian z' inverse (turnSt F G s)))
          (z'.mask (turnSt F G s).i - Aam.appearance z' (turnSt F G s).c)) =
      (if map then allMap ((Aam.simJacobian z.A (Aam.jacobian z inverse s))ᵀ * Aam.simJacobian z.A (Aam.jacobian z inverse s))
          (Aam.simJacobian z.A (Aam.jacobian z inverse s)) (z.mask s.i - Aam.appearance z s.c) z.priorA s.c z.priorS s.p
        else Aam.solveAllMl ((Aam.simJacobian z.A (Aam.jacobian z inverse s))ᵀ *
          Aam.simJacobian z.A (Aam.jacobian z inverse s))
          (Aam.simJacobian z.A (Aam.jacobian z inverse s)) (z.mask s.i - Aam.appearance z s.c)).map
        fun x => (G *ᵥ x.1, F *ᵥ x.2) := by
      rw [hJ, he, h.A, sim_turn, jac_gram, hp, hcc]
      cases map
      · simp only [Bool.false_eq_true, if_false]
        exact allMl_turn h.orthG h.orthF _ _ _
      · simp only [if_true]
        exact allMap_turn h.orthG h.orthF h.priorS h.priorA _ _ _ _ _
    simp only [allMap] at hr
    simp only [Aam.step, Aam.simStep]
    rw [hr]
    generalize (if map = true then _ else _ : Except PyErr ((Fin a → K) × (Fin n → K))) = r
    cases r with
    | error e => exact ⟨rfl, fun e h => by cases h⟩
    | ok v =>
      simp only [Except.map, hJ]
      exact advance_turn h inverse s _ v.2 _ _ fun w => by rw [Matrix.mulVec_add]; rfl
  | alternating =>
    have h1 : Aam.altAppearance z' map (turnSt F G s) = (Aam.altAppearance z map s).map fun x => G *ᵥ x := by
      unfold Aam.altAppearance
      simp only [he]
      cases hmap : map with
      | false =>
        simp only [Bool.false_eq_true, if_false, Except.map]
        rw [hj, hA]
      | true =>
        have hne := ha rfl hmap
        unfold Aam.npDot Aam.npAdd
        simp only [if_true, dif_neg hne, bind, Except.bind]
        rfl
    have h2 : ∀ dc, Aam.altShape z' inverse map (turnSt F G s) (G *ᵥ dc) =
        (Aam.altShape z inverse map s dc).map fun x => F *ᵥ x := by
      intro dc
      unfold Aam.altShape
      simp only [he, hJ]
      cases hmap : map with
      | false =>
        simp only [Bool.false_eq_true, if_false]
        rw [h.A, jac_dp h.orthG, jac_gram, shapeMl_turn h.orthF]
      | true =>
        have hn : ¬ m = a := fun hh => ha rfl hmap hh.symm
        unfold Aam.npDot Aam.npAdd
        by_cases hma : a = m
        · exact absurd hma (ha rfl hmap)
        · simp only [if_true, dif_neg hn, dif_neg hma, bind, Except.bind]
          rfl
    simp only [Aam.step, Aam.altStep, h1]
    cases Aam.altAppearance z map s with
    | error e => exact ⟨rfl, fun e h => by cases h⟩
    | ok dc =>
      simp only [Except.map, h2]
      cases Aam.altShape z inverse map s dc with
      | error e => exact ⟨rfl, fun e h => by cases h⟩
      | ok dp =>
        simp only [Except.map, hJ]
        exact advance_turn h inverse s _ dp _ _ fun w => by rw [Matrix.mulVec_add]; rfl
  | modifiedAlternating =>
    have hr : (if map then (solveShapeMap ((Aam.jacobian z' inverse (turnSt F G s))ᵀ * Aam.jacobian z' inverse (turnSt F G s))
          (Aam.jacobian z' inverse (turnSt F G s)) (z'.mask (turnSt F G s).i - Aam.appearance z' (turnSt F G s).c)
          z'.priorS (turnSt F G s).p).2
        else solveShapeMl ((Aam.jacobian z' inverse (turnSt F G s))ᵀ * Aam.jacobian z' inverse (turnSt F G s))
          (Aam.jacobian z' inverse (turnSt F G s)) (z'.mask (turnSt F G s).i - Aam.appearance z' (turnSt F G s).c)) =
      (if map then (solveShapeMap ((Aam.jacobian z inverse s)ᵀ * Aam.jacobian z inverse s)
          (Aam.jacobian z inverse s) (z.mask s.i - Aam.appearance z s.c) z.priorS s.p).2
        else solveShapeMl ((Aam.jacobian z inverse s)ᵀ * Aam.jacobian z inverse s)
          (Aam.jacobian z inverse s) (z.mask s.i - Aam.appearance z s.c)).map fun x => F *ᵥ x := by
      rw [hJ, he, jac_gram, hp]
      cases map
      · simp only [Bool.false_eq_true, if_false]
        exact shapeMl_turn h.orthF _ _ _
      · simp only [if_true]
        rw [shapeMap_turn h.orthF h.priorS]
    simp only [Aam.step, Aam.modStep]
    rw [hr]
    generalize (if map = true then _ else _ : Except PyErr (Fin n → K)) = r
    cases r with
    | error e => exact ⟨rfl, fun e h => by cases h⟩
    | ok v =>
      simp only [Except.map, hJ]
      exact advance_turn h inverse s _ v _ _ fun w => by rw [hA, h.mask, h.aBar]
  | wiberg =>
    have hq : Aam.projectOutMat z' (Aam.jacobian z inverse s * Fᵀ) = Aam.projectOutMat z (Aam.jacobian z inverse s) * Fᵀ := by
      unfold Aam.projectOutMat
      have e : z.A * Gᵀ * (G * z.pinvA * (Aam.jacobian z inverse s * Fᵀ)) =
          z.A * ((Gᵀ * G) * (z.pinvA * Aam.jacobian z inverse s)) * Fᵀ := by simp only [Matrix.mul_assoc]
      rw [h.A, h.pinvA, e, orth_left h.orthG, Matrix.one_mul, Matrix.sub_mul]
    have hr : (if map then (solveShapeMap ((Aam.projectOutMat z' (Aam.jacobian z' inverse (turnSt F G s)))ᵀ *
          Aam.jacobian z' inverse (turnSt F G s)) (Aam.projectOutMat z' (Aam.jacobian z' inverse (turnSt F G s)))
          (z'.mask (turnSt F G s).i - z'.aBar) z'.priorS (turnSt F G s).p).2
        else solveShapeMl ((Aam.projectOutMat z' (Aam.jacobian z' inverse (turnSt F G s)))ᵀ *
          Aam.jacobian z' inverse (turnSt F G s)) (Aam.projectOutMat z' (Aam.jacobian z' inverse (turnSt F G s)))
          (z'.mask (turnSt F G s).i - z'.aBar)) =
      (if map then (solveShapeMap ((Aam.projectOutMat z (Aam.jacobian z inverse s))ᵀ * Aam.jacobian z inverse s)
          (Aam.projectOutMat z (Aam.jacobian z inverse s)) (z.mask s.i - z.aBar) z.priorS s.p).2
        else solveShapeMl ((Aam.projectOutMat z (Aam.jacobian z inverse s))ᵀ * Aam.jacobian z inverse s)
          (Aam.projectOutMat z (Aam.jacobian z inverse s)) (z.mask s.i - z.aBar)).map fun x => F *ᵥ x := by
      rw [hJ, hq, jac_gram, hp, hi, h.mask, h.aBar]
      cases map
      · simp only [Bool.false_eq_true, if_false]
        exact shapeMl_turn h.orthF _ _ _
      · simp only [if_true]
        rw [shapeMap_turn h.orthF h.priorS]
    simp only [Aam.step, Aam.wibStep]
    rw [hr]
    generalize (if map = true then _ else _ : Except PyErr (Fin n → K)) = r
    cases r with
    | error e => exact ⟨rfl, fun e h => by cases h⟩
    | ok v =>
      simp only [Except.map, hJ]
      exact advance_turn h inverse s _ v _ _ fun w => by
        rw [hcc, appearance_turn h, jac_dp h.orthF, hA, h.mask, ← Matrix.mulVec_add]

theorem cost_turn (h : TurnedAam f F G im im' z z') (alg : Aam.Alg) (s : Aam.St n a m K W) :
    Aam.cost z' alg (turnSt F G s) = Aam.cost z alg s := by
  have he := error_turn h s
  cases alg with
  | wiberg =>
    have hi : (turnSt F G s).i = s.i := rfl
    simp only [Aam.cost, hi, h.mask, h.aBar]
    unfold Aam.projectOut
    have e : ∀ v, (G * z.pinvA) *ᵥ v = G *ᵥ z.pinvA *ᵥ v := fun v => by rw [Matrix.mulVec_mulVec]
    rw [h.A, h.pinvA, e, jac_dp h.orthG]
  | simultaneous => simp only [Aam.cost]; rw [he]
  | alternating => simp only [Aam.cost]; rw [he]
  | modifiedAlternating => simp only [Aam.cost]; rw [he]

/-- C139/C140: the whole fit in other coordinates. -/
theorem aam_run (h : TurnedAam f F G im im' z z') (alg : Aam.Alg) (inverse map : Bool)
    (ha : alg = .alternating → map = true → a ≠ m) (maxIters : Int) (tol : E) (costs : Bool) (init : S) :
    Aam.run z' alg inverse map maxIters tol costs im' (f init) =
      (Aam.run z alg inverse map maxIters tol costs im init).map (turnedTraceA f F G) := by
  unfold Aam.run
  simp only [h.setTarget, h.warp]
  cases z.warp im (z.setTarget init) with
  | error e => rfl
  | ok i =>
    simp only [Except.map]
    have := run_moved (Aam.machine z alg inverse map im) (Aam.machine z' alg inverse map im') f
      (fun p => (F *ᵥ p.1, G *ᵥ p.2))
      (fun s t => t = turnSt F G s) maxIters tol
      (by rintro s t rfl; exact h.target _) (by rintro s t rfl; rfl)
      (by rintro s t rfl; exact cost_turn h alg s)
      (by rintro s t rfl; exact step_turn h alg inverse map ha s) costs
      ⟨z.setTarget init, z.pinvA *ᵥ (z.mask i - z.aBar), i, 0⟩
      ⟨F *ᵥ z.setTarget init, z'.pinvA *ᵥ (z'.mask i - z'.aBar), i, 0⟩
      (by rw [h.pinvA, h.mask, h.aBar, ← Matrix.mulVec_mulVec]; rfl)
    rw [this]
    cases (Optim.run (Aam.machine z alg inverse map im) false maxIters tol costs
      ⟨z.setTarget init, z.pinvA *ᵥ (z.mask i - z.aBar), i, 0⟩).2 with
    | error e => rfl
    | ok r => simp [Except.map, mapTrace, turnedTraceA]

theorem po_of_aam (h : TurnedAam f F G im im' z z') : TurnedPo f F im im' (Aam.projectOutEnv z) (Aam.projectOutEnv z') := by
  refine ⟨h.orthF, h.setTarget, h.target, h.warp, h.mask, h.jacI, h.aBar, ?_, h.priorS, h.dist⟩
  show 1 - z'.A * z'.pinvA = 1 - z.A * z.pinvA
  have e : z.A * Gᵀ * (G * z.pinvA) = z.A * ((Gᵀ * G) * z.pinvA) := by simp only [Matrix.mul_assoc]
  rw [h.A, h.pinvA, e, orth_left h.orthG, Matrix.one_mul]

end

/-! ### The project-out algorithms -/

section
variable {K : Type} [Field K] [DecidableEq K] {n m : Nat} {S Im W E : Type} [LinearOrder E] {f : S → S}
  {F : Matrix (Fin n) (Fin n) K} {im im' : Im} {z z' : GN.Env n m K S Im W E}

/-- The states correspond. -/
def turnPo (F : Matrix (Fin n) (Fin n) K) (s : PState n m K W) : PState n m K W :=
  ⟨turnedCache F s.cache, F *ᵥ s.p, s.i⟩

theorem precompute_turn (h : F * Fᵀ = 1) (Q : Matrix (Fin m) (Fin m) K) (J : Matrix (Fin m) (Fin n) K) :
    precompute Q (J * Fᵀ) = (precompute Q J).map (turnedCache F) := by
  unfold precompute
  have e : Q * (J * Fᵀ) = Q * J * Fᵀ := by rw [Matrix.mul_assoc]
  have e2 : (Q * J * Fᵀ)ᵀ = F * (Q * J)ᵀ := by rw [Matrix.transpose_mul, Matrix.transpose_transpose]
  simp only [e, jac_gram]
  rw [e2, solveMat_turn h]
  cases npSolveMat ((Q * J)ᵀ * J) (Q * J)ᵀ <;> rfl

theorem poSolve_turn (h : TurnedPo f F im im' z z') (inverse map : Bool) (s : PState n m K W) :
    (if inverse then solveInverse z' map (turnPo F s) else ((turnPo F s).cache, solveForward z' map (turnPo F s))) =
      (turnedCache F (if inverse then solveInverse z map s else (s.cache, solveForward z map s)).1,
        (if inverse then solveInverse z map s else (s.cache, solveForward z map s)).2.map fun x => F *ᵥ x) := by
  cases inverse
  · simp only [Bool.false_eq_true, if_false, solveForward, turnPo, h.mask, h.aBar, h.jac, h.Q]
    have e : ∀ J : Matrix (Fin m) (Fin n) K, z.Q * (J * Fᵀ) = z.Q * J * Fᵀ := fun J => by rw [Matrix.mul_assoc]
    rw [e, jac_gram]
    cases map
    · simp only [Bool.false_eq_true, if_false, shapeMl_turn h.orthF]
    · simp only [if_true, shapeMap_turn h.orthF h.prior]
  · simp only [if_true, solveInverse, turnPo, h.mask, h.aBar]
    cases map
    · simp only [Bool.false_eq_true, if_false, turnedCache, Except.map, Matrix.mulVec_neg, Matrix.mulVec_mulVec]
    · simp only [if_true, turnedCache, shapeMap_turn h.orthF h.prior]

theorem poStep_turn (h : TurnedPo f F im im' z z') (inverse map : Bool) (s : PState n m K W) :
    (poStep z' inverse map im' (turnPo F s)).2 = (poStep z inverse map im s).2 ∧
    (poStep z' inverse map im' (turnPo F s)).1.cache = turnedCache F (poStep z inverse map im s).1.cache ∧
    ∀ e, (poStep z inverse map im s).2 = .ok e →
      (poStep z' inverse map im' (turnPo F s)).1 = turnPo F (poStep z inverse map im s).1 := by
  unfold poStep
  simp only [poSolve_turn h]
  cases (if inverse then solveInverse z map s else (s.cache, solveForward z map s)).2 with
  | error e => exact ⟨rfl, rfl, fun e h => by cases h⟩
  | ok dp =>
    have hp : (turnPo F s).p = F *ᵥ s.p := rfl
    have e : (if inverse then (turnPo F s).p - F *ᵥ dp else (turnPo F s).p + F *ᵥ dp) =
        F *ᵥ (if inverse then s.p - dp else s.p + dp) := by
      cases inverse <;> simp [hp, Matrix.mulVec_add, Matrix.mulVec_sub]
    simp only [Except.map, e, h.warp]
    cases z.warp im (if inverse then s.p - dp else s.p + dp) with
    | error e => exact ⟨rfl, rfl, fun e h => by cases h⟩
    | ok i' =>
      simp only [hp, h.target, h.dist]
      exact ⟨trivial, trivial, fun _ _ => rfl⟩

theorem poLoop_turn (h : TurnedPo f F im im' z z') (inverse map : Bool) (maxIters : Int) (tol : E) (costs : Bool) :
    ∀ (k : Nat) (j : Int) (eps : Option E) (s : PState n m K W) (tr tr' : Trace S (Fin n → K) K),
      (maxIters - j).toNat = k →
      (loop (poMachine z' inverse map im') costs maxIters tol j eps (turnPo F s) tr').1.cache =
        turnedCache F (loop (poMachine z inverse map im) costs maxIters tol j eps s tr).1.cache := by
  intro k
  induction k with
  | zero =>
    intro j eps s tr tr' hk
    rw [loop_unfold, loop_unfold (poMachine z inverse map im), if_neg (by omega), if_neg (by omega)]
    rfl
  | succ k ih =>
    intro j eps s tr tr' hk
    rw [loop_unfold, loop_unfold (poMachine z inverse map im)]
    by_cases hg : j < maxIters ∧ goOn tol eps
    · rw [if_pos hg, if_pos hg]
      obtain ⟨h1, h2, h3⟩ := poStep_turn h inverse map s
      change ((poMachine z' inverse map im').step (turnPo F s)).2 = ((poMachine z inverse map im).step s).2 at h1
      change ((poMachine z' inverse map im').step (turnPo F s)).1.cache =
        turnedCache F ((poMachine z inverse map im).step s).1.cache at h2
      change ∀ e, ((poMachine z inverse map im).step s).2 = .ok e →
        ((poMachine z' inverse map im').step (turnPo F s)).1 = turnPo F ((poMachine z inverse map im).step s).1 at h3
      rcases hs1 : (poMachine z inverse map im).step s with ⟨s', x⟩
      rcases hs2 : (poMachine z' inverse map im').step (turnPo F s) with ⟨t', y⟩
      rw [hs1, hs2] at h1 h2 h3
      simp only at h1 h2 h3
      subst h1
      cases y with
      | error e => exact h2
      | ok e =>
        simp only
        rw [h3 e rfl]
        exact ih (j + 1) (some e) s' _ _ (by omega)
    · rw [if_neg hg, if_neg hg]; rfl

theorem poRun_turn (h : TurnedPo f F im im' z z') (inverse : Bool) (tol : E) (cache : Cache n m K) (init : S)
    (maxIters : Int) (costs map : Bool) :
    poRun z' inverse tol (turnedCache F cache) ⟨im', f init, maxIters, costs, map⟩ =
      (turnedCache F (poRun z inverse tol cache ⟨im, init, maxIters, costs, map⟩).1,
        (poRun z inverse tol cache ⟨im, init, maxIters, costs, map⟩).2.map (turnedTrace f F)) := by
  unfold poRun
  simp only [h.setTarget, h.warp]
  cases z.warp im (z.setTarget init) with
  | error e => rfl
  | ok i =>
    simp only
    refine Prod.ext ?_ ?_
    · exact poLoop_turn h inverse map maxIters tol false _ 0 none ⟨cache, z.setTarget init, i⟩ _ _ rfl
    · have := run_moved (poMachine z inverse map im) (poMachine z' inverse map im') f (fun p => F *ᵥ p)
        (fun s t => t = turnPo F s) maxIters tol
        (by rintro s t rfl; exact h.target _) (by rintro s t rfl; rfl)
        (by
          rintro s t rfl
          simp only [poMachine, turnPo, h.mask, h.aBar, h.Q])
        (by rintro s t rfl; exact ⟨(poStep_turn h inverse map s).1, (poStep_turn h inverse map s).2.2⟩) costs
        ⟨cache, z.setTarget init, i⟩ ⟨turnedCache F cache, F *ᵥ z.setTarget init, i⟩ rfl
      simp only
      rw [this]
      cases (Optim.run (poMachine z inverse map im) false maxIters tol costs ⟨cache, z.setTarget init, i⟩).2 with
      | error e => rfl
      | ok r => simp [Except.map, mapTrace, turnedTrace]

/-- Construction and run. -/
theorem po_whole (h : TurnedPo f F im im' z z') (inverse : Bool) (tol : E) (J : Matrix (Fin m) (Fin n) K) (init : S)
    (maxIters : Int) (costs map : Bool) :
    ((precompute z'.Q (J * Fᵀ)).bind fun c => (poRun z' inverse tol c ⟨im', f init, maxIters, costs, map⟩).2) =
      ((precompute z.Q J).bind fun c => (poRun z inverse tol c ⟨im, init, maxIters, costs, map⟩).2).map (turnedTrace f F) := by
  rw [h.Q, precompute_turn h.orthF]
  cases precompute z.Q J with
  | error e => rfl
  | ok c =>
    simp only [Except.map, Except.bind]
    rw [poRun_turn h]
    rfl

end

/-! ### Constrained local models -/

section
variable {N k : Nat} {Im : Type} {f : Pts N 2 → Pts N 2} {R : Matrix (Fin (N * 2)) (Fin (N * 2)) ℝ} {F : Matrix (Fin k) (Fin k) ℝ}
  {alg : ClmRun.Alg} {im im' : Im} {env env' : ClmRun.Env N k Im}

theorem sub_gram (hR : R * Rᵀ = 1) (I J : Matrix (Fin (N * 2)) (Fin k) ℝ) : (R * I)ᵀ * (R * J) = Iᵀ * J := by
  rw [Matrix.transpose_mul, Matrix.mul_assoc, ← Matrix.mul_assoc Rᵀ, orth_left hR, Matrix.one_mul]

theorem sub_vec (hR : R * Rᵀ = 1) (J : Matrix (Fin (N * 2)) (Fin k) ℝ) (e : Fin (N * 2) → ℝ) :
    (R * J)ᵀ *ᵥ (R *ᵥ e) = Jᵀ *ᵥ e := by
  rw [Matrix.transpose_mul, Matrix.mulVec_mulVec, Matrix.mul_assoc, orth_left hR, Matrix.mul_one]

theorem sub_dot (hR : R * Rᵀ = 1) (e : Fin (N * 2) → ℝ) : (R *ᵥ e) ⬝ᵥ (R *ᵥ e) = e ⬝ᵥ e := by
  rw [Matrix.dotProduct_mulVec, Matrix.vecMul_mulVec, orth_left hR, Matrix.vecMul_one]

/-- A reordering as a matrix. -/
def order (ρ : Equiv.Perm (Fin (N * 2))) : Matrix (Fin (N * 2)) (Fin (N * 2)) ℝ := (1 : Matrix _ _ ℝ).submatrix ρ id

theorem order_orth (ρ : Equiv.Perm (Fin (N * 2))) : order ρ * (order ρ)ᵀ = 1 := by
  ext i j
  simp [order, Matrix.mul_apply, Matrix.one_apply]

theorem order_mul (ρ : Equiv.Perm (Fin (N * 2))) (J : Matrix (Fin (N * 2)) (Fin k) ℝ) : order ρ * J = J.submatrix ρ id := by
  ext i j
  simp [order, Matrix.mul_apply, Matrix.one_apply]

theorem order_vec (ρ : Equiv.Perm (Fin (N * 2))) (e : Fin (N * 2) → ℝ) : order ρ *ᵥ e = fun i => e (ρ i) := by
  funext i
  simp [order, mulVec, dotProduct, Matrix.one_apply]

theorem clmMl_turn (h : F * Fᵀ = 1) (hR : R * Rᵀ = 1) (J : Matrix (Fin (N * 2)) (Fin k) ℝ)
    (e : Fin (N * 2) → ℝ) :
    clmMlStep (R * J * Fᵀ) (R *ᵥ e) = (clmMlStep J e).map fun x => F *ᵥ x := by
  unfold clmMlStep
  have e1 : (R * J * Fᵀ)ᵀ = F * (R * J)ᵀ := by
    rw [Matrix.transpose_mul, Matrix.transpose_transpose]
  rw [jac_gram, sub_gram hR, e1, solveMat_turn h]
  unfold npSolveMat
  split
  · rfl
  · simp only [Except.map, bind, Except.bind, pure, Except.pure]
    rw [← Matrix.mulVec_mulVec, ← Matrix.mulVec_mulVec, sub_vec hR, Matrix.mulVec_mulVec]
    simp only [Matrix.mulVec_mulVec, Matrix.mul_assoc]

theorem clmMap_turn (h : F * Fᵀ = 1) {P P' : Fin k → ℝ} (hP : diagonal P' * F = F * diagonal P)
    (hR : R * Rᵀ = 1) (J : Matrix (Fin (N * 2)) (Fin k) ℝ) (e : Fin (N * 2) → ℝ) (p : Fin k → ℝ) :
    clmMapStep (R * J * Fᵀ) P' (R *ᵥ e) (F *ᵥ p) = (clmMapStep J P e p).map fun x => F *ᵥ x := by
  unfold clmMapStep
  have e1 : F * (Jᵀ * J) * Fᵀ + diagonal P' = F * (Jᵀ * J + diagonal P) * Fᵀ := by
    rw [diagonal_turn h hP, Matrix.mul_add, Matrix.add_mul]
  rw [jac_gram, sub_gram hR, e1, npInv_turn h, jac_vec, sub_vec hR, prior_turn hP, ← Matrix.mulVec_sub]
  cases npInv (Jᵀ * J + diagonal P) with
  | error e => rfl
  | ok H =>
    simp only [Except.map, bind, Except.bind, pure, Except.pure, Matrix.mulVec_neg]
    rw [jac_dp h, Matrix.mulVec_mulVec]

theorem update_eq (env : ClmRun.Env N k Im) (alg : ClmRun.Alg) (map : Bool) (im : Im) (p : Fin k → ℝ) :
    ClmRun.update env alg map im p =
      ((env.respond im (env.shape p)).map (landmarkErrors env alg (env.shape p))).bind fun e =>
        (if map then GN.clmMapStep env.J env.prior e p else GN.clmMlStep env.J e).map fun dp => p + dp := by
  cases alg
  · simp only [ClmRun.update, ClmRun.asmStep, bind, Except.bind, pure, Except.pure]
    cases env.respond im (env.shape p) with
    | error e => rfl
    | ok r =>
      simp only [Except.map]
      cases map
      · simp only [Bool.false_eq_true, if_false]
        rfl
      · simp only [if_true]
        rfl
  · simp only [ClmRun.update, bind, Except.bind, pure, Except.pure]
    cases env.respond im (env.shape p) with
    | error e => rfl
    | ok r =>
      simp only [Except.map]
      cases map
      · simp only [Bool.false_eq_true, if_false]
        rfl
      · simp only [if_true]
        rfl

theorem update_turn (h : TurnedClm f R F alg im im' env env') (map : Bool) (p : Fin k → ℝ) :
    ClmRun.update env' alg map im' (F *ᵥ p) = (ClmRun.update env alg map im p).map fun x => F *ᵥ x := by
  rw [update_eq, update_eq, h.shape, h.errors]
  cases env.respond im (env.shape p) with
  | error e => rfl
  | ok r =>
    simp only [Except.map, Except.bind, h.J]
    cases map
    · simp only [Bool.false_eq_true, if_false]
      rw [clmMl_turn h.orthF h.orthR]
      cases clmMlStep env.J (landmarkErrors env alg (env.shape p) r) <;> simp [Except.map, Matrix.mulVec_add]
    · simp only [if_true]
      rw [clmMap_turn h.orthF h.prior h.orthR]
      cases clmMapStep env.J env.prior (landmarkErrors env alg (env.shape p) r) p <;> simp [Except.map, Matrix.mulVec_add]

theorem clm_run (h : TurnedClm f R F alg im im' env env') (map : Bool) (maxIters : Int) (tol : ℝ) (init : Pts N 2) :
    ClmRun.run env' alg map maxIters tol im' (f init) =
      (ClmRun.run env alg map maxIters tol im init).map (turnedTrace f F) := by
  unfold ClmRun.run
  rw [h.setTarget]
  have := run_moved (ClmRun.machine env alg map im) (ClmRun.machine env' alg map im') f (fun p => F *ᵥ p)
    (fun s t => t = F *ᵥ s) maxIters tol
    (by rintro s t rfl; exact h.shape _) (by rintro s t rfl; rfl) (by rintro s t rfl; rfl)
    (by
      rintro s t rfl
      simp only [ClmRun.machine, update_turn h]
      cases ClmRun.update env alg map im s with
      | error e => exact ⟨rfl, fun e h => by cases h⟩
      | ok p' =>
        simp only [Except.map, h.shape, h.dist]
        exact ⟨trivial, fun _ _ => trivial⟩) false (env.setTarget init) (F *ᵥ env.setTarget init) rfl
  rw [this]
  cases (Optim.run (ClmRun.machine env alg map im) false maxIters tol false (env.setTarget init)).2 with
  | error e => rfl
  | ok r => simp [Except.map, mapTrace, turnedTrace]

end

/-! ### Unified models -/

section
variable {N k a m : Nat} {Im W : Type} {f : Pts N 2 → Pts N 2} {R : Matrix (Fin (N * 2)) (Fin (N * 2)) ℝ}
  {F : Matrix (Fin k) (Fin k) ℝ} {G : Matrix (Fin a) (Fin a) ℝ} {im im' : Im} {env env' : ClmRun.UEnv N k a m Im W}

/-- The states correspond. -/
def turnU (R : Matrix (Fin (N * 2)) (Fin (N * 2)) ℝ) (F : Matrix (Fin k) (Fin k) ℝ) (s : ClmRun.UState k (N * 2) W) :
    ClmRun.UState k (N * 2) W :=
  ⟨F *ᵥ s.p, s.i, R *ᵥ s.ec⟩

theorem clmError_turn (h : TurnedUnified f R F G im im' env env') (p : Fin k → ℝ) :
    ClmRun.clmError env' im' (F *ᵥ p) = (ClmRun.clmError env im p).map fun e => R *ᵥ e := by
  have key : ∀ (e : ClmRun.UEnv N k a m Im W) (j : Im) (q : Fin k → ℝ), ClmRun.clmError e j q =
      (e.respond j (e.shape q)).map (landmarkErrors e.toEnv .meanShift (e.shape q)) := by
    intro e j q
    unfold ClmRun.clmError
    cases e.respond j (e.shape q) <;> rfl
  rw [key, key, h.clm.shape, h.clm.errors]
  cases env.respond im (env.shape p) <;> rfl

theorem look_turn (h : TurnedUnified f R F G im im' env env') (p : Fin k → ℝ) :
    ClmRun.look env' im' (F *ᵥ p) = (ClmRun.look env im p).map (turnU R F) := by
  unfold ClmRun.look
  rw [clmError_turn h, h.clm.shape, h.warp]
  cases env.warp im (env.shape p) with
  | error e => rfl
  | ok i =>
    simp only [bind, Except.bind]
    cases ClmRun.clmError env im p <;> rfl

theorem uAppearance_turn (h : TurnedUnified f R F G im im' env env') (s : ClmRun.UState k (N * 2) W) :
    ClmRun.uAppearance env' (turnU R F s) = G *ᵥ ClmRun.uAppearance env s := by
  unfold ClmRun.uAppearance
  rw [h.pinvU, ← Matrix.mulVec_mulVec, h.mask, h.aBar]
  rfl

theorem imageError_turn (h : TurnedUnified f R F G im im' env env') (alg : ClmRun.UAlg) (s : ClmRun.UState k (N * 2) W) :
    ClmRun.imageError env' alg (turnU R F s) = ClmRun.imageError env alg s := by
  cases alg
  · simp only [ClmRun.imageError, turnU, h.mask, h.aBar]
  · simp only [ClmRun.imageError, uAppearance_turn h, h.U, h.aBar, h.mask, jac_dp h.orthG]
    rfl

theorem smul_turn (c : ℝ) {l : Nat} (J : Matrix (Fin l) (Fin k) ℝ) : c • (J * Fᵀ) = (c • J) * Fᵀ := by
  rw [Matrix.smul_mul]

theorem smul_sub (c : ℝ) (J : Matrix (Fin (N * 2)) (Fin k) ℝ) : c • (R * J) = R * (c • J) := by
  rw [Matrix.mul_smul]

theorem sandwich_add (A B : Matrix (Fin k) (Fin k) ℝ) : F * A * Fᵀ + F * B * Fᵀ = F * (A + B) * Fᵀ := by
  rw [Matrix.mul_add, Matrix.add_mul]

theorem sandwich_smul (c : ℝ) (A : Matrix (Fin k) (Fin k) ℝ) : c • (F * A * Fᵀ) = F * (c • A) * Fᵀ := by
  rw [Matrix.mul_smul, Matrix.smul_mul]

theorem projectOutStep_turn (hR : R * Rᵀ = 1) (hF : F * Fᵀ = 1) {P P' : Fin k → ℝ} (hP : diagonal P' * F = F * diagonal P)
    (Ja : Matrix (Fin m) (Fin k) ℝ) (s : ℝ) (Jc : Matrix (Fin (N * 2)) (Fin k) ℝ) (r : ℝ) (p : Fin k → ℝ) (u : Bool) (α : ℝ)
    (ea : Fin m → ℝ) (ec : Fin (N * 2) → ℝ) :
    Unified.projectOutStep (Ja * Fᵀ) s (R * Jc * Fᵀ) r P' (F *ᵥ p) u α ea (R *ᵥ ec) =
      (Unified.projectOutStep Ja s Jc r P p u α ea ec).map fun x => F *ᵥ x := by
  unfold Unified.projectOutStep
  simp only [smul_turn, smul_sub, jac_gram, jac_vec, sub_gram hR, sub_vec hR, sandwich_add, prior_turn hP]
  have e1 : ∀ {l : Nat} (J : Matrix (Fin l) (Fin k) ℝ), (J * Fᵀ)ᵀ = F * Jᵀ := fun J => by
    rw [Matrix.transpose_mul, Matrix.transpose_transpose]
  have e2 : F * ((s • Ja)ᵀ * Ja + (r • Jc)ᵀ * Jc) * Fᵀ + diagonal P' =
      F * ((s • Ja)ᵀ * Ja + (r • Jc)ᵀ * Jc + diagonal P) * Fᵀ := by
    rw [diagonal_turn hF hP, sandwich_add]
  rw [e1, e1, solveMat_turn hF, solveMat_turn hF, e2, npInv_turn hF]
  generalize (s • Ja)ᵀ * Ja + (r • Jc)ᵀ * Jc = H
  by_cases hd : H.det = 0
  · simp only [npSolveMat, if_pos hd]; rfl
  · simp only [npSolveMat, if_neg hd, Except.map, bind, Except.bind]
    cases npInv (H + diagonal P) with
    | error e => rfl
    | ok V =>
      cases u
      · simp only [Bool.false_eq_true, if_false, pure, Except.pure]
        have e3 : (F * (H⁻¹ * (R * (r • Jc))ᵀ)) *ᵥ (R *ᵥ ec) = F *ᵥ (H⁻¹ * (r • Jc)ᵀ) *ᵥ ec := by
          rw [← Matrix.mulVec_mulVec, ← Matrix.mulVec_mulVec, sub_vec hR, Matrix.mulVec_mulVec (M := H⁻¹)]
        rw [e3, ← Matrix.mulVec_mulVec, Matrix.mulVec_add]
      · simp only [if_true, pure, Except.pure]
        generalize (s • Ja)ᵀ *ᵥ ea = x
        generalize (r • Jc)ᵀ *ᵥ ec = y
        have e5 : F *ᵥ (P * p) - α • F *ᵥ x - (1 - α) • F *ᵥ y = F *ᵥ (P * p - α • x - (1 - α) • y) := by
          rw [Matrix.mulVec_sub, Matrix.mulVec_sub, Matrix.mulVec_smul, Matrix.mulVec_smul]
        rw [e5, jac_dp hF, ← Matrix.mulVec_mulVec, Matrix.mulVec_neg]

theorem alternatingStep_turn (hR : R * Rᵀ = 1) (hF : F * Fᵀ = 1) {P P' : Fin k → ℝ} (hP : diagonal P' * F = F * diagonal P)
    (Ja : Matrix (Fin m) (Fin k) ℝ) (s : ℝ) (Jc : Matrix (Fin (N * 2)) (Fin k) ℝ) (r : ℝ) (p : Fin k → ℝ) (u : Bool) (α : ℝ)
    (ea : Fin m → ℝ) (ec : Fin (N * 2) → ℝ) :
    Unified.alternatingStep (Ja * Fᵀ) s (R * Jc * Fᵀ) r P' (F *ᵥ p) u α ea (R *ᵥ ec) =
      (Unified.alternatingStep Ja s Jc r P p u α ea ec).map fun x => F *ᵥ x := by
  unfold Unified.alternatingStep
  have e1 : ((s • (Ja * Fᵀ))ᵀ * (Ja * Fᵀ)) = F * ((s • Ja)ᵀ * Ja) * Fᵀ := by rw [smul_turn, jac_gram]
  have e2 : ((r • (R * Jc * Fᵀ))ᵀ * (R * Jc * Fᵀ)) = F * ((r • Jc)ᵀ * Jc) * Fᵀ := by
    rw [smul_turn, jac_gram, smul_sub, sub_gram hR]
  have e3 : (s • (Ja * Fᵀ))ᵀ *ᵥ ea = F *ᵥ (s • Ja)ᵀ *ᵥ ea := by rw [smul_turn, jac_vec]
  have e4 : (r • (R * Jc * Fᵀ))ᵀ *ᵥ (R *ᵥ ec) = F *ᵥ (r • Jc)ᵀ *ᵥ ec := by
    rw [smul_turn, jac_vec, smul_sub, sub_vec hR]
  simp only [e1, e2, e3, e4, prior_turn hP, diagonal_turn hF hP]
  generalize (s • Ja)ᵀ * Ja = A
  generalize (r • Jc)ᵀ * Jc = B
  generalize (s • Ja)ᵀ *ᵥ ea = x
  generalize (r • Jc)ᵀ *ᵥ ec = y
  have e5 : F *ᵥ (P * p) - α • F *ᵥ x - (1 - α) • F *ᵥ y = F *ᵥ (P * p - α • x - (1 - α) • y) := by
    rw [Matrix.mulVec_sub, Matrix.mulVec_sub, Matrix.mulVec_smul, Matrix.mulVec_smul]
  have e6 : α • F *ᵥ x + (1 - α) • F *ᵥ y = F *ᵥ (α • x + (1 - α) • y) := by
    rw [Matrix.mulVec_add, Matrix.mulVec_smul, Matrix.mulVec_smul]
  rw [sandwich_smul, sandwich_smul, sandwich_add, sandwich_add, e5, e6]
  cases u
  · simp only [Bool.false_eq_true, if_false]
    exact solve_turn hF _ _
  · simp only [if_true]
    rw [solve_turn hF]
    cases npSolve (α • A + (1 - α) • B + diagonal P) (P * p - α • x - (1 - α) • y) <;> simp [Except.map, Matrix.mulVec_neg]

theorem increment_turn (h : TurnedUnified f R F G im im' env env') (alg : ClmRun.UAlg) (prior : Bool) (α : ℝ)
    (s : ClmRun.UState k (N * 2) W) :
    ClmRun.increment env' alg prior α (turnU R F s) = (ClmRun.increment env alg prior α s).map fun x => F *ᵥ x := by
  cases alg
  · simp only [ClmRun.increment, imageError_turn h, h.jPo, h.invSigma2, h.clm.J, h.invRho2]
    exact projectOutStep_turn h.clm.orthR h.clm.orthF h.clm.prior _ _ _ _ _ _ _ _ _
  · simp only [ClmRun.increment, imageError_turn h, uAppearance_turn h, h.jac, h.invSigma2, h.clm.J, h.invRho2]
    exact alternatingStep_turn h.clm.orthR h.clm.orthF h.clm.prior _ _ _ _ _ _ _ _ _

theorem unified_run (h : TurnedUnified f R F G im im' env env') (alg : ClmRun.UAlg) (prior : Bool) (α : ℝ) (maxIters : Int)
    (tol : ℝ) (costs : Bool) (init : Pts N 2) :
    ClmRun.uRun env' alg prior α maxIters tol costs im' (f init) =
      (ClmRun.uRun env alg prior α maxIters tol costs im init).map (turnedTraceA f F G) := by
  unfold ClmRun.uRun
  rw [h.clm.setTarget, look_turn h]
  cases ClmRun.look env im (env.setTarget init) with
  | error e => rfl
  | ok s =>
    simp only [Except.map, bind, Except.bind]
    have := run_moved (ClmRun.uMachine env alg prior α im) (ClmRun.uMachine env' alg prior α im') f
      (fun p => (F *ᵥ p.1, G *ᵥ p.2))
      (fun s t => t = turnU R F s) maxIters tol
      (by rintro s t rfl; exact h.clm.shape _)
      (by rintro s t rfl; simp only [ClmRun.uMachine, uAppearance_turn h]; rfl)
      (by
        rintro s t rfl
        simp only [ClmRun.uMachine, imageError_turn h, Unified.cost]
        congr 1
        exact sub_dot h.clm.orthR s.ec)
      (by
        rintro s t rfl
        simp only [ClmRun.uMachine, increment_turn h]
        cases ClmRun.increment env alg prior α s with
        | error e => exact ⟨rfl, fun e h => by cases h⟩
        | ok dp =>
          have e0 : (turnU R F s).p = F *ᵥ s.p := rfl
          simp only [Except.map, e0, ← Matrix.mulVec_add, look_turn h]
          cases ClmRun.look env im (s.p + dp) with
          | error e => exact ⟨rfl, fun e h => by cases h⟩
          | ok s' =>
            simp only [h.clm.shape, turnU, h.clm.dist]
            exact ⟨trivial, fun _ _ => trivial⟩) costs s (turnU R F s) rfl
    rw [this]
    cases (Optim.run (ClmRun.uMachine env alg prior α im) false maxIters tol costs s).2 with
    | error e => rfl
    | ok r => simp [Except.map, mapTrace, turnedTraceA]

end

end Turned
end Menpofit
