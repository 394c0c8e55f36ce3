import Verif.Lemmas.SpectralExist
import Verif.Lemmas.Copies
/-!
# C98: the Procrustes regressors of a supervised descent cascade
-/

namespace Menpofit
open Reg SdmReg Sdm GN Matrix Spec

/-- C98 (supervised descent): a stage of a cascade with orthogonal Procrustes regressors that do not whiten always has a
regressor; it does not lengthen any sample, and among the maps that do not its predictions agree best with the targets of
the stage. -/
theorem C98_cascade (svd : SvdFn) (pca : PcaFn)
    (hsvd : ∀ n d (X : Matrix (Fin n) (Fin d) ℝ), IsSvd X (svd n d X).U (svd n d X).s (svd n d X).V)
    (bias : Bool) {d q : Nat} (P : List ((Fin d → ℝ) × (Fin q → ℝ))) :
    ∃ (st : Opp (width bias d) q) (R : Matrix (Fin (width bias d)) (Fin q) ℝ),
      (oppOps svd pca false bias d q).train (P.map Prod.fst) (P.map Prod.snd) = .ok st ∧
      (∀ xs, (oppOps svd pca false bias d q).predict st xs = xs.map fun x => addBias1 bias x ᵥ* R) ∧
      (∀ z, (z ᵥ* R) ⬝ᵥ (z ᵥ* R) ≤ z ⬝ᵥ z) ∧
      ∀ R' : Matrix (Fin (width bias d)) (Fin q) ℝ, (∀ z, (z ᵥ* R') ⬝ᵥ (z ᵥ* R') ≤ z ⬝ᵥ z) →
        (P.map fun p => (addBias1 bias p.1 ᵥ* R') ⬝ᵥ p.2).sum ≤ (P.map fun p => (addBias1 bias p.1 ᵥ* R) ⬝ᵥ p.2).sum := by
  obtain ⟨B, hB⟩ : ∃ B : Matrix (Fin (width bias d)) (Fin q) ℝ,
    B = Matrix.of fun a b => (P.map fun p => addBias1 bias p.1 a * p.2 b).sum := ⟨_, rfl⟩
  have hs := hsvd (width bias d) q B
  have hf : ∀ R : Matrix (Fin (width bias d)) (Fin q) ℝ,
      fro R B = (P.map fun p => (addBias1 bias p.1 ᵥ* R) ⬝ᵥ p.2).sum := by
    intro R
    rw [hB]
    clear hB hs
    induction P with
    | nil => simp [fro]
    | cons p P ih =>
      simp only [List.map_cons, List.sum_cons]
      rw [← ih]
      unfold fro
      simp only [Matrix.of_apply, mul_add, Finset.sum_add_distrib]
      congr 1
      simp only [dotProduct, vecMul, Finset.sum_mul]
      rw [Finset.sum_comm]
      exact Finset.sum_congr rfl fun j _ => Finset.sum_congr rfl fun i _ => by ring
  refine ⟨⟨false, some ((svd (width bias d) q B).U * (svd (width bias d) q B).V)⟩, _, ?_, fun xs => rfl,
    contracts_transpose (procrustes_contracts hs), fun R' hR' => ?_⟩
  · simp only [oppOps, trainOpp, trainOppCore, Bool.false_eq_true, if_false, Copies.tdot_pairs, ← hB]
    rfl
  · rw [← hf, ← hf]
    exact procrustes_max hs R' (contracts_untranspose hR')

/-- Two samples on which the largest correlation is positive. -/
example : ((([((fun _ => 1), (fun _ => 2)), ((fun _ => 3), (fun _ => 1))] : List ((Fin 1 → ℝ) × (Fin 1 → ℝ))).map
    fun p => (addBias1 false p.1 ᵥ* (1 : Matrix (Fin 1) (Fin 1) ℝ)) ⬝ᵥ p.2).sum) = 5 := by
  show (List.map _ _).sum = _
  simp [addBias1, dotProduct, vecMul]
  norm_num

end Menpofit
