import Verif.Lemmas.SharedModel
import Verif.Lemmas.Quadratic
/-!
# Lemmas for the steps and the costs of active pictorial structures
-/

namespace Menpofit
namespace Shared
open Matrix MI Homog Spec

variable {n m M k : Nat}

theorem symmPsd_iff {Q : Matrix (Fin k) (Fin k) ℝ} (h : SymmPsd Q) :
    Qᵀ = Q ∧ ∀ x, 0 ≤ x ⬝ᵥ (Q *ᵥ x) := by
  refine ⟨by ext i j; exact h.1 j i, fun x => ?_⟩
  have := h.2 x
  simp only [dotProduct, mulVec, Finset.mul_sum]
  simpa only [mul_assoc] using this

theorem quad_sum (Q : Matrix (Fin k) (Fin k) ℝ) (x : Fin k → ℝ) :
    ∑ i, ∑ j, x i * Q i j * x j = x ⬝ᵥ (Q *ᵥ x) := by
  simp only [dotProduct, mulVec, Finset.mul_sum, mul_assoc]

theorem hessianS_symm (a : Aps n m M) (hQ : a.Qdᵀ = a.Qd) (J : Matrix (Fin (n * 2)) (Fin k) ℝ) :
    (hessianS a J)ᵀ = hessianS a J := by
  simp only [hessianS, transpose_smul, transpose_mul, transpose_transpose, hQ, Matrix.mul_assoc]

theorem hessianS_quad (a : Aps n m M) (J : Matrix (Fin (n * 2)) (Fin k) ℝ) (x : Fin k → ℝ) :
    x ⬝ᵥ (hessianS a J *ᵥ x) = a.weight * ((J *ᵥ x) ⬝ᵥ (a.Qd *ᵥ (J *ᵥ x))) := by
  rw [hessianS, smul_mulVec, dotProduct_smul, smul_eq_mul]
  congr 1
  rw [← mulVec_mulVec, ← mulVec_mulVec, dotProduct_mulVec, vecMul_transpose]

theorem apsEnergy_eq (a : Aps n m M) (nabla) (J : Matrix (Fin (n * 2)) (Fin k) ℝ) (e p δ) :
    apsEnergy a nabla (moves J) e p δ =
      regEnergy a.Qa (sdi a.part nabla J) e (hessianS a J) p δ := by
  simp only [apsEnergy, regEnergy, hessianS_quad]
  rw [quad_sum, quad_sum]
  have h1 : (fun q => e q + ∑ c, (∑ d, nabla d q * moves J (a.part q) d c) * δ c) =
      e + sdi a.part nabla J *ᵥ δ := by
    funext q; simp [sdi, mulVec, dotProduct, moves]
  have h2 : (fun u => ∑ c, moves J (finProdFinEquiv.symm u).1 (finProdFinEquiv.symm u).2 c * (p c + δ c)) =
      J *ᵥ (p + δ) := by
    funext u
    simp only [mulVec, dotProduct, moves, Pi.add_apply, Prod.mk.eta, Equiv.apply_symm_apply]
  rw [h1, h2]

/-- The costs at a shape that can be warped. -/
theorem apsCosts_eq (a : Aps n m m) (im : ApsImage n m) {s : Pts n 2} {i} (h : im.warp s = .ok i) :
    apsCosts a im s =
      ((i - a.abar) ⬝ᵥ (a.Qall *ᵥ (i - a.abar)), deformationCost a s,
        (i - a.abar) ⬝ᵥ (a.Qall *ᵥ (i - a.abar)) + deformationCost a s) := by
  simp only [apsCosts, h, bind, Except.bind, appearanceCost, dif_pos, Fin.cast_eq_self]

variable {Im C : Type}

/-- What a successful run of an algorithm goes through. -/
theorem run_ok {K : Kind n Im C} {a : Alg K} {eps : ℝ} {r : Request Im} {p : OPdm n} {tr}
    (h : (run K a eps r p).2 = .ok tr) :
    ∃ (N : Nat) (st : Nat → OPdm n), (oSetTarget p r.init) = (st 0, .ok ()) ∧
      K.start r.im r.costs (st 0).target = .ok () ∧
      (∀ i, i < N → ∃ dp, (oAsVector (st i)).length = a.k ∧
        K.step a.data r.im (st i).target (fun j => (oAsVector (st i)).getD j 0) = .ok dp ∧
        oFromVector (st i) (List.zipWith (· + ·) (oAsVector (st i)) (List.ofFn dp)) = .ok (st (i + 1)) ∧
        K.after r.im (st (i + 1)).target = .ok ()) ∧
      tr.shapes = (List.range (N + 1)).map (fun i => (st i).target) ∧
      tr.params = (List.range (N + 1)).map (fun i => oAsVector (st i)) ∧
      tr.costs = if r.costs && K.reports then
        some ((List.range (N + 1)).map (fun i => K.cost r.im (st i).target)) else none := by
  unfold run at h
  obtain ⟨x, hx⟩ : ∃ x, x = oSetTarget p r.init := ⟨_, rfl⟩
  rw [← hx] at h
  obtain ⟨q, y⟩ := x
  cases y with
  | error e => cases h
  | ok u =>
    simp only at h
    cases hs : K.start r.im r.costs q.target with
    | error e => rw [hs] at h; cases h
    | ok u' =>
      rw [hs] at h
      simp only [Optim.run] at h
      obtain ⟨z, hz⟩ : ∃ z, z = Optim.loop (machine K a r.im) false r.maxIters eps 0 none q
        ⟨[(machine K a r.im).shape q], [(machine K a r.im).params q],
          if (r.costs && K.reports) = true then
            some (if false = true then [] else [(machine K a r.im).cost q]) else none⟩ := ⟨_, rfl⟩
      rw [← hz] at h
      obtain ⟨sF, w⟩ := z
      simp only at h
      subst h
      obtain ⟨N, st, mv, h0, _, _, hst, _, _, _, h8, h9, h10⟩ :=
        loop_spec (machine K a r.im) false r.maxIters eps _ 0 none q sF _ tr rfl hz.symm
      have shift : ∀ {α : Type} (f : Nat → α), [f 0] ++ (List.range N).map (fun i => f (i + 1)) =
          (List.range (N + 1)).map f := by
        intro α f
        rw [List.range_succ_eq_map]; simp [Function.comp_def]
      refine ⟨N, st, by rw [h0, ← hx], by rw [h0]; exact hs, ?_, ?_, ?_, ?_⟩
      · intro i hi
        have := hst i hi
        simp only [machine] at this
        split at this
        · rename_i hl
          split at this
          · exact absurd (congrArg Prod.snd this) (by simp)
          · rename_i dp hdp
            split at this
            · exact absurd (congrArg Prod.snd this) (by simp)
            · rename_i q' hq'
              split at this
              · exact absurd (congrArg Prod.snd this) (by simp)
              · rename_i ha
                injection this with h1 h2
                rw [← h1]
                exact ⟨dp, hl, hdp, hq', ha⟩
        · exact absurd (congrArg Prod.snd this) (by simp)
      · rw [h8, ← h0]; exact shift fun i => (st i).target
      · rw [h9, ← h0]; exact shift fun i => oAsVector (st i)
      · rw [h10]
        by_cases hc : (r.costs && K.reports) = true
        · rw [if_pos hc, if_pos hc, ← h0]
          exact congrArg some (shift fun i => K.cost r.im (st i).target)
        · rw [if_neg hc, if_neg hc]; rfl

end Shared
end Menpofit
