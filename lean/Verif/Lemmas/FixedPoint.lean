import Verif.Spec.FixedPoint
import Verif.Lemmas.AamSolvers
/-!
# Helper lemmas: fits that stay where they start
-/

set_option linter.unusedSectionVars false

namespace Menpofit
open Matrix GN Aam Spec Optim

/-- A step that fails, or keeps what is recorded, with a movement within the tolerance. -/
theorem run_rest {σ S V C E : Type} [LinearOrder E] [Zero C] (mc : Machine σ S V C E)
    (maxIters : Int) (tol : E) (costs : Bool) (s s' : σ)
    (hstep : (∃ err, mc.step s = (s', .error err)) ∨
      ∃ eps, mc.step s = (s', .ok eps) ∧ eps ≤ tol ∧ mc.shape s' = mc.shape s ∧
        mc.params s' = mc.params s ∧ mc.cost s' = 0)
    (hc : mc.cost s = 0) :
    (∀ r, (Optim.run mc false maxIters tol costs s).2 = .ok r →
      StaysAt maxIters costs (mc.shape s) (mc.params s) r) ∧
    ((maxIters ≤ 0 ∨ ∃ eps, mc.step s = (s', .ok eps)) →
      ∃ r, (Optim.run mc false maxIters tol costs s).2 = .ok r) := by
  unfold Optim.run
  rw [loop_unfold]
  by_cases hm : 0 < maxIters
  · rw [if_pos ⟨hm, trivial⟩]
    rcases hstep with ⟨err, h⟩ | ⟨eps, h, he, h1, h2, h3⟩
    · rw [h]
      refine ⟨fun r hr => (by cases hr), ?_⟩
      rintro (h' | ⟨eps, h'⟩)
      · omega
      · cases h'
    · rw [h]
      simp only
      rw [loop_unfold, if_neg (by simp only [goOn, not_and, not_lt]; exact fun _ => he)]
      refine ⟨fun r hr => ?_, fun _ => ⟨_, rfl⟩⟩
      injection hr with hr
      subst hr
      unfold StaysAt restLength
      rw [if_pos hm]
      refine ⟨by simp [h1, List.replicate], by simp [h2, List.replicate], ?_⟩
      cases costs <;> simp [hc, h3, List.replicate]
  · rw [if_neg (fun h => hm h.1)]
    refine ⟨fun r hr => ?_, fun _ => ⟨_, rfl⟩⟩
    injection hr with hr
    subst hr
    unfold StaysAt restLength
    rw [if_neg hm]
    refine ⟨rfl, rfl, ?_⟩
    cases costs <;> simp [hc, List.replicate]

/-- The second recorded parameters are those after the first step. -/
theorem run_second {σ S V C E : Type} [LinearOrder E] (mc : Machine σ S V C E)
    (maxIters : Int) (tol : E) (costs : Bool) (s : σ) (r : Trace S V C) (hm : 0 < maxIters)
    (h : (Optim.run mc false maxIters tol costs s).2 = .ok r) :
    ∃ s' eps, mc.step s = (s', .ok eps) ∧ r.params[1]? = some (mc.params s') := by
  obtain ⟨N, st, mv, h0, -, hN, hs, -, -, hstop, -, hp, -⟩ := loop_spec mc false maxIters tol _ 0 none s
    (Optim.run mc false maxIters tol costs s).1 _ r rfl (Prod.ext rfl h)
  have hN0 : 0 < N := by
    by_contra hN0
    have : N = 0 := by omega
    rcases hstop (by omega) with ⟨-, h⟩ | ⟨h, -⟩
    · exact h trivial
    · exact hN0 h
  refine ⟨st 1, mv 0, ?_, ?_⟩
  · rw [← h0]; exact hs 0 hN0
  · rw [hp]
    simp [hN0]

section
variable {K : Type} [Field K] [DecidableEq K]
variable {n a m : Nat} {S Im W E : Type}

theorem solveShapeMl_zero {H : Matrix (Fin n) (Fin n) K} {J : Matrix (Fin m) (Fin n) K}
    {e : Fin m → K} (h : Jᵀ *ᵥ e = 0) :
    solveShapeMl H J e = if H.det = 0 then .error .linAlgError else .ok 0 := by
  unfold solveShapeMl npSolve
  rw [h]
  split <;> simp [Except.map]

theorem solveAllMl_zero {k : Nat} {H : Matrix (Fin (a + n)) (Fin (a + n)) K}
    {J : Matrix (Fin k) (Fin (a + n)) K} {e : Fin k → K} (h : Jᵀ *ᵥ e = 0) :
    solveAllMl H J e = if H.det = 0 then .error .linAlgError else .ok (0, 0) := by
  unfold solveAllMl npSolve
  rw [h]
  split
  · simp [Except.map]
  · simp only [Except.map, mulVec_zero, Pi.zero_apply, neg_zero]
    rfl

theorem updateWarp_zero (inverse : Bool) (p : Fin n → K) : updateWarp inverse p 0 = p := by
  cases inverse <;> simp [updateWarp]

end

end Menpofit
