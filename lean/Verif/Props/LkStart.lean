import Verif.Lemmas.Optim
import Verif.Model.LkRuns
import Verif.Model.ModelDriven
/-!
# C16, C20, C70: where a Lucas-Kanade fit starts, and the number of parameters of a transform
-/

namespace Menpofit

section Lk
open Lk

variable {c h w n : Nat} {Im T ρ A H B S V : Type}

/-- C16 (Lucas-Kanade, forward additive and inverse compositional): a fit depends on its initial shape, not on where the
transform was left by an earlier fit, if setting the target of the transform replaces all its state (as it does for
alignments, which are fitted to source and target).  The shapes it returns begin with what the transform makes of the
initial shape: the initial shape itself, if the transform can be fitted to it. -/
theorem C16_lucas_kanade_runs (r : Residual c h w n Im T ρ A H B) (env : Env c h w Im T) (tr : Transform n T S V)
    (add : T → (Fin n → ℝ) → T) (dW : T → Jac h w n) (pinv : T → (Fin n → ℝ) → (Fin n → ℝ)) (template : Planes c h w)
    (eps : ℝ) (s : ρ) (pre : ρ × A × H) (t t' : T) (im : Im) (initial : S) (maxIters : Int)
    (hset : ∀ t t' x, tr.setTarget t x = tr.setTarget t' x) :
    faRun r env tr add dW template eps s t im initial maxIters =
      faRun r env tr add dW template eps s t' im initial maxIters ∧
    icRun r env tr pinv template eps pre t im initial maxIters =
      icRun r env tr pinv template eps pre t' im initial maxIters ∧
    (tr.target (tr.setTarget t' initial) = initial → ∀ trace,
      (faRun r env tr add dW template eps s t im initial maxIters = .ok trace ∨
        icRun r env tr pinv template eps pre t im initial maxIters = .ok trace) →
      trace.shapes.head? = some initial) := by
  refine ⟨?_, ?_, ?_⟩
  · unfold faRun; rw [hset t t']
  · unfold icRun; rw [hset t t']
  · intro hi trace hrun
    have key : ∀ (m : Optim.Machine (ρ × T) S V Unit ℝ), m.shape = (fun st => tr.target st.2) → ∀ st : ρ × T,
        tr.target st.2 = initial → ∀ trace, (Optim.run m true maxIters eps false st).2 = .ok trace →
        trace.shapes.head? = some initial := by
      intro m hm st hst trace h
      unfold Optim.run at h
      obtain ⟨_, _, _, -, -, -, -, -, -, -, h1, -⟩ :=
        loop_spec m true maxIters eps _ 0 none st _ _ trace rfl (Prod.ext rfl h)
      rw [h1, hm, List.singleton_append, List.head?_cons]
      exact congrArg some hst
    rcases hrun with hrun | hrun
    · exact key _ rfl _ (by rw [hset t t']; exact hi) _ hrun
    · exact key _ rfl _ (by rw [hset t t']; exact hi) _ hrun

/-- Setting the target of a translation that is fitted to source and target replaces all its state, and a translated source
is reached. -/
example : ∃ tr : Transform 1 (ℝ × ℝ) ℝ ℝ, (∀ t t' x, tr.setTarget t x = tr.setTarget t' x) ∧
    ∀ t x, tr.target (tr.setTarget t x) = x :=
  ⟨⟨fun t dp => (t.1, t.2 + dp 0), fun t => t.1 + t.2, fun t => t.2, fun _ x => (5, x - 5)⟩, fun _ _ _ => rfl,
    fun _ x => by simp⟩

end Lk

section Transforms
open MI MDT

/-- C70 (number of parameters): the number of parameters that a model-driven transform reports is the length of its vector
of parameters, whatever kind of shape model it is built on. -/
theorem C70_parameters {n d : Nat} (p : Pdm n d) (g : GPdm (Pts n 2 × Sim) n 2) (o : OPdm n)
    (hp : p.weights.length = p.model.active.length) (hg : g.weights.length = g.model.active.length)
    (ho : o.weights.length = o.model.active.length) (hs : o.simWeights.length = 4) :
    (plain n d).nParams p = ((plain n d).asVector p).length ∧
    (glob n).nParams g = ((glob n).asVector g).length ∧
    (ortho n).nParams o = ((ortho n).asVector o).length := by
  refine ⟨?_, ?_, ?_⟩
  · simp [plain, MI.asVector, hp]
  · simp [glob, gAsVector, alignmentSimilarity, hg]; omega
  · simp [MDT.ortho, oAsVector, ho, hs]

/-- A shape model with one component of two. -/
example : ∃ p : Pdm 1 2, p.weights.length = p.model.active.length ∧ p.model.active.length ≠ p.model.comps.length :=
  ⟨⟨⟨0, [0, 0], 1⟩, [1], 0⟩, rfl, by simp [Pca.active]⟩

end Transforms

end Menpofit
