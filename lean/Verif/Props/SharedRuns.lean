import Verif.Lemmas.SharedRuns
/-!
# C105: fitters made from the same trained model go on working
-/

namespace Menpofit
open MI Shared Spec

variable {n : Nat} {Im C : Type}

/-- **C105** (components, part): whatever was done with the trained model before a fitter was made, and whatever is done with it
afterwards without asking for a number of shape components, every fit with that fitter from a shape with the right number of
points returns a result when the computations of the fitter itself do not fail: the fitter knows as many parameters as the
shape model has.  `C105_components_violated` shows that the condition on the later uses is needed. -/
theorem C105_components_partial (ortho : Ortho n) (m : Pca n 2) {p₀ : OPdm n} (h₀ : newOPdm ortho m = .ok p₀)
    (ho : OrthoSpec ortho (similarityComponents m.mean) m.comps) (before : List (Use n))
    (K : Kind n Im C) {s : Option Int} {p₁ : OPdm n} {a : Alg K} (h₁ : build K s (before.foldl afterUse p₀) = (p₁, .ok a))
    (uses : List (Use n)) (hk : ∀ u ∈ uses, KeepsComponents u) (eps : ℝ) (r : Request Im)
    (t : Pts n 2) (hi : r.init = ⟨n, 2, t⟩) (hstart : ∀ s, K.start r.im r.costs s = .ok ())
    (hstep : ∀ s w, ∃ d, K.step a.data r.im s w = .ok d) (hafter : ∀ s, K.after r.im s = .ok ()) :
    ∃ tr, (run K a eps r (uses.foldl afterUse p₁)).2 = .ok tr := by
  obtain ⟨x, hx, -, -, -, h4, -⟩ := newOPdm_eq ortho m
  rw [h₀] at hx
  injection hx with hx
  subst hx
  have hlen : p₀.simComps.length = 4 := by rw [h4, ho.1]; simp [similarityComponents]
  have h1 : p₁.simComps.length = 4 := by
    have := simComps_use (before.foldl afterUse p₀) (.newFitter K s)
    rw [show afterUse (before.foldl afterUse p₀) (.newFitter K s) = p₁ from congrArg Prod.fst h₁, simComps_uses] at this
    rw [this, hlen]
  have hs := sameModel_uses (p := p₁) uses hk
  exact run_succeeds K a eps r _ (by rw [hs.simComps, h1])
    (by rw [build_parameters K h₁, nParameters, nParameters, hs.model]) t hi hstart hstep hafter

/-- A CLM fitter with one of two shape components, made after a fitter with both; its computations do not fail. -/
example : ∃ p₁ a, newOPdm crossOrtho xModel = .ok (xAt 1 0) ∧ OrthoSpec crossOrtho (similarityComponents xModel.mean) xModel.comps ∧
    build xKind (some 1) ([Use.newFitter xKind none].foldl afterUse (xAt 1 0)) = (p₁, .ok a) ∧
    (∀ s, xKind.start () false s = .ok ()) ∧ (∀ s w, ∃ d, xKind.step a.data () s w = .ok d) ∧ ∀ s, xKind.after () s = .ok () := by
  obtain ⟨a, b, -⟩ := x_build one_ne_zero 0
  obtain ⟨p₂, a', h, -⟩ := x_build_one
  refine ⟨p₂, a', x_new, xSpec, ?_, fun _ => rfl, fun s w => ?_, fun _ => rfl⟩
  · show build xKind (some 1) (build xKind none (xAt 1 0)).1 = _
    rw [b]; exact h
  · exact ⟨_, rfl⟩

end Menpofit
