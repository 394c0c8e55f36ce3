import Verif.Model.PatchNorm
/-!
# Changes of gain and brightness (C109)
-/

namespace Menpofit.Spec

/-- Every pixel multiplied by a gain and shifted. -/
def relit (gain bias : ℝ) (v : List ℝ) : List ℝ := v.map fun x => gain * x + bias

/-- Each channel with its own positive gain and its own shift. -/
inductive RelitEach : List (List ℝ) → List (List ℝ) → Prop
  | nil : RelitEach [] []
  | cons {v : List ℝ} {p q : List (List ℝ)} (gain bias : ℝ) (hg : 0 < gain) (h : RelitEach p q) :
      RelitEach (v :: p) (relit gain bias v :: q)

/-- Mean zero, and length one unless constant. -/
def Standard (v : List ℝ) : Prop :=
  v.sum = 0 ∧ ((v.map (· ^ 2)).sum = 1 ∨ ∀ x ∈ v, x = 0)

end Menpofit.Spec
