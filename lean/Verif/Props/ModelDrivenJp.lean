import Verif.Model.ModelDriven
/-!
# C70: the parameters' Jacobian that a model-driven transform reports
-/

namespace Menpofit
open MI MDT Matrix

/-- C70: `Jp` is the matrix that composition multiplies increments with: if it can be computed, composing with an
increment of the right length is setting the parameters to their present values plus `Jp` times the increment; if
it raises, composing raises the same and changes nothing. -/
theorem C70_jp {Q : Type} {n d : Nat} (o : Ops Q n d) (out : String) (dWdx : Md Q n d → Fin n → Fin d → Fin d → ℝ)
    (s : Md Q n d) (delta : List ℝ) (hd : delta.length = o.nParams s.pdm)
    (hv : (o.asVector s.pdm).length = o.nParams s.pdm) :
    match jp o out dWdx s with
    | .error e => compose o out dWdx s delta = (s, .error e)
    | .ok M => compose o out dWdx s delta = fromVectorInplace o s
        (List.ofFn fun i => (o.asVector s.pdm).getD i 0 + (M *ᵥ fun i => delta.getD i 0) i) := by
  unfold jp compose increment
  cases h0 : o.ddp0 s.pdm with
  | error e => simp [bind, Except.bind]
  | ok a =>
    cases h1 : o.ddp s.pdm with
    | error e => simp [bind, Except.bind]
    | ok b =>
      cases h2 : einsumCheck ["ijk", "ilk"] out with
      | error e => simp [bind, Except.bind]
      | ok u =>
        simp only [bind, Except.bind]
        generalize GN.npSolveMat (K := ℝ) _ _ = r
        cases r with
        | error e => simp
        | ok M =>
          simp only [if_pos hd, addVec, List.length_ofFn, if_pos hv]
          congr 1
          apply List.ext_getElem
          · simp [hv]
          · intro i a1 a2
            have : i < (o.asVector s.pdm).length := by simp at a1; omega
            simp [this]

/-- C70 is violated by plain model-driven transforms: `Jp` always raises. -/
theorem C70_jp_plain_violated {n d : Nat} (dWdx : Md (Pdm n d) n d → Fin n → Fin d → Fin d → ℝ) (s : Md (Pdm n d) n d) :
    jp (plain n d) "eilk" dWdx s = .error .valueError := by
  have hc : einsumCheck ["ijk", "ilk"] "eilk" = .error .valueError := by decide
  simp only [jp, plain, hc, bind, Except.bind]

/-- The hypotheses on the lengths are met by every transform around a global shape model with as many weights as
active components. -/
example {n : Nat} (s : Md (GPdm (Pts n 2 × Sim) n 2) n 2) (hw : s.pdm.weights.length = s.pdm.model.active.length) :
    ((glob n).asVector s.pdm).length = (glob n).nParams s.pdm := by
  simp [glob, gAsVector, alignmentSimilarity, hw]; omega

end Menpofit
