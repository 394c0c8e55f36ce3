import Verif.Model.Instances
import Verif.Spec.AamBase
/-!
# Specification: rendering an instance
-/

namespace Menpofit
namespace Spec
open Inst

variable {Sh Im Fr : Type}

/-- `r` shows the image `im`, whose landmarks are those of `template`, warped into a frame around the
shape `s`: for the holistic class the whole frame, for the masked class patches of the given
size, for the patch class nothing is warped and shape and image are returned.  The linear classes
have no rendering. -/
def Shows (o : Ops Sh Im Fr) (k : Kind) (patch : Nat × Nat) (s : Sh) (im template : Im)
    (r : Except PyErr (Rendered Sh Im)) : Prop :=
  match k with
  | .holistic => ∃ lm fr, o.source template = .ok lm ∧ o.frame s = .ok fr ∧
      r = (o.warp im lm fr).map .image
  | .masked => ∃ lm fr, o.source template = .ok lm ∧ o.patchFrame s patch = .ok fr ∧
      r = (o.warp im lm fr).map .image
  | .patch => r = .ok (.pair s im)
  | .linear => False
  | .linearMasked => False

/-- Frames can be built around every shape, and every template has its landmarks. -/
structure Renderable (o : Ops Sh Im Fr) : Prop where
  frame : ∀ s, ∃ fr, o.frame s = .ok fr
  patchFrame : ∀ s p, ∃ fr, o.patchFrame s p = .ok fr
  source : ∀ im, ∃ lm, o.source im = .ok lm

/-- Points, edges and root of what an APS returns. -/
def ApsHas {ι : Type} (points : ι → ℝ) (edges : Option (List (Nat × Nat))) (root : Option Nat) :
    ApsShape ι → Prop
  | .cloud p => p = points ∧ edges = none ∧ root = none
  | .directed p e => p = points ∧ edges = some e ∧ root = none
  | .tree p e r => p = points ∧ edges = some e ∧ root = some r

end Spec
end Menpofit
