import Verif.Model.Sdm
/-!
# Specification of supervised descent training
-/

namespace Menpofit
namespace Spec
open Sdm

variable {V W Row I : Type} [AddCommGroup W]

/-- One entry per shape, image by image. -/
def perShape {A B C : Type} (f : A → B → C) : List A → List (List B) → List C
  | a :: as, bs :: bss => bs.map (f a) ++ perShape f as bss
  | _, _ => []

/-- One stage of the cascade is consistent: a feature row and a target row for each current shape in
the same order, each target the ground truth minus the current estimate, and each new
estimate the old one plus the prediction for its row. -/
structure Consistent (proj : V → W) (inst : W → V) (feat : I → V → Row) (ims : List I) (gts : List V)
    (s : Stage V W Row) : Prop where
  features : s.features = perShape feat ims s.before
  targets : s.delta = perShape (fun g c => proj g - proj c) gts s.before
  steps : s.after.flatten.map proj =
    List.zipWith (fun c e => proj c + e) s.before.flatten s.predicted
  moved : s.after.flatten =
    List.zipWith (fun c e => inst (proj c + e)) s.before.flatten s.predicted
  counts : s.after.map List.length = s.before.map List.length

end Spec
end Menpofit
