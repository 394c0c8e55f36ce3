import Verif.Model.Io
/-!
# Specification of pre-trained fitters
-/

namespace Menpofit
namespace Spec

/-- The file `full` loads to the fitter `f`, and no file cut short loads. -/
structure Archive {F : Type} (loads : List UInt8 → Except PyErr F) (full : List UInt8) (f : F) :
    Prop where
  whole : loads full = .ok f
  cut : ∀ k, k < full.length → ∃ e, loads (full.take k) = .error e

end Spec
end Menpofit
