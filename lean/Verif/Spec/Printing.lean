import Verif.Model.Printing
import Mathlib.Analysis.Complex.Norm
/-!
# Specification: what printing should show

A printed model tells what it is and what it uses at each scale: two models that print the same text have the same settings.
-/

namespace Menpofit
namespace Spec
open Print

/-- Different numbers, pairs and scales are written differently. -/
structure Readable (f : Fmt) : Prop where
  num : Function.Injective f.num
  pair : Function.Injective f.pair
  scale : Function.Injective f.scale

/-- Numbers are written without blanks. -/
def NoBlanks (f : Fmt) : Prop := ∀ n, ' ' ∉ (f.num n).toList

/-- What is shown of a shape model: its class and how many components and similarity parameters it has. -/
def shapeSettings (m : ShapeModel) : String × Nat × Option Nat := (m.cls, m.nComponents, m.nGlobal)

/-- What is shown of an appearance model. -/
def appearanceSettings (m : AppearanceModel) : String × Nat := (m.cls, m.nComponents)

/-- The shape models have a similarity transform. -/
def WithSimilarity (shapes : List ShapeModel) : Prop := ∀ m ∈ shapes, ∃ g, m.nGlobal = some g

/-- A trained active appearance model: everything is there once for each of the scales (at least one). -/
structure TrainedAam (a : Print.Aam) : Prop where
  scales : a.scales ≠ []
  features : a.features.length = a.scales.length
  appearance : a.appearance.length = a.scales.length
  shapes : a.shapes.length = a.scales.length
  patches : ∀ l, a.patchShape = some l → l.length = a.scales.length

/-- A trained active template model. -/
structure TrainedAtm (a : Print.Atm) : Prop where
  scales : a.scales ≠ []
  features : a.features.length = a.scales.length
  templates : a.templates.length = a.scales.length
  shapes : a.shapes.length = a.scales.length
  patches : ∀ l, a.patchShape = some l → l.length = a.scales.length

/-- A trained constrained local model. -/
structure TrainedClm (a : Print.Clm) : Prop where
  scales : a.scales ≠ []
  features : a.features.length = a.scales.length
  expertCls : a.expertCls.length = a.scales.length
  experts : a.experts.length = a.scales.length
  shapes : a.shapes.length = a.scales.length

/-- A trained unified model. -/
structure TrainedUnified (a : Print.Unified) : Prop where
  scales : a.scales ≠ []
  features : a.features.length = a.scales.length
  expertCls : a.expertCls.length = a.scales.length
  experts : a.experts.length = a.scales.length
  appearance : a.appearance.length = a.scales.length
  shapes : a.shapes.length = a.scales.length

/-- A Lucas-Kanade fitter: the same algorithm class at every scale. -/
structure BuiltLk (a : Print.Lk) : Prop where
  scales : a.scales ≠ []
  features : a.features.length = a.scales.length
  templates : a.templates.length = a.scales.length
  algorithms : ∃ x, a.algorithms = List.replicate a.scales.length x

/-- A trained supervised descent fitter. -/
structure TrainedSdm (a : Print.Sdm) : Prop where
  scales : a.scales ≠ []
  iterations : a.iterations.length = a.scales.length
  patchShape : a.patchShape.length = a.scales.length
  features : a.features.length = a.scales.length
  patchFeatures : a.patchFeatures.length = a.scales.length
  algorithms : a.algorithms.length = a.scales.length

/-- The diagonal that pictures are scaled to: the requested one, or else that of a box of the size of the reference shape. -/
noncomputable def scaledTo (diagonal : Option ℝ) (range : ℝ × ℝ) : ℝ := diagonal.getD ‖(⟨range.1, range.2⟩ : ℂ)‖

/-- The text has a part for each of the scales, one after the other, and the part of the scale number `k`, whose first line
names the scale, has the lines `lines k`. -/
def SaysPerScale (f : Fmt) (scales : List ℚ) (indent : String) (t : Text) (lines : Nat → List String) : Prop :=
  ∃ (head : Text) (parts : List Text) (foot : Text), t = head ++ parts.flatten ++ foot ∧ parts.length = scales.length ∧
    ∀ (k : Nat) (s : ℚ) (b : Text), scales[k]? = some s → parts[k]? = some b →
      b[0]? = some (indent ++ "- Scale " ++ f.scale s) ∧ ∀ x ∈ lines k, x ∈ b

end Spec
end Menpofit
