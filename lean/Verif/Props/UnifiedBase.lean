import Verif.Lemmas.UnifiedBase
import Mathlib.Tactic.NormNum
/-!
# C112: training of the unified AAM-CLM
-/

namespace Menpofit
open Training UniBase Spec

variable {Im Sh Fr W SM AM E F : Type} [DecidableEq F]

/-- **C112, partial.**  A successful construction leaves exactly one shape model, one appearance
model and one expert ensemble per scale, all three trained from the same images: every
training image, in order, brought to the size of the reference shape, smoothed as asked for,
with the features of the scale and scaled.  Missing: the reference shape is always computed from
the images, the frame has the default margin of 3 pixels and the experts use their default
covariance, whatever was asked for. -/
theorem C112_train_partial {o : ImageOps Im Sh F} {U : UniOps Im Sh Fr W SM AM E}
    (hno : ∀ i, o.feature o.noOp i = .ok i) {opts : UniOpts Sh} {levels : List (UniLevel F)}
    {images : List Im} {st : UniSt Sh SM AM E}
    (h : uniConstruct o U opts levels images = .ok st) :
    ∃ ref shapes, images.mapM o.shapeOf = .ok shapes ∧ o.reference shapes = .ok ref ∧
      st.ref = some ref ∧
      st.shapeModels.length = levels.length ∧ st.appearance.length = levels.length ∧
      st.experts.length = levels.length ∧
      ∀ j l, levels[j]? = some l → ∃ sm am e,
        st.shapeModels[j]? = some sm ∧ st.appearance[j]? = some am ∧ st.experts[j]? = some e ∧
        ScaleTrained o U (smoothing U opts.sigma) ref
          (U.frame 3 (o.scaleShape l.scale ref)) 3 images j l sm am e := by
  cases images with
  | nil => cases h
  | cons i is =>
    unfold uniConstruct at h
    obtain ⟨-, -, h⟩ := bind_ok h
    obtain ⟨shapes, h1, h⟩ := bind_ok h
    obtain ⟨ref, h2, h⟩ := bind_ok h
    obtain ⟨rescaled, h3, h⟩ := bind_ok h
    rw [smoothed_map] at h
    obtain ⟨sms, ams, es, rfl, q1, q2, q3, q4⟩ := uniLoop_ok hno h3 (by simp) h
    refine ⟨ref, shapes, h1, h2, rfl, by simpa using q1, by simpa using q2, by simpa using q3,
      fun j l hl => ?_⟩
    obtain ⟨sm, am, e, r1, r2, r3, r4⟩ := q4 j l hl
    refine ⟨sm, am, e, by simpa using r1, by simpa using r2, by simpa using r3, ?_⟩
    rwa [Nat.zero_add] at r4

/-- **C112** (fitting).  Given one sampling per scale, the interfaces handed to the fitter are
one per scale, each with the appearance model, the shape model and the sampling of its scale. -/
theorem C112_interfaces {T : Type} {o : ImageOps Im Sh F} {U : UniOps Im Sh Fr W SM AM E}
    (hno : ∀ i, o.feature o.noOp i = .ok i) {opts : UniOpts Sh} {levels : List (UniLevel F)}
    {images : List Im} {st : UniSt Sh SM AM E}
    (h : uniConstruct o U opts levels images = .ok st) (sampling : List T)
    (hs : sampling.length = levels.length) :
    (interfaces st sampling).length = levels.length ∧
    ∀ (j : Nat) am sm s, (interfaces st sampling)[j]? = some (am, sm, s) ↔
      st.appearance[j]? = some am ∧ st.shapeModels[j]? = some sm ∧ sampling[j]? = some s := by
  obtain ⟨-, -, -, -, -, h1, h2, -⟩ := C112_train_partial hno h
  refine ⟨by simp [interfaces, h1, h2, hs], fun j am sm s => ?_⟩
  simp [interfaces, List.getElem?_zip_eq_some]

/-- **C112, violated.**  The options `reference_shape`, `boundary` and `response_covariance` have
no effect on what is trained: any two sets of options with the same `sigma` give the same
models. -/
theorem C112_options_violated (o : ImageOps Im Sh F) (U : UniOps Im Sh Fr W SM AM E)
    (opts opts' : UniOpts Sh) (hs : opts.sigma = opts'.sigma) (levels : List (UniLevel F))
    (images : List Im) :
    uniConstruct o U opts levels images = uniConstruct o U opts' levels images := by
  cases images with
  | nil => rfl
  | cons i is =>
    unfold uniConstruct
    simp only [hs]
    congr 1; funext _; congr 1; funext _; congr 1; funext ref; congr 1; funext _
    exact uniLoop_opts o U opts opts' ref _ levels 0 none _

/-! Images and shapes are their sizes; frames, appearance models and experts record what they
were made of. -/

/-- Image operations on sizes. -/
def sizeImages : ImageOps Rat Rat Unit where
  reference l := match l with | x :: _ => .ok x | [] => .error .valueError
  rescale r _ := .ok r
  noOp := ()
  feature _ i := .ok i
  rescaleBy s i := .ok (s * i)
  shapeOf i := .ok i
  scaleShape s r := s * r

/-- A learner that remembers its data. -/
def keepAll (α : Type) : Learner (List α) α where
  build d := .ok d
  increment m d := .ok (m ++ d)
  trim k m := m.take k

/-- Training operations that record frames and covariances. -/
def recording : UniOps Rat Rat (Nat × Rat) (Nat × Rat) (List Rat) (List (Nat × Rat))
    (Nat × List Rat) where
  trilist _ := .ok ()
  smooth q i := i + q
  frame b s := (b, s)
  warp f _ _ := .ok f
  shape _ := keepAll Rat
  appearance := keepAll (Nat × Rat)
  expert _ _ _ c xs _ := .ok (c, xs)

/-- Two scales. -/
def twoUniLevels : List (UniLevel Unit) :=
  [⟨⟨(), 1/2, none, none⟩, (17, 17), (34, 34)⟩, ⟨⟨(), 1, none, some 1⟩, (17, 17), (34, 34)⟩]

/-- Reference shape of size 50, margin 10 and covariance 2 are asked for; the models are trained
with size 100, margin 3 and covariance 3. -/
example : uniConstruct sizeImages recording ⟨some 50, none, 10, 2⟩ twoUniLevels [100, 80] =
    .ok ⟨some 100, [[50, 50], [100, 100]], [[(3, 50), (3, 50)], [(3, 100)]],
      [(3, [50, 50]), (3, [100, 100])]⟩ := by decide +kernel

/-- With smoothing. -/
example : (uniConstruct sizeImages recording ⟨none, some 1, 3, 3⟩ twoUniLevels [100, 80]).toOption.map
    (·.experts) = some [(3, [101/2, 101/2]), (3, [101, 101])] := by decide +kernel

example : (match uniConstruct sizeImages recording ⟨none, none, 3, 3⟩ twoUniLevels [100] with
    | .ok st => interfaces st ["a", "b"]
    | .error _ => []) = [([(3, 50)], [50], "a"), ([(3, 100)], [100], "b")] := by decide +kernel

end Menpofit
