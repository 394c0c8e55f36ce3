import Verif.Lemmas.TrainFit
import Verif.Model.UnifiedBase
import Verif.Spec.Training
import Verif.Spec.UnifiedBase
import Mathlib.Tactic.NormNum
/-!
# C114: a fitter sees a training image as training saw it
-/

namespace Menpofit
open Fitter Training TrainFit Spec UniBase

variable {S P F : Type}

/-- **C114, partial.**  Take any image with ground truth `gt` and fit it from `gt` itself.  At every
scale whose factor is 1 or not within NumPy's tolerance of 1, the fitter works on exactly the
pixels training used for that image, and starts with exactly the shape training used.
Missing: factors within the tolerance of 1, and smoothed training. -/
theorem C114_same_image_partial [DecidableEq F] [Inhabited F] (m : Menpo S P F)
    (reference : List S → Except PyErr S) (scaleShape : Rat → S → S) (group : String)
    (ref gt : S) (image : Img S P) (hi : image.lm group = some gt)
    (fs : List F) (scales : List Rat) (g : Option S) (p : Prepared S P)
    (h : (prepareImage (fitOps m ref) fs scales image gt g).2 = .ok p)
    (j : Nat) (l : Level F) (hf : fs[j]? = some l.feature) (hs : scales[j]? = some l.scale)
    (hc : l.scale = 1 ∨ 1 / 10 ^ 8 + 1 / 10 ^ 5 < |l.scale - 1|) :
    ∃ x y s, imageAt (trainOps m reference scaleShape group) ref l image = .ok x ∧
      p.images[j]? = some y ∧ y.px = x.px ∧
      shapeAt (trainOps m reference scaleShape group) ref l image = .ok s ∧
      p.initialShapes[j]? = some s := by
  obtain ⟨lm, hb, hl⟩ := prepareImage_attached h
  obtain ⟨tmp, h1, hinv, hil, his, -, -⟩ := prepBody_spec _ _ _ _ _ _ _ hb
  have hz : (fs.zip scales)[j]? = some (l.feature, l.scale) := by
    rw [List.getElem?_zip_eq_some]; exact ⟨hf, hs⟩
  obtain ⟨fi, y, a, t, hy, -, -, h2, h3, -⟩ := hinv.each j _ _ hz
  obtain ⟨s0, hs0, hys⟩ := his j y hy
  obtain ⟨x1, s1, e1, p1, l1, l1'⟩ := toReference_same (i := image) (i' := ⟨lm, image.px⟩) rfl hi hl h1
  obtain ⟨x2, s2, e2, p2, l2, l2'⟩ := features_same p1 l1 l1' h2
  have fin : ∀ x : Img S P, imageAt (trainOps m reference scaleShape group) ref l image = .ok x →
      y.px = x.px → ∀ s, x.lm group = some s → y.lm "__initial_shape" = some s →
      ∃ x y s, imageAt (trainOps m reference scaleShape group) ref l image = .ok x ∧
        p.images[j]? = some y ∧ y.px = x.px ∧
        shapeAt (trainOps m reference scaleShape group) ref l image = .ok s ∧
        p.initialShapes[j]? = some s := by
    intro x hx hpx s hsx hsy
    refine ⟨x, y, s, hx, hy, hpx, ?_, ?_⟩
    · unfold shapeAt
      rw [hx]
      show getLm x group = _
      unfold getLm; rw [hsx]
    · rw [hsy] at hys; injection hys with hys; rw [hs0, hys]
  have hpre : ∀ k : Img S P → Except PyErr (Img S P),
      ((trainOps m reference scaleShape group).rescale ref image >>= fun i =>
        (trainOps m reference scaleShape group).feature l.feature i >>= k) = k x2 := by
    intro k
    show (toReference m ref group image >>= fun i => features m l.feature i >>= k) = _
    rw [e1]
    show (features m l.feature x1 >>= k) = _
    rw [e2]; rfl
  unfold scaleStep at h3
  rcases hc with hc | hc
  · rw [if_neg (by simp [hc])] at h3
    injection h3 with h3
    obtain ⟨rfl, -⟩ := Prod.mk.inj h3
    refine fin x2 ?_ p2.symm s2 l2 l2'
    unfold imageAt
    rw [hpre, if_pos (by rw [hc]; norm_num)]
  · have hne : l.scale ≠ 1 := by
      intro e; rw [e] at hc; norm_num at hc
    rw [if_pos hne] at h3
    obtain ⟨x3, s3, e3, p3, l3, l3'⟩ := rescaled_same p2 l2 l2' h3
    refine fin x3 ?_ p3.symm s3 l3 l3'
    unfold imageAt
    rw [hpre, if_neg (not_le.2 hc)]
    show (do return (← rescaled m l.scale x2).1 : Except PyErr (Img S P)) = _
    rw [e3]; rfl

/-- **C114**, what the fitter sees.  The image is rescaled so that the initial shape fits the reference shape,
then the features of the scale are computed, then the result is rescaled by the factor of the scale; the initial
shape goes through the same three maps. -/
theorem C114_seen [DecidableEq F] (m : Menpo S P F) (ref init : S) (image : Img S P) (fs : List F)
    (scales : List Rat) (g : Option S) (p : Prepared S P)
    (h : (prepareImage (fitOps m ref) fs scales image init g).2 = .ok p)
    (j : Nat) (f : F) (c : Rat) (hf : fs[j]? = some f) (hs : scales[j]? = some c) :
    ∃ px₁ px₂ y, ∃ t₁ t₂ : S → S, m.toRef ref init image.px = .ok (px₁, t₁) ∧ m.feature f px₁ = .ok (px₂, t₂) ∧
      p.images[j]? = some y ∧
      (c = 1 → y.px = px₂ ∧ p.initialShapes[j]? = some (t₂ (t₁ init))) ∧
      (c ≠ 1 → ∃ px₃ t₃, m.rescale c px₂ = .ok (px₃, t₃) ∧ y.px = px₃ ∧
        p.initialShapes[j]? = some (t₃.symm (t₂ (t₁ init)))) := by
  obtain ⟨lm, hb, hl⟩ := prepareImage_attached h
  obtain ⟨tmp, h1, hinv, hil, his, -, -⟩ := prepBody_spec _ _ _ _ _ _ _ hb
  have hz : (fs.zip scales)[j]? = some (f, c) := by
    rw [List.getElem?_zip_eq_some]; exact ⟨hf, hs⟩
  obtain ⟨fi, y, a, t, hy, -, -, h2, h3, -⟩ := hinv.each j _ _ hz
  obtain ⟨s0, hs0, hys⟩ := his j y hy
  simp only [fitOps, toReference, getLm, hl, bind, Except.bind] at h1
  cases e1 : m.toRef ref init image.px with
  | error e => rw [e1] at h1; cases h1
  | ok q1 =>
    obtain ⟨px₁, t₁⟩ := q1
    rw [e1] at h1
    cases h1
    simp only [fitOps, features, moved, bind, Except.bind] at h2
    cases e2 : m.feature f px₁ with
    | error e => rw [e2] at h2; cases h2
    | ok q2 =>
      obtain ⟨px₂, t₂⟩ := q2
      rw [e2] at h2
      cases h2
      refine ⟨px₁, px₂, y, t₁, t₂, rfl, e2, hy, fun hc => ?_, fun hc => ?_⟩
      · unfold scaleStep at h3
        rw [if_neg (by simp [hc])] at h3
        injection h3 with h3
        obtain ⟨rfl, -⟩ := Prod.mk.inj h3
        refine ⟨rfl, ?_⟩
        simp only [moved, hl, Option.map_some] at hys
        rw [hs0, hys]
      · unfold scaleStep at h3
        rw [if_pos hc] at h3
        simp only [fitOps, rescaled, moved, bind, Except.bind] at h3
        cases e3 : m.rescale c px₂ with
        | error e => rw [e3] at h3; cases h3
        | ok q3 =>
          obtain ⟨px₃, t₃⟩ := q3
          rw [e3] at h3
          cases h3
          refine ⟨px₃, t₃, rfl, rfl, ?_⟩
          simp only [hl, Option.map_some] at hys
          rw [hs0, ← hys]
          rfl

/-- **C114, violated** (tolerance).  A factor that is close to 1 but not 1 rescales the image when
fitting, not when training: whenever that rescaling changes the pixels, the fitter sees other
pixels than training did. -/
theorem C114_tolerance_violated [DecidableEq F] [Inhabited F] (m : Menpo S P F)
    (reference : List S → Except PyErr S) (scaleShape : Rat → S → S) (group : String)
    (ref gt : S) (image : Img S P) (hi : image.lm group = some gt)
    (fs : List F) (scales : List Rat) (g : Option S) (p : Prepared S P)
    (h : (prepareImage (fitOps m ref) fs scales image gt g).2 = .ok p)
    (j : Nat) (l : Level F) (hf : fs[j]? = some l.feature) (hs : scales[j]? = some l.scale)
    (hc : l.scale ≠ 1 ∧ |l.scale - 1| ≤ 1 / 10 ^ 8 + 1 / 10 ^ 5)
    (hr : ∀ i fi px' t, toReference m ref group image = .ok i → features m l.feature i = .ok fi →
      m.rescale l.scale fi.px = .ok (px', t) → px' ≠ fi.px) :
    ∃ x y, imageAt (trainOps m reference scaleShape group) ref l image = .ok x ∧
      p.images[j]? = some y ∧ y.px ≠ x.px := by
  obtain ⟨lm, hb, hl⟩ := prepareImage_attached h
  obtain ⟨tmp, h1, hinv, -⟩ := prepBody_spec _ _ _ _ _ _ _ hb
  have hz : (fs.zip scales)[j]? = some (l.feature, l.scale) := by
    rw [List.getElem?_zip_eq_some]; exact ⟨hf, hs⟩
  obtain ⟨fi, y, a, t, hy, -, -, h2, h3, -⟩ := hinv.each j _ _ hz
  obtain ⟨x1, s1, e1, p1, l1, l1'⟩ := toReference_same (i := image) (i' := ⟨lm, image.px⟩) rfl hi hl h1
  obtain ⟨x2, s2, e2, p2, l2, l2'⟩ := features_same p1 l1 l1' h2
  refine ⟨x2, y, ?_, hy, ?_⟩
  · unfold imageAt
    show (toReference m ref group image >>= fun i => features m l.feature i >>= _) = _
    rw [e1]
    show (features m l.feature x1 >>= _) = _
    rw [e2]
    show (if _ then _ else _) = _
    rw [if_pos hc.2]
  · unfold scaleStep at h3
    rw [if_pos hc.1] at h3
    change rescaled m l.scale fi = _ at h3
    unfold rescaled at h3
    cases hv : m.rescale l.scale fi.px with
    | error e => rw [hv] at h3; cases h3
    | ok v =>
      rw [hv] at h3
      injection h3 with h3
      obtain ⟨rfl, -⟩ := Prod.mk.inj h3
      exact hr x1 x2 _ _ e1 e2 (by rw [p2]; exact hv)

/-- **C114, violated** (smoothing).  A unified AAM-CLM trained with a non-zero `sigma` is trained on
smoothed images, but nothing smooths the image that is fitted: at a scale without features and
factor 1 (features that do nothing, `hid`), whenever smoothing changes the pixels, the fitter sees
other pixels than training did. -/
theorem C114_sigma_violated [DecidableEq F] [Inhabited F] {Fr W SM AM E : Type} (m : Menpo S P F)
    (U : UniOps (Img S P) S Fr W SM AM E) (reference : List S → Except PyErr S)
    (scaleShape : Rat → S → S) (group : String) (ref gt : S) (image : Img S P)
    (hi : image.lm group = some gt) (fs : List F) (scales : List Rat) (g : Option S)
    (p : Prepared S P) (h : (prepareImage (fitOps m ref) fs scales image gt g).2 = .ok p)
    (sigma : Rat) (hsig : sigma ≠ 0)
    (hsm : ∀ i, toReference m ref group image = .ok i → (U.smooth sigma i).px ≠ i.px)
    (j : Nat) (l : UniLevel F) (hf : fs[j]? = some l.feature) (hs : scales[j]? = some l.scale)
    (hc : l.scale = 1) (hid : ∀ px, m.feature l.feature px = .ok (px, id)) :
    ∃ x y, uniImageAt (trainOps m reference scaleShape group) (smoothing U (some sigma)) ref l
        image = .ok x ∧ p.images[j]? = some y ∧ y.px ≠ x.px := by
  obtain ⟨lm, hb, hl⟩ := prepareImage_attached h
  obtain ⟨tmp, h1, hinv, -⟩ := prepBody_spec _ _ _ _ _ _ _ hb
  have hz : (fs.zip scales)[j]? = some (l.feature, l.scale) := by
    rw [List.getElem?_zip_eq_some]; exact ⟨hf, hs⟩
  obtain ⟨fi, y, a, t, hy, -, -, h2, h3, -⟩ := hinv.each j _ _ hz
  obtain ⟨x1, s1, e1, p1, l1, l1'⟩ := toReference_same (i := image) (i' := ⟨lm, image.px⟩) rfl hi hl h1
  have hfeat : ∀ i : Img S P, features m l.feature i = .ok (moved i.px id i) := by
    intro i; unfold features; rw [hid]; rfl
  have h2' : features m l.feature tmp = .ok fi := h2
  rw [hfeat] at h2'
  injection h2' with h2'
  unfold scaleStep at h3
  rw [if_neg (by simp [hc])] at h3
  injection h3 with h3
  obtain ⟨rfl, -⟩ := Prod.mk.inj h3
  refine ⟨moved (U.smooth sigma x1).px id (U.smooth sigma x1), fi, ?_, hy, ?_⟩
  · unfold uniImageAt
    show (toReference m ref group image >>= fun i =>
      features m l.feature (smoothing U (some sigma) i) >>= _) = _
    rw [e1]
    show (features m l.feature (smoothing U (some sigma) x1) >>= _) = _
    have : smoothing U (some sigma) x1 = U.smooth sigma x1 := if_neg hsig
    rw [this, hfeat]
    show (if _ then _ else _) = _
    rw [if_pos (by rw [hc]; norm_num)]
  · rw [← h2']
    show tmp.px ≠ (U.smooth sigma x1).px
    rw [← p1]
    exact (hsm x1 e1).symm

/-! Pixels are a number that every operation changes; shapes are one coordinate. -/

section example_

/-- Rescaling multiplies pixels and shape; feature `k` adds `k` to both. -/
def scalarMenpo : Menpo Rat Rat Nat where
  toRef ref s px := if s = 0 then .error .valueError else .ok (px * (ref / s), (· * (ref / s)))
  feature k px := .ok (px + k, (· + k))
  rescale c px :=
    if h : c = 0 then .error .valueError
    else .ok (px * c, Equiv.mulLeft₀ c⁻¹ (inv_ne_zero h))
  align s t := .ok (Equiv.addRight (t - s))

/-- An image of one pixel with its landmark group. -/
def scalarImage : Img Rat Rat := ⟨fun g => if g = "PTS" then some 2 else none, 5⟩

example : scalarImage.lm "PTS" = some 2 ∧
    ∃ p, (prepareImage (fitOps scalarMenpo 4) [1, 1] [1/2, 1] scalarImage 2 none).2 = .ok p ∧
      p.images.map (·.px) = [11/2, 11] ∧ p.initialShapes = [5/2, 5] := by
  refine ⟨rfl, ?_⟩
  obtain ⟨p, h1, h2⟩ := ok_of_eval
    (prepareImage (fitOps scalarMenpo 4) [1, 1] [1/2, 1] scalarImage 2 none).2
    (fun p => decide (p.images.map (·.px) = [11/2, 11] ∧ p.initialShapes = [5/2, 5]))
    (by decide +kernel)
  exact ⟨p, h1, of_decide_eq_true h2⟩

example : (shapeAt (trainOps scalarMenpo (fun _ => .ok 4) (· * ·) "PTS") 4 ⟨1, 1/2, none, none⟩
    scalarImage) = .ok (5/2) := by decide +kernel

/-- A factor of 1.000001. -/
example : ∃ p, (prepareImage (fitOps scalarMenpo 4) [1] [1 + 1/10^6] scalarImage 2 none).2 =
      .ok p ∧ p.images.map (·.px) = [11 + 11/10^6] ∧
    (1 + 1/10^6 : Rat) ≠ 1 ∧ |(1 + 1/10^6 : Rat) - 1| ≤ 1 / 10 ^ 8 + 1 / 10 ^ 5 := by
  obtain ⟨p, h1, h2⟩ := ok_of_eval
    (prepareImage (fitOps scalarMenpo 4) [1] [1 + 1/10^6] scalarImage 2 none).2
    (fun p => decide (p.images.map (·.px) = [11 + 11/10^6])) (by decide +kernel)
  exact ⟨p, h1, of_decide_eq_true h2, by norm_num, by norm_num [abs_of_nonneg]⟩

/-- A smoothing that changes the pixel; nothing else is used. -/
def scalarUni : UniOps (Img Rat Rat) Rat Unit Unit Unit Unit Unit where
  trilist _ := .ok ()
  smooth q i := ⟨i.lm, i.px + q⟩
  frame _ _ := ()
  warp _ _ _ := .ok ()
  shape _ := ⟨fun _ => .ok (), fun _ _ => .ok (), fun _ _ => ()⟩
  appearance := ⟨fun _ => .ok (), fun _ _ => .ok (), fun _ _ => ()⟩
  expert _ _ _ _ _ _ := .ok ()

example : ∃ p, (prepareImage (fitOps scalarMenpo 4) [0] [1] scalarImage 2 none).2 = .ok p ∧
    p.images.map (·.px) = [10] ∧
    (uniImageAt (trainOps scalarMenpo (fun _ => .ok 4) (· * ·) "PTS")
      (smoothing scalarUni (some 3)) 4 ⟨⟨0, 1, none, none⟩, (5, 5), (9, 9)⟩ scalarImage).map (·.px) =
      .ok 13 ∧
    (∀ px, scalarMenpo.feature 0 px = .ok (px, id)) ∧
    (∀ i, (scalarUni.smooth 3 i).px ≠ i.px) := by
  obtain ⟨p, h1, h2⟩ := ok_of_eval
    (prepareImage (fitOps scalarMenpo 4) [0] [1] scalarImage 2 none).2
    (fun p => decide (p.images.map (·.px) = [10])) (by decide +kernel)
  refine ⟨p, h1, of_decide_eq_true h2, by decide +kernel, fun px => ?_, fun i => ?_⟩
  · simp [scalarMenpo]; rfl
  · simp [scalarUni]

end example_
end Menpofit
