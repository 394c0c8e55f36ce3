import Verif.Lemmas.DlibTraining
import Verif.Props.ScaleTraining
/-!
# C119, C120: training and running dlib's predictors
-/

namespace Menpofit
open Dlib ScaleTrain Perturb Spec

noncomputable section

variable {Pix M P : Type}

/-- C119, one algorithm: if training with as many images, shapes and lists of boxes returns, the
predictor was trained on all images with the rectangles of their boxes and the ground truth of each,
and the boxes that training leaves behind are the bounding boxes of what running the trained algorithm
on the same image and box returns. -/
theorem C119_algorithm (lib : Lib Pix M) (j : Nat) (pixels : List Pix) (gts : List Shape)
    (bboxes : List (List Shape)) (h1 : pixels.length = bboxes.length)
    (h2 : gts.length = bboxes.length) (m : M) (out : List (List Shape))
    (h : trainAlg lib j pixels gts bboxes = .ok (m, out)) :
    (∃ ds, lib.train j pixels ds = .ok m ∧ ds.length = bboxes.length ∧
      ∀ (k : Nat) (bbs : List Shape) (gt : Shape), bboxes[k]? = some bbs → gts[k]? = some gt →
        ∃ d, ds[k]? = some d ∧
          List.Forall₂ (fun bb (x : Detection) => toRect bb = .ok x.rect ∧ x.parts = toParts gt)
            bbs d) ∧
    out.map List.length = bboxes.map List.length ∧
    ∀ (k : Nat) (bbs : List Shape) (pix : Pix), bboxes[k]? = some bbs → pixels[k]? = some pix →
      ∃ o, out[k]? = some o ∧
        List.Forall₂ (fun bb o => ∃ s, runAlg lib m pix bb = .ok s ∧ boundingBox s = .ok o)
          bbs o := by
  have hc := trainAlg_counts h
  unfold trainAlg at h
  obtain ⟨ds, e1, h⟩ := bind_ok h
  obtain ⟨m', e2, h⟩ := bind_ok h
  obtain ⟨out', e3, h⟩ := bind_ok h
  cases h
  obtain ⟨d1, d2⟩ := detections_ok e1 h1 h2
  exact ⟨⟨ds, e2, d1, d2⟩, hc, fun k bbs pix hb hp => updateAll_ok e3 h2 d1 d2 k bbs pix hb hp⟩

/-- C119, all scales: there are predictors, one per scale, each trained on what its scale saw, such
that fitting any training image at the scaled resolutions of its training, from any of its boxes at
the first scale, returns shapes whose bounding boxes are at every scale those that the
training of the scale left behind for this image and box.  (Two scales that are equal have to scale the
image equally; scaling factors are positive.  With provided boxes the higher scales only see the first
`nPert` boxes of each image, `C53_provided_boxes_violated`; this is about those.) -/
theorem C119_scales (lib : Lib Pix M) (pixels : P → Pix)
    (rescale : Nat → Im Shape P → Except PyErr (Im Shape P × (ℝ × ℝ)))
    (hm : ∀ j im im' t, rescale j im = .ok (im', t) → (0 < t.1 ∧ 0 < t.2) ∧
      im'.lms = im.lms.map fun x => (x.1, scaleBy (t.1⁻¹, t.2⁻¹) x.2))
    (g : Geom Shape P) (perturb : Nat → Shape → Shape → Except PyErr Shape) (group : String)
    (glob : Option (String → Bool)) (nPert n : Nat) (images : List (Im Shape P))
    (r : List (Scale Shape P (ℝ × ℝ)) × List (Im Shape P))
    (h : trainErt g perturb (ertOps lib pixels rescale) group glob nPert n images = .ok r) :
    ∃ models : List M, models.length = n ∧ r.1.length = n ∧
      (∀ (j : Nat) a m, r.1[j]? = some a → models[j]? = some m → TrainedOn lib pixels j a m) ∧
      ∀ {F : Type} [DecidableEq F] (levels : List (Fitter.Level Shape P F Shape)) (k l : Nat)
        (x : Shape), levels.length = n → l < nPert →
        (∀ (j : Nat) a m L, r.1[j]? = some a → models[j]? = some m → levels[j]? = some L →
          LevelOf lib pixels k a m L) →
        (∀ L ∈ levels, ∀ L' ∈ levels, L.feature = L'.feature) →
        (∀ L ∈ levels, ∀ L' ∈ levels, L.sc = L'.sc → L.scale = L'.scale) →
        (∀ a, r.1[0]? = some a → ∃ bbs, a.input[k]? = some bbs ∧ bbs[l]? = some x) →
        ∃ shapes, Fitter.fitLoop id x levels = .ok shapes ∧ shapes.length = n ∧
          ∀ (j : Nat) (a : Scale Shape P (ℝ × ℝ)) (s : Shape), r.1[j]? = some a →
            shapes[j]? = some s →
            ∃ o b, a.output[k]? = some o ∧ o[l]? = some b ∧ boundingBox s = .ok b := by
  have hml : MovesLandmarks { ertOps lib pixels rescale with key := ertKey, align := id } unscale :=
    ⟨fun _ _ => rfl, fun j im im' t hr => (hm j im im' t hr).2⟩
  have hloop : (n = 0 ∧ r.1 = []) ∨ ∃ m batch, n = m + 1 ∧ ertLoop
      { ertOps lib pixels rescale with key := ertKey, align := id } group nPert m 0 batch
        = .ok r := by
    unfold trainErt at h
    split at h
    · cases h
    · cases n with
      | zero =>
        cases h
        exact .inl ⟨rfl, rfl⟩
      | succ n => exact .inr ⟨n, _, rfl, h⟩
  have c1 : r.1.length = n := by
    rcases hloop with ⟨e1, e2⟩ | ⟨m, batch, e1, e2⟩
    · rw [e1, e2, List.length_nil]
    · obtain ⟨a, tr, q1, q2, -⟩ := ertLoop_ok hml (ertOps_counts lib pixels rescale)
        (fun j k h => numbered_inj h) m 0 batch r e2
      rw [q1, e1, List.length_cons, q2]
  have hat : ∀ i a, r.1[i]? = some a → ∃ src, atScale
      { ertOps lib pixels rescale with key := ertKey, align := id } group nPert (0 + i) src
        = .ok a := by
    rcases hloop with ⟨-, e2⟩ | ⟨m, batch, -, e2⟩
    · simp [e2]
    · exact ert_scales m 0 batch r e2
  obtain ⟨models, l1, l2⟩ := exists_list (Q := Established lib pixels) r.1 0 (fun i a hi => by
    obtain ⟨src, hs⟩ := hat i a hi
    exact established hs)
  have hpos : ∀ a ∈ r.1, ∀ t ∈ a.transforms, 0 < t.1 ∧ 0 < t.2 := by
    intro a ha t ht
    obtain ⟨i, hi⟩ := List.mem_iff_getElem?.1 ha
    obtain ⟨src, hs⟩ := hat i a hi
    obtain ⟨scaled, s1, -, s3, -⟩ := atScale_ok hs
    rw [s3] at ht
    obtain ⟨p, hp, rfl⟩ := List.mem_map.1 ht
    obtain ⟨q, hq⟩ := List.mem_iff_getElem?.1 hp
    have hlen := mapM_length s1
    have hlt : q < src.length := by
      have := (List.getElem?_eq_some_iff.1 hq).1
      omega
    obtain ⟨y, hy1, hy2⟩ := mapM_get s1 q src[q] (by simp [hlt])
    rw [hq] at hy2
    cases hy2
    exact (hm _ _ _ _ hy1).1
  refine ⟨models, by rw [l1, c1], c1, ?_, ?_⟩
  · intro j a m ha hm'
    have := l2 j a m ha hm'
    rw [Nat.zero_add] at this
    exact this.1
  · intro F _ levels k l x hl hlt hL hF hS hx
    have hch : List.IsChain (CarriedAt scaleBy unscale k l) r.1 := by
      rcases hloop with ⟨-, e2⟩ | ⟨m, batch, -, e2⟩
      · simp [e2]
      · obtain ⟨a, tr, q1, -, -, q4⟩ := ertLoop_carried (k := k) hml
          (ertOps_counts lib pixels rescale) (fun j k h => numbered_inj h) hlt m 0 batch r e2
        rw [q1]
        exact q4
    rw [← c1]
    exact retrace (lib := lib) (pixels := pixels) 0 r.1 models levels x l1 (by rw [hl, c1]) l2 hL hF
      hS hpos hch (fun a ha => by
        obtain ⟨bbs, e1, e2⟩ := hx a ha
        exact ⟨bbs, x, e1, e2, rfl⟩)

/-- A predictor that returns two corners of the rectangle. -/
def cornerLib : Lib Nat Nat where
  train _ pixels _ := .ok pixels.length
  predict _ _ r := [⟨r.left, r.top⟩, ⟨r.right, r.bottom⟩]

/-- Every scale halves the image. -/
def halveIm (_ : Nat) (im : Im Shape Nat) : Except PyErr (Im Shape Nat × (ℝ × ℝ)) :=
  .ok (⟨im.lms.map fun x => (x.1, scaleBy ((2 : ℝ)⁻¹, (2 : ℝ)⁻¹) x.2), im.px⟩, (2, 2))

/-- Training with a predictor that always answers returns, and the hypotheses are met. -/
example : ∃ r, trainErt ⟨boundingBox, fun _ s => s⟩ (fun _ _ bb => .ok bb)
    (ertOps cornerLib id halveIm) "PTS" none 1 2 [⟨[("PTS", [(10, 20), (30, 60)])], 7⟩] = .ok r := by
  refine ⟨_, rfl⟩

example : ∀ j im im' t, halveIm j im = .ok (im', t) → (0 < t.1 ∧ 0 < t.2) ∧
    im'.lms = im.lms.map fun x => (x.1, scaleBy (t.1⁻¹, t.2⁻¹) x.2) := by
  intro j im im' t h
  unfold halveIm at h
  cases h
  exact ⟨⟨two_pos, two_pos⟩, rfl⟩

/-- There is a level for every image of a scale. -/
example (a : Scale Shape Nat (ℝ × ℝ)) (im : Im Shape Nat) (h1 : a.images[3]? = some im)
    (h2 : a.transforms[3]? = some (2, 2)) :
    ∃ L : Fitter.Level Shape Nat Unit Shape, LevelOf cornerLib id 3 a 5 L :=
  ⟨⟨(), 1, ⟨fun _ => none, im.px⟩, 1,
    ⟨scaleBy (2, 2), scaleBy (2⁻¹, 2⁻¹), fun s => by
      rw [scaleBy_scaleBy]
      norm_num [scaleBy_one], fun s => by
      rw [scaleBy_scaleBy]
      norm_num [scaleBy_one]⟩, none, 10, fun im s _ _ => runAlg cornerLib 5 im.px s⟩,
    ⟨im, h1, rfl⟩, ⟨(2, 2), h2, fun _ => rfl⟩, fun _ _ _ _ => rfl⟩

end

/-! ### C120 -/

/-- C120: except for the first line (the cascade depth), `str` prints at every scale what the
fitter was given, and these are the options its algorithm trains with. -/
theorem C120_printed_partial {A : Type} (hidden : String → Bool) (names : List String)
    (fresh : Options A) (a : ErtArgs A) (nIterations : A) :
    let s := newErtScale hidden names fresh a nIterations
    (printed s).tail = (givenOptions a nIterations).tail ∧
    s.alg.nIterations = nIterations ∧ s.alg.options "cascade_depth" = nIterations ∧
    ∀ name ∈ names, hidden name = false → name ≠ "cascade_depth" →
      s.alg.options name = s.template name := by
  refine ⟨?_, rfl, by simp [newErtScale, newAlg], ?_⟩
  · simp [printed, givenOptions, newErtScale, template]
  · intro name hn hh hc
    simp only [newErtScale, newAlg]
    rw [Function.update_of_ne hc, copyOptions_get, if_pos ⟨hn, hh⟩]

/-- C120 fails for the cascade depth: `str` always prints dlib's default, so it is wrong
whenever the number of iterations is not that default. -/
theorem C120_depth_violated {A : Type} (hidden : String → Bool) (names : List String)
    (fresh : Options A) (a : ErtArgs A) (nIterations : A) :
    let s := newErtScale hidden names fresh a nIterations
    (printed s).head? = some ("Cascade depth", fresh "cascade_depth") ∧
    (nIterations ≠ fresh "cascade_depth" →
      (printed s).head? ≠ some ("Cascade depth", s.alg.options "cascade_depth")) := by
  have e : (printed (newErtScale hidden names fresh a nIterations)).head? =
      some ("Cascade depth", fresh "cascade_depth") := by
    simp [printed, newErtScale, template]
  refine ⟨e, fun h => ?_⟩
  rw [e]
  simpa [newErtScale, newAlg] using fun h' => h h'.symm

example : ((printed (newErtScale (fun _ => false) ["cascade_depth", "nu"] (fun _ => 10)
    ⟨1, 400, 2, 3, 20, 500, 1, 5⟩ 15)).head?) = some ("Cascade depth", 10) ∧
    (newErtScale (fun _ => false) ["cascade_depth", "nu"] (fun _ => 10)
      ⟨1, 400, 2, 3, 20, 500, 1, 5⟩ 15).alg.options "cascade_depth" = 15 := by
  decide +kernel

end Menpofit
