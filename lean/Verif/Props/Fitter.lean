import Verif.Spec.Fitter
import Verif.Lemmas.Fitter
/-!
# Properties of the multi-scale fitter (C10–C13)
-/

namespace Menpofit
open Fitter Spec

variable {S P F R : Type}

/-! ## C10: the landmarks of the image survive a fit

Full statement: for every image, shapes, and every behaviour of the external
operations, the landmarks after the call equal those before it. -/

/-- **C10** fails on the exceptional exit: whenever the preparation raises, an image
that had no group `__initial_shape` has one afterwards. -/
theorem C10_landmarks_violated_on_error [DecidableEq F] (ext : Ext S P F) (final : R → S)
    (features : List F) (scales : List Rat) (algs : List (Algorithm S P R)) (image : Img S P)
    (init : S) (maxIters : Checks.MaxIters) (gt : Option S)
    (h0 : image.lm "__initial_shape" = none) (e : PyErr)
    (h : (prepareImage ext features scales image init gt).2 = .error e) :
    (fitFromShape ext final features scales algs image init maxIters gt).2 = .error e ∧
    (fitFromShape ext final features scales algs image init maxIters gt).1 "__initial_shape" =
      some init ∧
    (fitFromShape ext final features scales algs image init maxIters gt).1 ≠ image.lm := by
  have key : (fitFromShape ext final features scales algs image init maxIters gt).1
      "__initial_shape" = some init := by
    unfold fitFromShape
    unfold prepareImage at h ⊢
    simp only at h ⊢
    split at h
    · next e' h' =>
      simp only [h']
      cases gt <;> simp [attach]
    · cases h
  refine ⟨?_, key, ?_⟩
  · unfold fitFromShape; simp [h, bind, Except.bind]
  · intro h2; rw [h2, h0] at key; cases key

/-- A concrete fit that raises and leaves a landmark behind (the features raise). -/
example : ∃ (ext : Ext Nat Unit Nat) (image : Img Nat Unit),
    image.lm "__initial_shape" = none ∧
    (prepareImage ext [0] [1] image 7 none).2 = .error .valueError :=
  ⟨⟨fun i => .ok i, fun _ _ => .error .valueError, fun _ _ => .ok 1, fun i _ => .ok (i, 1)⟩,
   ⟨fun _ => none, ()⟩, rfl, rfl⟩

/-- **C10** also fails for an image that already has a group with the reserved
name: a successful fit deletes it. -/
theorem C10_landmarks_violated_reserved [DecidableEq F] (ext : Ext S P F) (final : R → S)
    (features : List F) (scales : List Rat) (algs : List (Algorithm S P R)) (image : Img S P)
    (init old : S) (maxIters : Checks.MaxIters) (gt : Option S)
    (h0 : image.lm "__initial_shape" = some old) (p : Prepared S P)
    (h : (prepareImage ext features scales image init gt).2 = .ok p) :
    (fitFromShape ext final features scales algs image init maxIters gt).1 "__initial_shape" =
      none ∧
    (fitFromShape ext final features scales algs image init maxIters gt).1 ≠ image.lm := by
  have key : (fitFromShape ext final features scales algs image init maxIters gt).1
      "__initial_shape" = none := by
    unfold fitFromShape
    unfold prepareImage at h ⊢
    simp only at h ⊢
    split at h
    · cases h
    · next r h' =>
      simp only [h']
      cases gt <;> simp [attach, detach]
  exact ⟨key, by intro h2; rw [h2, h0] at key; cases key⟩

/-- **C10** (partial: only when the preparation of the image does not raise and
the image has no groups with the two reserved names).  The landmarks after the
call equal those before it, whether the per-scale algorithms return or raise. -/
theorem C10_landmarks_partial [DecidableEq F] (ext : Ext S P F) (final : R → S)
    (features : List F) (scales : List Rat) (algs : List (Algorithm S P R)) (image : Img S P)
    (init : S) (maxIters : Checks.MaxIters) (gt : Option S)
    (h0 : image.lm "__initial_shape" = none)
    (h1 : gt ≠ none → image.lm "__gt_shape" = none) (p : Prepared S P)
    (h : (prepareImage ext features scales image init gt).2 = .ok p) :
    (fitFromShape ext final features scales algs image init maxIters gt).1 = image.lm := by
  funext g
  unfold fitFromShape
  unfold prepareImage at h ⊢
  simp only at h ⊢
  split at h
  · cases h
  · next r h' =>
    simp only [h']
    cases gt with
    | none =>
      simp only [attach, detach]
      by_cases hg : g = "__initial_shape"
      · subst hg; simp [h0]
      · simp [hg]
    | some g0 =>
      have h1 := h1 (by simp)
      simp only [attach, detach]
      by_cases hg : g = "__gt_shape"
      · subst hg; simp [h1]
      · by_cases hg' : g = "__initial_shape"
        · subst hg'; simp [h0]
        · simp [hg, hg']

/-- Operations that act trivially, for the non-vacuity examples. -/
def plainExt : Ext Nat Unit Nat :=
  ⟨fun i => .ok i, fun _ i => .ok i, fun _ _ => .ok 1, fun i _ => .ok (i, 1)⟩

example : ∃ (image : Img Nat Unit) (p : Prepared Nat Unit),
    image.lm "__initial_shape" = none ∧ image.lm "__gt_shape" = none ∧
    image.lm "PTS" = some 3 ∧
    (prepareImage plainExt [0, 1] [1/2, 1] image 7 (some 8)).2 = .ok p := by
  obtain ⟨p, h, _⟩ := ok_of_eval (prepareImage plainExt [0, 1] [1/2, 1]
    ⟨fun g => if g = "PTS" then some 3 else none, ()⟩ 7 (some 8)).2 (fun _ => true)
    (by decide +kernel)
  exact ⟨⟨fun g => if g = "PTS" then some 3 else none, ()⟩, p, by decide, by decide, by decide, h⟩

/-! ## C12: the transforms of a scale undo its rescaling and features

The laws assumed of menpo: an alignment maps its source onto its target (the
landmarks move affinely), and the transform returned by `rescale` maps the
landmarks of the rescaled image back to those of the original one. -/

/-- The geometric laws of the external operations. -/
structure Geometric (ext : Ext S P F) : Prop where
  align : ∀ s t a, ext.align s t = .ok a → a s = t
  rescale : ∀ im sc im' t, ext.rescale im sc = .ok (im', t) →
    ∀ g, im.lm g = (im'.lm g).map t

/-- **C12** (partial: lists of features in which only the first feature is
repeated consecutively; the full statement is for every list).  Every per-scale
list has one entry per scale, and the initial shape found at each scale is
mapped to the shape supplied by the user. -/
theorem C12_transforms_undo_partial [DecidableEq F] (ext : Ext S P F) (hg : Geometric ext)
    (features : List F) (scales : List Rat) (hlen : features.length = scales.length)
    (hrep : RepeatsOnlyFirst features) (image : Img S P) (init : S) (gt : Option S)
    (p : Prepared S P) (h : (prepareImage ext features scales image init gt).2 = .ok p) :
    p.images.length = scales.length ∧ p.initialShapes.length = scales.length ∧
    p.affine.length = scales.length ∧ p.scale.length = scales.length ∧
    ∀ i, i < scales.length → ∃ s a t, p.initialShapes[i]? = some s ∧ p.affine[i]? = some a ∧
      p.scale[i]? = some t ∧ toImage a t s = init := by
  obtain ⟨image', hb⟩ := prepareImage_ok ext features scales image init gt p h
  obtain ⟨tmp, -, hinv, hil, his, -, -⟩ := prepBody_spec ext features scales image' init gt p hb
  have hz : (features.zip scales).length = scales.length := by simp [hlen]
  refine ⟨by rw [← hz]; exact hinv.li, by rw [hil, ← hz]; exact hinv.li,
    by rw [← hz]; exact hinv.la, by rw [← hz]; exact hinv.ls, ?_⟩
  intro i hi
  have hget : ∀ j, (hj : j < scales.length) → (features.zip scales)[j]? =
      some (features[j]'(by omega), scales[j]) := by
    intro j hj
    rw [List.getElem?_eq_getElem (by omega)]; simp
  obtain ⟨fi, im, a, t, h1, h2, h3, h4, h5, h6⟩ := hinv.each i _ _ (hget i hi)
  obtain ⟨s, h7, h8⟩ := his i im h1
  refine ⟨s, a, t, h7, h2, h3, ?_⟩
  -- the scale transform brings `s` back to the landmarks of the feature image
  have hsrc : fi.lm "__initial_shape" = some (t s) := by
    unfold scaleStep at h5
    split at h5
    · have := hg.rescale _ _ _ _ h5 "__initial_shape"
      rw [this, h8]; rfl
    · injection h5 with h5
      obtain ⟨rfl, rfl⟩ := Prod.mk.inj h5
      simpa using h8
  -- the affine transform is an alignment of the landmarks of the same feature
  have hal : AlignsWith ext fi init a := by
    rcases h6 with ⟨-, h6⟩ | ⟨⟨h61, sc', h62⟩, h63⟩
    · exact h6
    · obtain ⟨k, rfl⟩ : ∃ k, i = k + 1 := ⟨i - 1, by omega⟩
      have hk : features[k]? = some (features[k + 1]'(by omega)) := by
        have := hget k (by omega)
        rw [Nat.add_sub_cancel, this] at h62
        injection h62 with h62
        rw [List.getElem?_eq_getElem (by omega), (Prod.mk.inj h62).1]
      have h0 := hrep k _ hk (List.getElem?_eq_getElem (by omega))
      have h0' : features[0]'(by omega) = features[k + 1]'(by omega) := by
        rw [List.getElem?_eq_getElem (by omega)] at h0; exact Option.some.inj h0
      obtain ⟨fi0, im0, a0, t0, -, g2, -, g4, -, g6⟩ := hinv.each 0 _ _ (hget 0 (by omega))
      rw [h0', h4] at g4
      injection g4 with g4
      rcases g6 with ⟨-, g6⟩ | ⟨⟨g6, -⟩, -⟩
      · rw [g2] at h63; injection h63 with h63
        rw [g4, ← h63]; exact g6
      · omega
  obtain ⟨src, h9, h10⟩ := hal
  rw [hsrc] at h9
  injection h9 with h9
  unfold toImage
  rw [h9]
  exact hg.align _ _ _ h10

/-- One-coordinate shapes: feature `0` leaves the image alone, every other feature
`k` shifts it by `k` (a filter with border), rescaling multiplies coordinates,
and the alignment is the translation. -/
def shiftExt : Ext Rat Unit Nat where
  rescaleToRef i := .ok i
  feature k i := .ok ⟨fun g => (i.lm g).map (· + k), ()⟩
  align s t := .ok (Equiv.addRight (t - s))
  rescale i c :=
    if h : c = 0 then .error .valueError
    else .ok (⟨fun g => (i.lm g).map (c * ·), ()⟩, Equiv.mulLeft₀ c⁻¹ (inv_ne_zero h))

theorem shiftExt_geometric : Geometric shiftExt where
  align s t a h := by
    injection h with h; subst h; simp
  rescale im sc im' t h g := by
    unfold shiftExt at h
    simp only at h
    split at h
    · cases h
    · next hc =>
      injection h with h
      obtain ⟨rfl, rfl⟩ := Prod.mk.inj h
      cases hh : im.lm g <;> simp [hc, hh]

/-- The image without landmarks. -/
def bareImage : Img Rat Unit := ⟨fun _ => none, ()⟩

/-- **C12** fails: with features `[f, g, g]` the third scale reports the affine
transform of the first, and the initial shape `0` is mapped to `1`. -/
theorem C12_transforms_undo_violated : ∃ p : Prepared Rat Unit,
    (prepareImage shiftExt [0, 1, 1] [1/4, 1/2, 1] bareImage 0 none).2 = .ok p ∧
    inImage p.affine p.scale p.initialShapes 2 = some 1 := by
  obtain ⟨p, h1, h2⟩ := ok_of_eval (prepareImage shiftExt [0, 1, 1] [1/4, 1/2, 1] bareImage 0 none).2
    (fun p => decide (inImage p.affine p.scale p.initialShapes 2 = some 1)) (by decide +kernel)
  exact ⟨p, h1, of_decide_eq_true h2⟩

example : RepeatsOnlyFirst [0, 0, 1, 2] ∧
    ∃ p, (prepareImage shiftExt [0, 0, 1, 2] [1/4, 1/2, 1, 1] bareImage 5 none).2 = .ok p := by
  refine ⟨?_, ?_⟩
  · intro i f h1 h2
    match i with
    | 0 => exact h1
    | 1 => simp at h1 h2; omega
    | 2 => simp at h1 h2; omega
    | 3 => simp at h2
    | k + 4 => simp at h1
  · obtain ⟨p, h, _⟩ := ok_of_eval (prepareImage shiftExt [0, 0, 1, 2] [1/4, 1/2, 1, 1]
      bareImage 5 none).2 (fun _ => true) (by decide +kernel)
    exact ⟨p, h⟩

/-! ## C13: one run per scale, in order -/

/-- **C13**.  A fit that returns has run the algorithm of every scale exactly once:
result `i` is what algorithm `i` returns on image `i` with ground truth `i` (none
if none was given) and iteration budget `i`.  The first run starts at the
initial shape found on the first prepared image, every later run at the previous
final shape carried to its scale. -/
theorem C13_every_scale_runs [DecidableEq F] (ext : Ext S P F) (final : R → S)
    (features : List F) (scales : List Rat) (algs : List (Algorithm S P R)) (image : Img S P)
    (init : S) (maxIters : Checks.MaxIters) (gt : Option S) (p : Prepared S P) (rs : List R)
    (hf : features.length = scales.length) (ha : algs.length = scales.length)
    (h : (fitFromShape ext final features scales algs image init maxIters gt).2 = .ok (p, rs)) :
    rs.length = scales.length ∧ (gt = none → p.gtShapes = none) ∧
    ∃ (iters : List Int) (starts : Nat → S),
      Checks.checkMaxIters maxIters scales.length = .ok iters ∧
      p.initialShapes[0]? = some (starts 0) ∧
      ∀ i, i < scales.length → ∃ alg im it r,
        algs[i]? = some alg ∧ p.images[i]? = some im ∧ iters[i]? = some it ∧ rs[i]? = some r ∧
        alg im (starts i) (gtOf p.gtShapes i) it = .ok r ∧
        (i + 1 < scales.length → ∃ f f' sc sc' a a' t t',
          features[i]? = some f ∧ features[i + 1]? = some f' ∧
          scales[i]? = some sc ∧ scales[i + 1]? = some sc' ∧
          p.affine[i]? = some a ∧ p.affine[i + 1]? = some a' ∧
          p.scale[i]? = some t ∧ p.scale[i + 1]? = some t' ∧
          HandedOver f f' sc sc' a a' t t' (final r) (starts (i + 1))) := by
  obtain ⟨hp, iters, s0, hit, hs0, hloop⟩ :=
    fitFromShape_ok ext final features scales algs image init maxIters gt p rs h
  obtain ⟨image', hb⟩ := prepareImage_ok ext features scales image init gt p hp
  obtain ⟨tmp, -, hinv, -, -, hg0, hg1⟩ := prepBody_spec ext features scales image' init gt p hb
  have hz : (features.zip scales).length = scales.length := by simp [hf]
  have l1 : p.images.length = scales.length := by rw [← hz]; exact hinv.li
  have l2 : p.affine.length = scales.length := by rw [← hz]; exact hinv.la
  have l3 : p.scale.length = scales.length := by rw [← hz]; exact hinv.ls
  have l4 := checkMaxIters_length _ _ _ hit
  have l5 : ∀ l, p.gtShapes = some l → l.length = scales.length := by
    intro l hl
    cases gt with
    | none => rw [hg0 rfl] at hl; cases hl
    | some g =>
      obtain ⟨l', h1, h2⟩ := hg1 (by simp)
      rw [hl] at h1; injection h1 with h1; rw [h1, h2, l1]
  obtain ⟨hlen, hget⟩ := mkLevels_get features scales p.images p.affine p.scale p.gtShapes iters
    algs scales.length hf rfl l1 l2 l3 l5 l4 ha
  obtain ⟨hr, starts, hst, htr⟩ := fitLoop_trace final _ s0 rs hloop
  refine ⟨by rw [hr, hlen], hg0, iters, starts, hit, by rw [hst]; exact hs0, ?_⟩
  intro i hi
  obtain ⟨r, h1, h2, h3⟩ := htr i _ (hget i hi)
  refine ⟨_, _, _, r, List.getElem?_eq_getElem (by omega), List.getElem?_eq_getElem (by omega),
    List.getElem?_eq_getElem (by omega), h1, h2, ?_⟩
  intro hi'
  have h4 := h3 _ (hget (i + 1) hi')
  refine ⟨_, _, _, _, _, _, _, _, List.getElem?_eq_getElem (by omega),
    List.getElem?_eq_getElem (by omega), List.getElem?_eq_getElem (by omega),
    List.getElem?_eq_getElem (by omega), List.getElem?_eq_getElem (by omega),
    List.getElem?_eq_getElem (by omega), List.getElem?_eq_getElem (by omega),
    List.getElem?_eq_getElem (by omega), ?_⟩
  rw [h4]
  unfold carry
  refine ⟨?_, ?_, ?_⟩
  · intro hne
    rw [if_pos (Ne.symm hne)]; rfl
  · intro he hs
    rw [if_neg (by simpa using he.symm), if_pos ⟨he.symm, hs⟩]; rfl
  · intro he hs
    rw [if_neg (by simpa using he.symm), if_neg (by rintro ⟨-, h⟩; exact h hs)]

/-- **C13** (exceptions).  If the preparation and the budgets succeed, a fit raises only
what some per-scale algorithm raised. -/
theorem C13_errors_come_from_algorithms [DecidableEq F] (ext : Ext S P F) (final : R → S)
    (features : List F) (scales : List Rat) (algs : List (Algorithm S P R)) (image : Img S P)
    (init : S) (maxIters : Checks.MaxIters) (gt : Option S) (p : Prepared S P)
    (iters : List Int) (e : PyErr) (hf : features.length = scales.length)
    (ha : algs.length = scales.length) (hn : 1 ≤ scales.length)
    (hp : (prepareImage ext features scales image init gt).2 = .ok p)
    (hi : Checks.checkMaxIters maxIters scales.length = .ok iters)
    (h : (fitFromShape ext final features scales algs image init maxIters gt).2 = .error e) :
    ∃ alg ∈ algs, ∃ im s g n, alg im s g n = .error e := by
  obtain ⟨image', hb⟩ := prepareImage_ok ext features scales image init gt p hp
  obtain ⟨tmp, -, hinv, hil, his, hg0, hg1⟩ :=
    prepBody_spec ext features scales image' init gt p hb
  have hz : (features.zip scales).length = scales.length := by simp [hf]
  have l1 : p.images.length = scales.length := by rw [← hz]; exact hinv.li
  have l2 : p.affine.length = scales.length := by rw [← hz]; exact hinv.la
  have l3 : p.scale.length = scales.length := by rw [← hz]; exact hinv.ls
  have l4 := checkMaxIters_length _ _ _ hi
  have l5 : ∀ l, p.gtShapes = some l → l.length = scales.length := by
    intro l hl
    cases gt with
    | none => rw [hg0 rfl] at hl; cases hl
    | some g =>
      obtain ⟨l', h1, h2⟩ := hg1 (by simp)
      rw [hl] at h1; injection h1 with h1; rw [h1, h2, l1]
  obtain ⟨hlen, hget⟩ := mkLevels_get features scales p.images p.affine p.scale p.gtShapes iters
    algs scales.length hf rfl l1 l2 l3 l5 l4 ha
  unfold fitFromShape at h
  cases hi0 : p.initialShapes with
  | nil => rw [hi0] at hil; simp at hil; omega
  | cons s0 ss =>
    cases h4 : fitLoop final s0
        (mkLevels features scales p.images p.affine p.scale p.gtShapes iters algs) with
    | ok rs => simp [hp, hi, hi0, h4, bind, Except.bind, pure, Except.pure] at h
    | error e' =>
      have : e' = e := by simpa [hp, hi, hi0, h4, bind, Except.bind] using h
      subst this
      obtain ⟨i, l, s, h5, h6⟩ := fitLoop_error final _ s0 e' h4
      have hil : i < scales.length := by
        rw [← hlen]; exact (List.getElem?_eq_some_iff.mp h5).1
      rw [hget i hil] at h5
      injection h5 with h5; subst h5
      exact ⟨_, List.getElem_mem _, _, _, _, _, h6⟩

/-- Two scales, two different features, algorithms that add `1` and `2`. -/
example : ∃ p rs, (fitFromShape shiftExt (fun r : Rat => r) [0, 1] [1/2, 1]
    [fun _ s _ _ => .ok (s + 1), fun _ s _ _ => .ok (s + 2)] bareImage 10 (.int 10)
    (some 12)).2 = .ok (p, rs) ∧ rs = [6, 15] := by
  obtain ⟨⟨p, rs⟩, h1, h2⟩ := ok_of_eval (fitFromShape shiftExt (fun r : Rat => r) [0, 1] [1/2, 1]
    [fun _ s _ _ => .ok (s + 1), fun _ s _ _ => .ok (s + 2)] bareImage 10 (.int 10)
    (some 12)).2 (fun q => decide (q.2 = [6, 15])) (by decide +kernel)
  exact ⟨p, rs, h1, of_decide_eq_true h2⟩

/-! ## C11: no jump between scales -/

/-- **C11** (partial: lists in which only the first feature is repeated
consecutively, and where the features change the affine transform commutes with
the scale transform – e.g. features that do not translate the image).  The shape
a scale starts from is, in the original image, the shape the previous scale
ended with. -/
theorem C11_no_jump_partial [DecidableEq F] (ext : Ext S P F) (final : R → S)
    (features : List F) (scales : List Rat) (algs : List (Algorithm S P R)) (image : Img S P)
    (init : S) (maxIters : Checks.MaxIters) (gt : Option S) (p : Prepared S P) (rs : List R)
    (hf : features.length = scales.length) (ha : algs.length = scales.length)
    (hrep : RepeatsOnlyFirst features)
    (hcomm : ∀ (i : Nat) f f' a t, features[i]? = some f → features[i + 1]? = some f' →
      f ≠ f' → p.affine[i]? = some a → p.scale[i]? = some t → a * t = t * a)
    (h : (fitFromShape ext final features scales algs image init maxIters gt).2 = .ok (p, rs)) :
    ∃ (starts : Nat → S), p.initialShapes[0]? = some (starts 0) ∧
      ∀ i, i < scales.length → ∃ alg im it r a t, algs[i]? = some alg ∧
        p.images[i]? = some im ∧ alg im (starts i) (gtOf p.gtShapes i) it = .ok r ∧
        rs[i]? = some r ∧ p.affine[i]? = some a ∧ p.scale[i]? = some t ∧
        (i + 1 < scales.length → ∃ a' t', p.affine[i + 1]? = some a' ∧
          p.scale[i + 1]? = some t' ∧
          toImage a' t' (starts (i + 1)) = toImage a t (final r)) := by
  obtain ⟨-, -, iters, starts, -, hs0, htr⟩ := C13_every_scale_runs ext final features scales algs
    image init maxIters gt p rs hf ha h
  obtain ⟨hp, -⟩ := fitFromShape_ok ext final features scales algs image init maxIters gt p rs h
  obtain ⟨image', hb⟩ := prepareImage_ok ext features scales image init gt p hp
  obtain ⟨tmp, -, hinv, -, -, -, -⟩ := prepBody_spec ext features scales image' init gt p hb
  have hz : (features.zip scales).length = scales.length := by simp [hf]
  have l2 : p.affine.length = scales.length := by rw [← hz]; exact hinv.la
  have l3 : p.scale.length = scales.length := by rw [← hz]; exact hinv.ls
  have hget : ∀ j, (hj : j < scales.length) → (features.zip scales)[j]? =
      some (features[j]'(by omega), scales[j]) := by
    intro j hj
    rw [List.getElem?_eq_getElem (by omega)]; simp
  refine ⟨starts, hs0, ?_⟩
  intro i hi
  obtain ⟨alg, im, it, r, h1, h2, -, h4, h5, h6⟩ := htr i hi
  refine ⟨alg, im, it, r, _, _, h1, h2, h5, h4, List.getElem?_eq_getElem (by omega),
    List.getElem?_eq_getElem (by omega), ?_⟩
  intro hi'
  obtain ⟨f, f', sc, sc', a, a', t, t', g1, g2, g3, g4, g5, g6, g7, g8, hover⟩ := h6 hi'
  refine ⟨a', t', g6, g8, ?_⟩
  have ea : p.affine[i]'(by omega) = a := by
    rw [List.getElem?_eq_getElem (by omega)] at g5; exact Option.some.inj g5
  have et : p.scale[i]'(by omega) = t := by
    rw [List.getElem?_eq_getElem (by omega)] at g7; exact Option.some.inj g7
  rw [ea, et]
  obtain ⟨o1, o2, o3⟩ := hover
  unfold toImage
  by_cases hff : f = f'
  · subst hff
    -- both scales use the first feature: same affine transform, same feature image
    have h0 := hrep i f g1 g2
    have aff0 : ∀ j, (hj : j < scales.length) → features[j]'(by omega) = f →
        p.affine[j]? = p.affine[0]? ∧ ∃ fi im t, ext.feature f tmp = .ok fi ∧
          scaleStep ext fi scales[j] = .ok (im, t) ∧ p.scale[j]? = some t := by
      intro j hj hfj
      obtain ⟨fi, im, b, u, k1, k2, k3, k4, k5, k6⟩ := hinv.each j _ _ (hget j hj)
      rw [hfj] at k4
      refine ⟨?_, fi, im, u, k4, k5, k3⟩
      rcases k6 with ⟨-, src, k7, k8⟩ | ⟨-, k6⟩
      · have h00 : features[0]'(by omega) = f := by
          rw [List.getElem?_eq_getElem (by omega)] at h0; exact Option.some.inj h0
        obtain ⟨fi0, im0, b0, u0, -, m2, -, m4, -, m6⟩ := hinv.each 0 _ _ (hget 0 (by omega))
        rw [h00, k4] at m4; injection m4 with m4
        rcases m6 with ⟨-, src', m7, m8⟩ | ⟨⟨m6, -⟩, -⟩
        · rw [← m4, k7] at m7; injection m7 with m7
          rw [← m7, k8] at m8; injection m8 with m8
          simp only at k2 m2
          rw [k2, m2, m8]
        · omega
      · simp only at k2 k6
        rw [k2, k6]
    have e1 : features[i]'(by omega) = f := by
      rw [List.getElem?_eq_getElem (by omega)] at g1; exact Option.some.inj g1
    have e2 : features[i + 1]'(by omega) = f := by
      rw [List.getElem?_eq_getElem (by omega)] at g2; exact Option.some.inj g2
    obtain ⟨q1, fi, im1, t1, q2, q3, q4⟩ := aff0 i hi e1
    obtain ⟨q1', fi', im2, t2, q2', q3', q4'⟩ := aff0 (i + 1) hi' e2
    have haa : a' = a := by
      rw [g5] at q1; rw [g6] at q1'; rw [← q1] at q1'; exact Option.some.inj q1'
    subst haa
    by_cases hsc : sc = sc'
    · have e3 : scales[i] = scales[i + 1] := by
        rw [List.getElem?_eq_getElem (by omega)] at g3 g4
        rw [Option.some.inj g3, Option.some.inj g4, hsc]
      have htt : t' = t := by
        rw [q2] at q2'; injection q2' with q2'
        subst q2'
        rw [← e3, q3] at q3'; injection q3' with q3'
        have := (Prod.mk.inj q3').2
        rw [g7] at q4; rw [g8] at q4'
        rw [Option.some.inj q4, Option.some.inj q4', this]
      rw [o3 rfl hsc, htt]
    · rw [o2 rfl hsc]; simp
  · have hc := hcomm i f f' a t g1 g2 hff g5 g7
    rw [o1 hff]
    simp only [Equiv.apply_symm_apply]
    exact (congrArg (fun e : Equiv.Perm S => e (final r)) hc).symm

/-- **C11** fails when the features change and translate the image: algorithms that
return their start unchanged nevertheless move the shape.  The user supplies the
shape `0`; the second scale (whose transforms are the identity) starts at `-1`. -/
theorem C11_no_jump_violated : ∃ (p : Prepared Rat Unit) (rs : List Rat),
    (fitFromShape shiftExt (fun r : Rat => r) [1, 0] [1/2, 1]
      [fun _ s _ _ => .ok s, fun _ s _ _ => .ok s] bareImage 0 (.int 10) none).2 = .ok (p, rs) ∧
    inImage p.affine p.scale rs 0 = some 0 ∧ inImage p.affine p.scale rs 1 = some (-1) := by
  obtain ⟨⟨p, rs⟩, h1, h2⟩ := ok_of_eval (fitFromShape shiftExt (fun r : Rat => r) [1, 0] [1/2, 1]
      [fun _ s _ _ => .ok s, fun _ s _ _ => .ok s] bareImage 0 (.int 10) none).2
    (fun q => decide (inImage q.1.affine q.1.scale q.2 0 = some 0 ∧
      inImage q.1.affine q.1.scale q.2 1 = some (-1))) (by decide +kernel)
  exact ⟨p, rs, h1, of_decide_eq_true h2⟩

/-- Hypotheses of the partial theorem: three scales, one feature that shifts. -/
example : ∃ p rs, RepeatsOnlyFirst [3, 3, 3] ∧
    (fitFromShape shiftExt (fun r : Rat => r) [3, 3, 3] [1/4, 1/2, 1]
      [fun _ s _ _ => .ok (s + 1), fun _ s _ _ => .ok s, fun _ s _ _ => .ok s]
      bareImage 0 (.int 30) none).2 = .ok (p, rs) ∧
    (∀ (i : Nat) f f' a t, [3, 3, 3][i]? = some f → [3, 3, 3][i + 1]? = some f' →
      f ≠ f' → p.affine[i]? = some a → p.scale[i]? = some t → a * t = t * a) := by
  have h3 : ∀ (i f : Nat), [3, 3, 3][i]? = some f → f = 3 := by
    intro i f h
    match i with
    | 0 => simpa using h.symm
    | 1 => simpa using h.symm
    | 2 => simpa using h.symm
    | k + 3 => simp at h
  obtain ⟨⟨p, rs⟩, h1, _⟩ := ok_of_eval (fitFromShape shiftExt (fun r : Rat => r) [3, 3, 3]
      [1/4, 1/2, 1] [fun _ s _ _ => .ok (s + 1), fun _ s _ _ => .ok s, fun _ s _ _ => .ok s]
      bareImage 0 (.int 30) none).2 (fun _ => true) (by decide +kernel)
  refine ⟨p, rs, ?_, h1, ?_⟩
  · intro i f h _; rw [h3 i f h]; rfl
  · intro i f f' a t h1 h2 hne; exact absurd ((h3 i f h1).trans (h3 _ f' h2).symm) hne

end Menpofit
