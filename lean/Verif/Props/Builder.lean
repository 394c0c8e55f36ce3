import Verif.Spec.Builder
import Verif.Model.Builder
import Verif.Lemmas.Error
import Verif.Lemmas.Training
/-!
# C50, C85: the reference shape and the per-image training helpers
-/

namespace Menpofit
open Builder Spec Error

/-- C50 (no diagonal): the reference shape is the mean of the shapes. -/
theorem C50_mean {n : Nat} (shapes : List (Shape n 2)) (h : shapes ≠ []) :
    ∃ m, computeReferenceShape shapes none = .ok m ∧ IsMeanOf shapes m := by
  have hl : shapes.length ≠ 0 := by simpa using h
  refine ⟨fun i j => (shapes.map fun s => s i j).sum / shapes.length, ?_, fun i j => ?_⟩
  · simp only [computeReferenceShape, meanShape, if_neg hl]; rfl
  · exact mul_div_cancel₀ _ (Nat.cast_ne_zero.2 hl)

/-- C50 (diagonal): the reference shape is a positive multiple of the mean, and its bounding box
has exactly the requested diagonal. -/
theorem C50_diagonal {n : Nat} (shapes : List (Shape n 2)) (d : ℝ) (hd : 0 < d) (m : Shape n 2)
    (hn : n ≠ 0) (h : shapes ≠ []) (hm : IsMeanOf shapes m) (hz : diagonalLength m ≠ 0) :
    ∃ r, computeReferenceShape shapes (some d) = .ok r ∧ diagonalLength r = d ∧
      ∃ c : ℝ, 0 < c ∧ ∀ i j, r i j = c * m i j := by
  have hl : shapes.length ≠ 0 := by simpa using h
  have hmm : meanShape shapes = .ok m := by
    unfold meanShape
    rw [if_neg hl]
    congr 1
    funext i j
    rw [← hm i j, mul_div_cancel_left₀ _ (Nat.cast_ne_zero.2 hl)]
  have hp : 0 < diagonalLength m := lt_of_le_of_ne (Real.sqrt_nonneg _) (Ne.symm hz)
  have hb : bbSides m = .ok (extent m 0, extent m 1) := by
    unfold bbSides; rw [if_neg hn, dif_pos rfl]; rfl
  have hc : 0 < d / diagonalLength m := div_pos hd hp
  refine ⟨fun i j => d / diagonalLength m * m i j, ?_, ?_, _, hc, fun i j => rfl⟩
  · simp only [computeReferenceShape, hmm, bind, Except.bind, if_neg hd.ne', hb]; rfl
  · have e : ∀ j, extent (fun i j => d / diagonalLength m * m i j) j =
        d / diagonalLength m * extent m j := by
      intro j
      have := extent_similar hn m (d / diagonalLength m) hc 0 j
      simpa using this
    show Real.sqrt (extent (fun i j => d / diagonalLength m * m i j) 0 ^ 2 +
      extent (fun i j => d / diagonalLength m * m i j) 1 ^ 2) = d
    rw [e, e, mul_pow, mul_pow, ← mul_add, Real.sqrt_mul (sq_nonneg _), Real.sqrt_sq hc.le]
    exact div_mul_cancel₀ _ hz

/-- C50: the order of the shapes does not matter, and no shapes raise. -/
theorem C50_order {n : Nat} (s t : List (Shape n 2)) (h : s.Perm t) (d : Option ℝ) :
    computeReferenceShape s d = computeReferenceShape t d ∧
    computeReferenceShape ([] : List (Shape n 2)) d = .error .zeroDivisionError := by
  constructor
  · have : meanShape s = meanShape t := by
      unfold meanShape
      rw [h.length_eq]
      congr 1
      congr 1
      funext i j
      rw [(h.map fun s => s i j).sum_eq]
    unfold computeReferenceShape
    rw [this]
  · rfl

/-- Two shapes of two points whose mean has a bounding box of 3 by 4. -/
example : ∃ (shapes : List (Shape 2 2)) (m : Shape 2 2), shapes.length = 2 ∧ IsMeanOf shapes m ∧
    diagonalLength m = 5 := by
  refine ⟨[fun i j => if i = 0 then 0 else if j = 0 then 2 else 4,
    fun i j => if i = 0 then 0 else 4], fun i j => if i = 0 then 0 else if j = 0 then 3 else 4,
    rfl, ?_, ?_⟩
  · intro i j
    fin_cases i <;> fin_cases j <;> norm_num
  · have h0 : extent (fun i j => if i = 0 then (0 : ℝ) else if j = 0 then 3 else 4 : Shape 2 2) 0
        = 3 := by
      unfold extent; simp [Stats.npMax, Stats.npMin, List.ofFn_succ]
    have h1 : extent (fun i j => if i = 0 then (0 : ℝ) else if j = 0 then 3 else 4 : Shape 2 2) 1
        = 4 := by
      unfold extent; simp [Stats.npMax, Stats.npMin, List.ofFn_succ]
    unfold diagonalLength
    rw [h0, h1, show (3 : ℝ) ^ 2 + 4 ^ 2 = 5 ^ 2 by norm_num, Real.sqrt_sq (by norm_num)]

/-! ## C85 -/

/-- C85 (`scale_images`): a scale within the tolerance of one returns the images themselves with
unit transforms; otherwise each image is rescaled on its own, in order, and the variant with
transforms returns the same images. -/
theorem C85_scale_images {Im T : Type} (rescale : Im → Except PyErr (Im × T)) (unit : Im → T)
    (images : List Im) (scale : Rat) (h : images ≠ []) :
    (|scale - 1| ≤ 1 / 10 ^ 8 + 1 / 10 ^ 5 →
      scaleImages rescale images scale = .ok images ∧
      ∃ u, scaleImagesT rescale unit images scale = .ok (images, List.replicate images.length u)) ∧
    (1 / 10 ^ 8 + 1 / 10 ^ 5 < |scale - 1| → ∀ out ts,
      scaleImagesT rescale unit images scale = .ok (out, ts) →
      scaleImages rescale images scale = .ok out ∧ out.length = images.length ∧
      ts.length = images.length ∧
      ∀ k : Nat, ∀ i, images[k]? = some i → ∃ i' t, rescale i = .ok (i', t) ∧
        out[k]? = some i' ∧ ts[k]? = some t) := by
  constructor
  · intro hs
    have e : allcloseOne scale = true := by simpa [allcloseOne] using hs
    obtain ⟨i, is, rfl⟩ := List.exists_cons_of_ne_nil h
    exact ⟨by simp [scaleImages, e], unit i, by simp [scaleImagesT, e]⟩
  · intro hs out ts ho
    have e : allcloseOne scale = false := by
      simp only [allcloseOne, decide_eq_false_iff_not, not_le]; exact hs
    simp only [scaleImagesT, e] at ho
    obtain ⟨r, hr, ho⟩ := bind_ok ho
    injection ho with ho
    injection ho with h1 h2
    subst h1 h2
    have hlen := mapM_length hr
    refine ⟨?_, by rw [List.length_map, hlen], by rw [List.length_map, hlen], ?_⟩
    · simp only [scaleImages, e]
      exact mapM_map_ok Prod.fst hr
    · intro k i hi
      obtain ⟨b, hb, hk⟩ := mapM_get hr k i hi
      exact ⟨b.1, b.2, hb, by rw [List.getElem?_map, hk]; rfl, by rw [List.getElem?_map, hk]; rfl⟩

example : scaleImagesT (fun i : Nat => .ok (i / 2, i)) (fun _ => 0) [8, 6] (1 / 2) =
    .ok ([4, 3], [8, 6]) := by decide +kernel

/-- C85 (`warp_images`): although one transform object is re-targeted for all images, image `k` is
warped as if by a fresh transform targeted at shape `k`, provided re-targeting forgets the
previous target. -/
theorem C85_warp_images {W S Im : Type} (t : Retarget W S Im)
    (hf : ∀ w v s, t.setTarget w s = t.setTarget v s) (images : List Im) (shapes : List S)
    (hl : images.length = shapes.length) (out : List Im) (ho : warpImages t images shapes = .ok out) :
    out.length = images.length ∧
    ∀ (k : Nat) i s, images[k]? = some i → shapes[k]? = some s → ∃ w0 w i',
      t.new = .ok w0 ∧ t.setTarget w0 s = .ok w ∧ t.warp i w = .ok i' ∧ out[k]? = some i' := by
  unfold warpImages at ho
  obtain ⟨w0, h0, ho⟩ := bind_ok ho
  have key : ∀ (l : List (Im × S)) (w : W) (out : List Im), warpLoop t w l = .ok out →
      out.length = l.length ∧ ∀ (k : Nat) x, l[k]? = some x → ∃ w i',
        t.setTarget w0 x.2 = .ok w ∧ t.warp x.1 w = .ok i' ∧ out[k]? = some i' := by
    intro l
    induction l with
    | nil =>
      intro w out h
      injection h with h; subst h
      exact ⟨rfl, fun k x hx => by simp at hx⟩
    | cons x l ih =>
      intro w out h
      obtain ⟨i, s⟩ := x
      unfold warpLoop at h
      obtain ⟨w1, h1, h⟩ := bind_ok h
      obtain ⟨i', h2, h⟩ := bind_ok h
      obtain ⟨r, h3, h⟩ := bind_ok h
      injection h with h; subst h
      obtain ⟨hr, hk⟩ := ih w1 r h3
      refine ⟨by simp [hr], fun k x hx => ?_⟩
      cases k with
      | zero =>
        simp only [List.getElem?_cons_zero, Option.some.injEq] at hx
        subst hx
        exact ⟨w1, i', by rw [hf w0 w]; exact h1, h2, rfl⟩
      | succ k =>
        simp only [List.getElem?_cons_succ] at hx ⊢
        exact hk k x hx
  obtain ⟨hlen, hk⟩ := key _ w0 out ho
  refine ⟨by rw [hlen, List.length_zip, hl, Nat.min_self], fun k i s hi hs => ?_⟩
  obtain ⟨w, i', h1, h2, h3⟩ := hk k (i, s) (by rw [List.getElem?_zip_eq_some]; exact ⟨hi, hs⟩)
  exact ⟨w0, w, i', h0, h1, h2, h3⟩

example : warpImages ⟨.ok 0, fun _ s => .ok s, fun i w => .ok (i + w)⟩ [1, 2, 3] [10, 20, 30] =
    .ok [11, 22, 33] := by decide

/-- C85 (`extract_patches`): patch image `k` comes from image `k` at shape `k`. -/
theorem C85_extract_patches {S Im Pa : Type} (extract : Im → S → Except PyErr Pa)
    (normalise : Pa → Except PyErr Pa) (images : List Im) (shapes : List S)
    (hl : images.length = shapes.length) (out : List Pa)
    (ho : extractPatches extract normalise images shapes = .ok out) :
    out.length = images.length ∧
    ∀ (k : Nat) i s, images[k]? = some i → shapes[k]? = some s → ∃ p q,
      extract i s = .ok p ∧ normalise p = .ok q ∧ out[k]? = some q := by
  unfold extractPatches at ho
  have hlen := mapM_length ho
  refine ⟨by rw [hlen, List.length_zip, hl, Nat.min_self], fun k i s hi hs => ?_⟩
  obtain ⟨q, hq, hk⟩ := mapM_get ho k (i, s)
    (by rw [List.getElem?_zip_eq_some]; exact ⟨hi, hs⟩)
  obtain ⟨p, hp, hq⟩ := bind_ok hq
  exact ⟨p, q, hp, hq, hk⟩

example : extractPatches (fun i s : Nat => .ok (i, s)) (fun p => .ok (p.2, p.1)) [1, 2] [3, 4] =
    .ok [(3, 1), (4, 2)] := by decide

/-- C85 (`densify_shapes`): dense shape `k` starts with the points of shape `k`, followed by the
pixels of the reference frame carried over by the transform to shape `k`. -/
theorem C85_densify_shapes {P : Type} (transform : List P → P → P) (mask : List P)
    (shapes : List (List P)) :
    (densifyShapes transform mask shapes).length = shapes.length ∧
    ∀ (k : Nat) s, shapes[k]? = some s →
      ∃ dense, (densifyShapes transform mask shapes)[k]? = some dense ∧
        dense.length = s.length + mask.length ∧ dense.take s.length = s ∧
        ∀ (m : Nat) x, mask[m]? = some x → dense[s.length + m]? = some (transform s x) := by
  refine ⟨by simp [densifyShapes], fun k s hs => ⟨s ++ mask.map (transform s), ?_, by simp,
    by simp, fun m x hx => ?_⟩⟩
  · simp only [densifyShapes, List.getElem?_map]
    rw [(List.getElem?_zip_eq_some (z := (transform s, s))).2 ⟨by
      rw [List.getElem?_map, hs]; rfl, hs⟩]
    rfl
  · rw [List.getElem?_append_right (by omega)]
    simp [hx]

example : densifyShapes (fun s x => x + s.length) [10, 20] [[1], [2, 3]] =
    [[1, 11, 21], [2, 3, 12, 22]] := by decide

end Menpofit
