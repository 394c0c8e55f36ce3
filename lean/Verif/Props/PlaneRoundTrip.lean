import Verif.Lemmas.PlaneFits
import Verif.Lemmas.Fitter
/-!
# Properties: the transforms of a fit lead back to the picture (C12), with the affine alignment menpo computes
-/

namespace Menpofit
open MI Warp Fitter Plane Spec

variable {N : Nat} {C F V K : Type}

theorem prep_gts {S P : Type} [DecidableEq F] (e : Ext S P F) (features : List F) (scales : List Rat)
    (image : Img S P) (init g : S) (p : Prepared S P)
    (h : prepBody e features scales image init (some g) = .ok p) :
    ∃ l, p.gtShapes = some l ∧ l.length = p.images.length ∧
      ∀ (j : Nat) (im : Img S P), p.images[j]? = some im → ∃ s, l[j]? = some s ∧ im.lm "__gt_shape" = some s := by
  unfold prepBody at h
  cases h1 : e.rescaleToRef image with
  | error e => simp [h1, bind, Except.bind] at h
  | ok tmp =>
    cases h2 : prepLoop e tmp init none ⟨[], [], []⟩ (features.zip scales) with
    | error e => simp [h1, h2, bind, Except.bind] at h
    | ok q =>
      cases h3 : (q.images.mapM fun i => getLm i "__initial_shape" : Except PyErr (List S)) with
      | error e => simp [h1, h2, h3, bind, Except.bind] at h
      | ok inits =>
        cases h4 : (q.images.mapM fun i => getLm i "__gt_shape" : Except PyErr (List S)) with
        | error e => simp [h1, h2, h3, h4, bind, Except.bind] at h
        | ok gts =>
          have hg := mapM_getLm "__gt_shape" q.images gts h4
          simp [h1, h2, h3, h4, bind, Except.bind, pure, Except.pure] at h
          subst h
          exact ⟨gts, rfl, hg.1, hg.2⟩

/-- The landmarks of a picture while it is being fitted: its own, the initial shape and the ground truth. -/
def landmarksDuring (image : Pic N C) (init : Pts N 2) (gt : Option (Pts N 2)) (group : String) :
    Option (Pts N 2) :=
  if group = "__gt_shape" ∧ gt ≠ none then gt
  else if group = "__initial_shape" then some init
  else image.lm group

/-- **C12** (partial: lists of features in which only the first feature is repeated consecutively), for
pictures of the plane and with the affine alignment menpo computes by least squares.  For all
features that do not collapse the picture, all scales and all pictures, initial shapes and
ground truths for which the image can be prepared: the transforms of every scale map the
initial shape of that scale to the shape the user supplied, its ground truth to the ground
truth, and all landmarks the image of that scale carries to those of the picture. -/
theorem C12_plane_partial [DecidableEq F] (fe : Features F C) (hs : ∀ f, fe.step f ≠ 0)
    (reference : Pts N 2) (features : List F) (scales : List Rat) (hlen : features.length = scales.length)
    (hrep : RepeatsOnlyFirst features) (image : Pic N C) (init : Pts N 2) (gt : Option (Pts N 2))
    (p : Prepared (Pts N 2) (P 2 → C))
    (h : (prepareImage (ext fe reference) features scales image init gt).2 = .ok p) :
    ∀ i, i < scales.length → ∃ im s a t, p.images[i]? = some im ∧ p.initialShapes[i]? = some s ∧
      p.affine[i]? = some a ∧ p.scale[i]? = some t ∧ toImage a t s = init ∧
      (∀ group, (im.lm group).map (toImage a t) = landmarksDuring image init gt group) ∧
      (gtOf p.gtShapes i).map (toImage a t) = gt := by
  rw [prepare_body] at h
  obtain ⟨tmp, htmp, hinv, hil, his, hgt0, -⟩ := prepBody_spec _ features scales _ init gt p h
  have hland : (carrying image init gt).lm = landmarksDuring image init gt := by
    funext g
    simp only [carrying, landmarksDuring]
    cases gt <;> by_cases h1 : g = "__gt_shape" <;> by_cases h2 : g = "__initial_shape" <;> simp_all
  -- the rescaled picture
  obtain ⟨m, hm, hres⟩ : ∃ m, 0 < m ∧ tmp = resize m (carrying image init gt) := by
    simp only [ext, bind, Except.bind] at htmp
    split at htmp
    · cases htmp
    · split at htmp
      · next h => injection htmp with htmp; exact ⟨_, h, htmp.symm⟩
      · cases htmp
  have hz : (features.zip scales).length = scales.length := by simp [hlen]
  have hget : ∀ j, (hj : j < scales.length) → (features.zip scales)[j]? =
      some (features[j]'(by omega), scales[j]) := by
    intro j hj
    rw [List.getElem?_eq_getElem (by omega)]; simp
  -- the picture of a feature
  have hfeat : ∀ f fi, (ext fe reference).feature f tmp = .ok fi → ∀ g,
      fi.lm g = (landmarksDuring image init gt g).map (zoomedShape (fe.step f * m) (fe.off f)) := by
    intro f fi hf g
    simp only [ext, bind, Except.bind] at hf
    split at hf
    · cases hf
    · injection hf with hf
      subst hf
      simp only [hres, resize, hland, Option.map_map]
      congr 1
      funext y ij
      simp only [Function.comp, Pi.smul_apply, smul_eq_mul, zoomedShape]
      ring
  intro i hi
  obtain ⟨fi, im, a, t, h1, h2, h3, h4, h5, h6⟩ := hinv.each i _ _ (hget i hi)
  obtain ⟨s, h7, h8⟩ := his i im h1
  -- the scale transform brings landmarks back to those of the feature image
  have hsrc : ∀ g, (im.lm g).map t = fi.lm g := by
    intro g
    unfold scaleStep at h5
    split at h5
    · simp only [ext] at h5
      split at h5
      · next hp =>
        injection h5 with h5
        obtain ⟨rfl, rfl⟩ := Prod.mk.inj h5
        simp only [resize, Option.map_map]
        have : (⇑(shrink (N := N) (scales[i] : ℝ) hp.ne') ∘ fun x => (scales[i] : ℝ) • x) = id := by
          funext y
          exact (shrink (N := N) (scales[i] : ℝ) hp.ne').apply_symm_apply y
        rw [this]; simp
      · cases h5
    · injection h5 with h5
      obtain ⟨rfl, rfl⟩ := Prod.mk.inj h5
      cases fi.lm g <;> simp
  have hal : AlignsWith (ext fe reference) fi init a := by
    rcases h6 with ⟨-, h6⟩ | ⟨⟨h61, sc', h62⟩, h63⟩
    · exact h6
    · obtain ⟨k, rfl⟩ : ∃ k, i = k + 1 := ⟨i - 1, by omega⟩
      have hk : features[k]? = some (features[k + 1]'(by omega)) := by
        have := hget k (by omega)
        rw [Nat.add_sub_cancel, this] at h62
        injection h62 with h62
        rw [List.getElem?_eq_getElem (by omega), (Prod.mk.inj h62).1]
      have h0 := hrep k _ hk (List.getElem?_eq_getElem (by omega))
      have h0' : features[0]'(by omega) = features[k + 1]'(by omega) := by
        rw [List.getElem?_eq_getElem (by omega)] at h0; exact Option.some.inj h0
      obtain ⟨fi0, im0, a0, t0, -, g2, -, g4, -, g6⟩ := hinv.each 0 _ _ (hget 0 (by omega))
      rw [h0', h4] at g4
      injection g4 with g4
      rcases g6 with ⟨-, g6⟩ | ⟨⟨g6, -⟩, -⟩
      · rw [g2] at h63; injection h63 with h63
        rw [g4, ← h63]; exact g6
      · omega
  -- the alignment undoes what the feature did to the picture
  have hundo : ∀ y, a (zoomedShape (fe.step (features[i]'(by omega)) * m) (fe.off (features[i]'(by omega))) y) = y := by
    obtain ⟨src, h9, h10⟩ := hal
    rw [hfeat _ _ h4] at h9
    have : landmarksDuring image init gt "__initial_shape" = some init := by simp [landmarksDuring]
    rw [this] at h9
    injection h9 with h9
    rw [← h9] at h10
    intro y
    rcases align_zoom fe reference (mul_ne_zero (hs (features[i]'(by omega))) hm.ne')
      (fe.off (features[i]'(by omega))) init with ⟨-, e⟩ | ⟨-, a', e, ha'⟩
    · rw [h10] at e; cases e
    · rw [h10] at e
      injection e with e
      rw [e, ← ha', Equiv.apply_symm_apply]
  have hall : ∀ group, (im.lm group).map (toImage a t) = landmarksDuring image init gt group := by
    intro g
    have e : (im.lm g).map (toImage a t) = ((im.lm g).map t).map a := by
      rw [Option.map_map]; rfl
    rw [e, hsrc, hfeat _ _ h4, Option.map_map]
    have : (⇑a ∘ zoomedShape (fe.step (features[i]'(by omega)) * m) (fe.off (features[i]'(by omega)))) = id := by
      funext y; exact hundo y
    rw [this]; simp
  refine ⟨im, s, a, t, h1, h7, h2, h3, ?_, hall, ?_⟩
  · have := hall "__initial_shape"
    rw [h8] at this
    simpa [landmarksDuring] using this
  · cases gt with
    | none => rw [hgt0 rfl]; rfl
    | some g =>
      obtain ⟨l, e1, -, e2⟩ := prep_gts _ features scales _ init g p h
      obtain ⟨s', e3, e4⟩ := e2 i im h1
      have := hall "__gt_shape"
      rw [e4] at this
      rw [e1]
      simp only [gtOf, Option.bind_some, e3]
      simpa [landmarksDuring] using this

/-- A picture of a face of three points, with downsampling features at two scales, can be prepared. -/
example (im : Pic 3 C) (gt : Pts 3 2) : RepeatsOnlyFirst [false, true] ∧ (∀ f, (halving C).step f ≠ 0) ∧
    ∃ p, (prepareImage (ext (halving C) corner3) [false, true] [1 / 2, 1] im corner3 (some gt)).2 = .ok p := by
  refine ⟨?_, by intro f; cases f <;> simp [halving], ?_⟩
  · intro i f h1 h2
    match i with
    | 0 => simp at h1 h2; rw [h1] at h2; simp at h2
    | i + 1 => simp at h2
  · rw [prepare_body]
    obtain ⟨c, hc⟩ : ∃ c, c = carrying im corner3 (some gt) := ⟨_, rfl⟩
    obtain ⟨m, hm⟩ : ∃ m, m = Plane.norm corner3 / Plane.norm corner3 := ⟨_, rfl⟩
    have hpos : 0 < m := by rw [hm]; exact div_pos corner3_norm corner3_norm
    obtain ⟨tmp, htmp⟩ : ∃ tmp, tmp = resize m c := ⟨_, rfl⟩
    have hci : c.lm "__initial_shape" = some corner3 := by rw [hc]; simp [carrying]
    have hcg : c.lm "__gt_shape" = some gt := by rw [hc]; simp [carrying]
    have hti : tmp.lm "__initial_shape" = some (m • corner3) := by rw [htmp]; simp [resize, hci]
    have htg : tmp.lm "__gt_shape" = some (m • gt) := by rw [htmp]; simp [resize, hcg]
    have href : (ext (halving C) corner3).rescaleToRef c = .ok tmp := by
      simp only [ext, getLm, hci, bind, Except.bind]
      simp [← hm, if_pos hpos, htmp, pure, Except.pure]
    obtain ⟨fi, a, f1, f2, f3, f4, f5⟩ := fresh_ok (halving C) corner3 corner3 hpos.ne' corner3_gram hti false
      (by simp [halving]) rfl
    obtain ⟨gi, b, g1, g2, g3, g4, g5⟩ := fresh_ok (halving C) corner3 corner3 hpos.ne' corner3_gram hti true
      (by simp [halving]) rfl
    have lmf : ∀ f x, (ext (halving C) corner3).feature f tmp = .ok x → (x.lm "__gt_shape").isSome := by
      intro f x hx
      simp only [ext, halving, bind, Except.bind, pure, Except.pure] at hx
      injection hx with hx
      rw [← hx]; simp [htg]
    obtain ⟨q1, hq1⟩ := Option.isSome_iff_exists.1 (lmf _ _ f1)
    obtain ⟨q2, hq2⟩ := Option.isSome_iff_exists.1 (lmf _ _ g1)
    have hhalf : (0 : ℝ) < (((1 / 2 : ℚ)) : ℝ) := by norm_num
    rw [← hc]
    unfold prepBody
    simp only [href, bind, Except.bind]
    simp only [List.zip_cons_cons, List.zip_nil_right, prepLoop, f1, f2, f4, g1, g2, g4, bind, Except.bind, pure,
      Except.pure, ne_eq, not_true_eq_false, if_false, List.nil_append, List.cons_append,
      Bool.true_eq_false, not_false_eq_true, if_true]
    have hr : (ext (halving C) corner3).rescale fi (1 / 2) = .ok (resize ((1 / 2 : ℚ) : ℝ) fi, shrink _ hhalf.ne') := by
      simp only [ext]; rw [dif_pos hhalf]
    rw [if_pos (by norm_num), hr]
    simp only [List.mapM_cons, List.mapM_nil, getLm, resize, f3, g3, hq1, hq2, Option.map_some, bind, Except.bind,
      pure, Except.pure]
    exact ⟨_, rfl⟩

end Menpofit
