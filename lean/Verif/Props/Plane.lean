import Verif.Lemmas.PlaneFits
/-!
# Properties: where the face is in the picture, and how large, does not matter to a whole fit (C128)
-/

namespace Menpofit
open MI Warp Fitter Plane Spec Result

variable {N : Nat} {C F V K : Type}

/-- **C128**.  A multi-scale fit, parametric or not, of the same face elsewhere in the picture and in
another size: if the picture with all its landmarks, the initial shape and the ground truth (if
given) are zoomed by `k > 0` and moved by `t`, then both fits raise the same exception, or both return,
and all shapes of the second result are those of the first, zoomed and moved; costs and numbers of
iterations are the same.  For all features that follow the picture, with whatever downsampling,
all scales and numbers of iterations, and all algorithms that follow the face. -/
theorem C128_fit_partial [DecidableEq F] (fe : Features F C) (hf : FeaturesFollow fe.op fe.step)
    (hs : ∀ f, fe.step f ≠ 0) (reference : Pts N 2) (parametric : Bool) (features : List F)
    (hr : RepeatsOnlyFirst features) (scales : List Rat)
    (algs : List (Algorithm (Pts N 2) (P 2 → C) (Res (Pts N 2) V K))) (ha : ∀ a ∈ algs, FollowsFace a)
    (k : ℝ) (hk : 0 < k) (t : Fin 2 → ℝ) (im im' : Pic N C) (hz : ZoomedImage k t im im')
    (init : Pts N 2) (maxIters : Checks.MaxIters) (gt : Option (Pts N 2)) :
    BothReturn (SameFitUnder (zoomedShape k t))
      (Plane.fitFromShape fe reference parametric features scales algs im init maxIters gt)
      (Plane.fitFromShape fe reference parametric features scales algs im' (zoomedShape k t init) maxIters
        (gt.map (zoomedShape k t))) :=
  fit_sim hk hf hs reference parametric hr scales algs ha hz init maxIters gt

/-- **C128** for fits from a bounding box. -/
theorem C128_fit_from_bb_partial [DecidableEq F] (fe : Features F C) (hf : FeaturesFollow fe.op fe.step)
    (hs : ∀ f, fe.step f ≠ 0) (reference : Pts N 2) (parametric : Bool) (features : List F)
    (hr : RepeatsOnlyFirst features) (scales : List Rat)
    (algs : List (Algorithm (Pts N 2) (P 2 → C) (Res (Pts N 2) V K))) (ha : ∀ a ∈ algs, FollowsFace a)
    (k : ℝ) (hk : 0 < k) (t : Fin 2 → ℝ) (im im' : Pic N C) (hz : ZoomedImage k t im im')
    (bb : Pts 4 2) (maxIters : Checks.MaxIters) (gt : Option (Pts N 2)) :
    BothReturn (SameFitUnder (zoomedShape k t))
      (fitFromBb fe reference parametric features scales algs im bb maxIters gt)
      (fitFromBb fe reference parametric features scales algs im' (zoomedShape k t bb) maxIters
        (gt.map (zoomedShape k t))) := by
  unfold fitFromBb
  refine both_bind (align_bb_sim hk t reference bb) ?_
  rintro init _ rfl
  exact fit_sim hk hf hs reference parametric hr scales algs ha hz init maxIters gt

/-! ### Features that follow the picture -/

/-- Pointwise features followed by reading the picture on a coarser or finer grid. -/
theorem C128_features (φ : F → C → C) (step : F → ℝ) (off : F → Fin 2 → ℝ) (hs : ∀ f, step f ≠ 0) :
    FeaturesFollow (fun f px => .ok fun x => φ f (px ((step f)⁻¹ • (x - WithLp.toLp 2 (off f))))) step := by
  intro f u px px' h x
  simp only
  rw [← h]
  congr 2
  rw [add_sub_right_comm, smul_add, smul_smul, inv_mul_cancel₀ (hs f), one_smul]

/-! ### Repeating other features than the first -/

/-- The algorithm that returns the shape it was given. -/
def stay : Algorithm (Pts N 2) (P 2 → C) (Res (Pts N 2) V K) :=
  fun _ s gt _ => nonParam [s] (some s) gt none

theorem stay_follows : FollowsFace (stay : Algorithm (Pts N 2) (P 2 → C) (Res (Pts N 2) V K)) := by
  intro u im im' _ s gt n
  exact nonParam_sim (movedShape u) [s] (some s) gt none

theorem repeated_fit (reference init : Pts N 2) (hg : gram init ≠ 0)
    (hpos : 0 < Plane.norm reference / Plane.norm init) (im : Pic N C) :
    ∃ r : Res (Pts N 2) V K,
      Plane.fitFromShape (halving C) reference false [false, true, true] [1, 1, 1] [stay, stay, stay] im init (.int 3)
        none = .ok r ∧ r.final = (1 / 2 : ℝ) • init := by
  obtain ⟨m, hm⟩ : ∃ m, m = Plane.norm reference / Plane.norm init := ⟨_, rfl⟩
  have hm0 : m ≠ 0 := by rw [hm]; exact hpos.ne'
  obtain ⟨tmp, htmp⟩ : ∃ tmp, tmp = resize m (carrying im init none) := ⟨_, rfl⟩
  have hti : tmp.lm "__initial_shape" = some (m • init) := by rw [htmp]; simp [resize, carrying]
  have href : (ext (halving C) reference).rescaleToRef (carrying im init none) = .ok tmp := by
    simp only [ext, getLm, carrying, bind, Except.bind]
    simp [← hm, if_pos (hm ▸ hpos), htmp, carrying, pure, Except.pure]
  obtain ⟨fi, a, f1, f2, f3, f4, f5⟩ := fresh_ok (halving C) reference init hm0 hg hti false
    (by simp [halving]) rfl
  obtain ⟨gi, b, g1, g2, g3, g4, g5⟩ := fresh_ok (halving C) reference init hm0 hg hti true
    (by simp [halving]) rfl
  have hprep : prepBody (ext (halving C) reference) [false, true, true] [1, 1, 1] (carrying im init none) init none =
      .ok ⟨[fi, gi, gi], [zoomedShape ((halving C).step false * m) ((halving C).off false) init,
        zoomedShape ((halving C).step true * m) ((halving C).off true) init,
        zoomedShape ((halving C).step true * m) ((halving C).off true) init], none, [a, b, a], [1, 1, 1]⟩ := by
    unfold prepBody
    simp only [href, bind, Except.bind]
    simp only [List.zip_cons_cons, List.zip_nil_right, prepLoop, f1, f2, f4, g1, g2, g4, bind, Except.bind, pure,
      Except.pure, ne_eq, not_true_eq_false, if_false, List.nil_append, List.cons_append,
      List.mapM_cons, List.mapM_nil, Bool.true_eq_false, not_false_eq_true, if_true]
  obtain ⟨z, hz⟩ : ∃ z, z = zoomedShape ((halving C).step true * m) ((halving C).off true) init := ⟨_, rfl⟩
  obtain ⟨w, hw⟩ : ∃ w, w = zoomedShape ((halving C).step false * m) ((halving C).off false) init := ⟨_, rfl⟩
  have ha : a w = init := by rw [Equiv.apply_eq_iff_eq_symm_apply, f5, hw]
  rw [← hz, ← hw] at hprep
  have hb : b.symm init = z := by rw [g5, hz]
  have hfin : a z = (1 / 2 : ℝ) • init := by
    rw [Equiv.apply_eq_iff_eq_symm_apply, f5, hz]
    funext ij
    simp [zoomedShape, halving]
    ring
  have hloop : ∀ n1 n2 n3 : Int, fitLoop (fun r => r.final) w
      (mkLevels [false, true, true] [1, 1, 1] [fi, gi, gi] [a, b, a] [1, 1, 1] none [n1, n2, n3] [stay, stay, stay]) =
      .ok [⟨w, some w, none, [w, w], 1, none, none, [], 0⟩, ⟨z, some z, none, [z, z], 1, none, none, [], 0⟩,
        (⟨z, some z, none, [z, z], 1, none, none, [], 0⟩ : Res (Pts N 2) V K)] := by
    intro n1 n2 n3
    simp only [mkLevels, List.length_cons, List.length_nil, List.replicate, List.zip_cons_cons, List.zip_nil_right,
      List.map_cons, List.map_nil, fitLoop, stay, nonParam, List.getLast?_singleton, bind, Except.bind, pure, Except.pure,
      carry, ne_eq, Bool.true_eq_false, not_false_eq_true, if_true, not_true_eq_false, if_false, and_false,
      Equiv.Perm.mul_apply, Equiv.Perm.inv_def, Equiv.Perm.one_apply, ha, hb, one_mul, mul_one]
    rfl
  refine ⟨⟨a z, some (a w), none, [a w, a w, b z, a z], 3, none, none, [1, 1, 1], 3⟩, ?_, hfin⟩
  unfold Plane.fitFromShape Fitter.fitFromShape
  simp only [prepare_body, hprep, bind, Except.bind, Checks.checkMaxIters, Checks.rep, List.length_cons,
    List.length_nil, List.replicate]
  rw [hloop]
  rfl

/-- **C128** fails when a feature that is not that of the first scale is used at two consecutive scales:
the fitter then maps the shapes of the second of them to the image with the transform of the first
scale.  For every image, reference shape, initial shape (not on a line) and vector `t ≠ 0`, with
features that only downsample: the fits with features `f, g, g` of the picture and of the moved
picture, by the algorithm that returns the initial shape, return, and the second result is not
the first, moved. -/
theorem C128_repeated_violated (hN : 0 < N) (reference init : Pts N 2)
    (hg : (hPoints init * (hPoints init).transpose).det ≠ 0)
    (hpos : 0 < Plane.norm reference / Plane.norm init)
    (t : Fin 2 → ℝ) (ht : t ≠ 0) (im im' : Pic N C) :
    FeaturesFollow (halving C).op (halving C).step ∧
    FollowsFace (stay : Algorithm (Pts N 2) (P 2 → C) (Res (Pts N 2) V K)) ∧
    ∃ r r' : Res (Pts N 2) V K,
      Plane.fitFromShape (halving C) reference false [false, true, true] [1, 1, 1] [stay, stay, stay] im init
        (.int 3) none = .ok r ∧
      Plane.fitFromShape (halving C) reference false [false, true, true] [1, 1, 1] [stay, stay, stay] im'
        (movedShape t init) (.int 3) none = .ok r' ∧
      r'.final ≠ movedShape t r.final := by
  refine ⟨C128_features (fun _ c => c) _ _ (by intro f; cases f <;> simp), stay_follows, ?_⟩
  obtain ⟨r, h1, h2⟩ := repeated_fit (V := V) (K := K) reference init hg hpos im
  have hg' : gram (movedShape t init) ≠ 0 := by
    rw [← zoomed_one, gram_zoom]; exact mul_ne_zero (by norm_num) hg
  have hpos' : 0 < Plane.norm reference / Plane.norm (movedShape t init) := by
    rw [← zoomed_one, norm_zoom hN one_pos, one_mul]; exact hpos
  obtain ⟨r', h3, h4⟩ := repeated_fit (V := V) (K := K) reference (movedShape t init) hg' hpos' im'
  refine ⟨r, r', h1, h3, ?_⟩
  rw [h2, h4]
  intro h
  apply ht
  funext j
  have := congrFun h (⟨0, hN⟩, j)
  simp [movedShape] at this
  show t j = 0
  linarith

/-! ### The hypotheses are met -/

example : (hPoints corner3 * (hPoints corner3).transpose).det ≠ 0 ∧
    0 < Plane.norm corner3 / Plane.norm corner3 := ⟨corner3_gram, div_pos corner3_norm corner3_norm⟩

/-- Features at two scales, the second on a coarser grid, an algorithm, and any picture with its
zoomed and moved copy. -/
example (k : ℝ) (hk : 0 < k) (t : Fin 2 → ℝ) (px : P 2 → ℝ) (lm : String → Option (Pts 3 2)) :
    RepeatsOnlyFirst [false, true] ∧ FeaturesFollow (halving ℝ).op (halving ℝ).step ∧
    (∀ f, (halving ℝ).step f ≠ 0) ∧
    FollowsFace (stay : Algorithm (Pts 3 2) (P 2 → ℝ) (Res (Pts 3 2) Unit Unit)) ∧
    ZoomedImage k t (⟨lm, px⟩ : Pic 3 ℝ)
      ⟨fun g => (lm g).map (zoomedShape k t), fun x => px (k⁻¹ • (x - WithLp.toLp 2 t))⟩ := by
  refine ⟨?_, C128_features (fun _ c => c) _ _ (by intro f; cases f <;> simp), by intro f; cases f <;> simp [halving],
    stay_follows, ?_, fun g => rfl⟩
  · intro i f h1 h2
    match i with
    | 0 => simp at h1 h2; rw [h1] at h2; simp at h2
    | i + 1 => simp at h2
  · intro x
    simp only [add_sub_cancel_right, smul_smul, inv_mul_cancel₀ hk.ne', one_smul]

end Menpofit
