import Verif.Lemmas.Resolution
/-!
# C116: the resolution of the picture does not matter
-/

namespace Menpofit
open Fitter Spec

variable {S P F R : Type}

theorem fit_move [DecidableEq F] {ext : Ext S P F} {final : R → S} {features : List F}
    {scales : List Rat} {algs : List (Algorithm S P R)} {T : Equiv.Perm S} {im im' : Img S P} {init : S}
    {maxIters : Checks.MaxIters} {gt : Option S} (hp : SamePicture ext T im im' init gt)
    (hT : (∀ a s b t, ext.rescale a s = .ok (b, t) → T * t = t * T) ∨
      ∀ f ∈ features, ∀ f' ∈ features, f = f') {p : Prepared S P} {rs : List R}
    (h : (fitFromShape ext final features scales algs im init maxIters gt).2 = .ok (p, rs)) :
    ∃ p', (fitFromShape ext final features scales algs im' (T init) maxIters (gt.map T)).2 = .ok (p', rs) ∧
      p'.images = p.images ∧ p'.initialShapes = p.initialShapes ∧ p'.gtShapes = p.gtShapes ∧
      ∀ shapes i, inImage p'.affine p'.scale shapes i = (inImage p.affine p.scale shapes i).map T := by
  obtain ⟨h1, iters, s0, h2, h3, h4⟩ := fitFromShape_ok _ _ _ _ _ _ _ _ _ _ _ h
  have hat : ∀ (i : Img S P) (s : S) (g : Option S), (prepareImage ext features scales i s g).2 =
      prepBody ext features scales (carrying i s g) s g := by
    intro i s g
    have hc : ∀ (g : Option S), (match g with
        | some g => attach (attach i.lm "__initial_shape" s) "__gt_shape" g
        | none => attach i.lm "__initial_shape" s) = (carrying i s g).lm := by
      intro g
      funext x
      cases g with
      | none => simp [attach, carrying]
      | some g => simp [attach, carrying]
    cases g with
    | none =>
      have e : (⟨attach i.lm "__initial_shape" s, i.px⟩ : Img S P) = carrying i s none := by
        have := hc none
        simp only at this
        rw [this]; rfl
      simp only [prepareImage]
      rw [e]
      split <;> simp_all
    | some g =>
      have e : (⟨attach (attach i.lm "__initial_shape" s) "__gt_shape" g, i.px⟩ : Img S P) =
          carrying i s (some g) := by
        have := hc (some g)
        simp only at this
        rw [this]; rfl
      simp only [prepareImage]
      rw [e]
      split <;> simp_all
  obtain ⟨tmp, g1, hinv, -⟩ := prepBody_spec _ _ _ _ _ _ _ ((hat im init gt) ▸ h1)
  have hb : prepBody ext features scales (carrying im' (T init) (gt.map T)) (T init) (gt.map T) =
      .ok ⟨p.images, p.initialShapes, p.gtShapes, p.affine.map (T * ·), p.scale⟩ := by
    have hb := (hat im init gt) ▸ h1
    unfold prepBody at hb ⊢
    rw [hp.normalised]
    simp only [Ctor.bind_iff, Ctor.pure_iff] at hb ⊢
    obtain ⟨tmp', q1, q, q2, inits, q3, gts, q4, rfl⟩ := hb
    refine ⟨tmp', q1, movePrep T q, prepLoop_move ext T tmp' init hp.aligned _ none ⟨[], [], []⟩ q q2, inits,
      q3, gts, ?_, rfl⟩
    cases gt with
    | none => exact q4
    | some g => exact q4
  have hloop := fitLoop_move final T _ s0 rs ?_ h4
  · refine ⟨⟨p.images, p.initialShapes, p.gtShapes, p.affine.map (T * ·), p.scale⟩, ?_, rfl, rfl, rfl, ?_⟩
    · unfold fitFromShape
      simp only
      rw [show (prepareImage ext features scales im' (T init) (gt.map T)).2 = _ from (hat _ _ _).trans hb]
      simp only [h2, bind, Except.bind]
      rw [mkLevels_move]
      cases hs : p.initialShapes with
      | nil => rw [hs] at h3; simp at h3
      | cons s ss =>
        rw [hs] at h3
        simp at h3
        subst h3
        simp only
        rw [hloop]
        rfl
    · intro shapes i
      unfold inImage
      simp only [List.getElem?_map]
      cases p.affine[i]? <;> cases p.scale[i]? <;> cases shapes[i]? <;> simp [toImage]
  · rcases hT with hT | hT
    · left
      intro l hl
      rcases prep_scales hinv (mkLevels_mem hl).2 with e | ⟨a, s, b, e⟩
      · rw [e]; simp
      · exact hT _ _ _ _ e
    · right
      intro l hl l' hl'
      exact hT _ (mkLevels_mem hl).1 _ (mkLevels_mem hl').1

/-- **C116**.  Fitting the same picture at another resolution: if `T` is the change of coordinates
(a rescaling: it commutes with the rescalings between scales), the initial shape and the
ground truth are given in the new coordinates, and the two pictures agree once brought
to the size of the reference shape, then the second fit returns as well, all algorithms return the
same results, and every shape of every scale, seen in the second picture, is `T` of the
shape seen in the first. -/
theorem C116_resolution [DecidableEq F] {ext : Ext S P F} {final : R → S} {features : List F}
    {scales : List Rat} {algs : List (Algorithm S P R)} {T : Equiv.Perm S} {im im' : Img S P} {init : S}
    {maxIters : Checks.MaxIters} {gt : Option S} (hp : SamePicture ext T im im' init gt)
    (hT : ∀ a s b t, ext.rescale a s = .ok (b, t) → T * t = t * T) {p : Prepared S P} {rs : List R}
    (h : (fitFromShape ext final features scales algs im init maxIters gt).2 = .ok (p, rs)) :
    ∃ p', (fitFromShape ext final features scales algs im' (T init) maxIters (gt.map T)).2 = .ok (p', rs) ∧
      p'.images = p.images ∧ p'.initialShapes = p.initialShapes ∧ p'.gtShapes = p.gtShapes ∧
      ∀ shapes i, inImage p'.affine p'.scale shapes i = (inImage p.affine p.scale shapes i).map T :=
  fit_move hp (.inl hT) h

/-- C116: with the same features at all scales this holds for every change of coordinates, whether or
not it commutes with rescaling. -/
theorem C116_coordinates [DecidableEq F] {ext : Ext S P F} {final : R → S} {features : List F}
    {scales : List Rat} {algs : List (Algorithm S P R)} {T : Equiv.Perm S} {im im' : Img S P} {init : S}
    {maxIters : Checks.MaxIters} {gt : Option S} (hp : SamePicture ext T im im' init gt)
    (hf : ∀ f ∈ features, ∀ f' ∈ features, f = f') {p : Prepared S P} {rs : List R}
    (h : (fitFromShape ext final features scales algs im init maxIters gt).2 = .ok (p, rs)) :
    ∃ p', (fitFromShape ext final features scales algs im' (T init) maxIters (gt.map T)).2 = .ok (p', rs) ∧
      p'.images = p.images ∧ p'.initialShapes = p.initialShapes ∧ p'.gtShapes = p.gtShapes ∧
      ∀ shapes i, inImage p'.affine p'.scale shapes i = (inImage p.affine p.scale shapes i).map T :=
  fit_move hp (.inr hf) h

/-! ### A case that meets the hypotheses -/

/-- Pictures of a number line: the pixels are the resolution.  Bringing one to the reference size divides
all landmarks by it, feature `k` magnifies `k + 1` times, alignments are magnifications. -/
def lineExt : Ext Rat Rat Nat where
  rescaleToRef i := .ok ⟨fun g => (i.lm g).map (· / i.px), 1⟩
  feature k i := .ok ⟨fun g => (i.lm g).map (· * (k + 1)), i.px⟩
  align s t := if h : t / s = 0 then .error .valueError else .ok (Equiv.mulLeft₀ (t / s) h)
  rescale i c :=
    if h : c = 0 then .error .valueError
    else .ok (⟨fun g => (i.lm g).map (c * ·), i.px⟩, Equiv.mulLeft₀ c⁻¹ (inv_ne_zero h))

example : ∃ (T : Equiv.Perm Rat) (im im' : Img Rat Rat) (p : Prepared Rat Rat) (rs : List Rat),
    T ≠ 1 ∧ SamePicture lineExt T im im' 6 (some 7) ∧
    (∀ a s b t, lineExt.rescale a s = .ok (b, t) → T * t = t * T) ∧
    (fitFromShape lineExt (fun r : Rat => r) [1, 0] [1/2, 1]
      [fun _ s _ _ => .ok (s + 1), fun _ s _ _ => .ok (s - 2)] im 6 (.int 10) (some 7)).2 = .ok (p, rs) := by
  obtain ⟨⟨p, rs⟩, h1, -⟩ := ok_of_eval (fitFromShape lineExt (fun r : Rat => r) [1, 0] [1/2, 1]
      [fun _ s _ _ => .ok (s + 1), fun _ s _ _ => .ok (s - 2)] ⟨fun _ => none, 1⟩ 6 (.int 10) (some 7)).2
    (fun _ => true) (by decide +kernel)
  refine ⟨Equiv.mulLeft₀ 3 (by norm_num), ⟨fun _ => none, 1⟩, ⟨fun _ => none, 3⟩, p, rs, ?_, ?_, ?_, h1⟩
  · intro h
    have := congrArg (fun e : Equiv.Perm Rat => e 1) h
    norm_num at this
  · refine ⟨?_, ?_⟩
    · simp only [lineExt, carrying]
      congr 2
      funext g
      by_cases h1 : g = "__gt_shape"
      · subst h1; simp
      · by_cases h2 : g = "__initial_shape"
        · subst h2; simp
        · simp [h1, h2]
    · intro src a h
      simp only [lineExt] at h ⊢
      split at h
      · cases h
      · next hz =>
        injection h with h
        subst h
        rw [dif_neg]
        · congr 1
          ext x
          simp [Equiv.Perm.mul_apply]
          ring
        · intro hz'
          apply hz
          simp only [Equiv.mulLeft₀_apply] at hz'
          linarith [show (3 * 6 : ℚ) / src = 3 * (6 / src) by ring]
  · intro a s b t h
    simp only [lineExt] at h
    split at h
    · cases h
    · injection h with h
      obtain ⟨-, rfl⟩ := Prod.mk.inj h
      ext x
      simp [Equiv.Perm.mul_apply]
      ring

end Menpofit
