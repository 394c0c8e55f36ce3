import Verif.Lemmas.Fitter
import Verif.Spec.Resolution
import Verif.Lemmas.Constructors
import Mathlib.Tactic.Group
/-!
# Helper lemmas: fitting the same picture in other coordinates
-/

namespace Menpofit
open Fitter Spec

variable {S P F R : Type}

/-- The accumulated lists with `T` applied after every affine transform. -/
def movePrep (T : Equiv.Perm S) (p : Prep S P) : Prep S P := ⟨p.images, p.affine.map (T * ·), p.scale⟩

theorem prepLoop_move [DecidableEq F] (ext : Ext S P F) (T : Equiv.Perm S) (tmp : Img S P) (init : S)
    (hal : ∀ src a, ext.align src init = .ok a → ext.align src (T init) = .ok (T * a)) :
    ∀ (fs : List (F × Rat)) (prev : Option (F × Img S P)) (acc p : Prep S P),
      prepLoop ext tmp init prev acc fs = .ok p →
      prepLoop ext tmp (T init) prev (movePrep T acc) fs = .ok (movePrep T p) := by
  intro fs
  induction fs with
  | nil => intro prev acc p h; rw [prepLoop] at h ⊢; injection h with h; rw [h]
  | cons x fs ih =>
    intro prev acc p h
    obtain ⟨f, sc⟩ := x
    unfold prepLoop at h ⊢
    simp only [Ctor.bind_iff, Ctor.pure_iff] at h ⊢
    obtain ⟨⟨fi, a⟩, hstep, ⟨im, t⟩, hsc, hrest⟩ := h
    have fresh : (do
          let fi' ← ext.feature f tmp
          let src ← getLm fi' "__initial_shape"
          let a ← ext.align src init
          return (fi', a) : Except PyErr (Img S P × Equiv.Perm S)) = .ok (fi, a) →
        (do
          let fi' ← ext.feature f tmp
          let src ← getLm fi' "__initial_shape"
          let a ← ext.align src (T init)
          return (fi', a) : Except PyErr (Img S P × Equiv.Perm S)) = .ok (fi, T * a) := by
      intro h
      simp only [Ctor.bind_iff, Ctor.pure_iff] at h ⊢
      obtain ⟨fi', h1, src, h2, a', h3, h4⟩ := h
      obtain ⟨rfl, rfl⟩ := Prod.mk.inj h4
      exact ⟨fi', h1, src, h2, _, hal _ _ h3, rfl⟩
    refine ⟨(fi, T * a), ?_, (im, t), hsc, ?_⟩
    · cases prev with
      | none => exact fresh hstep
      | some q =>
        obtain ⟨f', fi'⟩ := q
        simp only at hstep ⊢
        split at hstep
        · next hf => rw [if_pos hf]; exact fresh hstep
        · next hf =>
          rw [if_neg hf]
          cases ha : acc.affine with
          | nil => rw [ha] at hstep; cases hstep
          | cons a0 as =>
            rw [ha] at hstep
            simp only [pure, Except.pure] at hstep
            injection hstep with hstep
            obtain ⟨rfl, rfl⟩ := Prod.mk.inj hstep
            simp [movePrep, ha, pure, Except.pure]
    · have := ih _ _ _ hrest
      simpa [movePrep] using this

theorem fitLoop_move [DecidableEq F] (final : R → S) (T : Equiv.Perm S) :
    ∀ (levels : List (Level S P F R)) (s0 : S) (rs : List R),
      ((∀ l ∈ levels, T * l.scale = l.scale * T) ∨ ∀ l ∈ levels, ∀ l' ∈ levels, l.feature = l'.feature) →
      fitLoop final s0 levels = .ok rs →
      fitLoop final s0 (levels.map fun l => { l with affine := T * l.affine }) = .ok rs := by
  intro levels
  induction levels with
  | nil => intro s0 rs _ h; simpa [fitLoop] using h
  | cons l rest ih =>
    intro s0 rs hc h
    rw [List.map_cons]
    rw [fitLoop] at h ⊢
    simp only [Ctor.bind_iff, Ctor.pure_iff] at h ⊢
    obtain ⟨r, hr, rs', hrs, e⟩ := h
    refine ⟨r, hr, rs', ?_, e⟩
    have hc' : (∀ l ∈ rest, T * l.scale = l.scale * T) ∨
        ∀ l ∈ rest, ∀ l' ∈ rest, l.feature = l'.feature :=
      hc.imp (fun h l hl => h l (List.mem_cons_of_mem _ hl))
        (fun h l hl l' hl' => h l (List.mem_cons_of_mem _ hl) l' (List.mem_cons_of_mem _ hl'))
    cases rest with
    | nil => exact hrs
    | cons l' rest =>
      have := ih _ _ hc' hrs
      have e : carry { l with affine := T * l.affine } { l' with affine := T * l'.affine } (final r) =
          carry l l' (final r) := by
        unfold carry
        simp only
        split
        · next hf =>
          rcases hc with hc | hc
          · have hT := hc l List.mem_cons_self
            have : l'.scale⁻¹ * ((T * l'.affine)⁻¹ * (l.scale * (T * l.affine))) =
                l'.scale⁻¹ * (l'.affine⁻¹ * (l.scale * l.affine)) := by
              rw [← mul_assoc l.scale T, ← hT]
              group
            rw [this]
          · exact absurd (hc l' (by simp) l (by simp)) hf
        · rfl
      simp only [List.map_cons] at this ⊢
      rw [e]
      exact this

theorem mkLevels_move (T : Equiv.Perm S) (features : List F) (scales : List Rat)
    (images : List (Img S P)) (affine scale : List (Equiv.Perm S)) (gts : Option (List S))
    (iters : List Int) (algs : List (Algorithm S P R)) :
    mkLevels features scales images (affine.map (T * ·)) scale gts iters algs =
      (mkLevels features scales images affine scale gts iters algs).map
        fun l => { l with affine := T * l.affine } := by
  unfold mkLevels
  simp only [List.zip_map_left, List.zip_map_right, List.map_map]
  rfl

theorem mkLevels_mem {features : List F} {scales : List Rat}
    {images : List (Img S P)} {affine scale : List (Equiv.Perm S)} {gts : Option (List S)}
    {iters : List Int} {algs : List (Algorithm S P R)} {l : Level S P F R}
    (h : l ∈ mkLevels features scales images affine scale gts iters algs) :
    l.feature ∈ features ∧ l.scale ∈ scale := by
  unfold mkLevels at h
  simp only [List.mem_map] at h
  obtain ⟨⟨f, s, i, a, t, g, n, al⟩, hm, rfl⟩ := h
  have h1 := List.of_mem_zip hm
  have h2 := List.of_mem_zip h1.2
  have h3 := List.of_mem_zip h2.2
  have h4 := List.of_mem_zip h3.2
  have h5 := List.of_mem_zip h4.2
  exact ⟨h1.1, h5.1⟩

theorem prep_scales {ext : Ext S P F} {tmp : Img S P} {init : S} {fs : List (F × Rat)} {p : Prep S P}
    (h : PrepInv ext tmp init fs p) {t : Equiv.Perm S} (ht : t ∈ p.scale) :
    t = 1 ∨ ∃ im s im', ext.rescale im s = .ok (im', t) := by
  obtain ⟨j, hj⟩ := List.mem_iff_getElem?.1 ht
  have hlt : j < fs.length := by
    have := (List.getElem?_eq_some_iff.1 hj).1
    rw [← h.ls]; exact this
  obtain ⟨⟨f, sc⟩, hfs⟩ : ∃ x, fs[j]? = some x := ⟨fs[j], List.getElem?_eq_getElem hlt⟩
  obtain ⟨fi, im, a, t', h1, h2, h3, h4, h5, h6⟩ := h.each j f sc hfs
  rw [h3] at hj; injection hj with hj; subst hj
  unfold scaleStep at h5
  split at h5
  · exact Or.inr ⟨_, _, _, h5⟩
  · injection h5 with h5; exact Or.inl (Prod.mk.inj h5).2.symm

end Menpofit
