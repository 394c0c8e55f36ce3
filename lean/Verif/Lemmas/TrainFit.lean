import Verif.Model.TrainFit
import Verif.Lemmas.Fitter
/-!
# Helper lemmas: the same operation on two landmark groups
-/

namespace Menpofit
open Fitter TrainFit

variable {S P F : Type}

/-- `toReference` on two landmark groups that hold the same shape. -/
theorem toReference_same {m : Menpo S P F} {ref s : S} {g g' : String} {i i' : Img S P}
    (hp : i.px = i'.px) (hg : i.lm g = some s) (hg' : i'.lm g' = some s) {x' : Img S P}
    (h : toReference m ref g' i' = .ok x') :
    ∃ x s', toReference m ref g i = .ok x ∧ x.px = x'.px ∧ x.lm g = some s' ∧
      x'.lm g' = some s' := by
  unfold toReference getLm at h ⊢
  simp only [hg, hg', bind, Except.bind, hp] at h ⊢
  split at h
  · cases h
  · next v hv =>
    injection h with h; subst h
    exact ⟨_, v.2 s, rfl, rfl, by simp [moved, hg], by simp [moved, hg']⟩

theorem features_same {m : Menpo S P F} {f : F} {s : S} {g g' : String} {i i' : Img S P}
    (hp : i.px = i'.px) (hg : i.lm g = some s) (hg' : i'.lm g' = some s) {x' : Img S P}
    (h : features m f i' = .ok x') :
    ∃ x s', features m f i = .ok x ∧ x.px = x'.px ∧ x.lm g = some s' ∧ x'.lm g' = some s' := by
  unfold features at h ⊢
  simp only [bind, Except.bind, hp] at h ⊢
  split at h
  · cases h
  · next v hv =>
    injection h with h; subst h
    exact ⟨_, v.2 s, rfl, rfl, by simp [moved, hg], by simp [moved, hg']⟩

theorem rescaled_same {m : Menpo S P F} {c : Rat} {s : S} {g g' : String} {i i' : Img S P}
    (hp : i.px = i'.px) (hg : i.lm g = some s) (hg' : i'.lm g' = some s) {x' : Img S P}
    {t : Equiv.Perm S} (h : rescaled m c i' = .ok (x', t)) :
    ∃ x s', rescaled m c i = .ok (x, t) ∧ x.px = x'.px ∧ x.lm g = some s' ∧
      x'.lm g' = some s' := by
  unfold rescaled at h ⊢
  simp only [bind, Except.bind, hp] at h ⊢
  split at h
  · cases h
  · next v hv =>
    injection h with h
    obtain ⟨rfl, rfl⟩ := Prod.mk.inj h
    exact ⟨_, (v.2⁻¹ : Equiv.Perm S) s, rfl, rfl, by simp [moved, hg], by simp [moved, hg']⟩

/-- What is prepared carries the initial shape. -/
theorem prepareImage_attached [DecidableEq F] {ext : Ext S P F} {fs : List F} {scales : List Rat}
    {image : Img S P} {init : S} {g : Option S} {p : Prepared S P}
    (h : (prepareImage ext fs scales image init g).2 = .ok p) :
    ∃ lm, prepBody ext fs scales ⟨lm, image.px⟩ init g = .ok p ∧
      lm "__initial_shape" = some init := by
  unfold prepareImage at h
  simp only at h
  split at h
  · cases h
  · next r hr =>
    injection h with h; subst h
    refine ⟨_, hr, ?_⟩
    cases g <;> simp [attach]

end Menpofit
