import Verif.Model.Visualize
import Verif.Spec.Visualize
/-!
# Lemmas about plotting options
-/

namespace Menpofit
open Visualize Spec

theorem isInstance_iff (v : Py) (t : DType) : isInstance v t = true ↔ IsOfType v t := by
  constructor
  · intro h
    cases t <;> cases v <;> first | (exact absurd h (by decide)) | (simp [isInstance, Py.isInt, Py.isFloat] at h; done) | constructor
  · intro h
    cases h <;> rfl

theorem Visualize.deref_push (h : Heap) (l : List Py) (a : Nat) (ha : a < h.length) :
    deref (h ++ [l]) a = deref h a := by
  simp [deref, List.getD_eq_getElem?_getD, List.getElem?_append_left ha]

theorem Visualize.deref_set (h : Heap) (l : List Py) (a b : Nat) :
    deref (h.set a l) b = if a = b ∧ a < h.length then l else deref h b := by
  simp only [deref, List.getD_eq_getElem?_getD, List.getElem?_set]
  by_cases hab : a = b
  · subst hab
    by_cases hl : a < h.length
    · simp [hl]
    · simp [hl]
  · simp [hab]

/-- A check never shortens the heap, and a list that already has one value per curve keeps it. -/
theorem checkMulti_frame (h : Heap) (arg : Arg) (n : Nat) (d : List DType) :
    h.length ≤ (checkMulti h arg n d).1.length ∧
    (∀ b, b < h.length → (deref h b).length = n →
      (deref (checkMulti h arg n d).1 b).length = n) ∧
    (∀ b, b < h.length → (deref h b).length ≠ 1 →
      deref (checkMulti h arg n d).1 b = deref h b) := by
  cases arg with
  | val v =>
    unfold checkMulti
    by_cases hd : d.any (isInstance v) = true
    · simp only [hd, if_true]
      refine ⟨by simp, ?_, ?_⟩
      · intro b hb hl; rw [deref_push _ _ _ hb]; exact hl
      · intro b hb _; rw [deref_push _ _ _ hb]
    · simp only [hd]
      exact ⟨le_rfl, fun _ _ h => h, fun _ _ _ => rfl⟩
  | ref a =>
    unfold checkMulti
    have triv : ∀ (e : Except PyErr Nat), h.length ≤ (h, e).1.length ∧
        (∀ b, b < h.length → (deref h b).length = n → (deref (h, e).1 b).length = n) ∧
        (∀ b, b < h.length → (deref h b).length ≠ 1 → deref (h, e).1 b = deref h b) :=
      fun _ => ⟨le_rfl, fun _ _ h => h, fun _ _ _ => rfl⟩
    simp only
    split
    · rename_i v hv
      refine ⟨by simp, ?_, ?_⟩
      · intro b hb hl
        rw [deref_set]
        split
        · simp [times]
        · exact hl
      · intro b hb hl
        rw [deref_set]
        split
        · rename_i hh
          rw [← hh.1, hv] at hl
          simp at hl
        · rfl
    · split
      · exact triv _
      · exact triv _

/-- The list returned has one value per curve. -/
theorem checkMulti_ok (h : Heap) (arg : Arg) (n : Nat) (d : List DType) (a : Nat)
    (hin : ∀ b, arg = .ref b → b < h.length)
    (hr : (checkMulti h arg n d).2 = .ok a) :
    a < (checkMulti h arg n d).1.length ∧ (deref (checkMulti h arg n d).1 a).length = n := by
  cases arg with
  | val v =>
    unfold checkMulti at hr ⊢
    by_cases hd : d.any (isInstance v) = true
    · simp only [hd, if_true] at hr ⊢
      injection hr with hr
      subst hr
      simp [deref, times]
    · simp [hd] at hr
  | ref b =>
    have hb := hin b rfl
    unfold checkMulti at hr ⊢
    simp only at hr ⊢
    split at hr
    · rename_i v hv
      injection hr with hr
      subst hr
      rw [deref_set]
      simp [hb, times]
    · split at hr
      · cases hr
      · rename_i hl
        injection hr with hr
        subst hr
        simp only [hl]
        exact ⟨by simpa using hb, by simpa using hl⟩

end Menpofit
