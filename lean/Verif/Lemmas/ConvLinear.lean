import Verif.Model.Convolution
import Verif.Spec.ConvLinear
import Mathlib.Data.List.GetD
import Mathlib.Tactic.Ring
import Mathlib.Tactic.Abel
/-!
# Helper lemmas: convolution is linear
-/

namespace Menpofit
namespace ConvLin
open Fft Spec Dft Conv Matrix

variable {α β : Type}

theorem mapM_map {α β γ : Type} (f : β → Except PyErr γ) (g : α → β) (l : List α) :
    (l.map g).mapM f = l.mapM fun x => f (g x) := by
  induction l with
  | nil => rfl
  | cons x l ih => simp only [List.map_cons, List.mapM_cons, ih]

theorem mapM_ok {α γ δ : Type} (f : α → Except PyErr γ) (g : γ → δ) (l : List α) :
    (l.mapM fun x => (f x).map g) = (l.mapM f).map (List.map g) := by
  induction l with
  | nil => rfl
  | cons x l ih =>
    simp only [List.mapM_cons, ih]
    cases f x with
    | error e => rfl
    | ok y => cases List.mapM f l <;> rfl

theorem after_map (g : α → β) (b : Boundary) (z : α) (k : Nat) (l : List α) :
    after b (g z) k (l.map g) = (after b z k l).map g := by
  cases b with
  | constant => simp [after]
  | symmetric =>
    simp only [after, symmetricAfter, List.map_take, List.map_flatten, List.map_replicate, List.map_append,
      List.map_reverse]

theorem before_map (g : α → β) (b : Boundary) (z : α) (k : Nat) (l : List α) :
    before b (g z) k (l.map g) = (before b z k l).map g := by
  simp only [before, ← List.map_reverse, after_map]

theorem npPad_map (g : α → β) (b : Boundary) (z : α) (m : Int × Int) (l : List α) :
    npPad b (g z) m (l.map g) = (npPad b z m l).map (List.map g) := by
  unfold npPad
  simp only [List.map_eq_nil_iff]
  split
  · rfl
  · split
    · rfl
    · simp only [Except.map, List.map_append, after_map, before_map]

theorem pad_map (g : α → β) (b : Boundary) (z : α) (p : Plane α) (ext : Int × Int) :
    pad (g z) b (mapPlane g p) ext = (pad z b p ext).map (mapPlane g) := by
  simp only [pad, mapPlane, mapM_map, npPad_map, mapM_ok]
  cases List.mapM (npPad b z (margins p.w ext.2)) p.rows with
  | error e => rfl
  | ok rows =>
    simp only [Except.map, bind, Except.bind]
    rw [← List.map_replicate, npPad_map (List.map g)]
    cases npPad b (List.replicate ((p.w : Int) + (margins p.w ext.2).1 + (margins p.w ext.2).2).toNat z)
        (margins p.h ext.1) rows with
    | error e => rfl
    | ok rows =>
      by_cases h : (margins p.w ext.2).1 < 0 ∨ (margins p.w ext.2).2 < 0
      · refine (if_pos h).trans ?_
        simp only [if_pos h]
      · refine (if_neg h).trans ?_
        simp only [if_neg h]
        rfl

theorem slice_map (g : α → β) (i j : Int) (l : List α) : slice i j (l.map g) = (slice i j l).map g := by
  simp only [slice, List.length_map, List.map_drop, List.map_take]

theorem crop_map (g : α → β) (p : Plane α) (s : Int × Int) : crop (mapPlane g p) s = mapPlane g (crop p s) := by
  simp only [crop, mapPlane, slice_map, List.map_map]
  congr 1
  refine List.map_congr_left fun r _ => ?_
  exact slice_map g _ _ r

theorem finish_map (g : α → β) (mode : Mode) (c : Plane α) (x half : Int × Int) :
    finish mode (mapPlane g c) x half = (finish mode c x half).map (mapPlane g) := by
  cases mode <;> simp [finish, Except.map, crop_map]

/-- The value of the product of the spectra at a pixel. -/
noncomputable def at' {h w : Nat} (c : Pos h w → ℂ) (i : Fin h) (j : Fin w) : ℝ := (ifftshift (ifft2 c) (i, j)).re

theorem at'_linear {h w : Nat} (a b : ℝ) (c c' : Pos h w → ℂ) (i : Fin h) (j : Fin w) :
    at' ((a : ℂ) • c + (b : ℂ) • c') i j = a * at' c i j + b * at' c' i j := by
  simp only [at', ifft2, ifftshift, mulVec_add, mulVec_smul, Pi.smul_apply, Pi.add_apply, smul_eq_mul, mul_add,
    Complex.add_re]
  have e : ∀ (t : ℝ) (u v : ℂ), (u * ((t : ℂ) * v)).re = t * (u * v).re := by
    intro t u v
    rw [← Complex.re_ofReal_mul]
    congr 1
    ring
  rw [e, e]

/-- Two planes of the same size as one. -/
noncomputable def pairUp {h w : Nat} (c c' : Pos h w → ℂ) : Plane (ℝ × ℝ) :=
  ⟨h, w, List.ofFn fun i => List.ofFn fun j => (at' c i j, at' c' i j)⟩

theorem map_pairUp {h w : Nat} (g : ℝ × ℝ → ℝ) (c c' c'' : Pos h w → ℂ)
    (hg : ∀ i j, at' c'' i j = g (at' c i j, at' c' i j)) : mapPlane g (pairUp c c') = spatial c'' := by
  simp only [mapPlane, pairUp, spatial, List.map_ofFn]
  congr 1
  refine congrArg _ (funext fun i => ?_)
  simp only [Function.comp, List.map_ofFn]
  refine congrArg _ (funext fun j => ?_)
  exact (hg i j).symm

theorem values_map (h w : Nat) (g : ℝ × ℝ → ℝ) (hg : g 0 = 0) (p : Plane (ℝ × ℝ)) (ij : Pos h w) :
    values h w (mapPlane g p) ij = ((g ((p.rows.getD ij.1 []).getD ij.2 0) : ℝ) : ℂ) := by
  unfold values mapPlane
  have e1 : (p.rows.map (List.map g)).getD ij.1 [] = (p.rows.getD ij.1 []).map g := by
    simpa using List.getD_map (l := p.rows) (d := []) (n := ij.1) (f := List.map g)
  simp only [e1]
  rw [← hg, List.getD_map]

theorem values_blend (h w : Nat) (a b : ℝ) (p : Plane (ℝ × ℝ)) :
    values h w (blend a b p) = (a : ℂ) • values h w (firstOf p) + (b : ℂ) • values h w (secondOf p) := by
  funext ij
  simp only [Pi.add_apply, Pi.smul_apply, smul_eq_mul]
  rw [blend, firstOf, secondOf, values_map _ _ _ (by simp), values_map _ _ _ (by simp), values_map _ _ _ (by simp)]
  push_cast
  rfl

theorem fft2_values_blend (h w : Nat) (a b : ℝ) (p : Plane (ℝ × ℝ)) :
    fft2 (values h w (blend a b p)) =
      (a : ℂ) • fft2 (values h w (firstOf p)) + (b : ℂ) • fft2 (values h w (secondOf p)) := by
  rw [values_blend]
  simp only [fft2, mulVec_add, mulVec_smul]

theorem sum_blend {eh ew : Nat} {A : Type} (a b : ℝ) (P : List (Plane (ℝ × ℝ)))
    (cs : List (A × (Pos eh ew → ℂ))) :
    (List.zipWith (fun x c => c.2 * fft2 (values eh ew (blend a b x))) P cs).sum =
      (a : ℂ) • (List.zipWith (fun x c => c.2 * fft2 (values eh ew (firstOf x))) P cs).sum +
      (b : ℂ) • (List.zipWith (fun x c => c.2 * fft2 (values eh ew (secondOf x))) P cs).sum := by
  induction P generalizing cs with
  | nil => simp
  | cons x P ih =>
    cases cs with
    | nil => simp
    | cons c cs =>
      rw [List.zipWith_cons_cons, List.sum_cons, ih]
      simp only [List.zipWith_cons_cons, List.sum_cons, fft2_values_blend, mul_add, mul_smul_comm, smul_add]
      abel

end ConvLin
end Menpofit
