import Verif.Model.SdmStart
import Verif.Lemmas.TrainPlacement
import Verif.Lemmas.Noise
import Verif.Lemmas.Error
/-!
# Lemmas: perturbations of moved faces
-/

namespace Menpofit
namespace Noise
open MI Spec Matrix

variable {n : Nat}

theorem axisMin_moved (hn : n ≠ 0) (t : Fin 2 → ℝ) (p : Pts n 2) (j : Fin 2) :
    axisMin (movedShape t p) j = axisMin p j + t j := by
  have hne : List.finRange n ≠ [] := by simpa [List.finRange_eq_nil_iff] using hn
  have := npMin_map (fun i => p (i, j)) (fun x => x + t j) (fun a b h => by simpa using h) (List.finRange n) hne
  simp only [axisMin, List.ofFn_eq_map, movedShape]
  exact this

theorem axisMax_moved (hn : n ≠ 0) (t : Fin 2 → ℝ) (p : Pts n 2) (j : Fin 2) :
    axisMax (movedShape t p) j = axisMax p j + t j := by
  have hne : List.finRange n ≠ [] := by simpa [List.finRange_eq_nil_iff] using hn
  have := npMax_map (fun i => p (i, j)) (fun x => x + t j) (fun a b h => by simpa using h) (List.finRange n) hne
  simp only [axisMax, List.ofFn_eq_map, movedShape]
  exact this

theorem boundingBox_moved (t : Fin 2 → ℝ) (p : Pts n 2) :
    boundingBox (movedShape t p) = (boundingBox p).map (movedShape t) := by
  unfold boundingBox
  split
  · rfl
  · next hn =>
    simp only [Except.map]
    congr 1
    funext ⟨i, j⟩
    simp only [box, movedShape, axisMin_moved hn, axisMax_moved hn]
    match j with
    | 0 => simp only [if_true]; split <;> rfl
    | 1 => simp only [Fin.isValue, one_ne_zero, if_false]; split <;> rfl

theorem range_moved (hn : n ≠ 0) (t : Fin 2 → ℝ) (p : Pts n 2) (j : Fin 2) :
    rangeOf (movedShape t p) j = rangeOf p j := by
  have := extent_similar hn (fun i k => p (i, k)) 1 one_pos t j
  simpa [rangeOf, movedShape] using this

theorem noise_moved (hn : n ≠ 0) (t : Fin 2 → ℝ) (p : Pts n 2) (kind : String) (np : List ℝ) (d : Draws) :
    noise (movedShape t p) kind np d = noise p kind np d := by
  simp only [noise, range_moved hn]

/-- Conjugation of a similarity with a translation. -/
theorem alignSim_moved (hn : 0 < n) (rot : Bool) (s x : Pts n 2) (u t : Fin 2 → ℝ) {m : Nat} (p : Pts m 2) :
    (alignSim rot (movedShape u s) (movedShape t x)).apply (movedShape u p) =
      movedShape t ((alignSim rot s x).apply p) := by
  simp only [Place.movedShape_eq]
  cases rot with
  | false =>
    simp only [alignSim, Bool.false_eq_true, if_false, Place.centred_trans hn, Place.centroid_trans hn]
    funext ⟨i, j⟩
    match j with
    | 0 => simp [Sim.apply, Place.trans]; ring
    | 1 => simp [Sim.apply, Place.trans]; ring
  | true =>
    simp only [alignSim, if_true, procrustes, Place.centred_trans hn, Place.centroid_trans hn]
    funext ⟨i, j⟩
    match j with
    | 0 => simp [Sim.apply, Place.trans]; ring
    | 1 => simp [Sim.apply, Place.trans]; ring

theorem turned_moved (o t : Fin 2 → ℝ) (c θ : ℝ) (τ : Fin 2 → ℝ) {m : Nat} (p : Pts m 2) :
    turned (fun j => o j + t j) c θ τ (movedShape t p) = movedShape t (turned o c θ τ p) := by
  funext ⟨i, j⟩
  match j with
  | 0 => simp [turned, movedShape]; ring
  | 1 => simp [turned, movedShape]; ring

theorem noisyAlignment_moved (hn : 0 < n) (s x : Pts n 2) (kind : String) (pct : Percentage) (rot : Bool)
    (d : Draws) (t : Fin 2 → ℝ) {m : Nat} (p : Pts m 2) :
    (noisyAlignment (movedShape t s) (movedShape t x) kind pct rot d).1.map (fun T => T.apply (movedShape t p)) =
      (noisyAlignment s x kind pct rot d).1.map fun T => movedShape t (T.apply p) := by
  unfold noisyAlignment
  have hcen : centroid (movedShape t x) = fun j => centroid x j + t j := by
    funext j; rw [Place.movedShape_eq, Place.centroid_trans hn]
  cases percentages pct with
  | mk r q =>
    cases r with
    | error e => rfl
    | ok np =>
      simp only [noise_moved hn.ne']
      cases noise x kind np d with
      | error e => rfl
      | ok v =>
        obtain ⟨a, b, v⟩ := v
        simp only [Except.map, after_apply]
        congr 1
        have e1 := noise_apply (movedShape t x) (1 + a) b (v 0) (v 1) (movedShape t p)
        have e2 := noise_apply x (1 + a) b (v 0) (v 1) p
        simp only [after_apply] at e1 e2
        rw [e1, e2, hcen, turned_moved, alignSim_moved hn]

theorem noisyShape_moved (shape : Pts n 2) (bb : Pts 4 2) (kind : String) (pct : Percentage) (rot : Bool)
    (d : Draws) (t : Fin 2 → ℝ) :
    noisyShapeFromBoundingBox (movedShape t shape) (movedShape t bb) kind pct rot d =
      (noisyShapeFromBoundingBox shape bb kind pct rot d).map (movedShape t) := by
  unfold noisyShapeFromBoundingBox
  rw [boundingBox_moved]
  cases boundingBox shape with
  | error e => rfl
  | ok sb =>
    have := noisyAlignment_moved (by norm_num) sb bb kind pct rot d t shape
    simp only [Except.map, bind, Except.bind]
    revert this
    cases (noisyAlignment (movedShape t sb) (movedShape t bb) kind pct rot d).1 <;>
      cases (noisyAlignment sb bb kind pct rot d).1 <;> simp [Except.map, pure, Except.pure]

theorem alignBb_moved (reference : Pts n 2) (bb : Pts 4 2) (t : Fin 2 → ℝ) :
    alignShapeWithBoundingBox reference (movedShape t bb) =
      (alignShapeWithBoundingBox reference bb).map (movedShape t) := by
  unfold alignShapeWithBoundingBox
  cases boundingBox reference with
  | error e => rfl
  | ok sb =>
    simp only [bind, Except.bind, pure, Except.pure, Except.map, alignSim, if_true]
    rw [Place.movedShape_eq, Place.procrustes_trans (by norm_num), Place.then_apply, Place.movedShape_eq]

end Noise

namespace Sdm
open MI Spec

variable {N : Nat} {W Row Reg I : Type} [AddCommGroup W]

theorem startShape_moved (reference gt : Pts N 2) (kind : String) (pct : Noise.Percentage) (rot : Bool)
    (d : Noise.Draws) (t : Fin 2 → ℝ) :
    startShape reference (movedShape t gt) kind pct rot d =
      (startShape reference gt kind pct rot d).map (movedShape t) := by
  unfold startShape
  rw [Noise.boundingBox_moved]
  cases Noise.boundingBox gt with
  | error e => rfl
  | ok g =>
    simp only [Except.map, bind, Except.bind, Noise.noisyShape_moved]
    cases Noise.noisyShapeFromBoundingBox g g kind pct rot d with
    | error e => rfl
    | ok p =>
      simp only [Except.map, Noise.boundingBox_moved]
      cases Noise.boundingBox p with
      | error e => rfl
      | ok b => simp only [Except.map, Noise.alignBb_moved]

theorem mapM_moved {α β : Type} (f g : α → Except PyErr β) (m : β → β) (h : ∀ a, g a = (f a).map m) (l : List α) :
    l.mapM g = (l.mapM f).map (List.map m) := by
  induction l with
  | nil => rfl
  | cons a l ih =>
    simp only [List.mapM_cons, h a, ih]
    cases f a with
    | error e => rfl
    | ok b => cases l.mapM f <;> rfl

end Sdm
end Menpofit
