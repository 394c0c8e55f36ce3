import Verif.Lemmas.Renumber
import Verif.Lemmas.Stats
/-!
# Properties: how the landmarks are numbered does not matter (C136)

Errors, the alignment of training shapes and shape models.
-/

namespace Menpofit
open MI Spec Matrix

section
variable {n d : Nat} (σ : Equiv.Perm (Fin n))

theorem ofFn_renumber_max (f : Fin n → ℝ) : Stats.npMax (List.ofFn fun i => f (σ i)) = Stats.npMax (List.ofFn f) := by
  rcases Nat.eq_zero_or_pos n with rfl | hn
  · simp
  · have hne : List.ofFn f ≠ [] := by simp; omega
    refine npMax_unique ?_ fun x hx => ?_
    · obtain ⟨i, hi⟩ := (List.mem_ofFn' f _).1 (npMax_mem hne)
      exact (List.mem_ofFn' _ _).2 ⟨σ.symm i, by simpa using hi⟩
    · obtain ⟨i, hi⟩ := (List.mem_ofFn' _ _).1 hx
      exact npMax_ge ((List.mem_ofFn' f _).2 ⟨σ i, hi⟩)

theorem ofFn_renumber_min (f : Fin n → ℝ) : Stats.npMin (List.ofFn fun i => f (σ i)) = Stats.npMin (List.ofFn f) := by
  rcases Nat.eq_zero_or_pos n with rfl | hn
  · simp
  · have hne : List.ofFn f ≠ [] := by simp; omega
    refine npMin_unique ?_ fun x hx => ?_
    · obtain ⟨i, hi⟩ := (List.mem_ofFn' f _).1 (npMin_mem hne)
      exact (List.mem_ofFn' _ _).2 ⟨σ.symm i, by simpa using hi⟩
    · obtain ⟨i, hi⟩ := (List.mem_ofFn' _ _).1 hx
      exact npMin_le ((List.mem_ofFn' f _).2 ⟨σ i, hi⟩)

/-- **C136** (errors).  Renumbering both shapes (and the shape that normalises) leaves the Euclidean and the root mean
square error alone, and every error normalised by a bounding box: same value or same exception. -/
theorem C136_errors (shape gt : Error.Shape n d) (normShape : Option (Error.Shape n d)) (normType : String) :
    Error.euclideanError (renumberRows σ shape) (renumberRows σ gt) = Error.euclideanError shape gt ∧
    Error.rootMeanSquareError (renumberRows σ shape) (renumberRows σ gt) = Error.rootMeanSquareError shape gt ∧
    Error.euclideanBbNormalisedError (renumberRows σ shape) (renumberRows σ gt) (normShape.map (renumberRows σ)) normType =
      Error.euclideanBbNormalisedError shape gt normShape normType ∧
    Error.rmsBbNormalisedError (renumberRows σ shape) (renumberRows σ gt) (normShape.map (renumberRows σ)) normType =
      Error.rmsBbNormalisedError shape gt normShape normType := by
  have h1 : Error.euclideanError (renumberRows σ shape) (renumberRows σ gt) = Error.euclideanError shape gt := by
    unfold Error.euclideanError
    congr 1
    exact Equiv.sum_comp σ fun i => Real.sqrt (∑ j, (shape i j - gt i j) ^ 2)
  have h2 : Error.rootMeanSquareError (renumberRows σ shape) (renumberRows σ gt) = Error.rootMeanSquareError shape gt := by
    unfold Error.rootMeanSquareError
    congr 2
    exact Equiv.sum_comp σ fun i => ∑ j, (shape i j - gt i j) ^ 2
  have h3 : ∀ s : Error.Shape n d, Error.bbSides (renumberRows σ s) = Error.bbSides s := by
    intro s
    have e : ∀ j, Error.extent (renumberRows σ s) j = Error.extent s j := by
      intro j
      unfold Error.extent
      rw [← ofFn_renumber_max σ fun i => s i j, ← ofFn_renumber_min σ fun i => s i j]
      rfl
    unfold Error.bbSides
    simp only [e]
  have h4 : (normShape.map (renumberRows σ)).getD (renumberRows σ gt) = renumberRows σ (normShape.getD gt) := by
    cases normShape <;> rfl
  have h5 : ∀ (err : Error.Shape n d → Error.Shape n d → ℝ),
      err (renumberRows σ shape) (renumberRows σ gt) = err shape gt →
      Error.bbNormalisedError err (renumberRows σ shape) (renumberRows σ gt) (normShape.map (renumberRows σ)) normType =
        Error.bbNormalisedError err shape gt normShape normType := by
    intro err he
    unfold Error.bbNormalisedError Error.bbNormType
    rw [h4, he]
    split_ifs <;> simp only [bind, Except.bind, Error.bbArea, Error.bbPerimeter, Error.bbAvgEdgeLength, Error.bbDiagonal, h3]
  exact ⟨h1, h2, h5 _ h1, h5 _ h2⟩

/-- **C136** (errors normalised by the distance of two landmarks) does not hold unless the two indices are changed along
with the numbering: this is the whole difference. -/
theorem C136_indexed_errors_partial (shape gt : Error.Shape n d) (i j : Fin n) :
    Error.euclideanDistanceIndexedNormalisedError (renumberRows σ shape) (renumberRows σ gt) (σ.symm i).val (σ.symm j).val =
      Error.euclideanDistanceIndexedNormalisedError shape gt i.val j.val ∧
    Error.rmsDistanceIndexedNormalisedError (renumberRows σ shape) (renumberRows σ gt) (σ.symm i).val (σ.symm j).val =
      Error.rmsDistanceIndexedNormalisedError shape gt i.val j.val := by
  have hr : ∀ k : Fin n, Error.rowIndex n (k.val : Int) = .ok k := by
    intro k
    have h0 : ¬ ((k.val : Int) < 0) := by omega
    have h1 : (0 : Int) ≤ k.val ∧ (k.val : Int) < n := ⟨by omega, by exact_mod_cast k.isLt⟩
    simp [Error.rowIndex, h0]
  obtain ⟨h1, h2, -, -⟩ := C136_errors σ shape gt none "area"
  have h3 : Error.distanceTwoIndices (σ.symm i).val (σ.symm j).val (renumberRows σ gt) =
      Error.distanceTwoIndices i.val j.val gt := by
    unfold Error.distanceTwoIndices
    simp only [hr, bind, Except.bind, renumberRows, Equiv.apply_symm_apply]
  constructor
  · unfold Error.euclideanDistanceIndexedNormalisedError Error.distanceIndexedNormalisedError
    rw [h1, h3]
  · unfold Error.rmsDistanceIndexedNormalisedError Error.distanceIndexedNormalisedError
    rw [h2, h3]

end

/-- **C136** (errors normalised by the distance of two landmarks) is violated when the indices stay: swapping two of
three landmarks in both shapes changes the error normalised by the distance of landmarks 0 and 1. -/
theorem C136_indexed_errors_violated :
    ∃ (σ : Equiv.Perm (Fin 3)) (shape gt : Error.Shape 3 2) (a b : ℝ), a ≠ b ∧
      Error.euclideanDistanceIndexedNormalisedError shape gt 0 1 = .ok a ∧
      Error.euclideanDistanceIndexedNormalisedError (renumberRows σ shape) (renumberRows σ gt) 0 1 = .ok b := by
  refine ⟨Equiv.swap 1 2, fun _ => ![1, 0], ![![0, 0], ![1, 0], ![2, 0]], 2 / 3, 1 / 3, by norm_num, ?_, ?_⟩
  · have r0 : Error.rowIndex 3 0 = .ok 0 := rfl
    have r1 : Error.rowIndex 3 1 = .ok 1 := rfl
    simp [Error.euclideanDistanceIndexedNormalisedError, Error.distanceIndexedNormalisedError, Error.distanceTwoIndices,
      Error.euclideanError, r0, r1, bind, Except.bind, pure, Except.pure, Fin.sum_univ_succ]
    norm_num
  · have r0 : Error.rowIndex 3 0 = .ok 0 := rfl
    have r1 : Error.rowIndex 3 1 = .ok 1 := rfl
    have s0 : Equiv.swap (1 : Fin 3) 2 0 = 0 := by decide
    have s1 : Equiv.swap (1 : Fin 3) 2 1 = 2 := by decide
    have s2 : Equiv.swap (1 : Fin 3) 2 2 = 1 := by decide
    simp [Error.euclideanDistanceIndexedNormalisedError, Error.distanceIndexedNormalisedError, Error.distanceTwoIndices,
      Error.euclideanError, r0, r1, bind, Except.bind, pure, Except.pure, Fin.sum_univ_succ, renumberRows, s0, s1, s2]
    norm_num

/-! ### Alignment of training shapes -/

section
variable {n : Nat} (σ : Equiv.Perm (Fin n))
open Gpa

theorem gpa_centre (s : CShape n) : centre (renumberRows σ s) = centre s := by
  unfold centre
  congr 1
  exact Equiv.sum_comp σ s

theorem gpa_centred (s : CShape n) : Gpa.centred (renumberRows σ s) = renumberRows σ (Gpa.centred s) := by
  funext i
  simp only [Gpa.centred, gpa_centre, renumberRows]

theorem gpa_size (s : CShape n) : size (renumberRows σ s) = size s := by
  unfold size
  rw [gpa_centred]
  congr 1
  exact Equiv.sum_comp σ fun i => ‖Gpa.centred s i‖ ^ 2

theorem gpa_rotation (s t : CShape n) : rotation (renumberRows σ s) (renumberRows σ t) = rotation s t := by
  have e : correlation (renumberRows σ s) (renumberRows σ t) = correlation s t :=
    Equiv.sum_comp σ fun i => (starRingEnd ℂ) (s i) * t i
  unfold rotation
  rw [e]

theorem gpa_alignTo (t s : CShape n) : alignTo (renumberRows σ t) (renumberRows σ s) = renumberRows σ (alignTo t s) := by
  funext i
  simp only [alignTo, gpa_centre, gpa_size, gpa_centred, gpa_rotation, renumberRows]

theorem gpa_mean (l : List (CShape n)) : mean (l.map (renumberRows σ)) = renumberRows σ (mean l) := by
  funext i
  simp only [mean, renumberRows, List.map_map, List.length_map]
  rfl

theorem gpa_rescale (r : ℝ) (s : CShape n) : rescaleTo r (renumberRows σ s) = renumberRows σ (rescaleTo r s) := by
  funext i
  simp only [rescaleTo, gpa_centre, gpa_size, gpa_centred, renumberRows]

theorem gpa_distance (s t : CShape n) : distance (renumberRows σ s) (renumberRows σ t) = distance s t := by
  unfold distance
  congr 1
  exact Equiv.sum_comp σ fun i => ‖s i - t i‖ ^ 2

theorem gpa_alignAll (t : CShape n) (l : List (CShape n)) :
    (l.map (renumberRows σ)).map (alignTo (renumberRows σ t)) = (l.map (alignTo t)).map (renumberRows σ) := by
  simp only [List.map_map]
  exact List.map_congr_left fun s _ => gpa_alignTo σ t s

theorem gpa_procrustes (r : ℝ) (l : List (CShape n)) (k : Nat) (t : CShape n) :
    Gpa.procrustes r (l.map (renumberRows σ)) k (renumberRows σ t) = (Gpa.procrustes r l k t).map (renumberRows σ) := by
  induction k generalizing t with
  | zero => exact gpa_alignAll σ t l
  | succ k ih =>
    simp only [Gpa.procrustes, gpa_alignAll, gpa_mean, gpa_rescale, gpa_distance, ih]
    split <;> rfl

theorem gpa_align (l : List (CShape n)) :
    alignShapes (l.map (renumberRows σ)) = (alignShapes l).map (renumberRows σ) := by
  have e : (l.map (renumberRows σ)).map Gpa.centred = (l.map Gpa.centred).map (renumberRows σ) := by
    simp only [List.map_map]
    exact List.map_congr_left fun s _ => gpa_centred σ s
  unfold alignShapes
  simp only [e, gpa_mean, gpa_size, gpa_procrustes]

/-- **C136** (alignment).  The training shapes of a shape model, renumbered, are aligned to the same shapes, renumbered;
the data of the model after any increments is the same data, renumbered, and has the same total variance. -/
theorem C136_alignment (shapes : List (CShape n)) (increments : List (List (CShape n))) :
    alignShapes (shapes.map (renumberRows σ)) = (alignShapes shapes).map (renumberRows σ) ∧
    modelData (shapes.map (renumberRows σ)) (increments.map (List.map (renumberRows σ))) =
      (modelData shapes increments).map (renumberRows σ) ∧
    scatter (modelData (shapes.map (renumberRows σ)) (increments.map (List.map (renumberRows σ)))) =
      scatter (modelData shapes increments) := by
  have h2 : modelData (shapes.map (renumberRows σ)) (increments.map (List.map (renumberRows σ))) =
      (modelData shapes increments).map (renumberRows σ) := by
    unfold modelData
    rw [gpa_align, List.map_append, List.map_map, List.map_flatten, List.map_map]
    congr 3
    funext l
    exact gpa_align σ l
  refine ⟨gpa_align σ shapes, h2, ?_⟩
  rw [h2]
  unfold scatter
  rw [gpa_mean, List.map_map]
  congr 1
  refine List.map_congr_left fun s _ => ?_
  exact Equiv.sum_comp σ fun i => ‖s i - mean (modelData shapes increments) i‖ ^ 2

end

/-! ### Shape models -/

/-- **C136** (shape models).  An `OrthoPDM` of renumbered annotations, whatever is done to it (targets and incremented
models renumbered too), is throughout the renumbered `OrthoPDM`: the same parameters, a renumbered target. -/
theorem C136_shape_model {n : Nat} (σ : Equiv.Perm (Fin n)) (ortho : Ortho n) (ho : Unnumbered ortho) (m : Pca n 2) :
    newOPdm ortho (renumberPca σ m) = (newOPdm ortho m).map (renumberPdm σ) ∧
    ∀ p, newOPdm ortho m = .ok p → ∀ ops : List (PdmOp n 2),
      ∃ p', newOPdm ortho (renumberPca σ m) = .ok p' ∧
        oAsVector ((ops.map (renumberOp σ)).foldl (opdmStep ortho) p') = oAsVector (ops.foldl (opdmStep ortho) p) ∧
        ((ops.map (renumberOp σ)).foldl (opdmStep ortho) p').target =
          renumber σ (ops.foldl (opdmStep ortho) p).target := by
  refine ⟨Renum.newOPdm σ ho m, fun p hp ops => ⟨renumberPdm σ p, ?_, ?_, ?_⟩⟩
  · rw [Renum.newOPdm σ ho, hp]; rfl
  · rw [Renum.opdmSteps σ ho]; rfl
  · rw [Renum.opdmSteps σ ho]; rfl

/-- **C136** (shape models: exceptions).  Setting a target raises for the renumbered model exactly when it does for the
model, with the same exception. -/
theorem C136_shape_model_raises {n : Nat} (σ : Equiv.Perm (Fin n)) (p : OPdm n) (c : Cloud) (v : List ℝ) (k : Int) :
    (oSetTarget (renumberPdm σ p) (renumberCloud σ c)).2 = (oSetTarget p c).2 ∧
    (oSetActive (renumberPdm σ p) k).2 = (oSetActive p k).2 ∧
    oFromVector (renumberPdm σ p) v = (oFromVector p v).map (renumberPdm σ) := by
  rw [Renum.oSetTarget, Renum.oSetActive]
  exact ⟨rfl, rfl, Renum.oFromVector σ p v⟩

/-- Scaling every component to unit length, which orthonormalises components that are orthogonal. -/
noncomputable def unitLength {n : Nat} : Ortho n := fun a b =>
  (a.map fun v => (1 / Real.sqrt (v ⬝ᵥ v)) • v, b.map fun v => (1 / Real.sqrt (v ⬝ᵥ v)) • v)

example {n : Nat} : Unnumbered (unitLength (n := n)) := by
  intro σ a b
  simp only [unitLength, List.map_map]
  refine Prod.ext ?_ ?_
  · refine List.map_congr_left fun v _ => ?_
    simp only [Function.comp, Renum.dot, Renum.smul]
  · refine List.map_congr_left fun v _ => ?_
    simp only [Function.comp, Renum.dot, Renum.smul]

/-- A square. -/
def renumberSquare : Pca 4 2 :=
  ⟨fun ij => ![![-1, -1], ![-1, 1], ![1, 1], ![1, -1]] ij.1 ij.2, [], 0⟩

/-- A model of a square is built, and renumbering it is not the identity. -/
example : (∃ p, newOPdm unitLength renumberSquare = .ok p) ∧
    renumberPca (Equiv.swap 0 1) renumberSquare ≠ renumberSquare := by
  constructor
  · exact ⟨_, rfl⟩
  · intro h
    have := congrFun (congrArg Pca.mean h) (0, 1)
    simp [renumberPca, renumber, renumberSquare] at this
    norm_num at this

end Menpofit
