import Verif.Lemmas.Transpose
/-!
# Properties: rows and columns are treated alike (C140)

Errors, the alignment of training shapes and shape models.
-/

namespace Menpofit
open MI Spec Matrix Place

/-- **C140** (errors).  Exchanging rows and columns of both shapes (and of the shape that normalises) leaves every error
measure alone: Euclidean and root mean square, plain, normalised by a bounding box or by the distance of two landmarks. -/
theorem C140_errors {n : Nat} (shape gt : Error.Shape n 2) (normShape : Option (Error.Shape n 2)) (normType : String)
    (i j : Int) :
    Error.euclideanError (transposedRows shape) (transposedRows gt) = Error.euclideanError shape gt ∧
    Error.rootMeanSquareError (transposedRows shape) (transposedRows gt) = Error.rootMeanSquareError shape gt ∧
    Error.euclideanBbNormalisedError (transposedRows shape) (transposedRows gt) (normShape.map transposedRows) normType =
      Error.euclideanBbNormalisedError shape gt normShape normType ∧
    Error.rmsBbNormalisedError (transposedRows shape) (transposedRows gt) (normShape.map transposedRows) normType =
      Error.rmsBbNormalisedError shape gt normShape normType ∧
    Error.euclideanDistanceIndexedNormalisedError (transposedRows shape) (transposedRows gt) i j =
      Error.euclideanDistanceIndexedNormalisedError shape gt i j ∧
    Error.rmsDistanceIndexedNormalisedError (transposedRows shape) (transposedRows gt) i j =
      Error.rmsDistanceIndexedNormalisedError shape gt i j := by
  have hsum : ∀ f : Fin 2 → ℝ, ∑ j : Fin 2, f j.rev = ∑ j, f j := fun f => Equiv.sum_comp Fin.revPerm f
  have h1 : Error.euclideanError (transposedRows shape) (transposedRows gt) = Error.euclideanError shape gt := by
    unfold Error.euclideanError
    congr 1
    exact Finset.sum_congr rfl fun i _ => congrArg Real.sqrt (hsum fun j => (shape i j - gt i j) ^ 2)
  have h2 : Error.rootMeanSquareError (transposedRows shape) (transposedRows gt) = Error.rootMeanSquareError shape gt := by
    unfold Error.rootMeanSquareError
    congr 2
    exact Finset.sum_congr rfl fun i _ => hsum fun j => (shape i j - gt i j) ^ 2
  have h3 : ∀ s : Error.Shape n 2, Error.bbSides (transposedRows s) = (Error.bbSides s).map Prod.swap := by
    intro s
    unfold Error.bbSides
    by_cases hn : n = 0
    · simp [hn, Except.map]
    · simp only [hn, if_false, dif_pos, Except.map]
      rfl
  have h4 : (normShape.map transposedRows).getD (transposedRows gt) = transposedRows (normShape.getD gt) := by
    cases normShape <;> rfl
  have h5 : ∀ (err : Error.Shape n 2 → Error.Shape n 2 → ℝ),
      err (transposedRows shape) (transposedRows gt) = err shape gt →
      Error.bbNormalisedError err (transposedRows shape) (transposedRows gt) (normShape.map transposedRows) normType =
        Error.bbNormalisedError err shape gt normShape normType := by
    intro err he
    unfold Error.bbNormalisedError Error.bbNormType
    rw [h4, he]
    split_ifs <;> simp only [bind, Except.bind, Error.bbArea, Error.bbPerimeter, Error.bbAvgEdgeLength, Error.bbDiagonal, h3]
      <;> cases Error.bbSides (normShape.getD gt) <;> simp [Except.map, pure, Except.pure] <;> ring_nf
  have h6 : ∀ s : Error.Shape n 2, Error.distanceTwoIndices i j (transposedRows s) = Error.distanceTwoIndices i j s := by
    intro s
    unfold Error.distanceTwoIndices
    congr 1
    funext a
    congr 1
    funext b
    exact congrArg (fun x => Except.ok (Real.sqrt x)) (hsum fun k => (s a k - s b k) ^ 2)
  refine ⟨h1, h2, h5 _ h1, h5 _ h2, ?_, ?_⟩
  · unfold Error.euclideanDistanceIndexedNormalisedError Error.distanceIndexedNormalisedError
    rw [h6, h1]
  · unfold Error.rmsDistanceIndexedNormalisedError Error.distanceIndexedNormalisedError
    rw [h6, h2]

/-! ### Alignment of training shapes -/

section
open Gpa
variable {n : Nat}

theorem mirrored_eq (s : CShape n) : mirrored s = fun i => Complex.I * (starRingEnd ℂ) (s i) := by
  funext i
  apply Complex.ext <;> simp [mirrored]

theorem mirror_centre (s : CShape n) : centre (mirrored s) = Complex.I * (starRingEnd ℂ) (centre s) := by
  unfold centre
  rw [mirrored_eq, ← Finset.mul_sum, map_div₀, map_sum, mul_div_assoc]
  simp

theorem mirror_centred (s : CShape n) : Gpa.centred (mirrored s) = mirrored (Gpa.centred s) := by
  rw [mirrored_eq (Gpa.centred s)]
  funext i
  simp only [Gpa.centred, mirror_centre]
  rw [mirrored_eq, map_sub, mul_sub]

theorem conj_norm (a b : ℂ) : ‖Complex.I * (starRingEnd ℂ) a - Complex.I * (starRingEnd ℂ) b‖ = ‖a - b‖ := by
  rw [← mul_sub, ← map_sub, norm_mul, Complex.norm_I, one_mul]
  exact RCLike.norm_conj _

theorem mirror_norm (s : CShape n) (i : Fin n) : ‖mirrored s i‖ = ‖s i‖ := by
  rw [mirrored_eq]
  simp

theorem mirror_size (s : CShape n) : size (mirrored s) = size s := by
  unfold size
  simp only [mirror_centred, mirror_norm]

theorem mirror_correlation (s t : CShape n) :
    correlation (mirrored s) (mirrored t) = (starRingEnd ℂ) (correlation s t) := by
  unfold correlation
  rw [map_sum]
  refine Finset.sum_congr rfl fun i _ => ?_
  rw [mirrored_eq, mirrored_eq]
  simp only [map_mul, Complex.conj_I, Complex.conj_conj]
  have := Complex.I_mul_I
  linear_combination (-(s i) * (starRingEnd ℂ) (t i)) * this

theorem mirror_rotation (s t : CShape n) : rotation (mirrored s) (mirrored t) = (starRingEnd ℂ) (rotation s t) := by
  unfold rotation
  rw [mirror_correlation]
  by_cases h : correlation s t = 0
  · simp [h]
  · rw [if_neg h, if_neg (by simpa using h), map_div₀]
    simp

theorem mirror_alignTo (t s : CShape n) : alignTo (mirrored t) (mirrored s) = mirrored (alignTo t s) := by
  rw [mirrored_eq (alignTo t s)]
  funext i
  simp only [alignTo, mirror_centre, mirror_size, mirror_centred, mirror_rotation]
  rw [mirrored_eq (Gpa.centred s)]
  simp only [map_add, map_mul, Complex.conj_ofReal]
  ring

theorem mirror_mean (l : List (CShape n)) : mean (l.map mirrored) = mirrored (mean l) := by
  rw [mirrored_eq (mean l)]
  funext i
  simp only [mean, List.map_map, List.length_map, map_div₀, Complex.conj_natCast, map_list_sum]
  rw [← mul_div_assoc, ← List.sum_map_mul_left]
  congr 2
  refine List.map_congr_left fun s _ => ?_
  simp only [Function.comp, mirrored_eq]

theorem mirror_rescale (r : ℝ) (s : CShape n) : rescaleTo r (mirrored s) = mirrored (rescaleTo r s) := by
  rw [mirrored_eq (rescaleTo r s)]
  funext i
  simp only [rescaleTo, mirror_centre, mirror_size, mirror_centred]
  rw [mirrored_eq (Gpa.centred s)]
  simp only [map_add, map_mul, Complex.conj_ofReal]
  ring

theorem mirror_distance (s t : CShape n) : distance (mirrored s) (mirrored t) = distance s t := by
  unfold distance
  congr 1
  refine Finset.sum_congr rfl fun i _ => ?_
  rw [mirrored_eq, mirrored_eq, conj_norm]

theorem mirror_alignAll (t : CShape n) (l : List (CShape n)) :
    (l.map mirrored).map (alignTo (mirrored t)) = (l.map (alignTo t)).map mirrored := by
  simp only [List.map_map]
  exact List.map_congr_left fun s _ => mirror_alignTo t s

theorem mirror_procrustes (r : ℝ) (l : List (CShape n)) (k : Nat) (t : CShape n) :
    Gpa.procrustes r (l.map mirrored) k (mirrored t) = (Gpa.procrustes r l k t).map mirrored := by
  induction k generalizing t with
  | zero => exact mirror_alignAll t l
  | succ k ih =>
    simp only [Gpa.procrustes, mirror_alignAll, mirror_mean, mirror_rescale, mirror_distance, ih]
    split <;> rfl

theorem mirror_align (l : List (CShape n)) : alignShapes (l.map mirrored) = (alignShapes l).map mirrored := by
  have e : (l.map mirrored).map Gpa.centred = (l.map Gpa.centred).map mirrored := by
    simp only [List.map_map]
    exact List.map_congr_left fun s _ => mirror_centred s
  unfold alignShapes
  simp only [e, mirror_mean, mirror_size, mirror_procrustes]

/-- **C140** (alignment).  Training shapes with rows and columns exchanged are aligned to the same shapes, exchanged: they
are turned the other way round.  The data of a shape model after any increments is the same data, exchanged, and has the
same total variance. -/
theorem C140_alignment (shapes : List (CShape n)) (increments : List (List (CShape n))) :
    alignShapes (shapes.map mirrored) = (alignShapes shapes).map mirrored ∧
    modelData (shapes.map mirrored) (increments.map (List.map mirrored)) = (modelData shapes increments).map mirrored ∧
    scatter (modelData (shapes.map mirrored) (increments.map (List.map mirrored))) =
      scatter (modelData shapes increments) := by
  have h2 : modelData (shapes.map mirrored) (increments.map (List.map mirrored)) =
      (modelData shapes increments).map mirrored := by
    unfold modelData
    rw [mirror_align, List.map_append, List.map_map, List.map_flatten, List.map_map]
    congr 3
    funext l
    exact mirror_align l
  refine ⟨mirror_align shapes, h2, ?_⟩
  rw [h2]
  unfold scatter
  rw [mirror_mean, List.map_map]
  congr 1
  refine List.map_congr_left fun s _ => Finset.sum_congr rfl fun i _ => ?_
  rw [mirrored_eq, mirrored_eq, conj_norm]

end

/-! ### Shape models -/

section
variable {n : Nat} {ortho : Ortho n}

/-- **C140** (building a shape model).  From statistics with rows and columns exchanged, the `OrthoPDM` with rows and
columns exchanged is built, up to the signs of its components, or the same exception is raised.  Its similarity
parameters have the two translations exchanged. -/
theorem C140_shape_model (ho : TransposeBlind ortho) (m : Pca n 2) :
    ∃ e ε, Signs e ∧ Signs ε ∧ newOPdm ortho (transposedPca m) = (newOPdm ortho m).map fun p => flipPdm ε (transposedPdm e p) :=
  Cross.newOPdm ho m

/-- **C140** (using a shape model).  With rows and columns exchanged, setting a target, a number of components or a
parameter vector does the same, exchanged, or raises the same exception. -/
theorem C140_shape_model_operations (e : Fin 4 → ℝ) (he : Signs e) (p : OPdm n) (h4 : p.simComps.length = 4) :
    (∀ c, oSetTarget (transposedPdm e p) (transposedCloud c) =
      (transposedPdm e (oSetTarget p c).1, (oSetTarget p c).2)) ∧
    (∀ k, oSetActive (transposedPdm e p) k = (transposedPdm e (oSetActive p k).1, (oSetActive p k).2)) ∧
    (∀ v, 4 ≤ v.length → oFromVector (transposedPdm e p) (transposedVector e v) =
      (oFromVector p v).map (transposedPdm e)) :=
  ⟨Cross.oSetTarget he p h4, Cross.oSetActive he p h4, Cross.oFromVector he p h4⟩

/-- **C140** (the history of a shape model).  Whatever targets and numbers of components are set and whatever statistics
the model is incremented with, the target of the model of exchanged annotations is always the exchanged target, and its
weights differ only in sign. -/
theorem C140_shape_model_history (ho : TransposeBlind ortho) (m : Pca n 2) (p : OPdm n)
    (hp : newOPdm ortho m = .ok p) (ops ops' : List (PdmOp n 2)) (h : List.Forall₂ SameTransposed ops ops') :
    ∃ p' ε, newOPdm ortho (transposedPca m) = .ok p' ∧ Signs ε ∧
      (ops'.foldl (opdmStep ortho) p').target = transposed (ops.foldl (opdmStep ortho) p).target ∧
      (ops'.foldl (opdmStep ortho) p').weights = flipWeights ε (ops.foldl (opdmStep ortho) p).weights := by
  obtain ⟨e₁, ε₁, h1, h1', h1''⟩ := Cross.newOPdm ho m
  rw [hp] at h1''
  have key : ∀ (ops ops' : List (PdmOp n 2)), List.Forall₂ SameTransposed ops ops' → ∀ (e : Fin 4 → ℝ) (ε : Nat → ℝ),
      Signs e → Signs ε → ∀ p : OPdm n, p.simComps.length = 4 → ∃ e' ε', Signs e' ∧ Signs ε' ∧
        ops'.foldl (opdmStep ortho) (Cross.both e ε p) = Cross.both e' ε' (ops.foldl (opdmStep ortho) p) := by
    intro ops ops' h
    induction h with
    | nil => exact fun e ε h h' p _ => ⟨e, ε, h, h', rfl⟩
    | cons ho' _ ih =>
      intro e ε he hε p h4
      rw [List.foldl_cons, List.foldl_cons]
      cases ho' with
      | target c =>
        have e1 : opdmStep ortho (Cross.both e ε p) (.target (transposedCloud c)) =
            Cross.both e ε (opdmStep ortho p (.target c)) := by
          simp only [opdmStep, Cross.both_setTarget he hε p h4]
        rw [e1]
        exact ih e ε he hε _ (by simp only [opdmStep, Cross.setTarget_comps]; exact h4)
      | active k =>
        have e1 : opdmStep ortho (Cross.both e ε p) (.active k) = Cross.both e ε (opdmStep ortho p (.active k)) := by
          simp only [opdmStep, Cross.both_setActive he hε p h4]
        rw [e1]
        exact ih e ε he hε _ (by simp only [opdmStep, Cross.setActive_comps]; exact h4)
      | increment m =>
        obtain ⟨e3, ε3, h3, h3', h3''⟩ := Cross.both_increment ho (e := e) (ε := ε) p m
        have e1 : opdmStep ortho (Cross.both e ε p) (.increment (transposedPca m)) =
            Cross.both e3 ε3 (opdmStep ortho p (.increment m)) := by
          simp only [opdmStep, h3'']
        rw [e1]
        exact ih e3 ε3 h3 h3' _ (Cross.increment_comps ho p m)
  obtain ⟨e', ε', he', hε', h'⟩ := key ops ops' h e₁ ε₁ h1 h1' p (Cross.newOPdm_comps ho hp)
  refine ⟨Cross.both e₁ ε₁ p, ε', h1'', hε', ?_, ?_⟩ <;> rw [h'] <;> rfl

/-- Scaling every component to unit length treats rows and columns alike. -/
theorem unitLength_transpose : TransposeBlind (n := n) fun a b =>
    (a.map fun v => (1 / Real.sqrt (v ⬝ᵥ v)) • v, b.map fun v => (1 / Real.sqrt (v ⬝ᵥ v)) • v) := by
  intro s b
  refine ⟨by simp [similarityComponents], ![1, -1, 1, 1], fun _ => 1, ?_, fun _ => Or.inl rfl, ?_⟩
  · intro i; fin_cases i <;> simp
  · rw [Cross.similarityComponents]
    have hd : ∀ v w : Pts n 2, transposed v ⬝ᵥ transposed w = v ⬝ᵥ w := Cross.dot
    have hone : ∀ l : List (Pts n 2), flipComps (fun _ => 1) l = l := by
      intro l
      unfold flipComps
      refine List.ext_getElem (by simp) fun i _ _ => by simp
    rw [hone, List.map_map, List.map_map]
    refine Prod.ext ?_ ?_
    · simp only [crossed, similarityComponents, List.map_cons, List.map_nil, List.getD_cons_zero, List.getD_cons_succ,
        Matrix.cons_val_zero, Matrix.cons_val_one, Matrix.cons_val, one_smul, neg_smul, neg_dotProduct, dotProduct_neg,
        neg_neg, hd, smul_neg]
      rfl
    · show (b.map transposed).map _ = b.map _
      rw [List.map_map]
      exact List.map_congr_left fun v _ => by simp only [Function.comp, hd]; rfl

/-- A square that gets wider, and one that gets higher: models of both are built. -/
example : ∃ m : Pca 4 2, (∃ p, newOPdm (fun a b => (a.map fun v => (1 / Real.sqrt (v ⬝ᵥ v)) • v,
    b.map fun v => (1 / Real.sqrt (v ⬝ᵥ v)) • v)) m = .ok p) ∧ transposedPca m ≠ m := by
  refine ⟨⟨fun ij => ![![-1, -1], ![-1, 1], ![1, 1], ![1, -1]] ij.1 ij.2,
    [fun ij => ![![0, -1], ![0, 1], ![0, 1], ![0, -1]] ij.1 ij.2], 1⟩, ⟨_, rfl⟩, fun h => ?_⟩
  have := congrArg (fun m : Pca 4 2 => (m.comps.getD 0 0) (1, 1)) h
  simp [transposedPca, transposed, Fin.rev] at this

end
end Menpofit
