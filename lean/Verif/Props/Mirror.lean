import Verif.Lemmas.Mirror
/-!
# Properties: a mirrored picture gives the mirrored shape (C142)

Errors, the alignment of training shapes and shape models.
-/

namespace Menpofit
open MI Spec Matrix Place

theorem reflect_extremes (m : ℝ) {l : List ℝ} (hl : l ≠ []) :
    Stats.npMax (l.map (m - ·)) = m - Stats.npMin l ∧ Stats.npMin (l.map (m - ·)) = m - Stats.npMax l := by
  cases l with
  | nil => exact absurd rfl hl
  | cons a l =>
    simp only [List.map_cons, Stats.npMax, Stats.npMin]
    clear hl
    induction l generalizing a with
    | nil => exact ⟨rfl, rfl⟩
    | cons b l ih =>
      simp only [List.map_cons, List.foldl_cons]
      rw [max_sub_sub_left, min_sub_sub_left]
      exact ⟨(ih (min a b)).1, (ih (max a b)).2⟩

/-- **C142** (errors).  Seeing both shapes (and the shape that normalises) in a mirror, wherever it stands, leaves every
error measure alone: Euclidean and root mean square, plain, normalised by a bounding box or by the distance of two
landmarks. -/
theorem C142_errors {n : Nat} (m : ℝ) (shape gt : Error.Shape n 2) (normShape : Option (Error.Shape n 2))
    (normType : String) (i j : Int) :
    Error.euclideanError (reflectedRows m shape) (reflectedRows m gt) = Error.euclideanError shape gt ∧
    Error.rootMeanSquareError (reflectedRows m shape) (reflectedRows m gt) = Error.rootMeanSquareError shape gt ∧
    Error.euclideanBbNormalisedError (reflectedRows m shape) (reflectedRows m gt) (normShape.map (reflectedRows m)) normType =
      Error.euclideanBbNormalisedError shape gt normShape normType ∧
    Error.rmsBbNormalisedError (reflectedRows m shape) (reflectedRows m gt) (normShape.map (reflectedRows m)) normType =
      Error.rmsBbNormalisedError shape gt normShape normType ∧
    Error.euclideanDistanceIndexedNormalisedError (reflectedRows m shape) (reflectedRows m gt) i j =
      Error.euclideanDistanceIndexedNormalisedError shape gt i j ∧
    Error.rmsDistanceIndexedNormalisedError (reflectedRows m shape) (reflectedRows m gt) i j =
      Error.rmsDistanceIndexedNormalisedError shape gt i j := by
  have hsum : ∀ (s t : Error.Shape n 2) (a b : Fin n), ∑ k : Fin 2, (reflectedRows m s a k - reflectedRows m t b k) ^ 2 =
      ∑ k, (s a k - t b k) ^ 2 := by
    intro s t a b
    simp [Fin.sum_univ_two, reflectedRows]
    ring
  have h1 : Error.euclideanError (reflectedRows m shape) (reflectedRows m gt) = Error.euclideanError shape gt := by
    unfold Error.euclideanError
    simp only [hsum]
  have h2 : Error.rootMeanSquareError (reflectedRows m shape) (reflectedRows m gt) =
      Error.rootMeanSquareError shape gt := by
    unfold Error.rootMeanSquareError
    simp only [hsum]
  have h3 : ∀ s : Error.Shape n 2, Error.bbSides (reflectedRows m s) = Error.bbSides s := by
    intro s
    unfold Error.bbSides
    by_cases hn : n = 0
    · simp [hn]
    · simp only [hn, if_false, dif_pos]
      have e0 : Error.extent (reflectedRows m s) ⟨0, by omega⟩ = Error.extent s ⟨0, by omega⟩ := rfl
      have e1 : Error.extent (reflectedRows m s) ⟨1, by omega⟩ = Error.extent s ⟨1, by omega⟩ := by
        have hl : (List.ofFn fun i => s i 1) ≠ [] := by
          intro h
          have := congrArg List.length h
          simp at this
          exact hn this
        have hm : (List.ofFn fun i => reflectedRows m s i 1) = (List.ofFn fun i => s i 1).map (m - ·) := by
          rw [List.map_ofFn]
          rfl
        show Stats.npMax (List.ofFn fun i => reflectedRows m s i 1) - Stats.npMin (List.ofFn fun i => reflectedRows m s i 1) =
          Stats.npMax (List.ofFn fun i => s i 1) - Stats.npMin (List.ofFn fun i => s i 1)
        rw [hm, (reflect_extremes m hl).1, (reflect_extremes m hl).2]
        ring
      rw [e0, e1]
  have h4 : (normShape.map (reflectedRows m)).getD (reflectedRows m gt) = reflectedRows m (normShape.getD gt) := by
    cases normShape <;> rfl
  have h5 : ∀ (err : Error.Shape n 2 → Error.Shape n 2 → ℝ),
      err (reflectedRows m shape) (reflectedRows m gt) = err shape gt →
      Error.bbNormalisedError err (reflectedRows m shape) (reflectedRows m gt) (normShape.map (reflectedRows m)) normType =
        Error.bbNormalisedError err shape gt normShape normType := by
    intro err he
    unfold Error.bbNormalisedError Error.bbNormType
    rw [h4, he]
    split_ifs <;> simp only [bind, Except.bind, Error.bbArea, Error.bbPerimeter, Error.bbAvgEdgeLength, Error.bbDiagonal, h3]
  have h6 : ∀ s : Error.Shape n 2, Error.distanceTwoIndices i j (reflectedRows m s) = Error.distanceTwoIndices i j s := by
    intro s
    unfold Error.distanceTwoIndices
    simp only [hsum]
  refine ⟨h1, h2, h5 _ h1, h5 _ h2, ?_, ?_⟩
  · unfold Error.euclideanDistanceIndexedNormalisedError Error.distanceIndexedNormalisedError
    rw [h6, h1]
  · unfold Error.rmsDistanceIndexedNormalisedError Error.distanceIndexedNormalisedError
    rw [h6, h2]

/-! ### Alignment of training shapes -/

section
open Gpa
variable {n : Nat}

theorem reflectedComplex_eq (s : CShape n) : reflectedComplex s = fun i => (starRingEnd ℂ) (s i) := rfl

theorem reflect_centre (s : CShape n) : centre (reflectedComplex s) = (starRingEnd ℂ) (centre s) := by
  unfold centre
  rw [reflectedComplex_eq, map_div₀, map_sum]
  simp

theorem reflect_centred (s : CShape n) : Gpa.centred (reflectedComplex s) = reflectedComplex (Gpa.centred s) := by
  rw [reflectedComplex_eq (Gpa.centred s)]
  funext i
  simp only [Gpa.centred, reflect_centre]
  rw [reflectedComplex_eq, map_sub]

theorem reflect_conj_norm (a b : ℂ) : ‖(starRingEnd ℂ) a - (starRingEnd ℂ) b‖ = ‖a - b‖ := by
  rw [← map_sub]
  exact RCLike.norm_conj _

theorem reflect_norm (s : CShape n) (i : Fin n) : ‖reflectedComplex s i‖ = ‖s i‖ := by
  rw [reflectedComplex_eq]
  simp

theorem reflect_size (s : CShape n) : size (reflectedComplex s) = size s := by
  unfold size
  simp only [reflect_centred, reflect_norm]

theorem reflect_correlation (s t : CShape n) :
    correlation (reflectedComplex s) (reflectedComplex t) = (starRingEnd ℂ) (correlation s t) := by
  unfold correlation
  rw [map_sum]
  refine Finset.sum_congr rfl fun i _ => ?_
  rw [reflectedComplex_eq, reflectedComplex_eq]
  simp only [map_mul, Complex.conj_conj]

theorem reflect_rotation (s t : CShape n) :
    rotation (reflectedComplex s) (reflectedComplex t) = (starRingEnd ℂ) (rotation s t) := by
  unfold rotation
  rw [reflect_correlation]
  by_cases h : correlation s t = 0
  · simp [h]
  · rw [if_neg h, if_neg (by simpa using h), map_div₀]
    simp

theorem reflect_alignTo (t s : CShape n) :
    alignTo (reflectedComplex t) (reflectedComplex s) = reflectedComplex (alignTo t s) := by
  rw [reflectedComplex_eq (alignTo t s)]
  funext i
  simp only [alignTo, reflect_centre, reflect_size, reflect_centred, reflect_rotation]
  rw [reflectedComplex_eq (Gpa.centred s)]
  simp only [map_add, map_mul, Complex.conj_ofReal]

theorem reflect_mean (l : List (CShape n)) : mean (l.map reflectedComplex) = reflectedComplex (mean l) := by
  rw [reflectedComplex_eq (mean l)]
  funext i
  simp only [mean, List.map_map, List.length_map, map_div₀, Complex.conj_natCast, map_list_sum]
  rfl

theorem reflect_rescale (r : ℝ) (s : CShape n) :
    rescaleTo r (reflectedComplex s) = reflectedComplex (rescaleTo r s) := by
  rw [reflectedComplex_eq (rescaleTo r s)]
  funext i
  simp only [rescaleTo, reflect_centre, reflect_size, reflect_centred]
  rw [reflectedComplex_eq (Gpa.centred s)]
  simp only [map_add, map_mul, Complex.conj_ofReal]

theorem reflect_distance (s t : CShape n) : distance (reflectedComplex s) (reflectedComplex t) = distance s t := by
  unfold distance
  congr 1
  refine Finset.sum_congr rfl fun i _ => ?_
  rw [reflectedComplex_eq, reflectedComplex_eq, reflect_conj_norm]

theorem reflect_alignAll (t : CShape n) (l : List (CShape n)) :
    (l.map reflectedComplex).map (alignTo (reflectedComplex t)) = (l.map (alignTo t)).map reflectedComplex := by
  simp only [List.map_map]
  exact List.map_congr_left fun s _ => reflect_alignTo t s

theorem reflect_procrustes (r : ℝ) (l : List (CShape n)) (k : Nat) (t : CShape n) :
    Gpa.procrustes r (l.map reflectedComplex) k (reflectedComplex t) = (Gpa.procrustes r l k t).map reflectedComplex := by
  induction k generalizing t with
  | zero => exact reflect_alignAll t l
  | succ k ih =>
    simp only [Gpa.procrustes, reflect_alignAll, reflect_mean, reflect_rescale, reflect_distance, ih]
    split <;> rfl

theorem reflect_align (l : List (CShape n)) : alignShapes (l.map reflectedComplex) = (alignShapes l).map reflectedComplex := by
  have e : (l.map reflectedComplex).map Gpa.centred = (l.map Gpa.centred).map reflectedComplex := by
    simp only [List.map_map]
    exact List.map_congr_left fun s _ => reflect_centred s
  unfold alignShapes
  simp only [e, reflect_mean, reflect_size, reflect_procrustes]

/-- **C142** (alignment).  Training shapes in a mirror are aligned to the same shapes in a mirror: they are turned the other
way round.  The data of a shape model after any increments is the same data in a mirror and has the
same total variance. -/
theorem C142_alignment (shapes : List (CShape n)) (increments : List (List (CShape n))) :
    alignShapes (shapes.map reflectedComplex) = (alignShapes shapes).map reflectedComplex ∧
    modelData (shapes.map reflectedComplex) (increments.map (List.map reflectedComplex)) = (modelData shapes increments).map reflectedComplex ∧
    scatter (modelData (shapes.map reflectedComplex) (increments.map (List.map reflectedComplex))) =
      scatter (modelData shapes increments) := by
  have h2 : modelData (shapes.map reflectedComplex) (increments.map (List.map reflectedComplex)) =
      (modelData shapes increments).map reflectedComplex := by
    unfold modelData
    rw [reflect_align, List.map_append, List.map_map, List.map_flatten, List.map_map]
    congr 3
    funext l
    exact reflect_align l
  refine ⟨reflect_align shapes, h2, ?_⟩
  rw [h2]
  unfold scatter
  rw [reflect_mean, List.map_map]
  congr 1
  refine List.map_congr_left fun s _ => Finset.sum_congr rfl fun i _ => ?_
  rw [reflectedComplex_eq, reflectedComplex_eq, reflect_conj_norm]

end

/-! ### Shape models -/

section
variable {n : Nat} {ortho : Ortho n}

/-- **C142** (building a shape model).  From reflected statistics the reflected `OrthoPDM` is built, up to the signs of
its components, or the same exception is raised. -/
theorem C142_shape_model (ho : MirrorBlind ortho) (m : Pca n 2) :
    ∃ e ε, Signs e ∧ Signs ε ∧ newOPdm ortho (reflectedPca m) = (newOPdm ortho m).map fun p => flipPdm ε (reflectedPdm e p) :=
  Mirror.newOPdm ho m

/-- **C142** (using a shape model).  In the reflected model, setting a reflected target, a number of components or a
parameter vector with the signs changed does the same in the mirror, or raises the same exception. -/
theorem C142_shape_model_operations (e : Fin 4 → ℝ) (he : Signs e) (p : OPdm n) (h4 : p.simComps.length = 4) :
    (∀ c, oSetTarget (reflectedPdm e p) (reflectedCloud c) =
      (reflectedPdm e (oSetTarget p c).1, (oSetTarget p c).2)) ∧
    (∀ k, oSetActive (reflectedPdm e p) k = (reflectedPdm e (oSetActive p k).1, (oSetActive p k).2)) ∧
    (∀ v, 4 ≤ v.length → oFromVector (reflectedPdm e p) (reflectedVector e v) =
      (oFromVector p v).map (reflectedPdm e)) :=
  ⟨Mirror.oSetTarget he p h4, Mirror.oSetActive he p h4, Mirror.oFromVector he p h4⟩

/-- **C142** (the history of a shape model).  Whatever targets and numbers of components are set and whatever statistics
the model is incremented with, the target of the model of reflected annotations is always the reflected target, and its
weights differ only in sign. -/
theorem C142_shape_model_history (ho : MirrorBlind ortho) (m : Pca n 2) (p : OPdm n)
    (hp : newOPdm ortho m = .ok p) (ops ops' : List (PdmOp n 2)) (h : List.Forall₂ SameReflected ops ops') :
    ∃ p' ε, newOPdm ortho (reflectedPca m) = .ok p' ∧ Signs ε ∧
      (ops'.foldl (opdmStep ortho) p').target = reflected (ops.foldl (opdmStep ortho) p).target ∧
      (ops'.foldl (opdmStep ortho) p').weights = flipWeights ε (ops.foldl (opdmStep ortho) p).weights := by
  obtain ⟨e₁, ε₁, h1, h1', h1''⟩ := Mirror.newOPdm ho m
  rw [hp] at h1''
  have key : ∀ (ops ops' : List (PdmOp n 2)), List.Forall₂ SameReflected ops ops' → ∀ (e : Fin 4 → ℝ) (ε : Nat → ℝ),
      Signs e → Signs ε → ∀ p : OPdm n, p.simComps.length = 4 → ∃ e' ε', Signs e' ∧ Signs ε' ∧
        ops'.foldl (opdmStep ortho) (Mirror.both e ε p) = Mirror.both e' ε' (ops.foldl (opdmStep ortho) p) := by
    intro ops ops' h
    induction h with
    | nil => exact fun e ε h h' p _ => ⟨e, ε, h, h', rfl⟩
    | cons ho' _ ih =>
      intro e ε he hε p h4
      rw [List.foldl_cons, List.foldl_cons]
      cases ho' with
      | target c =>
        have e1 : opdmStep ortho (Mirror.both e ε p) (.target (reflectedCloud c)) =
            Mirror.both e ε (opdmStep ortho p (.target c)) := by
          simp only [opdmStep, Mirror.both_setTarget he hε p h4]
        rw [e1]
        exact ih e ε he hε _ (by simp only [opdmStep, Mirror.setTarget_comps]; exact h4)
      | active k =>
        have e1 : opdmStep ortho (Mirror.both e ε p) (.active k) = Mirror.both e ε (opdmStep ortho p (.active k)) := by
          simp only [opdmStep, Mirror.both_setActive he hε p h4]
        rw [e1]
        exact ih e ε he hε _ (by simp only [opdmStep, Mirror.setActive_comps]; exact h4)
      | increment m =>
        obtain ⟨e3, ε3, h3, h3', h3''⟩ := Mirror.both_increment ho (e := e) (ε := ε) p m
        have e1 : opdmStep ortho (Mirror.both e ε p) (.increment (reflectedPca m)) =
            Mirror.both e3 ε3 (opdmStep ortho p (.increment m)) := by
          simp only [opdmStep, h3'']
        rw [e1]
        exact ih e3 ε3 h3 h3' _ (Mirror.increment_comps ho p m)
  obtain ⟨e', ε', he', hε', h'⟩ := key ops ops' h e₁ ε₁ h1 h1' p (Mirror.newOPdm_comps ho hp)
  refine ⟨Mirror.both e₁ ε₁ p, ε', h1'', hε', ?_, ?_⟩ <;> rw [h'] <;> rfl

/-- Scaling every component to unit length treats left and right alike. -/
theorem unitLength_mirror : MirrorBlind (n := n) fun a b =>
    (a.map fun v => (1 / Real.sqrt (v ⬝ᵥ v)) • v, b.map fun v => (1 / Real.sqrt (v ⬝ᵥ v)) • v) := by
  intro s b
  refine ⟨by simp [similarityComponents], ![1, -1, 1, -1], fun _ => 1, ?_, fun _ => Or.inl rfl, ?_⟩
  · intro i; fin_cases i <;> simp
  · rw [Mirror.similarityComponents]
    have hd : ∀ v w : Pts n 2, reflected v ⬝ᵥ reflected w = v ⬝ᵥ w := Mirror.dot
    have hone : ∀ l : List (Pts n 2), flipComps (fun _ => 1) l = l := by
      intro l
      unfold flipComps
      refine List.ext_getElem (by simp) fun i _ _ => by simp
    rw [hone, List.map_map, List.map_map]
    refine Prod.ext ?_ ?_
    · simp only [signedSim, similarityComponents, List.map_cons, List.map_nil, List.getD_cons_zero, List.getD_cons_succ,
        Matrix.cons_val_zero, Matrix.cons_val_one, Matrix.cons_val, one_smul, neg_smul, neg_dotProduct, dotProduct_neg,
        neg_neg, hd, smul_neg]
      simp only [Function.comp, Mirror.smul]
    · show (b.map reflected).map _ = b.map _
      rw [List.map_map]
      exact List.map_congr_left fun v _ => by simp only [Function.comp, hd, Mirror.smul]

/-- A square whose upper side moves to the right: in the mirror it moves to the left.  Models of both are built. -/
example : ∃ m : Pca 4 2, (∃ p, newOPdm (fun a b => (a.map fun v => (1 / Real.sqrt (v ⬝ᵥ v)) • v,
    b.map fun v => (1 / Real.sqrt (v ⬝ᵥ v)) • v)) m = .ok p) ∧ reflectedPca m ≠ m := by
  refine ⟨⟨fun ij => ![![-1, -1], ![-1, 1], ![1, 1], ![1, -1]] ij.1 ij.2,
    [fun ij => ![![0, 1], ![0, 1], ![0, 0], ![0, 0]] ij.1 ij.2], 1⟩, ⟨_, rfl⟩, fun h => ?_⟩
  have := congrArg (fun m : Pca 4 2 => (m.comps.getD 0 0) (1, 1)) h
  simp [reflectedPca, reflected, mirrorSign] at this
  linarith

end
end Menpofit
