import Verif.Spec.Face
import Verif.Lemmas.Face
/-!
# Properties of the face error functions (C34)
-/

namespace Menpofit
open Face Spec

variable {P K : Type}

/-- **C34** (landmark identity).  Every conversion picks exactly the landmarks of the target
mark-up, in order. -/
theorem C34_landmarks (face : Fin 68 → P) :
    convert68to51 (full face) = part landmarks51 face ∧
    convert68to49 (full face) = .ok (part landmarks49 face) ∧
    convert66to49 (part landmarks66 face) = part landmarks49 face ∧
    convert51to49 (part landmarks51 face) = .ok (part landmarks49 face) := ⟨rfl, rfl, rfl, rfl⟩

/-- **C34** (the two ways from 68 to 49 points agree), also on malformed inputs, up to the
exception raised. -/
theorem C34_commute (s : List P) :
    (65 ≤ s.length → convert68to49 s = convert51to49 (convert68to51 s)) ∧
    (s.length < 65 → convert68to49 s = .error .indexError ∧
      convert51to49 (convert68to51 s) = .error .indexError) := by
  constructor
  · intro h
    rw [convert68to49_ok s h, convert51to49_ok _ (by unfold convert68to51; rw [List.length_drop]; omega)]
    congr 1
    apply List.ext_getElem?
    intro i
    rw [List.getElem?_drop, get_erase2 _ _ _ (by omega), get_erase2 _ _ _ (by omega), convert68to51,
      List.getElem?_drop]
    congr 1
    split_ifs <;> omega
  · intro h
    constructor
    · unfold convert68to49 npDelete
      rw [if_neg (by omega)]; rfl
    · unfold convert51to49 npDelete convert68to51
      rw [if_neg (by rw [List.length_drop]; omega)]; rfl

/-- The mark-ups a face can be given in, with the numbers of points. -/
inductive InMarkup (face : Fin 68 → P) : List P → Prop
  | m68 : InMarkup face (full face)
  | m66 : InMarkup face (part landmarks66 face)
  | m51 : InMarkup face (part landmarks51 face)
  | m49 : InMarkup face (part landmarks49 face)

theorem C34_to49_markup (face : Fin 68 → P) (s : List P) (h : InMarkup face s) :
    to49 s = .ok (part landmarks49 face) := by
  cases h <;> rfl

theorem markup_length (face : Fin 68 → P) (s : List P) (h : InMarkup face s) :
    s.length ∈ counts49 := by
  cases h
  · exact (by decide : 68 ∈ counts49)
  · exact (by decide : 66 ∈ counts49)
  · exact (by decide : 51 ∈ counts49)
  · exact (by decide : 49 ∈ counts49)

/-- **C34** (the mark-up does not matter).  The 49-point errors of two faces are the same,
whichever admitted mark-ups the two faces are given in. -/
theorem C34_markup_independent (o : Ops P K) (mapping : List Nat × List Nat)
    (face gtFace : Fin 68 → P) (s s' gt gt' : List P) (hs : InMarkup face s)
    (hs' : InMarkup face s') (hg : InMarkup gtFace gt) (hg' : InMarkup gtFace gt') :
    outerEye49 o s gt = outerEye49 o s' gt' ∧
    meanPupil49Error o mapping s gt = meanPupil49Error o mapping s' gt' ∧
    outerEye51 o (full face) (full gtFace) =
      outerEye51 o (part landmarks51 face) (part landmarks51 gtFace) := by
  refine ⟨?_, ?_, rfl⟩
  · unfold outerEye49
    rw [if_neg (not_not.mpr (markup_length _ _ hs)), if_neg (not_not.mpr (markup_length _ _ hg)),
      if_neg (not_not.mpr (markup_length _ _ hs')), if_neg (not_not.mpr (markup_length _ _ hg')),
      C34_to49_markup _ _ hs, C34_to49_markup _ _ hs', C34_to49_markup _ _ hg,
      C34_to49_markup _ _ hg']
  · unfold meanPupil49Error
    rw [if_neg (not_not.mpr (markup_length _ _ hs)), if_neg (not_not.mpr (markup_length _ _ hg)),
      if_neg (not_not.mpr (markup_length _ _ hs')), if_neg (not_not.mpr (markup_length _ _ hg')),
      C34_to49_markup _ _ hs, C34_to49_markup _ _ hs', C34_to49_markup _ _ hg,
      C34_to49_markup _ _ hg']

/-- **C34** (outer eye corners).  The 68-, 51- and 49-point errors of a face all divide by
the distance between the landmarks 36 and 45 of the ground truth. -/
theorem C34_outer_eyes (o : Ops P K) (face gtFace : Fin 68 → P) :
    outerEye68 o (full face) (full gtFace) =
      .ok (o.div (o.err (full face) (full gtFace)) (o.dist (gtFace 36) (gtFace 45))) ∧
    outerEye51 o (full face) (full gtFace) =
      .ok (o.div (o.err (part landmarks51 face) (part landmarks51 gtFace))
        (o.dist (gtFace 36) (gtFace 45))) ∧
    outerEye49 o (full face) (full gtFace) =
      .ok (o.div (o.err (part landmarks49 face) (part landmarks49 gtFace))
        (o.dist (gtFace 36) (gtFace 45))) := ⟨rfl, rfl, rfl⟩

theorem mapM_congr_get (idx idx' : List Nat) (s s' : List P)
    (h : List.Forall₂ (fun i j => s[i]? = s'[j]?) idx idx') : rows s idx = rows s' idx' := by
  unfold rows
  induction h with
  | nil => rfl
  | cons h1 _ ih => rw [List.mapM_cons, List.mapM_cons, h1, ih]

/-- **C34** (pupils).  If the eye indices of the 49-point mark-up denote the same landmarks
as those of the 68-point mark-up, both errors divide by the same pupil distance. -/
theorem C34_pupils (o : Ops P K) (gtFace : Fin 68 → P) (m68 m49 : List Nat × List Nat)
    (h1 : List.Forall₂ (fun i j => (full gtFace)[i]? = (part landmarks49 gtFace)[j]?) m68.1 m49.1)
    (h2 : List.Forall₂ (fun i j => (full gtFace)[i]? = (part landmarks49 gtFace)[j]?) m68.2 m49.2) :
    pupilDist o m68 (full gtFace) = pupilDist o m49 (part landmarks49 gtFace) := by
  unfold pupilDist
  rw [mapM_congr_get _ _ _ _ h1, mapM_congr_get _ _ _ _ h2]

/-- **C34** (value of the pupil errors).  Whatever the mark-ups, the error is that of the 49
points divided by the distance of the eye centres of the ground truth. -/
theorem C34_pupil_error (o : Ops P K) (mapping : List Nat × List Nat) (face gtFace : Fin 68 → P)
    (s gt l r : List P) (hs : InMarkup face s) (hg : InMarkup gtFace gt)
    (hl : mapping.1.map (fun i => (part landmarks49 gtFace)[i]?) = l.map some)
    (hr : mapping.2.map (fun i => (part landmarks49 gtFace)[i]?) = r.map some) :
    meanPupil49Error o mapping s gt = .ok (o.div
      (o.err (part landmarks49 face) (part landmarks49 gtFace)) (o.dist (o.mean l) (o.mean r))) := by
  have key : ∀ (x : List P) (idx : List Nat) (l : List P), idx.map (fun i => x[i]?) = l.map some →
      rows x idx = .ok l := by
    intro x idx
    induction idx with
    | nil => intro l h; cases l with
      | nil => rfl
      | cons a l => simp at h
    | cons i idx ih =>
      intro l h
      cases l with
      | nil => simp at h
      | cons a l =>
        simp only [List.map_cons, List.cons.injEq] at h
        have := ih l h.2
        unfold rows at this ⊢
        rw [List.mapM_cons, h.1, this]; rfl
  unfold meanPupil49Error pupilDist
  rw [if_neg (not_not.mpr (markup_length _ _ hs)), if_neg (not_not.mpr (markup_length _ _ hg)),
    C34_to49_markup _ _ hs, C34_to49_markup _ _ hg]
  simp only [bind, Except.bind, key _ _ _ hl, key _ _ _ hr]
  rfl

/-- The eyes of the ground truth as `C34_pupil_error` wants them. -/
example (gtFace : Fin 68 → P) :
    [19, 22].map (fun i => (part landmarks49 gtFace)[i]?) = [gtFace 36, gtFace 39].map some := rfl

/-- The eye indices of the iBUG mark-ups meet the hypotheses of `C34_pupils`. -/
example (gtFace : Fin 68 → P) :
    List.Forall₂ (fun (i j : Nat) => (full gtFace)[i]? = (part landmarks49 gtFace)[j]?)
      [36, 37, 38, 39, 40, 41] [19, 20, 21, 22, 23, 24] :=
  .cons rfl (.cons rfl (.cons rfl (.cons rfl (.cons rfl (.cons rfl .nil)))))

/-- **C34** (49-point error with the bounding box of all 68 points): the box is never that
of the reduced mark-up. -/
theorem C34_bounding_box (o : Ops P K) (bb : List P → K) (face gtFace : Fin 68 → P) (s : List P)
    (hs : InMarkup face s) :
    bb49 o bb s (full gtFace) = .ok (o.div (o.err (part landmarks49 face) (part landmarks49 gtFace))
      (bb (full gtFace))) := by
  unfold bb49
  rw [if_neg (not_not.mpr (markup_length _ _ hs)), C34_to49_markup _ _ hs]
  rfl

/-- **C34** (68-point error with the bounding box): the box is that of the ground truth. -/
theorem C34_bounding_box_full (o : Ops P K) (bb : List P → K) (face gtFace : Fin 68 → P) :
    bb68 o bb (full face) (full gtFace) =
      .ok (o.div (o.err (full face) (full gtFace)) (bb (full gtFace))) := by
  simp [bb68, full]

/-- **C34** (wrong point counts raise `ValueError`). -/
theorem C34_counts (o : Ops P K) (mapping : List Nat × List Nat) (bb : List P → K)
    (shape gt : List P) :
    (¬ (shape.length = 68 ∧ gt.length = 68) →
      meanPupil68Error o mapping shape gt = .error .valueError ∧
      outerEye68 o shape gt = .error .valueError ∧ bb68 o bb shape gt = .error .valueError) ∧
    (¬ (shape.length ∈ [68, 51] ∧ gt.length ∈ [68, 51]) →
      outerEye51 o shape gt = .error .valueError) ∧
    (¬ (shape.length ∈ [68, 66, 51, 49] ∧ gt.length ∈ [68, 66, 51, 49]) →
      meanPupil49Error o mapping shape gt = .error .valueError ∧
      outerEye49 o shape gt = .error .valueError) ∧
    (¬ (shape.length ∈ [68, 66, 51, 49] ∧ gt.length = 68) →
      bb49 o bb shape gt = .error .valueError) := by
  refine ⟨?_, ?_, ?_, ?_⟩
  · intro h
    by_cases h1 : shape.length = 68
    · have h2 : gt.length ≠ 68 := fun h2 => h ⟨h1, h2⟩
      simp [meanPupil68Error, outerEye68, bb68, h1, h2]
    · simp [meanPupil68Error, outerEye68, bb68, h1]
  · intro h
    unfold outerEye51
    by_cases h1 : shape.length ∈ [68, 51]
    · have h2 : gt.length ∉ [68, 51] := fun h2 => h ⟨h1, h2⟩
      rw [if_neg (not_not.mpr h1), if_pos h2]
    · rw [if_pos h1]
  · intro h
    unfold meanPupil49Error outerEye49 counts49
    by_cases h1 : shape.length ∈ [68, 66, 51, 49]
    · have h2 : gt.length ∉ [68, 66, 51, 49] := fun h2 => h ⟨h1, h2⟩
      rw [if_neg (not_not.mpr h1), if_neg (not_not.mpr h1), if_pos h2, if_pos h2]; exact ⟨rfl, rfl⟩
    · rw [if_pos h1, if_pos h1]; exact ⟨rfl, rfl⟩
  · intro h
    unfold bb49 counts49
    by_cases h1 : shape.length ∈ [68, 66, 51, 49]
    · have h2 : gt.length ≠ 68 := fun h2 => h ⟨h1, h2⟩
      rw [if_neg (not_not.mpr h1), if_pos h2]
    · rw [if_pos h1]

/-- **C34** (right counts never raise). -/
theorem C34_no_failure (o : Ops P K) (shape gt : List P) :
    (shape.length = 68 ∧ gt.length = 68 → ∃ v, outerEye68 o shape gt = .ok v) ∧
    (shape.length ∈ [68, 51] ∧ gt.length ∈ [68, 51] → ∃ v, outerEye51 o shape gt = .ok v) ∧
    (shape.length ∈ [68, 66, 51, 49] ∧ gt.length ∈ [68, 66, 51, 49] →
      ∃ v, outerEye49 o shape gt = .ok v) := by
  have hrow : ∀ (s : List P) (i : Nat), i < s.length → ∃ p, row s i = .ok p := by
    intro s i hi
    exact ⟨s[i], by unfold row; rw [List.getElem?_eq_getElem hi]⟩
  have hind : ∀ (i j : Nat) (s g : List P), i < g.length → j < g.length →
      ∃ v, indexedError o i j s g = .ok v := by
    intro i j s g hi hj
    obtain ⟨p, hp⟩ := hrow g i hi
    obtain ⟨q, hq⟩ := hrow g j hj
    exact ⟨o.div (o.err s g) (o.dist p q), by simp [indexedError, hp, hq, bind, Except.bind, pure, Except.pure]⟩
  have h49 : ∀ s : List P, s.length ∈ [68, 66, 51, 49] → ∃ t, to49 s = .ok t ∧ t.length = 49 := by
    intro s hs
    simp only [List.mem_cons, List.not_mem_nil, or_false] at hs
    unfold to49
    rcases hs with h | h | h | h
    · rw [if_pos h, convert68to49_ok s (by omega)]
      refine ⟨_, rfl, ?_⟩
      rw [List.length_drop, List.length_eraseIdx_of_lt, List.length_eraseIdx_of_lt] <;>
        (try rw [List.length_eraseIdx_of_lt]) <;> omega
    · rw [if_neg (by omega), if_pos h]
      exact ⟨_, rfl, by unfold convert66to49; rw [List.length_drop]; omega⟩
    · rw [if_neg (by omega), if_neg (by omega), if_pos h, convert51to49_ok s (by omega)]
      refine ⟨_, rfl, ?_⟩
      rw [List.length_eraseIdx_of_lt, List.length_eraseIdx_of_lt] <;>
        (try rw [List.length_eraseIdx_of_lt]) <;> omega
    · rw [if_neg (by omega), if_neg (by omega), if_neg (by omega)]
      exact ⟨s, rfl, h⟩
  refine ⟨?_, ?_, ?_⟩
  · rintro ⟨h1, h2⟩
    simp only [outerEye68, h1, h2, ne_eq, not_true, if_false]
    exact hind _ _ _ _ (by omega) (by omega)
  · rintro ⟨h1, h2⟩
    unfold outerEye51
    rw [if_neg (not_not.mpr h1), if_neg (not_not.mpr h2)]
    have : 51 ≤ (to51 gt).length := by
      simp only [List.mem_cons, List.not_mem_nil, or_false] at h2
      unfold to51 convert68to51
      split
      · rw [List.length_drop]; omega
      · omega
    exact hind _ _ _ _ (by omega) (by omega)
  · rintro ⟨h1, h2⟩
    unfold outerEye49 counts49
    rw [if_neg (not_not.mpr h1), if_neg (not_not.mpr h2)]
    obtain ⟨t, ht, -⟩ := h49 shape h1
    obtain ⟨g, hg, hl⟩ := h49 gt h2
    simp only [ht, hg, bind, Except.bind]
    exact hind _ _ _ _ (by omega) (by omega)

end Menpofit
