import Verif.Props.Builder
import Verif.Props.Training
import Verif.Props.UnifiedBase
/-!
# C113: `diagonal` sets the size of a model
-/

namespace Menpofit
open Training UniBase Spec Builder Error

variable {Im F W SM AM : Type} [DecidableEq F] {n : Nat}

/-- The reference shape computed from shapes whose mean is not a point has the diagonal. -/
theorem computed_diagonal {shapes : List (Shape n 2)} {d : ℝ} (hd : 0 < d) (hn : n ≠ 0)
    {m : Shape n 2} (hm : IsMeanOf shapes m) (hz : diagonalLength m ≠ 0) {r : Shape n 2}
    (h : computeReferenceShape shapes (some d) = .ok r) : diagonalLength r = d := by
  have hne : shapes ≠ [] := by
    rintro rfl
    rw [(C50_order ([] : List (Shape n 2)) [] (List.Perm.refl _) (some d)).2] at h
    cases h
  obtain ⟨r', h1, h2, -⟩ := C50_diagonal shapes d hd m hn hne hm hz
  rw [h] at h1; injection h1 with h1; rw [h1]; exact h2

/-- **C113, partial** (AAM and CLM).  Trained without a reference shape, the reference shape of the
model has exactly the requested diagonal, whatever the images, the scales and the batches.
Missing: models that are given a reference shape. -/
theorem C113_images_partial {o : ImageOps Im (Shape n 2) F} {L : Learners Im (Shape n 2) W SM AM}
    (hno : ∀ i, o.feature o.noOp i = .ok i) {d : ℝ} (hd : 0 < d) (hn : n ≠ 0)
    (ho : o.reference = fun s => computeReferenceShape s (some d))
    {levels : List (Level F)} {images b : List Im} {bs : Option Nat} {rest : List (List Im)}
    (hb : batches images bs = b :: rest) {shapes : List (Shape n 2)}
    (hs : b.mapM o.shapeOf = .ok shapes) {m : Shape n 2} (hm : IsMeanOf shapes m)
    (hz : diagonalLength m ≠ 0) {st : St (Shape n 2) SM AM}
    (h : construct o L levels none images bs = .ok st) :
    ∃ r, st.ref = some r ∧ diagonalLength r = d := by
  obtain ⟨r, h1, ⟨b', rest', shapes', e1, e2, e3⟩, -⟩ := C67_construct hno (by rw [hb]; simp) h
  rw [hb] at e1
  injection e1 with e1 _
  subst e1
  rw [hs] at e2; injection e2 with e2; subst e2
  rw [ho] at e3
  exact ⟨r, h1, computed_diagonal hd hn hm hz e3⟩

/-- **C113, partial** (ATM). -/
theorem C113_atm_partial {o : ImageOps Im (Shape n 2) F} {L : AtmOps Im (Shape n 2) W SM}
    {d : ℝ} (hd : 0 < d) (hn : n ≠ 0)
    (ho : o.reference = fun s => computeReferenceShape s (some d))
    {levels : List (Level F)} {template : Im} {shapes b : List (Shape n 2)} {bs : Option Nat}
    {rest : List (List (Shape n 2))} (hb : batches shapes bs = b :: rest) {m : Shape n 2}
    (hm : IsMeanOf b m) (hz : diagonalLength m ≠ 0) {st : AtmSt (Shape n 2) SM W}
    (h : atmConstruct o L levels none template shapes bs = .ok st) :
    ∃ r, st.ref = some r ∧ diagonalLength r = d := by
  unfold atmConstruct at h
  rw [hb] at h
  obtain ⟨r, -, h1, h2, -⟩ := atmConstruct_ok h
  unfold atmReference at h2
  rw [ho] at h2
  exact ⟨r, h1, computed_diagonal hd hn hm hz h2⟩

/-- **C113, partial** (active pictorial structures). -/
theorem C113_aps_partial {G DM : Type} {o : ImageOps Im (Shape n 2) F}
    {L : ApsOps Im (Shape n 2) W G SM DM AM} (hno : ∀ i, o.feature o.noOp i = .ok i) {d : ℝ}
    (hd : 0 < d) (hn : n ≠ 0) (ho : o.reference = fun s => computeReferenceShape s (some d))
    {levels : List (Level F)} {graphs : List (Option G)} {images b : List Im} {bs : Option Nat}
    {rest : List (List Im)} (hb : batches images bs = b :: rest) {shapes : List (Shape n 2)}
    (hs : b.mapM o.shapeOf = .ok shapes) {m : Shape n 2} (hm : IsMeanOf shapes m)
    (hz : diagonalLength m ≠ 0) {st : ApsSt (Shape n 2) G SM DM AM}
    (h : apsConstruct o L levels none graphs images bs = .ok st) :
    ∃ r, st.ref = some r ∧ diagonalLength r = d := by
  obtain ⟨r, h1, ⟨b', rest', shapes', e1, e2, e3⟩, -⟩ := C67_aps_construct hno (by rw [hb]; simp) h
  rw [hb] at e1
  injection e1 with e1 _
  subst e1
  rw [hs] at e2; injection e2 with e2; subst e2
  rw [ho] at e3
  exact ⟨r, h1, computed_diagonal hd hn hm hz e3⟩

/-- **C113** (unified AAM-CLM): always, since a given reference shape is ignored. -/
theorem C113_unified {Fr E : Type} {o : ImageOps Im (Shape n 2) F}
    {U : UniOps Im (Shape n 2) Fr W SM AM E} (hno : ∀ i, o.feature o.noOp i = .ok i) {d : ℝ}
    (hd : 0 < d) (hn : n ≠ 0) (ho : o.reference = fun s => computeReferenceShape s (some d))
    {opts : UniOpts (Shape n 2)} {levels : List (UniLevel F)} {images : List Im}
    {shapes : List (Shape n 2)} (hs : images.mapM o.shapeOf = .ok shapes) {m : Shape n 2}
    (hm : IsMeanOf shapes m) (hz : diagonalLength m ≠ 0) {st : UniSt (Shape n 2) SM AM E}
    (h : uniConstruct o U opts levels images = .ok st) :
    ∃ r, st.ref = some r ∧ diagonalLength r = d := by
  obtain ⟨r, shapes', e1, e2, h1, -⟩ := C112_train_partial hno h
  rw [hs] at e1; injection e1 with e1; subst e1
  rw [ho] at e2
  exact ⟨r, h1, computed_diagonal hd hn hm hz e2⟩

/-- **C113, violated.**  The documentation says that the reference shape is rescaled with respect
to the diagonal, but a given one is stored as it is by AAMs, CLMs, ATMs and APS, whatever the
diagonal: unless it happens to have that diagonal already, the model does not. -/
theorem C113_given_violated {G DM : Type} (o : ImageOps Im (Shape n 2) F)
    (hno : ∀ i, o.feature o.noOp i = .ok i) (d : ℝ) (given : Shape n 2)
    (hg : diagonalLength given ≠ d) :
    (∀ (L : Learners Im (Shape n 2) W SM AM) levels images bs st, batches images bs ≠ [] →
      construct o L levels (some given) images bs = .ok st →
      st.ref = some given ∧ ¬ ∃ r, st.ref = some r ∧ diagonalLength r = d) ∧
    (∀ (L : AtmOps Im (Shape n 2) W SM) levels template shapes bs st, batches shapes bs ≠ [] →
      atmConstruct o L levels (some given) template shapes bs = .ok st →
      st.ref = some given ∧ ¬ ∃ r, st.ref = some r ∧ diagonalLength r = d) ∧
    (∀ (L : ApsOps Im (Shape n 2) W G SM DM AM) levels graphs images bs st,
      batches images bs ≠ [] →
      apsConstruct o L levels (some given) graphs images bs = .ok st →
      st.ref = some given ∧ ¬ ∃ r, st.ref = some r ∧ diagonalLength r = d) := by
  have fin : ∀ {x : Option (Shape n 2)}, x = some given →
      x = some given ∧ ¬ ∃ r, x = some r ∧ diagonalLength r = d := by
    rintro x rfl
    refine ⟨rfl, ?_⟩
    rintro ⟨r, hr, h⟩
    injection hr with hr; subst hr; exact hg h
  refine ⟨fun L levels images bs st hb h => ?_, fun L levels template shapes bs st hb h => ?_,
    fun L levels graphs images bs st hb h => ?_⟩
  · obtain ⟨r, h1, h2, -⟩ := C67_construct hno hb h
    have h2 : r = given := h2
    rw [h2] at h1; exact fin h1
  · unfold atmConstruct at h
    cases hbs : batches shapes bs with
    | nil => exact absurd hbs hb
    | cons b rest =>
      rw [hbs] at h
      obtain ⟨r, -, h1, h2, -⟩ := atmConstruct_ok h
      unfold atmReference at h2
      injection h2 with h2
      rw [← h2] at h1; exact fin h1
  · obtain ⟨r, h1, h2, -⟩ := C67_aps_construct hno hb h
    have h2 : r = given := h2
    rw [h2] at h1; exact fin h1

/-! Images are shapes of two points; the mean has a diagonal of 5. -/

section example_

/-- The segment from the origin to `(3, 4)`. -/
noncomputable def segment34 : Shape 2 2 := fun i j => if i = 0 then 0 else if j = 0 then 3 else 4

theorem segment34_diagonal : diagonalLength segment34 = 5 := by
  have h0 : extent segment34 0 = 3 := by
    unfold extent segment34; simp [Stats.npMax, Stats.npMin, List.ofFn_succ]
  have h1 : extent segment34 1 = 4 := by
    unfold extent segment34; simp [Stats.npMax, Stats.npMin, List.ofFn_succ]
  unfold diagonalLength
  rw [h0, h1, show (3 : ℝ) ^ 2 + 4 ^ 2 = 5 ^ 2 by norm_num, Real.sqrt_sq (by norm_num)]

/-- Images are shapes; the reference shape is computed with a diagonal of 100. -/
noncomputable def segmentImages : ImageOps (Shape 2 2) (Shape 2 2) Unit where
  reference s := computeReferenceShape s (some 100)
  rescale r _ := .ok r
  noOp := ()
  feature _ i := .ok i
  rescaleBy s i := .ok fun p c => (s : ℝ) * i p c
  shapeOf i := .ok i
  scaleShape s r := fun p c => (s : ℝ) * r p c

/-- Models that keep everything. -/
def segmentLearners : Learners (Shape 2 2) (Shape 2 2) (Shape 2 2) (List (Shape 2 2))
    (List (Shape 2 2)) where
  shape := keepAll _
  second := keepAll _
  warp _ _ i _ := .ok i

example : ∃ st r, construct segmentImages segmentLearners [⟨(), 1, none, none⟩] none
    [segment34] none = .ok st ∧ st.ref = some r ∧ diagonalLength r = 100 := by
  have hm : IsMeanOf [segment34] segment34 := by intro i j; simp
  obtain ⟨r, hr, -⟩ := C50_diagonal [segment34] 100 (by norm_num) segment34 (by norm_num)
    (by simp) hm (by rw [segment34_diagonal]; norm_num)
  have hc : construct segmentImages segmentLearners [⟨(), 1, none, none⟩] none [segment34] none =
      .ok ⟨some r, [[r]], [[r]]⟩ := by
    simp [construct, train, batches, trainLoop, reference, bind, Except.bind, pure, Except.pure,
      hr, batchLoop, featureImages, scaledImages, update, Learner.new, Learner.cut, keepAll,
      segmentLearners, segmentImages, List.mapM_cons]
  obtain ⟨r', h1, h2⟩ := C113_images_partial (o := segmentImages) (fun _ => rfl) (by norm_num)
    (by norm_num) rfl (b := [segment34]) (rest := []) rfl (shapes := [segment34]) rfl hm
    (by rw [segment34_diagonal]; norm_num) hc
  exact ⟨_, r', hc, h1, h2⟩

example : ∃ st, construct segmentImages segmentLearners [⟨(), 1, none, none⟩] (some segment34)
    [segment34] none = .ok st ∧ ¬ ∃ r, st.ref = some r ∧ diagonalLength r = 100 := by
  have hc : construct segmentImages segmentLearners [⟨(), 1, none, none⟩] (some segment34)
      [segment34] none = .ok ⟨some segment34, [[segment34]], [[segment34]]⟩ := by
    simp [construct, train, batches, trainLoop, reference, bind, Except.bind, pure, Except.pure,
      batchLoop, featureImages, scaledImages, update, Learner.new, Learner.cut, keepAll,
      segmentLearners, segmentImages, List.mapM_cons]
  refine ⟨_, hc, ((C113_given_violated (G := Unit) (DM := Unit) segmentImages (fun _ => rfl) 100
    segment34 ?_).1 segmentLearners _ _ _ _ ?_ hc).2⟩
  · rw [segment34_diagonal]; norm_num
  · simp [batches]

end example_
end Menpofit
