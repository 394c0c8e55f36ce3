import Verif.Spec.LinearTraining
import Verif.Lemmas.LinearTraining
import Verif.Props.Base
import Mathlib.Data.Rat.Floor
/-!
# C110: training linear models at several scales and in several batches
-/

namespace Menpofit
open Training LinTrain Spec

section
variable {Im Sh D Fr W SM AM F : Type} [DecidableEq F]

/-- C110, constructor: trained on one batch, a linear model has one dense shape model and one
appearance model per scale.  Both are built in the reference frame of that scale: the dense
shapes are those of the landmarks at that scale in this frame, and the images are warped into
it.  The frame belongs to the mean of the aligned shapes of the scale. -/
theorem C110_construct {o : ImageOps Im Sh F} {L : LinOps Im Sh D Fr W SM AM}
    (hno : ∀ i, o.feature o.noOp i = .ok i) {levels : List (Level F)} {given : Option Sh}
    {images : List Im} {st : LinSt Sh Fr SM AM}
    (h : linConstruct o L levels given images none = .ok st) :
    ∃ ref, st.ref = some ref ∧ ReferenceFrom o given [images] ref ∧
    st.shapeModels.length = levels.length ∧ st.second.length = levels.length ∧
    ∀ j l, levels[j]? = some l → ∃ f shapes dense warped sm am,
      images.mapM (shapeAt o ref l) = .ok shapes ∧ FrameOfScale L j shapes f ∧
      shapes.mapM (L.densify f) = .ok dense ∧ L.shape.new l.maxShape dense = .ok sm ∧
      images.mapM (warpedInto o L f ref l) = .ok warped ∧
      L.second.new l.maxSecond warped = .ok am ∧
      st.shapeModels[j]? = some sm ∧ st.second[j]? = some am := by
  obtain ⟨r, st1, h1, h2, h3, -, fs, h4, h5, h6, h7, h8⟩ := linConstruct_first hno h
  injection h3 with h3; subst h3
  refine ⟨r, h2, h1, h5, h6, fun j l hl => ?_⟩
  obtain ⟨f, sm, am, e1, e2, e3, s, d, w, q1, q2, q3, q4, q5, q6⟩ := h8 j l hl
  exact ⟨f, s, d, w, sm, am, q1, q2, q3, q4, q5, q6, e2, e3⟩

/-- C110 with one scale, any batch size: there is one reference frame, that of the first batch.
The shape model is built from the dense shapes of the first batch in this frame and incremented
with those of every later batch in the same frame; likewise the appearance model.  Missing:
several scales, see `C110_increment_violated`. -/
theorem C110_one_scale_partial {o : ImageOps Im Sh F} {L : LinOps Im Sh D Fr W SM AM}
    (hno : ∀ i, o.feature o.noOp i = .ok i) {l : Level F} {given : Option Sh}
    {images b : List Im} {rest : List (List Im)} {bs : Option Nat} {st : LinSt Sh Fr SM AM}
    (hb : batches images bs = b :: rest)
    (h : linConstruct o L [l] given images bs = .ok st) :
    ∃ ref f shapes dense warped sm0 am0 sm am, st.ref = some ref ∧
      ReferenceFrom o given (b :: rest) ref ∧
      b.mapM (shapeAt o ref l) = .ok shapes ∧ FrameOfScale L 0 shapes f ∧ st.frame = some f ∧
      shapes.mapM (L.densify f) = .ok dense ∧ L.shape.new l.maxShape dense = .ok sm0 ∧
      Continued (L.shape.inc l.maxShape) (denseIn o L f ref l) sm0 rest sm ∧
      b.mapM (warpedInto o L f ref l) = .ok warped ∧ L.second.new l.maxSecond warped = .ok am0 ∧
      Continued (L.second.inc l.maxSecond) (fun b => b.mapM (warpedInto o L f ref l)) am0 rest am ∧
      st.shapeModels = [sm] ∧ st.second = [am] := by
  unfold linConstruct at h
  rw [hb] at h
  obtain ⟨r, st1, h1, h2, h3, -, fs, h4, h5, h6, h7, h8⟩ := linConstruct_first hno h
  obtain ⟨f, sm0, am0, e1, e2, e3, s, d, w, q1, q2, q3, q4, q5, q6⟩ := h8 0 l rfl
  have hf : st1.frame = some f := by
    rw [h7]
    match fs, h4 with
    | [f'], _ => simpa using e1
  obtain ⟨r1, r2, r3, r4⟩ := linTrain_chain hno (Or.inl Nat.one_pos) h2 hf h3
  obtain ⟨a1, a2⟩ := r3.continued
  obtain ⟨a3, a4⟩ := r4.continued
  obtain ⟨sm, b1, b2⟩ := a2 0 l sm0 rfl e2
  obtain ⟨am, b3, b4⟩ := a4 0 l am0 rfl e3
  refine ⟨r, f, s, d, w, sm0, am0, sm, am, r1, h1, q1, q2, r2, q3, q4, b2, q5, q6, b4, ?_, ?_⟩
  · rw [h5] at a1
    match hs : st.shapeModels, a1 with
    | [x], _ => rw [hs] at b1; simpa using b1
  · rw [h6] at a3
    match hs : st.second, a3 with
    | [x], _ => rw [hs] at b3; simpa using b3

/-- C110, `increment` of a model with one scale: the frame stays, and the models are continued
with the dense shapes and warped images of all batches in this frame. -/
theorem C110_increment_partial {o : ImageOps Im Sh F} {L : LinOps Im Sh D Fr W SM AM}
    (hno : ∀ i, o.feature o.noOp i = .ok i) {l : Level F} {ref : Sh} {f : Fr} {sm : SM} {am : AM}
    {images : List Im} {bs : Option Nat} {st' : LinSt Sh Fr SM AM}
    (h : linIncrement o L [l] ⟨some ref, some f, [sm], [am]⟩ images bs = .ok st') :
    ∃ sm' am', st' = ⟨some ref, some f, [sm'], [am']⟩ ∧
      Continued (L.shape.inc l.maxShape) (denseIn o L f ref l) sm (batches images bs) sm' ∧
      Continued (L.second.inc l.maxSecond) (fun b => b.mapM (warpedInto o L f ref l)) am
        (batches images bs) am' := by
  obtain ⟨r1, r2, r3, r4⟩ := linTrain_chain hno (Or.inr rfl) rfl rfl h
  obtain ⟨a1, a2⟩ := r3.continued
  obtain ⟨a3, a4⟩ := r4.continued
  obtain ⟨sm', b1, b2⟩ := a2 0 l sm rfl rfl
  obtain ⟨am', b3, b4⟩ := a4 0 l am rfl rfl
  refine ⟨sm', am', ?_, b2, b4⟩
  obtain ⟨x1, x2, x3, x4⟩ := st'
  simp only at r1 r2 a1 a3 b1 b3
  subst r1; subst r2
  congr 1
  · match x3, a1 with
    | [x], _ => simpa using b1
  · match x4, a3 with
    | [x], _ => simpa using b3

/-- C110 fails with several scales: the model keeps the reference frame of the highest scale only.
As soon as two scales have dense shapes with different numbers of points, incrementing the
trained model with any images raises an error. -/
theorem C110_increment_violated {o : ImageOps Im Sh F} {L : LinOps Im Sh D Fr W SM AM}
    (hno : ∀ i, o.feature o.noOp i = .ok i) {fsz : Fr → Nat} {sz : D → Nat} {msz : SM → Nat}
    (hS : Sized L fsz sz msz) {levels : List (Level F)} {given : Option Sh} {images : List Im}
    (hi : images ≠ []) {st : LinSt Sh Fr SM AM}
    (h : linConstruct o L levels given images none = .ok st) {m m' : SM}
    (hm : m ∈ st.shapeModels) (hm' : m' ∈ st.shapeModels) (hd : msz m ≠ msz m')
    {images' : List Im} (hi' : images' ≠ []) {bs : Option Nat} (hbs : bs ≠ some 0) :
    ∃ e, linIncrement o L levels st images' bs = .error e := by
  cases he : linIncrement o L levels st images' bs with
  | error e => exact ⟨e, rfl⟩
  | ok st' =>
  exfalso
  obtain ⟨b, rest, hb, hb0⟩ : ∃ b rest, batches images' bs = b :: rest ∧ b ≠ [] := by
    cases bs with
    | none => exact ⟨images', [], rfl, hi'⟩
    | some k =>
      have hk : 1 ≤ k := by
        rcases Nat.eq_zero_or_pos k with rfl | hk
        · exact absurd rfl hbs
        · exact hk
      obtain ⟨c1, c2, -⟩ := C07_batch_partition k hk images'
      cases hc : Base.batch k images' with
      | nil => rw [hc] at c1; exact absurd c1.symm hi'
      | cons b rest =>
        exact ⟨b, rest, hc, (c2 b (by rw [hc]; exact List.mem_cons_self)).1⟩
  unfold linIncrement at he
  rw [hb] at he
  exact lin_refused hno hS hi h hm hm' hd (Or.inr rfl) hb0 he

/-- C110 fails in the same way for training in batches: a second batch makes the constructor
raise, although the constructor accepts the first batch on its own. -/
theorem C110_batches_violated {o : ImageOps Im Sh F} {L : LinOps Im Sh D Fr W SM AM}
    (hno : ∀ i, o.feature o.noOp i = .ok i) {fsz : Fr → Nat} {sz : D → Nat} {msz : SM → Nat}
    (hS : Sized L fsz sz msz) {levels : List (Level F)} {ref : Sh} {b : List Im}
    (hi : b ≠ []) {st : LinSt Sh Fr SM AM}
    (h : linConstruct o L levels (some ref) b none = .ok st) {m m' : SM}
    (hm : m ∈ st.shapeModels) (hm' : m' ∈ st.shapeModels) (hd : msz m ≠ msz m')
    {b' : List Im} {rest : List (List Im)} (hi' : b' ≠ []) {images : List Im} {bs : Option Nat}
    (hb : batches images bs = b :: b' :: rest) :
    ∃ e, linConstruct o L levels (some ref) images bs = .error e := by
  cases hc : linConstruct o L levels (some ref) images bs with
  | error e => exact ⟨e, rfl⟩
  | ok st' =>
    exfalso
    unfold linConstruct at hc
    rw [hb] at hc
    obtain ⟨r, st1, -, -, h3, h4, -⟩ := linConstruct_first hno hc
    have hst : st = st1 := Except.ok.inj (h.symm.trans h4)
    subst hst
    exact lin_refused hno hS hi h hm hm' hd (Or.inl Nat.one_pos) hi' h3

/-- C110 fails for linear ATMs in the same way: once built at scales with different numbers of
points, the shape models cannot be incremented with any shapes. -/
theorem C110_atm_violated {L : LinOps Im Sh D Fr W SM AM} {fsz : Fr → Nat} {sz : D → Nat}
    {msz : SM → Nat} (hS : Sized L fsz sz msz) {sc : Rat → Sh → Sh} {shapes : List Sh}
    {levels : List (Level F)} {f : Option Fr} {ms : List SM}
    (h : linAtmBatch L sc false shapes 0 none [] levels = .ok (f, ms)) {m m' : SM}
    (hm : m ∈ ms) (hm' : m' ∈ ms) (hd : msz m ≠ msz m') {shapes' : List Sh}
    (hs : shapes' ≠ []) : ∃ e, linAtmBatch L sc true shapes' 0 f ms levels = .error e := by
  cases he : linAtmBatch L sc true shapes' 0 f ms levels with
  | error e => exact ⟨e, rfl⟩
  | ok r =>
    exfalso
    have hl := linAtm_length h
    rw [List.length_nil, Nat.zero_add] at hl
    cases f with
    | none =>
      cases levels with
      | nil => rw [List.length_eq_zero_iff.mp hl] at hm; cases hm
      | cons l ls =>
        unfold linAtmBatch at he
        obtain ⟨_, he, -⟩ := bind_ok he
        cases he
    | some f =>
      have key : ∀ x ∈ ms, msz x = fsz f := by
        intro x hx
        obtain ⟨i, hi, hix⟩ := List.mem_iff_getElem.mp hx
        refine linAtm_sizes hS hs he i x (by omega) ?_
        rw [Nat.zero_add, List.getElem?_eq_getElem hi, hix]
      exact hd ((key m hm).trans (key m' hm').symm)

end

/-- Images are squares, given by their side, which is also their shape. -/
def squares : ImageOps Rat Rat Bool where
  reference s := match s with
    | [] => .error .valueError
    | x :: _ => .ok x
  rescale r i := .ok ((r + i) / 2)
  noOp := false
  feature f i := .ok (if f then 2 * i else i)
  rescaleBy s i := .ok (s * i)
  shapeOf i := .ok i
  scaleShape s r := s * r

/-- A model of squares: its number of pixels and its data; other sizes are refused. -/
def sizedLearner : Learner (Nat × List Rat) (Nat × Rat) where
  build d := match d with
    | [] => .error .valueError
    | x :: _ => if d.all (fun y => y.1 == x.1) then .ok (x.1, d.map Prod.snd) else .error .valueError
  increment m d := if d.all (fun y => y.1 == m.1) then .ok (m.1, m.2 ++ d.map Prod.snd)
    else .error .valueError
  trim k m := (m.1, m.2.take k)

/-- The frame of a square has its pixels. -/
def squareOps : LinOps Rat Rat (Nat × Rat) Nat (Nat × Rat) (Nat × List Rat) (Nat × List Rat) where
  align s := s
  mean s := match s with
    | [] => .error .valueError
    | x :: _ => .ok x
  frame _ m := (⌊m * m⌋).toNat
  densify f s := .ok (f, s)
  shape := sizedLearner
  second := sizedLearner
  warp f i _ := .ok (f, i)

theorem squareOps_sized : Sized squareOps (fun f => f) Prod.fst Prod.fst where
  densify := by intro f s d h; injection h with h; rw [← h]
  build := by
    intro ds m h d hd
    cases ds with
    | nil => cases hd
    | cons x ds =>
      simp only [squareOps, sizedLearner] at h
      split at h
      · rename_i hall
        injection h with h
        rw [← h]
        simpa using List.all_eq_true.mp hall d hd
      · cases h
  trim := fun _ _ => rfl
  increment := by
    intro m ds d hd hne
    simp only [squareOps, sizedLearner]
    rw [if_neg]
    intro hall
    exact hne (by simpa using List.all_eq_true.mp hall d hd)
  align := fun _ => rfl

/-- Two scales. -/
def halfAndFull : List (Level Bool) := [⟨false, 1 / 2, none, none⟩, ⟨false, 1, none, none⟩]

/-- The hypotheses of C110 are met: two scales with 4 and 16 points; both ways of giving a second
batch end in `ValueError`. -/
example : (∀ i, squares.feature squares.noOp i = .ok i) ∧
    linConstruct squares squareOps halfAndFull (some 4) [4, 5] none =
      .ok ⟨some 4, some 16, [(4, [2, 9 / 4]), (16, [4, 9 / 2])],
        [(4, [2, 9 / 4]), (16, [4, 9 / 2])]⟩ ∧
    linIncrement squares squareOps halfAndFull ⟨some 4, some 16, [(4, [2, 9 / 4]),
      (16, [4, 9 / 2])], [(4, [2, 9 / 4]), (16, [4, 9 / 2])]⟩ [4] none = .error .valueError ∧
    batches [4, 5, (4 : Rat)] (some 2) = [[4, 5], [4]] ∧
    linConstruct squares squareOps halfAndFull (some 4) [4, 5, 4] (some 2) =
      .error .valueError :=
  ⟨fun _ => rfl, by decide +kernel, by decide +kernel, by decide +kernel, by decide +kernel⟩

example : linAtmBatch squareOps squares.scaleShape false [4, 6] 0 none [] halfAndFull =
      .ok (some 16, [(4, [2, 3]), (16, [4, 6])]) ∧
    linAtmBatch squareOps squares.scaleShape true [4] 0 (some 16) [(4, [2, 3]), (16, [4, 6])]
      halfAndFull = .error .valueError := by decide +kernel

/-- One scale takes any number of batches. -/
example : linConstruct squares squareOps [⟨true, 1 / 2, none, some 2⟩] none [4, 5, 6] (some 1) =
    .ok ⟨some 4, some 16, [(16, [4, 9 / 2, 5])], [(16, [4, 9 / 2])]⟩ ∧
    batches [4, 5, (6 : Rat)] (some 1) = [[4], [5], [6]] := by decide +kernel

end Menpofit
