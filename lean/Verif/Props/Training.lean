import Verif.Spec.Training
import Verif.Lemmas.Training
import Verif.Props.Base
/-!
# C67, C83, C84: batched training
-/

namespace Menpofit
open Training Spec

section
variable {Im Sh F W SM AM : Type} [DecidableEq F]

/-- Splitting into batches loses nothing, repeats nothing and keeps the order. -/
theorem C67_every_image_once {α : Type} (images : List α) (bs : Option Nat)
    (hb : batches images bs ≠ []) : (batches images bs).flatten = images := by
  cases bs with
  | none => simp [batches]
  | some n =>
    cases n with
    | zero => exact absurd (C07_batch_boundary 0 images).2 hb
    | succ n => exact (C07_batch_partition (n + 1) (by omega) images).1

example : batches [1, 2, 3, 4, 5] (some 2) ≠ [] ∧
    (batches [1, 2, 3, 4, 5] (some 2)).flatten = [1, 2, 3, 4, 5] := by decide +kernel

/-- C67, AAM and CLM constructors: whatever the batch size, a successful training leaves exactly
one shape model and one second model (appearance model or expert ensemble) per scale; each is
built from the data of the first batch at that scale and incremented with the data of every
later batch, in order.  The reference shape is the given one or comes from the first batch. -/
theorem C67_construct {o : ImageOps Im Sh F} {L : Learners Im Sh W SM AM}
    (hno : ∀ i, o.feature o.noOp i = .ok i) {levels : List (Level F)} {given : Option Sh}
    {images : List Im} {bs : Option Nat} {st : St Sh SM AM} (hb : batches images bs ≠ [])
    (h : construct o L levels given images bs = .ok st) :
    ∃ ref, st.ref = some ref ∧ ReferenceFrom o given (batches images bs) ref ∧
    st.shapeModels.length = levels.length ∧ st.second.length = levels.length ∧
    ∀ j l, levels[j]? = some l → ∃ sm am,
      st.shapeModels[j]? = some sm ∧ st.second[j]? = some am ∧
      Trained (L.shape.new l.maxShape) (L.shape.inc l.maxShape)
        (fun b => b.mapM (shapeAt o ref l)) (batches images bs) sm ∧
      Trained (L.second.new l.maxSecond) (L.second.inc l.maxSecond)
        (fun b => b.mapM (warpedAt o L.warp ref j l)) (batches images bs) am := by
  unfold construct train at h
  cases hbs : batches images bs with
  | nil => exact absurd hbs hb
  | cons b rest =>
    rw [hbs] at h
    obtain ⟨r, sm1, am1, h1, h2, h3, h4, h5, h6⟩ := construct_ok hno h
    obtain ⟨q1, q2⟩ := Chain.trained h3 h5
    obtain ⟨q3, q4⟩ := Chain.trained h4 h6
    refine ⟨r, h1, h2, q1, q3, fun j l hl => ?_⟩
    obtain ⟨sm, e1, e2⟩ := q2 j l hl
    obtain ⟨am, e3, e4⟩ := q4 j l hl
    exact ⟨sm, am, e1, e3, e2, e4⟩

/-- C67, AAM and CLM `increment`: the number of models does not change, the reference shape stays
and the model of each scale is the old one incremented with the data of every batch in order. -/
theorem C67_increment {o : ImageOps Im Sh F} {L : Learners Im Sh W SM AM}
    (hno : ∀ i, o.feature o.noOp i = .ok i) {levels : List (Level F)} {ref : Sh}
    {images : List Im} {bs : Option Nat} {st st' : St Sh SM AM} (hr : st.ref = some ref)
    (h : incrementModel o L levels st images bs = .ok st') :
    st'.ref = some ref ∧ st'.shapeModels.length = st.shapeModels.length ∧
    st'.second.length = st.second.length ∧
    ∀ j l sm am, levels[j]? = some l → st.shapeModels[j]? = some sm → st.second[j]? = some am →
      ∃ sm' am', st'.shapeModels[j]? = some sm' ∧ st'.second[j]? = some am' ∧
      Continued (L.shape.inc l.maxShape) (fun b => b.mapM (shapeAt o ref l)) sm
        (batches images bs) sm' ∧
      Continued (L.second.inc l.maxSecond) (fun b => b.mapM (warpedAt o L.warp ref j l)) am
        (batches images bs) am' := by
  obtain ⟨q1, q2, q3⟩ := trainLoop_chain hno (Or.inr rfl) hr h
  obtain ⟨e1, e2⟩ := q2.continued
  obtain ⟨e3, e4⟩ := q3.continued
  refine ⟨q1, e1, e3, fun j l sm am hl hs ha => ?_⟩
  obtain ⟨sm', a1, a2⟩ := e2 j l sm hl hs
  obtain ⟨am', a3, a4⟩ := e4 j l am hl ha
  exact ⟨sm', am', a1, a3, a2, a4⟩

/-- C67, independence of the batch size: when incrementing a model is exact (it gives the model
built from the concatenated data), the models are the ones built from all images at once. -/
theorem C67_batch_invariant {o : ImageOps Im Sh F} {L : Learners Im Sh W SM AM}
    (hno : ∀ i, o.feature o.noOp i = .ok i) {levels : List (Level F)} {given : Sh}
    {images : List Im} {bs : Option Nat} {st : St Sh SM AM} (hb : batches images bs ≠ [])
    (hs : ∀ k a d m, L.shape.new k a = .ok m → L.shape.inc k m d = L.shape.new k (a ++ d))
    (ha : ∀ k a d m, L.second.new k a = .ok m → L.second.inc k m d = L.second.new k (a ++ d))
    (h : construct o L levels (some given) images bs = .ok st) :
    ∀ j l, levels[j]? = some l → ∃ shapes warped sm am,
      images.mapM (shapeAt o given l) = .ok shapes ∧
      images.mapM (warpedAt o L.warp given j l) = .ok warped ∧
      L.shape.new l.maxShape shapes = .ok sm ∧ L.second.new l.maxSecond warped = .ok am ∧
      st.shapeModels[j]? = some sm ∧ st.second[j]? = some am := by
  intro j l hl
  obtain ⟨ref, h1, h2, -, -, h3⟩ := C67_construct hno hb h
  obtain ⟨sm, am, e1, e2, e3, e4⟩ := h3 j l hl
  have hr : ref = given := h2
  subst hr
  obtain ⟨b, r, d, m0, q1, q2, q3, q4⟩ := trained_exact (hs l.maxShape) e3
  obtain ⟨b', r', d', m0', s1, s2, s3, s4⟩ := trained_exact (ha l.maxSecond) e4
  rw [C67_every_image_once images bs hb] at q1 s1
  injection q1 with q1 q1'; subst q1; subst q1'
  injection s1 with s1 s1'; subst s1; subst s1'
  cases q4
  cases s4
  exact ⟨d, d', sm, am, q2, s2, q3, s3, e1, e2⟩

/-- C67 fails without images or with `batch_size=0`: when there is no batch at all, the constructor
succeeds and leaves no model, whatever the number of scales. -/
theorem C67_no_batch_violated (o : ImageOps Im Sh F) (L : Learners Im Sh W SM AM)
    (levels : List (Level F)) (given : Option Sh) :
    (∀ n, construct o L levels given [] (some n) = .ok ⟨given, [], []⟩) ∧
    ∀ images, construct o L levels given images (some 0) = .ok ⟨given, [], []⟩ := by
  refine ⟨fun n => ?_, fun images => ?_⟩
  · have e : batches ([] : List Im) (some n) = [] := (C07_batch_boundary n ([] : List Im)).1
    unfold construct train
    rw [e]; rfl
  · have e : batches images (some 0) = [] := (C07_batch_boundary 0 images).2
    unfold construct train
    rw [e]; rfl

/-- C84, AAM and CLM: if trimming to `k` leaves at most `k` components, no trained shape or
second model has more components than the maximum set for its scale. -/
theorem C84_construct_limit {o : ImageOps Im Sh F} {L : Learners Im Sh W SM AM}
    (hno : ∀ i, o.feature o.noOp i = .ok i) {levels : List (Level F)} {given : Option Sh}
    {images : List Im} {bs : Option Nat} {st : St Sh SM AM} (hb : batches images bs ≠ [])
    {nS : SM → Nat} {nA : AM → Nat} (hS : ∀ k m, nS (L.shape.trim k m) ≤ k)
    (hA : ∀ k m, nA (L.second.trim k m) ≤ k)
    (h : construct o L levels given images bs = .ok st) {j k : Nat} {l : Level F}
    (hl : levels[j]? = some l) :
    (l.maxShape = some k → ∀ sm, st.shapeModels[j]? = some sm → nS sm ≤ k) ∧
    (l.maxSecond = some k → ∀ am, st.second[j]? = some am → nA am ≤ k) := by
  obtain ⟨ref, -, -, -, -, h3⟩ := C67_construct hno hb h
  obtain ⟨sm, am, e1, e2, e3, e4⟩ := h3 j l hl
  constructor
  · intro hk sm' hs
    rw [e1] at hs; cases hs
    rw [hk] at e3
    exact trained_cut (hS k) e3
  · intro hk am' hs
    rw [e2] at hs; cases hs
    rw [hk] at e4
    exact trained_cut (hA k) e4

/-- C84, AAM and CLM: increments keep the limits. -/
theorem C84_increment_limit {o : ImageOps Im Sh F} {L : Learners Im Sh W SM AM}
    (hno : ∀ i, o.feature o.noOp i = .ok i) {levels : List (Level F)} {ref : Sh}
    {images : List Im} {bs : Option Nat} {st st' : St Sh SM AM} (hr : st.ref = some ref)
    {nS : SM → Nat} {nA : AM → Nat} (hS : ∀ k m, nS (L.shape.trim k m) ≤ k)
    (hA : ∀ k m, nA (L.second.trim k m) ≤ k)
    (h : incrementModel o L levels st images bs = .ok st') {j k : Nat} {l : Level F} {sm : SM}
    {am : AM} (hl : levels[j]? = some l) (hs : st.shapeModels[j]? = some sm)
    (ha : st.second[j]? = some am) :
    (l.maxShape = some k → nS sm ≤ k → ∀ sm', st'.shapeModels[j]? = some sm' → nS sm' ≤ k) ∧
    (l.maxSecond = some k → nA am ≤ k → ∀ am', st'.second[j]? = some am' → nA am' ≤ k) := by
  obtain ⟨-, -, -, h3⟩ := C67_increment hno hr h
  obtain ⟨sm1, am1, e1, e2, e3, e4⟩ := h3 j l sm am hl hs ha
  constructor
  · intro hk hn sm' h'
    rw [e1] at h'; cases h'
    rw [hk] at e3
    exact continued_cut (hS k) hn e3
  · intro hk hn am' h'
    rw [e2] at h'; cases h'
    rw [hk] at e4
    exact continued_cut (hA k) hn e4

end

section atm
variable {Im Sh F W SM : Type} [DecidableEq F]

/-- C67, ATM constructor: one shape model per scale, built from the shapes of the first batch
at that scale and incremented with those of the later ones.  Missing: the templates, see
`C67_atm_templates_violated`. -/
theorem C67_atm_shape_models_partial {o : ImageOps Im Sh F} {L : AtmOps Im Sh W SM}
    {levels : List (Level F)} {given : Option Sh} {template : Im} {shapes : List Sh}
    {bs : Option Nat} {st : AtmSt Sh SM W} (hb : batches shapes bs ≠ [])
    (h : atmConstruct o L levels given template shapes bs = .ok st) :
    st.shapeModels.length = levels.length ∧ ∀ (j : Nat) (l : Level F), levels[j]? = some l → ∃ sm,
      st.shapeModels[j]? = some sm ∧
      Trained (L.shape.new l.maxShape) (L.shape.inc l.maxShape)
        (fun b => .ok (if l.scale = 1 then b else b.map (o.scaleShape l.scale)))
        (batches shapes bs) sm := by
  unfold atmConstruct at h
  cases hbs : batches shapes bs with
  | nil => exact absurd hbs hb
  | cons b rest =>
    rw [hbs] at h
    obtain ⟨r, sm1, -, -, -, h4, h5⟩ := atmConstruct_ok h
    obtain ⟨q1, q2⟩ := Chain.trained h4 h5
    refine ⟨q1, fun j l hl => ?_⟩
    obtain ⟨sm, e1, e2⟩ := q2 j l hl
    refine ⟨sm, e1, ?_⟩
    have : atmShapeData o j l =
        fun b => .ok (if l.scale = 1 then b else b.map (o.scaleShape l.scale)) := by
      funext b; unfold atmShapeData
      by_cases hs : l.scale = 1 <;> simp [hs]
    rw [← this]; exact e2

/-- C67 fails for the templates of an ATM: a training in `n` batches keeps `n` warped templates
per scale instead of one. -/
theorem C67_atm_templates_violated {o : ImageOps Im Sh F} {L : AtmOps Im Sh W SM}
    {levels : List (Level F)} {given : Option Sh} {template : Im} {shapes : List Sh}
    {bs : Option Nat} {st : AtmSt Sh SM W}
    (h : atmConstruct o L levels given template shapes bs = .ok st) :
    st.templates.length = levels.length * (batches shapes bs).length := by
  unfold atmConstruct at h
  cases hbs : batches shapes bs with
  | nil =>
    rw [hbs] at h
    injection h with h; subst h; rfl
  | cons b rest =>
    rw [hbs] at h
    obtain ⟨r, sm1, -, -, h3, -, -⟩ := atmConstruct_ok h
    exact h3

/-- C83, after construction: there is one fitter interface per scale and its template is the given
template, brought to the reference size, with the features and the size of that scale. -/
theorem C83_construct_interfaces {o : ImageOps Im Sh F} {L : AtmOps Im Sh W SM}
    {levels : List (Level F)} {given : Option Sh} {template : Im} {shapes : List Sh}
    {bs : Option Nat} {st : AtmSt Sh SM W} (hb : batches shapes bs ≠ [])
    (h : atmConstruct o L levels given template shapes bs = .ok st) :
    ∃ ref, st.ref = some ref ∧ (atmInterfaces st).length = levels.length ∧
    ∀ j l, levels[j]? = some l → ∃ x w sm, imageAt o ref l template = .ok x ∧
      L.warpTemplate (o.scaleShape l.scale ref) j x = .ok w ∧
      st.shapeModels[j]? = some sm ∧ (atmInterfaces st)[j]? = some (w, sm) := by
  have hm := C67_atm_shape_models_partial hb h
  unfold atmConstruct at h
  cases hbs : batches shapes bs with
  | nil => exact absurd hbs hb
  | cons b rest =>
    rw [hbs] at h
    obtain ⟨r, ws, h1, h2, ⟨more, h3⟩, h4⟩ := atmTrainLoop_templates h
    rw [List.nil_append] at h3
    refine ⟨r, h1, ?_, fun j l hl => ?_⟩
    · unfold atmInterfaces
      rw [List.length_zip, hm.1, h3, List.length_append, h2]; omega
    · obtain ⟨x, w, e1, e2, e3⟩ := h4 j l hl
      obtain ⟨sm, e4, -⟩ := hm.2 j l hl
      refine ⟨x, w, sm, e1, e2, e4, ?_⟩
      unfold atmInterfaces
      rw [List.getElem?_zip_eq_some]
      refine ⟨?_, e4⟩
      have hj : j < ws.length := by
        by_contra hn
        rw [List.getElem?_eq_none (by omega)] at e3; cases e3
      rw [h3, List.getElem?_append_left hj]
      exact e3

/-- C83 fails after `increment` with a new template: the templates of the fitter interfaces
are the old ones, whatever the new template is, while the new ones are only appended. -/
theorem C83_increment_ignores_template_violated {o : ImageOps Im Sh F} {L : AtmOps Im Sh W SM}
    {levels : List (Level F)} {ref : Sh} {template : Im} {shapes : List Sh} {bs : Option Nat}
    {st st' : AtmSt Sh SM W} (hr : st.ref = some ref)
    (hl : st.shapeModels.length ≤ st.templates.length)
    (h : atmIncrement o L levels st template shapes bs = .ok st') :
    (atmInterfaces st').map Prod.fst = (atmInterfaces st).map Prod.fst ∧
    st'.templates.length = st.templates.length + levels.length * (batches shapes bs).length := by
  obtain ⟨-, ⟨ws, h2, h3⟩, h4⟩ := atmTrainLoop_chain (Or.inr rfl) hr h
  have h5 := (Chain.continued (f := atmShapeData o) h4).1
  refine ⟨?_, by rw [h2, List.length_append, h3]⟩
  unfold atmInterfaces
  rw [map_fst_zip_take, map_fst_zip_take, h2, h5, List.take_append_of_le_length hl]

end atm

section aps
variable {Im Sh F W G SM DM AM : Type} [DecidableEq F]

/-- C67, APS constructor: one shape, deformation and appearance model per scale, each built from
the first batch and incremented with all later ones; graphs that are not given are the minimum
spanning tree of the first batch. -/
theorem C67_aps_construct {o : ImageOps Im Sh F} {L : ApsOps Im Sh W G SM DM AM}
    (hno : ∀ i, o.feature o.noOp i = .ok i) {levels : List (Level F)} {given : Option Sh}
    {graphs : List (Option G)} {images : List Im} {bs : Option Nat} {st : ApsSt Sh G SM DM AM}
    (hb : batches images bs ≠ [])
    (h : apsConstruct o L levels given graphs images bs = .ok st) :
    ∃ ref, st.ref = some ref ∧ ReferenceFrom o given (batches images bs) ref ∧
    st.shapeModels.length = levels.length ∧ st.deformation.length = levels.length ∧
    st.second.length = levels.length ∧
    ∀ j l, levels[j]? = some l → ∃ g sm dm am, st.graphs[j]? = some (some g) ∧
      (∀ g', graphs[j]? = some (some g') → g = g') ∧
      st.shapeModels[j]? = some sm ∧ st.deformation[j]? = some dm ∧ st.second[j]? = some am ∧
      Trained (L.shape.new l.maxShape) (L.shape.inc none)
        (fun b => b.mapM (shapeAt o ref l) >>= L.align) (batches images bs) sm ∧
      Trained (L.deformation g).build (L.deformation g).increment
        (fun b => do
          let s ← b.mapM (shapeAt o ref l)
          let a ← L.align s
          return if L.useProcrustes then a else s) (batches images bs) dm ∧
      Trained L.second.build L.second.increment
        (fun b => b.mapM (warpedAt o (fun _ => L.warp) ref j l)) (batches images bs) am := by
  unfold apsConstruct at h
  cases hbs : batches images bs with
  | nil => exact absurd hbs hb
  | cons b rest =>
    rw [hbs] at h
    obtain ⟨r, im, sm, dm, am, h1, h2, h3, h4, a1, a2, a3, b1, b2, b3⟩ := apsConstruct_ok hno h
    obtain ⟨q1, q2⟩ := Chain.trained a1 b1
    obtain ⟨q3, q4⟩ := Chain.trained (f := fun j (l : Level F × Option G) =>
      deformData o L.align L.useProcrustes r j l.1) a2 b2
    obtain ⟨q5, q6⟩ := Chain.trained a3 b3
    rw [apsLevels_length] at q3
    refine ⟨r, h1, h2, q1, q3, q5, fun j l hl => ?_⟩
    obtain ⟨sm', e1, e2⟩ := q2 j l hl
    obtain ⟨am', e3, e4⟩ := q6 j l hl
    obtain ⟨dm', e5, e6⟩ := q4 j (l, st.graphs[j]?.join) (by
      rw [apsLevels_get, hl, Nat.zero_add]; rfl)
    cases hg : st.graphs[j]?.join with
    | none =>
      rw [hg] at e6
      obtain ⟨_, _, _, _, _, _, e7, _⟩ := e6
      cases e7
    | some g =>
      rw [hg] at e6
      have hg' : st.graphs[j]? = some (some g) := by
        cases e : st.graphs[j]? with
        | none => rw [e] at hg; cases hg
        | some x => rw [e] at hg; simp only [Option.join] at hg; rw [← hg]; rfl
      refine ⟨g, sm', dm', am', hg', ?_, e1, e5, e3, e2, e6, e4⟩
      intro g' hg0
      unfold apsGraphs at h4
      by_cases hn : graphs.any (·.isNone) = true
      · rw [if_pos hn] at h4
        obtain ⟨s, h5, h4⟩ := bind_ok h4
        obtain ⟨t, h6, h4⟩ := bind_ok h4
        injection h4 with h4
        rw [← h4, List.getElem?_map, hg0] at hg'
        simpa using hg'.symm
      · rw [if_neg hn] at h4
        injection h4 with h4
        rw [← h4, hg0] at hg'
        simpa using hg'.symm

/-- C67, APS `increment`: graphs and reference shape stay, the number of models stays and each
model is the old one incremented with every batch in order. -/
theorem C67_aps_increment {o : ImageOps Im Sh F} {L : ApsOps Im Sh W G SM DM AM}
    (hno : ∀ i, o.feature o.noOp i = .ok i) {levels : List (Level F)} {ref : Sh}
    {images : List Im} {bs : Option Nat} {st st' : ApsSt Sh G SM DM AM} (hr : st.ref = some ref)
    (hg : ∀ g ∈ st.graphs, g ≠ none)
    (h : apsIncrement o L levels st images bs = .ok st') :
    st'.ref = some ref ∧ st'.graphs = st.graphs ∧
    st'.shapeModels.length = st.shapeModels.length ∧
    st'.deformation.length = st.deformation.length ∧ st'.second.length = st.second.length ∧
    ∀ j l g sm dm am, levels[j]? = some l → st.graphs[j]? = some (some g) →
      st.shapeModels[j]? = some sm → st.deformation[j]? = some dm → st.second[j]? = some am →
      ∃ sm' dm' am', st'.shapeModels[j]? = some sm' ∧ st'.deformation[j]? = some dm' ∧
      st'.second[j]? = some am' ∧
      Continued (L.shape.inc none) (fun b => b.mapM (shapeAt o ref l) >>= L.align) sm
        (batches images bs) sm' ∧
      Continued (L.deformation g).increment
        (fun b => do
          let s ← b.mapM (shapeAt o ref l)
          let a ← L.align s
          return if L.useProcrustes then a else s) dm (batches images bs) dm' ∧
      Continued L.second.increment (fun b => b.mapM (warpedAt o (fun _ => L.warp) ref j l)) am
        (batches images bs) am' := by
  have hg' : st.graphs.any (·.isNone) = false := by
    rw [List.any_eq_false]
    intro g hm hn
    exact hg g hm (Option.isNone_iff_eq_none.mp hn)
  obtain ⟨q1, q2, q3, q4, q5⟩ := apsTrainLoop_chain hno (Or.inr rfl) hr hg' h
  obtain ⟨e1, e2⟩ := q3.continued
  obtain ⟨e3, e4⟩ := Chain.continued (f := fun j (l : Level F × Option G) =>
      deformData o L.align L.useProcrustes ref j l.1) q4
  obtain ⟨e5, e6⟩ := q5.continued
  refine ⟨q1, q2, e1, e3, e5, fun j l g sm dm am hl hgj hs hd ha => ?_⟩
  obtain ⟨sm', a1, a2⟩ := e2 j l sm hl hs
  obtain ⟨am', a3, a4⟩ := e6 j l am hl ha
  obtain ⟨dm', a5, a6⟩ := e4 j (l, some g) dm (by
    rw [apsLevels_get, hl, Nat.zero_add, hgj]; rfl) hd
  exact ⟨sm', dm', am', a1, a5, a3, a2, a6, a4⟩

end aps

/-! ### Concrete trainings -/

/-- Images are numbers with themselves as landmarks. -/
def numberOps : ImageOps Int Int Bool where
  reference s := match s with
    | [] => .error .valueError
    | x :: _ => .ok x
  rescale r i := .ok (i + r)
  noOp := false
  feature f i := .ok (if f then 2 * i else i)
  rescaleBy _ i := .ok (-i)
  shapeOf i := .ok i
  scaleShape _ s := -s

/-- A model remembers its data; trimming to `k` keeps `k` of them. -/
def remember : Learner (List Int) Int where
  build d := .ok d
  increment m d := .ok (m ++ d)
  trim k m := m.take k

/-- AAM training on numbers. -/
def numberAam : Learners Int Int Int (List Int) (List Int) := ⟨remember, remember,
  fun ref j i s => .ok (ref + j + i + s)⟩

/-- ATM training on numbers. -/
def numberAtm : AtmOps Int Int Int (List Int) := ⟨remember, fun ref j i => .ok (ref + j + i)⟩

/-- APS training on numbers. -/
def numberAps : ApsOps Int Int Int Unit (List Int) (List Int) (List Int) := ⟨remember,
  fun _ => remember, remember, fun s => .ok s, fun _ => .ok (), fun j i s => .ok (j + i + s), true⟩

/-- Two scales with different features. -/
def twoLevels : List (Level Bool) := [⟨true, 1 / 2, none, some 4⟩, ⟨false, 1, some 3, none⟩]

example : (∀ i, numberOps.feature numberOps.noOp i = .ok i) ∧
    batches [1, 2, 3, 4, 5] (some 2) ≠ [] ∧
    (∀ k m, (remember.trim k m).length ≤ k) ∧
    ∃ st, construct numberOps numberAam twoLevels none [1, 2, 3, 4, 5] (some 2) = .ok st ∧
      st.ref = some 1 ∧ st.shapeModels = [[-4, -6, -8, -10, -12], [2, 3, 4]] ∧
      st.second.length = 2 :=
  ⟨fun _ => rfl, by decide +kernel, fun k m => by simp [remember],
    ⟨some 1, [[-4, -6, -8, -10, -12], [2, 3, 4]], [[-9, -13, -17, -21], [4, 6, 8, 10, 12]]⟩,
    by decide +kernel, rfl, rfl, rfl⟩

example : ∃ st', incrementModel numberOps numberAam twoLevels ⟨some 1, [[7], [8]], [[9], [10]]⟩
    [1, 2] (some 1) = .ok st' ∧ st'.shapeModels = [[7, -4, -6], [8, 2, 3]] :=
  ⟨⟨some 1, [[7, -4, -6], [8, 2, 3]], [[9, -9, -13], [10, 4, 6]]⟩, by decide +kernel, rfl⟩

example : ∀ a d m, remember.new none a = .ok m → remember.inc none m d = remember.new none (a ++ d) := by
  intro a d m h
  injection h with h; subst h; rfl

example : batches [1, 2, 3] (some 2) ≠ [] ∧ ∃ st, atmConstruct numberOps numberAtm twoLevels none
    5 [1, 2, 3] (some 2) = .ok st ∧ st.templates = [-13, 6, -13, 6] ∧
      st.shapeModels = [[-1, -2, -3], [1, 2, 3]] :=
  ⟨by decide +kernel, ⟨some 1, [[-1, -2, -3], [1, 2, 3]], [-13, 6, -13, 6]⟩, by decide +kernel, rfl, rfl⟩

/-- The increment of C83 with a visibly different template. -/
example : ∃ st', atmIncrement numberOps numberAtm twoLevels ⟨some 1, [[1], [1]], [-13, 6]⟩ 50 [4] none
    = .ok st' ∧ atmInterfaces st' = [(-13, [1, -4]), (6, [1, 4])] ∧
      st'.templates = [-13, 6, -103, 51] :=
  ⟨⟨some 1, [[1, -4], [1, 4]], [-13, 6, -103, 51]⟩, by decide +kernel, rfl, rfl⟩

example : batches [1, 2, 3] (some 2) ≠ [] ∧ ∃ st, apsConstruct numberOps numberAps twoLevels none
    [none, some ()] [1, 2, 3] (some 2) = .ok st ∧ st.graphs = [some (), some ()] ∧
      st.shapeModels = [[-4, -6, -8], [2, 3, 4]] :=
  ⟨by decide +kernel, ⟨some 1, [some (), some ()], [[-4, -6, -8], [2, 3, 4]], [[-4, -6, -8], [2, 3, 4]],
    [[-8, -12, -16], [5, 7, 9]]⟩, by decide +kernel, rfl, rfl⟩

/-- C84 fails for an APS: shape models are incremented without the limit, so a training in two
batches exceeds a maximum of one component. -/
theorem C84_aps_limit_violated : (∀ k m, (remember.trim k m).length ≤ k) ∧
    ∃ st sm, apsConstruct numberOps numberAps [⟨false, 1, some 1, none⟩] none [none] [1, 2]
      (some 1) = .ok st ∧ st.shapeModels[0]? = some sm ∧ ¬ sm.length ≤ 1 :=
  ⟨fun k m => by simp [remember],
    ⟨some 1, [some ()], [[2, 3]], [[2, 3]], [[4, 6]]⟩, [2, 3], by decide +kernel, rfl, by decide⟩

end Menpofit
