import Verif.Lemmas.FailedTraining
/-!
# C137: what a failed increment leaves behind

The theorems about single increments speak of a model with a reference shape, which every trained model has
(`C67_construct`), and of a feature `no_op` that returns its image.
-/

namespace Menpofit
open Training FailedTraining Spec

variable {Im Sh F W SM AM G DM : Type} [DecidableEq F]
variable {o : ImageOps Im Sh F} {L : Learners Im Sh W SM AM}

/-! ## Batches -/

theorem failed_batch_cons {α : Type} {n : Nat} (hn : n ≠ 0) {it : List α} (h : it ≠ []) :
    Base.batch n it = it.take n :: Base.batch n (it.drop n) := by
  rw [Base.batch, dif_neg]
  simp [hn, h]

theorem failed_batch_nil {α : Type} (n : Nat) : Base.batch n ([] : List α) = [] := by
  rw [Base.batch]; simp

theorem failed_batch_get {α : Type} {n : Nat} (hn : n ≠ 0) : ∀ {i : Nat} {it b : List α},
    (Base.batch n it)[i]? = some b →
      b = (it.drop (i * n)).take n ∧ (Base.batch n it).take i = Base.batch n (it.take (i * n)) := by
  intro i
  induction i with
  | zero =>
    intro it b h
    by_cases hit : it = []
    · subst hit; rw [failed_batch_nil] at h; simp at h
    · rw [failed_batch_cons hn hit] at h
      simp only [List.getElem?_cons_zero, Option.some.injEq] at h
      simp [h, failed_batch_nil]
  | succ i ih =>
    intro it b h
    by_cases hit : it = []
    · subst hit; rw [failed_batch_nil] at h; simp at h
    · rw [failed_batch_cons hn hit] at h
      rw [List.getElem?_cons_succ] at h
      obtain ⟨h1, h2⟩ := ih h
      have hne : it.take ((i + 1) * n) ≠ [] := by
        intro hc
        rcases List.take_eq_nil_iff.mp hc with hc | hc
        · rw [Nat.succ_mul] at hc; omega
        · exact hit hc
      refine ⟨?_, ?_⟩
      · rw [h1, List.drop_drop, Nat.succ_mul, Nat.add_comm]
      · rw [failed_batch_cons hn hit, failed_batch_cons hn hne, List.take_succ_cons, h2]
        congr 1
        · rw [List.take_take]; congr 1; rw [Nat.succ_mul]; omega
        · rw [List.drop_take]; congr 2; rw [Nat.succ_mul]; omega

theorem failed_batch_append {α : Type} {n : Nat} (hn : n ≠ 0) (b : List α) : ∀ (q : Nat) {a : List α},
    a.length = q * n → Base.batch n (a ++ b) = Base.batch n a ++ Base.batch n b := by
  intro q
  induction q with
  | zero =>
    intro a ha
    have : a = [] := List.length_eq_zero_iff.mp (by omega)
    subst this
    rw [failed_batch_nil]; rfl
  | succ q ih =>
    intro a ha
    rw [Nat.succ_mul] at ha
    have hne : a ≠ [] := by intro hc; subst hc; simp at ha; omega
    have hne' : a ++ b ≠ [] := by simp [hne]
    rw [failed_batch_cons hn hne, failed_batch_cons hn hne', List.take_append_of_le_length (by omega),
      List.drop_append_of_le_length (by omega), ih (by rw [List.length_drop]; omega)]
    rfl

/-! ## AAM and CLM -/

/-- C137: the description of failures agrees with the outcome of `increment`: it raises the same exceptions, and
returns the same model. -/
theorem C137_outcome (levels : List (Level F)) (st : St Sh SM AM) {r : Sh} (hr : st.ref = some r)
    (images : List Im) (batchSize : Option Nat) :
    (incrementRun o L levels st ⟨images, none⟩ batchSize).2 =
      (incrementModel o L levels st images batchSize).map (fun _ => ()) ∧
    ∀ st', incrementModel o L levels st images batchSize = .ok st' →
      (incrementRun o L levels st ⟨images, none⟩ batchSize).1 = st' := by
  have h := trainRun_ok (o := o) (L := L) (levels := levels) (last := .ok ()) (k := 0)
    (bs := batches images batchSize) hr
  simp only [incrementModel, Training.train, incrementRun, feedBatches]
  cases h1 : trainLoop o L levels 0 true st (batches images batchSize) with
  | error e =>
    rw [h1] at h
    exact ⟨h, fun st' h2 => by cases h2⟩
  | ok st1 =>
    rw [h1] at h
    simp only at h
    refine ⟨by rw [h]; rfl, fun st' h2 => ?_⟩
    injection h2 with h2
    rw [h, h2]

/-- C137, all images at once: an increment that raises leaves the model alone or was given up at one scale. -/
theorem C137_left_whole (hno : ∀ i, o.feature o.noOp i = .ok i) (levels : List (Level F)) (st st' : St Sh SM AM)
    {r : Sh} (hr : st.ref = some r) (images : Feed Im) (e : PyErr)
    (h : incrementRun o L levels st images none = (st', .error e)) :
    st' = st ∨ ∃ j, j < levels.length ∧ GivenUpAt o L levels r images.items j st st' := by
  have hcase : (feedBatches images none).1 = [] ∨ (feedBatches images none).1 = [images.items] := by
    unfold feedBatches
    cases images.fail with
    | none => exact .inr rfl
    | some e => exact .inl rfl
  rcases trainRun_left hno hr h with ⟨q1, q2⟩ | ⟨i, b, st1, q1, q2, q3⟩
  · left
    rcases hcase with hc | hc
    · rw [hc] at q1
      injection q1 with q1; exact q1.symm
    · exfalso
      unfold feedBatches at hc q2
      cases hf : images.fail with
      | none => rw [hf] at q2; cases q2
      | some e => rw [hf] at hc; cases hc
  · rcases hcase with hc | hc
    · rw [hc] at q1; simp at q1
    · rw [hc] at q1 q2
      cases i with
      | succ i => simp at q1
      | zero =>
        simp only [List.getElem?_cons_zero, Option.some.injEq] at q1
        injection q2 with q2
        subst q1; subst q2
        rcases q3 with ⟨rfl, -⟩ | q3
        · exact .inl rfl
        · exact .inr q3

/-- C137, in batches: an increment that raises has done the first batches completely, one batch was given up, or
not begun, and the others have left no trace. -/
theorem C137_left_batches (hno : ∀ i, o.feature o.noOp i = .ok i) (levels : List (Level F))
    (st st' : St Sh SM AM) {r : Sh} (hr : st.ref = some r) (images : Feed Im) (n : Nat) (e : PyErr)
    (h : incrementRun o L levels st images (some n) = (st', .error e)) :
    ∃ k st1, incrementModel o L levels st (images.items.take (k * n)) (some n) = .ok st1 ∧
      (st' = st1 ∨ ∃ j, j < levels.length ∧
        GivenUpAt o L levels r ((images.items.drop (k * n)).take n) j st1 st') := by
  have h0 : ∀ k, incrementModel o L levels st (images.items.take (k * n)) (some n) =
      trainLoop o L levels 0 true st (Base.batch n (images.items.take (k * n))) := fun _ => rfl
  by_cases hn : n = 0
  · subst hn
    have hb : (feedBatches images (some 0)) = ([], .ok ()) := by
      unfold feedBatches
      cases images.fail with
      | none => simp only [batches]; rw [Base.batch]; simp
      | some e => simp
    simp only [incrementRun, hb, trainRun, Prod.mk.injEq, reduceCtorEq, and_false] at h
  have hb : ∃ q, (feedBatches images (some n)).1 = Base.batch n (images.items.take (q * n)) := by
    unfold feedBatches
    cases images.fail with
    | none =>
      refine ⟨images.items.length, ?_⟩
      simp only [batches]
      rw [List.take_of_length_le (Nat.le_mul_of_pos_right _ (Nat.pos_of_ne_zero hn))]
    | some e =>
      simp only [hn, if_false]
      exact ⟨_, rfl⟩
  obtain ⟨q, hb⟩ := hb
  rcases trainRun_left hno hr h with ⟨q1, q2⟩ | ⟨i, b, st1, q1, q2, q3⟩
  · rw [hb] at q1
    exact ⟨q, st', by rw [h0]; exact q1, .inl rfl⟩
  · rw [hb] at q1 q2
    obtain ⟨g1, g2⟩ := failed_batch_get hn q1
    have hbne : b ≠ [] := by
      intro hc
      subst hc
      have : ∀ (it : List Im) (i : Nat), (Base.batch n it)[i]? ≠ some [] := by
        intro it
        induction hl : it.length using Nat.strong_induction_on generalizing it with
        | _ m ihm =>
          intro i hi
          by_cases hit : it = []
          · subst hit; rw [failed_batch_nil] at hi; simp at hi
          · rw [failed_batch_cons hn hit] at hi
            cases i with
            | zero => simp [hn, hit] at hi
            | succ i =>
              rw [List.getElem?_cons_succ] at hi
              have := List.length_pos_iff.mpr hit
              exact ihm _ (by rw [List.length_drop]; omega) _ rfl i hi
      exact this _ _ q1
    have hle : i < q := by
      by_contra hc
      apply hbne
      rw [g1, List.drop_eq_nil_of_le]
      · simp
      · rw [List.length_take]
        have := Nat.mul_le_mul_right n (Nat.le_of_not_lt hc)
        omega
    have hmul : i * n + n ≤ q * n := by
      have := Nat.mul_le_mul_right n hle
      rw [Nat.succ_mul] at this; exact this
    rw [g2, List.take_take, Nat.min_eq_left (by omega)] at q2
    rw [List.drop_take, List.take_take, Nat.min_eq_left (by omega)] at g1
    subst g1
    refine ⟨i, st1, by rw [h0]; exact q2, ?_⟩
    rcases q3 with ⟨rfl, -⟩ | q3
    · exact .inl rfl
    · exact .inr q3

/-- C137: after an increment that raised there is still one model of each kind per scale, and the reference shape
is the old one: the model can be used for fitting. -/
theorem C137_usable (hno : ∀ i, o.feature o.noOp i = .ok i) (levels : List (Level F)) (st st' : St Sh SM AM)
    {r : Sh} (hr : st.ref = some r) (images : Feed Im) (batchSize : Option Nat) (e : PyErr)
    (h : incrementRun o L levels st images batchSize = (st', .error e)) :
    st'.ref = st.ref ∧ st'.shapeModels.length = st.shapeModels.length ∧ st'.second.length = st.second.length := by
  have hrep : ∀ {ls : List (Level F)} {j : Nat} {prev : Option (F × List Im)} {s s' : St Sh SM AM} {r : Sh}
      {b images : List Im}, b.mapM (o.rescale r) = .ok images →
      batchLoop o L r true images j prev s ls = .ok s' →
      s'.shapeModels.length = s.shapeModels.length ∧ s'.second.length = s.second.length := by
    intro ls
    induction ls with
    | nil => intro j prev s s' r b images _ h; injection h with h; subst h; exact ⟨rfl, rfl⟩
    | cons l ls ih =>
      intro j prev s s' r b images hb h
      unfold batchLoop at h
      obtain ⟨fi, h1, h⟩ := bind_ok h
      obtain ⟨si, h2, h⟩ := bind_ok h
      obtain ⟨sh, h3, h⟩ := bind_ok h
      obtain ⟨sm, h4, h⟩ := bind_ok h
      obtain ⟨w, h5, h⟩ := bind_ok h
      obtain ⟨am, h6, h⟩ := bind_ok h
      obtain ⟨q1, q2⟩ := ih hb h
      exact ⟨q1.trans (update_replaced (R := fun _ _ _ => True) h4 fun _ _ _ => trivial).same_length,
        q2.trans (update_replaced (R := fun _ _ _ => True) h6 fun _ _ _ => trivial).same_length⟩
  have hloop : ∀ {bs : List (List Im)} {k} {s s' : St Sh SM AM}, s.ref = some r →
      trainLoop o L levels k true s bs = .ok s' → s'.ref = some r ∧
      s'.shapeModels.length = s.shapeModels.length ∧ s'.second.length = s.second.length := by
    intro bs
    induction bs with
    | nil => intro k s s' hs h; injection h with h; subst h; exact ⟨hs, rfl, rfl⟩
    | cons b bs ih =>
      intro k s s' hs h
      rw [trainLoop_cons hs] at h
      obtain ⟨im, h1, h⟩ := bind_ok h
      obtain ⟨s1, h2, h⟩ := bind_ok h
      obtain ⟨q1, q2, q3⟩ := ih ((batchLoop_ref h2).trans hs) h
      obtain ⟨p1, p2⟩ := hrep h1 h2
      exact ⟨q1, q2.trans p1, q3.trans p2⟩
  rw [hr]
  rcases trainRun_left hno hr h with ⟨q1, -⟩ | ⟨i, b, st1, -, q2, q3⟩
  · exact hloop hr q1
  · obtain ⟨p0, p1, p2⟩ := hloop hr q2
    rcases q3 with ⟨rfl, -⟩ | ⟨j, -, g⟩
    · exact ⟨p0, p1, p2⟩
    · obtain ⟨k, -, hk⟩ := g.shape
      exact ⟨g.reference.trans p0, hk.same_length.trans p1, g.second.same_length.trans p2⟩

theorem mapM_some_error {α β : Type} {f : α → Except PyErr β} : ∀ {l : List α} {a : α} {e : PyErr}, a ∈ l →
    f a = .error e → ∃ e', l.mapM f = .error e' := by
  intro l
  induction l with
  | nil => intro a e h; cases h
  | cons b l ih =>
    intro a e h hf
    cases hb : f b with
    | error e' => exact ⟨e', by rw [List.mapM_cons, hb]; rfl⟩
    | ok b' =>
      rcases List.mem_cons.mp h with rfl | h
      · rw [hb] at hf; cases hf
      · obtain ⟨e', he⟩ := ih h hf
        exact ⟨e', by rw [List.mapM_cons, hb, he]; rfl⟩

/-- C137: if reading the images raises, or one of them cannot be brought to the size of the reference shape (it
has no landmarks of that group, say), the model is what it was.  Missing: exceptions raised later
(`C137_second_refused_violated`). -/
theorem C137_unreadable_whole_partial (levels : List (Level F)) (st : St Sh SM AM) {r : Sh} (hr : st.ref = some r)
    (images : Feed Im)
    (hbad : images.fail ≠ none ∨ ∃ im ∈ images.items, ∃ e, o.rescale r im = .error e) :
    ∃ e, incrementRun o L levels st images none = (st, .error e) := by
  simp only [incrementRun, feedBatches]
  cases hf : images.fail with
  | some e => exact ⟨e, rfl⟩
  | none =>
    rcases hbad with hb | ⟨im, him, e, he⟩
    · exact absurd hf hb
    · obtain ⟨e', h⟩ := mapM_some_error him he
      refine ⟨e', ?_⟩
      simp only [batches]
      rw [trainRun_cons hr, h]
      rfl

/-- C137: an iterator of images that raises is not taken to have ended: its exception reaches the caller unless one
of the images raises first.  Without batches nothing is kept; with batches the full batches before are. -/
theorem C137_iterator_raises (levels : List (Level F)) (st : St Sh SM AM) {r : Sh} (hr : st.ref = some r)
    (images : List Im) (e : PyErr) :
    incrementRun o L levels st ⟨images, some e⟩ none = (st, .error e) ∧
    ∀ n, 0 < n →
      match incrementModel o L levels st (images.take (images.length / n * n)) (some n) with
      | .ok st1 => incrementRun o L levels st ⟨images, some e⟩ (some n) = (st1, .error e)
      | .error e' => (incrementRun o L levels st ⟨images, some e⟩ (some n)).2 = .error e' := by
  refine ⟨rfl, fun n hn => ?_⟩
  have h := trainRun_ok (o := o) (L := L) (levels := levels) (last := .error e)
    (bs := Base.batch n (images.take (images.length / n * n))) (k := 0) hr
  simp only [incrementRun, feedBatches, if_neg hn.ne', incrementModel, batches]
  exact h

/-- C137: with batches, what is kept of such a call are the batches before.  If the first `k * n` images can be
incremented with and one of the next `n` cannot be prepared, the result is that of incrementing with the first
`k * n`.  Missing: as above. -/
theorem C137_unreadable_batch_partial (levels : List (Level F)) (st st1 : St Sh SM AM) {r : Sh}
    (hr : st.ref = some r) (images : List Im) (n k : Nat)
    (h1 : incrementModel o L levels st (images.take (k * n)) (some n) = .ok st1)
    (hbad : ∃ im ∈ (images.drop (k * n)).take n, ∃ e, o.rescale r im = .error e) :
    ∃ e, incrementRun o L levels st ⟨images, none⟩ (some n) = (st1, .error e) := by
  obtain ⟨im, him, e0, he⟩ := hbad
  obtain ⟨e', hb⟩ := mapM_some_error him he
  have hn : n ≠ 0 := by
    rintro rfl
    simp at him
  have hlen : k * n < images.length := by
    by_contra hc
    rw [List.drop_eq_nil_of_le (by omega)] at him
    simp at him
  have hsplit : Base.batch n images =
      Base.batch n (images.take (k * n)) ++ ((images.drop (k * n)).take n :: Base.batch n (images.drop (k * n + n))) := by
    conv_lhs => rw [← List.take_append_drop (k * n) images]
    rw [failed_batch_append hn _ k (by rw [List.length_take]; omega)]
    congr 1
    rw [failed_batch_cons hn, List.drop_drop]
    intro hc
    have := congrArg List.length hc
    simp at this
    omega
  refine ⟨e', ?_⟩
  simp only [incrementRun, feedBatches, batches, hsplit]
  have key : ∀ {bs : List (List Im)} {cs : List (List Im)} {m} {s s1 : St Sh SM AM}, s.ref = some r →
      trainLoop o L levels m true s bs = .ok s1 →
      trainRun o L levels (.ok ()) m true s (bs ++ ((images.drop (k * n)).take n :: cs)) = (s1, .error e') := by
    intro bs
    induction bs with
    | nil =>
      intro cs m s s1 hs h
      injection h with h; subst h
      rw [List.nil_append, trainRun_cons hs, hb]
      rfl
    | cons b bs ih =>
      intro cs m s s1 hs h
      rw [trainLoop_cons hs] at h
      obtain ⟨x, h1, h⟩ := bind_ok h
      obtain ⟨s2, h2, h⟩ := bind_ok h
      rw [List.cons_append, trainRun_cons hs, h1]
      have hb := batchRun_ok (o := o) (L := L) r true x levels 0 none s
      rw [h2] at hb
      simp only at hb
      simp only [attempt, hb]
      exact ih ((batchLoop_ref h2).trans hs) h
  exact key hr h1

/-- C137: a training in batches can be taken up again.  Incrementing with some full batches and then with the other
images is incrementing with all of them. -/
theorem C137_resume (levels : List (Level F)) (st st1 : St Sh SM AM) {r : Sh} (hr : st.ref = some r)
    (a b : List Im) (n q : Nat) (hn : n ≠ 0) (ha : a.length = q * n)
    (h : incrementModel o L levels st a (some n) = .ok st1) :
    incrementModel o L levels st (a ++ b) (some n) = incrementModel o L levels st1 b (some n) := by
  have e : batches (a ++ b) (some n) = batches a (some n) ++ batches b (some n) := failed_batch_append hn b q ha
  simp only [incrementModel, Training.train] at h ⊢
  rw [e]
  exact (trainLoop_append hr h).2 0

/-- C137 is violated: whenever the appearance model (or the expert ensemble) of the first scale refuses the images
after the shape model has learned from them, the shape model keeps what it has learned. -/
theorem C137_second_refused_violated (l : Level F) (ls : List (Level F)) (st : St Sh SM AM) {r : Sh}
    (hr : st.ref = some r) (images scaled : List Im) (shapes : List Sh) (m m' : SM) (e : PyErr)
    (hf : l.feature = o.noOp) (hs : l.scale = 1)
    (h1 : images.mapM (o.rescale r) = .ok scaled) (h2 : scaled.mapM o.shapeOf = .ok shapes)
    (h3 : st.shapeModels[0]? = some m) (h4 : L.shape.inc l.maxShape m shapes = .ok m') (hne : m' ≠ m)
    (h5 : ∀ a d, L.second.increment a d = .error e) (h6 : ∀ s j i t, ∃ w, L.warp s j i t = .ok w)
    (h7 : st.second ≠ []) :
    ∃ st', incrementRun o L (l :: ls) st ⟨images, none⟩ none = (st', .error e) ∧ st' ≠ st ∧
      st'.shapeModels[0]? = some m' ∧ st'.second = st.second := by
  obtain ⟨w, hw⟩ : ∃ w, ((scaled.zip shapes).mapM fun x => L.warp (o.scaleShape l.scale r) 0 x.1 x.2) = .ok w := by
    generalize scaled.zip shapes = z
    induction z with
    | nil => exact ⟨[], rfl⟩
    | cons x z ih =>
      obtain ⟨w, hw⟩ := ih
      obtain ⟨y, hy⟩ := h6 (o.scaleShape l.scale r) 0 x.1 x.2
      exact ⟨y :: w, by rw [List.mapM_cons, hy, hw]; rfl⟩
  obtain ⟨a, as, has⟩ : ∃ a as, st.second = a :: as := by
    cases hc : st.second with
    | nil => exact absurd hc h7
    | cons a as => exact ⟨a, as, rfl⟩
  have hlen : 0 < st.shapeModels.length := (List.getElem?_eq_some_iff.mp h3).1
  refine ⟨{ st with shapeModels := st.shapeModels.set 0 m' }, ?_, ?_, ?_, rfl⟩
  · have hb : batchRun o L r true scaled 0 none st (l :: ls) =
        ({ st with shapeModels := st.shapeModels.set 0 m' }, .error e) := by
      simp only [batchRun, attempt, featureImages, hf, if_true, scaledImages, hs, ne_eq, not_true, if_false, h2,
        update, h3, bind, Except.bind, h4, pure, Except.pure]
      rw [hs] at hw
      rw [hw]
      simp only [has, List.getElem?_cons_zero, Learner.inc, h5, bind, Except.bind]
    simp only [incrementRun, feedBatches, batches]
    rw [trainRun_cons hr, h1]
    simp only [attempt, hb]
  · intro hc
    have := congrArg (fun s : St Sh SM AM => s.shapeModels[0]?) hc
    simp only [h3, List.getElem?_set_self hlen, Option.some.injEq] at this
    exact hne this
  · exact List.getElem?_set_self hlen

/-! ## Concrete models -/

/-- Images, shapes and the reference shape are numbers; 13 has no landmarks; the image 7 cannot be warped at
scale 1. -/
def frailOps : ImageOps Int Int Unit where
  reference _ := .ok 0
  rescale _ i := if i = 13 then .error .keyError else .ok i
  noOp := ()
  feature _ i := .ok i
  rescaleBy _ i := .ok i
  shapeOf i := .ok i
  scaleShape _ s := s

/-- Models that remember their data. -/
def recall : Learner (List Int) Int := ⟨fun d => .ok d, fun m d => .ok (m ++ d), fun k m => m.take k⟩

/-- A model that refuses increments. -/
def refuse : Learner (List Int) Int := ⟨fun d => .ok d, fun _ _ => .error .valueError, fun k m => m.take k⟩

/-- AAM training on numbers. -/
def frailAam : Learners Int Int Int (List Int) (List Int) :=
  ⟨recall, recall, fun _ j i _ => if j = 1 ∧ i = 7 then .error .valueError else .ok i⟩

/-- Two scales of size one. -/
def frailLevels : List (Level Unit) := [⟨(), 1, none, none⟩, ⟨(), 1, none, none⟩]

/-- The trained model. -/
def frailModel : St Int (List Int) (List Int) := ⟨some 0, [[1], [1]], [[1], [1]]⟩

/-- C137 is violated: an increment that raised, tried again without the image that was to blame, counts the other
images twice at the first scale and once at the second. -/
theorem C137_retry_violated : ∃ st' st'' : St Int (List Int) (List Int),
    incrementRun frailOps frailAam frailLevels frailModel ⟨[5, 7], none⟩ none = (st', .error .valueError) ∧
    incrementRun frailOps frailAam frailLevels st' ⟨[5], none⟩ none = (st'', .ok ()) ∧
    st''.shapeModels = [[1, 5, 7, 5], [1, 5, 7, 5]] ∧ st''.second = [[1, 5, 7, 5], [1, 5]] ∧
    incrementRun frailOps frailAam frailLevels frailModel ⟨[5], none⟩ none =
      (⟨some 0, [[1, 5], [1, 5]], [[1, 5], [1, 5]]⟩, .ok ()) :=
  ⟨⟨some 0, [[1, 5, 7], [1, 5, 7]], [[1, 5, 7], [1]]⟩,
    ⟨some 0, [[1, 5, 7, 5], [1, 5, 7, 5]], [[1, 5, 7, 5], [1, 5]]⟩,
    by decide +kernel, by decide +kernel, rfl, rfl, by decide +kernel⟩

/-- Batches of two, the third image is unreadable: the first batch counts, and the rest can follow. -/
example : frailModel.ref = some 0 ∧ (∀ i, frailOps.feature frailOps.noOp i = .ok i) ∧
    (∃ st1, incrementModel frailOps frailAam frailLevels frailModel (([2, 3, 13, 4] : List Int).take (1 * 2)) (some 2) =
      .ok st1 ∧ st1.second = [[1, 2, 3], [1, 2, 3]]) ∧
    (∃ im ∈ (([2, 3, 13, 4] : List Int).drop (1 * 2)).take 2, ∃ e, frailOps.rescale 0 im = .error e) ∧
    incrementRun frailOps frailAam frailLevels frailModel ⟨[2, 3, 13, 4], none⟩ (some 2) =
      (⟨some 0, [[1, 2, 3], [1, 2, 3]], [[1, 2, 3], [1, 2, 3]]⟩, .error .keyError) :=
  ⟨rfl, fun _ => rfl, ⟨⟨some 0, [[1, 2, 3], [1, 2, 3]], [[1, 2, 3], [1, 2, 3]]⟩, by decide +kernel, rfl⟩,
    ⟨13, by decide, .keyError, by decide +kernel⟩, by decide +kernel⟩

/-- An iterator that breaks after five images, in batches of two. -/
example : incrementRun frailOps frailAam frailLevels frailModel ⟨[2, 3, 4, 5, 6], some .ioError⟩ (some 2) =
    (⟨some 0, [[1, 2, 3, 4, 5], [1, 2, 3, 4, 5]], [[1, 2, 3, 4, 5], [1, 2, 3, 4, 5]]⟩, .error .ioError) := by
  decide +kernel

/-- A batch given up at the second scale. -/
example : incrementRun frailOps frailAam frailLevels frailModel ⟨[2, 7], none⟩ (some 1) =
    (⟨some 0, [[1, 2, 7], [1, 2, 7]], [[1, 2, 7], [1, 2]]⟩, .error .valueError) := by
  decide +kernel

/-- Full batches first, then the rest. -/
example : ([2, 3] : List Int).length = 1 * 2 ∧ incrementModel frailOps frailAam frailLevels frailModel [2, 3] (some 2) =
    .ok ⟨some 0, [[1, 2, 3], [1, 2, 3]], [[1, 2, 3], [1, 2, 3]]⟩ :=
  ⟨rfl, by decide +kernel⟩

/-- The hypotheses of `C137_second_refused_violated`. -/
example : ∃ l : Level Unit, l.feature = frailOps.noOp ∧ l.scale = 1 ∧ frailModel.second ≠ [] ∧
    ([2, 3] : List Int).mapM (frailOps.rescale 0) = .ok [2, 3] ∧ ([2, 3] : List Int).mapM frailOps.shapeOf = .ok [2, 3] ∧
    recall.inc l.maxShape [1] [2, 3] = .ok [1, 2, 3] ∧ ([1, 2, 3] : List Int) ≠ [1] ∧
    ∀ a d, refuse.increment a d = .error .valueError :=
  ⟨⟨(), 1, none, none⟩, rfl, rfl, by decide, by decide +kernel, by decide +kernel, by decide +kernel, by decide,
    fun _ _ => rfl⟩

/-! ## APS -/

variable {A : ApsOps Im Sh W G SM DM AM}

/-- C137, APS made without `can_be_incremented`: every increment with at least one batch of images raises. -/
theorem C137_aps_refused (graph : Bool) (levels : List (Level F)) (hl : levels ≠ [])
    (st : ApsSt Sh G SM DM AM) (images : Feed Im) (batchSize : Option Nat)
    (hb : (feedBatches images batchSize).1 ≠ []) :
    ∃ st' e, apsIncrementRun o (apsOps false graph A) levels st images batchSize = (st', .error e) := by
  have hgm : ∀ {M D : Type} (T : Learner M D) (j : Nat) (ms : List M) (d : List D),
      ∃ e, update (gmrf false T).build (gmrf false T).increment true j ms d = .error e := by
    intro M D T j ms d
    unfold update
    simp only [if_true]
    cases ms[j]? with
    | none => exact ⟨_, rfl⟩
    | some m => exact ⟨.valueError, rfl⟩
  have hbatch : ∀ (scaled : List Im) (s : ApsSt Sh G SM DM AM),
      ∃ s' e, apsBatchRun o (apsOps false graph A) true scaled 0 none s levels = (s', .error e) := by
    intro scaled s
    cases levels with
    | nil => exact absurd rfl hl
    | cons l ls =>
      unfold apsBatchRun
      refine attempt_always fun fi => attempt_always fun si => attempt_always fun shapes =>
        attempt_always fun aligned => attempt_always fun sm => attempt_always fun g => ?_
      obtain ⟨e, he⟩ := hgm (A.deformation g) 0 s.deformation
        (if (apsOps false graph A).useProcrustes then aligned else shapes)
      refine ⟨{ s with shapeModels := sm }, e, ?_⟩
      have he' : update ((apsOps false graph A).deformation g).build ((apsOps false graph A).deformation g).increment
          true 0 s.deformation (if (apsOps false graph A).useProcrustes then aligned else shapes) = .error e := he
      simp only [he', attempt]
  unfold apsIncrementRun
  generalize (feedBatches images batchSize).2 = last
  obtain ⟨b, bs, hc⟩ := List.exists_cons_of_ne_nil hb
  simp only [hc]
  unfold apsTrainRun
  refine attempt_always fun ref => ?_
  cases ref with
  | none => exact ⟨_, _, rfl⟩
  | some r =>
    refine attempt_always fun scaled => attempt_always fun graphs => ?_
    simp only [ite_self]
    obtain ⟨s', e, he⟩ := hbatch scaled { st with ref := some r, graphs := graphs }
    refine ⟨s', e, ?_⟩
    rw [he]

/-- C137 is violated for an APS made without `can_be_incremented`: the increment is refused, but only after the
shape model of the first scale has learned from the new shapes. -/
theorem C137_aps_refused_violated (graph : Bool) (l : Level F) (ls : List (Level F))
    (st : ApsSt Sh G SM DM AM) {r : Sh} (hr : st.ref = some r) (g : G) (gs : List (Option G))
    (hg : st.graphs = some g :: gs) (hgs : ∀ x ∈ gs, x.isSome)
    (images scaled : List Im) (shapes aligned : List Sh) (m m' : SM)
    (hf : l.feature = o.noOp) (hs : l.scale = 1)
    (h1 : images.mapM (o.rescale r) = .ok scaled) (h2 : scaled.mapM o.shapeOf = .ok shapes)
    (ha : A.align shapes = .ok aligned)
    (h3 : st.shapeModels[0]? = some m) (h4 : A.shape.increment m aligned = .ok m') (hne : m' ≠ m)
    (h7 : st.deformation ≠ []) :
    ∃ st', apsIncrementRun o (apsOps false graph A) (l :: ls) st ⟨images, none⟩ none = (st', .error .valueError) ∧
      st' ≠ st ∧ st'.shapeModels[0]? = some m' ∧ st'.deformation = st.deformation ∧ st'.second = st.second := by
  obtain ⟨a, as, has⟩ : ∃ a as, st.deformation = a :: as := by
    cases hc : st.deformation with
    | nil => exact absurd hc h7
    | cons a as => exact ⟨a, as, rfl⟩
  have hlen : 0 < st.shapeModels.length := (List.getElem?_eq_some_iff.mp h3).1
  have hany : st.graphs.any (·.isNone) = false := by
    rw [hg]
    simp only [List.any_cons, Option.isNone_some, Bool.false_or, List.any_eq_false]
    intro x hx
    have := hgs x hx
    cases x with
    | none => simp at this
    | some y => simp
  refine ⟨{ st with shapeModels := st.shapeModels.set 0 m' }, ?_, ?_, ?_, rfl, rfl⟩
  · have hb : apsBatchRun o (apsOps false graph A) true scaled 0 none st (l :: ls) =
        ({ st with shapeModels := st.shapeModels.set 0 m' }, .error .valueError) := by
      have ha' : (apsOps false graph A).align shapes = .ok aligned := ha
      have h4' : (apsOps false graph A).shape.inc none m aligned = .ok m' := by
        show (A.shape.increment m aligned >>= _) = _
        rw [h4]; rfl
      simp only [apsBatchRun, attempt, featureImages, hf, if_true, scaledImages, hs, ne_eq, not_true, if_false, h2,
        ha', update, h3, bind, Except.bind, h4', pure, Except.pure, hg, List.getElem?_cons_zero, has]
      rfl
    have hst : ({ st with ref := some r } : ApsSt Sh G SM DM AM) = st := by rw [← hr]
    simp only [apsIncrementRun, feedBatches, batches, apsTrainRun, hr, reference, if_true, attempt, h1, apsGraphs,
      hany, Bool.false_eq_true, if_false, ite_self]
    have hst2 : ({ ref := some r, graphs := st.graphs, shapeModels := st.shapeModels, deformation := st.deformation, second := st.second } : ApsSt Sh G SM DM AM) = st := hst
    rw [hst2, hb, hr]
  · intro hc
    have := congrArg (fun s : ApsSt Sh G SM DM AM => s.shapeModels[0]?) hc
    simp only [h3, List.getElem?_set_self hlen, Option.some.injEq] at this
    exact hne this
  · exact List.getElem?_set_self hlen

/-- C111 is violated: without an appearance graph, which is the default, no APS can be built from images, although
a model without graph is documented. -/
theorem C111_aps_no_graph_violated (inc : Bool) (levels : List (Level F)) (hl : levels ≠ []) (ref : Option Sh)
    (graphs : List (Option G)) (images : List Im) (batchSize : Option Nat) (hb : batches images batchSize ≠ []) :
    ∃ e, apsConstruct o (apsOps inc false A) levels ref graphs images batchSize = .error e := by
  have hbatch : ∀ (scaled : List Im) (s : ApsSt Sh G SM DM AM),
      ∃ e, apsBatchLoop o (apsOps inc false A) false scaled 0 none s levels = .error e := by
    intro scaled s
    cases levels with
    | nil => exact absurd rfl hl
    | cons l ls =>
      unfold apsBatchLoop
      exact bind_always fun fi => bind_always fun si => bind_always fun shapes => bind_always fun aligned =>
        bind_always fun sm => bind_always fun g => bind_always fun dm => bind_always fun w =>
          ⟨.notImplementedError, rfl⟩
  unfold apsConstruct
  obtain ⟨b, bs, hc⟩ := List.exists_cons_of_ne_nil hb
  rw [hc]
  unfold apsTrainLoop
  refine bind_always fun ref' => ?_
  cases ref' with
  | none => exact ⟨_, rfl⟩
  | some r =>
    refine bind_always fun scaled => bind_always fun graphs' => ?_
    obtain ⟨e, he⟩ := hbatch scaled
      { ref := some r, graphs := graphs', shapeModels := [], deformation := [], second := [] }
    refine ⟨e, ?_⟩
    simp only [gt_iff_lt, lt_self_iff_false, if_false, he, bind, Except.bind]

/-- APS training on numbers. -/
def frailAps : ApsOps Int Int Int Unit (List Int) (List Int) (List Int) :=
  ⟨recall, fun _ => recall, recall, fun s => .ok s, fun _ => .ok (), fun _ i _ => .ok i, true⟩

/-- A refused increment of an APS with two scales, in numbers; with `can_be_incremented` it works. -/
example : apsIncrementRun frailOps (apsOps false true frailAps) frailLevels
      ⟨some 0, [some (), some ()], [[1], [1]], [[1], [1]], [[1], [1]]⟩ ⟨[2, 3], none⟩ none =
      (⟨some 0, [some (), some ()], [[1, 2, 3], [1]], [[1], [1]], [[1], [1]]⟩, .error .valueError) ∧
    apsIncrementRun frailOps (apsOps true true frailAps) frailLevels
      ⟨some 0, [some (), some ()], [[1], [1]], [[1], [1]], [[1], [1]]⟩ ⟨[2, 3], none⟩ none =
      (⟨some 0, [some (), some ()], [[1, 2, 3], [1, 2, 3]], [[1, 2, 3], [1, 2, 3]], [[1, 2, 3], [1, 2, 3]]⟩, .ok ()) ∧
    apsConstruct frailOps (apsOps false false frailAps) frailLevels none [none, none] [2, 3] none =
      .error .notImplementedError ∧
    (∃ st, apsConstruct frailOps (apsOps false true frailAps) frailLevels none [none, none] [2, 3] none = .ok st) :=
  ⟨by decide +kernel, by decide +kernel, by decide +kernel,
    ⟨some 0, [some (), some ()], [[2, 3], [2, 3]], [[2, 3], [2, 3]], [[2, 3], [2, 3]]⟩, by decide +kernel⟩

end Menpofit
