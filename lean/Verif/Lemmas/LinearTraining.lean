import Verif.Spec.LinearTraining
import Verif.Lemmas.Training
/-!
# Lemmas about the training of linear models
-/

set_option linter.unusedSectionVars false

namespace Menpofit
open Training LinTrain Spec

variable {Im Sh D Fr W SM AM F : Type} [DecidableEq F]

theorem shapeStep_new {L : LinOps Im Sh D Fr W SM AM} {maxN : Option Nat} {j : Nat}
    {f : Option Fr} {ms ms' : List SM} {shapes : List Sh} {f' : Fr}
    (h : shapeStep L maxN false j f ms shapes = .ok (f', ms')) :
    FrameOfScale L j shapes f' ∧ ∃ dense m, shapes.mapM (L.densify f') = .ok dense ∧
      L.shape.new maxN dense = .ok m ∧ ms' = ms ++ [m] := by
  unfold shapeStep at h
  rw [if_neg (by simp)] at h
  obtain ⟨m, h1, h⟩ := bind_ok h
  obtain ⟨dense, h2, h⟩ := bind_ok h
  obtain ⟨sm, h3, h⟩ := bind_ok h
  injection h with h; injection h with e1 e2
  subst e1; subst e2
  obtain ⟨m', h4, h5⟩ := update_new h3
  exact ⟨⟨m, h1, rfl⟩, dense, m', h2, h4, h5⟩

theorem shapeStep_inc {L : LinOps Im Sh D Fr W SM AM} {maxN : Option Nat} {j : Nat}
    {f : Option Fr} {ms ms' : List SM} {shapes : List Sh} {f' : Fr}
    (h : shapeStep L maxN true j f ms shapes = .ok (f', ms')) :
    f = some f' ∧ ∃ dense, (L.align shapes).mapM (L.densify f') = .ok dense ∧
      update (L.shape.new maxN) (L.shape.inc maxN) true j ms dense = .ok ms' := by
  unfold shapeStep at h
  rw [if_pos rfl] at h
  cases f with
  | none => cases h
  | some f =>
    obtain ⟨dense, h2, h⟩ := bind_ok h
    obtain ⟨sm, h3, h⟩ := bind_ok h
    injection h with h; injection h with e1 e2
    subst e1; subst e2
    exact ⟨rfl, dense, h2, h3⟩

theorem warpedInto_ok {o : ImageOps Im Sh F} {L : LinOps Im Sh D Fr W SM AM} {b si : List Im}
    {ref : Sh} {l : Level F} {s : List Sh} {w : List W} {f : Fr}
    (h : b.mapM (imageAt o ref l) = .ok si) (h' : si.mapM o.shapeOf = .ok s)
    (h'' : (si.zip s).mapM (fun x => L.warp f x.1 x.2) = .ok w) :
    b.mapM (warpedInto o L f ref l) = .ok w := by
  have h1 := mapM_comp h (mapM_zip h' h'')
  rw [← h1]
  rfl

/-- What one scale of the constructor leaves. -/
def BuiltScale (o : ImageOps Im Sh F) (L : LinOps Im Sh D Fr W SM AM) (ref : Sh) (b : List Im)
    (j : Nat) (l : Level F) (f : Fr) (sm : SM) (am : AM) : Prop :=
  ∃ shapes dense warped, b.mapM (shapeAt o ref l) = .ok shapes ∧ FrameOfScale L j shapes f ∧
    shapes.mapM (L.densify f) = .ok dense ∧ L.shape.new l.maxShape dense = .ok sm ∧
    b.mapM (warpedInto o L f ref l) = .ok warped ∧ L.second.new l.maxSecond warped = .ok am

theorem linBatch_new {o : ImageOps Im Sh F} {L : LinOps Im Sh D Fr W SM AM}
    (hno : ∀ i, o.feature o.noOp i = .ok i) {ref : Sh} {b images : List Im}
    (hr : b.mapM (o.rescale ref) = .ok images) :
    ∀ {ls : List (Level F)} {j : Nat} {prev : Option (F × List Im)}
      {st st' : LinSt Sh Fr SM AM},
    (∀ f' fi', prev = some (f', fi') → images.mapM (o.feature f') = .ok fi') →
    linBatchLoop o L false images j prev st ls = .ok st' →
    st'.ref = st.ref ∧ ∃ (fs : List Fr) (sms : List SM) (ams : List AM),
      fs.length = ls.length ∧ sms.length = ls.length ∧ ams.length = ls.length ∧
      st'.shapeModels = st.shapeModels ++ sms ∧ st'.second = st.second ++ ams ∧
      st'.frame = (if ls = [] then st.frame else fs.getLast?) ∧
      ∀ i l, ls[i]? = some l → ∃ f sm am, fs[i]? = some f ∧ sms[i]? = some sm ∧
        ams[i]? = some am ∧ BuiltScale o L ref b (j + i) l f sm am := by
  intro ls
  induction ls with
  | nil =>
    intro j prev st st' _ h
    injection h with h; subst h
    exact ⟨rfl, [], [], [], rfl, rfl, rfl, by simp, by simp, by simp, by intro i l h; simp at h⟩
  | cons l ls ih =>
    intro j prev st st' hp h
    unfold linBatchLoop at h
    obtain ⟨fi, h1, h⟩ := bind_ok h
    obtain ⟨si, h2, h⟩ := bind_ok h
    obtain ⟨s, h3, h⟩ := bind_ok h
    obtain ⟨⟨f, sm⟩, h4, h⟩ := bind_ok h
    obtain ⟨w, h5, h⟩ := bind_ok h
    obtain ⟨am, h6, h⟩ := bind_ok h
    have hi := images_ok hno hr hp h1 h2
    obtain ⟨q0, dense, m, q1, q2, rfl⟩ := shapeStep_new h4
    obtain ⟨a, q3, rfl⟩ := update_new h6
    obtain ⟨e0, fs, sms, ams, e1, e2, e3, e4, e5, e6, e7⟩ := ih (fun f' fi' e => by
      injection e with e; injection e with e1 e2; subst e1; subst e2
      exact featureImages_ok hno hp h1) h
    refine ⟨e0, f :: fs, m :: sms, a :: ams, by simp [e1], by simp [e2], by simp [e3],
      by rw [e4]; simp, by rw [e5]; simp, ?_, ?_⟩
    · rw [e6, if_neg (List.cons_ne_nil l ls)]
      cases ls with
      | nil =>
        have hfs : fs = [] := List.length_eq_zero_iff.mp (by simpa using e1)
        rw [if_pos rfl, hfs]; rfl
      | cons l' ls =>
        rw [if_neg (by simp)]
        cases fs with
        | nil => simp at e1
        | cons f' fs => rw [List.getLast?_cons_cons]
    · intro i l' hl
      cases i with
      | zero =>
        simp at hl; subst hl
        exact ⟨f, m, a, rfl, rfl, rfl, s, dense, w, shapes_ok hi h3, q0, q1, q2,
          warpedInto_ok hi h3 h5, q3⟩
      | succ i =>
        obtain ⟨f', m', a', r1, r2, r3, r4⟩ := e7 i l' (by simpa using hl)
        refine ⟨f', m', a', by simpa using r1, by simpa using r2, by simpa using r3, ?_⟩
        rw [show j + (i + 1) = j + 1 + i by omega]; exact r4

theorem linBatch_inc {o : ImageOps Im Sh F} {L : LinOps Im Sh D Fr W SM AM}
    (hno : ∀ i, o.feature o.noOp i = .ok i) {ref : Sh} {b images : List Im} {f : Fr}
    (hr : b.mapM (o.rescale ref) = .ok images) :
    ∀ {ls : List (Level F)} {j : Nat} {prev : Option (F × List Im)}
      {st st' : LinSt Sh Fr SM AM},
    (∀ f' fi', prev = some (f', fi') → images.mapM (o.feature f') = .ok fi') →
    st.frame = some f →
    linBatchLoop o L true images j prev st ls = .ok st' →
    st'.ref = st.ref ∧ st'.frame = some f ∧
    Steps (fun l => L.shape.new l.maxShape) (fun l => L.shape.inc l.maxShape) true
      (fun _ l d => denseIn o L f ref l b = .ok d) j ls st.shapeModels st'.shapeModels ∧
    Steps (fun l => L.second.new l.maxSecond) (fun l => L.second.inc l.maxSecond) true
      (fun _ l d => b.mapM (warpedInto o L f ref l) = .ok d) j ls st.second st'.second := by
  intro ls
  induction ls with
  | nil =>
    intro j prev st st' _ hf h
    injection h with h; subst h
    exact ⟨rfl, hf, .nil _ _, .nil _ _⟩
  | cons l ls ih =>
    intro j prev st st' hp hf h
    unfold linBatchLoop at h
    obtain ⟨fi, h1, h⟩ := bind_ok h
    obtain ⟨si, h2, h⟩ := bind_ok h
    obtain ⟨s, h3, h⟩ := bind_ok h
    obtain ⟨⟨f', sm⟩, h4, h⟩ := bind_ok h
    obtain ⟨w, h5, h⟩ := bind_ok h
    obtain ⟨am, h6, h⟩ := bind_ok h
    have hi := images_ok hno hr hp h1 h2
    obtain ⟨q0, dense, q1, q2⟩ := shapeStep_inc h4
    rw [hf] at q0; injection q0 with q0; subst q0
    obtain ⟨e0, e1, e2, e3⟩ := ih (fun f' fi' e => by
      injection e with e; injection e with e1 e2; subst e1; subst e2
      exact featureImages_ok hno hp h1) rfl h
    refine ⟨e0, e1, .cons ?_ q2 e2, .cons (warpedInto_ok hi h3 h5) h6 e3⟩
    unfold denseIn
    rw [shapes_ok hi h3]
    exact q1

/-- The dense shapes of a batch, as data of the models of every scale. -/
def linShapeData (o : ImageOps Im Sh F) (L : LinOps Im Sh D Fr W SM AM) (f : Fr) (ref : Sh)
    (_j : Nat) (l : Level F) (b : List Im) : Except PyErr (List D) := denseIn o L f ref l b

/-- The warped images of a batch. -/
def linWarpData (o : ImageOps Im Sh F) (L : LinOps Im Sh D Fr W SM AM) (f : Fr) (ref : Sh)
    (_j : Nat) (l : Level F) (b : List Im) : Except PyErr (List W) :=
  b.mapM (warpedInto o L f ref l)

theorem linTrain_chain {o : ImageOps Im Sh F} {L : LinOps Im Sh D Fr W SM AM}
    (hno : ∀ i, o.feature o.noOp i = .ok i) {levels : List (Level F)} {r : Sh} {f : Fr} :
    ∀ {bs : List (List Im)} {k : Nat} {inc : Bool} {st st' : LinSt Sh Fr SM AM},
    (0 < k ∨ inc = true) → st.ref = some r → st.frame = some f →
    linTrainLoop o L levels k inc st bs = .ok st' →
    st'.ref = some r ∧ st'.frame = some f ∧
    Chain (fun l => L.shape.new l.maxShape) (fun l => L.shape.inc l.maxShape)
      (fun b j l d => linShapeData o L f r j l b = .ok d) levels bs st.shapeModels
      st'.shapeModels ∧
    Chain (fun l => L.second.new l.maxSecond) (fun l => L.second.inc l.maxSecond)
      (fun b j l d => linWarpData o L f r j l b = .ok d) levels bs st.second st'.second := by
  intro bs
  induction bs with
  | nil =>
    intro k inc st st' _ hr hf h
    injection h with h; subst h
    exact ⟨hr, hf, .nil _, .nil _⟩
  | cons b bs ih =>
    intro k inc st st' hk hr hf h
    unfold linTrainLoop at h
    have e1 : reference o k st.ref b = .ok (some r) := by
      unfold reference; rw [hr]; split <;> rfl
    have e2 : (if k > 0 then true else inc) = true := by
      by_cases hk0 : k > 0
      · rw [if_pos hk0]
      · rw [if_neg hk0]; exact hk.resolve_left hk0
    simp only [e1, e2, bind, Except.bind] at h
    cases hi : b.mapM (o.rescale r) with
    | error e => rw [hi] at h; cases h
    | ok images =>
      simp only [hi] at h
      cases hb : linBatchLoop o L true images 0 none { st with ref := some r } levels with
      | error e => rw [hb] at h; cases h
      | ok st1 =>
        simp only [hb] at h
        obtain ⟨q1, q2, q3, q4⟩ := linBatch_inc (f := f) (prev := none) (st := { st with ref := some r }) hno hi
          (by intro _ _ e; cases e) hf hb
        obtain ⟨q5, q6, q7, q8⟩ := ih (Or.inl (Nat.succ_pos k)) q1 q2 h
        exact ⟨q5, q6, .cons q3 q7, .cons q4 q8⟩

/-- The first batch of the constructor. -/
theorem linConstruct_first {o : ImageOps Im Sh F} {L : LinOps Im Sh D Fr W SM AM}
    (hno : ∀ i, o.feature o.noOp i = .ok i) {levels : List (Level F)} {given : Option Sh}
    {b : List Im} {bs : List (List Im)} {st : LinSt Sh Fr SM AM}
    (h : linTrainLoop o L levels 0 false ⟨given, none, [], []⟩ (b :: bs) = .ok st) :
    ∃ r st1, ReferenceFrom o given (b :: bs) r ∧ st1.ref = some r ∧
      linTrainLoop o L levels 1 false st1 bs = .ok st ∧
      linTrainLoop o L levels 0 false ⟨given, none, [], []⟩ [b] = .ok st1 ∧
      ∃ fs : List Fr, fs.length = levels.length ∧ st1.shapeModels.length = levels.length ∧
      st1.second.length = levels.length ∧ st1.frame = fs.getLast? ∧
      ∀ j l, levels[j]? = some l → ∃ f sm am, fs[j]? = some f ∧ st1.shapeModels[j]? = some sm ∧
        st1.second[j]? = some am ∧ BuiltScale o L r b j l f sm am := by
  unfold linTrainLoop at h
  obtain ⟨ref, h1, h⟩ := bind_ok h
  cases ref with
  | none => cases h
  | some r =>
    simp only [gt_iff_lt, lt_self_iff_false, if_false] at h
    obtain ⟨images, h2, h⟩ := bind_ok h
    obtain ⟨st1, h3, h⟩ := bind_ok h
    obtain ⟨q1, fs, sms, ams, e1, e2, e3, e4, e5, e6, e7⟩ :=
      linBatch_new hno h2 (by intro _ _ e; cases e) h3
    simp only [List.nil_append] at e4 e5
    subst e4; subst e5
    have h0 : linTrainLoop o L levels 0 false ⟨given, none, [], []⟩ [b] = .ok st1 := by
      unfold linTrainLoop
      simp only [h1, bind, Except.bind, h2, gt_iff_lt, lt_self_iff_false, if_false, h3]
      rfl
    refine ⟨r, st1, reference_ok h1, q1, h, h0, fs, e1, e2, e3, ?_, ?_⟩
    · rw [e6]
      split
      · rename_i hl
        subst hl
        have hfs : fs = [] := List.length_eq_zero_iff.mp (by simpa using e1)
        rw [hfs]; rfl
      · rfl
    · intro j l hl
      have := e7 j l hl
      rw [Nat.zero_add] at this
      exact this

/-- A dense shape model has the size of its frame. -/
theorem BuiltScale.size {o : ImageOps Im Sh F} {L : LinOps Im Sh D Fr W SM AM}
    {fsz : Fr → Nat} {sz : D → Nat} {msz : SM → Nat} (hS : Sized L fsz sz msz) {ref : Sh}
    {b : List Im} (hb : b ≠ []) {j : Nat} {l : Level F} {f : Fr} {sm : SM} {am : AM}
    (h : BuiltScale o L ref b j l f sm am) : msz sm = fsz f := by
  obtain ⟨shapes, dense, w, h1, -, h2, h3, -, -⟩ := h
  have hl : dense.length = b.length := (mapM_length h2).trans (mapM_length h1)
  cases dense with
  | nil => exact absurd (List.length_eq_zero_iff.mp hl.symm) hb
  | cons d ds =>
    cases shapes with
    | nil => have := mapM_length h2; simp at this
    | cons s ss =>
      obtain ⟨d', r', q1, q2, q3⟩ := mapM_cons_ok.mp h2
      injection q3 with q3 q4; subst q3
      unfold Learner.new at h3
      obtain ⟨m, q5, q6⟩ := bind_ok h3
      injection q6 with q6
      have e1 := hS.build q5 d (by simp)
      have e2 : msz (L.shape.cut l.maxShape m) = msz m := by
        unfold Learner.cut
        cases l.maxShape with
        | none => rfl
        | some k => exact hS.trim k m
      rw [← q6, e2, ← e1, hS.densify q1]

/-- Dense shapes of another size are refused. -/
theorem inc_refused {L : LinOps Im Sh D Fr W SM AM} {fsz : Fr → Nat} {sz : D → Nat}
    {msz : SM → Nat} (hS : Sized L fsz sz msz) {f : Fr} {shapes : List Sh} (hs : shapes ≠ [])
    {dense : List D} (h : (L.align shapes).mapM (L.densify f) = .ok dense) {m : SM}
    (hm : msz m ≠ fsz f) (k : Option Nat) : L.shape.inc k m dense = .error .valueError := by
  have hl : dense.length = shapes.length := (mapM_length h).trans (hS.align shapes)
  cases dense with
  | nil => exact absurd (List.length_eq_zero_iff.mp hl.symm) hs
  | cons d ds =>
    obtain ⟨a, as, ha⟩ : ∃ a as, L.align shapes = a :: as := by
      cases he : L.align shapes with
      | nil => rw [he] at h; rw [mapM_nil_ok] at h; cases h
      | cons a as => exact ⟨a, as, rfl⟩
    rw [ha] at h
    obtain ⟨d', r', q1, q2, q3⟩ := mapM_cons_ok.mp h
    injection q3 with q3 q4; subst q3
    unfold Learner.inc
    rw [hS.increment (m := m) (List.mem_cons_self (a := d) (l := ds)) (by rw [hS.densify q1]; exact hm.symm)]
    rfl

theorem linAtm_length {L : LinOps Im Sh D Fr W SM AM} {sc : Rat → Sh → Sh} {shapes : List Sh} :
    ∀ {ls : List (Level F)} {j : Nat} {f f' : Option Fr} {ms ms' : List SM},
    linAtmBatch L sc false shapes j f ms ls = .ok (f', ms') →
    ms'.length = ms.length + ls.length := by
  intro ls
  induction ls with
  | nil => intro j f f' ms ms' h; injection h with h; injection h with _ h; rw [h]; rfl
  | cons l ls ih =>
    intro j f f' ms ms' h
    unfold linAtmBatch at h
    obtain ⟨⟨g, sm⟩, h1, h⟩ := bind_ok h
    obtain ⟨-, -, m, -, -, rfl⟩ := shapeStep_new h1
    rw [ih h]; simp; omega

theorem linAtm_sizes {L : LinOps Im Sh D Fr W SM AM} {fsz : Fr → Nat} {sz : D → Nat}
    {msz : SM → Nat} (hS : Sized L fsz sz msz) {sc : Rat → Sh → Sh} {shapes : List Sh}
    (hs : shapes ≠ []) {f : Fr} :
    ∀ {ls : List (Level F)} {j : Nat} {f' : Option Fr} {ms ms' : List SM},
    linAtmBatch L sc true shapes j (some f) ms ls = .ok (f', ms') →
    ∀ i m, i < ls.length → ms[j + i]? = some m → msz m = fsz f := by
  intro ls
  induction ls with
  | nil => intro j f' ms ms' h i m hi; simp at hi
  | cons l ls ih =>
    intro j f' ms ms' h i m hi hm
    unfold linAtmBatch at h
    obtain ⟨⟨g, sm⟩, h1, h⟩ := bind_ok h
    obtain ⟨q0, dense, q1, q2⟩ := shapeStep_inc h1
    injection q0 with q0; subst q0
    obtain ⟨n, n', e1, e2, rfl⟩ := update_inc q2
    have hss : (if l.scale ≠ 1 then shapes.map (sc l.scale) else shapes) ≠ [] := by
      split <;> simp [hs]
    cases i with
    | zero =>
      rw [Nat.add_zero, e1] at hm; cases hm
      by_contra hne
      rw [inc_refused hS hss q1 hne] at e2; cases e2
    | succ i =>
      refine ih h i m (by simpa using hi) ?_
      rw [List.getElem?_set_ne (by omega), ← hm]
      congr 1; omega

/-- A model whose scales differ in size refuses every further batch. -/
theorem lin_refused {o : ImageOps Im Sh F} {L : LinOps Im Sh D Fr W SM AM}
    (hno : ∀ i, o.feature o.noOp i = .ok i) {fsz : Fr → Nat} {sz : D → Nat} {msz : SM → Nat}
    (hS : Sized L fsz sz msz) {levels : List (Level F)} {given : Option Sh} {images : List Im}
    (hi : images ≠ []) {st st' : LinSt Sh Fr SM AM}
    (h : linTrainLoop o L levels 0 false ⟨given, none, [], []⟩ [images] = .ok st) {m m' : SM}
    (hm : m ∈ st.shapeModels) (hm' : m' ∈ st.shapeModels) (hd : msz m ≠ msz m')
    {k : Nat} {inc : Bool} (hk : 0 < k ∨ inc = true) {b : List Im} {rest : List (List Im)}
    (hb0 : b ≠ []) (he : linTrainLoop o L levels k inc st (b :: rest) = .ok st') : False := by
  obtain ⟨r, st1, h1, h2, h3, -, fs, h4, h5, h6, h7, h8⟩ := linConstruct_first hno h
  injection h3 with h3; subst h3
  obtain ⟨f, hf⟩ : ∃ f, fs.getLast? = some f := by
    cases fs with
    | nil =>
      rw [← h4] at h5
      have hs : st1.shapeModels = [] := List.length_eq_zero_iff.mp (by simpa using h5)
      rw [hs] at hm; cases hm
    | cons f fs => exact ⟨_, List.getLast?_eq_getLast_of_ne_nil (List.cons_ne_nil f fs)⟩
  obtain ⟨n, hn, hne⟩ : ∃ n ∈ st1.shapeModels, msz n ≠ fsz f := by
    by_cases hmf : msz m = fsz f
    · exact ⟨m', hm', by rw [← hmf]; exact hd.symm⟩
    · exact ⟨m, hm, hmf⟩
  obtain ⟨j, hj, hjn⟩ := List.mem_iff_getElem.mp hn
  obtain ⟨l, hl⟩ : ∃ l, levels[j]? = some l := by
    rw [h5] at hj; exact ⟨_, List.getElem?_eq_getElem hj⟩
  have hjs : st1.shapeModels[j]? = some n := by rw [List.getElem?_eq_getElem hj, hjn]
  obtain ⟨-, -, r3, -⟩ := linTrain_chain hno hk h2 (h7.trans hf) he
  obtain ⟨-, a2⟩ := r3.continued
  obtain ⟨_, -, a3⟩ := a2 j l n hl hjs
  cases a3 with
  | next q1 q2 q3 =>
    unfold linShapeData denseIn at q1
    obtain ⟨shapes, q4, q5⟩ := bind_ok q1
    have hs : shapes ≠ [] := by
      intro hs; subst hs
      have := mapM_length q4
      exact hb0 (List.length_eq_zero_iff.mp this.symm)
    rw [inc_refused hS hs q5 hne] at q2
    cases q2

end Menpofit
