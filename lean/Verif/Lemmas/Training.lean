import Verif.Spec.Training
import Verif.Lemmas.Result
import Mathlib.Tactic.Linarith
/-!
# Lemmas about the training loops
-/

set_option linter.unusedSectionVars false

namespace Menpofit
open Training Spec

section mapM
variable {α β γ : Type}

theorem mapM_cons_ok {f : α → Except PyErr β} {a : α} {l : List α} {r : List β} :
    (a :: l).mapM f = .ok r ↔ ∃ b r', f a = .ok b ∧ l.mapM f = .ok r' ∧ r = b :: r' := by
  rw [List.mapM_cons]
  cases hfa : f a with
  | error e => simp [bind, Except.bind]
  | ok b =>
    cases hl : l.mapM f with
    | error e => simp [bind, Except.bind]
    | ok r' => simp [bind, Except.bind, pure, Except.pure, eq_comm]

theorem mapM_nil_ok {f : α → Except PyErr β} {r : List β} :
    ([] : List α).mapM f = .ok r ↔ r = [] := by
  simp [List.mapM_nil, pure, Except.pure, eq_comm]

theorem mapM_length {α β : Type} {f : α → Except PyErr β} : ∀ {l : List α} {r : List β},
    l.mapM f = .ok r → r.length = l.length := by
  intro l
  induction l with
  | nil => intro r h; rw [mapM_nil_ok] at h; rw [h]; rfl
  | cons a l ih =>
    intro r h
    obtain ⟨b, r', -, h2, rfl⟩ := mapM_cons_ok.mp h
    rw [List.length_cons, ih h2, List.length_cons]

theorem mapM_map_ok {α β γ : Type} {f : α → Except PyErr β} (g : β → γ) :
    ∀ {l : List α} {r : List β}, l.mapM f = .ok r →
      l.mapM (fun x => do let y ← f x; return g y) = .ok (r.map g) := by
  intro l
  induction l with
  | nil => intro r h; rw [mapM_nil_ok] at h; rw [h]; rfl
  | cons a l ih =>
    intro r h
    obtain ⟨b, r', h1, h2, rfl⟩ := mapM_cons_ok.mp h
    exact mapM_cons_ok.mpr ⟨g b, r'.map g, by rw [h1]; rfl, ih h2, rfl⟩

/-- Two successive passes are one pass with the composed function. -/
theorem mapM_comp {f : α → Except PyErr β} {g : β → Except PyErr γ} :
    ∀ {l : List α} {r : List β} {r' : List γ}, l.mapM f = .ok r → r.mapM g = .ok r' →
      l.mapM (fun x => f x >>= g) = .ok r'
  | [], r, r', h, h' => by
    rw [mapM_nil_ok] at h; subst h
    rw [mapM_nil_ok] at h' ⊢; exact h'
  | a :: l, r, r', h, h' => by
    obtain ⟨b, r1, h1, h2, rfl⟩ := mapM_cons_ok.mp h
    obtain ⟨c, r2, h3, h4, rfl⟩ := mapM_cons_ok.mp h'
    refine mapM_cons_ok.mpr ⟨c, r2, ?_, mapM_comp h2 h4, rfl⟩
    simp only [h1, bind, Except.bind, h3]

theorem mapM_id_ok {f : α → Except PyErr α} (hf : ∀ a, f a = .ok a) (l : List α) :
    l.mapM f = .ok l := by
  induction l with
  | nil => rfl
  | cons a l ih => exact mapM_cons_ok.mpr ⟨a, l, hf a, ih, rfl⟩

/-- A pass over pairs of an element and its image under `g`. -/
theorem mapM_zip {g : α → Except PyErr β} {w : α → β → Except PyErr γ} :
    ∀ {l : List α} {s : List β} {r : List γ}, l.mapM g = .ok s →
      (l.zip s).mapM (fun x => w x.1 x.2) = .ok r →
      l.mapM (fun x => g x >>= w x) = .ok r
  | [], s, r, h, h' => by
    rw [List.zip_nil_left, mapM_nil_ok] at h'
    rw [mapM_nil_ok]; exact h'
  | a :: l, s, r, h, h' => by
    obtain ⟨b, s1, h1, h2, rfl⟩ := mapM_cons_ok.mp h
    rw [List.zip_cons_cons] at h'
    obtain ⟨c, r2, h3, h4, rfl⟩ := mapM_cons_ok.mp h'
    refine mapM_cons_ok.mpr ⟨c, r2, ?_, mapM_zip h2 h4, rfl⟩
    simp only [h1, bind, Except.bind, h3]

theorem mapM_append_ok {f : α → Except PyErr β} :
    ∀ {l l' : List α} {r r' : List β}, l.mapM f = .ok r → l'.mapM f = .ok r' →
      (l ++ l').mapM f = .ok (r ++ r')
  | [], l', r, r', h, h' => by
    rw [mapM_nil_ok] at h; subst h; exact h'
  | a :: l, l', r, r', h, h' => by
    obtain ⟨b, r1, h1, h2, rfl⟩ := mapM_cons_ok.mp h
    exact mapM_cons_ok.mpr ⟨b, r1 ++ r', h1, mapM_append_ok h2 h', rfl⟩

end mapM

section update
variable {D M : Type} {new : List D → Except PyErr M} {inc : M → List D → Except PyErr M}

theorem update_new {j : Nat} {ms ms' : List M} {d : List D}
    (h : update new inc false j ms d = .ok ms') : ∃ m, new d = .ok m ∧ ms' = ms ++ [m] := by
  unfold update at h
  rw [if_neg (by simp)] at h
  obtain ⟨m, h1, h2⟩ := bind_ok h
  exact ⟨m, h1, by injection h2 with h2; exact h2.symm⟩

theorem update_inc {j : Nat} {ms ms' : List M} {d : List D}
    (h : update new inc true j ms d = .ok ms') :
    ∃ m m', ms[j]? = some m ∧ inc m d = .ok m' ∧ ms' = ms.set j m' := by
  unfold update at h
  rw [if_pos rfl] at h
  cases hm : ms[j]? with
  | none => rw [hm] at h; cases h
  | some m =>
    rw [hm] at h
    obtain ⟨m', h1, h2⟩ := bind_ok h
    exact ⟨m, m', rfl, h1, by injection h2 with h2; exact h2.symm⟩

end update

section steps
variable {L D M : Type}

/-- The updates of one list of models along the scales of a batch. -/
inductive Steps (new : L → List D → Except PyErr M) (inc : L → M → List D → Except PyErr M)
    (b : Bool) (data : Nat → L → List D → Prop) : Nat → List L → List M → List M → Prop
  | nil (j ms) : Steps new inc b data j [] ms ms
  | cons {j l ls ms ms' ms'' d} : data j l d → update (new l) (inc l) b j ms d = .ok ms' →
      Steps new inc b data (j + 1) ls ms' ms'' → Steps new inc b data j (l :: ls) ms ms''

variable {new : L → List D → Except PyErr M} {inc : L → M → List D → Except PyErr M}
  {data : Nat → L → List D → Prop}

theorem Steps.built : ∀ {j : Nat} {ls : List L} {ms ms' : List M},
    Steps new inc false data j ls ms ms' → ∃ bs : List M, ms' = ms ++ bs ∧ bs.length = ls.length ∧
      ∀ i l, ls[i]? = some l → ∃ d m, data (j + i) l d ∧ new l d = .ok m ∧ bs[i]? = some m := by
  intro j ls ms ms' h
  induction h with
  | nil j ms => exact ⟨[], by simp, rfl, by intro i l h; simp at h⟩
  | @cons j l ls ms ms1 ms2 d hd hu hs ih =>
    obtain ⟨m, h1, rfl⟩ := update_new hu
    obtain ⟨bs, h2, h3, h4⟩ := ih
    refine ⟨m :: bs, by rw [h2]; simp, by simp [h3], ?_⟩
    intro i l' hl
    cases i with
    | zero => simp at hl; subst hl; exact ⟨d, m, hd, h1, rfl⟩
    | succ i =>
      obtain ⟨d', m', q1, q2, q3⟩ := h4 i l' (by simpa using hl)
      exact ⟨d', m', by rw [show j + (i + 1) = j + 1 + i by omega]; exact q1, q2, by simpa using q3⟩

theorem Steps.incremented : ∀ {j : Nat} {ls : List L} {ms ms' : List M},
    Steps new inc true data j ls ms ms' → ms'.length = ms.length ∧
      (∀ i, i < j → ms'[i]? = ms[i]?) ∧
      ∀ i l, ls[i]? = some l → ∃ d m m', data (j + i) l d ∧ ms[j + i]? = some m ∧
        inc l m d = .ok m' ∧ ms'[j + i]? = some m' := by
  intro j ls ms ms' h
  induction h with
  | nil j ms => exact ⟨rfl, fun _ _ => rfl, by intro i l h; simp at h⟩
  | @cons j l ls ms ms1 ms2 d hd hu hs ih =>
    obtain ⟨m, m', h1, h2, rfl⟩ := update_inc hu
    obtain ⟨h3, h4, h5⟩ := ih
    refine ⟨by rw [h3, List.length_set], ?_, ?_⟩
    · intro i hi
      rw [h4 i (by omega), List.getElem?_set_ne (by omega)]
    · intro i l' hl
      have hj : j < ms.length := by
        by_contra hn; rw [List.getElem?_eq_none (by omega)] at h1; cases h1
      cases i with
      | zero =>
        simp at hl; subst hl
        refine ⟨d, m, m', hd, h1, h2, ?_⟩
        rw [Nat.add_zero, h4 j (by omega), List.getElem?_set_self hj]
      | succ i =>
        obtain ⟨d', n, n', q1, q2, q3, q4⟩ := h5 i l' (by simpa using hl)
        rw [show j + (i + 1) = j + 1 + i by omega]
        rw [List.getElem?_set_ne (by omega)] at q2
        exact ⟨d', n, n', q1, q2, q3, q4⟩

end steps

section chain
variable {L B D M : Type}

/-- The increments of one list of models along the batches. -/
inductive Chain (new : L → List D → Except PyErr M) (inc : L → M → List D → Except PyErr M)
    (data : B → Nat → L → List D → Prop) (ls : List L) : List B → List M → List M → Prop
  | nil (ms) : Chain new inc data ls [] ms ms
  | cons {b bs ms ms' ms''} : Steps new inc true (data b) 0 ls ms ms' →
      Chain new inc data ls bs ms' ms'' → Chain new inc data ls (b :: bs) ms ms''

variable {new : L → List D → Except PyErr M} {inc : L → M → List D → Except PyErr M}
  {f : Nat → L → B → Except PyErr (List D)} {ls : List L}

theorem Chain.continued : ∀ {bs : List B} {ms ms' : List M},
    Chain new inc (fun b j l d => f j l b = .ok d) ls bs ms ms' → ms'.length = ms.length ∧
      ∀ j l m, ls[j]? = some l → ms[j]? = some m →
        ∃ m', ms'[j]? = some m' ∧ Continued (inc l) (f j l) m bs m' := by
  intro bs ms ms' h
  induction h with
  | nil ms => exact ⟨rfl, fun j l m _ hm => ⟨m, hm, .done m⟩⟩
  | @cons b bs ms ms1 ms2 hs hc ih =>
    obtain ⟨h1, -, h2⟩ := hs.incremented
    obtain ⟨h3, h4⟩ := ih
    refine ⟨h3.trans h1, fun j l m hl hm => ?_⟩
    obtain ⟨d, n, n', q1, q2, q3, q4⟩ := h2 j l hl
    rw [Nat.zero_add] at q1 q2 q4
    rw [hm] at q2; cases q2
    obtain ⟨m', r1, r2⟩ := h4 j l n' hl q4
    exact ⟨m', r1, .next q1 q3 r2⟩

theorem Chain.trained {b : B} {bs : List B} {ms ms' : List M}
    (h0 : Steps new inc false (fun j l d => f j l b = .ok d) 0 ls [] ms)
    (h : Chain new inc (fun b j l d => f j l b = .ok d) ls bs ms ms') :
    ms'.length = ls.length ∧ ∀ j l, ls[j]? = some l →
      ∃ m, ms'[j]? = some m ∧ Trained (new l) (inc l) (f j l) (b :: bs) m := by
  obtain ⟨cs, h1, h2, h3⟩ := h0.built
  rw [List.nil_append] at h1
  subst h1
  obtain ⟨h4, h5⟩ := h.continued
  refine ⟨h4.trans h2, fun j l hl => ?_⟩
  obtain ⟨d, m, q1, q2, q3⟩ := h3 j l hl
  rw [Nat.zero_add] at q1
  obtain ⟨m', r1, r2⟩ := h5 j l m hl q3
  exact ⟨m', r1, b, bs, d, m, rfl, q1, q2, r2⟩

end chain

section aam
variable {Im Sh F W SM AM : Type} [DecidableEq F]

theorem featureImages_ok {o : ImageOps Im Sh F} (hno : ∀ i, o.feature o.noOp i = .ok i)
    {images fi : List Im} {prev : Option (F × List Im)} {f : F}
    (hp : ∀ f' fi', prev = some (f', fi') → images.mapM (o.feature f') = .ok fi')
    (h : featureImages o images prev f = .ok fi) : images.mapM (o.feature f) = .ok fi := by
  unfold featureImages at h
  cases prev with
  | none =>
    by_cases hf : f = o.noOp
    · simp only [if_pos hf] at h
      injection h with h; subst h
      rw [hf]; exact mapM_id_ok hno _
    · simp only [if_neg hf] at h; exact h
  | some p =>
    obtain ⟨f', fi'⟩ := p
    by_cases hf : f = f'
    · simp only [hf, ne_eq, not_true_eq_false, if_false] at h
      injection h with h; subst h
      rw [hf]; exact hp f' fi' rfl
    · simp only [ne_eq, hf, not_false_eq_true, if_true] at h; exact h

theorem scaledImages_ok {o : ImageOps Im Sh F} {s : Rat} {fi si : List Im}
    (h : scaledImages o s fi = .ok si) :
    fi.mapM (fun i => if |s - 1| ≤ 1 / 10 ^ 8 + 1 / 10 ^ 5 then .ok i else o.rescaleBy s i) =
      .ok si := by
  unfold scaledImages scaleImages closeToOne at h
  by_cases h1 : |s - 1| ≤ 1 / 10 ^ 8 + 1 / 10 ^ 5
  · simp only [h1, if_true]
    have : si = fi := by
      by_cases hs : s = 1
      · simp only [hs, ne_eq, not_true_eq_false, if_false] at h
        injection h with h; exact h.symm
      · simp only [ne_eq, hs, not_false_eq_true, if_true, h1, decide_true] at h
        injection h with h; exact h.symm
    rw [this]
    exact mapM_id_ok (fun _ => rfl) _
  · simp only [h1, if_false]
    have hs : s ≠ 1 := by
      intro hs; subst hs; exact h1 (by norm_num)
    simp only [ne_eq, hs, not_false_eq_true, if_true, h1, decide_false, Bool.false_eq_true,
      if_false] at h
    exact h

/-- The images of a scale are computed image by image from the batch. -/
theorem images_ok {o : ImageOps Im Sh F} (hno : ∀ i, o.feature o.noOp i = .ok i)
    {b images fi si : List Im} {prev : Option (F × List Im)} {ref : Sh} {l : Level F}
    (hr : b.mapM (o.rescale ref) = .ok images)
    (hp : ∀ f' fi', prev = some (f', fi') → images.mapM (o.feature f') = .ok fi')
    (h : featureImages o images prev l.feature = .ok fi) (h' : scaledImages o l.scale fi = .ok si) :
    b.mapM (imageAt o ref l) = .ok si := by
  have h1 := mapM_comp hr (mapM_comp (featureImages_ok hno hp h) (scaledImages_ok h'))
  rw [← h1]
  rfl

theorem shapes_ok {o : ImageOps Im Sh F} {b si : List Im} {ref : Sh} {l : Level F} {s : List Sh}
    (h : b.mapM (imageAt o ref l) = .ok si) (h' : si.mapM o.shapeOf = .ok s) :
    b.mapM (shapeAt o ref l) = .ok s := mapM_comp h h'

theorem warped_ok {o : ImageOps Im Sh F} {b si : List Im} {ref : Sh} {j : Nat} {l : Level F}
    {s : List Sh} {w : List W} {warp : Sh → Nat → Im → Sh → Except PyErr W}
    (h : b.mapM (imageAt o ref l) = .ok si) (h' : si.mapM o.shapeOf = .ok s)
    (h'' : (si.zip s).mapM (fun x => warp (o.scaleShape l.scale ref) j x.1 x.2) = .ok w) :
    b.mapM (warpedAt o warp ref j l) = .ok w := by
  have h1 := mapM_comp h (mapM_zip h' h'')
  rw [← h1]
  rfl

theorem batchLoop_steps {o : ImageOps Im Sh F} {L : Learners Im Sh W SM AM}
    (hno : ∀ i, o.feature o.noOp i = .ok i) {ref : Sh} {inc : Bool} {b images : List Im}
    (hr : b.mapM (o.rescale ref) = .ok images) :
    ∀ {ls : List (Level F)} {j : Nat} {prev : Option (F × List Im)} {st st' : St Sh SM AM},
    (∀ f' fi', prev = some (f', fi') → images.mapM (o.feature f') = .ok fi') →
    batchLoop o L ref inc images j prev st ls = .ok st' →
    st'.ref = st.ref ∧
    Steps (fun l => L.shape.new l.maxShape) (fun l => L.shape.inc l.maxShape) inc
      (fun _ l d => b.mapM (shapeAt o ref l) = .ok d) j ls st.shapeModels st'.shapeModels ∧
    Steps (fun l => L.second.new l.maxSecond) (fun l => L.second.inc l.maxSecond) inc
      (fun j l d => b.mapM (warpedAt o L.warp ref j l) = .ok d) j ls st.second st'.second := by
  intro ls
  induction ls with
  | nil =>
    intro j prev st st' _ h
    injection h with h; subst h
    exact ⟨rfl, .nil _ _, .nil _ _⟩
  | cons l ls ih =>
    intro j prev st st' hp h
    unfold batchLoop at h
    obtain ⟨fi, h1, h⟩ := bind_ok h
    obtain ⟨si, h2, h⟩ := bind_ok h
    obtain ⟨s, h3, h⟩ := bind_ok h
    obtain ⟨sm, h4, h⟩ := bind_ok h
    obtain ⟨w, h5, h⟩ := bind_ok h
    obtain ⟨am, h6, h⟩ := bind_ok h
    have hi := images_ok hno hr hp h1 h2
    obtain ⟨q1, q2, q3⟩ := ih (fun f' fi' e => by
      injection e with e; injection e with e1 e2; subst e1; subst e2
      exact featureImages_ok hno hp h1) h
    exact ⟨q1, .cons (shapes_ok hi h3) h4 q2, .cons (warped_ok hi h3 h5) h6 q3⟩

theorem reference_ok {o : ImageOps Im Sh F} {given : Option Sh} {b : List Im}
    {bs : List (List Im)} {r : Sh} (h : reference o 0 given b = .ok (some r)) :
    ReferenceFrom o given (b :: bs) r := by
  unfold reference at h
  rw [if_pos rfl] at h
  cases given with
  | some g => injection h with h; injection h with h; exact h.symm
  | none =>
    obtain ⟨s, h1, h⟩ := bind_ok h
    obtain ⟨r', h2, h⟩ := bind_ok h
    injection h with h; injection h with h; subst h
    exact ⟨b, bs, s, rfl, h1, h2⟩

/-- The data of the shape model of a scale. -/
def shapeData (o : ImageOps Im Sh F) (ref : Sh) (_j : Nat) (l : Level F) (b : List Im) :
    Except PyErr (List Sh) := b.mapM (shapeAt o ref l)

/-- The data of the second model of a scale. -/
def warpData (o : ImageOps Im Sh F) (warp : Sh → Nat → Im → Sh → Except PyErr W) (ref : Sh)
    (j : Nat) (l : Level F) (b : List Im) : Except PyErr (List W) :=
  b.mapM (warpedAt o warp ref j l)

theorem trainLoop_chain {o : ImageOps Im Sh F} {L : Learners Im Sh W SM AM}
    (hno : ∀ i, o.feature o.noOp i = .ok i) {levels : List (Level F)} {r : Sh} :
    ∀ {bs : List (List Im)} {k : Nat} {inc : Bool} {st st' : St Sh SM AM},
    (0 < k ∨ inc = true) → st.ref = some r →
    trainLoop o L levels k inc st bs = .ok st' →
    st'.ref = some r ∧
    Chain (fun l => L.shape.new l.maxShape) (fun l => L.shape.inc l.maxShape)
      (fun b j l d => shapeData o r j l b = .ok d) levels bs st.shapeModels st'.shapeModels ∧
    Chain (fun l => L.second.new l.maxSecond) (fun l => L.second.inc l.maxSecond)
      (fun b j l d => warpData o L.warp r j l b = .ok d) levels bs st.second st'.second := by
  intro bs
  induction bs with
  | nil =>
    intro k inc st st' _ hr h
    injection h with h; subst h
    exact ⟨hr, .nil _, .nil _⟩
  | cons b bs ih =>
    intro k inc st st' hk hr h
    unfold trainLoop at h
    have e1 : reference o k st.ref b = .ok (some r) := by
      unfold reference; rw [hr]; split <;> rfl
    have e2 : (if k > 0 then true else inc) = true := by
      by_cases hk0 : k > 0
      · rw [if_pos hk0]
      · rw [if_neg hk0]; exact hk.resolve_left hk0
    simp only [e1, e2, bind, Except.bind] at h
    cases hi : b.mapM (o.rescale r) with
    | error e => rw [hi] at h; cases h
    | ok images =>
      simp only [hi] at h
      cases hb : batchLoop o L r true images 0 none { st with ref := some r } levels with
      | error e => rw [hb] at h; cases h
      | ok st1 =>
        simp only [hb] at h
        obtain ⟨q1, q2, q3⟩ := batchLoop_steps hno hi (by intro _ _ e; cases e) hb
        obtain ⟨q4, q5, q6⟩ := ih (Or.inl (Nat.succ_pos k)) q1 h
        exact ⟨q4, .cons q2 q5, .cons q3 q6⟩

theorem construct_ok {o : ImageOps Im Sh F} {L : Learners Im Sh W SM AM}
    (hno : ∀ i, o.feature o.noOp i = .ok i) {levels : List (Level F)} {given : Option Sh}
    {b : List Im} {bs : List (List Im)} {st : St Sh SM AM}
    (h : trainLoop o L levels 0 false ⟨given, [], []⟩ (b :: bs) = .ok st) :
    ∃ r sm1 am1, st.ref = some r ∧ ReferenceFrom o given (b :: bs) r ∧
    Steps (fun l => L.shape.new l.maxShape) (fun l => L.shape.inc l.maxShape) false
      (fun j l d => shapeData o r j l b = .ok d) 0 levels [] sm1 ∧
    Steps (fun l => L.second.new l.maxSecond) (fun l => L.second.inc l.maxSecond) false
      (fun j l d => warpData o L.warp r j l b = .ok d) 0 levels [] am1 ∧
    Chain (fun l => L.shape.new l.maxShape) (fun l => L.shape.inc l.maxShape)
      (fun b j l d => shapeData o r j l b = .ok d) levels bs sm1 st.shapeModels ∧
    Chain (fun l => L.second.new l.maxSecond) (fun l => L.second.inc l.maxSecond)
      (fun b j l d => warpData o L.warp r j l b = .ok d) levels bs am1 st.second := by
  unfold trainLoop at h
  obtain ⟨ref, h1, h⟩ := bind_ok h
  cases ref with
  | none => cases h
  | some r =>
    simp only [gt_iff_lt, lt_self_iff_false, if_false] at h
    obtain ⟨images, h2, h⟩ := bind_ok h
    obtain ⟨st1, h3, h⟩ := bind_ok h
    obtain ⟨q1, q2, q3⟩ := batchLoop_steps hno h2 (by intro _ _ e; cases e) h3
    obtain ⟨q4, q5, q6⟩ := trainLoop_chain hno (Or.inl Nat.one_pos) q1 h
    exact ⟨r, st1.shapeModels, st1.second, q4, reference_ok h1, q2, q3, q5, q6⟩

end aam

section atm
variable {Im Sh F W SM : Type} [DecidableEq F]

/-- The shapes of a scale in an ATM. -/
def atmShapeData (o : ImageOps Im Sh F) (_j : Nat) (l : Level F) (b : List Sh) :
    Except PyErr (List Sh) := .ok (if l.scale ≠ 1 then b.map (o.scaleShape l.scale) else b)

theorem atmBatchLoop_ok {o : ImageOps Im Sh F} {L : AtmOps Im Sh W SM} {ref : Sh} {inc : Bool}
    {template : Im} {b : List Sh} :
    ∀ {ls : List (Level F)} {j : Nat} {prev : Option (F × List Im)} {st st' : AtmSt Sh SM W},
    atmBatchLoop o L ref inc template b j prev st ls = .ok st' →
    st'.ref = st.ref ∧
    (∃ ws, st'.templates = st.templates ++ ws ∧ ws.length = ls.length) ∧
    Steps (fun l => L.shape.new l.maxShape) (fun l => L.shape.inc l.maxShape) inc
      (fun j l d => atmShapeData o j l b = .ok d) j ls st.shapeModels st'.shapeModels := by
  intro ls
  induction ls with
  | nil =>
    intro j prev st st' h
    injection h with h; subst h
    exact ⟨rfl, ⟨[], by simp, rfl⟩, .nil _ _⟩
  | cons l ls ih =>
    intro j prev st st' h
    unfold atmBatchLoop at h
    obtain ⟨fi, h1, h⟩ := bind_ok h
    obtain ⟨si, h2, h⟩ := bind_ok h
    obtain ⟨sm, h4, h⟩ := bind_ok h
    obtain ⟨t, h5, h⟩ := bind_ok h
    obtain ⟨w, h6, h⟩ := bind_ok h
    obtain ⟨q1, ⟨ws, q2, q3⟩, q4⟩ := ih h
    refine ⟨q1, ⟨w :: ws, by rw [q2]; simp, by simp [q3]⟩, .cons rfl h4 q4⟩

theorem atmTrainLoop_chain {o : ImageOps Im Sh F} {L : AtmOps Im Sh W SM}
    {levels : List (Level F)} {r : Sh} :
    ∀ {bs : List (List Sh)} {k : Nat} {inc : Bool} {template : Im} {st st' : AtmSt Sh SM W},
    (0 < k ∨ inc = true) → st.ref = some r →
    atmTrainLoop o L levels k inc template st bs = .ok st' →
    st'.ref = some r ∧
    (∃ ws, st'.templates = st.templates ++ ws ∧ ws.length = levels.length * bs.length) ∧
    Chain (fun l => L.shape.new l.maxShape) (fun l => L.shape.inc l.maxShape)
      (fun b j l d => atmShapeData o j l b = .ok d) levels bs st.shapeModels st'.shapeModels := by
  intro bs
  induction bs with
  | nil =>
    intro k inc template st st' _ hr h
    injection h with h; subst h
    exact ⟨hr, ⟨[], by simp, by simp⟩, .nil _⟩
  | cons b bs ih =>
    intro k inc template st st' hk hr h
    unfold atmTrainLoop at h
    have key : ∀ {st1 : AtmSt Sh SM W} {template'}, atmBatchLoop o L r true template' b 0 none
        { st with ref := some r } levels = .ok st1 →
        atmTrainLoop o L levels (k + 1) true template' st1 bs = .ok st' →
        st'.ref = some r ∧
        (∃ ws, st'.templates = st.templates ++ ws ∧ ws.length = levels.length * (b :: bs).length) ∧
        Chain (fun l => L.shape.new l.maxShape) (fun l => L.shape.inc l.maxShape)
          (fun b j l d => atmShapeData o j l b = .ok d) levels (b :: bs) st.shapeModels
          st'.shapeModels := by
      intro st1 template' h1 h2
      obtain ⟨q1, ⟨ws, q2, q3⟩, q4⟩ := atmBatchLoop_ok h1
      obtain ⟨r1, ⟨ws', r2, r3⟩, r4⟩ := ih (Or.inl (Nat.succ_pos k)) q1 h2
      refine ⟨r1, ⟨ws ++ ws', by rw [r2, q2]; simp, ?_⟩, .cons q4 r4⟩
      rw [List.length_append, q3, r3, List.length_cons, Nat.mul_succ]; omega
    by_cases hk0 : k = 0
    · rw [if_pos hk0] at h
      have hi : inc = true := hk.resolve_left (by omega)
      obtain ⟨r', h1, h⟩ := bind_ok h
      obtain ⟨template', h2, h⟩ := bind_ok h
      obtain ⟨st1, h3, h⟩ := bind_ok h
      have : r' = r := by
        rw [hr] at h1; injection h1 with h1; exact h1.symm
      subst this
      subst hi
      exact key h3 h
    · rw [if_neg hk0, hr] at h
      simp only at h
      obtain ⟨st1, h3, h⟩ := bind_ok h
      have e : ({ st with ref := some r } : AtmSt Sh SM W) = st := by rw [← hr]
      exact key (by rw [e]; exact h3) h

theorem atmConstruct_ok {o : ImageOps Im Sh F} {L : AtmOps Im Sh W SM}
    {levels : List (Level F)} {given : Option Sh} {template : Im} {b : List Sh}
    {bs : List (List Sh)} {st : AtmSt Sh SM W}
    (h : atmTrainLoop o L levels 0 false template ⟨given, [], []⟩ (b :: bs) = .ok st) :
    ∃ r sm1, st.ref = some r ∧ atmReference o given b = .ok r ∧
    st.templates.length = levels.length * (b :: bs).length ∧
    Steps (fun l => L.shape.new l.maxShape) (fun l => L.shape.inc l.maxShape) false
      (fun j l d => atmShapeData o j l b = .ok d) 0 levels [] sm1 ∧
    Chain (fun l => L.shape.new l.maxShape) (fun l => L.shape.inc l.maxShape)
      (fun b j l d => atmShapeData o j l b = .ok d) levels bs sm1 st.shapeModels := by
  unfold atmTrainLoop at h
  rw [if_pos rfl] at h
  obtain ⟨r, h1, h⟩ := bind_ok h
  obtain ⟨template', h2, h⟩ := bind_ok h
  obtain ⟨st1, h3, h⟩ := bind_ok h
  obtain ⟨q1, ⟨ws, q2, q3⟩, q4⟩ := atmBatchLoop_ok h3
  obtain ⟨r1, ⟨ws', r2, r3⟩, r4⟩ := atmTrainLoop_chain (Or.inl Nat.one_pos) q1 h
  refine ⟨r, st1.shapeModels, r1, h1, ?_, q4, r4⟩
  rw [r2, q2, List.nil_append, List.length_append, q3, r3, List.length_cons, Nat.mul_succ]; omega

theorem atmBatchLoop_templates {o : ImageOps Im Sh F} {L : AtmOps Im Sh W SM} {ref : Sh}
    {inc : Bool} {given template : Im} {b : List Sh} (hr : o.rescale ref given = .ok template) :
    ∀ {ls : List (Level F)} {j : Nat} {prev : Option (F × List Im)} {st st' : AtmSt Sh SM W},
    (∀ f' fi', prev = some (f', fi') → [template].mapM (o.feature f') = .ok fi') →
    atmBatchLoop o L ref inc template b j prev st ls = .ok st' →
    ∃ ws, st'.templates = st.templates ++ ws ∧ ws.length = ls.length ∧
      ∀ i l, ls[i]? = some l → ∃ x w, imageAt o ref l given = .ok x ∧
        L.warpTemplate (o.scaleShape l.scale ref) (j + i) x = .ok w ∧ ws[i]? = some w := by
  intro ls
  induction ls with
  | nil =>
    intro j prev st st' _ h
    injection h with h; subst h
    exact ⟨[], by simp, rfl, by intro i l h; simp at h⟩
  | cons l ls ih =>
    intro j prev st st' hp h
    unfold atmBatchLoop at h
    obtain ⟨fi, h1, h⟩ := bind_ok h
    obtain ⟨si, h2, h⟩ := bind_ok h
    obtain ⟨sm, h4, h⟩ := bind_ok h
    obtain ⟨t, h5, h⟩ := bind_ok h
    obtain ⟨w, h6, h⟩ := bind_ok h
    have hf : [template].mapM (o.feature l.feature) = .ok fi := by
      cases prev with
      | none => exact h1
      | some p =>
        obtain ⟨f', fi'⟩ := p
        by_cases hf : l.feature = f'
        · simp only [hf, ne_eq, not_true_eq_false, if_false] at h1
          injection h1 with h1; subst h1
          rw [hf]; exact hp f' fi' rfl
        · simp only [ne_eq, hf, not_false_eq_true, if_true] at h1; exact h1
    obtain ⟨ws, q1, q2, q3⟩ := ih (fun f' fi' e => by
      injection e with e; injection e with e1 e2; subst e1; subst e2; exact hf) h
    refine ⟨w :: ws, by rw [q1]; simp, by simp [q2], ?_⟩
    intro i l' hl
    cases i with
    | succ i =>
      obtain ⟨x, w', r1, r2, r3⟩ := q3 i l' (by simpa using hl)
      exact ⟨x, w', r1, by rw [show j + (i + 1) = j + 1 + i by omega]; exact r2, by simpa using r3⟩
    | zero =>
      simp at hl; subst hl
      obtain ⟨y, ys, e1, e2, rfl⟩ := mapM_cons_ok.mp hf
      rw [mapM_nil_ok] at e2; subst e2
      obtain ⟨z, zs, e3, e4, rfl⟩ := mapM_cons_ok.mp (scaledImages_ok h2)
      rw [mapM_nil_ok] at e4; subst e4
      injection h5 with h5; subst h5
      refine ⟨z, w, ?_, h6, rfl⟩
      unfold imageAt
      simp only [hr, e1, bind, Except.bind]
      exact e3

theorem atmTrainLoop_templates {o : ImageOps Im Sh F} {L : AtmOps Im Sh W SM}
    {levels : List (Level F)} {inc : Bool} {given : Im} {b : List Sh} {bs : List (List Sh)}
    {st st' : AtmSt Sh SM W}
    (h : atmTrainLoop o L levels 0 inc given st (b :: bs) = .ok st') :
    ∃ r ws, st'.ref = some r ∧ ws.length = levels.length ∧
      (∃ more, st'.templates = st.templates ++ (ws ++ more)) ∧
      ∀ j l, levels[j]? = some l → ∃ x w, imageAt o r l given = .ok x ∧
        L.warpTemplate (o.scaleShape l.scale r) j x = .ok w ∧ ws[j]? = some w := by
  unfold atmTrainLoop at h
  rw [if_pos rfl] at h
  obtain ⟨r, h1, h⟩ := bind_ok h
  obtain ⟨template', h2, h⟩ := bind_ok h
  obtain ⟨st1, h3, h⟩ := bind_ok h
  obtain ⟨ws, q1, q2, q3⟩ := atmBatchLoop_templates h2 (by intro _ _ e; cases e) h3
  obtain ⟨r1, ⟨ws', r2, -⟩, -⟩ := atmTrainLoop_chain (Or.inl Nat.one_pos)
    (atmBatchLoop_ok h3).1 h
  refine ⟨r, ws, r1, q2, ⟨ws', by rw [r2, q1, List.append_assoc]⟩, fun j l hl => ?_⟩
  obtain ⟨x, w, e1, e2, e3⟩ := q3 j l hl
  rw [Nat.zero_add] at e2
  exact ⟨x, w, e1, e2, e3⟩

end atm

section aps
variable {Im Sh F W G SM DM AM : Type} [DecidableEq F]

/-- Aligned shapes of a scale in an APS. -/
def alignData (o : ImageOps Im Sh F) (align : List Sh → Except PyErr (List Sh)) (ref : Sh)
    (_j : Nat) (l : Level F) (b : List Im) : Except PyErr (List Sh) :=
  b.mapM (shapeAt o ref l) >>= align

/-- Shapes of the deformation model of a scale in an APS. -/
def deformData (o : ImageOps Im Sh F) (align : List Sh → Except PyErr (List Sh)) (procrustes : Bool)
    (ref : Sh) (_j : Nat) (l : Level F) (b : List Im) : Except PyErr (List Sh) := do
  let s ← b.mapM (shapeAt o ref l)
  let a ← align s
  return if procrustes then a else s

/-- Scales paired with their deformation graphs. -/
def apsLevels (graphs : List (Option G)) : Nat → List (Level F) → List (Level F × Option G)
  | _, [] => []
  | j, l :: ls => (l, graphs[j]?.join) :: apsLevels graphs (j + 1) ls

theorem apsLevels_get (graphs : List (Option G)) : ∀ (ls : List (Level F)) (j i : Nat),
    (apsLevels graphs j ls)[i]? = ls[i]?.map fun l => (l, graphs[j + i]?.join)
  | [], j, i => by simp [apsLevels]
  | l :: ls, j, 0 => by simp [apsLevels]
  | l :: ls, j, i + 1 => by
    rw [apsLevels, List.getElem?_cons_succ, List.getElem?_cons_succ, apsLevels_get graphs ls,
      show j + 1 + i = j + (i + 1) by omega]

theorem apsLevels_length (graphs : List (Option G)) : ∀ (ls : List (Level F)) (j : Nat),
    (apsLevels graphs j ls).length = ls.length
  | [], j => rfl
  | l :: ls, j => by rw [apsLevels, List.length_cons, apsLevels_length graphs ls, List.length_cons]

/-- Building a deformation model with a graph that may be missing. -/
def deformNew (L : ApsOps Im Sh W G SM DM AM) (g : Option G) (d : List Sh) : Except PyErr DM :=
  match g with
  | some g => (L.deformation g).build d
  | none => .error .typeError

/-- Incrementing a deformation model with a graph that may be missing. -/
def deformInc (L : ApsOps Im Sh W G SM DM AM) (g : Option G) (m : DM) (d : List Sh) :
    Except PyErr DM :=
  match g with
  | some g => (L.deformation g).increment m d
  | none => .error .typeError

theorem apsBatchLoop_steps {o : ImageOps Im Sh F} {L : ApsOps Im Sh W G SM DM AM}
    (hno : ∀ i, o.feature o.noOp i = .ok i) {ref : Sh} {inc : Bool} {b images : List Im}
    (hr : b.mapM (o.rescale ref) = .ok images) :
    ∀ {ls : List (Level F)} {j : Nat} {prev : Option (F × List Im)}
      {st st' : ApsSt Sh G SM DM AM},
    (∀ f' fi', prev = some (f', fi') → images.mapM (o.feature f') = .ok fi') →
    apsBatchLoop o L inc images j prev st ls = .ok st' →
    st'.ref = st.ref ∧ st'.graphs = st.graphs ∧
    Steps (fun l => L.shape.new l.maxShape) (fun _ => L.shape.inc none) inc
      (fun j l d => alignData o L.align ref j l b = .ok d) j ls st.shapeModels st'.shapeModels ∧
    Steps (fun l => deformNew L l.2) (fun l => deformInc L l.2) inc
      (fun j l d => deformData o L.align L.useProcrustes ref j l.1 b = .ok d) j
      (apsLevels st.graphs j ls) st.deformation st'.deformation ∧
    Steps (fun _ => L.second.build) (fun _ => L.second.increment) inc
      (fun j l d => warpData o (fun _ => L.warp) ref j l b = .ok d) j ls st.second st'.second := by
  intro ls
  induction ls with
  | nil =>
    intro j prev st st' _ h
    injection h with h; subst h
    exact ⟨rfl, rfl, .nil _ _, .nil _ _, .nil _ _⟩
  | cons l ls ih =>
    intro j prev st st' hp h
    unfold apsBatchLoop at h
    obtain ⟨fi, h1, h⟩ := bind_ok h
    obtain ⟨si, h2, h⟩ := bind_ok h
    obtain ⟨s, h3, h⟩ := bind_ok h
    obtain ⟨al, h3', h⟩ := bind_ok h
    obtain ⟨sm, h4, h⟩ := bind_ok h
    obtain ⟨g, h7, h⟩ := bind_ok h
    obtain ⟨dm, h8, h⟩ := bind_ok h
    obtain ⟨w, h5, h⟩ := bind_ok h
    obtain ⟨am, h6, h⟩ := bind_ok h
    have hi := images_ok hno hr hp h1 h2
    have hs := shapes_ok hi h3
    have hg : st.graphs[j]?.join = some g := by
      cases e : st.graphs[j]? with
      | none => rw [e] at h7; cases h7
      | some x =>
        cases x with
        | none => rw [e] at h7; cases h7
        | some g' => rw [e] at h7; injection h7 with h7; rw [h7]; rfl
    obtain ⟨q1, q2, q3, q4, q5⟩ := ih (fun f' fi' e => by
      injection e with e; injection e with e1 e2; subst e1; subst e2
      exact featureImages_ok hno hp h1) h
    refine ⟨q1, q2, .cons ?_ h4 q3, ?_, .cons (warped_ok (warp := fun _ => L.warp) hi h3 h5) h6 q5⟩
    · unfold alignData; rw [hs]; exact h3'
    · rw [apsLevels]
      refine .cons (d := if L.useProcrustes then al else s) ?_ (ms' := dm) ?_ q4
      · unfold deformData; simp only [hs, h3', bind, Except.bind, pure, Except.pure]
      · rw [hg]; exact h8

theorem apsGraphs_ok {o : ImageOps Im Sh F} {L : ApsOps Im Sh W G SM DM AM}
    {graphs graphs' : List (Option G)} {images : List Im}
    (h : apsGraphs o L graphs images = .ok graphs') :
    graphs'.any (·.isNone) = false ∧ (graphs.any (·.isNone) = false → graphs' = graphs) := by
  unfold apsGraphs at h
  by_cases hg : graphs.any (·.isNone) = true
  · rw [if_pos hg] at h
    obtain ⟨s, h1, h⟩ := bind_ok h
    obtain ⟨t, h2, h⟩ := bind_ok h
    injection h with h; subst h
    refine ⟨?_, fun hn => absurd hg (by rw [hn]; simp)⟩
    simp
  · rw [if_neg hg] at h
    injection h with h; subst h
    exact ⟨by rwa [Bool.not_eq_true] at hg, fun _ => rfl⟩

theorem apsTrainLoop_chain {o : ImageOps Im Sh F} {L : ApsOps Im Sh W G SM DM AM}
    (hno : ∀ i, o.feature o.noOp i = .ok i) {levels : List (Level F)} {r : Sh} :
    ∀ {bs : List (List Im)} {k : Nat} {inc : Bool} {st st' : ApsSt Sh G SM DM AM},
    (0 < k ∨ inc = true) → st.ref = some r → st.graphs.any (·.isNone) = false →
    apsTrainLoop o L levels k inc st bs = .ok st' →
    st'.ref = some r ∧ st'.graphs = st.graphs ∧
    Chain (fun l => L.shape.new l.maxShape) (fun _ => L.shape.inc none)
      (fun b j l d => alignData o L.align r j l b = .ok d) levels bs st.shapeModels
      st'.shapeModels ∧
    Chain (fun l => deformNew L l.2) (fun l => deformInc L l.2)
      (fun b j l d => deformData o L.align L.useProcrustes r j l.1 b = .ok d)
      (apsLevels st.graphs 0 levels) bs st.deformation st'.deformation ∧
    Chain (fun _ => L.second.build) (fun _ => L.second.increment)
      (fun b j l d => warpData o (fun _ => L.warp) r j l b = .ok d) levels bs st.second
      st'.second := by
  intro bs
  induction bs with
  | nil =>
    intro k inc st st' _ hr _ h
    injection h with h; subst h
    exact ⟨hr, rfl, .nil _, .nil _, .nil _⟩
  | cons b bs ih =>
    intro k inc st st' hk hr hg h
    unfold apsTrainLoop at h
    have e1 : reference o k st.ref b = .ok (some r) := by
      unfold reference; rw [hr]; split <;> rfl
    have e2 : (if k > 0 then true else inc) = true := by
      by_cases hk0 : k > 0
      · rw [if_pos hk0]
      · rw [if_neg hk0]; exact hk.resolve_left hk0
    obtain ⟨ref, h1, h⟩ := bind_ok h
    rw [e1] at h1; injection h1 with h1; subst h1
    simp only [e2] at h
    obtain ⟨images, hi, h⟩ := bind_ok h
    obtain ⟨graphs, h2, h⟩ := bind_ok h
    obtain ⟨st1, hb, h⟩ := bind_ok h
    rw [(apsGraphs_ok h2).2 hg] at hb
    obtain ⟨q1, q2, q3, q4, q5⟩ := apsBatchLoop_steps hno hi (by intro _ _ e; cases e) hb
    obtain ⟨r1, r2, r3, r4, r5⟩ := ih (Or.inl (Nat.succ_pos k)) q1 (by rw [q2]; exact hg) h
    rw [q2] at r2 r4
    exact ⟨r1, r2, .cons q3 r3, .cons q4 r4, .cons q5 r5⟩

theorem apsConstruct_ok {o : ImageOps Im Sh F} {L : ApsOps Im Sh W G SM DM AM}
    (hno : ∀ i, o.feature o.noOp i = .ok i) {levels : List (Level F)} {given : Option Sh}
    {graphs : List (Option G)} {b : List Im} {bs : List (List Im)} {st : ApsSt Sh G SM DM AM}
    (h : apsTrainLoop o L levels 0 false ⟨given, graphs, [], [], []⟩ (b :: bs) = .ok st) :
    ∃ r images sm dm am, st.ref = some r ∧ ReferenceFrom o given (b :: bs) r ∧
    b.mapM (o.rescale r) = .ok images ∧ apsGraphs o L graphs images = .ok st.graphs ∧
    Steps (fun l => L.shape.new l.maxShape) (fun _ => L.shape.inc none) false
      (fun j l d => alignData o L.align r j l b = .ok d) 0 levels [] sm ∧
    Steps (fun l => deformNew L l.2) (fun l => deformInc L l.2) false
      (fun j l d => deformData o L.align L.useProcrustes r j l.1 b = .ok d) 0
      (apsLevels st.graphs 0 levels) [] dm ∧
    Steps (fun _ => L.second.build) (fun _ => L.second.increment) false
      (fun j l d => warpData o (fun _ => L.warp) r j l b = .ok d) 0 levels [] am ∧
    Chain (fun l => L.shape.new l.maxShape) (fun _ => L.shape.inc none)
      (fun b j l d => alignData o L.align r j l b = .ok d) levels bs sm st.shapeModels ∧
    Chain (fun l => deformNew L l.2) (fun l => deformInc L l.2)
      (fun b j l d => deformData o L.align L.useProcrustes r j l.1 b = .ok d)
      (apsLevels st.graphs 0 levels) bs dm st.deformation ∧
    Chain (fun _ => L.second.build) (fun _ => L.second.increment)
      (fun b j l d => warpData o (fun _ => L.warp) r j l b = .ok d) levels bs am st.second := by
  unfold apsTrainLoop at h
  obtain ⟨ref, h1, h⟩ := bind_ok h
  cases ref with
  | none => cases h
  | some r =>
    simp only [gt_iff_lt, lt_self_iff_false, if_false] at h
    obtain ⟨images, h2, h⟩ := bind_ok h
    obtain ⟨gr, h4, h⟩ := bind_ok h
    obtain ⟨st1, h3, h⟩ := bind_ok h
    obtain ⟨q1, q2, q3, q4, q5⟩ := apsBatchLoop_steps hno h2 (by intro _ _ e; cases e) h3
    obtain ⟨r1, r2, r3, r4, r5⟩ := apsTrainLoop_chain hno (Or.inl Nat.one_pos) q1
      (by rw [q2]; exact (apsGraphs_ok h4).1) h
    rw [q2] at r2 r4
    simp only at r2 r4 q4
    exact ⟨r, images, st1.shapeModels, st1.deformation, st1.second, r1, reference_ok h1, h2,
      by rw [r2]; exact h4, q3, by rw [r2]; exact q4, q5, r3, by rw [r2]; exact r4, r5⟩

end aps

theorem map_fst_zip_take {α β : Type} : ∀ (l : List α) (r : List β),
    (l.zip r).map Prod.fst = l.take r.length
  | [], r => by simp
  | a :: l, [] => by simp
  | a :: l, b :: r => by simp [map_fst_zip_take l r]

section exact
variable {Im D M : Type}

theorem continued_exact {new : List D → Except PyErr M} {inc : M → List D → Except PyErr M}
    {f : Im → Except PyErr D} (hx : ∀ a d m, new a = .ok m → inc m d = new (a ++ d)) :
    ∀ {bs : List (List Im)} {m m' : M} {a : List D}, new a = .ok m →
    Continued inc (fun b => b.mapM f) m bs m' →
    ∃ d, bs.flatten.mapM f = .ok d ∧ new (a ++ d) = .ok m' := by
  intro bs
  induction bs with
  | nil =>
    intro m m' a ha h
    cases h
    exact ⟨[], rfl, by rw [List.append_nil]; exact ha⟩
  | cons b bs ih =>
    intro m m' a ha h
    cases h with
    | @next _ m1 _ _ _ d h1 h2 h3 =>
      rw [hx a d m ha] at h2
      obtain ⟨d', q1, q2⟩ := ih h2 h3
      refine ⟨d ++ d', ?_, by rw [← List.append_assoc]; exact q2⟩
      rw [List.flatten_cons]
      exact mapM_append_ok h1 q1

theorem trained_exact {new : List D → Except PyErr M} {inc : M → List D → Except PyErr M}
    {f : Im → Except PyErr D} (hx : ∀ a d m, new a = .ok m → inc m d = new (a ++ d))
    {bs : List (List Im)} {m : M} (h : Trained new inc (fun b => b.mapM f) bs m) :
    Trained new inc (fun b => b.mapM f) [bs.flatten] m := by
  obtain ⟨b, rest, d, m0, rfl, h1, h2, h3⟩ := h
  obtain ⟨d', q1, q2⟩ := continued_exact hx h2 h3
  exact ⟨_, [], _, m, rfl, mapM_append_ok h1 q1, q2, .done m⟩

theorem continued_cut {B : Type} {L : Learner M D} {n : M → Nat} {k : Nat}
    (ht : ∀ m, n (L.trim k m) ≤ k) {data : B → Except PyErr (List D)} :
    ∀ {bs : List B} {m m' : M}, n m ≤ k → Continued (L.inc (some k)) data m bs m' → n m' ≤ k := by
  intro bs
  induction bs with
  | nil => intro m m' hm h; cases h; exact hm
  | cons b bs ih =>
    intro m m' hm h
    cases h with
    | @next _ m1 _ _ _ d h1 h2 h3 =>
      obtain ⟨m2, q1, q2⟩ := bind_ok h2
      injection q2 with q2; subst q2
      exact ih (ht m2) h3

theorem trained_cut {B : Type} {L : Learner M D} {n : M → Nat} {k : Nat}
    (ht : ∀ m, n (L.trim k m) ≤ k) {data : B → Except PyErr (List D)} {bs : List B} {m : M}
    (h : Trained (L.new (some k)) (L.inc (some k)) data bs m) : n m ≤ k := by
  obtain ⟨b, rest, d, m0, rfl, h1, h2, h3⟩ := h
  obtain ⟨m2, q1, q2⟩ := bind_ok h2
  injection q2 with q2; subst q2
  exact continued_cut ht (ht m2) h3

end exact

end Menpofit
