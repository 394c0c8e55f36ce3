import Verif.Lemmas.PrintingModels
/-!
# C143: the lines printed for each scale are about that scale
-/

namespace Menpofit
open Print Spec

/-- C143 (AAM): the part of the text about a scale shows the features, the appearance model, the shape model and the patch
shape of that scale. -/
theorem C143_aam_lines (f : Fmt) (a : Print.Aam) (t : Text) (h : aamStr f a = .ok t) (feature : Nat → String)
    (am : Nat → AppearanceModel) (sm : Nat → ShapeModel) (g : Nat → Nat)
    (hf : ∀ k, k < a.scales.length → a.features[k]? = some (feature k))
    (ha : ∀ k, k < a.scales.length → a.appearance[k]? = some (am k))
    (hs : ∀ k, k < a.scales.length → a.shapes[k]? = some (sm k) ∧ (sm k).nGlobal = some (g k)) :
    SaysPerScale f a.scales "   " t (fun k => ["     - Holistic feature: " ++ feature k,
      "     - Appearance model class: " ++ (am k).cls,
      "       - " ++ f.num (am k).nComponents ++ " appearance components",
      "     - Shape model class: " ++ (sm k).cls,
      "       - " ++ f.num (sm k).nComponents ++ " shape components",
      "       - " ++ f.num (g k) ++ " similarity transform parameters"]) ∧
    ∀ l, a.patchShape = some l → ∀ p : Nat → Nat × Nat, (∀ k, k < a.scales.length → l[k]? = some (p k)) →
      SaysPerScale f a.scales "   " t (fun k => ["     - Patch shape: " ++ f.pair (p k)]) := by
  obtain ⟨L, p1, h⟩ := bind_ok h
  obtain ⟨L', w1, h⟩ := bind_ok h
  obtain rfl := Except.ok.inj h
  obtain ⟨q1, q2⟩ := perScale_ok.1 p1
  obtain ⟨q3, q4⟩ := withPatches_ok w1
  have row : ∀ (k : Nat) (s : ℚ) (b : Text), a.scales[k]? = some s → L'[k]? = some b →
      ∃ b', aamScale f a k s = .ok b' ∧ b = patched f a.patchShape k b' := by
    intro k s b hk hb
    obtain ⟨t, h1, h2⟩ := q2 k s hk
    exact ⟨t, h1, Option.some.inj (hb.symm.trans (q4 k t h2))⟩
  constructor
  · refine ⟨_, L', _, rfl, q3.trans q1, fun k s b hk hb => ?_⟩
    have hlt := (List.getElem?_eq_some_iff.1 hk).1
    obtain ⟨b', h1, rfl⟩ := row k s b hk hb
    obtain ⟨x1, x2, x3, x4, e1, e2, e3, e4, rfl⟩ := aamScale_ok.1 h1
    obtain rfl := Option.some.inj (e1.symm.trans (hf k hlt))
    obtain rfl := Option.some.inj (e2.symm.trans (ha k hlt))
    obtain rfl := Option.some.inj (e3.symm.trans (hs k hlt).1)
    obtain rfl := Option.some.inj (e4.symm.trans (hs k hlt).2)
    cases a.patchShape <;> exact ⟨rfl, by simp [patched]⟩
  · intro l hl p hp
    refine ⟨_, L', _, rfl, q3.trans q1, fun k s b hk hb => ?_⟩
    have hlt := (List.getElem?_eq_some_iff.1 hk).1
    obtain ⟨b', h1, rfl⟩ := row k s b hk hb
    obtain ⟨x1, x2, x3, x4, e1, e2, e3, e4, rfl⟩ := aamScale_ok.1 h1
    rw [hl]
    exact ⟨rfl, by simp [patched, hp k hlt]⟩

/-- C143 (ATM): the part of the text about a scale shows the features, the template, the shape model and the patch shape of
that scale. -/
theorem C143_atm_lines (f : Fmt) (a : Print.Atm) (t : Text) (h : atmStr f a = .ok t) (feature : Nat → String)
    (tp : Nat → Nat × Nat) (sm : Nat → ShapeModel) (g : Nat → Nat)
    (hf : ∀ k, k < a.scales.length → a.features[k]? = some (feature k))
    (ha : ∀ k, k < a.scales.length → a.templates[k]? = some (tp k))
    (hs : ∀ k, k < a.scales.length → a.shapes[k]? = some (sm k) ∧ (sm k).nGlobal = some (g k)) :
    SaysPerScale f a.scales "   " t (fun k => ["     - Holistic feature: " ++ feature k,
      "     - Template shape: " ++ f.pair (tp k),
      "     - Shape model class: " ++ (sm k).cls,
      "       - " ++ f.num (sm k).nComponents ++ " shape components",
      "       - " ++ f.num (g k) ++ " similarity transform parameters"]) ∧
    ∀ l, a.patchShape = some l → ∀ p : Nat → Nat × Nat, (∀ k, k < a.scales.length → l[k]? = some (p k)) →
      SaysPerScale f a.scales "   " t (fun k => ["     - Patch shape: " ++ f.pair (p k)]) := by
  obtain ⟨L, p1, h⟩ := bind_ok h
  obtain ⟨L', w1, h⟩ := bind_ok h
  obtain rfl := Except.ok.inj h
  obtain ⟨q1, q2⟩ := perScale_ok.1 p1
  obtain ⟨q3, q4⟩ := withPatches_ok w1
  have row : ∀ (k : Nat) (s : ℚ) (b : Text), a.scales[k]? = some s → L'[k]? = some b →
      ∃ b', atmScale f a k s = .ok b' ∧ b = patched f a.patchShape k b' := by
    intro k s b hk hb
    obtain ⟨t, h1, h2⟩ := q2 k s hk
    exact ⟨t, h1, Option.some.inj (hb.symm.trans (q4 k t h2))⟩
  constructor
  · refine ⟨_, L', _, rfl, q3.trans q1, fun k s b hk hb => ?_⟩
    have hlt := (List.getElem?_eq_some_iff.1 hk).1
    obtain ⟨b', h1, rfl⟩ := row k s b hk hb
    obtain ⟨x1, x2, x3, x4, e1, e2, e3, e4, rfl⟩ := atmScale_ok.1 h1
    obtain rfl := Option.some.inj (e1.symm.trans (hf k hlt))
    obtain rfl := Option.some.inj (e2.symm.trans (ha k hlt))
    obtain rfl := Option.some.inj (e3.symm.trans (hs k hlt).1)
    obtain rfl := Option.some.inj (e4.symm.trans (hs k hlt).2)
    cases a.patchShape <;> exact ⟨rfl, by simp [patched]⟩
  · intro l hl p hp
    refine ⟨_, L', _, rfl, q3.trans q1, fun k s b hk hb => ?_⟩
    have hlt := (List.getElem?_eq_some_iff.1 hk).1
    obtain ⟨b', h1, rfl⟩ := row k s b hk hb
    obtain ⟨x1, x2, x3, x4, e1, e2, e3, e4, rfl⟩ := atmScale_ok.1 h1
    rw [hl]
    exact ⟨rfl, by simp [patched, hp k hlt]⟩

/-- C143 (CLM): the part of the text about a scale shows the features, the experts and the shape model of that scale. -/
theorem C143_clm_lines (f : Fmt) (a : Print.Clm) (t : Text) (h : clmStr f a = .ok t) (feature cls : Nat → String)
    (ex : Nat → Experts) (sm : Nat → ShapeModel) (g : Nat → Nat)
    (hf : ∀ k, k < a.scales.length → a.features[k]? = some (feature k))
    (hc : ∀ k, k < a.scales.length → a.expertCls[k]? = some (cls k))
    (he : ∀ k, k < a.scales.length → a.experts[k]? = some (ex k))
    (hs : ∀ k, k < a.scales.length → a.shapes[k]? = some (sm k) ∧ (sm k).nGlobal = some (g k)) :
    SaysPerScale f a.scales "   " t (fun k => ["     - Holistic feature: " ++ feature k,
      "     - Ensemble of experts class: " ++ cls k,
      "       - " ++ f.num (ex k).nExperts ++ " experts",
      "       - " ++ (ex k).filter ++ " class",
      "       - Patch shape: " ++ f.num (ex k).patch.1 ++ " x " ++ f.num (ex k).patch.2,
      "       - Patch normalisation: " ++ (ex k).normalisation,
      "       - Context shape: " ++ f.num (ex k).context.1 ++ " x " ++ f.num (ex k).context.2,
      "       - Cosine mask: " ++ (if (ex k).cosine then "True" else "False"),
      "     - Shape model class: " ++ (sm k).cls,
      "       - " ++ f.num (sm k).nComponents ++ " shape components",
      "       - " ++ f.num (g k) ++ " similarity transform parameters"]) := by
  obtain ⟨L, p1, h⟩ := bind_ok h
  obtain rfl := Except.ok.inj h
  obtain ⟨q1, q2⟩ := perScale_ok.1 p1
  refine ⟨_, L, _, rfl, q1, fun k s b hk hb => ?_⟩
  have hlt := (List.getElem?_eq_some_iff.1 hk).1
  obtain ⟨b', h1, h2⟩ := q2 k s hk
  obtain rfl := Option.some.inj (hb.symm.trans h2)
  obtain ⟨x1, x2, x5, x3, x4, e1, e2, e5, e3, e4, rfl⟩ := clmScale_ok.1 h1
  obtain rfl := Option.some.inj (e1.symm.trans (hf k hlt))
  obtain rfl := Option.some.inj (e2.symm.trans (hc k hlt))
  obtain rfl := Option.some.inj (e5.symm.trans (he k hlt))
  obtain rfl := Option.some.inj (e3.symm.trans (hs k hlt).1)
  obtain rfl := Option.some.inj (e4.symm.trans (hs k hlt).2)
  exact ⟨rfl, by simp [expertLines, showBool]⟩

/-- C143 (unified models): the part of the text about a scale shows the features, the experts, the appearance model and the
shape model of that scale. -/
theorem C143_unified_lines (f : Fmt) (a : Print.Unified) (t : Text) (h : unifiedStr f a = .ok t) (feature cls : Nat → String)
    (ex : Nat → Experts) (am : Nat → AppearanceModel) (sm : Nat → ShapeModel) (g : Nat → Nat)
    (hf : ∀ k, k < a.scales.length → a.features[k]? = some (feature k))
    (hc : ∀ k, k < a.scales.length → a.expertCls[k]? = some (cls k))
    (he : ∀ k, k < a.scales.length → a.experts[k]? = some (ex k))
    (ha : ∀ k, k < a.scales.length → a.appearance[k]? = some (am k))
    (hs : ∀ k, k < a.scales.length → a.shapes[k]? = some (sm k) ∧ (sm k).nGlobal = some (g k)) :
    SaysPerScale f a.scales "   " t (fun k => ["     - Holistic feature: " ++ feature k,
      "     - Ensemble of experts class: " ++ cls k,
      "       - " ++ f.num (ex k).nExperts ++ " experts",
      "       - " ++ (ex k).filter ++ " class",
      "       - Patch shape: " ++ f.num (ex k).patch.1 ++ " x " ++ f.num (ex k).patch.2,
      "       - Patch normalisation: " ++ (ex k).normalisation,
      "       - Context shape: " ++ f.num (ex k).context.1 ++ " x " ++ f.num (ex k).context.2,
      "       - Cosine mask: " ++ (if (ex k).cosine then "True" else "False"),
      "     - Appearance model class: " ++ (am k).cls,
      "       - " ++ f.num (am k).nComponents ++ " appearance components",
      "     - Shape model class: " ++ (sm k).cls,
      "       - " ++ f.num (sm k).nComponents ++ " shape components",
      "       - " ++ f.num (g k) ++ " similarity transform parameters"]) := by
  obtain ⟨L, p1, h⟩ := bind_ok h
  obtain rfl := Except.ok.inj h
  obtain ⟨q1, q2⟩ := perScale_ok.1 p1
  refine ⟨_, L, _, rfl, q1, fun k s b hk hb => ?_⟩
  have hlt := (List.getElem?_eq_some_iff.1 hk).1
  obtain ⟨b', h1, h2⟩ := q2 k s hk
  obtain rfl := Option.some.inj (hb.symm.trans h2)
  obtain ⟨x1, x2, x5, x6, x3, x4, e1, e2, e5, e6, e3, e4, rfl⟩ := unifiedScale_ok.1 h1
  obtain rfl := Option.some.inj (e1.symm.trans (hf k hlt))
  obtain rfl := Option.some.inj (e2.symm.trans (hc k hlt))
  obtain rfl := Option.some.inj (e5.symm.trans (he k hlt))
  obtain rfl := Option.some.inj (e6.symm.trans (ha k hlt))
  obtain rfl := Option.some.inj (e3.symm.trans (hs k hlt).1)
  obtain rfl := Option.some.inj (e4.symm.trans (hs k hlt).2)
  exact ⟨rfl, by simp [expertLines, showBool]⟩

/-- C143 (LK): the part of the text about a scale shows the features and the template of that scale. -/
theorem C143_lucas_kanade_lines (f : Fmt) (a : Print.Lk) (t : Text) (h : lkStr f a = .ok t) (feature : Nat → String)
    (tp : Nat → Nat × Nat) (hf : ∀ k, k < a.scales.length → a.features[k]? = some (feature k))
    (ha : ∀ k, k < a.scales.length → a.templates[k]? = some (tp k)) :
    SaysPerScale f a.scales "   " t (fun k => ["     - Holistic feature: " ++ feature k,
      "     - Template shape: " ++ f.pair (tp k)]) := by
  obtain ⟨L, p1, h⟩ := bind_ok h
  obtain ⟨x, -, h⟩ := bind_ok h
  obtain rfl := Except.ok.inj h
  obtain ⟨q1, q2⟩ := perScale_ok.1 p1
  refine ⟨_, L, _, rfl, q1, fun k s b hk hb => ?_⟩
  have hlt := (List.getElem?_eq_some_iff.1 hk).1
  obtain ⟨b', h1, h2⟩ := q2 k s hk
  obtain rfl := Option.some.inj (hb.symm.trans h2)
  simp only [nth_ok.2 (hf k hlt), nth_ok.2 (ha k hlt), bind, Except.bind, pure, Except.pure] at h1
  obtain rfl := Except.ok.inj h1
  exact ⟨rfl, by simp⟩

/-- C143 (SDM): the part of the text about a scale shows the iterations, the patch shape and the features of that scale. -/
theorem C143_supervised_descent_lines (f : Fmt) (a : Print.Sdm) (t : Text) (h : sdmStr f a = .ok t)
    (feature patchFeature : Nat → String) (n : Nat → Nat) (p : Nat → Nat × Nat)
    (hi : ∀ k, k < a.scales.length → a.iterations[k]? = some (n k))
    (hp : ∀ k, k < a.scales.length → a.patchShape[k]? = some (p k))
    (hf : ∀ k, k < a.scales.length → a.features[k]? = some (feature k))
    (hg : ∀ k, k < a.scales.length → a.patchFeatures[k]? = some (patchFeature k)) :
    SaysPerScale f a.scales "   " t (fun k => ["     - " ++ f.num (n k) ++ " iterations",
      "     - Patch shape: " ++ f.pair (p k),
      "     - Holistic feature: " ++ feature k,
      "     - Patch feature: " ++ patchFeature k]) := by
  obtain ⟨x, -, h⟩ := bind_ok h
  obtain ⟨L, p1, h⟩ := bind_ok h
  obtain rfl := Except.ok.inj h
  obtain ⟨q1, q2⟩ := perScale_ok.1 p1
  refine ⟨_, L, _, rfl, q1, fun k s b hk hb => ?_⟩
  have hlt := (List.getElem?_eq_some_iff.1 hk).1
  obtain ⟨b', h1, h2⟩ := q2 k s hk
  obtain rfl := Option.some.inj (hb.symm.trans h2)
  simp only [nth_ok.2 (hi k hlt), nth_ok.2 (hp k hlt), nth_ok.2 (hf k hlt), nth_ok.2 (hg k hlt), bind, Except.bind, pure,
    Except.pure] at h1
  obtain rfl := Except.ok.inj h1
  exact ⟨rfl, by simp⟩

/-- C143 (fitters of AAMs): what is printed after the model shows the numbers of active components of each scale. -/
theorem C143_aam_fitter_lines (f : Fmt) (a : Print.Aam) (x : List AamAlg) (t : Text) (h : aamFitterStr f a x = .ok t)
    (am : Nat → AppearanceModel) (sm : Nat → ShapeModel) (g : Nat → Nat)
    (ha : ∀ k, k < a.scales.length → a.appearance[k]? = some (am k))
    (hs : ∀ k, k < a.scales.length → a.shapes[k]? = some (sm k) ∧ (sm k).nGlobal = some (g k)) :
    SaysPerScale f a.scales "   " t (fun k => ["     - " ++ f.num (sm k).nActive ++ " active shape components",
      "     - " ++ f.num (g k) ++ " similarity transform components",
      "     - " ++ f.num (am k).nActive ++ " active appearance components"]) := by
  obtain ⟨L, p1, h⟩ := bind_ok h
  obtain ⟨y, -, h⟩ := bind_ok h
  obtain ⟨m, hm, h⟩ := bind_ok h
  obtain rfl := Except.ok.inj h
  obtain ⟨M, -, hm⟩ := bind_ok hm
  obtain ⟨M', -, hm⟩ := bind_ok hm
  obtain rfl := Except.ok.inj hm
  obtain ⟨q1, q2⟩ := perScale_ok.1 p1
  refine ⟨_, L, _, addText_lines _ _ _ _ _ _, q1, fun k s b hk hb => ?_⟩
  · have hlt := (List.getElem?_eq_some_iff.1 hk).1
    obtain ⟨b', h1, h2⟩ := q2 k s hk
    obtain rfl := Option.some.inj (hb.symm.trans h2)
    simp only [nth_ok.2 (ha k hlt), nth_ok.2 (hs k hlt).1, globals_ok.2 (hs k hlt).2, bind, Except.bind, pure,
      Except.pure] at h1
    obtain rfl := Except.ok.inj h1
    exact ⟨rfl, by simp⟩

/-- C143 (fitters of ATMs): what is printed after the model shows the numbers of active components of each scale. -/
theorem C143_atm_fitter_lines (f : Fmt) (a : Print.Atm) (x : List AtmAlg) (t : Text) (h : atmFitterStr f a x = .ok t)
    (sm : Nat → ShapeModel) (g : Nat → Nat)
    (hs : ∀ k, k < a.scales.length → a.shapes[k]? = some (sm k) ∧ (sm k).nGlobal = some (g k)) :
    SaysPerScale f a.scales "   " t (fun k => ["     - " ++ f.num (sm k).nActive ++ " active shape components",
      "     - " ++ f.num (g k) ++ " similarity transform components"]) := by
  obtain ⟨L, p1, h⟩ := bind_ok h
  obtain ⟨y, -, h⟩ := bind_ok h
  obtain ⟨m, hm, h⟩ := bind_ok h
  obtain rfl := Except.ok.inj h
  obtain ⟨M, -, hm⟩ := bind_ok hm
  obtain ⟨M', -, hm⟩ := bind_ok hm
  obtain rfl := Except.ok.inj hm
  obtain ⟨q1, q2⟩ := perScale_ok.1 p1
  refine ⟨_, L, _, addText_lines _ _ _ _ _ _, q1, fun k s b hk hb => ?_⟩
  · have hlt := (List.getElem?_eq_some_iff.1 hk).1
    obtain ⟨b', h1, h2⟩ := q2 k s hk
    obtain rfl := Option.some.inj (hb.symm.trans h2)
    simp only [nth_ok.2 (hs k hlt).1, globals_ok.2 (hs k hlt).2, bind, Except.bind, pure, Except.pure] at h1
    obtain rfl := Except.ok.inj h1
    exact ⟨rfl, by simp⟩

/-- C143 (fitters of CLMs): what is printed after the model shows the numbers of active components of each scale. -/
theorem C143_clm_fitter_lines (f : Fmt) (a : Print.Clm) (x : List ClmAlg) (t : Text) (h : clmFitterStr f a x = .ok t)
    (sm : Nat → ShapeModel) (g : Nat → Nat)
    (hs : ∀ k, k < a.scales.length → a.shapes[k]? = some (sm k) ∧ (sm k).nGlobal = some (g k)) :
    SaysPerScale f a.scales "   " t (fun k => ["     - " ++ f.num (sm k).nActive ++ " active shape components",
      "     - " ++ f.num (g k) ++ " similarity transform components"]) := by
  obtain ⟨L, p1, h⟩ := bind_ok h
  obtain ⟨y, -, h⟩ := bind_ok h
  obtain ⟨m, hm, h⟩ := bind_ok h
  obtain rfl := Except.ok.inj h
  obtain ⟨M, -, hm⟩ := bind_ok hm
  obtain rfl := Except.ok.inj hm
  obtain ⟨q1, q2⟩ := perScale_ok.1 p1
  refine ⟨_, L, _, addText_lines _ _ _ _ _ _, q1, fun k s b hk hb => ?_⟩
  · have hlt := (List.getElem?_eq_some_iff.1 hk).1
    obtain ⟨b', h1, h2⟩ := q2 k s hk
    obtain rfl := Option.some.inj (hb.symm.trans h2)
    simp only [nth_ok.2 (hs k hlt).1, globals_ok.2 (hs k hlt).2, bind, Except.bind, pure, Except.pure] at h1
    obtain rfl := Except.ok.inj h1
    exact ⟨rfl, by simp⟩

/-- C143 (fitters of unified models): what is printed after the model shows the numbers of active components of each scale. -/
theorem C143_unified_fitter_lines (f : Fmt) (a : Print.Unified) (x : List UnifiedAlg) (t : Text)
    (h : unifiedFitterStr f a x = .ok t) (am : Nat → AppearanceModel) (sm : Nat → ShapeModel) (g : Nat → Nat)
    (ha : ∀ k, k < a.scales.length → a.appearance[k]? = some (am k))
    (hs : ∀ k, k < a.scales.length → a.shapes[k]? = some (sm k) ∧ (sm k).nGlobal = some (g k)) :
    SaysPerScale f a.scales "  " t (fun k => ["     - " ++ f.num (sm k).nActive ++ " active shape components",
      "     - " ++ f.num (g k) ++ " similarity transform components",
      "     - " ++ f.num (am k).nActive ++ " active appearance components"]) := by
  obtain ⟨L, p1, h⟩ := bind_ok h
  obtain ⟨y, -, h⟩ := bind_ok h
  obtain ⟨m, hm, h⟩ := bind_ok h
  obtain rfl := Except.ok.inj h
  obtain ⟨M, -, hm⟩ := bind_ok hm
  obtain rfl := Except.ok.inj hm
  obtain ⟨q1, q2⟩ := perScale_ok.1 p1
  refine ⟨_, L, _, addText_lines _ _ _ _ _ _, q1, fun k s b hk hb => ?_⟩
  · have hlt := (List.getElem?_eq_some_iff.1 hk).1
    obtain ⟨b', h1, h2⟩ := q2 k s hk
    obtain rfl := Option.some.inj (hb.symm.trans h2)
    simp only [nth_ok.2 (ha k hlt), nth_ok.2 (hs k hlt).1, globals_ok.2 (hs k hlt).2, bind, Except.bind, pure,
      Except.pure] at h1
    obtain rfl := Except.ok.inj h1
    exact ⟨rfl, by simp⟩

/-! ### The hypotheses can be met -/

/-- A patch based model with two scales, and a supervised descent fitter with two scales, can be printed. -/
example (f : Fmt) : (∃ t, aamStr f ⟨"Patch-Based Active Appearance Model", some 100, (3, 4), [1 / 2, 1], ["no_op", "fast_dsift"],
      [⟨"PCAModel", 5, 5⟩, ⟨"PCAModel", 9, 7⟩], [⟨"OrthoPDM", 4, 3, some 4⟩, ⟨"OrthoPDM", 6, 5, some 4⟩],
      some [(17, 17), (9, 9)], none⟩ = .ok t ∧ "     - Patch shape: " ++ f.pair (9, 9) ∈ t) ∧
    (∃ t, aamFitterStr f ⟨"Holistic Active Appearance Model", none, (3, 4), [1 / 2, 1], ["no_op", "fast_dsift"],
      [⟨"PCAModel", 5, 5⟩, ⟨"PCAModel", 9, 7⟩], [⟨"OrthoPDM", 4, 3, some 4⟩, ⟨"OrthoPDM", 6, 5, some 4⟩], none,
      some "DifferentiablePiecewiseAffine"⟩ [.wibergInverse, .wibergInverse] = .ok t ∧
      "     - " ++ f.num 7 ++ " active appearance components" ∈ t) ∧
    ∃ t, sdmStr f ⟨none, (3, 4), [1 / 2, 1], [3, 6], [(17, 17), (9, 9)], ["no_op", "no_op"], ["no_op", "dsift"],
      [("NonParametricNewton", "IRLRegression"), ("NonParametricNewton", "IRLRegression")], 30, none⟩ = .ok t ∧
      "     - " ++ f.num 6 ++ " iterations" ∈ t := by
  refine ⟨⟨_, rfl, ?_⟩, ⟨_, rfl, ?_⟩, ⟨_, rfl, ?_⟩⟩ <;> simp [addText]

/-- Models of the other classes can be printed too. -/
example (f : Fmt) : (∃ t, atmStr f ⟨"Holistic Active Template Model", some 100, (3, 4), [1 / 2, 1], ["no_op", "no_op"],
      [(20, 30), (40, 60)], [⟨"OrthoPDM", 4, 3, some 4⟩, ⟨"OrthoPDM", 6, 5, some 4⟩], some [(17, 17), (9, 9)],
      "DifferentiableThinPlateSplines"⟩ = .ok t) ∧
    (∃ t, clmFitterStr f ⟨none, (3, 4), [1], ["no_op"], ["CorrelationFilterExpertEnsemble"],
      [⟨68, "IncrementalCorrelationFilterThinWrapper", (17, 17), "normalize_norm", (34, 34), true⟩],
      [⟨"OrthoPDM", 4, 3, some 4⟩]⟩ [.meanShift] = .ok t) ∧
    (∃ t, unifiedFitterStr f ⟨none, (3, 4), [1], ["no_op"], ["CorrelationFilterExpertEnsemble"],
      [⟨68, "IncrementalCorrelationFilterThinWrapper", (17, 17), "normalize_norm", (34, 34), true⟩], [⟨"PCAModel", 5, 5⟩],
      [⟨"OrthoPDM", 4, 3, some 4⟩], none⟩ [.projectOut] = .ok t) ∧
    ∃ t, lkStr f ⟨none, (3, 4), [1 / 2, 1], ["no_op", "no_op"], [(20, 30), (40, 60)],
      [(.inverseCompositional, .ssd), (.inverseCompositional, .ssd)], "DifferentiableAlignmentAffine"⟩ = .ok t :=
  ⟨⟨_, rfl⟩, ⟨_, rfl⟩, ⟨_, rfl⟩, ⟨_, rfl⟩⟩

end Menpofit
