import Verif.Lemmas.PrintingModels
import Mathlib.Data.Rat.Encodable
/-!
# C143: a printed model or fitter tells what it is and what it uses at each scale
-/

namespace Menpofit
open Print Spec

/-! ### What is proved about every kind of model

* A trained model whose shape models have a similarity transform can be printed.
* Two trained models that print the same text have the same settings at each scale.
* The diagonal shown is the one that pictures are scaled to.
-/

/-- C143 (AAM, part): every trained active appearance model whose shape models have a similarity transform can be printed;
the diagonal is the one pictures are scaled to. -/
theorem C143_aam_partial (f : Fmt) (a : Print.Aam) (ha : TrainedAam a) (hs : WithSimilarity a.shapes) :
    ∃ t, aamStr f a = .ok t ∧ t[0]? = some a.title ∧
      t[1]? = some (" - Images scaled to diagonal: " ++ f.two (scaledTo a.diagonal a.range)) := by
  obtain ⟨L, hL⟩ := perScale_total (scales := a.scales) (g := aamScale f a) fun k s hks => by
    have hk := (List.getElem?_eq_some_iff.1 hks).1
    obtain ⟨h, h1⟩ := lookup ha.features hk
    obtain ⟨am, h2⟩ := lookup ha.appearance hk
    obtain ⟨sm, h3⟩ := lookup ha.shapes hk
    obtain ⟨g, h4⟩ := hs sm (List.mem_of_getElem? h3)
    exact ⟨_, aamScale_ok.2 ⟨h, am, sm, g, h1, h2, h3, h4, rfl⟩⟩
  obtain ⟨L', hL'⟩ := withPatches_total (f := f) (l := a.patchShape) (L := L) fun x hx => by
    rw [ha.patches x hx, (perScale_ok.1 hL).1]
  rw [← diagonal_eq]
  simp only [aamStr, hL, hL', bind, Except.bind, pure, Except.pure]
  exact ⟨_, rfl, rfl, rfl⟩

/-- C143 (AAM): two trained active appearance models that print the same text are of the same kind, have the same scales and
the same features, the same appearance and shape models in class and number of components, the same patch shapes and the same
warp. -/
theorem C143_aam_distinguished (f : Fmt) (hf : Readable f) (a b : Print.Aam) (ha : TrainedAam a) (hb : TrainedAam b) (t : Text)
    (h1 : aamStr f a = .ok t) (h2 : aamStr f b = .ok t) :
    a.title = b.title ∧ a.transform = b.transform ∧ a.scales = b.scales ∧ a.features = b.features ∧
      a.appearance.map appearanceSettings = b.appearance.map appearanceSettings ∧
      a.shapes.map shapeSettings = b.shapes.map shapeSettings ∧ a.patchShape = b.patchShape := by
  obtain ⟨L, p1, h1⟩ := bind_ok h1
  obtain ⟨L', w1, h1⟩ := bind_ok h1
  obtain ⟨M, p2, h2⟩ := bind_ok h2
  obtain ⟨M', w2, h2⟩ := bind_ok h2
  have e := (Except.ok.inj h1).trans (Except.ok.inj h2).symm
  simp only [List.cons_append, List.nil_append, List.cons.injEq, String.append_right_inj] at e
  obtain ⟨e1, -, e3, -, e5⟩ := e
  have shape : ∀ (a : Print.Aam) (k : Nat) (s : ℚ) (t : Text), aamScale f a k s = .ok t →
      t.length = 7 ∧ ∃ x, t[0]? = some ("   - Scale " ++ x) := by
    intro a k s t h
    obtain ⟨h, am, sm, g, -, -, -, -, rfl⟩ := aamScale_ok.1 h
    exact ⟨rfl, _, rfl⟩
  obtain ⟨ho, hN, q⟩ := rows_patched_inj hf (c := 7) (by omega) ha.scales hb.scales ha.patches hb.patches p1 p2 w1 w2 (shape a)
    (shape b) e5
  have row : ∀ k, k < a.scales.length → (∃ s, a.scales[k]? = some s ∧ b.scales[k]? = some s) ∧
      (∃ h, a.features[k]? = some h ∧ b.features[k]? = some h) ∧
      (∃ x y, a.appearance[k]? = some x ∧ b.appearance[k]? = some y ∧ appearanceSettings x = appearanceSettings y) ∧
      ∃ x y, a.shapes[k]? = some x ∧ b.shapes[k]? = some y ∧ shapeSettings x = shapeSettings y := by
    intro k hk
    obtain ⟨s, s', t, s1, s2, h3, h4⟩ := q k hk
    obtain ⟨h, am, sm, g, f1, f2, f3, f4, u⟩ := aamScale_ok.1 h3
    obtain ⟨h', am', sm', g', f1', f2', f3', f4', u'⟩ := aamScale_ok.1 h4
    have e := u.symm.trans u'
    simp only [List.cons.injEq, String.append_right_inj, String.append_left_inj, and_true] at e
    obtain ⟨a1, rfl, a3, a4, a5, a6, a7⟩ := e
    obtain rfl := hf.scale a1
    obtain rfl := hf.num a7
    exact ⟨⟨s, s1, s2⟩, ⟨h, f1, f1'⟩, ⟨am, am', f2, f2', by simp only [appearanceSettings, a3, hf.num a4]⟩,
      ⟨sm, sm', f3, f3', shapeSettings_eq a5 (hf.num a6) f4 f4'⟩⟩
  exact ⟨e1, transformLine_inj e3, same rfl hN.symm fun k hk => (row k hk).1,
    same ha.features (hb.features.trans hN.symm) fun k hk => (row k hk).2.1,
    same_of _ ha.appearance (hb.appearance.trans hN.symm) fun k hk => (row k hk).2.2.1,
    same_of _ ha.shapes (hb.shapes.trans hN.symm) fun k hk => (row k hk).2.2.2, ho⟩

/-- C143 (ATM, part): every trained active template model whose shape models have a similarity transform can be printed; the
diagonal is the one pictures are scaled to. -/
theorem C143_atm_partial (f : Fmt) (a : Print.Atm) (ha : TrainedAtm a) (hs : WithSimilarity a.shapes) :
    ∃ t, atmStr f a = .ok t ∧ t[0]? = some a.title ∧
      t[2]? = some (" - Images scaled to diagonal: " ++ f.two (scaledTo a.diagonal a.range)) := by
  obtain ⟨L, hL⟩ := perScale_total (scales := a.scales) (g := atmScale f a) fun k s hks => by
    have hk := (List.getElem?_eq_some_iff.1 hks).1
    obtain ⟨h, h1⟩ := lookup ha.features hk
    obtain ⟨tp, h2⟩ := lookup ha.templates hk
    obtain ⟨sm, h3⟩ := lookup ha.shapes hk
    obtain ⟨g, h4⟩ := hs sm (List.mem_of_getElem? h3)
    exact ⟨_, atmScale_ok.2 ⟨h, tp, sm, g, h1, h2, h3, h4, rfl⟩⟩
  obtain ⟨L', hL'⟩ := withPatches_total (f := f) (l := a.patchShape) (L := L) fun x hx => by
    rw [ha.patches x hx, (perScale_ok.1 hL).1]
  rw [← diagonal_eq]
  simp only [atmStr, hL, hL', bind, Except.bind, pure, Except.pure]
  exact ⟨_, rfl, rfl, rfl⟩

/-- C143 (ATM): two trained active template models that print the same text have the same settings. -/
theorem C143_atm_distinguished (f : Fmt) (hf : Readable f) (a b : Print.Atm) (ha : TrainedAtm a) (hb : TrainedAtm b) (t : Text)
    (h1 : atmStr f a = .ok t) (h2 : atmStr f b = .ok t) :
    a.title = b.title ∧ a.transform = b.transform ∧ a.scales = b.scales ∧ a.features = b.features ∧
      a.templates = b.templates ∧ a.shapes.map shapeSettings = b.shapes.map shapeSettings ∧ a.patchShape = b.patchShape := by
  obtain ⟨L, p1, h1⟩ := bind_ok h1
  obtain ⟨L', w1, h1⟩ := bind_ok h1
  obtain ⟨M, p2, h2⟩ := bind_ok h2
  obtain ⟨M', w2, h2⟩ := bind_ok h2
  have e := (Except.ok.inj h1).trans (Except.ok.inj h2).symm
  simp only [List.cons_append, List.nil_append, List.cons.injEq, String.append_right_inj, String.append_left_inj] at e
  obtain ⟨e1, e3, -, -, e5⟩ := e
  have shape : ∀ (a : Print.Atm) (k : Nat) (s : ℚ) (t : Text), atmScale f a k s = .ok t →
      t.length = 6 ∧ ∃ x, t[0]? = some ("   - Scale " ++ x) := by
    intro a k s t h
    obtain ⟨h, am, sm, g, -, -, -, -, rfl⟩ := atmScale_ok.1 h
    exact ⟨rfl, _, rfl⟩
  obtain ⟨ho, hN, q⟩ := rows_patched_inj hf (c := 6) (by omega) ha.scales hb.scales ha.patches hb.patches p1 p2 w1 w2 (shape a)
    (shape b) e5
  have row : ∀ k, k < a.scales.length → (∃ s, a.scales[k]? = some s ∧ b.scales[k]? = some s) ∧
      (∃ h, a.features[k]? = some h ∧ b.features[k]? = some h) ∧
      (∃ x, a.templates[k]? = some x ∧ b.templates[k]? = some x) ∧
      ∃ x y, a.shapes[k]? = some x ∧ b.shapes[k]? = some y ∧ shapeSettings x = shapeSettings y := by
    intro k hk
    obtain ⟨s, s', t, s1, s2, h3, h4⟩ := q k hk
    obtain ⟨h, tp, sm, g, f1, f2, f3, f4, u⟩ := atmScale_ok.1 h3
    obtain ⟨h', tp', sm', g', f1', f2', f3', f4', u'⟩ := atmScale_ok.1 h4
    have e := u.symm.trans u'
    simp only [List.cons.injEq, String.append_right_inj, String.append_left_inj, and_true] at e
    obtain ⟨a1, rfl, a3, a5, a6, a7⟩ := e
    obtain rfl := hf.scale a1
    obtain rfl := hf.num a7
    obtain rfl := hf.pair a3
    exact ⟨⟨s, s1, s2⟩, ⟨h, f1, f1'⟩, ⟨tp, f2, f2'⟩, ⟨sm, sm', f3, f3', shapeSettings_eq a5 (hf.num a6) f4 f4'⟩⟩
  exact ⟨e1, e3, same rfl hN.symm fun k hk => (row k hk).1,
    same ha.features (hb.features.trans hN.symm) fun k hk => (row k hk).2.1,
    same ha.templates (hb.templates.trans hN.symm) fun k hk => (row k hk).2.2.1,
    same_of _ ha.shapes (hb.shapes.trans hN.symm) fun k hk => (row k hk).2.2.2, ho⟩

/-- C143 (CLM, part): every trained constrained local model whose shape models have a similarity transform can be printed. -/
theorem C143_clm_partial (f : Fmt) (a : Print.Clm) (ha : TrainedClm a) (hs : WithSimilarity a.shapes) :
    ∃ t, clmStr f a = .ok t ∧ t[0]? = some "Constrained Local Model" ∧
      t[1]? = some (" - Images scaled to diagonal: " ++ f.two (scaledTo a.diagonal a.range)) := by
  obtain ⟨L, hL⟩ := perScale_total (scales := a.scales) (g := clmScale f a) fun k s hks => by
    have hk := (List.getElem?_eq_some_iff.1 hks).1
    obtain ⟨h, h1⟩ := lookup ha.features hk
    obtain ⟨c, h2⟩ := lookup ha.expertCls hk
    obtain ⟨e, h5⟩ := lookup ha.experts hk
    obtain ⟨sm, h3⟩ := lookup ha.shapes hk
    obtain ⟨g, h4⟩ := hs sm (List.mem_of_getElem? h3)
    exact ⟨_, clmScale_ok.2 ⟨h, c, e, sm, g, h1, h2, h5, h3, h4, rfl⟩⟩
  rw [← diagonal_eq]
  simp only [clmStr, hL, bind, Except.bind, pure, Except.pure]
  exact ⟨_, rfl, rfl, rfl⟩

/-- C143 (CLM): two trained constrained local models that print the same text have the same settings. -/
theorem C143_clm_distinguished (f : Fmt) (hf : Readable f) (hn : NoBlanks f) (a b : Print.Clm) (ha : TrainedClm a)
    (hb : TrainedClm b) (t : Text) (h1 : clmStr f a = .ok t) (h2 : clmStr f b = .ok t) :
    a.scales = b.scales ∧ a.features = b.features ∧ a.expertCls = b.expertCls ∧ a.experts = b.experts ∧
      a.shapes.map shapeSettings = b.shapes.map shapeSettings := by
  obtain ⟨L, p1, h1⟩ := bind_ok h1
  obtain ⟨M, p2, h2⟩ := bind_ok h2
  have e := (Except.ok.inj h1).trans (Except.ok.inj h2).symm
  simp only [List.cons_append, List.nil_append, List.cons.injEq, true_and] at e
  have shape : ∀ (a : Print.Clm) (k : Nat) (s : ℚ) (t : Text), clmScale f a k s = .ok t → t.length = 12 := by
    intro a k s t h
    obtain ⟨h, c, x, sm, g, -, -, -, -, -, rfl⟩ := clmScale_ok.1 h
    rfl
  obtain ⟨hN, q⟩ := rows_inj (c := 12) (by omega) p1 p2 (shape a) (shape b) e.2.2
  have row : ∀ k, k < a.scales.length → (∃ s, a.scales[k]? = some s ∧ b.scales[k]? = some s) ∧
      (∃ h, a.features[k]? = some h ∧ b.features[k]? = some h) ∧
      (∃ x, a.expertCls[k]? = some x ∧ b.expertCls[k]? = some x) ∧
      (∃ x, a.experts[k]? = some x ∧ b.experts[k]? = some x) ∧
      ∃ x y, a.shapes[k]? = some x ∧ b.shapes[k]? = some y ∧ shapeSettings x = shapeSettings y := by
    intro k hk
    obtain ⟨s, s', t, s1, s2, h3, h4⟩ := q k hk
    obtain ⟨h, c, x, sm, g, f1, f2, f3, f4, f5, u⟩ := clmScale_ok.1 h3
    obtain ⟨h', c', x', sm', g', f1', f2', f3', f4', f5', u'⟩ := clmScale_ok.1 h4
    have e := u.symm.trans u'
    obtain ⟨e1, e2⟩ := List.append_inj e rfl
    obtain ⟨e0, e1⟩ := List.append_inj e1 rfl
    simp only [List.cons.injEq, String.append_right_inj, String.append_left_inj, and_true] at e0 e2
    obtain ⟨rfl, rfl⟩ := expertLines_inj hf hn e1
    obtain ⟨a1, rfl⟩ := e0
    obtain ⟨a5, a6, a7⟩ := e2
    obtain rfl := hf.scale a1
    obtain rfl := hf.num a7
    exact ⟨⟨s, s1, s2⟩, ⟨h, f1, f1'⟩, ⟨c, f2, f2'⟩, ⟨x, f3, f3'⟩, ⟨sm, sm', f4, f4', shapeSettings_eq a5 (hf.num a6) f5 f5'⟩⟩
  exact ⟨same rfl hN.symm fun k hk => (row k hk).1,
    same ha.features (hb.features.trans hN.symm) fun k hk => (row k hk).2.1,
    same ha.expertCls (hb.expertCls.trans hN.symm) fun k hk => (row k hk).2.2.1,
    same ha.experts (hb.experts.trans hN.symm) fun k hk => (row k hk).2.2.2.1,
    same_of _ ha.shapes (hb.shapes.trans hN.symm) fun k hk => (row k hk).2.2.2.2⟩

/-- C143 (unified models, part): every trained unified model whose shape models have a similarity transform can be printed. -/
theorem C143_unified_partial (f : Fmt) (a : Print.Unified) (ha : TrainedUnified a) (hs : WithSimilarity a.shapes) :
    ∃ t, unifiedStr f a = .ok t ∧ t[0]? = some "Unified Holistic AAM and CLM" ∧
      t[1]? = some ("  - Images scaled to diagonal: " ++ f.two (scaledTo a.diagonal a.range)) := by
  obtain ⟨L, hL⟩ := perScale_total (scales := a.scales) (g := unifiedScale f a) fun k s hks => by
    have hk := (List.getElem?_eq_some_iff.1 hks).1
    obtain ⟨h, h1⟩ := lookup ha.features hk
    obtain ⟨c, h2⟩ := lookup ha.expertCls hk
    obtain ⟨e, h5⟩ := lookup ha.experts hk
    obtain ⟨am, h6⟩ := lookup ha.appearance hk
    obtain ⟨sm, h3⟩ := lookup ha.shapes hk
    obtain ⟨g, h4⟩ := hs sm (List.mem_of_getElem? h3)
    exact ⟨_, unifiedScale_ok.2 ⟨h, c, e, am, sm, g, h1, h2, h5, h6, h3, h4, rfl⟩⟩
  rw [← diagonal_eq]
  simp only [unifiedStr, hL, bind, Except.bind, pure, Except.pure]
  exact ⟨_, rfl, rfl, rfl⟩

/-- C143 (unified models): two trained unified models that print the same text have the same settings. -/
theorem C143_unified_distinguished (f : Fmt) (hf : Readable f) (hn : NoBlanks f) (a b : Print.Unified) (ha : TrainedUnified a)
    (hb : TrainedUnified b) (t : Text) (h1 : unifiedStr f a = .ok t) (h2 : unifiedStr f b = .ok t) :
    a.transform = b.transform ∧ a.scales = b.scales ∧ a.features = b.features ∧ a.expertCls = b.expertCls ∧
      a.experts = b.experts ∧ a.appearance.map appearanceSettings = b.appearance.map appearanceSettings ∧
      a.shapes.map shapeSettings = b.shapes.map shapeSettings := by
  obtain ⟨L, p1, h1⟩ := bind_ok h1
  obtain ⟨M, p2, h2⟩ := bind_ok h2
  have e := (Except.ok.inj h1).trans (Except.ok.inj h2).symm
  simp only [List.cons_append, List.nil_append, List.cons.injEq, true_and, String.append_right_inj] at e
  have shape : ∀ (a : Print.Unified) (k : Nat) (s : ℚ) (t : Text), unifiedScale f a k s = .ok t → t.length = 14 := by
    intro a k s t h
    obtain ⟨h, c, x, am, sm, g, -, -, -, -, -, -, rfl⟩ := unifiedScale_ok.1 h
    rfl
  obtain ⟨hN, q⟩ := rows_inj (c := 14) (by omega) p1 p2 (shape a) (shape b) e.2.2.2
  have row : ∀ k, k < a.scales.length → (∃ s, a.scales[k]? = some s ∧ b.scales[k]? = some s) ∧
      (∃ h, a.features[k]? = some h ∧ b.features[k]? = some h) ∧
      (∃ x, a.expertCls[k]? = some x ∧ b.expertCls[k]? = some x) ∧
      (∃ x, a.experts[k]? = some x ∧ b.experts[k]? = some x) ∧
      (∃ x y, a.appearance[k]? = some x ∧ b.appearance[k]? = some y ∧ appearanceSettings x = appearanceSettings y) ∧
      ∃ x y, a.shapes[k]? = some x ∧ b.shapes[k]? = some y ∧ shapeSettings x = shapeSettings y := by
    intro k hk
    obtain ⟨s, s', t, s1, s2, h3, h4⟩ := q k hk
    obtain ⟨h, c, x, am, sm, g, f1, f2, f3, f6, f4, f5, u⟩ := unifiedScale_ok.1 h3
    obtain ⟨h', c', x', am', sm', g', f1', f2', f3', f6', f4', f5', u'⟩ := unifiedScale_ok.1 h4
    have e := u.symm.trans u'
    obtain ⟨e1, e2⟩ := List.append_inj e rfl
    obtain ⟨e0, e1⟩ := List.append_inj e1 rfl
    simp only [List.cons.injEq, String.append_right_inj, String.append_left_inj, and_true] at e0 e2
    obtain ⟨rfl, rfl⟩ := expertLines_inj hf hn e1
    obtain ⟨a1, rfl⟩ := e0
    obtain ⟨a3, a4, a5, a6, a7⟩ := e2
    obtain rfl := hf.scale a1
    obtain rfl := hf.num a7
    exact ⟨⟨s, s1, s2⟩, ⟨h, f1, f1'⟩, ⟨c, f2, f2'⟩, ⟨x, f3, f3'⟩,
      ⟨am, am', f6, f6', by simp only [appearanceSettings, a3, hf.num a4]⟩,
      ⟨sm, sm', f4, f4', shapeSettings_eq a5 (hf.num a6) f5 f5'⟩⟩
  exact ⟨transformLine_inj e.2.1, same rfl hN.symm fun k hk => (row k hk).1,
    same ha.features (hb.features.trans hN.symm) fun k hk => (row k hk).2.1,
    same ha.expertCls (hb.expertCls.trans hN.symm) fun k hk => (row k hk).2.2.1,
    same ha.experts (hb.experts.trans hN.symm) fun k hk => (row k hk).2.2.2.1,
    same_of _ ha.appearance (hb.appearance.trans hN.symm) fun k hk => (row k hk).2.2.2.2.1,
    same_of _ ha.shapes (hb.shapes.trans hN.symm) fun k hk => (row k hk).2.2.2.2.2⟩

/-! ### Fitters -/

/-- C143 (AAM fitters, part): two fitters whose models print the same text tell by what they print after it how many
components are active at each scale, and the name of the algorithm. -/
theorem C143_aam_fitter (f : Fmt) (hf : Readable f) (a b : Print.Aam) (ha : TrainedAam a) (hb : TrainedAam b)
    (hm : aamStr f a = aamStr f b) (x y : AamAlg) (t : Text)
    (h1 : aamFitterStr f a (List.replicate a.scales.length x) = .ok t)
    (h2 : aamFitterStr f b (List.replicate b.scales.length y) = .ok t) :
    x.name = y.name ∧ a.shapes.map (·.nActive) = b.shapes.map (·.nActive) ∧
      a.appearance.map (·.nActive) = b.appearance.map (·.nActive) := by
  obtain ⟨L, p1, h1⟩ := bind_ok h1
  obtain ⟨x', n1, h1⟩ := bind_ok h1
  obtain ⟨T, w1, h1⟩ := bind_ok h1
  obtain ⟨M, p2, h2⟩ := bind_ok h2
  obtain ⟨y', n2, h2⟩ := bind_ok h2
  obtain ⟨T', w2, h2⟩ := bind_ok h2
  obtain rfl := head_of ha.scales n1
  obtain rfl := head_of hb.scales n2
  obtain rfl := Except.ok.inj ((w1.symm.trans hm).trans w2)
  have e := (Except.ok.inj h1).trans (Except.ok.inj h2).symm
  have ht : T ≠ [] := by
    obtain ⟨L, -, w1⟩ := bind_ok w1
    obtain ⟨L', -, w1⟩ := bind_ok w1
    obtain rfl := Except.ok.inj w1
    simp
  simp only [List.cons_append, List.nil_append] at e
  obtain ⟨e1, e2⟩ := addText_inj ht e
  simp only [List.cons.injEq] at e2
  have ok : ∀ (a : Print.Aam) (k : Nat) (s : ℚ) (t : Text), (do
    let sm ← nth a.shapes k
    let g ← sm.globals
    let am ← nth a.appearance k
    return ["   - Scale " ++ f.scale s,
      "     - " ++ f.num sm.nActive ++ " active shape components",
      "     - " ++ f.num g ++ " similarity transform components",
      "     - " ++ f.num am.nActive ++ " active appearance components"] : Except PyErr Text) = .ok t →
      ∃ sm am g, a.shapes[k]? = some sm ∧ a.appearance[k]? = some am ∧ t = ["   - Scale " ++ f.scale s,
      "     - " ++ f.num sm.nActive ++ " active shape components",
      "     - " ++ f.num g ++ " similarity transform components",
      "     - " ++ f.num am.nActive ++ " active appearance components"] := by
    intro a k s t h
    obtain ⟨sm, r1, h⟩ := bind_ok h
    obtain ⟨g, -, h⟩ := bind_ok h
    obtain ⟨am, r2, h⟩ := bind_ok h
    exact ⟨sm, am, g, nth_ok.1 r1, nth_ok.1 r2, (Except.ok.inj h).symm⟩
  obtain ⟨hN, q⟩ := rows_inj (c := 4) (by omega) p1 p2 (fun k s t h => by obtain ⟨_, _, _, -, -, rfl⟩ := ok a k s t h; rfl)
    (fun k s t h => by obtain ⟨_, _, _, -, -, rfl⟩ := ok b k s t h; rfl) e2.2
  have row : ∀ k, k < a.scales.length →
      (∃ x y, a.shapes[k]? = some x ∧ b.shapes[k]? = some y ∧ x.nActive = y.nActive) ∧
      ∃ x y, a.appearance[k]? = some x ∧ b.appearance[k]? = some y ∧ x.nActive = y.nActive := by
    intro k hk
    obtain ⟨s, s', t, s1, s2, h3, h4⟩ := q k hk
    obtain ⟨sm, am, g, f1, f2, u⟩ := ok a k s t h3
    obtain ⟨sm', am', g', f1', f2', u'⟩ := ok b k s' t h4
    have e := u.symm.trans u'
    simp only [List.cons.injEq, String.append_right_inj, String.append_left_inj, and_true] at e
    exact ⟨⟨sm, sm', f1, f1', hf.num e.2.1⟩, ⟨am, am', f2, f2', hf.num e.2.2.2⟩⟩
  exact ⟨e1, same_of _ ha.shapes (hb.shapes.trans hN.symm) fun k hk => (row k hk).1,
    same_of _ ha.appearance (hb.appearance.trans hN.symm) fun k hk => (row k hk).2⟩

/-- C143 (AAM fitters): every fitter of a model whose shape models have a similarity transform can be printed: the text of the
model, then the name of the algorithm. -/
theorem C143_aam_fitter_partial (f : Fmt) (a : Print.Aam) (ha : TrainedAam a) (hs : WithSimilarity a.shapes) (x : AamAlg) :
    ∃ m t r, aamStr f a = .ok (m ++ [""]) ∧ aamFitterStr f a (List.replicate a.scales.length x) = .ok t ∧
      t = m ++ x.name :: r := by
  obtain ⟨t, h1, -⟩ := C143_aam_partial f a ha hs
  have h2 := h1
  obtain ⟨L, p1, h2⟩ := bind_ok h2
  obtain ⟨L', w1, h2⟩ := bind_ok h2
  obtain rfl := Except.ok.inj h2
  obtain ⟨M, hM⟩ := perScale_total (scales := a.scales) (g := fun k s => (do
    let sm ← nth a.shapes k
    let g ← sm.globals
    let am ← nth a.appearance k
    return ["   - Scale " ++ f.scale s,
      "     - " ++ f.num sm.nActive ++ " active shape components",
      "     - " ++ f.num g ++ " similarity transform components",
      "     - " ++ f.num am.nActive ++ " active appearance components"] : Except PyErr Text)) fun k s hks => by
    have hk := (List.getElem?_eq_some_iff.1 hks).1
    obtain ⟨am, h2⟩ := lookup ha.appearance hk
    obtain ⟨sm, h3⟩ := lookup ha.shapes hk
    obtain ⟨g, h4⟩ := hs sm (List.mem_of_getElem? h3)
    constructor
    rotate_left
    · exact ["   - Scale " ++ f.scale s,
        "     - " ++ f.num sm.nActive ++ " active shape components",
        "     - " ++ f.num g ++ " similarity transform components",
        "     - " ++ f.num am.nActive ++ " active appearance components"]
    · simp only [nth_ok.2 h2, nth_ok.2 h3, globals_ok.2 h4, bind, Except.bind, pure, Except.pure]
  have hx : nth (List.replicate a.scales.length x) 0 = .ok x := by
    rw [nth_ok, List.getElem?_replicate, if_pos (List.length_pos_iff.2 ha.scales)]
  refine ⟨_, _, (" - Scales: " ++ f.scales a.scales) :: (M.flatten ++ ["    "]), h1, ?_, rfl⟩
  unfold aamFitterStr
  rw [hM, hx, h1]
  simp only [bind, Except.bind, pure, Except.pure]
  exact congrArg Except.ok ((addText_end _ "" x.name _).trans (by rw [String.empty_append]; rfl))

/-- C143 (names of AAM algorithms, part): two of the ten algorithms that are given the same name are the same, unless they are
the simultaneous and the project-out inverse compositional one. -/
theorem C143_names_partial (x y : AamAlg) (h : x.name = y.name) (hx : x ≠ .simultaneousInverse)
    (hy : y ≠ .simultaneousInverse) : x = y := by
  revert h hx hy
  cases x <;> cases y <;> decide

/-- C143 is violated by the simultaneous inverse compositional algorithm: on every model, its fitter prints the very same text
as the fitter that uses the project-out inverse compositional algorithm. -/
theorem C143_names_violated (f : Fmt) (a : Print.Aam) :
    AamAlg.simultaneousInverse ≠ .projectOutInverse ∧
      aamFitterStr f a (List.replicate a.scales.length .simultaneousInverse) =
        aamFitterStr f a (List.replicate a.scales.length .projectOutInverse) := by
  refine ⟨by decide, ?_⟩
  unfold aamFitterStr
  have h : ∀ x : AamAlg, nth (List.replicate a.scales.length x) 0 = if 0 < a.scales.length then .ok x else .error .indexError := by
    intro x
    unfold nth
    rw [List.getElem?_replicate]
    split_ifs <;> rfl
  rw [h, h]
  split_ifs <;> rfl

/-- C143 (names): the algorithms of the other families, and the residuals, have names of their own. -/
theorem C143_names : Function.Injective AtmAlg.name ∧ Function.Injective ClmAlg.name ∧ Function.Injective ApsAlg.name ∧
    Function.Injective UnifiedAlg.name ∧ Function.Injective LkAlg.name ∧ Function.Injective Print.Residual.name := by
  refine ⟨?_, ?_, ?_, ?_, ?_, ?_⟩ <;> intro x y <;> cases x <;> cases y <;> decide

/-- C143 (ATM fitters): two fitters whose models print the same text tell by what they print after it which algorithm they use
and how many components are active at each scale. -/
theorem C143_atm_fitter (f : Fmt) (hf : Readable f) (a b : Print.Atm) (ha : TrainedAtm a) (hb : TrainedAtm b)
    (hm : atmStr f a = atmStr f b) (x y : AtmAlg) (t : Text)
    (h1 : atmFitterStr f a (List.replicate a.scales.length x) = .ok t)
    (h2 : atmFitterStr f b (List.replicate b.scales.length y) = .ok t) :
    x = y ∧ a.shapes.map (·.nActive) = b.shapes.map (·.nActive) := by
  obtain ⟨L, p1, h1⟩ := bind_ok h1
  obtain ⟨x', n1, h1⟩ := bind_ok h1
  obtain ⟨T, w1, h1⟩ := bind_ok h1
  obtain ⟨M, p2, h2⟩ := bind_ok h2
  obtain ⟨y', n2, h2⟩ := bind_ok h2
  obtain ⟨T', w2, h2⟩ := bind_ok h2
  obtain rfl := head_of ha.scales n1
  obtain rfl := head_of hb.scales n2
  obtain rfl := Except.ok.inj ((w1.symm.trans hm).trans w2)
  have ht : T ≠ [] := by
    obtain ⟨L, -, w1⟩ := bind_ok w1
    obtain ⟨L', -, w1⟩ := bind_ok w1
    obtain rfl := Except.ok.inj w1
    simp
  obtain ⟨e1, e2⟩ := shape_fitters f hf ha.shapes hb.shapes ht p1 p2 ((Except.ok.inj h1).trans (Except.ok.inj h2).symm)
  exact ⟨C143_names.1 e1, e2⟩

/-- C143 (CLM fitters): the same. -/
theorem C143_clm_fitter (f : Fmt) (hf : Readable f) (a b : Print.Clm) (ha : TrainedClm a) (hb : TrainedClm b)
    (hm : clmStr f a = clmStr f b) (x y : ClmAlg) (t : Text)
    (h1 : clmFitterStr f a (List.replicate a.scales.length x) = .ok t)
    (h2 : clmFitterStr f b (List.replicate b.scales.length y) = .ok t) :
    x = y ∧ a.shapes.map (·.nActive) = b.shapes.map (·.nActive) := by
  obtain ⟨L, p1, h1⟩ := bind_ok h1
  obtain ⟨x', n1, h1⟩ := bind_ok h1
  obtain ⟨T, w1, h1⟩ := bind_ok h1
  obtain ⟨M, p2, h2⟩ := bind_ok h2
  obtain ⟨y', n2, h2⟩ := bind_ok h2
  obtain ⟨T', w2, h2⟩ := bind_ok h2
  obtain rfl := head_of ha.scales n1
  obtain rfl := head_of hb.scales n2
  obtain rfl := Except.ok.inj ((w1.symm.trans hm).trans w2)
  have ht : T ≠ [] := by
    obtain ⟨L, -, w1⟩ := bind_ok w1
    obtain rfl := Except.ok.inj w1
    simp
  obtain ⟨e1, e2⟩ := shape_fitters f hf ha.shapes hb.shapes ht p1 p2 ((Except.ok.inj h1).trans (Except.ok.inj h2).symm)
  exact ⟨C143_names.2.1 e1, e2⟩

/-- C143 (unified fitters): the same, and the numbers of active appearance components. -/
theorem C143_unified_fitter (f : Fmt) (hf : Readable f) (a b : Print.Unified) (ha : TrainedUnified a) (hb : TrainedUnified b)
    (hm : unifiedStr f a = unifiedStr f b) (x y : UnifiedAlg) (t : Text)
    (h1 : unifiedFitterStr f a (List.replicate a.scales.length x) = .ok t)
    (h2 : unifiedFitterStr f b (List.replicate b.scales.length y) = .ok t) :
    x = y ∧ a.shapes.map (·.nActive) = b.shapes.map (·.nActive) ∧
      a.appearance.map (·.nActive) = b.appearance.map (·.nActive) := by
  obtain ⟨L, p1, h1⟩ := bind_ok h1
  obtain ⟨x', n1, h1⟩ := bind_ok h1
  obtain ⟨T, w1, h1⟩ := bind_ok h1
  obtain ⟨M, p2, h2⟩ := bind_ok h2
  obtain ⟨y', n2, h2⟩ := bind_ok h2
  obtain ⟨T', w2, h2⟩ := bind_ok h2
  obtain rfl := head_of ha.scales n1
  obtain rfl := head_of hb.scales n2
  obtain rfl := Except.ok.inj ((w1.symm.trans hm).trans w2)
  have e := (Except.ok.inj h1).trans (Except.ok.inj h2).symm
  have ht : T ≠ [] := by
    obtain ⟨L, -, w1⟩ := bind_ok w1
    obtain rfl := Except.ok.inj w1
    simp
  simp only [List.cons_append, List.nil_append] at e
  obtain ⟨e1, e2⟩ := addText_inj ht e
  simp only [List.cons.injEq] at e2
  have ok : ∀ (a : Print.Unified) (k : Nat) (s : ℚ) (t : Text), (do
    let sm ← nth a.shapes k
    let g ← sm.globals
    let am ← nth a.appearance k
    return ["  - Scale " ++ f.scale s,
      "     - " ++ f.num sm.nActive ++ " active shape components",
      "     - " ++ f.num g ++ " similarity transform components",
      "     - " ++ f.num am.nActive ++ " active appearance components"] : Except PyErr Text) = .ok t →
      ∃ sm am g, a.shapes[k]? = some sm ∧ a.appearance[k]? = some am ∧ t = ["  - Scale " ++ f.scale s,
      "     - " ++ f.num sm.nActive ++ " active shape components",
      "     - " ++ f.num g ++ " similarity transform components",
      "     - " ++ f.num am.nActive ++ " active appearance components"] := by
    intro a k s t h
    obtain ⟨sm, r1, h⟩ := bind_ok h
    obtain ⟨g, -, h⟩ := bind_ok h
    obtain ⟨am, r2, h⟩ := bind_ok h
    exact ⟨sm, am, g, nth_ok.1 r1, nth_ok.1 r2, (Except.ok.inj h).symm⟩
  obtain ⟨hN, q⟩ := rows_inj (c := 4) (by omega) p1 p2 (fun k s t h => by obtain ⟨_, _, _, -, -, rfl⟩ := ok a k s t h; rfl)
    (fun k s t h => by obtain ⟨_, _, _, -, -, rfl⟩ := ok b k s t h; rfl) e2.2
  have row : ∀ k, k < a.scales.length →
      (∃ x y, a.shapes[k]? = some x ∧ b.shapes[k]? = some y ∧ x.nActive = y.nActive) ∧
      ∃ x y, a.appearance[k]? = some x ∧ b.appearance[k]? = some y ∧ x.nActive = y.nActive := by
    intro k hk
    obtain ⟨s, s', t, s1, s2, h3, h4⟩ := q k hk
    obtain ⟨sm, am, g, f1, f2, u⟩ := ok a k s t h3
    obtain ⟨sm', am', g', f1', f2', u'⟩ := ok b k s' t h4
    have e := u.symm.trans u'
    simp only [List.cons.injEq, String.append_right_inj, String.append_left_inj, and_true] at e
    exact ⟨⟨sm, sm', f1, f1', hf.num e.2.1⟩, ⟨am, am', f2, f2', hf.num e.2.2.2⟩⟩
  exact ⟨C143_names.2.2.2.1 e1, same_of _ ha.shapes (hb.shapes.trans hN.symm) fun k hk => (row k hk).1,
    same_of _ ha.appearance (hb.appearance.trans hN.symm) fun k hk => (row k hk).2⟩

/-- C143 (fitters of the other models, part): every fitter of a model whose shape models have a similarity transform can be
printed, and the text begins like that of the model. -/
theorem C143_fitters_partial (f : Fmt) (a : Print.Atm) (b : Print.Clm) (u : Print.Unified) (ha : TrainedAtm a)
    (hb : TrainedClm b) (hu : TrainedUnified u) (sa : WithSimilarity a.shapes) (sb : WithSimilarity b.shapes)
    (su : WithSimilarity u.shapes) (x : AtmAlg) (y : ClmAlg) (z : UnifiedAlg) :
    (∃ m t, atmStr f a = .ok m ∧ atmFitterStr f a (List.replicate a.scales.length x) = .ok t ∧ m[0]? = t[0]?) ∧
    (∃ m t, clmStr f b = .ok m ∧ clmFitterStr f b (List.replicate b.scales.length y) = .ok t ∧ m[0]? = t[0]?) ∧
    ∃ m t, unifiedStr f u = .ok m ∧ unifiedFitterStr f u (List.replicate u.scales.length z) = .ok t ∧ m[0]? = t[0]? := by
  have blocks : ∀ (S : List ℚ) (M : List ShapeModel), M.length = S.length → WithSimilarity M →
      ∃ L, shapeBlocks f S M = .ok L := by
    intro S M h1 h2
    refine perScale_total fun k s hks => ?_
    obtain ⟨sm, h3⟩ := lookup h1 (List.getElem?_eq_some_iff.1 hks).1
    obtain ⟨g, h4⟩ := h2 sm (List.mem_of_getElem? h3)
    exact ⟨["   - Scale " ++ f.scale s, "     - " ++ f.num sm.nActive ++ " active shape components",
      "     - " ++ f.num g ++ " similarity transform components"], by
      simp only [nth_ok.2 h3, globals_ok.2 h4, bind, Except.bind, pure, Except.pure]⟩
  have hd : ∀ {α : Type} (S : List ℚ), S ≠ [] → ∀ x : α, nth (List.replicate S.length x) 0 = .ok x := by
    intro α S hS x
    rw [nth_ok, List.getElem?_replicate, if_pos (List.length_pos_iff.2 hS)]
  refine ⟨?_, ?_, ?_⟩
  · obtain ⟨m, h1, -⟩ := C143_atm_partial f a ha sa
    obtain ⟨L, h2⟩ := blocks _ _ ha.shapes sa
    have h3 := h1
    obtain ⟨L1, -, h3⟩ := bind_ok h3
    obtain ⟨L2, -, h3⟩ := bind_ok h3
    have hm := Except.ok.inj h3
    refine ⟨m, addText m ([x.name, " - Scales: " ++ f.scales a.scales] ++ L.flatten ++ ["    "]), h1, ?_, ?_⟩
    rotate_left
    · subst hm; rfl
    · unfold atmFitterStr
      rw [h2, hd _ ha.scales, h1]
      rfl
  · obtain ⟨m, h1, -⟩ := C143_clm_partial f b hb sb
    obtain ⟨L, h2⟩ := blocks _ _ hb.shapes sb
    have h3 := h1
    obtain ⟨L1, -, h3⟩ := bind_ok h3
    have hm := Except.ok.inj h3
    refine ⟨m, addText m ([y.name, " - Scales: " ++ f.scales b.scales] ++ L.flatten ++ ["    "]), h1, ?_, ?_⟩
    rotate_left
    · subst hm; rfl
    · unfold clmFitterStr
      rw [h2, hd _ hb.scales, h1]
      rfl
  · obtain ⟨m, h1, -⟩ := C143_unified_partial f u hu su
    have h3 := h1
    obtain ⟨L1, -, h3⟩ := bind_ok h3
    have hm := Except.ok.inj h3
    obtain ⟨L, h2⟩ := perScale_total (scales := u.scales) (g := fun k s => (do
      let sm ← nth u.shapes k
      let g ← sm.globals
      let am ← nth u.appearance k
      return ["  - Scale " ++ f.scale s,
        "     - " ++ f.num sm.nActive ++ " active shape components",
        "     - " ++ f.num g ++ " similarity transform components",
        "     - " ++ f.num am.nActive ++ " active appearance components"] : Except PyErr Text)) fun k s hks => by
      have hk := (List.getElem?_eq_some_iff.1 hks).1
      obtain ⟨am, h2⟩ := lookup hu.appearance hk
      obtain ⟨sm, h3⟩ := lookup hu.shapes hk
      obtain ⟨g, h4⟩ := su sm (List.mem_of_getElem? h3)
      exact ⟨["  - Scale " ++ f.scale s, "     - " ++ f.num sm.nActive ++ " active shape components",
        "     - " ++ f.num g ++ " similarity transform components",
        "     - " ++ f.num am.nActive ++ " active appearance components"], by
        simp only [nth_ok.2 h2, nth_ok.2 h3, globals_ok.2 h4, bind, Except.bind, pure, Except.pure]⟩
    refine ⟨m, addText m ([z.name, "  - Scales: " ++ f.scales u.scales] ++ L.flatten ++ ["    "]), h1, ?_, ?_⟩
    rotate_left
    · subst hm; rfl
    · unfold unifiedFitterStr
      rw [h2, hd _ hu.scales, h1]
      rfl

/-- C143 (Lucas-Kanade fitters): every fitter can be printed, and two that print the same text use the same algorithm, residual
and warp, and the same features and templates at each scale. -/
theorem C143_lucas_kanade (f : Fmt) (hf : Readable f) (a b : Print.Lk) (ha : BuiltLk a) (hb : BuiltLk b) :
    (∃ t, lkStr f a = .ok t ∧
      t[3]? = some (" - Images scaled to diagonal: " ++ f.two (scaledTo a.diagonal a.range))) ∧
    ∀ t, lkStr f a = .ok t → lkStr f b = .ok t → a.algorithms = b.algorithms ∧ a.transform = b.transform ∧
      a.scales = b.scales ∧ a.features = b.features ∧ a.templates = b.templates := by
  obtain ⟨x, hx⟩ := ha.algorithms
  obtain ⟨y, hy⟩ := hb.algorithms
  constructor
  · obtain ⟨L, hL⟩ := perScale_total (scales := a.scales) (g := fun k s => (do
      let h ← nth a.features k
      let t ← nth a.templates k
      return ["   - Scale " ++ f.scale s, "     - Holistic feature: " ++ h, "     - Template shape: " ++ f.pair t] :
        Except PyErr Text)) fun k s hks => by
      have hk := (List.getElem?_eq_some_iff.1 hks).1
      obtain ⟨h, h1⟩ := lookup ha.features hk
      obtain ⟨tp, h2⟩ := lookup ha.templates hk
      exact ⟨["   - Scale " ++ f.scale s, "     - Holistic feature: " ++ h, "     - Template shape: " ++ f.pair tp], by
        simp only [nth_ok.2 h1, nth_ok.2 h2, bind, Except.bind, pure, Except.pure]⟩
    have h0 : nth a.algorithms 0 = .ok x := by
      rw [nth_ok, hx, List.getElem?_replicate, if_pos (List.length_pos_iff.2 ha.scales)]
    rw [← diagonal_eq]
    unfold lkStr
    rw [hL, h0]
    exact ⟨_, rfl, rfl⟩
  · intro t h1 h2
    obtain ⟨L, p1, h1⟩ := bind_ok h1
    obtain ⟨x', n1, h1⟩ := bind_ok h1
    obtain ⟨M, p2, h2⟩ := bind_ok h2
    obtain ⟨y', n2, h2⟩ := bind_ok h2
    rw [hx] at n1
    rw [hy] at n2
    obtain rfl := head_of ha.scales n1
    obtain rfl := head_of hb.scales n2
    have e := (Except.ok.inj h1).trans (Except.ok.inj h2).symm
    simp only [List.cons_append, List.nil_append, List.cons.injEq, String.append_right_inj, String.append_left_inj] at e
    obtain ⟨e1, e2, e3, -, -, e5⟩ := e
    have ok : ∀ (a : Print.Lk) (k : Nat) (s : ℚ) (t : Text), (do
      let h ← nth a.features k
      let t ← nth a.templates k
      return ["   - Scale " ++ f.scale s, "     - Holistic feature: " ++ h, "     - Template shape: " ++ f.pair t] :
        Except PyErr Text) = .ok t → ∃ h tp, a.features[k]? = some h ∧ a.templates[k]? = some tp ∧
        t = ["   - Scale " ++ f.scale s, "     - Holistic feature: " ++ h, "     - Template shape: " ++ f.pair tp] := by
      intro a k s t h
      obtain ⟨h', r1, h⟩ := bind_ok h
      obtain ⟨tp, r2, h⟩ := bind_ok h
      exact ⟨h', tp, nth_ok.1 r1, nth_ok.1 r2, (Except.ok.inj h).symm⟩
    obtain ⟨hN, q⟩ := rows_inj (c := 3) (by omega) p1 p2 (fun k s t h => by obtain ⟨_, _, -, -, rfl⟩ := ok a k s t h; rfl)
      (fun k s t h => by obtain ⟨_, _, -, -, rfl⟩ := ok b k s t h; rfl) e5
    have row : ∀ k, k < a.scales.length → (∃ s, a.scales[k]? = some s ∧ b.scales[k]? = some s) ∧
        (∃ h, a.features[k]? = some h ∧ b.features[k]? = some h) ∧
        ∃ x, a.templates[k]? = some x ∧ b.templates[k]? = some x := by
      intro k hk
      obtain ⟨s, s', t, s1, s2, h3, h4⟩ := q k hk
      obtain ⟨h, tp, f1, f2, u⟩ := ok a k s t h3
      obtain ⟨h', tp', f1', f2', u'⟩ := ok b k s' t h4
      have e := u.symm.trans u'
      simp only [List.cons.injEq, String.append_right_inj, and_true] at e
      obtain ⟨a1, rfl, a3⟩ := e
      obtain rfl := hf.scale a1
      obtain rfl := hf.pair a3
      exact ⟨⟨s, s1, s2⟩, ⟨h, f1, f1'⟩, ⟨tp, f2, f2'⟩⟩
    refine ⟨?_, e3, same rfl hN.symm fun k hk => (row k hk).1,
      same ha.features (hb.features.trans hN.symm) fun k hk => (row k hk).2.1,
      same ha.templates (hb.templates.trans hN.symm) fun k hk => (row k hk).2.2⟩
    rw [hx, hy, hN, Prod.ext (C143_names.2.2.2.2.1 e1) (C143_names.2.2.2.2.2 e2)]

/-- C143 (supervised descent, part): every trained fitter can be printed, and two that print the same text use the same
algorithm at the lowest scale, the same numbers of perturbations and the same features, patches and numbers of iterations at
each scale.  What is missing: the algorithms of the other scales (`C143_algorithms_violated`). -/
theorem C143_supervised_descent_partial (f : Fmt) (hf : Readable f) (a b : Print.Sdm) (ha : TrainedSdm a) (hb : TrainedSdm b) :
    (∃ t, sdmStr f a = .ok t ∧
      t[4]? = some (" - Images scaled to diagonal: " ++ f.two (scaledTo a.diagonal a.range))) ∧
    ∀ t, sdmStr f a = .ok t → sdmStr f b = .ok t → a.algorithms[0]? = b.algorithms[0]? ∧
      a.nPerturbations = b.nPerturbations ∧ a.custom.getD "False" = b.custom.getD "False" ∧ a.scales = b.scales ∧
      a.iterations = b.iterations ∧ a.patchShape = b.patchShape ∧ a.features = b.features ∧
      a.patchFeatures = b.patchFeatures := by
  have hc : ∀ o : Option String, customLine o = o.getD "False" := fun o => by cases o <;> rfl
  constructor
  · obtain ⟨L, hL⟩ := perScale_total (scales := a.scales) (g := fun k s => (do
      let i ← nth a.iterations k
      let p ← nth a.patchShape k
      let h ← nth a.features k
      let g ← nth a.patchFeatures k
      return ["   - Scale " ++ f.scale s,
        "     - " ++ f.num i ++ " iterations",
        "     - Patch shape: " ++ f.pair p,
        "     - Holistic feature: " ++ h,
        "     - Patch feature: " ++ g] : Except PyErr Text)) fun k s hks => by
      have hk := (List.getElem?_eq_some_iff.1 hks).1
      obtain ⟨i, h1⟩ := lookup ha.iterations hk
      obtain ⟨p, h2⟩ := lookup ha.patchShape hk
      obtain ⟨h, h3⟩ := lookup ha.features hk
      obtain ⟨g, h4⟩ := lookup ha.patchFeatures hk
      exact ⟨["   - Scale " ++ f.scale s, "     - " ++ f.num i ++ " iterations", "     - Patch shape: " ++ f.pair p,
        "     - Holistic feature: " ++ h, "     - Patch feature: " ++ g], by
        simp only [nth_ok.2 h1, nth_ok.2 h2, nth_ok.2 h3, nth_ok.2 h4, bind, Except.bind, pure, Except.pure]⟩
    obtain ⟨x, h0⟩ := lookup ha.algorithms (List.length_pos_iff.2 ha.scales)
    rw [← diagonal_eq]
    unfold sdmStr
    rw [hL, nth_ok.2 h0]
    exact ⟨_, rfl, rfl⟩
  · intro t h1 h2
    obtain ⟨x, n1, h1⟩ := bind_ok h1
    obtain ⟨L, p1, h1⟩ := bind_ok h1
    obtain ⟨y, n2, h2⟩ := bind_ok h2
    obtain ⟨M, p2, h2⟩ := bind_ok h2
    have e := (Except.ok.inj h1).trans (Except.ok.inj h2).symm
    simp only [List.cons_append, List.nil_append, List.cons.injEq, String.append_right_inj, String.append_left_inj, true_and] at e
    obtain ⟨e1, e2, e3, -, e4, -, e5⟩ := e
    have ok : ∀ (a : Print.Sdm) (k : Nat) (s : ℚ) (t : Text), (do
      let i ← nth a.iterations k
      let p ← nth a.patchShape k
      let h ← nth a.features k
      let g ← nth a.patchFeatures k
      return ["   - Scale " ++ f.scale s,
        "     - " ++ f.num i ++ " iterations",
        "     - Patch shape: " ++ f.pair p,
        "     - Holistic feature: " ++ h,
        "     - Patch feature: " ++ g] : Except PyErr Text) = .ok t → ∃ i p h g, a.iterations[k]? = some i ∧
        a.patchShape[k]? = some p ∧ a.features[k]? = some h ∧ a.patchFeatures[k]? = some g ∧
        t = ["   - Scale " ++ f.scale s, "     - " ++ f.num i ++ " iterations", "     - Patch shape: " ++ f.pair p,
        "     - Holistic feature: " ++ h, "     - Patch feature: " ++ g] := by
      intro a k s t h
      obtain ⟨i, r1, h⟩ := bind_ok h
      obtain ⟨p, r2, h⟩ := bind_ok h
      obtain ⟨h', r3, h⟩ := bind_ok h
      obtain ⟨g, r4, h⟩ := bind_ok h
      exact ⟨i, p, h', g, nth_ok.1 r1, nth_ok.1 r2, nth_ok.1 r3, nth_ok.1 r4, (Except.ok.inj h).symm⟩
    obtain ⟨hN, q⟩ := rows_inj (c := 5) (by omega) p1 p2
      (fun k s t h => by obtain ⟨_, _, _, _, -, -, -, -, rfl⟩ := ok a k s t h; rfl)
      (fun k s t h => by obtain ⟨_, _, _, _, -, -, -, -, rfl⟩ := ok b k s t h; rfl) e5
    have row : ∀ k, k < a.scales.length → (∃ s, a.scales[k]? = some s ∧ b.scales[k]? = some s) ∧
        (∃ x, a.iterations[k]? = some x ∧ b.iterations[k]? = some x) ∧
        (∃ x, a.patchShape[k]? = some x ∧ b.patchShape[k]? = some x) ∧
        (∃ x, a.features[k]? = some x ∧ b.features[k]? = some x) ∧
        ∃ x, a.patchFeatures[k]? = some x ∧ b.patchFeatures[k]? = some x := by
      intro k hk
      obtain ⟨s, s', t, s1, s2, h3, h4⟩ := q k hk
      obtain ⟨i, p, h, g, f1, f2, f3, f4, u⟩ := ok a k s t h3
      obtain ⟨i', p', h', g', f1', f2', f3', f4', u'⟩ := ok b k s' t h4
      have e := u.symm.trans u'
      simp only [List.cons.injEq, String.append_right_inj, String.append_left_inj, and_true] at e
      obtain ⟨a1, a2, a3, rfl, rfl⟩ := e
      obtain rfl := hf.scale a1
      obtain rfl := hf.num a2
      obtain rfl := hf.pair a3
      exact ⟨⟨s, s1, s2⟩, ⟨i, f1, f1'⟩, ⟨p, f2, f2'⟩, ⟨h, f3, f3'⟩, ⟨g, f4, f4'⟩⟩
    refine ⟨?_, hf.num e3, (hc _).symm.trans (e4.trans (hc _)), same rfl hN.symm fun k hk => (row k hk).1,
      same ha.iterations (hb.iterations.trans hN.symm) fun k hk => (row k hk).2.1,
      same ha.patchShape (hb.patchShape.trans hN.symm) fun k hk => (row k hk).2.2.1,
      same ha.features (hb.features.trans hN.symm) fun k hk => (row k hk).2.2.2.1,
      same ha.patchFeatures (hb.patchFeatures.trans hN.symm) fun k hk => (row k hk).2.2.2.2⟩
    rw [nth_ok.1 n1, nth_ok.1 n2, Prod.ext e1 e2]

/-! ### Where it fails -/

/-- C143 is violated for every trained supervised descent fitter with more than one scale: fitters that use other algorithms at
the higher scales print the same text. -/
theorem C143_algorithms_violated (f : Fmt) (a : Print.Sdm) (ha : TrainedSdm a) (h2 : 2 ≤ a.scales.length) :
    ∃ b, TrainedSdm b ∧ b.algorithms ≠ a.algorithms ∧ sdmStr f b = sdmStr f a := by
  obtain ⟨x, y, r, hxy⟩ : ∃ x y r, a.algorithms = x :: y :: r := by
    have h3 := ha.algorithms
    match h4 : a.algorithms with
    | [] => rw [h4] at h3; simp at h3; omega
    | [x] => rw [h4] at h3; simp at h3; omega
    | x :: y :: r => exact ⟨x, y, r, rfl⟩
  refine ⟨{ a with algorithms := x :: (y.1 ++ "'", y.2) :: r }, ⟨ha.scales, ha.iterations, ha.patchShape, ha.features,
    ha.patchFeatures, ?_⟩, ?_, ?_⟩
  · have h3 := ha.algorithms
    rw [hxy] at h3
    exact h3
  · rw [hxy]
    intro e
    simp only [List.cons.injEq, true_and, and_true] at e
    have := congrArg (fun p : String × String => p.1.toList.length) e
    simp at this
  · unfold sdmStr nth
    rw [hxy]
    rfl

/-- C143 is violated by models with shape models of the class `PDM`, which the constructors accept: printing them raises an
`AttributeError`. -/
theorem C143_plain_shape_model_violated (f : Fmt) (a : Print.Aam) (ha : TrainedAam a) (m : ShapeModel) (r : List ShapeModel)
    (hm : a.shapes = m :: r) (hg : m.nGlobal = none) : aamStr f a = .error .attributeError := by
  have hpos := List.length_pos_iff.2 ha.scales
  obtain ⟨h, h1⟩ := lookup ha.features hpos
  obtain ⟨am, h2⟩ := lookup ha.appearance hpos
  have h3 : a.shapes[0]? = some m := by rw [hm]; rfl
  have h4 : ∀ s, aamScale f a 0 s = .error .attributeError := by
    intro s
    unfold aamScale
    simp only [nth_ok.2 h1, nth_ok.2 h2, nth_ok.2 h3, bind, Except.bind, ShapeModel.globals, hg]
  unfold aamStr perScale
  match hS : a.scales, ha.scales with
  | s :: S, _ =>
    rw [List.zipIdx_cons, List.mapM_cons, h4]
    rfl

/-! ### The hypotheses can be met -/

/-- Numbers written with strokes; pairs, scales and lists of scales likewise. -/
noncomputable def strokes : Fmt where
  num n := String.ofList (List.replicate n '|')
  pair p := String.ofList (List.replicate p.1 '|' ++ '/' :: List.replicate p.2 '|')
  scale q := String.ofList (List.replicate (Encodable.encode q) '|')
  scales _ := "..."
  two _ := "1.00"
  one _ := "1.0"

theorem strokes_readable : Readable strokes ∧ NoBlanks strokes := by
  have hr : ∀ m n : Nat, List.replicate m '|' = List.replicate n '|' → m = n := fun m n h => by
    simpa using congrArg List.length h
  refine ⟨⟨fun m n h => hr m n (String.ofList_injective h), fun p q h => ?_, fun p q h => ?_⟩, fun n => ?_⟩
  · have h1 := String.ofList_injective h
    have h2 := congrArg (fun l : List Char => l.idxOf '/') h1
    have h3 := congrArg List.length h1
    have h4 : ∀ m n : Nat, (List.replicate m '|' ++ '/' :: List.replicate n '|').idxOf '/' = m := by
      intro m n
      rw [List.idxOf_append_of_notMem (by simp)]
      simp
    simp only [h4] at h2
    simp at h3
    exact Prod.ext h2 (by omega)
  · exact Encodable.encode_injective (hr _ _ (String.ofList_injective h))
  · simp [strokes]

/-- A model with two scales. -/
def printedAam : Print.Aam := ⟨"Holistic Active Appearance Model", none, (3, 4), [1 / 2, 1], ["no_op", "fast_dsift"],
  [⟨"PCAModel", 5, 5⟩, ⟨"PCAModel", 9, 7⟩], [⟨"OrthoPDM", 4, 3, some 4⟩, ⟨"OrthoPDM", 6, 5, some 4⟩], none,
  some "DifferentiablePiecewiseAffine"⟩

theorem printedAam_trained : TrainedAam printedAam ∧ WithSimilarity printedAam.shapes :=
  ⟨⟨by simp [printedAam], rfl, rfl, rfl, by simp [printedAam]⟩, by simp [printedAam, WithSimilarity]⟩

/-- The hypotheses of `C143_aam_partial` and `C143_aam_fitter_partial` hold for a model with two scales, and the diagonal of
its reference shape is 5. -/
example : (∃ t, aamStr strokes printedAam = .ok t) ∧ scaledTo printedAam.diagonal printedAam.range = 5 := by
  refine ⟨?_, ?_⟩
  · obtain ⟨t, h, -⟩ := C143_aam_partial strokes printedAam printedAam_trained.1 printedAam_trained.2
    exact ⟨t, h⟩
  · rw [← diagonal_eq]
    simp only [printedAam, shownDiagonal]
    rw [show ((4 : ℝ) ^ 2 + 3 ^ 2) = 5 ^ 2 by norm_num, Real.sqrt_sq (by norm_num)]

/-- The same model with another number of shape components prints another text. -/
example : aamStr strokes printedAam ≠
    aamStr strokes { printedAam with shapes := [⟨"OrthoPDM", 4, 3, some 4⟩, ⟨"OrthoPDM", 8, 5, some 4⟩] } := by
  intro h
  obtain ⟨t, h1, -⟩ := C143_aam_partial strokes printedAam printedAam_trained.1 printedAam_trained.2
  have h2 := C143_aam_distinguished strokes strokes_readable.1 printedAam _ printedAam_trained.1
    ⟨by simp [printedAam], rfl, rfl, rfl, by simp [printedAam]⟩ t h1 (h ▸ h1)
  simp [printedAam, shapeSettings] at h2

/-- The hypotheses of the theorems on the other classes hold for models with one or two scales. -/
example : TrainedAtm ⟨"Holistic Active Template Model", some 100, (3, 4), [1 / 2, 1], ["no_op", "no_op"], [(20, 30), (40, 60)],
      [⟨"OrthoPDM", 4, 3, some 4⟩, ⟨"OrthoPDM", 6, 5, some 4⟩], some [(17, 17), (9, 9)], "DifferentiableThinPlateSplines"⟩ ∧
    TrainedClm ⟨none, (3, 4), [1], ["no_op"], ["CorrelationFilterExpertEnsemble"],
      [⟨68, "IncrementalCorrelationFilterThinWrapper", (17, 17), "normalize_norm", (34, 34), true⟩],
      [⟨"OrthoPDM", 4, 3, some 4⟩]⟩ ∧
    TrainedUnified ⟨none, (3, 4), [1], ["no_op"], ["CorrelationFilterExpertEnsemble"],
      [⟨68, "IncrementalCorrelationFilterThinWrapper", (17, 17), "normalize_norm", (34, 34), true⟩], [⟨"PCAModel", 5, 5⟩],
      [⟨"OrthoPDM", 4, 3, some 4⟩], none⟩ ∧
    BuiltLk ⟨none, (3, 4), [1 / 2, 1], ["no_op", "no_op"], [(20, 30), (40, 60)],
      [(.inverseCompositional, .ssd), (.inverseCompositional, .ssd)], "DifferentiableAlignmentAffine"⟩ ∧
    TrainedSdm ⟨none, (3, 4), [1 / 2, 1], [3, 6], [(17, 17), (9, 9)], ["no_op", "no_op"], ["no_op", "dsift"],
      [("NonParametricNewton", "IRLRegression"), ("NonParametricOPPRegression", "OPPRegression")], 30, none⟩ := by
  refine ⟨⟨by simp, rfl, rfl, rfl, by simp⟩, ⟨by simp, rfl, rfl, rfl, rfl⟩, ⟨by simp, rfl, rfl, rfl, rfl, rfl⟩,
    ⟨by simp, rfl, rfl, _, rfl⟩, ⟨by simp, rfl, rfl, rfl, rfl, rfl⟩⟩

/-- The hypotheses of `C143_plain_shape_model_violated` hold for the model above trained with `PDM`. -/
example : aamStr strokes { printedAam with shapes := [⟨"PDM", 4, 3, none⟩, ⟨"PDM", 6, 5, none⟩] } =
    .error .attributeError :=
  C143_plain_shape_model_violated strokes _ ⟨by simp [printedAam], rfl, rfl, rfl, by simp [printedAam]⟩ _ _ rfl rfl

end Menpofit
