import Verif.Lemmas.Printing
import Mathlib.Data.List.GetD
/-!
# Lemmas: the blocks of printed models
-/

namespace Menpofit
namespace Print
open Spec

/-- Blocks without patch shapes and blocks with them do not give the same text. -/
theorem patches_agree {c : Nat} {L L' : List Text} (hn : L' ≠ []) (h1 : ∀ t ∈ L, t.length = c ∧ ∃ x, t[0]? = some ("   - Scale " ++ x))
    (h2 : ∀ t ∈ L', ∃ r y, r.length = c ∧ t = r ++ ["     - Patch shape: " ++ y])
    (h : L.flatten ++ [""] = L'.flatten ++ [""]) : L = [] := by
  match L, L', hn with
  | [], _, _ => rfl
  | t :: L, t' :: L', _ =>
    exfalso
    obtain ⟨r, y, hr, rfl⟩ := h2 t' (by simp)
    have ht := (h1 t (by simp)).1
    have e := congrArg (fun l : List String => l[c]?) h
    simp only [List.flatten_cons, List.append_assoc] at e
    rw [List.getElem?_append_right (l₁ := t) (by omega), List.getElem?_append_right (l₁ := r) (by omega), ht, hr,
      Nat.sub_self] at e
    simp only [List.cons_append, List.nil_append, List.getElem?_cons_zero] at e
    cases L with
    | nil =>
      exact patch_ne_empty y (Option.some.inj e).symm
    | cons u L =>
      obtain ⟨x, hx⟩ := (h1 u (by simp)).2
      rw [List.flatten_cons, List.append_assoc, List.getElem?_append_left (List.getElem?_eq_some_iff.1 hx).1, hx] at e
      exact patch_ne_scale y x (Option.some.inj e).symm

/-- What a block looks like with or without a patch shape. -/
def patched (f : Fmt) (patchShape : Option (List (Nat × Nat))) (k : Nat) (t : Text) : Text :=
  match patchShape with
  | none => t
  | some l => t ++ ["     - Patch shape: " ++ f.pair (l.getD k (0, 0))]

theorem withPatches_ok {f : Fmt} {o : Option (List (Nat × Nat))} {L L' : List Text} (h : withPatches f o L = .ok L') :
    L'.length = L.length ∧ ∀ (k : Nat) (t : Text), L[k]? = some t → L'[k]? = some (patched f o k t) := by
  cases o with
  | none =>
    obtain rfl := Except.ok.inj h
    exact ⟨rfl, fun k t ht => ht⟩
  | some l =>
    obtain ⟨h1, h2⟩ := withPatches_some.1 h
    refine ⟨h1, fun k t ht => ?_⟩
    obtain ⟨p, h3, h4⟩ := h2 k t ht
    rw [h4]
    simp [patched, h3]

/-- Two lists of blocks of the same kind that give the same text are the same, and so are the patch shapes. -/
theorem patched_inj {f : Fmt} (hf : Readable f) {c : Nat} (hc : 0 < c) {N N' : Nat} (hN : 0 < N) (hN' : 0 < N')
    {o o' : Option (List (Nat × Nat))} (ho : ∀ l, o = some l → l.length = N) (ho' : ∀ l, o' = some l → l.length = N')
    {B B' : Nat → Text} {L L' : List Text} (hL : L.length = N) (hL' : L'.length = N')
    (hB : ∀ k, k < N → (B k).length = c ∧ ∃ x, (B k)[0]? = some ("   - Scale " ++ x))
    (hB' : ∀ k, k < N' → (B' k).length = c ∧ ∃ x, (B' k)[0]? = some ("   - Scale " ++ x))
    (h1 : ∀ k, k < N → L[k]? = some (patched f o k (B k))) (h2 : ∀ k, k < N' → L'[k]? = some (patched f o' k (B' k)))
    (h : L.flatten ++ [""] = L'.flatten ++ [""]) : N = N' ∧ o = o' ∧ ∀ k, k < N → B k = B' k := by
  have len : ∀ {o : Option (List (Nat × Nat))} {N : Nat} {B : Nat → Text} {L : List Text}, L.length = N →
      (∀ k, k < N → (B k).length = c ∧ ∃ x, (B k)[0]? = some ("   - Scale " ++ x)) →
      (∀ k, k < N → L[k]? = some (patched f o k (B k))) → ∀ t ∈ L, ∃ k, k < N ∧ t = patched f o k (B k) := by
    intro o N B L hL hB h1 t ht
    obtain ⟨k, hk, h3⟩ := mem_getElem? ht
    refine ⟨k, hL ▸ hk, ?_⟩
    rw [h1 k (hL ▸ hk)] at h3
    exact (Option.some.inj h3).symm
  have ne : ∀ {N : Nat} {L : List Text}, L.length = N → 0 < N → L ≠ [] := by
    rintro N L h3 h4 rfl
    simp at h3
    omega
  have fin : L = L' → N = N' ∧ ∀ k, k < N → patched f o k (B k) = patched f o' k (B' k) := by
    rintro rfl
    have hNN : N = N' := hL.symm.trans hL'
    subst hNN
    exact ⟨rfl, fun k hk => Option.some.inj ((h1 k hk).symm.trans (h2 k hk))⟩
  match o, o' with
  | none, none =>
    have e := blocks_inj hc (fun t ht => by obtain ⟨k, hk, rfl⟩ := len hL hB h1 t ht; exact (hB k hk).1)
      (fun t ht => by obtain ⟨k, hk, rfl⟩ := len hL' hB' h2 t ht; exact (hB' k hk).1) h
    exact ⟨(fin e).1, rfl, (fin e).2⟩
  | none, some l =>
    refine absurd (patches_agree (c := c) (ne hL' hN') (fun t ht => ?_) (fun t ht => ?_) h) (ne hL hN)
    · obtain ⟨k, hk, rfl⟩ := len hL hB h1 t ht
      exact hB k hk
    · obtain ⟨k, hk, rfl⟩ := len hL' hB' h2 t ht
      exact ⟨_, _, (hB' k hk).1, rfl⟩
  | some l, none =>
    refine absurd (patches_agree (c := c) (ne hL hN) (fun t ht => ?_) (fun t ht => ?_) h.symm) (ne hL' hN')
    · obtain ⟨k, hk, rfl⟩ := len hL' hB' h2 t ht
      exact hB' k hk
    · obtain ⟨k, hk, rfl⟩ := len hL hB h1 t ht
      exact ⟨_, _, (hB k hk).1, rfl⟩
  | some l, some l' =>
    have e := blocks_inj (c := c + 1) (by omega)
      (fun t ht => by obtain ⟨k, hk, rfl⟩ := len hL hB h1 t ht; simp [patched, (hB k hk).1])
      (fun t ht => by obtain ⟨k, hk, rfl⟩ := len hL' hB' h2 t ht; simp [patched, (hB' k hk).1]) h
    obtain ⟨h3, h4⟩ := fin e
    subst h3
    have h5 : ∀ k, k < N → B k = B' k ∧ l.getD k (0, 0) = l'.getD k (0, 0) := by
      intro k hk
      obtain ⟨h6, h7⟩ := List.append_inj (h4 k hk) (by rw [(hB k hk).1, (hB' k hk).1])
      simp only [List.cons.injEq, String.append_right_inj, and_true] at h7
      exact ⟨h6, hf.pair h7⟩
    refine ⟨rfl, congrArg some ?_, fun k hk => (h5 k hk).1⟩
    have h6 := ho l rfl
    have h7 := ho' l' rfl
    apply List.ext_getElem (h6.trans h7.symm)
    intro k hk hk'
    have := (h5 k (h6 ▸ hk)).2
    rwa [List.getD_eq_getElem _ _ hk, List.getD_eq_getElem _ _ hk'] at this

/-- Two loops over scales that give the same text have the same number of scales and the same block at each scale. -/
theorem rows_inj {c : Nat} (hc : 0 < c) {S S' : List ℚ} {g g' : Nat → ℚ → Except PyErr Text} {L L' : List Text} {x : String}
    (h1 : perScale S g = .ok L) (h2 : perScale S' g' = .ok L') (hg : ∀ k s t, g k s = .ok t → t.length = c)
    (hg' : ∀ k s t, g' k s = .ok t → t.length = c) (h : L.flatten ++ [x] = L'.flatten ++ [x]) :
    S.length = S'.length ∧ ∀ k, k < S.length → ∃ s s' t, S[k]? = some s ∧ S'[k]? = some s' ∧ g k s = .ok t ∧ g' k s' = .ok t := by
  have len : ∀ {S : List ℚ} {g : Nat → ℚ → Except PyErr Text} {L : List Text}, perScale S g = .ok L →
      (∀ k s t, g k s = .ok t → t.length = c) → ∀ t ∈ L, t.length = c := by
    intro S g L h1 hg t ht
    obtain ⟨n1, q1⟩ := perScale_ok.1 h1
    obtain ⟨k, hk, h3⟩ := mem_getElem? ht
    obtain ⟨s, hs⟩ := lookup n1.symm hk
    obtain ⟨t', h4, h5⟩ := q1 k s hs
    rw [h3] at h5
    obtain rfl := Option.some.inj h5
    exact hg k s _ h4
  obtain rfl := blocks_inj hc (len h1 hg) (len h2 hg') h
  obtain ⟨n1, q1⟩ := perScale_ok.1 h1
  obtain ⟨n2, q2⟩ := perScale_ok.1 h2
  refine ⟨n1.symm.trans n2, fun k hk => ?_⟩
  obtain ⟨s, hs⟩ := lookup rfl hk
  obtain ⟨s', hs'⟩ := lookup (n2.symm.trans n1) hk
  obtain ⟨t, h3, h4⟩ := q1 k s hs
  obtain ⟨t', h5, h6⟩ := q2 k s' hs'
  obtain rfl := Option.some.inj (h4.symm.trans h6)
  exact ⟨s, s', t, hs, hs', h3, h5⟩

/-- The same with patch shapes. -/
theorem rows_patched_inj {f : Fmt} (hf : Readable f) {c : Nat} (hc : 0 < c) {S S' : List ℚ} (hS : S ≠ []) (hS' : S' ≠ [])
    {o o' : Option (List (Nat × Nat))} (ho : ∀ l, o = some l → l.length = S.length)
    (ho' : ∀ l, o' = some l → l.length = S'.length) {g g' : Nat → ℚ → Except PyErr Text} {L L' M M' : List Text}
    (h1 : perScale S g = .ok L) (h2 : perScale S' g' = .ok L') (w1 : withPatches f o L = .ok M)
    (w2 : withPatches f o' L' = .ok M')
    (hg : ∀ k s t, g k s = .ok t → t.length = c ∧ ∃ x, t[0]? = some ("   - Scale " ++ x))
    (hg' : ∀ k s t, g' k s = .ok t → t.length = c ∧ ∃ x, t[0]? = some ("   - Scale " ++ x))
    (h : M.flatten ++ [""] = M'.flatten ++ [""]) : o = o' ∧ S.length = S'.length ∧
      ∀ k, k < S.length → ∃ s s' t, S[k]? = some s ∧ S'[k]? = some s' ∧ g k s = .ok t ∧ g' k s' = .ok t := by
  obtain ⟨n1, q1⟩ := perScale_ok.1 h1
  obtain ⟨n2, q2⟩ := perScale_ok.1 h2
  obtain ⟨n3, q3⟩ := withPatches_ok w1
  obtain ⟨n4, q4⟩ := withPatches_ok w2
  have blk : ∀ {S : List ℚ} {g : Nat → ℚ → Except PyErr Text} {L : List Text}, (∀ (k : ℕ) (s : ℚ), S[k]? = some s →
      ∃ t, g k s = .ok t ∧ L[k]? = some t) → ∀ k, k < S.length →
      ∃ s, S[k]? = some s ∧ g k s = .ok (L.getD k []) ∧ L[k]? = some (L.getD k []) := by
    intro S g L q k hk
    obtain ⟨s, hs⟩ := lookup rfl hk
    obtain ⟨t, h3, h4⟩ := q k s hs
    have : L.getD k [] = t := by simp [h4]
    exact ⟨s, hs, this ▸ h3, this ▸ h4⟩
  obtain ⟨hN, ho, hB⟩ := patched_inj hf hc (List.length_pos_iff.2 hS) (List.length_pos_iff.2 hS')
    ho ho' (B := fun k => L.getD k []) (B' := fun k => L'.getD k []) (n3.trans n1) (n4.trans n2)
    (fun k hk => by obtain ⟨s, -, h3, -⟩ := blk q1 k hk; exact hg _ _ _ h3)
    (fun k hk => by obtain ⟨s, -, h3, -⟩ := blk q2 k hk; exact hg' _ _ _ h3)
    (fun k hk => by obtain ⟨s, -, -, h3⟩ := blk q1 k hk; exact q3 k _ h3)
    (fun k hk => by obtain ⟨s, -, -, h3⟩ := blk q2 k hk; exact q4 k _ h3) h
  refine ⟨ho, hN, fun k hk => ?_⟩
  obtain ⟨s, s1, h3, -⟩ := blk q1 k hk
  obtain ⟨s', s2, h4, -⟩ := blk q2 k (hN ▸ hk)
  exact ⟨s, s', _, s1, s2, h3, (hB k hk) ▸ h4⟩

theorem same {α : Type} {l l' : List α} {N : Nat} (h1 : l.length = N) (h2 : l'.length = N)
    (h : ∀ k, k < N → ∃ x, l[k]? = some x ∧ l'[k]? = some x) : l = l' := by
  have := list_eq (v := id) h1 h2 fun k hk x y hx hy => by
    obtain ⟨z, h3, h4⟩ := h k hk
    rw [h3] at hx
    rw [h4] at hy
    exact (Option.some.inj hx).symm.trans (Option.some.inj hy)
  simpa using this

theorem same_of {α β : Type} (v : α → β) {l l' : List α} {N : Nat} (h1 : l.length = N) (h2 : l'.length = N)
    (h : ∀ k, k < N → ∃ x y, l[k]? = some x ∧ l'[k]? = some y ∧ v x = v y) : l.map v = l'.map v :=
  list_eq v h1 h2 fun k hk x y hx hy => by
    obtain ⟨x', y', h3, h4, h5⟩ := h k hk
    rw [h3] at hx
    rw [h4] at hy
    rw [← Option.some.inj hx, ← Option.some.inj hy, h5]

theorem bind_ok {α β : Type} {x : Except PyErr α} {k : α → Except PyErr β} {b : β} (h : (x >>= k) = .ok b) :
    ∃ a, x = .ok a ∧ k a = .ok b := by
  cases x with
  | error e => simp [bind, Except.bind] at h
  | ok a => exact ⟨a, rfl, h⟩

theorem shapeSettings_eq {m m' : ShapeModel} {g : Nat} (h1 : m.cls = m'.cls) (h2 : m.nComponents = m'.nComponents)
    (h3 : m.nGlobal = some g) (h4 : m'.nGlobal = some g) : shapeSettings m = shapeSettings m' := by
  simp only [shapeSettings, h1, h2, h3, h4]

/-! ### Active appearance models -/

theorem aamScale_ok {f : Fmt} {a : Aam} {k : Nat} {s : ℚ} {t : Text} : aamScale f a k s = .ok t ↔
    ∃ h am sm g, a.features[k]? = some h ∧ a.appearance[k]? = some am ∧ a.shapes[k]? = some sm ∧ sm.nGlobal = some g ∧
      t = ["   - Scale " ++ f.scale s,
    "     - Holistic feature: " ++ h,
    "     - Appearance model class: " ++ am.cls,
    "       - " ++ f.num am.nComponents ++ " appearance components",
    "     - Shape model class: " ++ sm.cls,
    "       - " ++ f.num sm.nComponents ++ " shape components",
    "       - " ++ f.num g ++ " similarity transform parameters"] := by
  simp only [← nth_ok, ← globals_ok]
  unfold aamScale
  constructor
  · intro e
    cases h1 : nth a.features k with
    | error _ => simp [h1, bind, Except.bind] at e
    | ok h =>
    cases h2 : nth a.appearance k with
    | error _ => simp [h1, h2, bind, Except.bind] at e
    | ok am =>
    cases h3 : nth a.shapes k with
    | error _ => simp [h1, h2, h3, bind, Except.bind] at e
    | ok sm =>
    cases h4 : sm.globals with
    | error _ => simp [h1, h2, h3, h4, bind, Except.bind] at e
    | ok g =>
      simp only [h1, h2, h3, h4, bind, Except.bind, pure, Except.pure, Except.ok.injEq] at e
      exact ⟨h, am, sm, g, rfl, rfl, h3.symm ▸ rfl, h4, e.symm⟩
  · rintro ⟨h, am, sm, g, h1, h2, h3, h4, rfl⟩
    simp only [h1, h2, h3, h4, bind, Except.bind, pure, Except.pure]

theorem atmScale_ok {f : Fmt} {a : Atm} {k : Nat} {s : ℚ} {t : Text} : atmScale f a k s = .ok t ↔
    ∃ h tp sm g, a.features[k]? = some h ∧ a.templates[k]? = some tp ∧ a.shapes[k]? = some sm ∧ sm.nGlobal = some g ∧
      t = ["   - Scale " ++ f.scale s,
    "     - Holistic feature: " ++ h,
    "     - Template shape: " ++ f.pair tp,
    "     - Shape model class: " ++ sm.cls,
    "       - " ++ f.num sm.nComponents ++ " shape components",
    "       - " ++ f.num g ++ " similarity transform parameters"] := by
  simp only [← nth_ok, ← globals_ok]
  unfold atmScale
  constructor
  · intro e
    cases h1 : nth a.features k with
    | error _ => simp [h1, bind, Except.bind] at e
    | ok h =>
    cases h2 : nth a.templates k with
    | error _ => simp [h1, h2, bind, Except.bind] at e
    | ok am =>
    cases h3 : nth a.shapes k with
    | error _ => simp [h1, h2, h3, bind, Except.bind] at e
    | ok sm =>
    cases h4 : sm.globals with
    | error _ => simp [h1, h2, h3, h4, bind, Except.bind] at e
    | ok g =>
      simp only [h1, h2, h3, h4, bind, Except.bind, pure, Except.pure, Except.ok.injEq] at e
      exact ⟨h, am, sm, g, rfl, rfl, h3.symm ▸ rfl, h4, e.symm⟩
  · rintro ⟨h, am, sm, g, h1, h2, h3, h4, rfl⟩
    simp only [h1, h2, h3, h4, bind, Except.bind, pure, Except.pure]

theorem clmScale_ok {f : Fmt} {a : Clm} {k : Nat} {s : ℚ} {t : Text} : clmScale f a k s = .ok t ↔
    ∃ h c e sm g, a.features[k]? = some h ∧ a.expertCls[k]? = some c ∧ a.experts[k]? = some e ∧
      a.shapes[k]? = some sm ∧ sm.nGlobal = some g ∧
      t = ["   - Scale " ++ f.scale s, "     - Holistic feature: " ++ h] ++ expertLines f c e ++
    ["     - Shape model class: " ++ sm.cls,
    "       - " ++ f.num sm.nComponents ++ " shape components",
    "       - " ++ f.num g ++ " similarity transform parameters"] := by
  simp only [← nth_ok, ← globals_ok]
  unfold clmScale
  constructor
  · intro e
    cases h1 : nth a.features k with
    | error _ => simp [h1, bind, Except.bind] at e
    | ok h =>
    cases h2 : nth a.expertCls k with
    | error _ => simp [h1, h2, bind, Except.bind] at e
    | ok c =>
    cases h5 : nth a.experts k with
    | error _ => simp [h1, h2, h5, bind, Except.bind] at e
    | ok x =>
    cases h3 : nth a.shapes k with
    | error _ => simp [h1, h2, h3, h5, bind, Except.bind] at e
    | ok sm =>
    cases h4 : sm.globals with
    | error _ => simp [h1, h2, h3, h4, h5, bind, Except.bind] at e
    | ok g =>
      simp only [h1, h2, h3, h4, h5, bind, Except.bind, pure, Except.pure, Except.ok.injEq] at e
      exact ⟨h, c, x, sm, g, rfl, rfl, rfl, h3.symm ▸ rfl, h4, e.symm⟩
  · rintro ⟨h, c, x, sm, g, h1, h2, h5, h3, h4, rfl⟩
    simp only [h1, h2, h3, h4, h5, bind, Except.bind, pure, Except.pure]

theorem unifiedScale_ok {f : Fmt} {a : Unified} {k : Nat} {s : ℚ} {t : Text} : unifiedScale f a k s = .ok t ↔
    ∃ h c e am sm g, a.features[k]? = some h ∧ a.expertCls[k]? = some c ∧ a.experts[k]? = some e ∧
      a.appearance[k]? = some am ∧ a.shapes[k]? = some sm ∧ sm.nGlobal = some g ∧
      t = ["   - Scale " ++ f.scale s, "     - Holistic feature: " ++ h] ++ expertLines f c e ++
    ["     - Appearance model class: " ++ am.cls,
    "       - " ++ f.num am.nComponents ++ " appearance components",
    "     - Shape model class: " ++ sm.cls,
    "       - " ++ f.num sm.nComponents ++ " shape components",
    "       - " ++ f.num g ++ " similarity transform parameters"] := by
  simp only [← nth_ok, ← globals_ok]
  unfold unifiedScale
  constructor
  · intro e
    cases h1 : nth a.features k with
    | error _ => simp [h1, bind, Except.bind] at e
    | ok h =>
    cases h2 : nth a.expertCls k with
    | error _ => simp [h1, h2, bind, Except.bind] at e
    | ok c =>
    cases h5 : nth a.experts k with
    | error _ => simp [h1, h2, h5, bind, Except.bind] at e
    | ok x =>
    cases h6 : nth a.appearance k with
    | error _ => simp [h1, h2, h5, h6, bind, Except.bind] at e
    | ok am =>
    cases h3 : nth a.shapes k with
    | error _ => simp [h1, h2, h3, h5, h6, bind, Except.bind] at e
    | ok sm =>
    cases h4 : sm.globals with
    | error _ => simp [h1, h2, h3, h4, h5, h6, bind, Except.bind] at e
    | ok g =>
      simp only [h1, h2, h3, h4, h5, h6, bind, Except.bind, pure, Except.pure, Except.ok.injEq] at e
      exact ⟨h, c, x, am, sm, g, rfl, rfl, rfl, rfl, h3.symm ▸ rfl, h4, e.symm⟩
  · rintro ⟨h, c, x, am, sm, g, h1, h2, h5, h6, h3, h4, rfl⟩
    simp only [h1, h2, h3, h4, h5, h6, bind, Except.bind, pure, Except.pure]

/-- The lines on the experts tell the experts apart. -/
theorem expertLines_inj {f : Fmt} (hf : Readable f) (hb : NoBlanks f) {c c' : String} {e e' : Experts}
    (h : expertLines f c e = expertLines f c' e') : c = c' ∧ e = e' := by
  obtain ⟨n, fl, p, no, ct, co⟩ := e
  obtain ⟨n', fl', p', no', ct', co'⟩ := e'
  simp only [expertLines, List.cons.injEq, and_true] at h
  obtain ⟨h1, h2, h3, h4, h5, h6, h7⟩ := h
  have q1 := times_inj hb _ h4
  have q2 := times_inj hb _ h6
  rw [String.append_left_inj, String.append_right_inj] at h2 h3
  rw [String.append_right_inj] at h1 h5 h7
  refine ⟨h1, ?_⟩
  rw [Experts.mk.injEq]
  exact ⟨hf.num h2, h3, Prod.ext (hf.num q1.1) (hf.num q1.2), h5, Prod.ext (hf.num q2.1) (hf.num q2.2), showBool_inj h7⟩

theorem expertLines_length (f : Fmt) (c : String) (e : Experts) : (expertLines f c e).length = 7 := rfl

/-- Fitters that print, after the same text, blocks with the numbers of active shape components. -/
theorem shape_fitters (f : Fmt) (hf : Readable f) {S S' : List ℚ} {M M' : List ShapeModel} (h1 : M.length = S.length)
    (h2 : M'.length = S'.length) {T : Text} (hT : T ≠ []) {x y : String} {L L' : List Text}
    (p1 : shapeBlocks f S M = .ok L) (p2 : shapeBlocks f S' M' = .ok L')
    (h : addText T ([x, " - Scales: " ++ f.scales S] ++ L.flatten ++ ["    "]) =
      addText T ([y, " - Scales: " ++ f.scales S'] ++ L'.flatten ++ ["    "])) :
    x = y ∧ M.map (·.nActive) = M'.map (·.nActive) := by
  simp only [List.cons_append, List.nil_append] at h
  obtain ⟨e1, e2⟩ := addText_inj hT h
  simp only [List.cons.injEq] at e2
  have ok : ∀ (M : List ShapeModel) (k : Nat) (s : ℚ) (t : Text), (do
    let sm ← nth M k
    let g ← sm.globals
    return ["   - Scale " ++ f.scale s,
      "     - " ++ f.num sm.nActive ++ " active shape components",
      "     - " ++ f.num g ++ " similarity transform components"] : Except PyErr Text) = .ok t →
      ∃ sm g, M[k]? = some sm ∧ t = ["   - Scale " ++ f.scale s,
      "     - " ++ f.num sm.nActive ++ " active shape components",
      "     - " ++ f.num g ++ " similarity transform components"] := by
    intro M k s t h
    obtain ⟨sm, r1, h⟩ := bind_ok h
    obtain ⟨g, -, h⟩ := bind_ok h
    exact ⟨sm, g, nth_ok.1 r1, (Except.ok.inj h).symm⟩
  obtain ⟨hN, q⟩ := rows_inj (c := 3) (by omega) p1 p2 (fun k s t h => by obtain ⟨_, _, -, rfl⟩ := ok M k s t h; rfl)
    (fun k s t h => by obtain ⟨_, _, -, rfl⟩ := ok M' k s t h; rfl) e2.2
  refine ⟨e1, same_of _ h1 (h2.trans hN.symm) fun k hk => ?_⟩
  obtain ⟨s, s', t, s1, s2, h3, h4⟩ := q k hk
  obtain ⟨sm, g, f1, u⟩ := ok M k s t h3
  obtain ⟨sm', g', f1', u'⟩ := ok M' k s' t h4
  have e := u.symm.trans u'
  simp only [List.cons.injEq, String.append_right_inj, String.append_left_inj, and_true] at e
  exact ⟨sm, sm', f1, f1', hf.num e.2.1⟩

theorem head_of {α : Type} {l : List ℚ} (h : l ≠ []) {x y : α} (hx : nth (List.replicate l.length x) 0 = .ok y) : x = y := by
  have := nth_ok.1 hx
  rw [List.getElem?_replicate, if_pos (List.length_pos_iff.2 h)] at this
  exact Option.some.inj this

theorem addText_lines (l : Text) (x y z : String) (r foot : Text) :
    addText (l ++ [x]) ([y, z] ++ r ++ foot) = (l ++ [x ++ y, z]) ++ r ++ foot := by
  simp only [List.cons_append, List.nil_append, addText_end, List.append_assoc]

end Print
end Menpofit
