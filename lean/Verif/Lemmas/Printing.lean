import Verif.Spec.Printing
import Mathlib.Data.List.Basic
/-!
# Lemmas: printing
-/

namespace Menpofit
namespace Print
open Spec

theorem nth_ok {α : Type} {l : List α} {k : Nat} {x : α} : nth l k = .ok x ↔ l[k]? = some x := by
  unfold nth
  split <;> simp_all

theorem nth_lt {α : Type} {l : List α} {k : Nat} (h : k < l.length) : nth l k = .ok l[k] := by
  rw [nth_ok, List.getElem?_eq_getElem h]

theorem globals_ok {m : ShapeModel} {g : Nat} : m.globals = .ok g ↔ m.nGlobal = some g := by
  unfold ShapeModel.globals
  split <;> simp_all

/-! ### Loops over the scales -/

theorem mapM_zipIdx {α β : Type} (g : Nat → α → Except PyErr β) (l : List α) (m : Nat) (L : List β) :
    ((l.zipIdx m).mapM fun x => g x.2 x.1) = .ok L ↔
      L.length = l.length ∧ ∀ k a, l[k]? = some a → ∃ t, g (m + k) a = .ok t ∧ L[k]? = some t := by
  induction l generalizing m L with
  | nil =>
    simp only [List.zipIdx_nil, List.mapM_nil, List.length_nil, List.getElem?_nil, reduceCtorEq, false_implies, implies_true,
      and_true, pure, Except.pure, Except.ok.injEq, List.length_eq_zero_iff]
    exact eq_comm
  | cons a l ih =>
    rw [List.zipIdx_cons, List.mapM_cons]
    constructor
    · intro h
      cases hg : g m a with
      | error e => simp only [hg, bind, Except.bind, reduceCtorEq] at h
      | ok t =>
        cases hr : (l.zipIdx (m + 1)).mapM fun x => g x.2 x.1 with
        | error e => simp only [hg, hr, bind, Except.bind, reduceCtorEq] at h
        | ok L' =>
          simp only [hg, hr, bind, Except.bind, pure, Except.pure, Except.ok.injEq] at h
          subst h
          obtain ⟨h1, h2⟩ := (ih (m + 1) L').1 hr
          refine ⟨by simp [h1], ?_⟩
          rintro (_ | k) b hb
          · obtain rfl : a = b := by simpa using hb
            exact ⟨t, hg, rfl⟩
          · obtain ⟨t', h3, h4⟩ := h2 k b (by simpa using hb)
            exact ⟨t', by rw [← h3]; congr 1; omega, by simpa using h4⟩
    · rintro ⟨h1, h2⟩
      obtain ⟨t, h3, h4⟩ := h2 0 a rfl
      match L, h1 with
      | t' :: L', h1 =>
        obtain rfl : t' = t := by simpa using h4
        have h5 := (ih (m + 1) L').2 ⟨by simpa using h1, fun k b hb => by
          obtain ⟨t', h6, h7⟩ := h2 (k + 1) b (by simpa using hb)
          exact ⟨t', by rw [← h6]; congr 1; omega, by simpa using h7⟩⟩
        rw [Nat.add_zero] at h3
        simp only [h3, h5, bind, Except.bind, pure, Except.pure]

theorem perScale_ok {scales : List ℚ} {g : Nat → ℚ → Except PyErr Text} {L : List Text} :
    perScale scales g = .ok L ↔
      L.length = scales.length ∧ ∀ k s, scales[k]? = some s → ∃ t, g k s = .ok t ∧ L[k]? = some t := by
  unfold perScale
  rw [mapM_zipIdx]
  simp only [Nat.zero_add]

theorem mapM_total {α β : Type} (g : Nat → α → Except PyErr β) (l : List α)
    (h : ∀ k a, l[k]? = some a → ∃ t, g k a = .ok t) : ∃ L, ((l.zipIdx).mapM fun x => g x.2 x.1) = .ok L := by
  have h' : ∀ k : Fin l.length, ∃ t, g k l[k] = .ok t := fun k => h k _ (List.getElem?_eq_getElem k.2)
  choose r hr using h'
  refine ⟨List.ofFn r, (mapM_zipIdx g l 0 _).2 ⟨by simp, fun k a ha => ?_⟩⟩
  obtain ⟨hk, rfl⟩ := List.getElem?_eq_some_iff.1 ha
  exact ⟨r ⟨k, hk⟩, by rw [Nat.zero_add]; exact hr ⟨k, hk⟩, by simp [hk]⟩

theorem perScale_total {scales : List ℚ} {g : Nat → ℚ → Except PyErr Text}
    (h : ∀ k s, scales[k]? = some s → ∃ t, g k s = .ok t) : ∃ L, perScale scales g = .ok L := mapM_total g scales h

theorem withPatches_some {f : Fmt} {l : List (Nat × Nat)} {L L' : List Text} :
    withPatches f (some l) L = .ok L' ↔ L'.length = L.length ∧
      ∀ (k : Nat) (t : Text), L[k]? = some t → ∃ p, l[k]? = some p ∧ L'[k]? = some (t ++ ["     - Patch shape: " ++ f.pair p]) := by
  unfold withPatches
  rw [mapM_zipIdx (fun k t => do let p ← nth l k; return t ++ ["     - Patch shape: " ++ f.pair p])]
  refine and_congr Iff.rfl (forall_congr' fun k => forall_congr' fun t => imp_congr Iff.rfl ?_)
  rw [Nat.zero_add]
  constructor
  · rintro ⟨t', h1, h2⟩
    cases hn : nth l k with
    | error e => simp only [hn, bind, Except.bind, reduceCtorEq] at h1
    | ok p =>
      simp only [hn, bind, Except.bind, pure, Except.pure, Except.ok.injEq] at h1
      exact ⟨p, nth_ok.1 hn, h1 ▸ h2⟩
  · rintro ⟨p, h1, h2⟩
    exact ⟨_, by simp only [nth_ok.2 h1, bind, Except.bind, pure, Except.pure], h2⟩

theorem withPatches_total {f : Fmt} {l : Option (List (Nat × Nat))} {L : List Text}
    (h : ∀ x, l = some x → x.length = L.length) : ∃ L', withPatches f l L = .ok L' := by
  cases l with
  | none => exact ⟨L, rfl⟩
  | some l =>
    refine mapM_total (fun k t => do let p ← nth l k; return t ++ ["     - Patch shape: " ++ f.pair p]) L fun k t ht => ?_
    have hk : k < l.length := by
      rw [h l rfl]
      exact (List.getElem?_eq_some_iff.1 ht).1
    exact ⟨_, by rw [nth_lt hk]; rfl⟩

/-! ### Blocks of the same length -/

theorem flatten_inj {α : Type} (c : Nat) (hc : 0 < c) : ∀ (L L' : List (List α)), (∀ t ∈ L, t.length = c) →
    (∀ t ∈ L', t.length = c) → L.flatten = L'.flatten → L = L'
  | [], [], _, _, _ => rfl
  | [], t :: L', _, h', h => by
    have h1 := congrArg List.length h
    have h2 := h' t (by simp)
    rw [List.flatten_cons, List.length_append] at h1
    simp only [List.flatten_nil, List.length_nil] at h1
    omega
  | t :: L, [], h', _, h => by
    have h1 := congrArg List.length h
    have h2 := h' t (by simp)
    rw [List.flatten_cons, List.length_append] at h1
    simp only [List.flatten_nil, List.length_nil] at h1
    omega
  | t :: L, t' :: L', h1, h2, h => by
    rw [List.flatten_cons, List.flatten_cons] at h
    obtain ⟨h3, h4⟩ := List.append_inj h (by rw [h1 t (by simp), h2 t' (by simp)])
    rw [h3, flatten_inj c hc L L' (fun x hx => h1 x (by simp [hx])) (fun x hx => h2 x (by simp [hx])) h4]

theorem blocks_inj {c : Nat} (hc : 0 < c) {L L' : List Text} {x : String} (h1 : ∀ t ∈ L, t.length = c)
    (h2 : ∀ t ∈ L', t.length = c) (h : L.flatten ++ [x] = L'.flatten ++ [x]) : L = L' :=
  flatten_inj c hc L L' h1 h2 (List.append_cancel_right h)

theorem list_eq {α β : Type} (v : α → β) {l l' : List α} {N : Nat} (h1 : l.length = N) (h2 : l'.length = N)
    (h : ∀ k, k < N → ∀ x y, l[k]? = some x → l'[k]? = some y → v x = v y) : l.map v = l'.map v := by
  apply List.ext_getElem
  · simp [h1, h2]
  · intro k hk hk'
    rw [List.length_map] at hk hk'
    rw [List.getElem_map, List.getElem_map]
    exact h k (h1 ▸ hk) _ _ (List.getElem?_eq_getElem hk) (List.getElem?_eq_getElem hk')

theorem mem_getElem? {α : Type} {l : List α} {x : α} (h : x ∈ l) : ∃ k, k < l.length ∧ l[k]? = some x := by
  obtain ⟨k, hk, rfl⟩ := List.mem_iff_getElem.1 h
  exact ⟨k, hk, List.getElem?_eq_getElem hk⟩

theorem lookup {α : Type} {l : List α} {N k : Nat} (h : l.length = N) (hk : k < N) : ∃ x, l[k]? = some x :=
  ⟨l[k]'(h ▸ hk), List.getElem?_eq_getElem _⟩

/-! ### Lines -/

theorem line_ne {p q a b : String} (h : p.toList.take 5 ≠ q.toList.take 5) (hp : 5 ≤ p.toList.length)
    (hq : 5 ≤ q.toList.length) : p ++ a ≠ q ++ b := by
  intro e
  apply h
  have e1 := congrArg (fun s : String => s.toList.take 5) e
  simp only [String.toList_append, List.take_append] at e1
  rw [Nat.sub_eq_zero_of_le hp, Nat.sub_eq_zero_of_le hq] at e1
  simpa using e1

theorem patch_ne_scale (a b : String) : "     - Patch shape: " ++ a ≠ "   - Scale " ++ b :=
  line_ne (by decide) (by decide) (by decide)

theorem patch_ne_empty (a : String) : "     - Patch shape: " ++ a ≠ "" := by
  intro e
  have := congrArg (fun s : String => s.toList.length) e
  simp at this

theorem transformLine_inj {s t : Option String} (h : transformLine s = transformLine t) : s = t := by
  have ne : ∀ x : String, "Images warped with " ++ x ++ " transform" ≠ "No image warping performed" := by
    intro x e
    rw [String.append_assoc] at e
    exact line_ne (p := "Images warped with ") (q := "No image warping performed") (b := "") (by decide) (by decide)
      (by decide) (e.trans (by simp))
  match s, t with
  | none, none => rfl
  | some a, none => exact absurd h (ne a)
  | none, some a => exact absurd h.symm (ne a)
  | some a, some b =>
    unfold transformLine at h
    simpa using h

theorem times_inj {f : Fmt} (hb : NoBlanks f) {a b a' b' : Nat} (pre : String)
    (h : pre ++ f.num a ++ " x " ++ f.num b = pre ++ f.num a' ++ " x " ++ f.num b') :
    f.num a = f.num a' ∧ f.num b = f.num b' := by
  rw [String.append_assoc, String.append_assoc, String.append_assoc, String.append_assoc, String.append_right_inj] at h
  have h1 := congrArg String.toList h
  simp only [String.toList_append] at h1
  have e : " x ".toList = ' ' :: 'x' :: ' ' :: [] := by decide
  rw [e] at h1
  simp only [List.cons_append, List.nil_append] at h1
  have h2 : ∀ (x x' z z' : List Char), ' ' ∉ x → ' ' ∉ x' → x ++ ' ' :: z = x' ++ ' ' :: z' → x = x' ∧ z = z' := by
    intro x x' z z' hx hx' e
    induction x generalizing x' with
    | nil =>
      cases x' with
      | nil => simpa using e
      | cons c r =>
        simp only [List.nil_append, List.cons_append, List.cons.injEq] at e
        exact absurd (e.1 ▸ List.mem_cons_self) hx'
    | cons c r ih =>
      cases x' with
      | nil =>
        simp only [List.nil_append, List.cons_append, List.cons.injEq] at e
        exact absurd (e.1 ▸ List.mem_cons_self) hx
      | cons c' r' =>
        simp only [List.cons_append, List.cons.injEq] at e
        obtain ⟨h3, h4⟩ := ih r' (fun hm => hx (List.mem_cons_of_mem _ hm)) (fun hm => hx' (List.mem_cons_of_mem _ hm)) e.2
        exact ⟨by rw [e.1, h3], h4⟩
  obtain ⟨h3, h4⟩ := h2 _ _ _ _ (hb a) (hb a') h1
  simp only [List.cons.injEq, true_and] at h4
  exact ⟨String.ext h3, String.ext h4⟩

theorem showBool_inj {a b : Bool} (h : showBool a = showBool b) : a = b := by
  revert h; revert a b; decide

theorem addText_end (l : List String) (x r0 : String) (r : Text) : addText (l ++ [x]) (r0 :: r) = l ++ (x ++ r0) :: r := by
  induction l with
  | nil => rfl
  | cons a l ih =>
    cases l with
    | nil => simp only [List.cons_append, List.nil_append, addText] at ih ⊢
    | cons b l => simp only [List.cons_append, addText] at ih ⊢; rw [ih]

/-- Texts that begin with the same text (not empty) go on in the same way. -/
theorem addText_inj {t : Text} (ht : t ≠ []) {r0 r0' : String} {r r' : Text}
    (h : addText t (r0 :: r) = addText t (r0' :: r')) : r0 = r0' ∧ r = r' := by
  obtain ⟨l, x, rfl⟩ : ∃ l x, t = l ++ [x] := ⟨t.dropLast, t.getLast ht, (List.dropLast_append_getLast ht).symm⟩
  rw [addText_end, addText_end] at h
  simpa using List.append_cancel_left h

theorem diagonal_eq (d : Option ℝ) (r : ℝ × ℝ) : shownDiagonal d r = scaledTo d r := by
  unfold shownDiagonal scaledTo
  cases d with
  | some d => rfl
  | none =>
    dsimp only
    rw [Option.getD_none, Complex.norm_def, Complex.normSq_mk]
    congr 1
    ring

end Print
end Menpofit
