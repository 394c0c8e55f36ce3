import Verif.Model.Checks
import Verif.Spec.Checks
import Verif.Lemmas.Checks
/-!
# Properties of the argument checks (C01–C06)
-/

namespace Menpofit
open Checks Spec

/-! ## C01 -/

/-- **C01** (shape of the result).  Whatever is passed as `scales`, a successful
check returns the numbers occurring in it from left to right; this list is not
empty and contains only numbers. -/
theorem C01_check_scales_result (v : Py) (r : List Py) (h : checkScales v = .ok r) :
    r = numbersIn v ∧ r ≠ [] ∧ ∀ x ∈ r, x.isNumber = true := by
  obtain ⟨h1, h2⟩ := checkScales_leaves v r h
  exact ⟨h1, h2, fun x hx => numbersIn_isNumber v x (h1 ▸ hx)⟩

example : checkScales (.tuple [.list [.int 1, .float (1/2)], .int 1]) =
    .ok [.int 1, .float (1/2), .int 1] := by
  simp [checkScales, checkScalesSeq, Py.isNumber, bind, Except.bind, pure, Except.pure]

/-- **C01** (accepted values).  A bare number and every non-empty flat list or
tuple of numbers is accepted and returned as the same numbers in the same
order; an empty sequence raises `ValueError`. -/
theorem C01_check_scales_accepts :
    (∀ v : Py, v.isNumber = true → checkScales v = .ok [v]) ∧
    (∀ l : List Py, l ≠ [] → (∀ x ∈ l, x.isNumber = true) →
      checkScales (.list l) = .ok l ∧ checkScales (.tuple l) = .ok l) ∧
    checkScales (.list []) = .error .valueError ∧
    checkScales (.tuple []) = .error .valueError := by
  have num : ∀ v : Py, v.isNumber = true → checkScales v = .ok [v] := by
    intro v hv
    cases v <;> simp [Py.isNumber] at hv <;> simp [checkScales]
  have seq : ∀ l : List Py, l ≠ [] → (∀ x ∈ l, x.isNumber = true) →
      checkScalesSeq l = .ok l := by
    intro l
    induction l with
    | nil => intro h; exact absurd rfl h
    | cons x r ih =>
      intro _ hx
      cases r with
      | nil => simp [checkScalesSeq, hx x (by simp)]
      | cons y t =>
        have h1 := num x (hx x (by simp))
        have h2 := ih (by simp) (fun z hz => hx z (by simp [List.mem_cons.mp hz]))
        rw [checkScalesSeq, h1, h2]; rfl
  refine ⟨num, fun l hl hx => ?_, ?_, ?_⟩
  · simp only [checkScales]; exact ⟨seq l hl hx, seq l hl hx⟩
  · simp [checkScales, checkScalesSeq]
  · simp [checkScales, checkScalesSeq]

example : ([.float (1/4), .float (1/2), .int 1] : List Py) ≠ [] ∧
    ∀ x ∈ ([.float (1/4), .float (1/2), .int 1] : List Py), x.isNumber = true := by
  simp [Py.isNumber]

/-! ## C02 -/

open Classical in
/-- **C02** (features).  A single callable is used at every scale.  A list or
tuple is accepted exactly when it has 1 or `n` entries, all callable, and then
yields one callable per scale; otherwise `ValueError`. -/
theorem C02_check_callable (n : Nat) :
    (∀ f : Py, Callable f → checkCallable f n = .ok (List.replicate n f)) ∧
    (∀ l : List Py,
      checkCallable (.list l) n =
        (if LengthOk n l ∧ (∀ f ∈ l, Callable f) then .ok (perScale n l)
         else .error .valueError) ∧
      checkCallable (.tuple l) n = checkCallable (.list l) n) ∧
    (∀ (v : Py) (out : List Py), checkCallable v n = .ok out →
      out.length = n ∧ ∀ f ∈ out, Callable f) := by
  simp only [← isCallable_iff]
  have hall : ∀ l : List Py, (l.all Py.isCallable = true) ↔ ∀ f ∈ l, f.isCallable = true := by
    intro l; simp
  refine ⟨fun f hf => by simp [checkCallable, hf], fun l => ⟨?_, rfl⟩, ?_⟩
  · have := expand_or_error n l (l.all Py.isCallable = true) .valueError
    have hf : (Py.list l).isCallable = false := rfl
    simp only [checkCallable, hf, Py.elems?, Bool.false_eq_true, if_false]
    rw [this]; simp only [hall]
  · intro v out h
    unfold checkCallable at h
    split at h
    · next hv =>
      injection h with h; subst h
      refine ⟨by simp, ?_⟩
      intro f hf; rw [List.eq_of_mem_replicate hf]; exact hv
    · split at h
      · cases h
      · next l _ =>
        rw [expand_or_error n l (l.all Py.isCallable = true) .valueError] at h
        split at h
        · next hl =>
          injection h with h; subst h
          refine ⟨perScale_length n l hl.1, ?_⟩
          intro f hf
          have hl2 := (hall l).mp hl.2
          match l, hl, hl2, hf with
          | [], _, _, hf => simp [perScale] at hf
          | [x], _, hl2, hf => rw [List.eq_of_mem_replicate hf]; exact hl2 x (by simp)
          | _ :: _ :: _, _, hl2, hf => exact hl2 f hf
        · cases h

example : checkCallable (.tuple [.callable 1, .callable 2]) 2 =
    .ok [.callable 1, .callable 2] := by
  simp [checkCallable, Py.isCallable, Py.elems?]

open Classical in
/-- **C02** (generic multi-scale options). `isT` is the type test; the option
itself must not be a list or tuple type. -/
theorem C02_check_multi_scale_param (n : Nat) (isT : Py → Bool) :
    (∀ v : Py, isT v = true → checkMultiScaleParam n isT v = .ok (List.replicate n v)) ∧
    (∀ l : List Py, isT (.list l) = false →
      checkMultiScaleParam n isT (.list l) =
        (if LengthOk n l ∧ (∀ x ∈ l, isT x = true) then .ok (perScale n l)
         else .error .valueError)) ∧
    (∀ l : List Py, isT (.tuple l) = false →
      checkMultiScaleParam n isT (.tuple l) =
        (if LengthOk n l ∧ (∀ x ∈ l, isT x = true) then .ok (perScale n l)
         else .error .valueError)) ∧
    (∀ v : Py, isT v = false → v.elems? = none →
      checkMultiScaleParam n isT v = .error .valueError) := by
  have hall : ∀ l : List Py, (l.all isT = true) ↔ ∀ f ∈ l, isT f = true := by
    intro l; simp
  refine ⟨fun v hv => by simp [checkMultiScaleParam, hv], fun l hl => ?_, fun l hl => ?_,
    fun v hv he => by simp [checkMultiScaleParam, hv, he]⟩
  all_goals
    have := expand_or_error n l (l.all isT = true) .valueError
    simp only [checkMultiScaleParam, hl, Py.elems?, Bool.false_eq_true, if_false]
    rw [this]; simp only [hall]

example : checkMultiScaleParam 3 Py.isInt (.list [.int 7]) =
    .ok [.int 7, .int 7, .int 7] := by
  simp [checkMultiScaleParam, Py.isInt, Py.elems?, List.replicate, List.flatten]

open Classical in
/-- **C02** (maximum components).  A value that is not a list or tuple is used at
every scale if it is `None` or a number; a list or tuple is accepted exactly
when it has 1 or `n` entries, all `None` or numbers.  In the degenerate case of
zero scales nothing is left to validate. -/
theorem C02_check_max_components (n : Nat) (hn : 0 < n) :
    (∀ v : Py, v.isListOrTuple = false →
      checkMaxComponents v n =
        (if isLimit v then .ok (List.replicate n v) else .error .valueError)) ∧
    (∀ l : List Py,
      checkMaxComponents (.list l) n =
        (if LengthOk n l ∧ (∀ c ∈ l, isLimit c) then .ok (perScale n l)
         else .error .valueError) ∧
      checkMaxComponents (.tuple l) n = checkMaxComponents (.list l) n) := by
  have hlim : ∀ c : Py, (c.isNone || c.isInt || c.isFloat) = true ↔ isLimit c := by
    intro c; simp [isLimit, or_assoc]
  have hall : ∀ l : List Py,
      (l.all fun c => c.isNone || c.isInt || c.isFloat) = true ↔ ∀ c ∈ l, isLimit c := by
    intro l; simp only [List.all_eq_true, hlim]
  have hrep : ∀ x : Py, (∀ c ∈ rep n x, isLimit c) ↔ isLimit x := by
    intro x; constructor
    · intro h; exact h x (by simp [rep]; omega)
    · intro h c hc; rw [List.eq_of_mem_replicate hc]; exact h
  have single : ∀ x : Py, (do
      let l ← (.ok (rep n x) : Except PyErr (List Py))
      if l.all fun c => c.isNone || c.isInt || c.isFloat then return l
      else .error .valueError : Except PyErr (List Py)) =
      if isLimit x then .ok (List.replicate n x) else .error .valueError := by
    intro x
    show (if (rep n x).all (fun c => c.isNone || c.isInt || c.isFloat) = true
      then (.ok (rep n x) : Except PyErr (List Py)) else .error .valueError) = _
    simp only [hall, hrep]
  refine ⟨fun v hv => ?_, fun l => ⟨?_, ?_⟩⟩
  · rw [← single v]
    cases v <;> first | rfl | simp [Py.isListOrTuple] at hv
  · match l with
    | [x] =>
      have := single x
      simp only [checkMaxComponents]
      rw [this]
      simp [LengthOk, perScale]
    | [] =>
      simp only [checkMaxComponents]
      by_cases h : (0 : Nat) = n
      · omega
      · simp [h, LengthOk, bind, Except.bind]
    | a :: b :: r =>
      simp only [checkMaxComponents]
      by_cases h : (a :: b :: r).length = n
      · rw [if_pos h]
        show (if (a :: b :: r).all (fun c => c.isNone || c.isInt || c.isFloat) = true
          then (.ok (a :: b :: r) : Except PyErr (List Py)) else .error .valueError) = _
        simp only [hall]
        simp [LengthOk, perScale, h]
      · rw [if_neg h]
        simp only [LengthOk, h]
        simp [bind, Except.bind]
  · match l with
    | [] => rfl
    | [x] => rfl
    | _ :: _ :: _ => rfl

example : checkMaxComponents (.list [.none, .int 5, .float (9/10)]) 3 =
    .ok [.none, .int 5, .float (9/10)] := by
  simp [checkMaxComponents, Py.isNone, Py.isInt, Py.isFloat, bind, Except.bind, pure, Except.pure]

open Classical in
/-- **C02** (graphs).  Anything but a list is used at every scale; a list is
accepted exactly when it has 1 or `n` entries; every graph must be `None` or of
an allowed type. -/
theorem C02_check_graph (n : Nat) (hn : 0 < n) (tyOk : Py → Bool) :
    (∀ v : Py, (∀ l, v ≠ .list l) →
      checkGraph tyOk v n =
        (if v.isNone = true ∨ tyOk v = true then .ok (List.replicate n v)
         else .error .valueError)) ∧
    (∀ l : List Py, checkGraph tyOk (.list l) n =
        (if LengthOk n l ∧ (∀ g ∈ l, g.isNone = true ∨ tyOk g = true) then .ok (perScale n l)
         else .error .valueError)) := by
  have hall : ∀ l : List Py,
      (l.all fun g => g.isNone || tyOk g) = true ↔ ∀ g ∈ l, g.isNone = true ∨ tyOk g = true := by
    intro l; simp
  have hrep : ∀ x : Py, (∀ c ∈ List.replicate n x, c.isNone = true ∨ tyOk c = true) ↔
      (x.isNone = true ∨ tyOk x = true) := by
    intro x; constructor
    · intro h; exact h x (by simp; omega)
    · intro h c hc; rw [List.eq_of_mem_replicate hc]; exact h
  have fin : ∀ l : List Py, (do
      let l ← (.ok l : Except PyErr (List Py))
      if l.all fun g => g.isNone || tyOk g then return l
      else .error .valueError : Except PyErr (List Py)) =
      if (∀ g ∈ l, g.isNone = true ∨ tyOk g = true) then .ok l else .error .valueError := by
    intro l
    show (if l.all (fun g => g.isNone || tyOk g) = true
      then (.ok l : Except PyErr (List Py)) else .error .valueError) = _
    simp only [hall]
  refine ⟨fun v hv => ?_, fun l => ?_⟩
  · have h1 := fin (rep n v)
    have : checkGraph tyOk v n = (do
      let l ← (.ok (rep n v) : Except PyErr (List Py))
      if l.all fun g => g.isNone || tyOk g then return l
      else .error .valueError : Except PyErr (List Py)) := by
      cases v <;> first | rfl | (exfalso; exact hv _ rfl)
    rw [this, h1]; simp only [hrep]
  · match l with
    | [x] =>
      have h1 := fin ((rep n [x]).flatten)
      rw [flatten_rep_single n [x] rfl] at h1
      simp only [perScale, hrep] at h1
      simp only [checkGraph]
      rw [if_pos (show [x].length = 1 from rfl), flatten_rep_single n [x] rfl]
      simp only [perScale]
      rw [h1]; simp [LengthOk]
    | [] =>
      have : (0 : Nat) ≠ n := by omega
      simp [checkGraph, LengthOk, this, bind, Except.bind]
    | a :: b :: r =>
      have h1 := fin (a :: b :: r)
      have h3 : (a :: b :: r).length ≠ 1 := by simp
      simp only [checkGraph]
      rw [if_neg h3]
      by_cases h : (a :: b :: r).length = n
      · rw [if_pos h, h1]; simp [LengthOk, h, perScale]
      · rw [if_neg h]
        simp only [LengthOk, h, h3]
        simp [bind, Except.bind]

example : checkGraph (fun _ => true) (.list [.obj 1 1, .none]) 2 = .ok [.obj 1 1, .none] := by
  simp [checkGraph, bind, Except.bind, pure, Except.pure]

/-- **C02** (algorithm classes).  On success there is exactly one class per scale
and all derive from the base class, whatever nesting was passed; a single class
is used everywhere, a list of 1 or `n` classes is expanded, a list of another
length raises `ValueError`. -/
theorem C02_check_algorithm_cls (base n : Nat) :
    (∀ (v : Py) (out : List Py), checkAlgorithmCls base v n = .ok out →
      out.length = n ∧ ∀ a ∈ out, IsAlgorithm base a) ∧
    (∀ a : Py, IsAlgorithm base a → checkAlgorithmCls base a n = .ok (List.replicate n a)) ∧
    (∀ l : List Py, (∀ a ∈ l, IsAlgorithm base a) → LengthOk n l →
      checkAlgorithmCls base (.list l) n = .ok (perScale n l) ∧
      checkAlgorithmCls base (.tuple l) n = .ok (perScale n l)) ∧
    (∀ l : List Py, ¬ LengthOk n l →
      checkAlgorithmCls base (.list l) n = .error .valueError ∧
      checkAlgorithmCls base (.tuple l) n = .error .valueError) := by
  have hsingle : ∀ a : Py, IsAlgorithm base a →
      checkAlgorithmCls base a n = .ok (List.replicate n a) := by
    intro a ha
    cases a <;> simp [IsAlgorithm] at ha <;> simp [checkAlgorithmCls, ha]
  refine ⟨fun v out h => algo_len base v n out h, hsingle, fun l hl hlen => ?_, fun l hlen => ?_⟩
  · have : checkAlgorithmSeq base l n = .ok (perScale n l) := by
      match l with
      | [x] => rw [checkAlgorithmSeq]; exact hsingle x (hl x (by simp))
      | [] =>
        have h0 : (0 : Nat) = n := by simpa [LengthOk] using hlen
        simp [checkAlgorithmSeq, h0.symm, checkAlgorithmEach, perScale]
      | a :: b :: r =>
        have h0 : (a :: b :: r).length = n := by
          rcases hlen with h | h
          · simp at h
          · exact h
        simp only [checkAlgorithmSeq]
        rw [if_pos h0, algo_each base _ hl]; rfl
    simp only [checkAlgorithmCls]; exact ⟨this, this⟩
  · have : checkAlgorithmSeq base l n = .error .valueError := by
      match l with
      | [x] => exact absurd (Or.inl rfl) hlen
      | [] =>
        have h0 : (0 : Nat) ≠ n := by intro h; exact hlen (Or.inr h)
        simp [checkAlgorithmSeq, h0]
      | a :: b :: r =>
        have h0 : (a :: b :: r).length ≠ n := fun h => hlen (Or.inr h)
        simp only [checkAlgorithmSeq]
        rw [if_neg h0]
    simp only [checkAlgorithmCls]; exact ⟨this, this⟩

example : IsAlgorithm 7 (.cls [9, 7, 0]) ∧
    checkAlgorithmCls 7 (.list [.cls [9, 7, 0], .partialCls [7]]) 2 =
      .ok [.cls [9, 7, 0], .partialCls [7]] := by
  constructor
  · simp [IsAlgorithm]
  · simp [checkAlgorithmCls, checkAlgorithmSeq, checkAlgorithmEach, bind, Except.bind,
      pure, Except.pure]

/-! ## C03 -/

/-- The patch shape `(h, w)`. -/
def pair (p : Int × Int) : PatchArg := .seq [.int p.1, .int p.2]

/-- **C03** is violated: a one-element list holding a patch shape is accepted for
two scales but yields only one entry, so the second scale has no patch shape. -/
theorem C03_patch_shape_violated :
    ∃ (v : PatchArg) (n : Nat) (out : List PatchArg),
      v = .seq [pair (17, 17)] ∧ n = 2 ∧ checkPatchShape v n = .ok out ∧ out.length ≠ n := by
  refine ⟨_, _, [pair (17, 17)], rfl, rfl, ?_, by simp⟩
  simp [pair, checkPatchShape, checkPatchShapeSeq, PatchArg.isInt]

/-- In fact a one-element list always yields one entry, whatever the number of
scales. -/
theorem C03_patch_shape_violated_all (p : Int × Int) (n : Nat) :
    checkPatchShape (.seq [pair p]) n = .ok [pair p] := by
  simp [pair, checkPatchShape, checkPatchShapeSeq, PatchArg.isInt]

/-- **C03, partial.**  A single `(h, w)` is repeated for every scale and a list of
`n_scales` patch shapes is returned entry by entry; both have exactly `n_scales`
entries.  Missing: one-element lists for more than one scale (violated above). -/
theorem C03_patch_shape_partial (n : Nat) (_hn : 1 ≤ n) :
    (∀ p : Int × Int, checkPatchShape (pair p) n = .ok (List.replicate n (pair p))) ∧
    (∀ l : List (Int × Int), l.length = n →
      checkPatchShape (.seq (l.map pair)) n = .ok (l.map pair)) ∧
    (∀ l : List (Int × Int), l.length ≠ n → l.length ≠ 1 →
      checkPatchShape (.seq (l.map pair)) n = .error .valueError) := by
  refine ⟨fun p => ?_, fun l hl => ?_, fun l hl h1 => ?_⟩
  · simp [pair, checkPatchShape, checkPatchShapeSeq, PatchArg.isInt]
  · have hne : l ≠ [] := by intro h; subst h; simp at hl; omega
    rw [checkPatchShape, ← hl]
    exact patch_pairs l hne
  · rw [checkPatchShape]
    match l with
    | [] => simp [checkPatchShapeSeq]; omega
    | [x] => exact absurd rfl h1
    | x :: y :: r =>
      simp only [List.map_cons]
      rw [checkPatchShapeSeq]
      rw [if_neg (by simp [pair, PatchArg.isInt]), if_neg (by simpa using hl)]

example : checkPatchShape (.seq ([(17, 17), (9, 11), (5, 5)].map pair)) 3 =
    .ok ([(17, 17), (9, 11), (5, 5)].map pair) :=
  (C03_patch_shape_partial 3 (by omega)).2.1 _ rfl

/-- **C03.**  A number is not a patch shape: alone, or as an entry of a list with one entry per
scale, it is refused with `TypeError` instead of being taken for a square. -/
theorem C03_number_refused (n : Nat) (k : Int) (x : Nat) (l : List (Int × Int)) :
    checkPatchShape (.int k) n = .error .typeError ∧
    checkPatchShape (.scalar x) n = .error .typeError ∧
    checkPatchShape (.seq [.int k]) n = .error .typeError ∧
    (1 ≤ l.length → n = l.length + 1 →
      checkPatchShape (.seq (l.map pair ++ [.int k])) n = .error .typeError) := by
  refine ⟨by simp [checkPatchShape], by simp [checkPatchShape],
    by simp [checkPatchShape, checkPatchShapeSeq], ?_⟩
  intro hl hn
  subst hn
  rw [checkPatchShape]
  induction l with
  | nil => simp at hl
  | cons a l ih =>
    cases l with
    | nil => simp [pair, checkPatchShape, checkPatchShapeSeq, PatchArg.isInt, bind, Except.bind, rep,
        pure, Except.pure]
    | cons b l =>
      have ih := ih (by simp)
      simp only [List.map_cons, List.cons_append] at ih ⊢
      rw [checkPatchShapeSeq]
      rw [if_neg (by simp [pair, PatchArg.isInt]), if_pos (by simp)]
      simp only [List.length_cons, Nat.add_sub_cancel] at ih ⊢
      rw [ih]
      simp [pair, checkPatchShape, checkPatchShapeSeq, PatchArg.isInt, bind, Except.bind]

example : checkPatchShape (.seq [pair (17, 17), pair (9, 9), .int 5]) 3 = .error .typeError :=
  (C03_number_refused 3 5 0 [(17, 17), (9, 9)]).2.2.2 (by decide) rfl

/-! ## C04 -/

/-- The full budget property: equal non-negative budgets adding up to `m`. -/
def SplitsBudget (m : Int) (n : Nat) (out : List Int) : Prop :=
  out.length = n ∧ (∀ x ∈ out, 0 ≤ x ∧ ∀ y ∈ out, x = y) ∧ out.sum = m

/-- **C04** is violated in both directions: 3 iterations over 2 scales become 4,
and 1 iteration over 2 scales becomes none at all. -/
theorem C04_max_iters_violated :
    (∃ out, checkMaxIters (.int 3) 2 = .ok out ∧ out.sum = 4) ∧
    (∃ out, checkMaxIters (.int 1) 2 = .ok out ∧ out.sum = 0) ∧
    (∃ m n out, 0 ≤ m ∧ 1 ≤ n ∧ checkMaxIters (.int m) n = .ok out ∧ ¬ SplitsBudget m n out) := by
  have h3 : npRound ((3 : Rat) / 2) = 2 :=
    nearestEven_unique _ _ _ (npRound_spec _) ⟨by norm_num [abs_le], fun _ => by decide⟩
  have h1 : npRound ((1 : Rat) / 2) = 0 :=
    nearestEven_unique _ _ _ (npRound_spec _) ⟨by norm_num [abs_le], fun _ => by decide⟩
  refine ⟨⟨[2, 2], ?_, rfl⟩, ⟨[0, 0], ?_, rfl⟩, ⟨3, 2, [2, 2], by norm_num, by norm_num, ?_, ?_⟩⟩
  · simp only [checkMaxIters]; norm_num [h3, List.replicate]
  · simp only [checkMaxIters]; norm_num [h1, List.replicate]
  · simp only [checkMaxIters]; norm_num [h3, List.replicate]
  · intro h; have := h.2.2; simp at this

/-- **C04, partial.**  An integer budget is split into `n` equal budgets, each the
integer nearest to `m / n` (the even one if two are equally near), so the total
is off by at most half an iteration per scale, and is exact when `n` divides `m`;
a one-element list behaves like its element; a list with one entry per scale is
used as given; any other list raises `ValueError`.
Missing: the total may exceed or fall short of `m` when `n ∤ m`. -/
theorem C04_max_iters_partial (n : Nat) (hn : 1 ≤ n) :
    (∀ m : Int, ∃ k : Int, NearestEven ((m : Rat) / n) k ∧
      checkMaxIters (.int m) n = .ok (List.replicate n k) ∧
      |((n * k - m : Int) : Rat)| ≤ n / 2 ∧
      (0 ≤ m → 0 ≤ k) ∧
      ((n : Int) ∣ m → n * k = m)) ∧
    (∀ m : Int, 1 < n → checkMaxIters (.seq [(m : Rat)]) n = checkMaxIters (.int m) n) ∧
    (∀ l : List Int, l.length = n →
      checkMaxIters (.seq (l.map fun (i : Int) => (i : Rat))) n = .ok l) ∧
    (∀ l : List Rat, l.length ≠ 1 → l.length ≠ n →
      checkMaxIters (.seq l) n = .error .valueError) := by
  have hn0 : (0 : Rat) < n := by exact_mod_cast hn
  refine ⟨fun m => ?_, fun m h => ?_, fun l hl => ?_, fun l h1 h2 => ?_⟩
  · have hs := npRound_spec ((m : Rat) / n)
    refine ⟨npRound ((m : Rat) / n), hs, rfl, ?_, ?_, ?_⟩
    · have h := abs_le.mp hs.1
      have e : (m : Rat) = n * ((m : Rat) / n) := by field_simp
      push_cast
      rw [abs_le]
      constructor
      · nlinarith
      · nlinarith
    · intro hm
      have h := abs_le.mp hs.1
      have hq : (0 : Rat) ≤ (m : Rat) / n := div_nonneg (by exact_mod_cast hm) hn0.le
      have : (-1 : Rat) < npRound ((m : Rat) / n) := by linarith
      have : (-1 : Int) < npRound ((m : Rat) / n) := by exact_mod_cast this
      omega
    · rintro ⟨c, rfl⟩
      have e : (((n : Int) * c : Int) : Rat) / n = c := by push_cast; field_simp
      rw [e] at hs ⊢
      have : npRound (c : Rat) = c :=
        nearestEven_unique _ _ _ (npRound_spec _) ⟨by norm_num, fun h => by norm_num at h⟩
      rw [this]
  · simp [checkMaxIters, h]
  · have : ¬ ((l.map fun (i : Int) => (i : Rat)).length = 1 ∧ n > 1) := by
      rintro ⟨a, b⟩; simp at a; omega
    simp only [checkMaxIters]
    rw [if_neg this, if_neg (by simpa using hl)]
    congr 1
    rw [List.map_map]
    have : (truncToInt ∘ fun (i : Int) => (i : Rat)) = id := by
      funext i; simp [truncToInt]
    rw [this, List.map_id]
  · simp [checkMaxIters, h1, h2]

/-- **C04.**  A list with one entry per scale may hold fractions.  Each is cut to the integer
between it and zero, so no scale ever gets more iterations than were asked for it; something that
is neither a number nor a list raises `TypeError`. -/
theorem C04_fractions_cut (n : Nat) (l : List Rat) (hl : l.length = n) :
    (∃ out, checkMaxIters (.seq l) n = .ok out ∧
      List.Forall₂ (fun (q : Rat) (k : Int) => |(k : Rat)| ≤ |q| ∧ |q - k| < 1) l out) ∧
    checkMaxIters .unsized n = .error .typeError := by
  refine ⟨⟨l.map truncToInt, ?_, ?_⟩, rfl⟩
  · have : ¬ (l.length = 1 ∧ n > 1) := by rintro ⟨a, b⟩; omega
    simp only [checkMaxIters]
    rw [if_neg this, if_neg (by simpa using hl)]
  · rw [List.forall₂_map_right_iff]
    refine List.forall₂_same.2 fun q _ => ?_
    unfold truncToInt
    split
    · rename_i h
      have h1 := Int.floor_le q
      have h2 := Int.lt_floor_add_one q
      have h3 : (0 : Rat) ≤ (⌊q⌋ : Int) := by exact_mod_cast Int.floor_nonneg.2 h
      rw [abs_of_nonneg h3, abs_of_nonneg h, abs_of_nonneg (by linarith)]
      exact ⟨h1, by linarith⟩
    · rename_i h
      push Not at h
      have h1 := Int.le_ceil q
      have h2 := Int.ceil_lt_add_one q
      have h3 : ((⌈q⌉ : Int) : Rat) ≤ 0 := by exact_mod_cast Int.ceil_le.2 (by simpa using h.le)
      rw [abs_of_nonpos h3, abs_of_nonpos h.le, abs_of_nonpos (by linarith)]
      exact ⟨by linarith, by linarith⟩

example : ∃ out, checkMaxIters (.seq [5 / 2, -3 / 2]) 2 = .ok out ∧
    List.Forall₂ (fun (q : Rat) (k : Int) => |(k : Rat)| ≤ |q| ∧ |q - k| < 1) [5 / 2, -3 / 2] out :=
  (C04_fractions_cut 2 [5 / 2, -3 / 2] rfl).1

example : checkMaxIters (.int 20) 2 = .ok [10, 10] := by
  obtain ⟨k, _, h2, _, _, h5⟩ := (C04_max_iters_partial 2 (by omega)).1 20
  have : k = 10 := by have := h5 ⟨10, by norm_num⟩; omega
  rw [h2, this]; rfl

/-! ## C05 -/

/-- The sampling values promised by the documentation for one scale. -/
def DocSampling : Py → Prop
  | .none | .int _ | .npInt _ | .ndarray _ => True
  | _ => False

/-- **C05** is violated: a plain Python integer, and lists containing `None` or
plain integers, are rejected although documented. -/
theorem C05_sampling_violated :
    (∀ (k : Int) (n : Nat), checkSampling (.int k) n = .error .valueError) ∧
    (∀ (l : List Py) (n : Nat), (.none ∈ l ∨ ∃ k, .int k ∈ l) →
      checkSampling (.list l) n = .error .valueError) := by
  refine ⟨fun k n => ?_, fun l n h => ?_⟩
  · simp [checkSampling, Py.isListOrTuple, isSamplingElem, Py.isNone]
  · have hno : ¬ (l.all fun s => isSamplingElem s || (Py.list l).isNone) = true := by
      simp only [List.all_eq_true, not_forall]
      rcases h with h | ⟨k, h⟩
      · exact ⟨_, h, by simp [isSamplingElem, Py.isNone]⟩
      · exact ⟨_, h, by simp [isSamplingElem, Py.isNone]⟩
    unfold checkSampling
    rw [if_neg (fun hh => hno hh.2), if_neg (by simp [isSamplingElem, Py.isNone])]

open Classical in
/-- **C05, partial.**  `None`, a NumPy integer step or an index array is used at
every scale; a list of NumPy steps / index arrays with 1 or `n` entries is
expanded; any other list length raises `ValueError`.  Missing: plain `int` and
lists containing `None`. -/
theorem C05_sampling_partial (n : Nat) :
    checkSampling .none n = .ok (List.replicate n .none) ∧
    (∀ k, checkSampling (.npInt k) n = .ok (List.replicate n (.npInt k))) ∧
    (∀ a, checkSampling (.ndarray a) n = .ok (List.replicate n (.ndarray a))) ∧
    (∀ l : List Py, (∀ s ∈ l, (∃ k, s = .npInt k) ∨ ∃ a, s = .ndarray a) →
      checkSampling (.list l) n =
        (if LengthOk n l then .ok (perScale n l) else .error .valueError)) := by
  refine ⟨?_, fun k => ?_, fun a => ?_, fun l hl => ?_⟩
  · simp [checkSampling, Py.isListOrTuple, isSamplingElem, Py.isNone]
  · simp [checkSampling, Py.isListOrTuple, isSamplingElem, Py.isNone]
  · simp [checkSampling, Py.isListOrTuple, isSamplingElem, Py.isNone]
  · have hall : (l.all fun s => isSamplingElem s || (Py.list l).isNone) = true := by
      simp only [List.all_eq_true]
      intro s hs
      rcases hl s hs with ⟨k, rfl⟩ | ⟨a, rfl⟩ <;> simp [isSamplingElem]
    unfold checkSampling
    rw [if_pos ⟨rfl, hall⟩]
    have := expand_or_error n l True .valueError
    simp only [and_true] at this
    refine Eq.trans ?_ (this.trans ?_)
    · rfl
    by_cases hk : LengthOk n l <;> simp [hk]

example : checkSampling (.list [.npInt 2, .ndarray [0, 5]]) 2 =
    .ok [.npInt 2, .ndarray [0, 5]] := by
  simp [checkSampling, Py.isListOrTuple, Py.elems?, isSamplingElem]

/-! ## C06 -/

/-- **C06** (diagonal).  A diagonal is rejected exactly when it is given and below
20; otherwise it is returned unchanged. -/
theorem C06_check_diagonal (d : Option Rat) :
    ((∃ x, d = some x ∧ x < 20) → checkDiagonal d = .error .valueError) ∧
    ((d = none ∨ ∃ x, d = some x ∧ 20 ≤ x) → checkDiagonal d = .ok d) := by
  constructor
  · rintro ⟨x, rfl, h⟩; simp [checkDiagonal, h]
  · rintro (rfl | ⟨x, rfl, h⟩)
    · rfl
    · simp [checkDiagonal, not_lt.mpr h]

example : checkDiagonal (some 150) = .ok (some 150) :=
  (C06_check_diagonal _).2 (Or.inr ⟨150, rfl, by norm_num⟩)

/-- **C06** (active components), for models whose setter `upd` accepts the values.
`None` changes nothing; a number or a one-element list is set on every model; a
list with one entry per model is set entry by entry; a list of any other length
raises `ValueError` and changes nothing. -/
theorem C06_set_models_components {M : Type} (upd : M → Py → M) (models : List M) :
    let run := setModelsComponents (fun m v => .ok (upd m v)) models
    run .none = (models, none) ∧
    (∀ k, run (.int k) = (models.map (upd · (.int k)), none)) ∧
    (∀ q, run (.float q) = (models.map (upd · (.float q)), none)) ∧
    (∀ x, models ≠ [] → run (.list [x]) = (models.map (upd · x), none)) ∧
    (∀ l, l.length = models.length → run (.list l) = (List.zipWith upd models l, none)) ∧
    (∀ l, l.length ≠ 1 → l.length ≠ models.length →
      run (.list l) = (models, some .valueError)) := by
  have hm : ∀ v : Py, setAll (fun m v => .ok (upd m v)) (models.map fun m => (m, v)) =
      (models.map (upd · v), none) := by
    intro v; rw [setAll_total]; simp
  have hz : ∀ l : List Py, setAll (fun m v => .ok (upd m v)) (models.zip l) =
      (List.zipWith upd models l, none) := by
    intro l; rw [setAll_total, List.map_zip_eq_zipWith]; rfl
  refine ⟨rfl, fun k => hm _, fun q => hm _, fun x hx => ?_, fun l hl => ?_, fun l h1 h2 => ?_⟩
  · show (if [x].length = 1 ∧ models.length > 1 then _ else _) = _
    match models, hx with
    | [m], _ => rfl
    | a :: b :: r, _ =>
      rw [if_pos ⟨rfl, by simp⟩]; exact hm x
  · show (if l.length = 1 ∧ models.length > 1 then _ else _) = _
    rw [if_neg (by omega), if_pos hl]; exact hz l
  · show (if l.length = 1 ∧ models.length > 1 then _ else _) = _
    rw [if_neg (by omega), if_neg h2]

example : setModelsComponents (fun (_ : Py) v => .ok v) [.int 9, .int 9] (.list [.int 3, .float (1/2)]) =
    ([.int 3, .float (1/2)], none) :=
  (C06_set_models_components (fun _ v => v) [.int 9, .int 9]).2.2.2.2.1 _ rfl

/-! ## C09 -/

/-- A component limit in the documented range: `None`, an integer of at least 1,
or a float between 0 and 1. -/
def DocumentedLimit : Py → Prop
  | .none => True
  | .int k => 1 ≤ k
  | .float q => 0 ≤ q ∧ q ≤ 1
  | _ => False

/-- **C09** is violated: zero and negative component counts and floats outside
`[0, 1]` are accepted at every position and for every number of scales. -/
theorem C09_max_components_violated (n : Nat) (hn : 0 < n) :
    (∀ k : Int, k < 1 → checkMaxComponents (.int k) n = .ok (List.replicate n (.int k)) ∧
      ¬ DocumentedLimit (.int k)) ∧
    (∀ q : Rat, 1 < q → checkMaxComponents (.float q) n = .ok (List.replicate n (.float q)) ∧
      ¬ DocumentedLimit (.float q)) := by
  refine ⟨fun k hk => ⟨?_, by simp [DocumentedLimit]; omega⟩,
    fun q hq => ⟨?_, by simp [DocumentedLimit]; intro _; exact hq⟩⟩
  · rw [(C02_check_max_components n hn).1 _ rfl, if_pos (show isLimit (.int k) from Or.inr (Or.inl rfl))]
  · rw [(C02_check_max_components n hn).1 _ rfl, if_pos (show isLimit (.float q) from Or.inr (Or.inr rfl))]

/-- **C09, partial.**  Every documented value (alone or in a list of 1 or `n`
entries) is accepted; values that are not numbers or `None` are rejected.
Missing: the documented range is not enforced (violated above). -/
theorem C09_max_components_partial (n : Nat) (hn : 0 < n) :
    (∀ v : Py, DocumentedLimit v → checkMaxComponents v n = .ok (List.replicate n v)) ∧
    (∀ l : List Py, LengthOk n l → (∀ c ∈ l, DocumentedLimit c) →
      checkMaxComponents (.list l) n = .ok (perScale n l)) ∧
    (∀ l : List Py, (∃ c ∈ l, ¬ isLimit c) → checkMaxComponents (.list l) n = .error .valueError) := by
  have hd : ∀ v : Py, DocumentedLimit v → isLimit v := by
    intro v hv
    cases v <;> simp [DocumentedLimit, isLimit, Py.isNone, Py.isInt, Py.isFloat] at *
  refine ⟨fun v hv => ?_, fun l hl hc => ?_, fun l ⟨c, hc, hx⟩ => ?_⟩
  · have h1 : v.isListOrTuple = false := by
      cases v <;> simp [DocumentedLimit, Py.isListOrTuple] at *
    rw [(C02_check_max_components n hn).1 v h1, if_pos (hd v hv)]
  · rw [((C02_check_max_components n hn).2 l).1, if_pos ⟨hl, fun c h => hd c (hc c h)⟩]
  · rw [((C02_check_max_components n hn).2 l).1, if_neg (fun h => hx (h.2 c hc))]

example : checkMaxComponents (.float (1/2)) 2 = .ok [.float (1/2), .float (1/2)] :=
  (C09_max_components_partial 2 (by omega)).1 _ (by norm_num [DocumentedLimit])

end Menpofit
