import Verif.Model.Constructors
import Verif.Spec.Constructors
import Verif.Lemmas.Checks
/-!
# Lemmas about constructor options
-/

namespace Menpofit
namespace Ctor
open Checks Spec

theorem bind_iff {α β : Type} {x : Except PyErr α} {f : α → Except PyErr β} {r : β} :
    (x >>= f) = .ok r ↔ ∃ a, x = .ok a ∧ f a = .ok r := by
  cases x with
  | error e => simp [bind, Except.bind]
  | ok a => simp [bind, Except.bind]

theorem pure_iff {α : Type} {x r : α} : (pure x : Except PyErr α) = .ok r ↔ x = r := by
  simp [pure, Except.pure]

theorem scales_seq (l : List Py) (hne : l ≠ []) (h : ∀ x ∈ l, x.isNumber = true) :
    checkScalesSeq l = .ok l := by
  induction l with
  | nil => exact absurd rfl hne
  | cons x r ih =>
    have hx : x.isNumber = true := h x (by simp)
    cases r with
    | nil => simp [checkScalesSeq, hx]
    | cons y t =>
      have hn : checkScales x = .ok [x] := by
        cases x <;> simp [Py.isNumber] at hx <;> simp [checkScales]
      rw [checkScalesSeq, hn, ih (by simp) fun z hz => h z (List.mem_cons_of_mem _ hz)]
      rfl

theorem scales_given {v : Py} {s : List Py} (h : ScalesGiven v s) :
    checkScales v = .ok s ∧ 0 < s.length := by
  cases h with
  | number h => exact ⟨by cases v <;> simp [Py.isNumber] at h <;> simp [checkScales], by simp⟩
  | list hne h => exact ⟨by rw [checkScales]; exact scales_seq _ hne h, List.length_pos_of_ne_nil hne⟩
  | tuple hne h => exact ⟨by rw [checkScales]; exact scales_seq _ hne h, List.length_pos_of_ne_nil hne⟩

theorem rep_single {α : Type} (n : Nat) (x : α) : (rep n [x]).flatten = List.replicate n x := by
  simp [rep, List.flatten_replicate_singleton]

theorem diagonal_iff (d : Option Rat) : (∃ r, checkDiagonal d = .ok r) ↔ DiagonalGiven d := by
  cases d with
  | none => simp [checkDiagonal, DiagonalGiven]
  | some x =>
    by_cases h : x < 20
    · simp [checkDiagonal, DiagonalGiven, h]
    · simp [checkDiagonal, DiagonalGiven, h, not_lt.mp h]

theorem length_one {α : Type} {l : List α} (h : l.length = 1) : ∃ x, l = [x] :=
  List.length_eq_one_iff.mp h

/-- The common part of `check_callable` and `check_multi_scale_param`. -/
def perScaleOr (p : Py → Bool) (e : PyErr) (n : Nat) (v : Py) : Except PyErr (List Py) :=
  if p v then .ok (rep n v)
  else match v.elems? with
    | none => .error e
    | some l =>
      if l.length = 1 ∧ l.all p then .ok ((rep n l).flatten)
      else if l.length = n ∧ l.all p then .ok l
      else .error .valueError

theorem perScale_iff (p : Py → Bool) (e : PyErr) {n : Nat} (hn : 0 < n)
    (hpl : ∀ l, p (.list l) = false) (hpt : ∀ l, p (.tuple l) = false)
    (hpi : ∀ i, p (.npInt i) = false) (hps : ∀ s, p (.str s) = false) (v : Py) (out : List Py) :
    perScaleOr p e n v = .ok out ↔ Given (fun x => p x = true) n v out := by
  have seq : ∀ l : List Py,
      (if l.length = 1 ∧ l.all p then Except.ok ((rep n l).flatten)
       else if l.length = n ∧ l.all p then .ok l
       else .error PyErr.valueError) = .ok out ↔
      (∃ x, l = [x] ∧ p x = true ∧ out = List.replicate n x) ∨
        (l.length = n ∧ (∀ x ∈ l, p x = true) ∧ out = l) := by
    intro l
    have hall : (l.all p = true) ↔ ∀ x ∈ l, p x = true := by
      simp [List.all_eq_true]
    split_ifs with h1 h2
    · obtain ⟨x, rfl⟩ := length_one h1.1
      have hx : p x = true := hall.mp h1.2 x (by simp)
      rw [rep_single, Except.ok.injEq]
      constructor
      · rintro rfl; exact Or.inl ⟨x, rfl, hx, rfl⟩
      · rintro (⟨y, hy, -, rfl⟩ | ⟨hl, -, rfl⟩)
        · simp at hy; rw [hy]
        · simp at hl; simp [← hl]
    · rw [Except.ok.injEq]
      constructor
      · rintro rfl; exact Or.inr ⟨h2.1, hall.mp h2.2, rfl⟩
      · rintro (⟨y, rfl, hy, -⟩ | ⟨-, -, rfl⟩)
        · exact absurd ⟨rfl, hall.mpr (by simpa using hy)⟩ h1
        · rfl
    · refine ⟨fun h => by simp at h, ?_⟩
      rintro (⟨y, rfl, hy, -⟩ | ⟨hl, hc, -⟩)
      · exact absurd ⟨rfl, hall.mpr (by simpa using hy)⟩ h1
      · exact absurd ⟨hl, hall.mpr hc⟩ h2
  unfold perScaleOr
  by_cases hc : p v = true
  · rw [if_pos hc, Except.ok.injEq]
    constructor
    · rintro rfl; exact .single hc
    · intro h
      cases h <;> first | rfl | simp [hpl, hpt] at hc
  · rw [if_neg hc]
    have hs : ∀ w, Given (fun x => p x = true) n v w → ∃ l, (v = .list l ∨ v = .tuple l) ∧
        ((∃ x, l = [x] ∧ p x = true ∧ w = List.replicate n x) ∨
        (l.length = n ∧ (∀ x ∈ l, p x = true) ∧ w = l)) := by
      intro w h
      cases h with
      | single h => exact absurd h hc
      | list1 h => exact ⟨_, Or.inl rfl, Or.inl ⟨_, rfl, h, rfl⟩⟩
      | tuple1 h => exact ⟨_, Or.inr rfl, Or.inl ⟨_, rfl, h, rfl⟩⟩
      | list hl h => exact ⟨_, Or.inl rfl, Or.inr ⟨hl, h, rfl⟩⟩
      | tuple hl h => exact ⟨_, Or.inr rfl, Or.inr ⟨hl, h, rfl⟩⟩
    constructor
    · intro h
      cases v with
      | list l =>
        simp only [Py.elems?] at h
        rcases (seq l).mp h with ⟨x, rfl, hx, rfl⟩ | ⟨hl, hx, rfl⟩
        · exact .list1 hx
        · exact .list hl hx
      | tuple l =>
        simp only [Py.elems?] at h
        rcases (seq l).mp h with ⟨x, rfl, hx, rfl⟩ | ⟨hl, hx, rfl⟩
        · exact .tuple1 hx
        · exact .tuple hl hx
      | ndarray l =>
        simp only [Py.elems?] at h
        rcases (seq _).mp h with ⟨x, hx0, hx, rfl⟩ | ⟨hl, hx, rfl⟩
        · have : x ∈ l.map Py.npInt := by rw [hx0]; simp
          obtain ⟨i, -, rfl⟩ := List.mem_map.mp this
          simp [hpi, hps] at hx
        · cases l with
          | nil => simp at hl; omega
          | cons i r => have := hx (.npInt i) (by simp); simp [hpi, hps] at this
      | str s =>
        simp only [Py.elems?] at h
        rcases (seq _).mp h with ⟨x, hx0, hx, rfl⟩ | ⟨hl, hx, rfl⟩
        · have : x ∈ s.toList.map fun c => Py.str (String.singleton c) := by rw [hx0]; simp
          obtain ⟨i, -, rfl⟩ := List.mem_map.mp this
          simp [hpi, hps] at hx
        · obtain ⟨l, hl'⟩ : ∃ l, l = s.toList := ⟨_, rfl⟩
          rw [← hl'] at hl hx
          cases l with
          | nil => simp at hl; omega
          | cons i r =>
            have := hx (.str (String.singleton i)) (by simp)
            simp [hpi, hps] at this
      | _ => simp [Py.elems?] at h
    · intro h
      obtain ⟨l, hv | hv, hl⟩ := hs _ h
      · subst hv; exact (seq l).mpr hl
      · subst hv; exact (seq l).mpr hl

theorem callable_iff {n : Nat} (hn : 0 < n) (v : Py) (out : List Py) :
    checkCallable v n = .ok out ↔ Given Callable n v out := by
  have h : (Callable : Py → Prop) = fun v => v.isCallable = true := funext fun v => propext (isCallable_iff v).symm
  rw [h]
  exact perScale_iff Py.isCallable .typeError hn (fun _ => rfl) (fun _ => rfl) (fun _ => rfl)
    (fun _ => rfl) v out

theorem int_iff {n : Nat} (hn : 0 < n) (v : Py) (out : List Py) :
    checkMultiScaleParam n Py.isInt v = .ok out ↔ Given (fun x => x.isInt = true) n v out :=
  perScale_iff Py.isInt .valueError hn (fun _ => rfl) (fun _ => rfl) (fun _ => rfl)
    (fun _ => rfl) v out

theorem float_iff {n : Nat} (hn : 0 < n) (v : Py) (out : List Py) :
    checkMultiScaleParam n Py.isFloat v = .ok out ↔ Given (fun x => x.isFloat = true) n v out :=
  perScale_iff Py.isFloat .valueError hn (fun _ => rfl) (fun _ => rfl) (fun _ => rfl)
    (fun _ => rfl) v out

theorem given_length {P : Py → Prop} {n : Nat} {v : Py} {out : List Py} (h : Given P n v out) :
    out.length = n := by
  cases h <;> simp_all

theorem limit_all (l : List Py) :
    (l.all fun c => c.isNone || c.isInt || c.isFloat) = true ↔ ∀ c ∈ l, isLimit c := by
  simp [List.all_eq_true, isLimit, or_assoc]

theorem max_iff {n : Nat} (hn : 0 < n) (v : Py) (out : List Py) :
    checkMaxComponents v n = .ok out ↔ Given isLimit n v out := by
  have hrep : ∀ x : Py, (∀ c ∈ List.replicate n x, isLimit c) ↔ isLimit x := fun x =>
    ⟨fun h => h x (by simp; omega), fun h c hc => (List.eq_of_mem_replicate hc) ▸ h⟩
  have fin : ∀ l : List Py, ((if l.all fun c => c.isNone || c.isInt || c.isFloat then
      (pure l : Except PyErr (List Py)) else .error .valueError) = .ok out) ↔
      (∀ c ∈ l, isLimit c) ∧ out = l := by
    intro l
    by_cases h : (l.all fun c => c.isNone || c.isInt || c.isFloat) = true
    · rw [if_pos h, pure_iff]
      exact ⟨fun e => ⟨(limit_all l).mp h, e.symm⟩, fun e => e.2.symm⟩
    · rw [if_neg h]
      exact ⟨fun e => by simp at e, fun e => absurd ((limit_all l).mpr e.1) h⟩
  have one : ∀ x : Py, ((do
      let l ← (Except.ok (rep n x) : Except PyErr (List Py))
      if l.all fun c => c.isNone || c.isInt || c.isFloat then return l
      else .error .valueError) = .ok out) ↔ isLimit x ∧ out = List.replicate n x := by
    intro x
    rw [← hrep x]; exact fin _
  have many : ∀ l : List Py, ((do
      let l ← ((if l.length = n then .ok l else .error .valueError) : Except PyErr (List Py))
      if l.all fun c => c.isNone || c.isInt || c.isFloat then return l
      else .error .valueError) = .ok out) ↔ l.length = n ∧ (∀ c ∈ l, isLimit c) ∧ out = l := by
    intro l
    by_cases h : l.length = n
    · simp only [if_pos h, h, true_and]; exact fin l
    · simp [h, bind, Except.bind]
  have nl : ∀ l, ¬ isLimit (.list l) := fun l => by
    simp [isLimit, Py.isNone, Py.isInt, Py.isFloat]
  have nt : ∀ l, ¬ isLimit (.tuple l) := fun l => by
    simp [isLimit, Py.isNone, Py.isInt, Py.isFloat]
  have single : (∀ l, v ≠ .list l) → (∀ l, v ≠ .tuple l) →
      (isLimit v ∧ out = List.replicate n v ↔ Given isLimit n v out) := by
    intro h1 h2
    constructor
    · rintro ⟨h, rfl⟩; exact .single h
    · intro h
      cases h with
      | single h => exact ⟨h, rfl⟩
      | list1 h => exact absurd rfl (h1 _)
      | list hl h => exact absurd rfl (h1 _)
      | tuple1 h => exact absurd rfl (h2 _)
      | tuple hl h => exact absurd rfl (h2 _)
  unfold checkMaxComponents
  cases v with
  | list l =>
    match l with
    | [x] =>
      refine (one x).trans ⟨?_, ?_⟩
      · rintro ⟨h, rfl⟩; exact .list1 h
      · intro h
        cases h with
        | single h => exact absurd h (nl _)
        | list1 h => exact ⟨h, rfl⟩
        | list hl h =>
          simp only [List.length_singleton] at hl
          subst hl; exact ⟨h x (by simp), rfl⟩
    | [] =>
      refine (many []).trans ⟨?_, ?_⟩
      · rintro ⟨h, -⟩; simp at h; omega
      · intro h
        cases h with
        | single h => exact absurd h (nl _)
        | list hl h => exact ⟨hl, h, rfl⟩
    | x :: y :: r =>
      refine (many (x :: y :: r)).trans ⟨?_, ?_⟩
      · rintro ⟨h, h2, rfl⟩; exact .list h h2
      · intro h
        cases h with
        | single h => exact absurd h (nl _)
        | list hl h => exact ⟨hl, h, rfl⟩
  | tuple l =>
    match l with
    | [x] =>
      refine (one x).trans ⟨?_, ?_⟩
      · rintro ⟨h, rfl⟩; exact .tuple1 h
      · intro h
        cases h with
        | single h => exact absurd h (nt _)
        | tuple1 h => exact ⟨h, rfl⟩
        | tuple hl h =>
          simp only [List.length_singleton] at hl
          subst hl; exact ⟨h x (by simp), rfl⟩
    | [] =>
      refine (many []).trans ⟨?_, ?_⟩
      · rintro ⟨h, -⟩; simp at h; omega
      · intro h
        cases h with
        | single h => exact absurd h (nt _)
        | tuple hl h => exact ⟨hl, h, rfl⟩
    | x :: y :: r =>
      refine (many (x :: y :: r)).trans ⟨?_, ?_⟩
      · rintro ⟨h, h2, rfl⟩; exact .tuple h h2
      · intro h
        cases h with
        | single h => exact absurd h (nt _)
        | tuple hl h => exact ⟨hl, h, rfl⟩
  | _ => exact (one _).trans (single (by simp) (by simp))

theorem isGraph_iff (types : List Nat) (v : Py) : isGraph types v = true ↔ OfType types v := by
  cases v <;> simp [isGraph, OfType]

theorem isNone_iff (v : Py) : v.isNone = true ↔ v = .none := by
  cases v <;> simp [Py.isNone]

theorem graph_iff {n : Nat} (hn : 0 < n) (types : List Nat) (v : Py) (out : List Py) :
    checkGraph (isGraph types) v n = .ok out ↔ GraphsGiven (OfType types) n v out := by
  have fin : ∀ l : List Py, ((if l.all fun g => g.isNone || isGraph types g then
      (pure l : Except PyErr (List Py)) else .error .valueError) = .ok out) ↔
      (∀ c ∈ l, c = .none ∨ OfType types c) ∧ out = l := by
    intro l
    have hall : (l.all fun g => g.isNone || isGraph types g) = true ↔
        ∀ c ∈ l, c = .none ∨ OfType types c := by
      simp [List.all_eq_true, isGraph_iff, isNone_iff]
    by_cases h : (l.all fun g => g.isNone || isGraph types g) = true
    · rw [if_pos h, pure_iff]
      exact ⟨fun e => ⟨hall.mp h, e.symm⟩, fun e => e.2.symm⟩
    · rw [if_neg h]
      exact ⟨fun e => by simp at e, fun e => absurd (hall.mpr e.1) h⟩
  have hrep : ∀ x : Py, (∀ c ∈ List.replicate n x, c = .none ∨ OfType types c) ↔
      (x = .none ∨ OfType types x) := fun x =>
    ⟨fun h => h x (by simp; omega), fun h c hc => (List.eq_of_mem_replicate hc) ▸ h⟩
  have one : ∀ x : Py, ((do
      let graphs ← (Except.ok (rep n x) : Except PyErr (List Py))
      if graphs.all fun g => g.isNone || isGraph types g then return graphs
      else .error .valueError) = .ok out) ↔
      (x = .none ∨ OfType types x) ∧ out = List.replicate n x := by
    intro x
    rw [← hrep x]; exact fin _
  have single : (∀ l, v ≠ .list l) →
      ((v = .none ∨ OfType types v) ∧ out = List.replicate n v ↔
        GraphsGiven (OfType types) n v out) := by
    intro h1
    constructor
    · rintro ⟨rfl | h, rfl⟩
      · exact .none
      · exact .single h
    · intro h
      cases h with
      | none => exact ⟨Or.inl rfl, rfl⟩
      | single h => exact ⟨Or.inr h, rfl⟩
      | list1 h => exact absurd rfl (h1 _)
      | list hl h => exact absurd rfl (h1 _)
  have nl : ∀ l, ¬ OfType types (.list l) := fun l => by simp [OfType]
  unfold checkGraph
  cases v with
  | list l =>
    dsimp only
    by_cases h1 : l.length = 1
    · obtain ⟨x, rfl⟩ := length_one h1
      rw [if_pos h1, rep_single]
      refine (one x).trans ⟨?_, ?_⟩
      · rintro ⟨h, rfl⟩; exact .list1 h
      · intro h
        cases h with
        | single h => exact absurd h (nl _)
        | list1 h => exact ⟨h, rfl⟩
        | list hl h =>
          simp only [List.length_singleton] at hl
          subst hl; exact ⟨h x (by simp), rfl⟩
    · rw [if_neg h1]
      by_cases h2 : l.length = n
      · rw [if_pos h2]
        refine (fin l).trans ⟨?_, ?_⟩
        · rintro ⟨h, rfl⟩; exact .list h2 h
        · intro h
          cases h with
          | single h => exact absurd h (nl _)
          | list1 h => simp at h1
          | list hl h => exact ⟨h, rfl⟩
      · rw [if_neg h2]
        refine ⟨fun h => by simp [bind, Except.bind] at h, ?_⟩
        intro h
        cases h with
        | single h => exact absurd h (nl _)
        | list1 h => simp at h1
        | list hl h => exact absurd hl h2
  | _ => exact (one _).trans (single (by simp))

theorem graphs_length {P : Py → Prop} {n : Nat} {v : Py} {out : List Py}
    (h : GraphsGiven P n v out) : out.length = n := by
  cases h <;> simp_all

theorem patches_length {n : Nat} {v : PatchArg} {out : List PatchArg}
    (h : PatchesGiven n v out) : out.length = n := by
  cases h <;> simp_all

theorem len_list (l : List Py) : pyLen (.list l) = .ok l.length := rfl

theorem len_tuple (l : List Py) : pyLen (.tuple l) = .ok l.length := rfl

theorem len_number {v : Py} (h : v.isNumber = true) : pyLen v = .error .typeError := by
  cases v <;> simp [Py.isNumber] at h <;> rfl

/-- The options of scale `j`. -/
def levelAt (l1 l2 l3 l4 l5 l6 l7 l8 : List Py) (j : Nat) : Except PyErr DlibLevel := do
  let a1 ← item l1 j
  let a2 ← item l2 j
  let a3 ← item l3 j
  let a4 ← item l4 j
  let a5 ← item l5 j
  let a6 ← item l6 j
  let a7 ← item l7 j
  let a8 ← item l8 j
  return ⟨a1, a2, a3, a4, a5, a6, a7, a8⟩

theorem item_map (lv : List DlibLevel) (f : DlibLevel → Py) (j : Nat) (l : DlibLevel)
    (h : lv[j]? = some l) : item (lv.map f) j = .ok (f l) := by
  simp [item, h]

theorem mapM_range_ok {α : Type} (lv : List α) (f : Nat → Except PyErr α)
    (h : ∀ j l, lv[j]? = some l → f j = .ok l) :
    (List.range lv.length).mapM f = .ok lv := by
  induction lv generalizing f with
  | nil => rfl
  | cons a r ih =>
    rw [List.length_cons, List.range_succ_eq_map, List.mapM_cons, h 0 a rfl, List.mapM_map,
      ih (f ∘ Nat.succ) fun j l hj => h (j + 1) l (by simpa using hj)]
    rfl

theorem lists_of_levels {n : Nat} (lv : List DlibLevel) (hlen : lv.length = n) :
    (List.range n).mapM (levelAt (lv.map (·.featurePadding)) (lv.map (·.nPixelPairs))
      (lv.map (·.distancePrior)) (lv.map (·.regularisation)) (lv.map (·.nSplitTests))
      (lv.map (·.nTrees)) (lv.map (·.nDlibPerturbations)) (lv.map (·.nTreeLevels))) = .ok lv := by
  subst hlen
  refine mapM_range_ok _ _ fun j l hj => ?_
  simp only [levelAt, item_map lv _ j l hj]
  rfl

theorem map_ofFn_get {n : Nat} (l : List Py) (h : l.length = n) (f : Fin n → DlibLevel)
    (g : DlibLevel → Py) (hg : ∀ i : Fin n, g (f i) = l[i.val]'(h ▸ i.isLt)) :
    (List.ofFn f).map g = l := by
  refine List.ext_getElem (by simp [h]) fun i h1 h2 => ?_
  have : i < n := by simpa using h1
  simp [hg ⟨i, this⟩]

theorem levels_of_lists {n : Nat} {lv : List DlibLevel} (l1 l2 l3 l4 l5 l6 l7 l8 : List Py)
    (h1 : l1.length = n) (h2 : l2.length = n) (h3 : l3.length = n) (h4 : l4.length = n)
    (h5 : l5.length = n) (h6 : l6.length = n) (h7 : l7.length = n) (h8 : l8.length = n)
    (h : (List.range n).mapM (levelAt l1 l2 l3 l4 l5 l6 l7 l8) = .ok lv) :
    lv.length = n ∧ l1 = lv.map (·.featurePadding) ∧ l2 = lv.map (·.nPixelPairs) ∧
      l3 = lv.map (·.distancePrior) ∧ l4 = lv.map (·.regularisation) ∧
      l5 = lv.map (·.nSplitTests) ∧ l6 = lv.map (·.nTrees) ∧
      l7 = lv.map (·.nDlibPerturbations) ∧ l8 = lv.map (·.nTreeLevels) := by
  obtain ⟨w, hw⟩ : ∃ w : List DlibLevel, w = List.ofFn (n := n) fun i =>
      ⟨l1[i.val]'(h1 ▸ i.isLt), l2[i.val]'(h2 ▸ i.isLt), l3[i.val]'(h3 ▸ i.isLt),
        l4[i.val]'(h4 ▸ i.isLt), l5[i.val]'(h5 ▸ i.isLt), l6[i.val]'(h6 ▸ i.isLt),
        l7[i.val]'(h7 ▸ i.isLt), l8[i.val]'(h8 ▸ i.isLt)⟩ := ⟨_, rfl⟩
  have hlen : w.length = n := by rw [hw]; simp
  have e1 : w.map (·.featurePadding) = l1 := by rw [hw]; exact map_ofFn_get _ h1 _ _ fun _ => rfl
  have e2 : w.map (·.nPixelPairs) = l2 := by rw [hw]; exact map_ofFn_get _ h2 _ _ fun _ => rfl
  have e3 : w.map (·.distancePrior) = l3 := by rw [hw]; exact map_ofFn_get _ h3 _ _ fun _ => rfl
  have e4 : w.map (·.regularisation) = l4 := by rw [hw]; exact map_ofFn_get _ h4 _ _ fun _ => rfl
  have e5 : w.map (·.nSplitTests) = l5 := by rw [hw]; exact map_ofFn_get _ h5 _ _ fun _ => rfl
  have e6 : w.map (·.nTrees) = l6 := by rw [hw]; exact map_ofFn_get _ h6 _ _ fun _ => rfl
  have e7 : w.map (·.nDlibPerturbations) = l7 := by
    rw [hw]; exact map_ofFn_get _ h7 _ _ fun _ => rfl
  have e8 : w.map (·.nTreeLevels) = l8 := by rw [hw]; exact map_ofFn_get _ h8 _ _ fun _ => rfl
  have key := lists_of_levels w hlen
  rw [e1, e2, e3, e4, e5, e6, e7, e8, h] at key
  have : lv = w := Except.ok.inj key
  subst this
  exact ⟨hlen, e1.symm, e2.symm, e3.symm, e4.symm, e5.symm, e6.symm, e7.symm, e8.symm⟩

end Ctor
end Menpofit
