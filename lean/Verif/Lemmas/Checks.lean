import Verif.Model.Checks
import Verif.Spec.Checks
import Mathlib.Tactic.Linarith
import Mathlib.Tactic.NormNum
import Mathlib.Tactic.Ring
import Mathlib.Tactic.FieldSimp
import Mathlib.Algebra.Order.Field.Basic
import Mathlib.Algebra.Ring.Int.Parity
import Mathlib.Algebra.Order.Group.Abs
/-!
# Helper lemmas for the argument checks
-/

namespace Menpofit
open Checks Spec

theorem isCallable_iff (v : Py) : v.isCallable = true ↔ Callable v := by
  constructor
  · intro h
    cases v <;> first | exact .function _ | exact .cls _ | exact .partialCls _ | exact absurd h (by simp [Py.isCallable])
  · rintro (_ | _ | _) <;> rfl

mutual
theorem checkScales_leaves : ∀ (v : Py) (r : List Py),
    checkScales v = .ok r → r = numbersIn v ∧ r ≠ []
  | .bool b, r, h => by simp [checkScales] at h; subst h; simp [numbersIn]
  | .int b, r, h => by simp [checkScales] at h; subst h; simp [numbersIn]
  | .float b, r, h => by simp [checkScales] at h; subst h; simp [numbersIn]
  | .list l, r, h => by
      rw [checkScales] at h; rw [numbersIn]; exact checkScalesSeq_leaves l r h
  | .tuple l, r, h => by
      rw [checkScales] at h; rw [numbersIn]; exact checkScalesSeq_leaves l r h
  | .str _, r, h => by simp [checkScales] at h
  | .ndarray [], r, h => by simp [checkScales] at h
  | .ndarray [_], r, h => by simp [checkScales] at h
  | .ndarray (_ :: _ :: _), r, h => by simp [checkScales] at h
  | .none, r, h => by simp [checkScales] at h
  | .npInt _, r, h => by simp [checkScales] at h
  | .callable _, r, h => by simp [checkScales] at h
  | .cls _, r, h => by simp [checkScales] at h
  | .partialCls _, r, h => by simp [checkScales] at h
  | .obj _ _, r, h => by simp [checkScales] at h
theorem checkScalesSeq_leaves : ∀ (l r : List Py),
    checkScalesSeq l = .ok r → r = numbersInList l ∧ r ≠ []
  | [], r, h => by simp [checkScalesSeq] at h
  | [x], r, h => by
      cases x <;> simp [checkScalesSeq, Py.isNumber] at h <;> subst h <;>
        simp [numbersInList, numbersIn]
  | x :: y :: t, r, h => by
      rw [checkScalesSeq] at h
      cases ha : checkScales x with
      | error e => simp [ha, bind, Except.bind] at h
      | ok a =>
        cases hb : checkScalesSeq (y :: t) with
        | error e => simp [ha, hb, bind, Except.bind] at h
        | ok b =>
          simp [ha, hb, bind, Except.bind, pure, Except.pure] at h
          obtain ⟨h1, h1'⟩ := checkScales_leaves x a ha
          obtain ⟨h2, _⟩ := checkScalesSeq_leaves (y :: t) b hb
          subst h
          refine ⟨?_, by simp [h1']⟩
          rw [h1, h2]; rfl
end

mutual
theorem numbersIn_isNumber : ∀ (v x : Py), x ∈ numbersIn v → x.isNumber = true
  | .bool b, x, h => by simp [numbersIn] at h; subst h; rfl
  | .int b, x, h => by simp [numbersIn] at h; subst h; rfl
  | .float b, x, h => by simp [numbersIn] at h; subst h; rfl
  | .list l, x, h => numbersInList_isNumber l x (by rwa [numbersIn] at h)
  | .tuple l, x, h => numbersInList_isNumber l x (by rwa [numbersIn] at h)
  | .str _, r, h => by simp [numbersIn] at h
  | .ndarray _, r, h => by simp [numbersIn] at h
  | .none, r, h => by simp [numbersIn] at h
  | .npInt _, r, h => by simp [numbersIn] at h
  | .callable _, r, h => by simp [numbersIn] at h
  | .cls _, r, h => by simp [numbersIn] at h
  | .partialCls _, r, h => by simp [numbersIn] at h
  | .obj _ _, r, h => by simp [numbersIn] at h
theorem numbersInList_isNumber : ∀ (l : List Py) (x : Py),
    x ∈ numbersInList l → x.isNumber = true
  | [], x, h => by simp [numbersInList] at h
  | y :: r, x, h => by
      rw [numbersInList, List.mem_append] at h
      rcases h with h | h
      · exact numbersIn_isNumber y x h
      · exact numbersInList_isNumber r x h
end

theorem flatten_rep_single (n : Nat) (l : List α) (h : l.length = 1) :
    (rep n l).flatten = perScale n l := by
  match l, h with
  | [x], _ =>
    show (List.replicate n [x]).flatten = List.replicate n x
    induction n with
    | zero => rfl
    | succ k ih => simp [List.replicate_succ, ih]

theorem perScale_of_length_ne (n : Nat) (l : List α) (h : l.length ≠ 1) :
    perScale n l = l := by
  match l, h with
  | [], _ => rfl
  | [x], h => exact absurd rfl h
  | _ :: _ :: _, _ => rfl

theorem perScale_length (n : Nat) (l : List α) (h : LengthOk n l) :
    (perScale n l).length = n := by
  rcases h with h | h
  · match l, h with
    | [x], _ => simp [perScale]
  · by_cases h1 : l.length = 1
    · match l, h1 with
      | [x], _ => simp [perScale]
    · rw [perScale_of_length_ne _ _ h1, h]

/-- The three-way split shared by the checks, in closed form. -/
theorem expand_or_error (n : Nat) (l : List α) (P : Prop) [Decidable P] (e : PyErr) :
    (if l.length = 1 ∧ P then (.ok ((rep n l).flatten) : Except PyErr (List α))
     else if l.length = n ∧ P then .ok l else .error e) =
    open Classical in if LengthOk n l ∧ P then .ok (perScale n l) else .error e := by
  classical
  by_cases hP : P
  · by_cases h1 : l.length = 1
    · simp [h1, hP, LengthOk, flatten_rep_single n l h1]
    · by_cases h2 : l.length = n
      · rw [if_neg (fun h => h1 h.1), if_pos ⟨h2, hP⟩, if_pos ⟨Or.inr h2, hP⟩,
          perScale_of_length_ne n l h1]
      · simp [h1, h2, hP, LengthOk]
  · simp [hP]

theorem algo_each (base : Nat) (l : List Py) (h : ∀ a ∈ l, IsAlgorithm base a) :
    checkAlgorithmEach base l = .ok l := by
  induction l with
  | nil => simp [checkAlgorithmEach]
  | cons a r ih =>
    have ha := h a (by simp)
    have hr := ih (fun x hx => h x (by simp [hx]))
    have hc : checkAlgorithmCls base a 1 = .ok [a] := by
      cases a <;> simp [IsAlgorithm] at ha <;> simp [checkAlgorithmCls, ha]
    simp [checkAlgorithmEach, hc, hr, bind, Except.bind, pure, Except.pure]

mutual
theorem algo_len (base : Nat) : ∀ (v : Py) (n : Nat) (out : List Py),
    checkAlgorithmCls base v n = .ok out →
      out.length = n ∧ ∀ a ∈ out, IsAlgorithm base a
  | .partialCls mro, n, out, h => by
      rw [checkAlgorithmCls] at h; split at h
      · next hm =>
        injection h with h; subst h
        exact ⟨by simp, fun a ha => by rw [List.eq_of_mem_replicate ha]; exact hm⟩
      · cases h
  | .cls mro, n, out, h => by
      rw [checkAlgorithmCls] at h; split at h
      · next hm =>
        injection h with h; subst h
        exact ⟨by simp, fun a ha => by rw [List.eq_of_mem_replicate ha]; exact hm⟩
      · cases h
  | .list l, n, out, h => algo_len_seq base l n out (by rwa [checkAlgorithmCls] at h)
  | .tuple l, n, out, h => algo_len_seq base l n out (by rwa [checkAlgorithmCls] at h)
  | .str s, n, out, h => by
      rw [checkAlgorithmCls] at h; split at h
      · cases h
      · next h1 =>
        split at h
        · next h2 =>
          injection h with h; subst h
          have : n = 0 := by
            by_contra hn; exact h1 (Or.inr ⟨h2, hn⟩)
          simp [this]
        · cases h
  | .ndarray s, n, out, h => by
      rw [checkAlgorithmCls] at h; split at h
      · cases h
      · next h1 =>
        split at h
        · next h2 =>
          injection h with h; subst h
          have : n = 0 := by
            by_contra hn; exact h1 (Or.inr ⟨h2, hn⟩)
          simp [this]
        · cases h
  | .none, n, out, h => by simp [checkAlgorithmCls] at h
  | .bool _, n, out, h => by simp [checkAlgorithmCls] at h
  | .int _, n, out, h => by simp [checkAlgorithmCls] at h
  | .float _, n, out, h => by simp [checkAlgorithmCls] at h
  | .npInt _, n, out, h => by simp [checkAlgorithmCls] at h
  | .callable _, n, out, h => by simp [checkAlgorithmCls] at h
  | .obj _ _, n, out, h => by simp [checkAlgorithmCls] at h
theorem algo_len_seq (base : Nat) : ∀ (l : List Py) (n : Nat) (out : List Py),
    checkAlgorithmSeq base l n = .ok out →
      out.length = n ∧ ∀ a ∈ out, IsAlgorithm base a
  | [x], n, out, h => by rw [checkAlgorithmSeq] at h; exact algo_len base x n out h
  | [], n, out, h => by
      simp only [checkAlgorithmSeq] at h; split at h
      · next hl => have := algo_len_each base [] out h; rw [← hl]; exact this
      · cases h
  | a :: b :: r, n, out, h => by
      simp only [checkAlgorithmSeq] at h; split at h
      · next hl => have := algo_len_each base (a :: b :: r) out h; rw [← hl]; exact this
      · cases h
theorem algo_len_each (base : Nat) : ∀ (l : List Py) (out : List Py),
    checkAlgorithmEach base l = .ok out →
      out.length = l.length ∧ ∀ a ∈ out, IsAlgorithm base a
  | [], out, h => by simp [checkAlgorithmEach] at h; subst h; simp
  | a :: r, out, h => by
      simp only [checkAlgorithmEach] at h
      cases hc : checkAlgorithmCls base a 1 with
      | error e => simp [hc, bind, Except.bind] at h
      | ok c =>
        have h1 := algo_len base a 1 c hc
        cases c with
        | nil => simp at h1
        | cons c0 cs =>
          cases hr : checkAlgorithmEach base r with
          | error e => simp [hc, hr, bind, Except.bind] at h
          | ok rs =>
            simp [hc, hr, bind, Except.bind, pure, Except.pure] at h
            have h2 := algo_len_each base r rs hr
            subst h
            refine ⟨by simp [h2.1], ?_⟩
            intro x hx
            rcases List.mem_cons.mp hx with hx | hx
            · subst hx; exact h1.2 _ (by simp)
            · exact h2.2 x hx
end


theorem npRound_spec (q : Rat) : NearestEven q (npRound q) := by
  have h0 : (⌊q⌋ : Rat) ≤ q := Int.floor_le q
  have h1 : q < ⌊q⌋ + 1 := Int.lt_floor_add_one q
  unfold NearestEven npRound
  dsimp only
  split
  · next h =>
    have : |q - (⌊q⌋ : Rat)| = q - ⌊q⌋ := abs_of_nonneg (by linarith)
    rw [this]; exact ⟨h.le, fun h' => absurd h' h.ne⟩
  · next h =>
    split
    · next h' =>
      have : |q - ((⌊q⌋ + 1 : Int) : Rat)| = ⌊q⌋ + 1 - q := by
        push_cast; rw [abs_of_neg (by linarith)]; ring
      rw [this]; refine ⟨by linarith, fun h'' => by linarith⟩
    · next h' =>
      have he : q - ⌊q⌋ = 1 / 2 := le_antisymm (not_lt.mp h') (not_lt.mp h)
      split
      · next hev =>
        have : |q - (⌊q⌋ : Rat)| = 1 / 2 := by rw [he]; norm_num
        rw [this]; exact ⟨le_refl _, fun _ => Int.even_iff.mpr hev⟩
      · next hev =>
        have : |q - ((⌊q⌋ + 1 : Int) : Rat)| = 1 / 2 := by
          have : q - ((⌊q⌋ + 1 : Int) : Rat) = -(1 / 2) := by push_cast; linarith
          rw [this]; norm_num
        rw [this]; refine ⟨le_refl _, fun _ => ?_⟩
        exact Int.even_iff.mpr (by omega)

/-- There is only one nearest integer with ties to even. -/
theorem nearestEven_unique (q : Rat) (a b : Int) (ha : NearestEven q a) (hb : NearestEven q b) :
    a = b := by
  obtain ⟨ha1, ha2⟩ := ha
  obtain ⟨hb1, hb2⟩ := hb
  have h1 := abs_le.mp ha1
  have h2 := abs_le.mp hb1
  have hab : (a : Rat) - b ≤ 1 := by linarith
  have hba : (b : Rat) - a ≤ 1 := by linarith
  have hab' : a - b ≤ 1 := by exact_mod_cast hab
  have hba' : b - a ≤ 1 := by exact_mod_cast hba
  by_contra hne
  have hcases : a = b + 1 ∨ b = a + 1 := by omega
  rcases hcases with h | h
  · have hc : (a : Rat) = b + 1 := by exact_mod_cast h
    have e1 : q - a = -(1 / 2) := by linarith
    have e2 : q - b = 1 / 2 := by linarith
    have ea := ha2 (by rw [e1]; norm_num)
    have eb := hb2 (by rw [e2]; norm_num)
    rw [Int.even_iff] at ea eb; omega
  · have hc : (b : Rat) = a + 1 := by exact_mod_cast h
    have e1 : q - a = 1 / 2 := by linarith
    have e2 : q - b = -(1 / 2) := by linarith
    have ea := ha2 (by rw [e1]; norm_num)
    have eb := hb2 (by rw [e2]; norm_num)
    rw [Int.even_iff] at ea eb; omega

/-- Patch-shape lists made of pairs of integers are returned entry by entry. -/
theorem patch_pairs : ∀ (l : List (Int × Int)), l ≠ [] →
    checkPatchShapeSeq (l.map fun p => .seq [.int p.1, .int p.2]) l.length =
      .ok (l.map fun p => .seq [.int p.1, .int p.2])
  | [], h => absurd rfl h
  | [p], _ => by
      simp [checkPatchShapeSeq, checkPatchShape, PatchArg.isInt]
  | p :: q :: r, _ => by
      have ih := patch_pairs (q :: r) (by simp)
      simp only [List.map_cons, List.length_cons] at ih ⊢
      rw [checkPatchShapeSeq]
      rw [if_neg (by simp [PatchArg.isInt])]
      rw [if_pos (by simp)]
      have h1 : checkPatchShape (.seq [.int p.1, .int p.2]) 1 =
          .ok [.seq [.int p.1, .int p.2]] := by
        simp [checkPatchShapeSeq, checkPatchShape, PatchArg.isInt]
      rw [h1, Nat.add_sub_cancel, ih]
      rfl

theorem setAll_total {M : Type} (upd : M → Py → M) (l : List (M × Py)) :
    setAll (fun m v => .ok (upd m v)) l = (l.map fun p => upd p.1 p.2, none) := by
  induction l with
  | nil => rfl
  | cons p r ih => simp [setAll, ih]

theorem setAll_error {M : Type} (set : M → Py → Except PyErr M) (l : List (M × Py))
    (i : Nat) (hi : i < l.length)
    (hok : ∀ j (hj : j < i), ∃ m', set (l[j]'(by omega)).1 (l[j]'(by omega)).2 = .ok m')
    (e : PyErr) (he : set (l[i]).1 (l[i]).2 = .error e) :
    (setAll set l).2 = some e := by
  induction l generalizing i with
  | nil => simp at hi
  | cons p r ih =>
    cases i with
    | zero => simp at he; simp [setAll, he]
    | succ k =>
      obtain ⟨m', hm⟩ := hok 0 (by omega)
      simp at hm
      have := ih k (by simpa using hi) (fun j hj => by
        have := hok (j + 1) (by omega); simpa using this) (by simpa using he)
      simp [setAll, hm, this]

end Menpofit
