import Verif.Spec.Sampling
import Mathlib.Tactic.Ring
import Mathlib.Tactic.Linarith
/-!
# Helper lemmas for the sampling masks
-/

namespace Menpofit
open Sampling Spec

/-- Entries of a concatenation of rows of the same width. -/
theorem flatMap_get {α : Type} (f : Nat → List α) (w : Nat) :
    ∀ (a i k : Nat), (∀ i, (f i).length = w) → i < a → k < w →
      ((List.range a).flatMap f)[i * w + k]? = (f i)[k]? := by
  intro a
  induction a with
  | zero => intro i k _ hi; omega
  | succ a ih =>
    intro i k hw hi hk
    have hlen : ∀ a, ((List.range a).flatMap f).length = a * w := by
      intro a
      induction a with
      | zero => simp
      | succ a ih => rw [List.range_succ, List.flatMap_append, List.length_append, ih]; simp [hw, Nat.succ_mul]
    rw [List.range_succ, List.flatMap_append]
    by_cases h : i < a
    · have h1 : i * w + k < a * w := by
        have : (i + 1) * w ≤ a * w := Nat.mul_le_mul_right w h
        have e : (i + 1) * w = i * w + w := Nat.succ_mul i w
        omega
      rw [List.getElem?_append_left (by rw [hlen]; exact h1)]
      exact ih i k hw h hk
    · obtain rfl : i = a := by omega
      rw [List.getElem?_append_right (by rw [hlen]; omega), hlen]
      simp

theorem flatMap_length {α : Type} (f : Nat → List α) (w a : Nat) (hw : ∀ i, (f i).length = w) :
    ((List.range a).flatMap f).length = a * w := by
  induction a with
  | zero => simp
  | succ a ih => rw [List.range_succ, List.flatMap_append, List.length_append, ih]; simp [hw, Nat.succ_mul]

theorem listFlatMap_get {α β : Type} (l : List β) (f : β → List α) (w : Nat)
    (hw : ∀ b, (f b).length = w) (i k : Nat) (b : β) (hi : l[i]? = some b) (hk : k < w) :
    (l.flatMap f)[i * w + k]? = (f b)[k]? := by
  induction l generalizing i with
  | nil => simp at hi
  | cons x l ih =>
    rw [List.flatMap_cons]
    cases i with
    | zero =>
      simp only [List.getElem?_cons_zero, Option.some.injEq] at hi
      subst hi
      rw [List.getElem?_append_left (by rw [hw]; omega)]
      simp
    | succ i =>
      simp only [List.getElem?_cons_succ] at hi
      have e : (i + 1) * w + k = w + (i * w + k) := by rw [Nat.succ_mul]; omega
      rw [List.getElem?_append_right (by rw [hw, e]; omega), hw, e, Nat.add_sub_cancel_left]
      exact ih i hi

theorem listFlatMap_length {α β : Type} (l : List β) (f : β → List α) (w : Nat)
    (hw : ∀ b, (f b).length = w) : (l.flatMap f).length = l.length * w := by
  induction l with
  | nil => simp
  | cons x l ih => rw [List.flatMap_cons, List.length_append, ih, hw, List.length_cons, Nat.succ_mul]; omega

theorem range_mul (a n : Nat) :
    List.range (a * n) = (List.range a).flatMap fun c => (List.range n).map fun j => c * n + j := by
  induction a with
  | zero => simp
  | succ a ih =>
    rw [Nat.succ_mul, List.range_add, ih, List.range_succ, List.flatMap_append]
    simp

/-- The flat mask lists the selected pixels channel by channel. -/
theorem iMask_eq (rows : Nat) (mask : List Bool) :
    iMask rows mask = (List.range rows).flatMap fun c =>
      (nonzero mask).map fun j => c * mask.length + j := by
  unfold iMask
  rw [nonzero]
  have hlen : ((List.replicate rows mask).flatten).length = rows * mask.length := by simp
  rw [hlen, range_mul, List.filter_flatMap]
  have e : (List.replicate rows mask).flatten = (List.range rows).flatMap fun _ => mask := by
    rw [List.flatMap_def]
    congr 1
    exact (List.ext_getElem (by simp) (by simp))
  have key : ∀ c ∈ List.range rows, List.filter
      (fun i => ((List.replicate rows mask).flatten).getD i false)
      (List.map (fun j => c * mask.length + j) (List.range mask.length)) =
      List.map (fun j => c * mask.length + j) (nonzero mask) := by
    intro c hc
    have hc := List.mem_range.mp hc
    rw [List.filter_map, nonzero]
    congr 1
    apply List.filter_congr
    intro j hj
    have hj := List.mem_range.mp hj
    simp only [Function.comp_apply]
    rw [e, List.getD_eq_getElem?_getD, List.getD_eq_getElem?_getD,
      flatMap_get (fun _ => mask) mask.length rows c j (fun _ => rfl) hc hj]
  rw [List.flatMap_def, List.flatMap_def]
  congr 1
  exact List.map_congr_left key

theorem mem_nonzero (l : List Bool) (j : Nat) : j ∈ nonzero l ↔ l[j]? = some true := by
  unfold nonzero
  rw [List.mem_filter, List.mem_range, List.getD_eq_getElem?_getD]
  constructor
  · rintro ⟨h1, h2⟩
    rw [List.getElem?_eq_getElem h1] at h2 ⊢
    simpa using h2
  · intro h
    have h1 : j < l.length := by
      by_contra hn
      rw [List.getElem?_eq_none (by omega)] at h
      cases h
    exact ⟨h1, by rw [h]; rfl⟩

theorem nonzero_sorted (l : List Bool) : (nonzero l).Pairwise (· < ·) :=
  List.Pairwise.filter _ List.pairwise_lt_range

theorem setFlags_spec (mask : List Bool) (l : List Int)
    (h : ∀ i ∈ l, -(mask.length : Int) ≤ i ∧ i < mask.length) :
    ∃ r, setFlags mask l = .ok r ∧ r.length = mask.length ∧ ∀ j, j < mask.length →
      (r[j]? = some true ↔ mask[j]? = some true ∨ (j : Int) ∈ l ∨ (j : Int) - mask.length ∈ l) := by
  induction l generalizing mask with
  | nil => exact ⟨mask, rfl, rfl, fun j _ => by simp⟩
  | cons i l ih =>
    have hi := h i (by simp)
    obtain ⟨t, ht, hm⟩ : ∃ t : Nat, t < mask.length ∧ setFlag mask i = .ok (mask.set t true) ∧
        ((t : Int) = i ∨ (t : Int) - mask.length = i) := by
      unfold setFlag
      by_cases h0 : 0 ≤ i
      · refine ⟨i.toNat, by omega, by rw [if_pos ⟨h0, hi.2⟩], Or.inl (by omega)⟩
      · refine ⟨(i + mask.length).toNat, by omega, ?_, Or.inr (by omega)⟩
        rw [if_neg (by omega), if_pos (by omega)]
    obtain ⟨r, hr1, hr2, hr3⟩ := ih (mask.set t true) (by
      intro x hx; have := h x (by simp [hx]); simpa using this)
    refine ⟨r, ?_, by simpa using hr2, ?_⟩
    · simp only [setFlags, hm.1, bind, Except.bind]; exact hr1
    · intro j hj
      rw [hr3 j (by simpa using hj)]
      simp only [List.length_set, List.mem_cons]
      rw [List.getElem?_set]
      by_cases hjt : t = j
      · subst hjt
        simp only [if_true, ht]
        constructor
        · intro _; rcases hm.2 with e | e
          · exact Or.inr (Or.inl (Or.inl e))
          · exact Or.inr (Or.inr (Or.inl e))
        · intro _; exact Or.inl trivial
      · rw [if_neg hjt]
        constructor
        · rintro (h | h | h)
          · exact Or.inl h
          · exact Or.inr (Or.inl (Or.inr h))
          · exact Or.inr (Or.inr (Or.inr h))
        · rintro (h | (h | h) | (h | h))
          · exact Or.inl h
          · exfalso; rcases hm.2 with e | e <;> omega
          · exact Or.inr (Or.inl h)
          · exfalso; rcases hm.2 with e | e <;> omega
          · exact Or.inr (Or.inr h)

theorem setFlags_error (mask : List Bool) (l : List Int) (i : Int) (hi : i ∈ l)
    (hbad : ¬ (-(mask.length : Int) ≤ i ∧ i < mask.length)) :
    setFlags mask l = .error .indexError := by
  induction l generalizing mask with
  | nil => simp at hi
  | cons x l ih =>
    simp only [setFlags]
    by_cases hx : -(mask.length : Int) ≤ x ∧ x < mask.length
    · obtain ⟨t, ht⟩ : ∃ t, setFlag mask x = .ok (mask.set t true) := by
        unfold setFlag
        by_cases h0 : 0 ≤ x
        · exact ⟨_, if_pos ⟨h0, hx.2⟩⟩
        · exact ⟨_, by rw [if_neg (by omega), if_pos (by omega)]⟩
      simp only [ht, bind, Except.bind]
      have hne : i ≠ x := fun e => hbad (e ▸ hx)
      exact ih _ (by simpa [hne] using hi) (by simpa using hbad)
    · have : setFlag mask x = .error .indexError := by
        unfold setFlag
        rw [if_neg (by omega), if_neg (by omega)]
      simp only [this, bind, Except.bind]

theorem pyRange_spec (n : Nat) (k : Int) (hk : k ≠ 0) :
    ∃ r, pyRange n k = .ok r ∧ ∀ x, x ∈ r ↔ 0 ≤ x ∧ x < n ∧ 0 < k ∧ k ∣ x := by
  unfold pyRange
  rw [if_neg hk]
  by_cases hp : 0 < k
  · rw [if_pos hp]
    refine ⟨_, rfl, ?_⟩
    obtain ⟨m, rfl⟩ : ∃ m : Nat, k = m := ⟨k.toNat, by omega⟩
    have hm : 0 < m := by omega
    intro x
    simp only [List.mem_map, List.mem_range, Int.toNat_natCast]
    constructor
    · rintro ⟨i, hi, rfl⟩
      rw [Nat.lt_iff_add_one_le, Nat.le_div_iff_mul_le hm, Nat.succ_mul] at hi
      refine ⟨by positivity, ?_, hp, Dvd.intro_left _ rfl⟩
      have : i * m < n := by omega
      exact_mod_cast this
    · rintro ⟨h0, h1, -, q, rfl⟩
      have hq : 0 ≤ q := by
        by_contra hn
        have : (m : Int) * q < 0 := mul_neg_of_pos_of_neg hp (by omega)
        omega
      obtain ⟨i, rfl⟩ : ∃ i : Nat, q = i := ⟨q.toNat, by omega⟩
      refine ⟨i, ?_, by ring⟩
      rw [Nat.lt_iff_add_one_le, Nat.le_div_iff_mul_le hm, Nat.succ_mul]
      have : m * i < n := by exact_mod_cast h1
      rw [Nat.mul_comm] at this
      omega
  · rw [if_neg hp]
    refine ⟨[], rfl, fun x => ?_⟩
    constructor
    · intro h; simp at h
    · rintro ⟨-, -, h, -⟩; exact absurd h hp

section
variable {K : Type} [Ring K]

theorem maskedGradient_get (C : Nat) (mask : List Bool) (nabla : Nat → Nat → Nat → K)
    (d c k : Nat) (hd : d < 2) (hc : c < C) (hk : k < (nonzero mask).length) :
    entry3 (maskedGradient C mask nabla) C (nonzero mask).length d c k =
      nabla d c ((nonzero mask).getD k 0) := by
  unfold entry3 maskedGradient
  have e : (d * C + c) * (nonzero mask).length + k =
      d * (C * (nonzero mask).length) + (c * (nonzero mask).length + k) := by ring
  have hk' : c * (nonzero mask).length + k < C * (nonzero mask).length := by
    have : (c + 1) * (nonzero mask).length ≤ C * (nonzero mask).length :=
      Nat.mul_le_mul_right _ hc
    rw [Nat.succ_mul] at this
    omega
  rw [e, List.getD_eq_getElem?_getD, flatMap_get _ (C * (nonzero mask).length) 2 d _ (fun i =>
    flatMap_length _ _ _ (fun _ => by simp)) hd hk',
    flatMap_get _ (nonzero mask).length C c k (fun _ => by simp) hc hk]
  rw [List.getElem?_map, List.getElem?_eq_getElem hk, List.getD_eq_getElem?_getD,
    List.getElem?_eq_getElem hk]
  rfl

theorem maskedGradient_length (C : Nat) (mask : List Bool) (nabla : Nat → Nat → Nat → K) :
    (maskedGradient C mask nabla).length = 2 * C * (nonzero mask).length := by
  unfold maskedGradient
  rw [flatMap_length _ (C * (nonzero mask).length) 2 (fun i =>
    flatMap_length _ _ _ (fun _ => by simp))]
  ring

theorem maskedJacobian_get (P : Nat) (mask : List Bool) (dW : Nat → Nat → Nat → K)
    (d p k : Nat) (hd : d < 2) (hp : p < P) (hk : k < (nonzero mask).length) :
    entry3 (maskedJacobian P mask dW) (nonzero mask).length P d k p =
      dW d ((nonzero mask).getD k 0) p := by
  unfold entry3 maskedJacobian
  have e : (d * (nonzero mask).length + k) * P + p =
      d * ((nonzero mask).length * P) + (k * P + p) := by ring
  have hk' : k * P + p < (nonzero mask).length * P := by
    have : (k + 1) * P ≤ (nonzero mask).length * P := Nat.mul_le_mul_right _ hk
    rw [Nat.succ_mul] at this
    omega
  rw [e, List.getD_eq_getElem?_getD, flatMap_get _ ((nonzero mask).length * P) 2 d _ (fun i =>
    listFlatMap_length _ _ _ (fun _ => by simp)) hd hk',
    listFlatMap_get (nonzero mask) _ P (fun _ => by simp) k p _ (List.getElem?_eq_getElem hk) hp,
    List.getD_eq_getElem?_getD, List.getElem?_eq_getElem hk]
  rw [List.getElem?_map, List.getElem?_eq_getElem (by simpa using hp)]
  simp

theorem maskedJacobian_length (P : Nat) (mask : List Bool) (dW : Nat → Nat → Nat → K) :
    (maskedJacobian P mask dW).length = 2 * P * (nonzero mask).length := by
  unfold maskedJacobian
  rw [flatMap_length _ ((nonzero mask).length * P) 2 (fun i =>
    listFlatMap_length _ _ _ (fun _ => by simp))]
  ring

theorem range_map_getD {α : Type} (l : List Nat) (g : Nat → α) :
    (List.range l.length).map (fun k => g (l.getD k 0)) = l.map g := by
  apply List.ext_getElem
  · simp
  · intro i h1 h2
    simp only [List.getElem_map, List.getElem_range, List.getD_eq_getElem?_getD]
    rw [List.getElem?_eq_getElem (by simpa using h1)]
    rfl

end

end Menpofit
