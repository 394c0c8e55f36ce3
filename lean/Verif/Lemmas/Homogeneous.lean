import Verif.Spec.Homogeneous
import Verif.Lemmas.ModelInstanceState
import Mathlib.Analysis.Calculus.Deriv.Add
import Mathlib.Analysis.Calculus.Deriv.Mul
/-!
# Lemmas about Jacobians of homogeneous transforms
-/

namespace Menpofit
namespace Homog
open MI Spec

/-- Digits in base `d`. -/
theorem digit_unique {d a b : Nat} {r s : Fin d} (h : a * d + r.val = b * d + s.val) :
    a = b ∧ r = s := by
  have hd : 0 < d := Fin.pos r
  have h1 : (a * d + r.val) / d = a := by
    rw [mul_comm, Nat.mul_add_div hd, Nat.div_eq_of_lt r.isLt]; simp
  have h2 : (b * d + s.val) / d = b := by
    rw [mul_comm, Nat.mul_add_div hd, Nat.div_eq_of_lt s.isLt]; simp
  have : a = b := by rw [← h1, ← h2, h]
  subst this
  exact ⟨rfl, Fin.ext (by omega)⟩

/-- One step of the loop of `affine_d_dp`. -/
noncomputable def affStep {np d : Nat} (x : Fin np → Fin d → ℝ) (st : Jac np d × Option Nat) (i : Fin d) :
    Jac np d × Option Nat :=
  (setDiag st.1 (i.val * d) fun p => x p i, some (i.val * d))

theorem affFold {np d : Nat} (x : Fin np → Fin d → ℝ) (l : List (Fin d)) (i : Fin np) (k : Nat)
    (r : Fin d) :
    let jac := (l.foldl (affStep x) (fun _ _ _ => 0, none)).1
    (∀ c ∈ l, k = c.val * d + r.val → jac i k r = x i c) ∧
    ((∀ c ∈ l, k ≠ c.val * d + r.val) → jac i k r = 0) := by
  induction l using List.reverseRecOn with
  | nil => simp
  | append_singleton l a ih =>
    obtain ⟨h1, h2⟩ := ih
    simp only [List.foldl_append, List.foldl_cons, List.foldl_nil, affStep, setDiag]
    constructor
    · intro c hc hk
      by_cases hca : c = a
      · subst hca; rw [if_pos ⟨by omega, by omega⟩]
      · rw [if_neg]
        · refine h1 c ?_ hk
          rcases List.mem_append.1 hc with h | h
          · exact h
          · simp at h; exact absurd h hca
        · rintro ⟨ha, hb⟩
          have := (digit_unique (r := r) (s := r) (a := c.val) (b := a.val) (by omega)).1
          exact hca (Fin.ext this)
    · intro h
      rw [if_neg]
      · exact h2 fun c hc => h c (by simp [hc])
      · rintro ⟨ha, hb⟩
        exact h a (by simp) (by omega)

theorem affFold_last {np d : Nat} (x : Fin np → Fin (d + 1) → ℝ) :
    ((List.finRange (d + 1)).foldl (affStep x) (fun _ _ _ => 0, none)).2 = some (d * (d + 1)) := by
  rw [List.finRange_succ_last, List.foldl_append]
  simp [affStep]

/-- The loop computes the matrix of coordinates and ones. -/
theorem affineDdp_eq {np d : Nat} (hd : 0 < d) (x : Fin np → Fin d → ℝ) :
    ∃ jac, affineDdp d x = .ok jac ∧ ∀ i k r,
      (∀ c : Fin d, k = c.val * d + r.val → jac i k r = x i c) ∧
      (k = d * d + r.val → jac i k r = 1) ∧
      ((∀ c : Fin d, k ≠ c.val * d + r.val) → k ≠ d * d + r.val → jac i k r = 0) := by
  obtain ⟨e, rfl⟩ : ∃ e, d = e + 1 := ⟨d - 1, by omega⟩
  have h1 : affineDdp (e + 1) x =
      match ((List.finRange (e + 1)).foldl (affStep x) (fun _ _ _ => 0, none)).2 with
      | none => .error .nameError
      | some s => .ok (setDiag ((List.finRange (e + 1)).foldl (affStep x)
          (fun _ _ _ => 0, none)).1 (s + (e + 1)) fun _ => 1) := by
    unfold affineDdp
    rw [dif_pos rfl]
    rfl
  rw [affFold_last] at h1
  refine ⟨_, h1, fun i k r => ?_⟩
  obtain ⟨a, b⟩ := affFold x (List.finRange (e + 1)) i k r
  have hs : e * (e + 1) + (e + 1) = (e + 1) * (e + 1) := by ring
  rw [hs]
  simp only [setDiag]
  refine ⟨fun c hc => ?_, fun hk => ?_, fun h h' => ?_⟩
  · rw [if_neg]
    · exact a c (List.mem_finRange c) hc
    · rintro ⟨h, -⟩
      have : c.val * (e + 1) + (e + 1) ≤ (e + 1) * (e + 1) := by
        have := Nat.mul_le_mul_right (e + 1) (Nat.succ_le_of_lt c.isLt)
        rwa [Nat.succ_mul] at this
      have := r.isLt
      omega
  · rw [if_pos ⟨by omega, by omega⟩]
  · rw [if_neg]
    · exact b fun c _ => h c
    · rintro ⟨ha, hb⟩; exact h' (by omega)

/-- Derivative of a parameter with respect to one parameter. -/
theorem hasDerivAt_update (p : Nat → ℝ) (k j : Nat) :
    HasDerivAt (fun t => Function.update p k t j) (if j = k then 1 else 0) (p k) := by
  by_cases h : j = k
  · subst h; simpa using hasDerivAt_id' (p j)
  · simpa [Function.update_of_ne h, h] using hasDerivAt_const (p k) (p j)

theorem hasDerivAt_hEntry {d : Nat} (p : Nat → ℝ) (k : Nat) (r : Fin d) (c : Nat) :
    HasDerivAt (fun t => hEntry (Function.update p k t) r c) (if c * d + r.val = k then 1 else 0)
      (p k) := by
  unfold hEntry
  exact (hasDerivAt_update p k (c * d + r.val)).const_add _

theorem affineApply_deriv {d : Nat} (p : Nat → ℝ) (x : Fin d → ℝ) (k : Nat) (r : Fin d) :
    HasDerivAt (fun t => affineApply (Function.update p k t) x r)
      ((∑ c : Fin d, (if c.val * d + r.val = k then 1 else 0) * x c) +
        if d * d + r.val = k then 1 else 0) (p k) := by
  unfold affineApply
  refine HasDerivAt.add ?_ (hasDerivAt_hEntry p k r d)
  exact HasDerivAt.fun_sum fun c _ => (hasDerivAt_hEntry p k r c.val).mul_const (x c)

theorem simDdp_eq {np : Nat} (x : Fin np → Fin 2 → ℝ) :
    ∃ jac, similarityDdp 2 x = .ok jac ∧ ∀ i,
      (jac i 0 0 = x i 0 ∧ jac i 0 1 = x i 1) ∧ (jac i 1 0 = -x i 1 ∧ jac i 1 1 = x i 0) ∧
      (jac i 2 0 = 1 ∧ jac i 2 1 = 0) ∧ (jac i 3 0 = 0 ∧ jac i 3 1 = 1) := by
  refine ⟨_, rfl, fun i => ?_⟩
  simp [applyMask]

/-- Derivative of the 2D similarity with respect to its parameters. -/
theorem simApply_deriv (p : Nat → ℝ) (x : Fin 2 → ℝ) (k : Nat) (r : Fin 2) :
    HasDerivAt (fun t => simApply (Function.update p k t) x r)
      (if r = 0 then
        (if 0 = k then 1 else 0) * x 0 - (if 1 = k then 1 else 0) * x 1 + (if 2 = k then 1 else 0)
      else (if 1 = k then 1 else 0) * x 0 + (if 0 = k then 1 else 0) * x 1 +
        (if 3 = k then 1 else 0)) (p k) := by
  unfold simApply
  have h := hasDerivAt_update p k
  by_cases hr : r = 0
  · simp only [hr, if_true]
    exact ((((h 0).const_add 1).mul_const _).sub ((h 1).mul_const _)).add (h 2)
  · simp only [hr, if_false]
    exact (((h 1).mul_const _).add (((h 0).const_add 1).mul_const _)).add (h 3)

end Homog
end Menpofit
