import Verif.Spec.ModelInstance
import Mathlib.Algebra.BigOperators.Fin
import Mathlib.Tactic.Ring
import Mathlib.LinearAlgebra.Matrix.DotProduct
import Mathlib.Tactic.Linarith
import Mathlib.Tactic.FieldSimp
import Mathlib.Tactic.LinearCombination
/-!
# Lemmas about linear models
-/

namespace Menpofit
namespace MI
open Matrix Spec

variable {n d : Nat}

@[simp] theorem combine_nil_left (cs : List (Pts n d)) : combine [] cs = 0 := by simp [combine]
@[simp] theorem combine_nil_right (w : List ℝ) : combine w ([] : List (Pts n d)) = 0 := by
  simp [combine]
@[simp] theorem combine_cons (a : ℝ) (w : List ℝ) (c : Pts n d) (cs) :
    combine (a :: w) (c :: cs) = a • c + combine w cs := by simp [combine]

theorem combine_zero (k : Nat) (cs : List (Pts n d)) : combine (List.replicate k 0) cs = 0 := by
  induction k generalizing cs with
  | zero => simp
  | succ k ih => cases cs with
    | nil => simp
    | cons c cs => simp [List.replicate_succ, ih]

theorem combine_apply (w : List ℝ) (cs : List (Pts n d)) (x) :
    combine w cs x = ∑ k : Fin cs.length, w.getD k 0 * cs[k] x := by
  induction cs generalizing w with
  | nil => simp
  | cons c cs ih =>
    cases w with
    | nil => simp
    | cons a w => simp [ih, Fin.sum_univ_succ]; exact .inl rfl

theorem instanceOf_ok {mean : Pts n d} {cs w t} :
    instanceOf mean cs w = .ok t ↔ w.length ≤ cs.length ∧ t = mean + combine w cs := by
  unfold instanceOf
  split
  · simp; omega
  · constructor
    · intro h; cases h; exact ⟨by omega, rfl⟩
    · rintro ⟨_, rfl⟩; rfl

theorem generates_iff {mean : Pts n d} {cs w t} :
    Generates mean cs w t ↔ instanceOf mean cs w = .ok t := by
  rw [instanceOf_ok]
  unfold Generates
  refine and_congr_right fun _ => ?_
  constructor
  · intro h; funext x; simp [h, combine_apply]
  · rintro rfl x; simp [combine_apply]

@[simp] theorem projectOn_length (mean : Pts n d) (cs x) :
    (projectOn mean cs x).length = cs.length := by simp [projectOn]

theorem instanceOf_project (mean : Pts n d) (cs x) :
    instanceOf mean cs (projectOn mean cs x) = .ok (mean + combine (projectOn mean cs x) cs) := by
  rw [instanceOf_ok]; simp

theorem orth_iff {cs : List (Pts n d)} : OrthonormalList cs ↔
    (∀ c ∈ cs, c ⬝ᵥ c = 1) ∧ cs.Pairwise fun a b => a ⬝ᵥ b = 0 := Iff.rfl

theorem orth_cons {c : Pts n d} {cs} : OrthonormalList (c :: cs) ↔
    c ⬝ᵥ c = 1 ∧ (∀ e ∈ cs, c ⬝ᵥ e = 0) ∧ OrthonormalList cs := by
  simp [orth_iff]; tauto

theorem orth_sublist {cs es : List (Pts n d)} (h : es.Sublist cs) (o : OrthonormalList cs) :
    OrthonormalList es := by
  rw [orth_iff] at *
  exact ⟨fun c hc => o.1 c (h.subset hc), o.2.sublist h⟩

theorem dot_combine_zero {v : Pts n d} {cs : List (Pts n d)} (h : ∀ e ∈ cs, v ⬝ᵥ e = 0) (w) :
    v ⬝ᵥ combine w cs = 0 := by
  induction cs generalizing w with
  | nil => simp
  | cons c cs ih =>
    cases w with
    | nil => simp
    | cons a w =>
      simp only [combine_cons, dotProduct_add, dotProduct_smul]
      rw [h c (by simp), ih (fun e he => h e (by simp [he]))]; simp

/-- Projection recovers the weights. -/
theorem map_dot_combine {cs : List (Pts n d)} (o : OrthonormalList cs) {w : List ℝ}
    (hw : w.length = cs.length) {v : Pts n d} (hv : ∀ e ∈ cs, e ⬝ᵥ v = 0) :
    cs.map (fun c => c ⬝ᵥ (combine w cs + v)) = w := by
  induction cs generalizing w v with
  | nil => simp at hw; simp [hw]
  | cons c cs ih =>
    cases w with
    | nil => simp at hw
    | cons a w =>
      rw [orth_cons] at o
      simp only [combine_cons, List.map_cons]
      congr 1
      · simp only [dotProduct_add, dotProduct_smul, o.1, dot_combine_zero o.2.1,
          hv c (by simp)]; simp
      · have := ih o.2.2 (w := w) (by simpa using hw) (v := a • c + v) ?_
        · rw [← this]
          apply List.map_congr_left
          intro e _
          rw [this]
          congr 1; abel
        · intro e he
          simp only [dotProduct_add, dotProduct_smul, hv e (by simp [he])]
          rw [dotProduct_comm, o.2.1 e he]; simp

theorem project_instance {mean : Pts n d} {cs w} (o : OrthonormalList cs)
    (hw : w.length = cs.length) : projectOn mean cs (mean + combine w cs) = w := by
  unfold projectOn
  have := map_dot_combine o hw (v := 0) (by simp)
  simpa using this

/-- The residual of the projection is orthogonal to the components. -/
theorem resid_orth {cs : List (Pts n d)} (o : OrthonormalList cs) (y : Pts n d) :
    ∀ c ∈ cs, c ⬝ᵥ (y - combine (cs.map fun c => c ⬝ᵥ y) cs) = 0 := by
  induction cs generalizing y with
  | nil => simp
  | cons c cs ih =>
    rw [orth_cons] at o
    have key : (cs.map fun e => e ⬝ᵥ y) = cs.map fun e => e ⬝ᵥ (y - (c ⬝ᵥ y) • c) := by
      apply List.map_congr_left
      intro e he
      rw [dotProduct_sub, dotProduct_smul, dotProduct_comm e c, o.2.1 e he]; simp
    intro e he
    simp only [List.map_cons, combine_cons]
    rcases List.mem_cons.1 he with rfl | he
    · rw [dotProduct_sub, dotProduct_add, dotProduct_smul, o.1, dot_combine_zero o.2.1]; simp
    · have := ih o.2.2 (y - (c ⬝ᵥ y) • c) e he
      rw [← key] at this
      rw [← this]; congr 1; abel

theorem sqDist_eq (p q : Pts n d) : sqDist p q = (p - q) ⬝ᵥ (p - q) := by
  simp [sqDist, dotProduct, pow_two]

theorem pts_dot_self_nonneg (p : Pts n d) : 0 ≤ p ⬝ᵥ p :=
  Finset.sum_nonneg fun x _ => mul_self_nonneg (p x)

/-- Best approximation. -/
theorem project_closest {mean : Pts n d} {cs} (o : OrthonormalList cs) (x : Pts n d) (w) :
    sqDist x (mean + combine (projectOn mean cs x) cs) ≤ sqDist x (mean + combine w cs) := by
  rw [sqDist_eq, sqDist_eq]
  have hr := resid_orth o (x - mean)
  have hp : combine (projectOn mean cs x) cs = combine (cs.map fun c => c ⬝ᵥ (x - mean)) cs := rfl
  rw [hp]
  obtain ⟨z, hz⟩ : ∃ z, z = combine (cs.map fun c => c ⬝ᵥ (x - mean)) cs := ⟨_, rfl⟩
  rw [← hz] at hr ⊢
  have h1 : ((x - mean) - z) ⬝ᵥ combine w cs = 0 :=
    dot_combine_zero (fun e he => by rw [dotProduct_comm]; exact hr e he) w
  have h2 : ((x - mean) - z) ⬝ᵥ z = 0 := by
    rw [hz] at hr ⊢
    exact dot_combine_zero (fun e he => by rw [dotProduct_comm]; exact hr e he) _
  have e1 : x - (mean + z) = (x - mean) - z := by abel
  have e2 : x - (mean + combine w cs) = ((x - mean) - z) + (z - combine w cs) := by abel
  rw [e1, e2]
  have h3 := pts_dot_self_nonneg (z - combine w cs)
  have h4 : ((x - mean) - z) ⬝ᵥ (z - combine w cs) = 0 := by rw [dotProduct_sub, h1, h2]; simp
  rw [add_dotProduct, dotProduct_add, dotProduct_add, dotProduct_comm (z - combine w cs), h4]
  linarith

/-! ### The similarity components -/

theorem rotated_add (p q : Pts n 2) : rotatedCcw (p + q) = rotatedCcw p + rotatedCcw q := by
  funext ij; simp only [rotatedCcw, Pi.add_apply]; split <;> ring

theorem rotated_smul (a : ℝ) (p : Pts n 2) : rotatedCcw (a • p) = a • rotatedCcw p := by
  funext ij; simp only [rotatedCcw, Pi.smul_apply, smul_eq_mul]; split <;> ring

theorem rotated_rotated (p : Pts n 2) : rotatedCcw (rotatedCcw p) = -p := by
  funext ij
  obtain ⟨i, j⟩ := ij
  match j with
  | 0 => simp [rotatedCcw]
  | 1 => simp [rotatedCcw]

theorem dot2 (p q : Pts n 2) : p ⬝ᵥ q = ∑ i, (p (i, 0) * q (i, 0) + p (i, 1) * q (i, 1)) := by
  simp [dotProduct, Fintype.sum_prod_type, Fin.sum_univ_two]

theorem rotated_dot (p q : Pts n 2) : rotatedCcw p ⬝ᵥ q = -(p ⬝ᵥ rotatedCcw q) := by
  rw [dot2, dot2, ← Finset.sum_neg_distrib]
  refine Finset.sum_congr rfl fun i _ => ?_
  simp [rotatedCcw]

theorem rotated_self (p : Pts n 2) : p ⬝ᵥ rotatedCcw p = 0 := by
  have := rotated_dot p p
  rw [dotProduct_comm] at this
  linarith

/-- Translation vectors. -/
def ex (n : Nat) : Pts n 2 := fun ij => if ij.2 = 0 then 1 else 0
def ey (n : Nat) : Pts n 2 := fun ij => if ij.2 = 0 then 0 else 1

theorem similarityComponents_eq (p : Pts n 2) :
    similarityComponents p = [p, rotatedCcw p, ex n, ey n] := by
  have : (fun ij : Fin n × Fin 2 => if flat ij % 2 = 0 then (1 : ℝ) else 0) = ex n := by
    funext ⟨i, j⟩
    match j with
    | 0 => simp [flat, ex]
    | 1 => simp [flat, ex]
  have h2 : (fun ij : Fin n × Fin 2 => if flat ij % 2 = 1 then (1 : ℝ) else 0) = ey n := by
    funext ⟨i, j⟩
    match j with
    | 0 => simp [flat, ey]
    | 1 => simp [flat, ey]
  simp only [similarityComponents, this, h2]

theorem sim_apply_eq (s : Sim) (p : Pts n 2) :
    s.apply p = s.a • p + s.b • rotatedCcw p + s.tx • ex n + s.ty • ey n := by
  funext ⟨i, j⟩
  match j with
  | 0 => simp [Sim.apply, rotatedCcw, ex, ey]; ring
  | 1 => simp [Sim.apply, rotatedCcw, ex, ey]; ring

theorem sim_instance (p : Pts n 2) (a b tx ty : ℝ) :
    instanceOf p (similarityComponents p) [a, b, tx, ty] =
      .ok ((⟨1 + a, b, tx, ty⟩ : Sim).apply p) := by
  rw [similarityComponents_eq, instanceOf_ok, sim_apply_eq]
  refine ⟨by simp, ?_⟩
  simp only [combine_cons, combine_nil_left]
  module

theorem centroid_apply (hn : 0 < n) (s : Sim) (p : Pts n 2) :
    centroid (s.apply p) 0 = s.a * centroid p 0 - s.b * centroid p 1 + s.tx ∧
    centroid (s.apply p) 1 = s.b * centroid p 0 + s.a * centroid p 1 + s.ty := by
  have hn' : (n : ℝ) ≠ 0 := by exact_mod_cast hn.ne'
  constructor
  · simp only [centroid, Sim.apply, if_true, Finset.sum_add_distrib, Finset.sum_sub_distrib,
      ← Finset.mul_sum]
    simp; field_simp
  · simp only [centroid, Sim.apply, if_neg (by decide : ¬ (1 : Fin 2) = 0), Finset.sum_add_distrib,
      ← Finset.mul_sum]
    simp; field_simp

theorem centred_apply (hn : 0 < n) (s : Sim) (p : Pts n 2) :
    centred (s.apply p) = s.a • centred p + s.b • rotatedCcw (centred p) := by
  obtain ⟨h0, h1⟩ := centroid_apply hn s p
  funext ⟨i, j⟩
  match j with
  | 0 => simp [centred, h0, rotatedCcw]; simp [Sim.apply]; ring
  | 1 => simp [centred, h1, rotatedCcw]; simp [Sim.apply]; ring

theorem centred_zero_iff (hn : 0 < n) (p : Pts n 2) : centred p ⬝ᵥ centred p = 0 ↔ Collapsed p := by
  have hn' : (n : ℝ) ≠ 0 := by exact_mod_cast hn.ne'
  constructor
  · intro h
    rw [dotProduct_self_eq_zero] at h
    have h0 : ∀ i j, p (i, j) = centroid p j := fun i j => by
      have := congrFun h (i, j); simp only [centred, Pi.zero_apply] at this; linarith
    intro i j
    exact ⟨by rw [h0 i, h0 j], by rw [h0 i 1, h0 j 1]⟩
  · intro h
    rw [dotProduct_self_eq_zero]
    funext ⟨i, j⟩
    have : ∀ k, p (k, j) = p (i, j) := by
      intro k
      match j with
      | 0 => exact (h k i).1
      | 1 => exact (h k i).2
    simp only [centred, centroid, this]
    simp; field_simp; ring

theorem collapsed_apply_iff (hn : 0 < n) (s : Sim) (p : Pts n 2) :
    Collapsed (s.apply p) ↔ Collapsed p ∨ (s.a = 0 ∧ s.b = 0) := by
  rw [← centred_zero_iff hn, ← centred_zero_iff hn, centred_apply hn]
  have e : (s.a • centred p + s.b • rotatedCcw (centred p)) ⬝ᵥ
      (s.a • centred p + s.b • rotatedCcw (centred p)) =
      (s.a ^ 2 + s.b ^ 2) * (centred p ⬝ᵥ centred p) := by
    simp only [add_dotProduct, dotProduct_add, smul_dotProduct, dotProduct_smul, rotated_dot,
      rotated_self, rotated_rotated, smul_eq_mul, dotProduct_neg]
    ring
  rw [e, mul_eq_zero]
  constructor
  · rintro (h | h)
    · right; constructor <;> nlinarith [sq_nonneg s.a, sq_nonneg s.b]
    · exact .inl h
  · rintro (h | ⟨h, h'⟩)
    · exact .inr h
    · left; simp [h, h']

/-- Procrustes alignment to an exact, non-degenerate similarity image recovers the similarity. -/
theorem procrustes_exact (hn : 0 < n) (s : Sim) (p : Pts n 2) (h : ¬ Collapsed (s.apply p)) :
    procrustes p (s.apply p) = s := by
  rw [collapsed_apply_iff hn, not_or] at h
  obtain ⟨hp, hs⟩ := h
  have hq : centred p ⬝ᵥ centred p ≠ 0 := fun h0 => hp ((centred_zero_iff hn p).1 h0)
  have hq' : 0 < centred p ⬝ᵥ centred p := lt_of_le_of_ne (pts_dot_self_nonneg _) hq.symm
  have hr' : 0 < s.a ^ 2 + s.b ^ 2 := by
    rcases lt_or_eq_of_le (by positivity : (0 : ℝ) ≤ s.a ^ 2 + s.b ^ 2) with h | h
    · exact h
    · exact absurd ⟨by nlinarith [sq_nonneg s.a, sq_nonneg s.b],
        by nlinarith [sq_nonneg s.a, sq_nonneg s.b]⟩ hs
  obtain ⟨q, hqd⟩ : ∃ q, q = centred p ⬝ᵥ centred p := ⟨_, rfl⟩
  obtain ⟨h0, h1⟩ := centroid_apply hn s p
  have c1 : centred p ⬝ᵥ centred (s.apply p) = s.a * q := by
    rw [centred_apply hn, dotProduct_add, dotProduct_smul, dotProduct_smul, rotated_self, hqd]
    simp
  have c2 : rotatedCcw (centred p) ⬝ᵥ centred (s.apply p) = s.b * q := by
    rw [centred_apply hn, dotProduct_add, dotProduct_smul, dotProduct_smul, rotated_dot,
      rotated_dot, rotated_self, rotated_rotated, hqd]
    simp
  have c3 : centred (s.apply p) ⬝ᵥ centred (s.apply p) = (s.a ^ 2 + s.b ^ 2) * q := by
    rw [centred_apply hn]
    simp only [add_dotProduct, dotProduct_add, smul_dotProduct, dotProduct_smul, rotated_dot,
      rotated_self, rotated_rotated, smul_eq_mul, dotProduct_neg, ← hqd]
    ring
  rw [← hqd] at hq hq'
  have hR : Real.sqrt ((s.a * q) ^ 2 + (s.b * q) ^ 2) = Real.sqrt (s.a ^ 2 + s.b ^ 2) * q := by
    rw [show (s.a * q) ^ 2 + (s.b * q) ^ 2 = (s.a ^ 2 + s.b ^ 2) * q ^ 2 by ring,
      Real.sqrt_mul hr'.le, Real.sqrt_sq hq'.le]
  have hS : Real.sqrt ((s.a ^ 2 + s.b ^ 2) * q) = Real.sqrt (s.a ^ 2 + s.b ^ 2) * Real.sqrt q :=
    Real.sqrt_mul hr'.le _
  have hr0 := (Real.sqrt_pos.2 hr').ne'
  have hq0 := (Real.sqrt_pos.2 hq').ne'
  have ha : Real.sqrt ((s.a ^ 2 + s.b ^ 2) * q) / Real.sqrt q *
      (s.a * q / Real.sqrt ((s.a * q) ^ 2 + (s.b * q) ^ 2)) = s.a := by
    rw [hR, hS]; field_simp
  have hb : Real.sqrt ((s.a ^ 2 + s.b ^ 2) * q) / Real.sqrt q *
      (s.b * q / Real.sqrt ((s.a * q) ^ 2 + (s.b * q) ^ 2)) = s.b := by
    rw [hR, hS]; field_simp
  simp only [procrustes, c1, c2, c3, ← hqd, ha, hb, h0, h1]
  obtain ⟨a, b, tx, ty⟩ := s
  simp only [Sim.mk.injEq, true_and]
  constructor <;> ring

theorem sim_inv_apply (s : Sim) (p : Pts n 2) (h : ¬ (s.a = 0 ∧ s.b = 0)) :
    s.inv.apply (s.apply p) = p := by
  have hr : s.a ^ 2 + s.b ^ 2 ≠ 0 := by
    intro h0
    exact h ⟨by nlinarith [sq_nonneg s.a, sq_nonneg s.b], by nlinarith [sq_nonneg s.a, sq_nonneg s.b]⟩
  funext ⟨i, j⟩
  match j with
  | 0 => simp [Sim.apply, Sim.inv]; field_simp; ring
  | 1 => simp [Sim.apply, Sim.inv]; field_simp; ring

theorem cloud_fit (t : Pts n d) : (⟨n, d, t⟩ : Cloud).fit n d = some t := by
  simp [Cloud.fit]

end MI
end Menpofit
