import Verif.Lemmas.LinearTransform
/-!
# A concrete linear model: a cross of landmarks and dense points at its centre
-/

namespace Menpofit
namespace Linear
open Matrix MI Spec

/-- Four landmarks and five dense points at the origin. -/
noncomputable def widen (a : Pts 4 2) : Pts (4 + 5) 2 := fun ij =>
  Fin.addCases (fun i => a (i, ij.2)) (fun _ => 0) ij.1

@[simp] theorem widen_l (a : Pts 4 2) (i : Fin 4) (j : Fin 2) : widen a (Fin.castAdd 5 i, j) = a (i, j) := by
  simp [widen]

@[simp] theorem widen_r (a : Pts 4 2) (i : Fin 5) (j : Fin 2) : widen a (Fin.natAdd 4 i, j) = 0 := by
  simp [widen]

theorem landmarks_widen (a : Pts 4 2) : landmarks (widen a) = a := by funext ⟨i, j⟩; simp [landmarks]

theorem ext9 {a b : Pts (4 + 5) 2} (h : ∀ i j, a (Fin.castAdd 5 i, j) = b (Fin.castAdd 5 i, j))
    (h' : ∀ i j, a (Fin.natAdd 4 i, j) = b (Fin.natAdd 4 i, j)) : a = b := by
  funext ⟨i, j⟩
  induction i using Fin.addCases with
  | left i => exact h i j
  | right i => exact h' i j

theorem widen_add (a b : Pts 4 2) : widen (a + b) = widen a + widen b :=
  ext9 (by simp) (by simp)

theorem widen_smul (r : ℝ) (a : Pts 4 2) : widen (r • a) = r • widen a :=
  ext9 (by simp) (by simp)

theorem widen_rot (a : Pts 4 2) : rotatedCcw (widen a) = widen (rotatedCcw a) := by
  refine ext9 (fun i j => ?_) (fun i j => ?_) <;> simp [rotatedCcw]

theorem sum92 (f : Fin (4 + 5) × Fin 2 → ℝ) : ∑ x, f x =
    ∑ x : Fin 4 × Fin 2, f (Fin.castAdd 5 x.1, x.2) + ∑ x : Fin 5 × Fin 2, f (Fin.natAdd 4 x.1, x.2) := by
  simp only [Fintype.sum_prod_type]
  exact Fin.sum_univ_add (a := 4) (b := 5) fun i => ∑ j, f (i, j)

theorem sum52 (f : Fin 5 × Fin 2 → ℝ) : ∑ x, f x =
    f (0,0) + f (0,1) + (f (1,0) + f (1,1)) + (f (2,0) + f (2,1)) + (f (3,0) + f (3,1)) +
      (f (4,0) + f (4,1)) := by
  simp [Fintype.sum_prod_type, Fin.sum_univ_two, Fin.sum_univ_five]

/-- A second deformation. -/
noncomputable def shear : Pts 4 2 := fun ij =>
  (![![1/2, 0], ![-1/2, 0], ![1/2, 0], ![-1/2, 0]] : Fin 4 → Fin 2 → ℝ) ij.1 ij.2

@[simp] theorem shear_00 : shear (0, 0) = 1/2 := rfl
@[simp] theorem shear_01 : shear (0, 1) = 0 := rfl
@[simp] theorem shear_10 : shear (1, 0) = -1/2 := rfl
@[simp] theorem shear_11 : shear (1, 1) = 0 := rfl
@[simp] theorem shear_20 : shear (2, 0) = 1/2 := rfl
@[simp] theorem shear_21 : shear (2, 1) = 0 := rfl
@[simp] theorem shear_30 : shear (3, 0) = -1/2 := rfl
@[simp] theorem shear_31 : shear (3, 1) = 0 := rfl

noncomputable def wideSim : List (Pts (4 + 5) 2) :=
  [(1/2 : ℝ) • widen MI.cross, (1/2 : ℝ) • widen (rotatedCcw MI.cross), (1/3 : ℝ) • ex (4 + 5),
    (1/3 : ℝ) • ey (4 + 5)]

noncomputable def wideOrtho : Ortho (4 + 5) := fun _ b => (wideSim, b)

/-- Two components, one of them active. -/
noncomputable def wideModel : Pca (4 + 5) 2 := ⟨widen MI.cross, [widen squeeze, widen shear], 1⟩

theorem wide_orth : OrthonormalList (wideSim ++ [widen squeeze, widen shear]) := by
  refine ⟨?_, ?_⟩
  · intro c hc
    simp only [wideSim, List.cons_append, List.nil_append, List.mem_cons, List.not_mem_nil,
      or_false] at hc
    rcases hc with rfl | rfl | rfl | rfl | rfl | rfl <;>
      norm_num [sum92, sum42, sum52, rotatedCcw, ex, ey]
  · simp only [wideSim, List.cons_append, List.nil_append, List.pairwise_cons, List.mem_cons,
      List.not_mem_nil, or_false, forall_eq_or_imp, forall_eq, sum92, sum42, sum52]
    norm_num [rotatedCcw, ex, ey]

theorem wide_span : Submodule.span ℝ {c | c ∈ wideSim} =
    Submodule.span ℝ {c | c ∈ similarityComponents (widen MI.cross)} := by
  have hm : ∀ c ∈ wideSim, c ∈ Submodule.span ℝ {c | c ∈ wideSim} :=
    fun c hc => Submodule.subset_span hc
  apply le_antisymm
  · rw [Submodule.span_le]
    intro c hc
    simp only [wideSim, Set.mem_ofPred_eq, List.mem_cons, List.not_mem_nil, or_false] at hc
    rw [SetLike.mem_coe, sim_span_iff, widen_rot]
    rcases hc with rfl | rfl | rfl | rfl
    · exact ⟨1/2, 0, 0, 0, by simp⟩
    · exact ⟨0, 1/2, 0, 0, by simp⟩
    · exact ⟨0, 0, 1/3, 0, by simp⟩
    · exact ⟨0, 0, 0, 1/3, by simp⟩
  · rw [Submodule.span_le]
    intro c hc
    simp only [similarityComponents_eq, widen_rot, Set.mem_ofPred_eq, List.mem_cons,
      List.not_mem_nil, or_false] at hc
    rw [SetLike.mem_coe]
    rcases hc with rfl | rfl | rfl | rfl
    · have := Submodule.smul_mem _ 2 (hm ((1/2 : ℝ) • widen MI.cross) (by simp [wideSim]))
      convert this using 1; module
    · have := Submodule.smul_mem _ 2 (hm ((1/2 : ℝ) • widen (rotatedCcw MI.cross)) (by simp [wideSim]))
      convert this using 1; module
    · have := Submodule.smul_mem _ 3 (hm ((1/3 : ℝ) • ex (4 + 5)) (by simp [wideSim]))
      convert this using 1; module
    · have := Submodule.smul_mem _ 3 (hm ((1/3 : ℝ) • ey (4 + 5)) (by simp [wideSim]))
      convert this using 1; module

theorem wide_spec : OrthoSpec wideOrtho (similarityComponents wideModel.mean) wideModel.comps :=
  ⟨by simp [wideOrtho, wideSim, similarityComponents], wide_orth, wide_span⟩

/-- The dense points are at the mean of the landmarks. -/
def Centred9 (x : Pts (4 + 5) 2) : Prop :=
  ∀ i j, x (Fin.natAdd 4 i, j) = (∑ k, x (Fin.castAdd 5 k, j)) / 4

theorem centred_span {W : List (Pts (4 + 5) 2)} (h : ∀ c ∈ W, Centred9 c) (x)
    (hx : x ∈ Submodule.span ℝ {c | c ∈ W}) : Centred9 x := by
  induction hx using Submodule.span_induction with
  | mem c hc => exact h c hc
  | zero => intro i j; simp
  | add x y _ _ hx hy =>
    intro i j
    simp only [Pi.add_apply, Finset.sum_add_distrib, hx i j, hy i j]; ring
  | smul a x _ hx =>
    intro i j
    simp only [Pi.smul_apply, smul_eq_mul, ← Finset.mul_sum, hx i j]; ring

theorem wide_centred : ∀ c ∈ wideSim ++ [widen squeeze, widen shear], Centred9 c := by
  intro c hc
  simp only [wideSim, List.cons_append, List.nil_append, List.mem_cons, List.not_mem_nil,
    or_false] at hc
  rcases hc with rfl | rfl | rfl | rfl | rfl | rfl <;> intro i j <;> fin_cases j <;>
    norm_num [Fin.sum_univ_four, rotatedCcw, ex, ey]

theorem centred_det {x y : Pts (4 + 5) 2} (hx : Centred9 x) (hy : Centred9 y)
    (h : landmarks x = landmarks y) : x = y := by
  have e : ∀ i j, x (Fin.castAdd 5 i, j) = y (Fin.castAdd 5 i, j) := fun i j => congrFun h (i, j)
  refine ext9 e fun i j => ?_
  rw [hx, hy]; simp only [e]

theorem wide_not_collapsed (s : Sim) (h : s.a ≠ 0 ∨ s.b ≠ 0) : ¬ Collapsed (s.apply (widen MI.cross)) := by
  intro hc
  have h1 := hc (Fin.castAdd 5 0) (Fin.castAdd 5 2)
  simp only [Sim.apply, Fin.isValue, widen_l] at h1
  simp only [Fin.isValue, if_true, one_ne_zero, if_false, cross_00, cross_01, cross_20, cross_21] at h1
  rcases h with h | h
  · apply h; linarith [h1.1]
  · apply h; linarith [h1.2]

end Linear
end Menpofit
