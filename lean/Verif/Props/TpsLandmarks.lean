import Verif.Lemmas.TpsWitness
/-!
# C107: the derivative of a thin plate spline with respect to landmarks
-/

namespace Menpofit
open Matrix Warp TpsDl Spec

variable {m np : Nat} {s : Fin m → P 2} {f : Factors m} {minSv : ℝ}

/-- C107: moving the target landmarks changes a warped point by exactly the amount `d_dl` says, however far
they move.  Missing: source points on one line, and splines one of whose singular values menpo discards
although it is not zero (`C107_small_violated`). -/
theorem C107_target_partial (hf : IsFactors (lMat s) f) (hg : SingularGap minSv f) (hs : AffineDetermined s)
    (x : Fin np → P 2) (t t' : Fin m → P 2) (q : Fin np) (d : Fin 2) :
    apply minSv f s t' (x q) d - apply minSv f s t (x q) d =
      ∑ i, dDl minSv f s x q i d * (t' i d - t i d) := by
  simp only [apply_eq, dDl_eq hf hg hs, mul_sub, Finset.sum_sub_distrib]

/-- C107: the derivative weights the landmarks: for every point the weights sum to one, and average the source
landmarks to the point. -/
theorem C107_weights_partial (hf : IsFactors (lMat s) f) (hg : SingularGap minSv f) (hs : AffineDetermined s)
    (x : Fin np → P 2) (q : Fin np) (d : Fin 2) :
    ∑ i, dDl minSv f s x q i d = 1 ∧ ∑ i, dDl minSv f s x q i d • s i = x q := by
  simp only [dDl_eq hf hg hs]
  refine ⟨row_sum hf hg hs _, ?_⟩
  ext e
  have := apply_source hf hg hs (x q) e
  rw [apply_eq] at this
  simpa using this

/-- C107: at a landmark all the weight is on that landmark, whatever the threshold. -/
theorem C107_landmark (hd : (lMat s).det ≠ 0) (j i : Fin m) (d : Fin 2) :
    dDl minSv f s s j i d = if i = j then 1 else 0 := by
  rw [dDl_det hd, row_inv hd]

/-- C107 with landmarks that coincide: the pseudo-inverse is used, and the derivative is still exact. -/
example : ∃ (f : Factors 4) (b : ℝ), (lMat twin).det = 0 ∧ IsFactors (lMat twin) f ∧ SingularGap b f ∧
    AffineDetermined twin := by
  obtain ⟨f, hf⟩ := exists_factors (lMat twin)
  obtain ⟨b, hb⟩ := exists_gap f hf.nonneg
  exact ⟨f, b, twin_det, hf, hb, twin_affine⟩

/-- The unit triangle, with menpo's threshold. -/
example : ∃ f : Factors 3, (lMat (tri 1)).det ≠ 0 ∧ IsFactors (lMat (tri 1)) f ∧ SingularGap (1 / 10000) f ∧
    AffineDetermined (tri 1) := by
  obtain ⟨f, hf⟩ := exists_factors (lMat (tri 1))
  exact ⟨f, tri_det one_ne_zero, hf, tri_gap hf, affine_of_det (tri_det one_ne_zero)⟩

/-- C107 is violated as documented: the docstring promises the derivative with respect to the source landmarks
with the target fixed at the source.  Moving all source landmarks by `δ` moves every warped point by `-δ`;
the weights predict `+δ`. -/
theorem C107_source_violated (hf : IsFactors (lMat s) f) (hg : SingularGap minSv f) (hs : AffineDetermined s)
    (hu : UniqueSpline s) (x : Fin np → P 2) (q : Fin np) (d : Fin 2) (δ : P 2) (T : Tps m)
    (hc : T.centres = fun i => s i + δ) (hT : Interpolates T s) :
    T.apply d (x q) - x q d = -δ d ∧ ∑ i, dDl minSv f s x q i d * δ d = δ d := by
  refine ⟨?_, ?_⟩
  · rw [moved_source hu δ T hc hT]; ring
  · rw [← Finset.sum_mul, (C107_weights_partial hf hg hs x q d).1, one_mul]

/-- The moved triangle and the spline that moves it back. -/
example (δ : P 2) : ∃ (f : Factors 3) (T : Tps 3), IsFactors (lMat (tri 1)) f ∧ SingularGap (1 / 10000) f ∧
    AffineDetermined (tri 1) ∧ UniqueSpline (tri 1) ∧ T.centres = (fun i => tri 1 i + δ) ∧
    Interpolates T (tri 1) := by
  obtain ⟨f, hf⟩ := exists_factors (lMat (tri 1))
  refine ⟨f, ⟨fun i => tri 1 i + δ, fun _ _ => 0, fun a d => if a = 0 then -δ d else if a = d.succ then 1 else 0⟩, hf,
    tri_gap hf, affine_of_det (tri_det one_ne_zero), unique_of_det (tri_det one_ne_zero), rfl,
    fun j => by simp, fun j => by simp, fun i d => ?_⟩
  match d with
  | 0 => simp [Tps.apply]
  | 1 => simp [Tps.apply]

/-- C107 is violated by small shapes: with landmarks closer than menpo's threshold of `1e-4` a singular value
is discarded when the coefficients are computed, but not when the derivative is.  Moving one target landmark
does not move its source point by what `d_dl` says. -/
theorem C107_small_violated {h : ℝ} (h0 : 0 < h) (h1 : h < 1 / 10000) (f : Factors 3)
    (hf : IsFactors (lMat (tri h)) f) :
    (lMat (tri h)).det ≠ 0 ∧ ∃ (j : Fin 3) (t t' : Fin 3 → P 2) (d : Fin 2),
      apply (1 / 10000) f (tri h) t' (tri h j) d - apply (1 / 10000) f (tri h) t (tri h j) d ≠
        ∑ i, dDl (1 / 10000) f (tri h) (tri h) j i d * (t' i d - t i d) := by
  refine ⟨tri_det h0.ne', ?_⟩
  obtain ⟨j, hj⟩ := tri_small h0 h1 hf
  refine ⟨j, fun _ => 0, fun i => if i = j then EuclideanSpace.single 0 1 else 0, 0, fun hc => hj ?_⟩
  simp only [apply_eq, C107_landmark (tri_det h0.ne')] at hc
  rw [kRow_source] at hc
  have e : ∀ i : Fin 3, (if i = j then EuclideanSpace.single (0 : Fin 2) (1 : ℝ) else 0 : P 2) 0 = if i = j then 1 else 0 := by
    intro i; split_ifs <;> simp
  simp only [e] at hc
  rw [Matrix.mul_apply]
  simpa [vecMul, dotProduct] using hc

example : (0 : ℝ) < 1 / 100000 ∧ (1 / 100000 : ℝ) < 1 / 10000 ∧
    ∃ f : Factors 3, IsFactors (lMat (tri (1 / 100000))) f :=
  ⟨by norm_num, by norm_num, exists_factors _⟩

end Menpofit
