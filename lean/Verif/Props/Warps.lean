import Verif.Lemmas.Warps
import Verif.Spec.Warps
/-!
# C47–C49: derivatives of basis functions and warps
-/

namespace Menpofit
open Warp Spec

/-! ## C47 -/

/-- C47: `d_dl` of the `r² log r` basis is its gradient at every point, including the centres. -/
theorem C47_r2logr {np nc d : Nat} (c : Fin nc → P d) (x : Fin np → P d) (i : Fin np) (k : Fin nc) :
    HasGradientAt (r2LogR (c k)) (r2LogRDdl c x i k) (x i) := grad_r2LogR (c k) (x i)

/-- C47: the same for the `r² log r²` basis. -/
theorem C47_r2logr2 {np nc d : Nat} (c : Fin nc → P d) (x : Fin np → P d) (i : Fin np) (k : Fin nc) :
    HasGradientAt (r2LogR2 (c k)) (r2LogR2Ddl c x i k) (x i) := grad_r2LogR2 c x i k

/-- At a centre the derivative is zero; at distance one along an axis it is not. -/
example : r2LogRDdl (np := 1) (nc := 1) (d := 1) (fun _ => 0) (fun _ => 0) 0 0 = 0 := by
  simp [r2LogRDdl]
example : r2LogRDdl (np := 1) (nc := 1) (d := 1) (fun _ => 0)
    (fun _ => EuclideanSpace.single 0 1) 0 0 ≠ 0 := by
  simp [r2LogRDdl]

/-! ## C48 -/

/-- C48: the derivative with respect to the landmarks is a convex weighting: non-negative, summing to
one, and reproducing the sampled point from the source landmarks. -/
theorem C48_barycentric {nv : Nat} (w : Pwa nv) (x : P 2) (l : Located nv) (h : LocatedIn w x l)
    (r : Fin 2) :
    (∀ v, 0 ≤ pwaDdl l v r) ∧ ∑ v, pwaDdl l v r = 1 ∧ ∑ v, pwaDdl l v r • w.source v = x := by
  obtain ⟨hij, hjk, hik, ha, hb, hab, hx⟩ := h
  refine ⟨fun v => ?_, ?_, ?_⟩
  · simp only [pwaDdl, Function.update_apply]
    split_ifs <;> linarith
  · have := ddl_sum l hij hjk hik (fun _ => (1 : ℝ)) r
    simp only [smul_eq_mul, mul_one] at this
    rw [this]; ring
  · rw [ddl_sum l hij hjk hik, hx]
    module

/-- C48: `d_dl` is the derivative of the warped point with respect to the target landmarks: moving
coordinate `s` of landmark `v` changes coordinate `r` of the image at rate `d_dl` if
`r = s` and not at all otherwise. -/
theorem C48_landmark_derivative {nv : Nat} (w : Pwa nv) (x : P 2) (l : Located nv)
    (hl : w.locate x = some l) (h : LocatedIn w x l) (v : Fin nv) (r s : Fin 2) :
    ∃ y : ℝ → P 2,
      (∀ t, (Pwa.mk w.source (Function.update w.target v
          (w.target v + t • EuclideanSpace.single s (1 : ℝ))) w.locate).apply x = some (y t)) ∧
      ∀ t, HasDerivAt (fun t => y t r) (if r = s then pwaDdl l v r else 0) t := by
  obtain ⟨hij, hjk, hik, ha, hb, hab, hx⟩ := h
  refine ⟨fun t => ∑ u, pwaDdl l u r • Function.update w.target v
    (w.target v + t • EuclideanSpace.single s (1 : ℝ)) u, fun t => ?_, fun t => ?_⟩
  · simp only [Pwa.apply, hl, Option.map_some, Option.some.injEq]
    rw [ddl_sum l hij hjk hik]
    module
  · have e : ∀ t : ℝ, (∑ u, pwaDdl l u r • Function.update w.target v
        (w.target v + t • EuclideanSpace.single s (1 : ℝ)) u) r =
        (∑ u, pwaDdl l u r * w.target u r) + t * (if r = s then pwaDdl l v r else 0) := by
      intro t
      have : (∑ u, pwaDdl l u r • Function.update w.target v
        (w.target v + t • EuclideanSpace.single s (1 : ℝ)) u) =
        (∑ u, pwaDdl l u r • w.target u) +
          (t * pwaDdl l v r) • EuclideanSpace.single s (1 : ℝ) := by
        rw [← Finset.add_sum_erase _ _ (Finset.mem_univ v),
          ← Finset.add_sum_erase (Finset.univ) (fun u => pwaDdl l u r • w.target u)
            (Finset.mem_univ v)]
        rw [Finset.sum_congr rfl (g := fun u => pwaDdl l u r • w.target u)]
        · simp only [Function.update_self]; module
        · intro u hu
          rw [Function.update_of_ne (Finset.ne_of_mem_erase hu)]
      rw [this]
      simp only [PiLp.add_apply, PiLp.smul_apply, smul_eq_mul, WithLp.ofLp_sum, Finset.sum_apply,
        EuclideanSpace.single_apply]
      by_cases hr : r = s <;> simp [hr]
    simp only [e]
    simpa using ((hasDerivAt_id' t).mul_const (if r = s then pwaDdl l v r else 0)).const_add
      (∑ u, pwaDdl l u r * w.target u r)

/-- C48: the weights sit at the three vertices of the containing triangle and nowhere else. -/
theorem C48_weights {nv : Nat} (w : Pwa nv) (x : P 2) (l : Located nv) (h : LocatedIn w x l)
    (r : Fin 2) :
    pwaDdl l l.i r = 1 - l.alpha - l.beta ∧ pwaDdl l l.j r = l.alpha ∧ pwaDdl l l.k r = l.beta ∧
      ∀ v, v ≠ l.i → v ≠ l.j → v ≠ l.k → pwaDdl l v r = 0 := by
  obtain ⟨hij, hjk, hik, -⟩ := h
  refine ⟨?_, ?_, ?_, fun v h1 h2 h3 => ?_⟩ <;> simp only [pwaDdl, Function.update_apply]
  · simp [hij, hik]
  · simp [hjk]
  · simp
  · simp [h1, h2, h3]

/-- C48: translating every target landmark translates every warped point by the same amount. -/
theorem C48_translation {nv : Nat} (w : Pwa nv) (x y t : P 2) (h : w.apply x = some y) :
    (Pwa.mk w.source (fun v => w.target v + t) w.locate).apply x = some (y + t) := by
  simp only [Pwa.apply, Option.map_eq_some_iff] at h ⊢
  obtain ⟨l, hl, rfl⟩ := h
  refine ⟨l, hl, ?_⟩
  module

/-- One triangle and its doubled image; every point of the closed triangle is located. -/
noncomputable def unitTriangle (k : ℝ) : Pwa 3 where
  source := ![0, EuclideanSpace.single 0 1, EuclideanSpace.single 1 1]
  target := ![0, k • EuclideanSpace.single 0 1, k • EuclideanSpace.single 1 1]
  locate x := if 0 ≤ x 0 ∧ 0 ≤ x 1 ∧ x 0 + x 1 ≤ 1 then some ⟨0, 1, 2, x 0, x 1⟩ else none

theorem unitTriangle_locates (k : ℝ) : LocatesCorrectly (unitTriangle k) := by
  intro x l h
  simp only [unitTriangle] at h
  split at h
  · rename_i hx
    injection h with h
    subst h
    refine ⟨by simp, by simp, by simp, hx.1, hx.2.1, hx.2.2, ?_⟩
    ext r
    match r with
    | 0 => simp [unitTriangle]
    | 1 => simp [unitTriangle]
  · cases h

/-- The centre of the triangle is located, so C48 is about something. -/
example : ∃ l, (unitTriangle 2).locate (!₂[1/3, 1/3]) = some l ∧
    LocatedIn (unitTriangle 2) (!₂[1/3, 1/3]) l := by
  refine ⟨⟨0, 1, 2, 1/3, 1/3⟩, ?_, unitTriangle_locates 2 _ _ ?_⟩ <;>
  · simp only [unitTriangle]
    rw [if_pos]
    · simp
    · norm_num

/-! ## C49 -/

/-- C49 (part): `d_dx` of a piecewise affine warp is its derivative where the warp leaves a
neighbourhood of the point unchanged (in particular when the target is the source).
Missing: every other warp, where it is wrong. -/
theorem C49_pwa_identity_partial {nv : Nat} (w : Pwa nv) (hw : LocatesCorrectly w)
    (ht : w.target = w.source) (x : P 2) (hx : ∀ᶠ y in nhds x, (w.locate y).isSome) :
    IsWarpJacobian w.apply x pwaDdx := by
  refine ⟨fun y => y, ?_, fun r => ?_⟩
  · filter_upwards [hx] with y hy
    obtain ⟨l, hl⟩ := Option.isSome_iff_exists.1 hy
    have := (hw y l hl).2.2.2.2.2.2
    simp only [Pwa.apply, hl, Option.map_some, ht, Option.some.injEq]
    exact this.symm
  · exact grad_coord r x

/-- Points strictly inside the unit triangle have a neighbourhood inside it. -/
theorem unitTriangle_near (k : ℝ) : ∀ᶠ y in nhds (!₂[1/3, 1/3] : P 2),
    (unitTriangle k).apply y = some (k • y) := by
  have h0 : Continuous fun y : P 2 => y 0 := by fun_prop
  have h1 : Continuous fun y : P 2 => y 1 := by fun_prop
  have a := h0.continuousAt (x := (!₂[1/3, 1/3] : P 2)).eventually (lt_mem_nhds (a := 0) (by norm_num))
  have b := h1.continuousAt (x := (!₂[1/3, 1/3] : P 2)).eventually (lt_mem_nhds (a := 0) (by norm_num))
  have h2 : Continuous fun y : P 2 => y 0 + y 1 := h0.add h1
  have c := h2.continuousAt (x := (!₂[1/3, 1/3] : P 2)).eventually 
    (gt_mem_nhds (show _ < (1 : ℝ) by norm_num))
  filter_upwards [a, b, c] with y ha hb hc
  simp only [Pwa.apply, unitTriangle]
  rw [if_pos ⟨ha.le, hb.le, hc.le⟩]
  simp only [Option.map_some, Option.some.injEq]
  ext r
  match r with
  | 0 => simp [mul_comm]
  | 1 => simp [mul_comm]

example : ∀ᶠ y in nhds (!₂[1/3, 1/3] : P 2), ((unitTriangle 1).locate y).isSome := by
  filter_upwards [unitTriangle_near 1] with y hy
  simp only [Pwa.apply] at hy
  cases h : (unitTriangle 1).locate y with
  | none => rw [h] at hy; cases hy
  | some l => rfl

/-- C49 is violated by every piecewise affine warp that is not locally the identity: for the
doubling of a triangle the true derivative is twice the identity, the reported one the
identity. -/
theorem C49_pwa_violated :
    ∃ (w : Pwa 3) (x : P 2), LocatesCorrectly w ∧
      IsWarpJacobian w.apply x (fun r c => 2 * pwaDdx r c) ∧ ¬ IsWarpJacobian w.apply x pwaDdx := by
  have hd : ∀ r : Fin 2, HasGradientAt (fun y : P 2 => ((2 : ℝ) • y) r)
      (WithLp.toLp 2 fun c => 2 * pwaDdx r c) (!₂[1/3, 1/3] : P 2) := by
    intro r
    have := grad_smul 2 (grad_coord r (!₂[1/3, 1/3] : P 2))
    convert this using 1
    · rfl
    · rfl
  refine ⟨unitTriangle 2, !₂[1/3, 1/3], unitTriangle_locates 2,
    ⟨fun y => (2 : ℝ) • y, unitTriangle_near 2, hd⟩, ?_⟩
  rintro ⟨g, hg, hgrad⟩
  have he : (fun y => g y 0) =ᶠ[nhds (!₂[1/3, 1/3] : P 2)] fun y => ((2 : ℝ) • y) 0 := by
    filter_upwards [hg, unitTriangle_near 2] with y h1 h2
    rw [h1] at h2; injection h2 with h2; rw [h2]
  have := ((hd 0).congr_of_eventuallyEq he).unique (hgrad 0)
  have := congrArg (fun v : P 2 => v 0) this
  norm_num [pwaDdx] at this

/-- C49 (part): for a thin plate spline whose non-linear weights are zero, sampled at as many points as
it has centres, `d_dx` is the derivative with its last two axes exchanged.  Missing: all other
splines and sample sizes, and the documented order of the axes. -/
theorem C49_tps_affine_partial {m : Nat} (t : Tps m) (hw : ∀ i j, t.w i j = 0) (x : Fin m → P 2) :
    ∃ jac, tpsDdx t x = .ok jac ∧ ∀ k j, HasGradientAt (t.apply j) (WithLp.toLp 2 fun l => jac k l j) (x k) := by
  refine ⟨_, dif_pos rfl, fun k j => ?_⟩
  have h := tps_grad t j (x k)
  convert h using 1
  ext l
  match l with
  | 0 => simp [hw, pwaDdx]
  | 1 => simp [hw, pwaDdx]

example : ∃ t : Tps 1, (∀ i j, t.w i j = 0) ∧ t.apply 0 (!₂[3, 4]) = 3 :=
  ⟨⟨fun _ => 0, fun _ _ => 0, fun a j => if a.val = j.val + 1 then 1 else 0⟩, fun _ _ => rfl, by
    simp [Tps.apply]⟩

/-- C49 is violated by the order of the axes: entry `[k, j, l]` is documented as the change of
coordinate `j` due to coordinate `l`; for the affine spline `(x, y) ↦ (y, 0)` it is not. -/
theorem C49_tps_axes_violated :
    ∃ (t : Tps 1) (x : Fin 1 → P 2) (jac : Fin 1 → Fin 2 → Fin 2 → ℝ), tpsDdx t x = .ok jac ∧
      ¬ HasGradientAt (t.apply 0) (WithLp.toLp 2 fun l => jac 0 0 l) (x 0) := by
  refine ⟨⟨fun _ => 0, fun _ _ => 0, fun a j => if a = 2 ∧ j = 0 then 1 else 0⟩, fun _ => 0, _,
    dif_pos rfl, fun h => ?_⟩
  have h2 := tps_grad ⟨fun _ => 0, fun _ _ => 0, fun a j => if a = 2 ∧ j = 0 then 1 else 0⟩ 0
    (0 : P 2) (m := 1)
  have := congrArg (fun v : P 2 => v 1) (h.unique h2)
  simp [pwaDdx] at this

/-- C49 is violated by thin plate splines sampled at a number of points other than the number of
centres: `ValueError` instead of a derivative. -/
theorem C49_tps_shape_violated {m np : Nat} (t : Tps m) (x : Fin np → P 2) (h : np ≠ m) :
    tpsDdx t x = .error .valueError := dif_neg h

/-- C49 is violated by non-affine thin plate splines even at the centres.  The weights satisfy the
side conditions of an interpolating spline (zero sum, zero first moments). -/
theorem C49_tps_violated :
    ∃ (t : Tps 4) (jac : Fin 4 → Fin 2 → Fin 2 → ℝ),
      (∀ j, ∑ i, t.w i j = 0) ∧ (∀ j, ∑ i, t.w i j • t.centres i = 0) ∧
      tpsDdx t t.centres = .ok jac ∧
      ¬ HasGradientAt (t.apply 0) (WithLp.toLp 2 fun l => jac 0 l 0) (t.centres 0) := by
  refine ⟨square, _, ?_, ?_, dif_pos rfl, ?_⟩
  · intro j; simp [square, Fin.sum_univ_four]
  · intro j
    ext r
    match j, r with
    | 0, 0 => simp [square, Fin.sum_univ_four]
    | 0, 1 => simp [square, Fin.sum_univ_four]
    | 1, 0 => simp [square]
    | 1, 1 => simp [square]
  · intro h
    have h2 := tps_grad square 0 (square.centres 0)
    have := congrArg (fun v : P 2 => v 0) (h.unique h2)
    have e : (square.aff 1 0 = 0) ∧ (square.aff 2 0 = 0) := ⟨rfl, rfl⟩
    simp only [PiLp.add_apply, PiLp.smul_apply, WithLp.ofLp_sum, Finset.sum_apply, smul_eq_mul,
      e.1, e.2, zero_mul, add_zero, Fin.cast_eq_self] at this
    rw [square_code, square_true] at this
    have := Real.log_pos (x := 2) (by norm_num)
    linarith

end Menpofit
