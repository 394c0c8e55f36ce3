import Verif.Spec.Lighting
import Verif.Spec.AamSolvers
import Verif.Lemmas.Optim
/-!
# Lemmas for C138
-/

namespace Menpofit
namespace Lighting
open Matrix GN Optim Spec

/-! ### Simulation -/

/-- A trace with its parameters and costs replaced. -/
def mapRun {S V C : Type} (g : V → V) (k : C → C) (r : Trace S V C) : Trace S V C :=
  ⟨r.shapes, r.params.map g, r.costs.map (List.map k)⟩

theorem loop_lit {σ S V C E : Type} [LinearOrder E] (m m' : Machine σ S V C E) (g : V → V) (k : C → C)
    (R : σ → σ → Prop) (maxIters : Int) (tol : E)
    (hshape : ∀ s t, R s t → m'.shape t = m.shape s)
    (hparams : ∀ s t, R s t → m'.params t = g (m.params s))
    (hcost : ∀ s t, R s t → m'.cost t = k (m.cost s))
    (hstep : ∀ s t, R s t → (m'.step t).2 = (m.step s).2 ∧
      ∀ e, (m.step s).2 = .ok e → R (m.step s).1 (m'.step t).1) :
    ∀ (b : Nat) (j : Int) (eps : Option E) (s t : σ) (tr : Trace S V C),
      (maxIters - j).toNat = b → R s t →
      (loop m' false maxIters tol j eps t (mapRun g k tr)).2 =
        (loop m false maxIters tol j eps s tr).2.map (mapRun g k) := by
  intro b
  induction b with
  | zero =>
    intro j eps s t tr hk hR
    rw [loop_unfold, loop_unfold m, if_neg (by omega), if_neg (by omega)]
    rfl
  | succ b ih =>
    intro j eps s t tr hk hR
    rw [loop_unfold, loop_unfold m]
    by_cases hg : j < maxIters ∧ goOn tol eps
    · rw [if_pos hg, if_pos hg]
      obtain ⟨h1, h2⟩ := hstep s t hR
      rcases hs1 : m.step s with ⟨s', x⟩
      rcases hs2 : m'.step t with ⟨t', y⟩
      rw [hs1, hs2] at h1 h2
      simp only at h1 h2
      subst h1
      cases y with
      | error e => rfl
      | ok e =>
        simp only
        have hR' := h2 e rfl
        rw [← ih (j + 1) (some e) s' t' _ (by omega) hR']
        congr 2
        simp only [mapRun, List.map_append, List.map_cons, List.map_nil, hshape _ _ hR',
          hparams _ _ hR', hcost _ _ hR', Bool.false_eq_true, if_false, Option.map_map]
        congr 2
        funext l
        simp
    · rw [if_neg hg, if_neg hg]; rfl

theorem run_lit {σ S V C E : Type} [LinearOrder E] (m m' : Machine σ S V C E) (g : V → V) (k : C → C)
    (R : σ → σ → Prop) (maxIters : Int) (tol : E)
    (hshape : ∀ s t, R s t → m'.shape t = m.shape s)
    (hparams : ∀ s t, R s t → m'.params t = g (m.params s))
    (hcost : ∀ s t, R s t → m'.cost t = k (m.cost s))
    (hstep : ∀ s t, R s t → (m'.step t).2 = (m.step s).2 ∧
      ∀ e, (m.step s).2 = .ok e → R (m.step s).1 (m'.step t).1)
    (costs : Bool) (s t : σ) (hR : R s t) :
    (Optim.run m' false maxIters tol costs t).2 = (Optim.run m false maxIters tol costs s).2.map (mapRun g k) := by
  unfold Optim.run
  rw [← loop_lit m m' g k R maxIters tol hshape hparams hcost hstep _ 0 none s t _ rfl hR]
  congr 2
  cases costs <;> simp [mapRun, hshape _ _ hR, hparams _ _ hR, hcost _ _ hR]

/-! ### Active appearance models -/

section
variable {K : Type} [Field K] [DecidableEq K] {n a m : Nat} {S Im W E : Type}

omit [DecidableEq K] in
/-- What is projected out is not seen. -/
theorem po_zero {z : Aam.Setup n a m K S Im W E} {u : Fin m → K} (hu : z.A *ᵥ (z.pinvA *ᵥ u) = u) :
    (1 - z.A * z.pinvA) *ᵥ u = 0 := by
  rw [sub_mulVec, one_mulVec, ← mulVec_mulVec, hu, sub_self]

omit [DecidableEq K] in
theorem po_symm {z : Aam.Setup n a m K S Im W E} (hp : (z.A * z.pinvA)ᵀ = z.A * z.pinvA) :
    (1 - z.A * z.pinvA)ᵀ = 1 - z.A * z.pinvA := by
  rw [transpose_sub, transpose_one, hp]

omit [DecidableEq K] in
theorem po_blind {z : Aam.Setup n a m K S Im W E} {u : Fin m → K} (hu : z.A *ᵥ (z.pinvA *ᵥ u) = u)
    (hp : (z.A * z.pinvA)ᵀ = z.A * z.pinvA) (J : Matrix (Fin m) (Fin n) K) :
    ((1 - z.A * z.pinvA) * J)ᵀ *ᵥ u = 0 := by
  rw [transpose_mul, po_symm hp, ← mulVec_mulVec, po_zero hu, mulVec_zero]

omit [DecidableEq K] in
theorem projectOutMat_eq (z : Aam.Setup n a m K S Im W E) (J : Matrix (Fin m) (Fin n) K) :
    Aam.projectOutMat z J = (1 - z.A * z.pinvA) * J := by
  rw [Aam.projectOutMat, Matrix.sub_mul, Matrix.one_mul, Matrix.mul_assoc]

omit [DecidableEq K] in
theorem projectOut_eq (z : Aam.Setup n a m K S Im W E) (x : Fin m → K) :
    Aam.projectOut z x = (1 - z.A * z.pinvA) *ᵥ x := by
  rw [Aam.projectOut, sub_mulVec, one_mulVec, ← mulVec_mulVec]

omit [DecidableEq K] in
theorem po_cost {z : Aam.Setup n a m K S Im W E} {u : Fin m → K} (hu : z.A *ᵥ (z.pinvA *ᵥ u) = u)
    (hp : (z.A * z.pinvA)ᵀ = z.A * z.pinvA) (x : Fin m → K) :
    (x + u) ⬝ᵥ ((1 - z.A * z.pinvA) *ᵥ (x + u)) = x ⬝ᵥ ((1 - z.A * z.pinvA) *ᵥ x) := by
  rw [mulVec_add, po_zero hu, add_zero, add_dotProduct]
  have : u ⬝ᵥ ((1 - z.A * z.pinvA) *ᵥ x) = 0 := by
    rw [dotProduct_mulVec, ← mulVec_transpose, po_symm hp, po_zero hu, zero_dotProduct]
  rw [this, add_zero]

theorem solveMl_blind {k n' : Nat} (H : Matrix (Fin n') (Fin n') K) (J : Matrix (Fin k) (Fin n') K) (e u : Fin k → K)
    (h : Jᵀ *ᵥ u = 0) : solveShapeMl H J (e + u) = solveShapeMl H J e := by
  simp only [solveShapeMl, mulVec_add, h, add_zero]

theorem solveMap_blind {k n' np : Nat} (H : Matrix (Fin n') (Fin n') K) (J : Matrix (Fin k) (Fin n') K)
    (e u : Fin k → K) (prior p : Fin np → K) (h : Jᵀ *ᵥ u = 0) :
    solveShapeMap H J (e + u) prior p = solveShapeMap H J e prior p := by
  simp only [solveShapeMap, mapStep, mulVec_add, h, add_zero]

/-- The relation between two runs on pictures of different brightness. -/
structure Rel (z : Aam.Setup n a m K S Im W E) (u : Fin m → K) (s t : Aam.St n a m K W) : Prop where
  p : t.p = s.p
  c : t.c = s.c + z.pinvA *ᵥ u
  mask : z.mask t.i = z.mask s.i + u
  jacI : z.jacI t.i = z.jacI s.i
  Jdp : t.Jdp = s.Jdp

omit [DecidableEq K] in
theorem rel_error {z : Aam.Setup n a m K S Im W E} {u : Fin m → K} {im im' : Im} (hb : Brighter z u im im')
    {s t : Aam.St n a m K W} (h : Rel z u s t) :
    z.mask t.i - Aam.appearance z t.c = z.mask s.i - Aam.appearance z s.c := by
  simp only [Aam.appearance, h.mask, h.c, mulVec_add, hb.learned]
  abel

omit [DecidableEq K] in
theorem rel_jacobian {z : Aam.Setup n a m K S Im W E} {u : Fin m → K} {im im' : Im} (hb : Brighter z u im im')
    {s t : Aam.St n a m K W} (h : Rel z u s t) (inverse : Bool) :
    Aam.jacobian z inverse t = Aam.jacobian z inverse s := by
  simp only [Aam.jacobian, h.c, h.jacI, hb.flat]

omit [DecidableEq K] in
theorem rel_advance {z : Aam.Setup n a m K S Im W E} {u : Fin m → K} {im im' : Im} (hb : Brighter z u im im')
    {s t : Aam.St n a m K W} (h : Rel z u s t) (inverse : Bool) (J : Matrix (Fin m) (Fin n) K) (dp : Fin n → K)
    (f f' : W → Fin a → K)
    (hf : ∀ i i', z.mask i' = z.mask i + u → f' i' = f i + z.pinvA *ᵥ u) :
    (Aam.advance z inverse im' t J dp f').2 = (Aam.advance z inverse im s J dp f).2 ∧
      ∀ e, (Aam.advance z inverse im s J dp f).2 = .ok e →
        Rel z u (Aam.advance z inverse im s J dp f).1 (Aam.advance z inverse im' t J dp f').1 := by
  have hw := hb.warps (Aam.updateWarp inverse s.p dp)
  simp only [Aam.advance, h.p]
  generalize z.warp im (Aam.updateWarp inverse s.p dp) = x at hw
  generalize z.warp im' (Aam.updateWarp inverse s.p dp) = y at hw
  cases x <;> cases y <;> simp only [BothWays] at hw
  · exact ⟨by rw [hw], fun e he => by cases he⟩
  · exact ⟨rfl, fun e _ => ⟨rfl, hf _ _ hw.1, hw.1, hw.2, rfl⟩⟩

theorem step_lit {z : Aam.Setup n a m K S Im W E} {u : Fin m → K} {im im' : Im} (hb : Brighter z u im im')
    (hp : (z.A * z.pinvA)ᵀ = z.A * z.pinvA) (alg : Aam.Alg) (inverse map : Bool)
    (hmap : map = false ∨ alg = .modifiedAlternating ∨ alg = .wiberg) (s t : Aam.St n a m K W) (h : Rel z u s t) :
    (Aam.step z alg inverse map im' t).2 = (Aam.step z alg inverse map im s).2 ∧
      ∀ e, (Aam.step z alg inverse map im s).2 = .ok e →
        Rel z u (Aam.step z alg inverse map im s).1 (Aam.step z alg inverse map im' t).1 := by
  have he := rel_error hb h
  have hJ := rel_jacobian hb h inverse
  have hdc : ∀ dc : Fin a → K, ∀ i i' : W, z.mask i' = z.mask i + u →
      (fun _ : W => t.c + dc) i' = (fun _ : W => s.c + dc) i + z.pinvA *ᵥ u := by
    intro dc i i' _
    simp only [h.c]; abel
  cases alg with
  | simultaneous =>
    obtain rfl : map = false := by simpa using hmap
    simp only [Aam.step, Aam.simStep, he, hJ, Bool.false_eq_true, if_false]
    generalize Aam.solveAllMl (K := K) _ _ _ = r
    cases r with
    | error e => exact ⟨rfl, fun e he => by cases he⟩
    | ok q => exact rel_advance hb h inverse _ _ _ _ (hdc q.1)
  | alternating =>
    obtain rfl : map = false := by simpa using hmap
    simp only [Aam.step, Aam.altStep, Aam.altAppearance, Aam.altShape, he, hJ, h.Jdp, Bool.false_eq_true, if_false]
    generalize solveShapeMl (K := K) _ _ _ = r
    cases r with
    | error e => exact ⟨rfl, fun e he => by cases he⟩
    | ok q => exact rel_advance hb h inverse _ _ _ _ (hdc _)
  | modifiedAlternating =>
    simp only [Aam.step, Aam.modStep, he, hJ, h.p]
    generalize (if map = true then _ else _ : Except PyErr (Fin n → K)) = r
    cases r with
    | error e => exact ⟨rfl, fun e he => by cases he⟩
    | ok q =>
      refine rel_advance hb h inverse _ _ _ _ fun i i' hi => ?_
      simp only [hi]
      rw [← mulVec_add]; congr 1; abel
  | wiberg =>
    have e1 : z.mask t.i - z.aBar = z.mask s.i - z.aBar + u := by rw [h.mask]; abel
    have hb' := po_blind hb.learned hp (Aam.jacobian z inverse s)
    simp only [Aam.step, Aam.wibStep, e1, hJ, h.p, projectOutMat_eq]
    rw [solveMl_blind _ _ _ _ hb', solveMap_blind _ _ _ _ _ _ hb']
    generalize (if map = true then _ else _ : Except PyErr (Fin n → K)) = r
    cases r with
    | error e => exact ⟨rfl, fun e he => by cases he⟩
    | ok q =>
      refine rel_advance hb h inverse _ _ _ _ fun i i' hi => ?_
      simp only [hi, h.c, Aam.appearance, mulVec_add, mulVec_sub, hb.learned]
      abel

omit [DecidableEq K] in
theorem cost_lit {z : Aam.Setup n a m K S Im W E} {u : Fin m → K} {im im' : Im} (hb : Brighter z u im im')
    (hp : (z.A * z.pinvA)ᵀ = z.A * z.pinvA) (alg : Aam.Alg) (s t : Aam.St n a m K W) (h : Rel z u s t) :
    Aam.cost z alg t = Aam.cost z alg s := by
  have he := rel_error hb h
  have e1 : z.mask t.i - z.aBar = z.mask s.i - z.aBar + u := by rw [h.mask]; abel
  cases alg <;> simp only [Aam.cost, he]
  rw [projectOut_eq, projectOut_eq, e1, po_cost hb.learned hp]

/-! ### Project-out -/

/-- The relation between two project-out runs. -/
structure PRel (z : Aam.Setup n a m K S Im W E) (u : Fin m → K) (s t : PState n m K W) : Prop where
  p : t.p = s.p
  cache : t.cache = s.cache
  mask : z.mask t.i = z.mask s.i + u
  jacI : z.jacI t.i = z.jacI s.i
  blind : s.cache.QJᵀ *ᵥ u = 0
  blind' : s.cache.pinvQJ *ᵥ u = 0

theorem po_step_lit {z : Aam.Setup n a m K S Im W E} {u : Fin m → K} {im im' : Im} (hb : Brighter z u im im')
    (hp : (z.A * z.pinvA)ᵀ = z.A * z.pinvA) (inverse map : Bool) (s t : PState n m K W) (h : PRel z u s t) :
    (poStep (Aam.projectOutEnv z) inverse map im' t).2 = (poStep (Aam.projectOutEnv z) inverse map im s).2 ∧
      ∀ e, (poStep (Aam.projectOutEnv z) inverse map im s).2 = .ok e →
        PRel z u (poStep (Aam.projectOutEnv z) inverse map im s).1
          (poStep (Aam.projectOutEnv z) inverse map im' t).1 := by
  have e1 : z.mask t.i - z.aBar = z.mask s.i - z.aBar + u := by rw [h.mask]; abel
  have hb' := po_blind hb.learned hp (z.jacI s.i)
  have hf : solveForward (Aam.projectOutEnv z) map t = solveForward (Aam.projectOutEnv z) map s := by
    simp only [solveForward, Aam.projectOutEnv, e1, h.jacI, h.p]
    rw [solveMl_blind _ _ _ _ hb', solveMap_blind _ _ _ _ _ _ hb']
  have hi : solveInverse (Aam.projectOutEnv z) map t = solveInverse (Aam.projectOutEnv z) map s := by
    simp only [solveInverse, Aam.projectOutEnv, e1, h.cache, h.p]
    rw [solveMap_blind _ _ _ _ _ _ h.blind, mulVec_add, h.blind', add_zero]
  have hc : ∀ b : Bool, (if b = true then solveInverse (Aam.projectOutEnv z) map s
      else (s.cache, solveForward (Aam.projectOutEnv z) map s)).1.QJ = s.cache.QJ ∧
      (if b = true then solveInverse (Aam.projectOutEnv z) map s
      else (s.cache, solveForward (Aam.projectOutEnv z) map s)).1.pinvQJ = s.cache.pinvQJ := by
    intro b
    cases b
    · exact ⟨rfl, rfl⟩
    · simp only [solveInverse, if_true]
      cases map <;> exact ⟨rfl, rfl⟩
  have hc' := hc inverse
  simp only [poStep, hf, hi, h.cache, h.p]
  generalize (if inverse = true then solveInverse (Aam.projectOutEnv z) map s
      else (s.cache, solveForward (Aam.projectOutEnv z) map s)) = r at hc'
  rcases r with ⟨c', x⟩
  cases x with
  | error e => exact ⟨rfl, fun e he => by cases he⟩
  | ok dp =>
    simp only
    have hw := hb.warps (if inverse = true then s.p - dp else s.p + dp)
    simp only [Aam.projectOutEnv]
    generalize z.warp im (if inverse = true then s.p - dp else s.p + dp) = x at hw
    generalize z.warp im' (if inverse = true then s.p - dp else s.p + dp) = y at hw
    cases x <;> cases y <;> simp only [BothWays] at hw
    · exact ⟨by rw [hw], fun e he => by cases he⟩
    · refine ⟨rfl, fun e _ => ⟨rfl, rfl, hw.1, hw.2, ?_, ?_⟩⟩
      · rw [hc'.1]; exact h.blind
      · rw [hc'.2]; exact h.blind'

theorem precompute_blind {z : Aam.Setup n a m K S Im W E} {u : Fin m → K} (hu : z.A *ᵥ (z.pinvA *ᵥ u) = u)
    (hp : (z.A * z.pinvA)ᵀ = z.A * z.pinvA) (J : Matrix (Fin m) (Fin n) K) {cache : Cache n m K}
    (hc : precompute (1 - z.A * z.pinvA) J = .ok cache) : cache.QJᵀ *ᵥ u = 0 ∧ cache.pinvQJ *ᵥ u = 0 := by
  simp only [precompute, npSolveMat, bind, Except.bind] at hc
  split at hc
  · cases hc
  · rename_i v hv
    split at hv
    · cases hv
    · cases hv
      cases hc
      refine ⟨po_blind hu hp J, ?_⟩
      simp only [← mulVec_mulVec, po_blind hu hp J, mulVec_zero]

/-! ### Contrast -/

/-- The relation between two forward project-out runs on pictures of different contrast. -/
structure GRel (z : Aam.Setup n a m K S Im W E) (g : K) (u : Fin m → K) (s t : PState n m K W) : Prop where
  p : t.p = s.p
  mask : z.mask t.i = g • z.mask s.i + u
  jacI : z.jacI t.i = g • z.jacI s.i

omit [DecidableEq K] in
theorem smul_inv_mulVec {n' : Nat} (H : Matrix (Fin n') (Fin n') K) (b : Fin n' → K) (g : K) (hg : g ≠ 0)
    (hH : H.det ≠ 0) : ((g * g) • H)⁻¹ *ᵥ ((g * g) • b) = H⁻¹ *ᵥ b := by
  have hu : IsUnit H.det := isUnit_iff_ne_zero.2 hH
  have hinv : ((g * g) • H)⁻¹ = (g * g)⁻¹ • H⁻¹ := by
    apply Matrix.inv_eq_right_inv
    rw [Matrix.smul_mul, Matrix.mul_smul, smul_smul, Matrix.mul_nonsing_inv _ hu,
      mul_inv_cancel₀ (mul_ne_zero hg hg), one_smul]
  rw [hinv, smul_mulVec, mulVec_smul, smul_smul, inv_mul_cancel₀ (mul_ne_zero hg hg), one_smul]

theorem npSolve_gain {n' : Nat} (H : Matrix (Fin n') (Fin n') K) (b : Fin n' → K) (g : K) (hg : g ≠ 0) :
    npSolve ((g * g) • H) ((g * g) • b) = npSolve H b := by
  have hd : ((g * g) • H).det = (g * g) ^ n' * H.det := by rw [det_smul, Fintype.card_fin]
  have hz : ((g * g) • H).det = 0 ↔ H.det = 0 := by
    rw [hd]
    simp [hg]
  simp only [npSolve, hz]
  split
  · rfl
  · rename_i h
    rw [smul_inv_mulVec H b g hg h]

theorem forward_gain {z : Aam.Setup n a m K S Im W E} {g : K} {u : Fin m → K} (hg : g ≠ 0)
    (hu : z.A *ᵥ (z.pinvA *ᵥ u) = u) (hm : z.A *ᵥ (z.pinvA *ᵥ z.aBar) = z.aBar)
    (hp : (z.A * z.pinvA)ᵀ = z.A * z.pinvA) (s t : PState n m K W) (h : GRel z g u s t) :
    solveForward (Aam.projectOutEnv z) false t = solveForward (Aam.projectOutEnv z) false s := by
  have b1 := po_blind hu hp (z.jacI s.i)
  have b2 := po_blind hm hp (z.jacI s.i)
  simp only [solveForward, Aam.projectOutEnv, h.mask, h.jacI, Bool.false_eq_true, if_false, solveShapeMl]
  have eH : ((1 - z.A * z.pinvA) * g • z.jacI s.i)ᵀ * g • z.jacI s.i =
      (g * g) • (((1 - z.A * z.pinvA) * z.jacI s.i)ᵀ * z.jacI s.i) := by
    rw [Matrix.mul_smul, Matrix.mul_smul, transpose_smul, Matrix.smul_mul, smul_smul]
  have eb : ((1 - z.A * z.pinvA) * g • z.jacI s.i)ᵀ *ᵥ (g • z.mask s.i + u - z.aBar) =
      (g * g) • (((1 - z.A * z.pinvA) * z.jacI s.i)ᵀ *ᵥ (z.mask s.i - z.aBar)) := by
    rw [Matrix.mul_smul, transpose_smul, smul_mulVec, mulVec_sub, mulVec_add, mulVec_sub, b1, b2, mulVec_smul, add_zero,
      sub_zero, sub_zero, smul_smul]
  rw [eH, eb, npSolve_gain _ _ _ hg]

theorem gain_step {z : Aam.Setup n a m K S Im W E} {g : K} {u : Fin m → K} {im im' : Im} (hg : g ≠ 0)
    (hb : Contrasted z g u im im') (hm : z.A *ᵥ (z.pinvA *ᵥ z.aBar) = z.aBar)
    (hp : (z.A * z.pinvA)ᵀ = z.A * z.pinvA) (s t : PState n m K W) (h : GRel z g u s t) :
    (poStep (Aam.projectOutEnv z) false false im' t).2 = (poStep (Aam.projectOutEnv z) false false im s).2 ∧
      ∀ e, (poStep (Aam.projectOutEnv z) false false im s).2 = .ok e →
        GRel z g u (poStep (Aam.projectOutEnv z) false false im s).1
          (poStep (Aam.projectOutEnv z) false false im' t).1 := by
  have hf := forward_gain hg hb.learned hm hp s t h
  simp only [poStep, hf, h.p, Bool.false_eq_true, if_false]
  generalize solveForward (Aam.projectOutEnv z) false s = r
  cases r with
  | error e => exact ⟨rfl, fun e he => by cases he⟩
  | ok dp =>
    simp only
    have hw := hb.warps (s.p + dp)
    simp only [Aam.projectOutEnv]
    generalize z.warp im (s.p + dp) = x at hw
    generalize z.warp im' (s.p + dp) = y at hw
    cases x <;> cases y <;> simp only [BothWays] at hw
    · exact ⟨by rw [hw], fun e he => by cases he⟩
    · exact ⟨rfl, fun e _ => ⟨rfl, hw.1, hw.2⟩⟩

omit [DecidableEq K] in
theorem gain_cost {z : Aam.Setup n a m K S Im W E} {g : K} {u : Fin m → K}
    (hu : z.A *ᵥ (z.pinvA *ᵥ u) = u) (hm : z.A *ᵥ (z.pinvA *ᵥ z.aBar) = z.aBar)
    (hp : (z.A * z.pinvA)ᵀ = z.A * z.pinvA) (x : Fin m → K) :
    (g • x + u - z.aBar) ⬝ᵥ ((1 - z.A * z.pinvA) *ᵥ (g • x + u - z.aBar)) =
      g * g * ((x - z.aBar) ⬝ᵥ ((1 - z.A * z.pinvA) *ᵥ (x - z.aBar))) := by
  have hn : z.A *ᵥ (z.pinvA *ᵥ (-z.aBar)) = -z.aBar := by rw [mulVec_neg, mulVec_neg, hm]
  have h1 : g • x + u - z.aBar = g • x + (u - z.aBar) := by abel
  have h2 : z.A *ᵥ (z.pinvA *ᵥ (u - z.aBar)) = u - z.aBar := by rw [mulVec_sub, mulVec_sub, hu, hm]
  rw [h1, po_cost h2 hp, sub_eq_add_neg x, po_cost hn hp, mulVec_smul, smul_dotProduct, dotProduct_smul, smul_eq_mul,
    smul_eq_mul, mul_assoc]

end

/-! ### The fitter -/

section
variable {S P F R : Type} [DecidableEq F]
open Fitter

theorem both_bind {α β : Type} {Q : α → α → Prop} {Q' : β → β → Prop} {x y : Except PyErr α}
    {f g : α → Except PyErr β} (h : BothWays Q x y) (hf : ∀ v w, Q v w → BothWays Q' (f v) (g w)) :
    BothWays Q' (x >>= f) (y >>= g) := by
  cases x <;> cases y <;> simp only [BothWays] at h
  · exact h
  · exact hf _ _ h

theorem both_eq {α : Type} (x : Except PyErr α) : BothWays (fun v w => w = v) x x := by
  cases x <;> simp [BothWays]

/-- What the loop over scales has accumulated, for alike pictures. -/
structure PrepLit (Alike : P → P → Prop) (x y : Prep S P) : Prop where
  images : List.Forall₂ (LitAs Alike) x.images y.images
  affine : y.affine = x.affine
  scale : y.scale = x.scale

theorem getLm_lit {Alike : P → P → Prop} {x y : Img S P} (h : LitAs Alike x y) (g : String) :
    getLm y g = getLm x g := by
  simp only [getLm, h.lm]

theorem feature_lit {Alike : P → P → Prop} {ext : Ext S P F} (hk : KeepsLight Alike ext) {x y : Img S P}
    (h : LitAs Alike x y) (f : F) (init : S) :
    BothWays (fun v w : Img S P × Equiv.Perm S => LitAs Alike v.1 w.1 ∧ w.2 = v.2)
      (do
        let fi' ← ext.feature f x
        let src ← getLm fi' "__initial_shape"
        let a ← ext.align src init
        return (fi', a))
      (do
        let fi' ← ext.feature f y
        let src ← getLm fi' "__initial_shape"
        let a ← ext.align src init
        return (fi', a)) := by
  refine both_bind (hk.feature f x y h) fun v w hvw => ?_
  rw [getLm_lit hvw]
  refine both_bind (both_eq _) fun s s' hs => ?_
  subst hs
  refine both_bind (both_eq _) fun a a' ha => ?_
  subst ha
  exact ⟨hvw, rfl⟩

theorem prepLoop_lit {Alike : P → P → Prop} {ext : Ext S P F} (hk : KeepsLight Alike ext) {x y : Img S P}
    (h : LitAs Alike x y) (init : S) (l : List (F × Rat)) :
    ∀ (prev prev' : Option (F × Img S P)) (acc acc' : Prep S P), PrepLit Alike acc acc' →
      (match prev, prev' with
        | none, none => True
        | some v, some w => w.1 = v.1 ∧ LitAs Alike v.2 w.2
        | _, _ => False) →
      BothWays (PrepLit Alike) (prepLoop ext x init prev acc l) (prepLoop ext y init prev' acc' l) := by
  induction l with
  | nil => intro prev prev' acc acc' ha _; exact ha
  | cons fs rest ih =>
    obtain ⟨f, sc⟩ := fs
    intro prev prev' acc acc' ha hprev
    have hrest : ∀ v w : Img S P × Equiv.Perm S, LitAs Alike v.1 w.1 ∧ w.2 = v.2 →
        BothWays (PrepLit Alike)
          (do
            let sc' ← (if sc ≠ 1 then ext.rescale v.1 sc else .ok (v.1, 1))
            prepLoop ext x init (some (f, v.1))
              ⟨acc.images ++ [sc'.1], acc.affine ++ [v.2], acc.scale ++ [sc'.2]⟩ rest)
          (do
            let sc' ← (if sc ≠ 1 then ext.rescale w.1 sc else .ok (w.1, 1))
            prepLoop ext y init (some (f, w.1))
              ⟨acc'.images ++ [sc'.1], acc'.affine ++ [w.2], acc'.scale ++ [sc'.2]⟩ rest) := by
      intro v w hvw
      have hsc : BothWays (fun a b : Img S P × Equiv.Perm S => LitAs Alike a.1 b.1 ∧ b.2 = a.2)
          (if sc ≠ 1 then ext.rescale v.1 sc else .ok (v.1, 1))
          (if sc ≠ 1 then ext.rescale w.1 sc else .ok (w.1, 1)) := by
        split
        · exact hk.rescale _ _ _ hvw.1
        · exact ⟨hvw.1, rfl⟩
      refine both_bind hsc fun a b hab => ih _ _ _ _ ⟨?_, ?_, ?_⟩ ⟨rfl, hvw.1⟩
      · exact List.rel_append ha.images (List.Forall₂.cons hab.1 List.Forall₂.nil)
      · simp only [ha.affine, hvw.2]
      · simp only [ha.scale, hab.2]
    cases prev with
    | none =>
      cases prev' with
      | some w => exact hprev.elim
      | none =>
        simp only [prepLoop]
        exact both_bind (feature_lit hk h f init) hrest
    | some v =>
      cases prev' with
      | none => exact hprev.elim
      | some w =>
        obtain ⟨hf, hi⟩ := hprev
        obtain ⟨vf, vi⟩ := v
        obtain ⟨wf, wi⟩ := w
        simp only at hf hi
        subst hf
        simp only [prepLoop]
        refine both_bind ?_ hrest
        split
        · exact feature_lit hk h f init
        · rw [ha.affine]
          split
          · exact ⟨hi, rfl⟩
          · rfl

theorem mapM_getLm_lit {Alike : P → P → Prop} {l l' : List (Img S P)} (h : List.Forall₂ (LitAs Alike) l l')
    (g : String) : (l'.mapM fun i => getLm i g) = l.mapM fun i => getLm i g := by
  induction h with
  | nil => rfl
  | cons hx _ ih => rw [List.mapM_cons, List.mapM_cons, getLm_lit hx, ih]

/-- Prepared pictures that are alike. -/
structure PreparedLit (Alike : P → P → Prop) (x y : Prepared S P) : Prop where
  images : List.Forall₂ (LitAs Alike) x.images y.images
  initialShapes : y.initialShapes = x.initialShapes
  gtShapes : y.gtShapes = x.gtShapes
  affine : y.affine = x.affine
  scale : y.scale = x.scale

theorem prepBody_lit {Alike : P → P → Prop} {ext : Ext S P F} (hk : KeepsLight Alike ext) (features : List F)
    (scales : List Rat) {x y : Img S P} (h : LitAs Alike x y) (init : S) (gt : Option S) :
    BothWays (PreparedLit Alike) (prepBody ext features scales x init gt) (prepBody ext features scales y init gt) := by
  simp only [prepBody]
  refine both_bind (hk.reference _ _ h) fun v w hvw => ?_
  refine both_bind (prepLoop_lit hk hvw init _ none none _ _ ⟨List.Forall₂.nil, rfl, rfl⟩ trivial) fun p q hpq => ?_
  rw [mapM_getLm_lit hpq.images, mapM_getLm_lit hpq.images]
  refine both_bind (both_eq _) fun s s' hs => ?_
  subst hs
  refine both_bind (both_eq _) fun g g' hg => ?_
  subst hg
  exact ⟨hpq.images, rfl, rfl, hpq.affine, hpq.scale⟩

/-- Levels that differ only in the pixels. -/
structure LevelLit (Alike : P → P → Prop) (x y : Level S P F R) : Prop where
  feature : y.feature = x.feature
  sc : y.sc = x.sc
  image : LitAs Alike x.image y.image
  affine : y.affine = x.affine
  scale : y.scale = x.scale
  gt : y.gt = x.gt
  iters : y.iters = x.iters
  alg : y.alg = x.alg
  blind : ∀ v w, LitAs Alike v w → x.alg w = x.alg v

theorem fitLoop_lit {Alike : P → P → Prop} (final : R → S) {l l' : List (Level S P F R)}
    (h : List.Forall₂ (LevelLit Alike) l l') : ∀ shape, fitLoop final shape l' = fitLoop final shape l := by
  induction h with
  | nil => intro shape; rfl
  | @cons x y xs ys hx hxs ih =>
    intro shape
    have ha : y.alg y.image shape y.gt y.iters = x.alg x.image shape x.gt x.iters := by
      rw [hx.alg, hx.gt, hx.iters, hx.blind _ _ hx.image]
    cases hxs with
    | nil => simp only [fitLoop, ha]
    | @cons x2 y2 xs2 ys2 hx2 hxs2 =>
      have hc : ∀ r : R, carry y y2 (final r) = carry x x2 (final r) := by
        intro r
        simp only [carry, hx.feature, hx.sc, hx.affine, hx.scale, hx2.feature, hx2.sc, hx2.affine, hx2.scale]
      rw [fitLoop, fitLoop, ha]
      simp only [hc, ih]

theorem mkLevels_lit {Alike : P → P → Prop} (features : List F) (scales : List Rat) {images images' : List (Img S P)}
    (h : List.Forall₂ (LitAs Alike) images images') (affine scale : List (Equiv.Perm S)) (gts : Option (List S))
    (iters : List Int) (algs : List (Algorithm S P R))
    (halg : ∀ a ∈ algs, ∀ v w, LitAs Alike v w → a w = a v) :
    List.Forall₂ (LevelLit Alike) (mkLevels features scales images affine scale gts iters algs)
      (mkLevels features scales images' affine scale gts iters algs) := by
  simp only [mkLevels]
  generalize (match gts with
    | some l => l.map some
    | none => List.replicate scales.length none : List (Option S)) = gtl
  rw [List.forall₂_map_left_iff, List.forall₂_map_right_iff]
  have key : ∀ (X : List (Equiv.Perm S × Equiv.Perm S × Option S × Int × Algorithm S P R))
      (_ : ∀ x ∈ X, x.2.2.2.2 ∈ algs),
      List.Forall₂ (fun a b : F × Rat × Img S P × Equiv.Perm S × Equiv.Perm S × Option S × Int × Algorithm S P R =>
        LevelLit Alike (⟨a.1, a.2.1, a.2.2.1, a.2.2.2.1, a.2.2.2.2.1, a.2.2.2.2.2.1, a.2.2.2.2.2.2.1, a.2.2.2.2.2.2.2⟩)
          ⟨b.1, b.2.1, b.2.2.1, b.2.2.2.1, b.2.2.2.2.1, b.2.2.2.2.2.1, b.2.2.2.2.2.2.1, b.2.2.2.2.2.2.2⟩)
        (features.zip (scales.zip (images.zip X))) (features.zip (scales.zip (images'.zip X))) := by
    clear gtl
    intro X
    induction h generalizing X features scales with
    | nil => intro _; simp
    | cons hx _ ih =>
      intro hX
      cases X with
      | nil => simp
      | cons q X =>
        cases features with
        | nil => simp
        | cons f fs =>
          cases scales with
          | nil => simp
          | cons s ss =>
            simp only [List.zip_cons_cons]
            refine List.Forall₂.cons ⟨rfl, rfl, hx, rfl, rfl, rfl, rfl, rfl, ?_⟩
              (ih fs ss X fun x hx => hX x (List.mem_cons_of_mem _ hx))
            exact halg _ (hX q (List.mem_cons_self ..))
  refine key _ fun x hx => ?_
  have h1 := (List.of_mem_zip hx).2
  have h2 := (List.of_mem_zip h1).2
  have h3 := (List.of_mem_zip h2).2
  exact (List.of_mem_zip h3).2

end

end Lighting
end Menpofit
