import Verif.Lemmas.Aps
import Verif.Lemmas.SharedWitness
import Verif.Props.GaussNewton
/-!
# C104: the steps and the costs of active pictorial structures
-/

namespace Menpofit
open Matrix MI Homog Shared Spec

variable {n m M : Nat}

/-- **C104** (forward): an increment computed by the forward algorithm is the only minimiser of the
linearised appearance error plus the weighted deformation of the updated parameters, where the
gradient is that of the image at the current shape and the points move as the shape model moved them
when the algorithm object was made (`J`). -/
theorem C104_forward (a : Aps n m M) (hA : SymmPsd a.Qa) (hD : SymmPsd a.Qd) (hw : 0 ≤ a.weight)
    {k : Nat} {J : Matrix (Fin (n * 2)) (Fin k) ℝ} {d} (hpre : (apsForward a).pre k J = .ok d)
    {im : ApsImage n m} {s : Pts n 2} {p dp : Fin k → ℝ}
    (h : (apsForward a).step d im s p = .ok dp) :
    ∃ i, im.warp s = .ok i ∧
      UniqueMin (apsEnergy a (im.gradient s) (moves J) (fun q => i q - a.abar q)
        (fun c => if a.useProcrustes = true ∧ c.val < 4 then 0 else p c)) dp := by
  injection hpre with hpre
  subst hpre
  simp only [apsForward] at h
  cases hi : im.warp s with
  | error e => rw [hi] at h; cases h
  | ok i =>
    rw [hi] at h
    obtain ⟨hQ, hQp⟩ := symmPsd_iff hA
    obtain ⟨hQ', hQp'⟩ := symmPsd_iff hD
    refine ⟨i, rfl, fun d' => ?_⟩
    rw [apsEnergy_eq, apsEnergy_eq]
    exact C17_aps_forward _ _ _ _ _ _ hQ hQp (hessianS_symm a hQ' J)
      (fun x => by rw [hessianS_quad]; exact mul_nonneg hw (hQp' _)) h d'

/-- **C104** (inverse): the same with the gradient of the template. -/
theorem C104_inverse (a : Aps n m M) (hA : SymmPsd a.Qa) (hD : SymmPsd a.Qd) (hw : 0 ≤ a.weight)
    {k : Nat} {J : Matrix (Fin (n * 2)) (Fin k) ℝ} {d} (hpre : (apsInverse a).pre k J = .ok d)
    {im : ApsImage n m} {s : Pts n 2} {p dp : Fin k → ℝ}
    (h : (apsInverse a).step d im s p = .ok dp) :
    ∃ i, im.warp s = .ok i ∧
      UniqueMin (apsEnergy a a.nabla (moves J) (fun q => i q - a.abar q)
        (fun c => if a.useProcrustes = true ∧ c.val < 4 then 0 else p c)) dp := by
  simp only [apsInverse] at hpre h
  obtain ⟨hQ, hQp⟩ := symmPsd_iff hA
  obtain ⟨hQ', hQp'⟩ := symmPsd_iff hD
  cases hinv : GN.npInv ((a.Qa * sdi a.part a.nabla J)ᵀ * sdi a.part a.nabla J + hessianS a J) with
  | error e => rw [hinv] at hpre; cases hpre
  | ok G =>
    rw [hinv] at hpre
    injection hpre with hpre
    subst hpre
    cases hi : im.warp s with
    | error e => rw [hi] at h; cases h
    | ok i =>
      rw [hi] at h
      injection h with h
      subst h
      obtain ⟨h1, h2⟩ := npInv_ok hinv
      rw [transpose_mul, hQ] at h1 h2
      refine ⟨i, rfl, fun d' => ?_⟩
      rw [apsEnergy_eq, apsEnergy_eq]
      refine regEnergy_min hQ hQp _ _ (hessianS_symm a hQ' J)
        (fun x => by rw [hessianS_quad]; exact mul_nonneg hw (hQp' _)) _ _ h1 ?_ d'
      simp only [transpose_mul, hQ]
      rw [mulVec_neg, mulVec_mulVec, h2, one_mulVec, ← mulVec_mulVec]
      rfl

/-- **C104** (costs): when all pixels are sampled, a run asked for costs reports for every shape it
visited the Mahalanobis norm of the appearance error, the weighted Mahalanobis norm of the shape's
distance from the mean, and their sum; a run not asked for costs reports none. -/
theorem C104_costs_partial (a : Aps n m m) (K : Kind n (ApsImage n m) (ℝ × ℝ × ℝ))
    (hK : K = apsInverse a ∨ K = apsForward a) (alg : Alg K) {eps : ℝ} {r : Request (ApsImage n m)}
    {p : OPdm n} {tr} (h : (run K alg eps r p).2 = .ok tr) :
    (r.costs = false → tr.costs = none) ∧
    (r.costs = true → ∃ cs, tr.costs = some cs ∧ cs.length = tr.shapes.length ∧
      ∀ j (hj : j < tr.shapes.length) (hj' : j < cs.length), ∃ i app defo,
        r.im.warp tr.shapes[j] = .ok i ∧
        app = (∑ q, ∑ q', (i q - a.abar q) * a.Qall q q' * (i q' - a.abar q')) ∧
        defo = (∑ u, ∑ v, (tr.shapes[j] (finProdFinEquiv.symm u) - a.dbar u) * a.Qd u v *
          (tr.shapes[j] (finProdFinEquiv.symm v) - a.dbar v)) * a.weight ∧
        cs[j] = (app, defo, app + defo)) := by
  obtain ⟨N, st, h0, hs, hst, hsh, _, hco⟩ := run_ok h
  have hrep : K.reports = true := by rcases hK with rfl | rfl <;> rfl
  have hcost : ∀ s, K.cost r.im s = apsCosts a r.im s := by intro s; rcases hK with rfl | rfl <;> rfl
  have hstart : apsStart a r.im r.costs (st 0).target = .ok () := by
    rcases hK with rfl | rfl <;> exact hs
  have hafter : ∀ s, K.after r.im s = (r.im.warp s).map fun _ => () := by
    intro s; rcases hK with rfl | rfl <;> rfl
  have hw : ∀ i, i ≤ N → ∃ x, r.im.warp (st i).target = .ok x := by
    intro i hi
    cases i with
    | zero =>
      cases hx : r.im.warp (st 0).target with
      | ok x => exact ⟨x, rfl⟩
      | error e => simp only [apsStart, hx, bind, Except.bind] at hstart; cases hstart
    | succ i =>
      obtain ⟨_, _, _, _, ha⟩ := hst i (by omega)
      rw [hafter] at ha
      cases hx : r.im.warp (st (i + 1)).target with
      | ok x => exact ⟨x, rfl⟩
      | error e => rw [hx] at ha; cases ha
  rw [hrep, Bool.and_true] at hco
  refine ⟨fun hc => by rw [hco, hc]; rfl, fun hc => ?_⟩
  rw [hc, if_pos rfl] at hco
  refine ⟨_, hco, by rw [hsh]; simp, fun j hj hj' => ?_⟩
  have hjN : j ≤ N := by rw [hsh] at hj; simp at hj; omega
  obtain ⟨x, hx⟩ := hw j hjN
  have e : tr.shapes[j] = (st j).target := by simp only [hsh]; simp
  refine ⟨x, _, _, by rw [e]; exact hx, rfl, rfl, ?_⟩
  simp only [List.getElem_map, List.getElem_range, hcost]
  rw [apsCosts_eq a r.im hx, e]
  have q1 := quad_sum a.Qall (x - a.abar)
  have q2 := quad_sum a.Qd (shapeVector (st j).target - a.dbar)
  simp only [Pi.sub_apply, shapeVector] at q1 q2
  rw [q1, q2]
  rfl

/-- **C104** (costs, violated): when only some of the pixels are sampled, a run asked for costs always
raises `ValueError` (once the initial shape is accepted and the image can be warped), whatever the
image: the cost of the masked error is taken with the precision of all pixels. -/
theorem C104_costs_violated (a : Aps n m M) (hm : m ≠ M) (K : Kind n (ApsImage n m) (ℝ × ℝ × ℝ))
    (hK : K = apsInverse a ∨ K = apsForward a) (alg : Alg K) {eps : ℝ} {r : Request (ApsImage n m)}
    {p : OPdm n} (hc : r.costs = true) (hi : (oSetTarget p r.init).2 = .ok ())
    (hw : ∀ s, ∃ i, r.im.warp s = .ok i) : (run K alg eps r p).2 = .error .valueError := by
  have hstart : ∀ s, K.start r.im r.costs s = .error .valueError := by
    intro s
    obtain ⟨i, hi⟩ := hw s
    have : apsStart a r.im true s = .error .valueError := by
      simp only [apsStart, hi, bind, Except.bind, if_true, appearanceCost, dif_neg hm]
    rw [hc]
    rcases hK with rfl | rfl <;> exact this
  unfold run
  obtain ⟨x, hx⟩ : ∃ x, x = oSetTarget p r.init := ⟨_, rfl⟩
  rw [← hx] at hi ⊢
  obtain ⟨q, y⟩ := x
  simp only at hi
  subst hi
  simp only [hstart]

/-- **C104** (sampling): the precision used for sampled pixels is the one of the full model for errors
that vanish at the other pixels. -/
theorem C104_sampling (mask : Fin m → Fin M) (hinj : Function.Injective mask)
    (Q : Matrix (Fin M) (Fin M) ℝ) (E : Fin M → ℝ) (hE : ∀ i, (∀ q, mask q ≠ i) → E i = 0) :
    ∑ q, ∑ q', E (mask q) * maskedPrecision mask Q q q' * E (mask q') =
      ∑ i, ∑ j, E i * Q i j * E j := by
  have red : ∀ f : Fin M → ℝ, (∀ i, (∀ q, mask q ≠ i) → f i = 0) → ∑ q, f (mask q) = ∑ i, f i := by
    intro f hf
    exact Fintype.sum_of_injective mask hinj (fun q => f (mask q)) f (fun i hi => hf i (by simpa using hi)) fun _ => rfl
  have e1 : ∀ q, ∑ q', E (mask q) * maskedPrecision mask Q q q' * E (mask q') =
      ∑ j, E (mask q) * Q j (mask q) * E j := by
    intro q
    exact red (fun j => E (mask q) * Q j (mask q) * E j) fun j hj => by simp [hE j hj]
  simp only [e1]
  rw [red (fun i => ∑ j, E i * Q j i * E j) fun i hi => by simp [hE i hi], Finset.sum_comm]
  exact Finset.sum_congr rfl fun i _ => Finset.sum_congr rfl fun j _ => by ring

/-- The hypotheses of the theorems above are met by a concrete APS: both algorithms can be made from a
fresh model, make a step from anywhere, and run one iteration with costs. -/
example (K) (hK : K = apsInverse xAps ∨ K = apsForward xAps) :
    SymmPsd xAps.Qa ∧ SymmPsd xAps.Qd ∧ 0 ≤ xAps.weight ∧
    ∃ a tr, build K none (xAt 1 0) = (xAt 1 0, .ok a) ∧
      (∀ s p, ∃ dp, K.step a.data xImage s p = .ok dp) ∧
      (run K a 0 ⟨xImage, ⟨4, 2, MI.cross⟩, 1, true⟩ (xAt 1 0)).2 = .ok tr ∧ tr.shapes.length = 2 :=
  ⟨x_psd, x_psd, zero_le_one, x_aps_run K hK⟩

/-- Half of the pixels of an APS: the hypotheses of `C104_costs_violated` and of `C104_sampling`. -/
example : (4 ≠ 4 * 2) ∧ (oSetTarget (xAt 1 0) ⟨4, 2, (1 : ℝ) • MI.cross⟩).2 = .ok () ∧
    Function.Injective (fun q : Fin 4 => (⟨2 * q.val, by omega⟩ : Fin 8)) := by
  refine ⟨by decide, by rw [x_setTarget one_ne_zero], fun a b h => ?_⟩
  simp only [Fin.mk.injEq] at h
  omega

end Menpofit
