import Verif.Lemmas.Resume
import Verif.Lemmas.AamSolvers
/-!
# AAM algorithms whose fits cannot be resumed (C131)
-/

namespace Menpofit
open Optim Spec Matrix GN Aam

/-- Two features, one component of appearance and one of shape; the picture is the same everywhere and the gradient
of the template changes with the appearance. -/
noncomputable def driftSetup : Setup 1 1 2 ℚ ℚ Unit (Fin 2 → ℚ) ℚ where
  setTarget s := fun _ => s
  target p := p 0
  warp _ _ := .ok ![0, 1]
  mask w := w
  jacI _ := !![1; 2]
  jacA c := !![1; 2 + c 0]
  aBar := 0
  A := !![1; 0]
  pinvA := !![1, 0]
  priorS := 1
  priorA := 1
  dist s s' := |s - s'|

theorem npSolve_intro {n : Nat} {H : Matrix (Fin n) (Fin n) ℚ} {b d : Fin n → ℚ} (h : H.det ≠ 0) (hd : H *ᵥ d = b) :
    npSolve H b = .ok d := by
  rw [npSolve, if_neg h, ← hd, mulVec_mulVec, nonsing_inv_mul _ (isUnit_iff_ne_zero.2 h), one_mulVec]

theorem drift_alternating (inverse : Bool) (p c : Fin 1 → ℚ) (q : Fin 2 → ℚ) :
    step driftSetup .alternating inverse false () ⟨p, c, ![0, 1], q⟩ =
      (let g := if inverse then 2 + c 0 else 2
       let dp := -((g - q 0) / (1 + g ^ 2))
       let p' := if inverse then p 0 - dp else p 0 + dp
       (⟨fun _ => p', fun _ => q 0, ![0, 1], ![dp, g * dp]⟩, .ok |p 0 - p'|)) := by
  obtain ⟨g, hg⟩ : ∃ g, g = if inverse then 2 + c 0 else 2 := ⟨_, rfl⟩
  have hJ : jacobian driftSetup inverse ⟨p, c, ![0, 1], q⟩ = !![1; g] := by
    cases inverse <;> simp [jacobian, driftSetup, hg]
  have hpos : (1 + g ^ 2) ≠ 0 := by positivity
  have hdc : altAppearance driftSetup false ⟨p, c, ![0, 1], q⟩ = .ok fun _ => q 0 - c 0 := by
    simp only [altAppearance, Bool.false_eq_true, if_false]
    congr 1
    funext i
    fin_cases i
    simp [driftSetup, appearance, mulVec, dotProduct, vecHead, vecTail]
    ring
  have hsol : altShape driftSetup inverse false ⟨p, c, ![0, 1], q⟩ (fun _ => q 0 - c 0) =
      .ok fun _ => -((g - q 0) / (1 + g ^ 2)) := by
    simp only [altShape, Bool.false_eq_true, if_false, hJ, solveShapeMl]
    rw [npSolve_intro (d := fun _ => (g - q 0) / (1 + g ^ 2))]
    · rfl
    · simp [det_fin_one, mul_apply, Fin.sum_univ_two]
      intro h; apply hpos; rw [← h]; ring
    · funext i
      fin_cases i
      simp [driftSetup, appearance, mulVec, dotProduct, mul_apply, Fin.sum_univ_two, vecHead, vecTail]
      field_simp
      ring
  simp only [step, altStep, hdc, hsol, advance, hJ]
  have e1 : !![1; g] *ᵥ (fun _ => -((g - q 0) / (1 + g ^ 2))) =
      ![-((g - q 0) / (1 + g ^ 2)), g * -((g - q 0) / (1 + g ^ 2))] := by
    funext i; fin_cases i <;> simp [mulVec, dotProduct]
  have e2 : c + (fun _ => q 0 - c 0) = fun _ => q 0 := by funext i; fin_cases i; simp
  rw [e1, e2, ← hg]
  cases inverse
  · simp [driftSetup, updateWarp, funext_iff, Fin.forall_fin_one]
  · simp [driftSetup, updateWarp, funext_iff, Fin.forall_fin_one]

theorem drift_inverse (alg : Alg) (h : alg = .simultaneous ∨ alg = .wiberg) (p c : Fin 1 → ℚ) (hc : 2 + c 0 ≠ 0)
    (q : Fin 2 → ℚ) : ∃ q',
    step driftSetup alg true false () ⟨p, c, ![0, 1], q⟩ =
      (⟨fun _ => p 0 + (2 + c 0)⁻¹, fun _ => -(2 + c 0)⁻¹, ![0, 1], q'⟩, .ok |p 0 - (p 0 + (2 + c 0)⁻¹)|) := by
  obtain ⟨g, hg⟩ : ∃ g, g = 2 + c 0 := ⟨_, rfl⟩
  rw [← hg] at hc ⊢
  have hJ : jacobian driftSetup true ⟨p, c, ![0, 1], q⟩ = !![1; g] := by
    simp [jacobian, driftSetup, hg]
  rcases h with rfl | rfl
  · have hsol : solveAllMl ((simJacobian driftSetup.A !![1; g])ᵀ * simJacobian driftSetup.A !![1; g])
        (simJacobian driftSetup.A !![1; g]) (![0, 1] - appearance driftSetup c) =
        .ok (fun _ => -c 0 - g⁻¹, fun _ => -g⁻¹) := by
      unfold solveAllMl
      have hS : simJacobian driftSetup.A !![1; g] = (!![-1, 1; 0, g] : Matrix (Fin 2) (Fin 2) ℚ) := by
        ext i j
        fin_cases i <;> fin_cases j <;> simp [simJacobian, driftSetup, Fin.append, Fin.addCases]
      rw [hS, npSolve_intro (n := 2) (d := ![c 0 + g⁻¹, g⁻¹])]
      · simp only [Except.map]
        congr 2
        · funext i; fin_cases i; simp; ring
        · funext i; fin_cases i; simp
      · rw [det_mul, det_transpose, det_fin_two]; simp [hc]
      · rw [← mulVec_mulVec]
        congr 1
        funext i
        fin_cases i <;> simp [driftSetup, appearance, mulVec, dotProduct, Fin.sum_univ_two, hc, vecHead, vecTail]
    refine ⟨!![1; g] *ᵥ fun _ => -g⁻¹, ?_⟩
    simp only [step, simStep, hJ, Bool.false_eq_true, if_false]
    rw [show driftSetup.mask ![0, 1] = ![0, 1] from rfl, hsol]
    simp only [advance]
    rw [show driftSetup.warp () (updateWarp true p fun _ => -g⁻¹) = .ok ![0, 1] from rfl]
    simp only
    congr 1
    · congr 1
      · funext i; fin_cases i; simp [updateWarp]
      · funext i; fin_cases i; simp; ring
    · simp [driftSetup, updateWarp]
  · have hQ : projectOutMat driftSetup !![1; g] = !![0; g] := by
      ext i j
      fin_cases i <;> fin_cases j <;> simp [projectOutMat, driftSetup, mul_apply, Fin.sum_univ_two]
    have hsol : solveShapeMl (!![0; g]ᵀ * !![1; g]) !![0; g] (![0, 1] - driftSetup.aBar) =
        .ok (fun _ => -g⁻¹) := by
      unfold solveShapeMl
      rw [npSolve_intro (d := fun _ => g⁻¹)]
      · rfl
      · simp [det_fin_one, mul_apply, Fin.sum_univ_two, hc]
      · funext i
        fin_cases i
        simp [driftSetup, mulVec, dotProduct, mul_apply, Fin.sum_univ_two, hc]
    refine ⟨!![1; g] *ᵥ fun _ => -g⁻¹, ?_⟩
    simp only [step, wibStep, hJ, hQ, Bool.false_eq_true, if_false]
    rw [show driftSetup.mask ![0, 1] = ![0, 1] from rfl, hsol]
    simp only [advance]
    rw [show driftSetup.warp () (updateWarp true p fun _ => -g⁻¹) = .ok ![0, 1] from rfl]
    simp only
    congr 1
    · congr 1
      · funext i; fin_cases i; simp [updateWarp]
      · funext i; fin_cases i
        simp [driftSetup, appearance, mulVec, dotProduct, vecHead, vecTail]
    · simp [driftSetup, updateWarp]

/-- One iteration. -/
theorem run_one_step {σ S V C E : Type} [LinearOrder E] (mc : Machine σ S V C E) {tol e1 : E} {s0 s1 : σ}
    (h1 : mc.step s0 = (s1, .ok e1)) :
    Optim.run mc false (1 : Nat) tol false s0 = (s1, .ok ⟨[mc.shape s0, mc.shape s1], [mc.params s0, mc.params s1], none⟩) := by
  unfold Optim.run
  rw [loop_unfold, if_pos ⟨by norm_num, trivial⟩, h1]
  simp only
  rw [loop_unfold, if_neg (by norm_num)]
  rfl

/-- Two iterations. -/
theorem run_two_steps {σ S V C E : Type} [LinearOrder E] (mc : Machine σ S V C E) {tol e1 e2 : E} {s0 s1 s2 : σ}
    (h1 : mc.step s0 = (s1, .ok e1)) (ht : tol < e1) (h2 : mc.step s1 = (s2, .ok e2)) :
    Optim.run mc false (1 : Nat) tol false s0 = (s1, .ok ⟨[mc.shape s0, mc.shape s1], [mc.params s0, mc.params s1], none⟩) ∧
    Optim.run mc false (2 : Nat) tol false s0 = (s2, .ok ⟨[mc.shape s0, mc.shape s1, mc.shape s2],
      [mc.params s0, mc.params s1, mc.params s2], none⟩) := by
  constructor
  · unfold Optim.run
    rw [loop_unfold, if_pos ⟨by norm_num, trivial⟩, h1]
    simp only
    rw [loop_unfold, if_neg (by norm_num)]
    rfl
  · unfold Optim.run
    rw [loop_unfold, if_pos ⟨by norm_num, trivial⟩, h1]
    simp only
    rw [loop_unfold, if_pos ⟨by norm_num, ht⟩, h2]
    simp only
    rw [loop_unfold, if_neg (by norm_num)]
    rfl

/-- **C131** (violated).  Fits of the alternating algorithms, and of the inverse simultaneous and Wiberg algorithms,
cannot be resumed: what they know about the appearance besides its projection (the last increments) is lost.  Here
every shape is an instance of the model, the first fit is still moving, and one more iteration from its final shape
ends somewhere else than two iterations from the start. -/
theorem C131_resume_violated (alg : Alg) (inverse : Bool)
    (halg : alg = .alternating ∨ inverse = true ∧ (alg = .simultaneous ∨ alg = .wiberg)) :
    ∃ z : Setup 1 1 2 ℚ ℚ Unit (Fin 2 → ℚ) ℚ, IsPinv z.A z.pinvA ∧ (∀ p, z.setTarget (z.target p) = p) ∧
      ∃ tr₁ tr₂ tr final, Aam.run z alg inverse false (1 : Nat) 0 false () 0 = .ok tr₁ ∧
        StillMoving z.dist 0 tr₁.shapes ∧ tr₁.shapes.getLast? = some final ∧
        Aam.run z alg inverse false (1 : Nat) 0 false () final = .ok tr₂ ∧
        Aam.run z alg inverse false (2 : Nat) 0 false () 0 = .ok tr ∧
        (continued tr₁ tr₂).shapes ≠ tr.shapes := by
  have hset : ∀ p, driftSetup.setTarget (driftSetup.target p) = p := by
    intro p; funext i; fin_cases i; rfl
  have hpinv : IsPinv driftSetup.A driftSetup.pinvA := by
    constructor <;>
    · ext i j
      fin_cases i <;> fin_cases j <;> simp [driftSetup, mul_apply, Fin.sum_univ_two]
  have hrun : ∀ (n : Nat) (s : ℚ), Aam.run driftSetup alg inverse false n 0 false () s =
      (Optim.run (machine driftSetup alg inverse false ()) false n 0 false
        ⟨fun _ => s, fun _ => 0, ![0, 1], 0⟩).2 := by
    intro n s
    have e : driftSetup.pinvA *ᵥ (driftSetup.mask ![0, 1] - driftSetup.aBar) = fun _ => 0 := by
      funext i; fin_cases i; simp [driftSetup, mulVec, dotProduct, Fin.sum_univ_two]
    simp only [Aam.run]
    rw [show driftSetup.warp () (driftSetup.setTarget s) = .ok ![0, 1] from rfl]
    simp only [e]
    rfl
  -- three iterations suffice
  have key : ∃ (x y z : ℚ) (c1 c2 c3 : Fin 1 → ℚ) (q1 q2 q3 : Fin 2 → ℚ),
      step driftSetup alg inverse false () ⟨fun _ => 0, fun _ => 0, ![0, 1], 0⟩ =
        (⟨fun _ => x, c1, ![0, 1], q1⟩, .ok |0 - x|) ∧
      step driftSetup alg inverse false () ⟨fun _ => x, c1, ![0, 1], q1⟩ =
        (⟨fun _ => y, c2, ![0, 1], q2⟩, .ok |x - y|) ∧
      step driftSetup alg inverse false () ⟨fun _ => x, fun _ => 0, ![0, 1], 0⟩ =
        (⟨fun _ => z, c3, ![0, 1], q3⟩, .ok |x - z|) ∧ x ≠ 0 ∧ x ≠ z ∧ y ≠ z := by
    rcases halg with rfl | ⟨rfl, halg⟩
    · cases inverse
      · refine ⟨-2/5, -22/25, -4/5, fun _ => 0, fun _ => -2/5, fun _ => 0, ![-2/5, -4/5], ![-12/25, -24/25],
          ![-2/5, -4/5], ?_, ?_, ?_, by norm_num, by norm_num, by norm_num⟩ <;>
          (rw [drift_alternating]; norm_num)
      · refine ⟨2/5, 22/25, 4/5, fun _ => 0, fun _ => -2/5, fun _ => 0, ![-2/5, -4/5], ![-12/25, -24/25],
          ![-2/5, -4/5], ?_, ?_, ?_, by norm_num, by norm_num, by norm_num⟩ <;>
          (rw [drift_alternating]; norm_num)
    · obtain ⟨q1, h1⟩ := drift_inverse alg halg (fun _ => 0) (fun _ => 0) (by norm_num) 0
      obtain ⟨q2, h2⟩ := drift_inverse alg halg (fun _ => 1/2) (fun _ => -1/2) (by norm_num) q1
      obtain ⟨q3, h3⟩ := drift_inverse alg halg (fun _ => 1/2) (fun _ => 0) (by norm_num) 0
      refine ⟨1/2, 7/6, 1, fun _ => -1/2, fun _ => -2/3, fun _ => -1/2, q1, q2, q3, ?_, ?_, ?_, by norm_num, by norm_num,
        by norm_num⟩
      · rw [h1]; norm_num
      · rw [h2]; norm_num
      · rw [h3]; norm_num
  obtain ⟨x, y, w, c1, c2, c3, q1, q2, q3, h1, h2, h3, hx, hxw, hyw⟩ := key
  have g1 := run_two_steps (machine driftSetup alg inverse false ()) (tol := 0) h1 (by simp [hx]) h2
  have g2 := run_one_step (machine driftSetup alg inverse false ()) (tol := 0) h3
  refine ⟨driftSetup, hpinv, hset, _, _, _, x, (hrun 1 0).trans (congrArg Prod.snd g1.1), ?_, rfl,
    (hrun 1 x).trans (congrArg Prod.snd g2), (hrun 2 0).trans (congrArg Prod.snd g1.2), ?_⟩
  rotate_left
  · simp [continued, machine, driftSetup, hyw.symm]
  · intro pre s s' he
    have he' : [(0 : ℚ), x] = pre ++ [s, s'] := he
    cases pre with
    | nil =>
      simp at he'
      obtain ⟨rfl, rfl⟩ := he'
      simp [driftSetup, hx]
    | cons u us =>
      have := congrArg List.length he'
      simp at this

/-- The hypotheses of `C131_resume_modified` are met by the same model, forward and inverse. -/
example (inverse : Bool) : ∃ tr x c, Aam.run driftSetup .modifiedAlternating inverse false (1 : Nat) 0 false () 0 = .ok tr ∧
    tr.shapes = [0, x] ∧ 0 < driftSetup.dist 0 x ∧ tr.params.getLast? = some (fun _ => x, c) ∧
    driftSetup.setTarget x = fun _ => x := by
  have e : driftSetup.pinvA *ᵥ (driftSetup.mask ![0, 1] - driftSetup.aBar) = fun _ => 0 := by
    funext i; fin_cases i; simp [driftSetup, mulVec, dotProduct, Fin.sum_univ_two]
  have hJ : jacobian driftSetup inverse ⟨fun _ => 0, fun _ => 0, ![0, 1], 0⟩ = !![1; 2] := by
    cases inverse <;> simp [jacobian, driftSetup]
  have hstep : ∃ q, (machine driftSetup .modifiedAlternating inverse false ()).step
      ⟨fun _ => 0, fun _ => 0, ![0, 1], 0⟩ =
      (⟨fun _ => if inverse then 2/5 else -2/5, fun _ => 0, ![0, 1], q⟩,
        .ok |0 - (if inverse then 2/5 else -2/5)|) := by
    have hsol : solveShapeMl ((!![1; 2] : Matrix (Fin 2) (Fin 1) ℚ)ᵀ * (!![1; 2] : Matrix (Fin 2) (Fin 1) ℚ)) !![1; 2]
        (![0, 1] - appearance driftSetup fun _ => 0) = .ok (fun _ => -2/5) := by
      unfold solveShapeMl
      rw [npSolve_intro (d := fun _ => 2/5)]
      · simp only [Except.map]; congr 1; funext i; simp; norm_num
      · simp [det_fin_one, mul_apply, Fin.sum_univ_two]; norm_num
      · funext i
        fin_cases i
        simp [driftSetup, appearance, mulVec, dotProduct, mul_apply, Fin.sum_univ_two]
        norm_num
    refine ⟨!![1; 2] *ᵥ fun _ => -2/5, ?_⟩
    simp only [machine, step, modStep, hJ, Bool.false_eq_true, if_false]
    rw [show driftSetup.mask ![0, 1] = ![0, 1] from rfl, hsol]
    simp only [advance]
    rw [show driftSetup.warp () (updateWarp inverse (fun _ => 0) fun _ => -2/5) = .ok ![0, 1] from rfl]
    simp only [e]
    cases inverse
    · simp [updateWarp, driftSetup, funext_iff]
    · simp [updateWarp, driftSetup, funext_iff]; norm_num
  obtain ⟨q, hq⟩ := hstep
  have h := run_one_step _ (tol := 0) hq
  have hrun : Aam.run driftSetup .modifiedAlternating inverse false (1 : Nat) 0 false () 0 =
      (Optim.run (machine driftSetup .modifiedAlternating inverse false ()) false (1 : Nat) 0 false
        ⟨fun _ => 0, fun _ => 0, ![0, 1], 0⟩).2 := by
    simp only [Aam.run]
    rw [show driftSetup.warp () (driftSetup.setTarget 0) = .ok ![0, 1] from rfl]
    simp only [e]
    rfl
  refine ⟨_, if inverse then 2/5 else -2/5, fun _ => 0, hrun.trans (congrArg Prod.snd h), rfl, ?_, rfl, rfl⟩
  cases inverse <;> simp [driftSetup] <;> norm_num

/-- The hypotheses of `C131_resume_forward` are met by the same model. -/
example : driftSetup.pinvA * driftSetup.A = 1 ∧ ∃ tr x c,
    Aam.run driftSetup .wiberg false false (1 : Nat) 0 false () 0 = .ok tr ∧
    tr.shapes = [0, x] ∧ 0 < driftSetup.dist 0 x ∧ tr.params.getLast? = some (fun _ => x, c) ∧
    driftSetup.setTarget x = fun _ => x := by
  refine ⟨by ext i j; fin_cases i; fin_cases j; simp [driftSetup, mul_apply, Fin.sum_univ_two], ?_⟩
  have e : driftSetup.pinvA *ᵥ (driftSetup.mask ![0, 1] - driftSetup.aBar) = fun _ => 0 := by
    funext i; fin_cases i; simp [driftSetup, mulVec, dotProduct, Fin.sum_univ_two]
  have hstep : ∃ c q, (machine driftSetup .wiberg false false ()).step ⟨fun _ => 0, fun _ => 0, ![0, 1], 0⟩ =
      (⟨fun _ => -1/2, c, ![0, 1], q⟩, .ok |0 - -1/2|) := by
    have hQ : projectOutMat driftSetup !![1; 2] = !![0; 2] := by
      ext i j
      fin_cases i <;> fin_cases j <;> simp [projectOutMat, driftSetup, mul_apply, Fin.sum_univ_two]
    have hsol : solveShapeMl ((!![0; 2] : Matrix (Fin 2) (Fin 1) ℚ)ᵀ * (!![1; 2] : Matrix (Fin 2) (Fin 1) ℚ)) !![0; 2]
        (![0, 1] - driftSetup.aBar) = .ok (fun _ => -1/2) := by
      unfold solveShapeMl
      rw [npSolve_intro (d := fun _ => 1/2)]
      · simp only [Except.map]; congr 1; funext i; simp; norm_num
      · simp [det_fin_one, mul_apply, Fin.sum_univ_two]
      · funext i
        fin_cases i
        simp [driftSetup, mulVec, dotProduct, mul_apply, Fin.sum_univ_two]
    refine ⟨(fun _ => 0) + driftSetup.pinvA *ᵥ (driftSetup.mask ![0, 1] - appearance driftSetup (fun _ => 0) +
      !![1; 2] *ᵥ fun _ => -1/2), !![1; 2] *ᵥ fun _ => -1/2, ?_⟩
    simp only [machine, step, wibStep, jacobian, Bool.false_eq_true, if_false]
    rw [show driftSetup.jacI ![0, 1] = !![1; 2] from rfl, hQ, show driftSetup.mask ![0, 1] = ![0, 1] from rfl, hsol]
    simp only [advance]
    rw [show driftSetup.warp () (updateWarp false (fun _ => 0) fun _ => -1/2) = .ok ![0, 1] from rfl]
    simp only [updateWarp, driftSetup, Bool.false_eq_true, if_false]
    congr 1
    · congr 1
      funext i; simp
    · simp
  obtain ⟨c, q, hq⟩ := hstep
  have h := run_one_step _ (tol := 0) hq
  have hrun : Aam.run driftSetup .wiberg false false (1 : Nat) 0 false () 0 =
      (Optim.run (machine driftSetup .wiberg false false ()) false (1 : Nat) 0 false
        ⟨fun _ => 0, fun _ => 0, ![0, 1], 0⟩).2 := by
    simp only [Aam.run]
    rw [show driftSetup.warp () (driftSetup.setTarget 0) = .ok ![0, 1] from rfl]
    simp only [e]
    rfl
  exact ⟨_, -1/2, c, hrun.trans (congrArg Prod.snd h), rfl, by simp [driftSetup], rfl, rfl⟩

end Menpofit
