import Verif.Lemmas.Expression
import Verif.Props.Lighting
/-!
# Fits that project the appearance out do not see the expression of the face (C149)
-/

namespace Menpofit
open Matrix GN

section
variable {K : Type} [Field K] [DecidableEq K] {n a m : Nat} {S Im W E : Type} [LinearOrder E]

/-- C149, project-out inverse compositional: two pictures which, from wherever they are warped, differ by what the
appearance model can express, maybe by something else at every step, get the same fit: the same shapes, shape
parameters, costs or error, with and without the prior, whatever the algorithm object fitted before. -/
theorem C149_inverse (z : Aam.Setup n a m K S Im W E) (hp : Spec.IsPinv z.A z.pinvA) (im im' : Im)
    (hd : Spec.DifferInExpression z im im') (J : Matrix (Fin m) (Fin n) K) (cache : Cache n m K)
    (hc : precompute (Aam.projectOutEnv z).Q J = .ok cache) (hist : List (Input S Im E)) (tol : E) (init : S)
    (maxIters : Int) (costs map : Bool) :
    (poRun (Aam.projectOutEnv z) true tol (afterRuns (Aam.projectOutEnv z) true tol cache hist)
        ⟨im', init, maxIters, costs, map⟩).2 =
      (poRun (Aam.projectOutEnv z) true tol (afterRuns (Aam.projectOutEnv z) true tol cache hist)
        ⟨im, init, maxIters, costs, map⟩).2 := by
  obtain ⟨e1, e2⟩ := Expression.keeps (Aam.projectOutEnv z) true tol cache hist
  refine Expression.run_rel hp.apa hp.ap_symm true (fun p => ?_) _ (fun _ c => ?_) tol init maxIters costs map
  · have h := hd p
    generalize z.warp im p = x at h
    generalize z.warp im' p = y at h
    cases x <;> cases y <;> simp only [Spec.BothWays] at h ⊢
    · exact h
    · exact ⟨h, fun hf => by cases hf⟩
  · rw [e1, e2]
    exact Lighting.precompute_blind (Expression.learned hp.apa c) hp.ap_symm J hc

/-- C149, project-out forward compositional: the same when the steepest descent images of the two pictures differ by
what the model can express, too. -/
theorem C149_forward (z : Aam.Setup n a m K S Im W E) (hp : Spec.IsPinv z.A z.pinvA) (im im' : Im)
    (hd : Spec.DifferInExpressionWhole z im im') (cache : Cache n m K) (tol : E) (init : S)
    (maxIters : Int) (costs map : Bool) :
    (poRun (Aam.projectOutEnv z) false tol cache ⟨im', init, maxIters, costs, map⟩).2 =
      (poRun (Aam.projectOutEnv z) false tol cache ⟨im, init, maxIters, costs, map⟩).2 := by
  refine Expression.run_rel hp.apa hp.ap_symm false (fun p => ?_) _ (fun h => by cases h) tol init maxIters costs map
  have h := hd p
  generalize z.warp im p = x at h
  generalize z.warp im' p = y at h
  cases x <;> cases y <;> simp only [Spec.BothWays] at h ⊢
  · exact h
  · exact ⟨h.1, fun _ => h.2⟩

/-- C149, Wiberg forward compositional (the inverse compositional one is missing: see
`C149_wiberg_inverse_violated`): the two pictures get the same shapes, shape parameters and costs; only the
appearance parameters differ. -/
theorem C149_wiberg_partial (z : Aam.Setup n a m K S Im W E) (hp : Spec.IsPinv z.A z.pinvA) (im im' : Im)
    (hd : Spec.DifferInExpressionWhole z im im') (map : Bool) (maxIters : Int) (tol : E) (costs : Bool) (init : S) :
    (Aam.run z .wiberg false map maxIters tol costs im' init).map Spec.ShapeFit =
      (Aam.run z .wiberg false map maxIters tol costs im init).map Spec.ShapeFit := by
  let g : (Fin n → K) × (Fin a → K) → (Fin n → K) × (Fin a → K) := fun x => (x.1, 0)
  let M (i : Im) : Optim.Machine (Aam.St n a m K W) S ((Fin n → K) × (Fin a → K)) K E :=
    { Aam.machine z .wiberg false map i with params := fun s => (s.p, 0) }
  have drop : ∀ (i : Im) (s : Aam.St n a m K W),
      (Optim.run (Aam.machine z .wiberg false map i) false maxIters tol costs s).2.map Spec.ShapeFit =
        (Optim.run (M i) false maxIters tol costs s).2.map Spec.ShapeFit := by
    intro i s
    rw [Lighting.run_lit (Aam.machine z .wiberg false map i) (M i) g id Eq maxIters tol
      (fun s t h => by subst h; rfl) (fun s t h => by subst h; rfl) (fun s t h => by subst h; rfl)
      (fun s t h => by subst h; exact ⟨rfl, fun e _ => rfl⟩) costs s s rfl]
    generalize (Optim.run (Aam.machine z .wiberg false map i) false maxIters tol costs s).2 = r
    cases r <;> simp [Except.map, Lighting.mapRun, Spec.ShapeFit, g, Function.comp_def]
  have hw := hd (z.setTarget init)
  simp only [Aam.run]
  generalize z.warp im (z.setTarget init) = x at hw
  generalize z.warp im' (z.setTarget init) = y at hw
  rcases x with _ | i <;> rcases y with _ | i' <;> simp only [Spec.BothWays] at hw
  · rw [hw]
  · dsimp only
    rw [drop, drop, Lighting.run_lit (M im) (M im') id id (Expression.WRel z) maxIters tol
      (fun s t h => by simp only [M, Aam.machine, h.p])
      (fun s t h => by simp only [M, h.p, id])
      (fun s t h => ?_)
      (fun s t h => Expression.wib_rel hp.apa hp.ap_symm map hd s t h) costs
      ⟨z.setTarget init, z.pinvA *ᵥ (z.mask i - z.aBar), i, 0⟩ ⟨z.setTarget init, z.pinvA *ᵥ (z.mask i' - z.aBar), i', 0⟩ ⟨rfl, hw.1, hw.2⟩]
    · generalize (Optim.run (M im) false maxIters tol costs _).2 = r
      cases r <;> simp [Except.map, Lighting.mapRun]
    · obtain ⟨c, hc⟩ := h.mask
      have e3 : z.mask t.i - z.aBar = z.mask s.i - z.aBar + z.A *ᵥ c := by rw [hc]; abel
      simp only [M, Aam.machine, Aam.cost, Lighting.projectOut_eq, e3, id]
      exact Lighting.po_cost (Expression.learned hp.apa c) hp.ap_symm _

end

/-! ### An instance -/

/-- Two features, one shape parameter, one appearance component; the brightness of the picture `(a, b)` changes from
place to place: it is `a` at the start and grows by `b` as the shape moves. -/
def eveningSetup : Aam.Setup 1 1 2 ℚ ℚ (ℚ × ℚ) (ℚ × ℚ × ℚ) ℚ where
  setTarget s := fun _ => s
  target p := p 0
  warp im p := .ok (p 0 + im.1 + im.2 * p 0, im.1 + im.2 * p 0, im.2)
  mask x := ![x.1, x.2.1]
  jacI x := !![1 + x.2.2; x.2.2]
  jacA _ := !![-1; 0]
  aBar := 0
  A := !![1; 1]
  pinvA := !![1 / 2, 1 / 2]
  priorS := 0
  priorA := 0
  dist s s' := |s - s'|

theorem evening_differ (a b : ℚ) : Spec.DifferInExpressionWhole eveningSetup (0, 0) (a, b) := by
  intro p
  refine ⟨⟨fun _ => a + b * p 0, ?_⟩, ⟨!![b], ?_⟩⟩
  · funext i
    fin_cases i <;> simp [eveningSetup, dotProduct]; ring
  · ext i j
    fin_cases i <;> fin_cases j <;> simp [eveningSetup, mul_apply]

theorem evening_pinv : Spec.IsPinv eveningSetup.A eveningSetup.pinvA := by
  constructor <;> simp only [eveningSetup] <;> decide +kernel

/-- The hypotheses of the three theorems are met by pictures that differ in another way at every place. -/
example : Spec.IsPinv eveningSetup.A eveningSetup.pinvA ∧ Spec.DifferInExpression eveningSetup (0, 0) (1, 2) ∧
    Spec.DifferInExpressionWhole eveningSetup (0, 0) (1, 2) ∧
    (∃ cache, precompute (Aam.projectOutEnv eveningSetup).Q !![-1; 0] = .ok cache) ∧
    eveningSetup.warp (0, 0) 0 ≠ eveningSetup.warp (1, 2) 0 := by
  refine ⟨evening_pinv, fun p => (evening_differ 1 2 p).1, evening_differ 1 2, ⟨_, lit_precompute_ok ?_⟩, ?_⟩
  · simp only [Aam.projectOutEnv, eveningSetup]
    decide +kernel
  · simp [eveningSetup]

/-! ### Where it fails -/

/-- Two features, the second of which is the appearance; the slope of the first depends on the appearance. -/
def smileSetup : Aam.Setup 1 1 2 ℚ ℚ ℚ (ℚ × ℚ) ℚ where
  setTarget s := fun _ => s
  target p := p 0
  warp im p := .ok (p 0 + 1, im)
  mask x := ![x.1, x.2]
  jacI _ := !![1; 0]
  jacA c := !![1 + c 0; 0]
  aBar := 0
  A := !![0; 1]
  pinvA := !![0, 1]
  priorS := 0
  priorA := 0
  dist s s' := |s - s'|

theorem smile_step (b : ℚ) (hb : 1 + b ≠ 0) :
    Aam.step smileSetup .wiberg true false b ⟨fun _ => 0, fun _ => b, (1, b), 0⟩ =
      (⟨fun _ => 1 / (1 + b), fun _ => b, (1 / (1 + b) + 1, b), ![-1, 0]⟩, .ok |0 - 1 / (1 + b)|) := by
  have hJ : Aam.jacobian smileSetup true ⟨fun _ => 0, fun _ => b, (1, b), 0⟩ = !![1 + b; 0] := rfl
  have hQ : Aam.projectOutMat smileSetup !![1 + b; 0] = !![1 + b; 0] := by
    rw [Lighting.projectOutMat_eq]
    ext i j
    fin_cases i <;> fin_cases j <;> simp [smileSetup, mul_apply, Fin.sum_univ_two]
  have he : smileSetup.mask (1, b) - smileSetup.aBar = ![1, b] := by
    funext i
    fin_cases i <;> simp [smileSetup]
  have hs : solveShapeMl (!![1 + b; 0]ᵀ * !![1 + b; 0]) !![1 + b; 0] ![1, b] = .ok (fun _ => -(1 / (1 + b))) := by
    rw [solveShapeMl, lamp_solve (d := fun _ => 1 / (1 + b))]
    · rfl
    · simp [mul_apply, Fin.sum_univ_two, hb]
    · funext i
      fin_cases i
      simp [mulVec, dotProduct, mul_apply, Fin.sum_univ_two]
  have hd : (fun _ => 0 : Fin 1 → ℚ) - (fun _ => -(1 / (1 + b))) = fun _ => 1 / (1 + b) := by
    funext i; simp
  have hv : !![1 + b; 0] *ᵥ (fun _ => -(1 / (1 + b)) : Fin 1 → ℚ) = ![-1, 0] := by
    funext i
    fin_cases i
    · simp [mulVec, dotProduct]; field_simp
    · simp [mulVec, dotProduct]
  simp only [Aam.step, Aam.wibStep, hJ, hQ, he, Bool.false_eq_true, if_false, hs, Aam.advance, Aam.updateWarp, if_true, hd, hv]
  simp only [smileSetup, Prod.mk.injEq, Aam.St.mk.injEq, and_true, true_and]
  funext i
  fin_cases i
  simp [Aam.appearance, dotProduct, Fin.sum_univ_two]

/-- C149 fails for Wiberg inverse compositional: it takes its steepest descent images from the current appearance, so
that two pictures that differ in expression only are fitted with different shapes. -/
theorem C149_wiberg_inverse_violated : ∃ (z : Aam.Setup 1 1 2 ℚ ℚ ℚ (ℚ × ℚ) ℚ) (im im' : ℚ),
    Spec.IsPinv z.A z.pinvA ∧ Spec.DifferInExpressionWhole z im im' ∧
    (Aam.run z .wiberg true false 1 0 false im 0).map (·.shapes) = .ok [0, 1] ∧
    (Aam.run z .wiberg true false 1 0 false im' 0).map (·.shapes) = .ok [0, 1 / 2] := by
  have hrun : ∀ b : ℚ, 1 + b ≠ 0 → (Aam.run smileSetup .wiberg true false 1 0 false b 0).map (·.shapes) =
      .ok [0, 1 / (1 + b)] := by
    intro b hb
    have h0 : smileSetup.warp b (smileSetup.setTarget 0) = .ok (1, b) := by simp [smileSetup]
    have hc : smileSetup.pinvA *ᵥ (smileSetup.mask (1, b) - smileSetup.aBar) = fun _ => b := by
      funext i
      fin_cases i
      simp [smileSetup, mulVec, dotProduct, Fin.sum_univ_two]
    have hp : smileSetup.setTarget 0 = fun _ => 0 := rfl
    simp only [Aam.run, h0, Optim.run]
    rw [hc, hp, loop_unfold, if_pos ⟨by decide, trivial⟩]
    have hm : (Aam.machine smileSetup .wiberg true false b).step = Aam.step smileSetup .wiberg true false b := rfl
    rw [hm, smile_step b hb]
    simp only
    rw [loop_unfold, if_neg (by simp)]
    simp [Aam.machine, Except.map, smileSetup]
  refine ⟨smileSetup, 0, 1, ?_, fun p => ⟨⟨fun _ => 1, ?_⟩, ⟨0, ?_⟩⟩, ?_, ?_⟩
  · constructor <;> simp only [smileSetup] <;> decide +kernel
  · funext i
    fin_cases i <;> simp [smileSetup, mulVec, dotProduct]
  · simp [smileSetup]
  · rw [hrun 0 (by norm_num)]; simp
  · rw [hrun 1 (by norm_num)]; norm_num

end Menpofit
