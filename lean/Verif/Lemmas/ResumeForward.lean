import Verif.Lemmas.Resume
import Verif.Model.AamSolvers
import Mathlib.LinearAlgebra.Matrix.NonsingularInverse
/-!
# Helper lemmas: forward simultaneous and Wiberg steps do not depend on the appearance parameters
-/

namespace Menpofit
open Optim Spec Matrix GN

section
variable {σ S V C E : Type} [LinearOrder E]

/-- Two states from which the next iteration is the same continue a fit in the same way. -/
theorem run_same_continued (m : Machine σ S V C E) (N : Int) (tol : E) (costs : Bool) (s t : σ)
    (a : Trace S V C) (h1 : (m.step s).2 = (m.step t).2)
    (h2 : ∀ e, (m.step s).2 = .ok e → (m.step s).1 = (m.step t).1) :
    (Optim.run m false N tol costs s).2.map (continued a) = (Optim.run m false N tol costs t).2.map (continued a) := by
  unfold Optim.run
  rw [loop_unfold, loop_unfold (s := t)]
  by_cases hN : (0 : Int) < N ∧ goOn tol none
  · rw [if_pos hN, if_pos hN]
    cases hs : m.step s with
    | mk s' x =>
      cases ht : m.step t with
      | mk t' y =>
        rw [hs, ht] at h1
        simp only at h1
        subst h1
        cases x with
        | error e => rfl
        | ok e =>
          have : s' = t' := by have := h2 e (by rw [hs]); rwa [hs, ht] at this
          subst this
          simp only [Bool.false_eq_true, if_false]
          have g : ∀ u : σ,
              (loop m false N tol (0 + 1) (some e) s' ⟨[m.shape u] ++ [m.shape s'], [m.params u] ++ [m.params s'],
                (if costs then some [m.cost u] else none).map (· ++ [m.cost s'])⟩).2.map (continued a) =
              (loop m false N tol (0 + 1) (some e) s' ⟨[m.shape s'], [m.params s'],
                if costs then some [m.cost s'] else none⟩).2.map
                fun c => ⟨a.shapes ++ c.shapes, a.params ++ c.params,
                  a.costs.bind fun x => (if costs then c.costs else none).map fun y => x ++ y⟩ := by
            intro u
            have := loop_trace m false N tol _ (0 + 1) (some e) s'
              ⟨[m.shape u], [m.params u], if costs then some [m.cost u] else none⟩
              ⟨[m.shape s'], [m.params s'], if costs then some [m.cost s'] else none⟩ rfl
            have e1 : (if costs then some [m.cost u] else none).map (· ++ [m.cost s']) =
                (if costs then some [m.cost u] else none).bind fun x =>
                  (if costs then some [m.cost s'] else none).map fun y => x ++ y := by
              cases costs <;> rfl
            rw [e1, this]
            generalize (loop m false N tol (0 + 1) (some e) s' _).2 = r
            cases r with
            | error e => rfl
            | ok c =>
              simp only [Except.map, continued, List.cons_append, List.nil_append, List.tail_cons]
              cases costs
              · rfl
              · simp only [if_true]
                cases c.costs <;> rfl
          exact (g s).trans (g t).symm
  · rw [if_neg hN, if_neg hN]
    simp only [Except.map, continued, List.tail_cons]
    cases costs <;> rfl
end

namespace Aam
variable {K : Type} [Field K] [DecidableEq K] {n a m : Nat} {S Im W E : Type}

/-- Moving the right hand side by `H δ` moves the solution by `δ`. -/
theorem npSolve_shift {k : Nat} (H : Matrix (Fin k) (Fin k) K) (b δ : Fin k → K) :
    npSolve H (b + H *ᵥ δ) = (npSolve H b).map (· + δ) := by
  unfold npSolve
  split
  · rfl
  · rename_i h
    simp only [Except.map]
    rw [mulVec_add, mulVec_mulVec, nonsing_inv_mul _ (isUnit_iff_ne_zero.2 h), one_mulVec]

theorem simJacobian_append (A : Matrix (Fin m) (Fin a) K) (J : Matrix (Fin m) (Fin n) K) (c : Fin a → K) :
    simJacobian A J *ᵥ Fin.append c 0 = -(A *ᵥ c) := by
  funext r
  simp only [mulVec, dotProduct, simJacobian, Fin.sum_univ_add, Fin.append_left, Fin.append_right, Pi.zero_apply, mul_zero,
    Finset.sum_const_zero, add_zero, Pi.neg_apply, neg_mul, Finset.sum_neg_distrib]

/-- The next state and the movement of a forward simultaneous iteration do not depend on the appearance. -/
theorem sim_forward_forgets (z : Setup n a m K S Im W E) (map : Bool) (hn : map = true → n ≤ 256) (im : Im)
    (p : Fin n → K) (i : W) (c c' : Fin a → K) (d d' : Fin m → K) :
    (simStep z false map im ⟨p, c, i, d⟩).2 = (simStep z false map im ⟨p, c', i, d'⟩).2 ∧
    ∀ e, (simStep z false map im ⟨p, c, i, d⟩).2 = .ok e →
      (simStep z false map im ⟨p, c, i, d⟩).1 = (simStep z false map im ⟨p, c', i, d'⟩).1 := by
  obtain ⟨δ, rfl⟩ : ∃ δ, c' = c + δ := ⟨c' - c, by simp⟩
  have he : z.mask i - appearance z (c + δ) = (z.mask i - appearance z c) + simJacobian z.A (z.jacI i) *ᵥ Fin.append δ 0 := by
    rw [simJacobian_append, appearance, appearance, mulVec_add]; abel
  obtain ⟨J, hJ⟩ : ∃ J, J = z.jacI i := ⟨_, rfl⟩
  obtain ⟨Js, hJs⟩ : ∃ Js, Js = simJacobian z.A J := ⟨_, rfl⟩
  obtain ⟨ev, hev⟩ : ∃ ev, ev = z.mask i - appearance z c := ⟨_, rfl⟩
  -- the increments
  have key : ∀ r r' : Except PyErr ((Fin a → K) × (Fin n → K)), r' = r.map (fun q => (q.1 - δ, q.2)) →
      ((match r with
        | .error err => (⟨p, c, i, d⟩, .error err)
        | .ok (dc, dp) => advance z false im ⟨p, c, i, d⟩ J dp (fun _ => c + dc) : St n a m K W × Except PyErr E).2 =
       (match r' with
        | .error err => (⟨p, c + δ, i, d'⟩, .error err)
        | .ok (dc, dp) => advance z false im ⟨p, c + δ, i, d'⟩ J dp (fun _ => c + δ + dc) : St n a m K W × Except PyErr E).2) ∧
      ∀ e, (match r with
        | .error err => (⟨p, c, i, d⟩, .error err)
        | .ok (dc, dp) => advance z false im ⟨p, c, i, d⟩ J dp (fun _ => c + dc) : St n a m K W × Except PyErr E).2 = .ok e →
       (match r with
        | .error err => (⟨p, c, i, d⟩, .error err)
        | .ok (dc, dp) => advance z false im ⟨p, c, i, d⟩ J dp (fun _ => c + dc) : St n a m K W × Except PyErr E).1 =
       (match r' with
        | .error err => (⟨p, c + δ, i, d'⟩, .error err)
        | .ok (dc, dp) => advance z false im ⟨p, c + δ, i, d'⟩ J dp (fun _ => c + δ + dc) : St n a m K W × Except PyErr E).1 := by
    rintro r r' rfl
    cases r with
    | error e => exact ⟨rfl, fun e h => by cases h⟩
    | ok q =>
      obtain ⟨dc, dp⟩ := q
      simp only [Except.map, advance]
      cases hw : z.warp im (updateWarp false p dp) with
      | error e => exact ⟨rfl, fun e h => by cases h⟩
      | ok i' =>
        refine ⟨rfl, fun e _ => ?_⟩
        simp only
        congr 1
        abel
  simp only [simStep, jacobian, Bool.false_eq_true, if_false]
  rw [he, ← hJ, ← hJs, ← hev]
  refine key _ _ ?_
  cases map
  · simp only [Bool.false_eq_true, if_false, solveAllMl]
    rw [mulVec_add, mulVec_mulVec, npSolve_shift]
    cases npSolve (Jsᵀ * Js) (Jsᵀ *ᵥ ev) with
    | error e => rfl
    | ok x =>
      simp only [Except.map]
      congr 2
      · funext k; simp; ring
      · funext k; simp
  · have hn' := hn rfl
    have hpy : pyIs n (a + n - a) = true := by simp [pyIs, hn']
    simp only [if_true, solveAllMap, hpy, dif_pos, mapStep, Fin.cast_eq_self]
    have hr : (fun k => Fin.append z.priorA z.priorS k) * (fun k => Fin.append (c + δ) p k) +
          Jsᵀ *ᵥ (ev + Js *ᵥ Fin.append δ 0) =
        ((fun k => Fin.append z.priorA z.priorS k) * (fun k => Fin.append c p k) + Jsᵀ *ᵥ ev) +
          (Jsᵀ * Js + diagonal fun k => Fin.append z.priorA z.priorS k) *ᵥ Fin.append δ 0 := by
      rw [add_mulVec, mulVec_add, mulVec_mulVec]
      have e2 : (diagonal fun k => Fin.append z.priorA z.priorS k) *ᵥ Fin.append δ 0 =
          (fun k => Fin.append z.priorA z.priorS k) * Fin.append δ 0 := by
        funext k; rw [mulVec_diagonal]; rfl
      have e3 : (fun k => Fin.append (c + δ) p k) = (fun k => Fin.append c p k) + Fin.append δ 0 := by
        funext k
        refine Fin.addCases (fun k => ?_) (fun k => ?_) k <;> simp
      rw [e2, e3, mul_add]; abel
    rw [hr, npSolve_shift]
    generalize npSolve (Jsᵀ * Js + diagonal fun k => Fin.append z.priorA z.priorS k) _ = x
    cases x with
    | error e => rfl
    | ok x =>
      simp only [Except.map]
      congr 2
      · funext k
        have : (Fin.castLE (by omega) k : Fin (a + n)) = Fin.castAdd n k := rfl
        simp [this]; ring
      · funext k
        have : (⟨a + k.val, by omega⟩ : Fin (a + n)) = Fin.natAdd a k := rfl
        simp [this]

/-- The same for forward Wiberg iterations with independent appearance components. -/
theorem wiberg_forward_forgets (z : Setup n a m K S Im W E) (hind : z.pinvA * z.A = 1) (map : Bool) (im : Im)
    (p : Fin n → K) (i : W) (c c' : Fin a → K) (d d' : Fin m → K) :
    (wibStep z false map im ⟨p, c, i, d⟩).2 = (wibStep z false map im ⟨p, c', i, d'⟩).2 ∧
    ∀ e, (wibStep z false map im ⟨p, c, i, d⟩).2 = .ok e →
      (wibStep z false map im ⟨p, c, i, d⟩).1 = (wibStep z false map im ⟨p, c', i, d'⟩).1 := by
  simp only [wibStep, jacobian, Bool.false_eq_true, if_false]
  generalize (if map = true then _ else _ : Except PyErr (Fin n → K)) = r
  cases r with
  | error e => exact ⟨rfl, fun e h => by cases h⟩
  | ok dp =>
    simp only [advance]
    cases hw : z.warp im (updateWarp false p dp) with
    | error e => exact ⟨rfl, fun e h => by cases h⟩
    | ok i' =>
      refine ⟨rfl, fun e _ => ?_⟩
      simp only
      congr 1
      have g : ∀ c : Fin a → K, c + z.pinvA *ᵥ (z.mask i' - appearance z c + z.jacI i *ᵥ dp) =
          z.pinvA *ᵥ (z.mask i' - z.aBar + z.jacI i *ᵥ dp) := by
        intro c
        have : z.mask i' - appearance z c + z.jacI i *ᵥ dp = (z.mask i' - z.aBar + z.jacI i *ᵥ dp) - z.A *ᵥ c := by
          rw [appearance]; abel
        rw [this, mulVec_sub, mulVec_mulVec, hind, one_mulVec]; abel
      rw [g c, g c']

end Aam

end Menpofit
