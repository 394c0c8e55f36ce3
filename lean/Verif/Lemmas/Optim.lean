import Verif.Model.Optim
/-!
# Helper lemmas for the optimiser loop
-/

namespace Menpofit
open Optim

variable {σ S V C E : Type} [LinearOrder E]

theorem loop_unfold (m : Machine σ S V C E) (lk : Bool) (maxIters : Int) (tol : E) (k : Int)
    (eps : Option E) (s : σ) (tr : Trace S V C) :
    loop m lk maxIters tol k eps s tr =
      if k < maxIters ∧ goOn tol eps then
        match m.step s with
        | (s', .error e) => (s', .error e)
        | (s', .ok eps') =>
          loop m lk maxIters tol (k + 1) (some eps') s'
            ⟨tr.shapes ++ [m.shape s'], tr.params ++ [m.params s'],
              tr.costs.map (· ++ [if lk then m.cost s else m.cost s'])⟩
      else (s, .ok tr) := by
  rw [loop]
  by_cases h : k < maxIters ∧ goOn tol eps
  · simp only [dif_pos h, if_pos h]
    rcases m.step s with ⟨s', e | x⟩ <;> rfl
  · simp [h]

/-- What the loop does from an arbitrary point. -/
theorem loop_spec (m : Machine σ S V C E) (lk : Bool) (maxIters : Int) (tol : E) :
    ∀ (n : Nat) (k : Int) (eps : Option E) (s sF : σ) (tr r : Trace S V C),
    (maxIters - k).toNat = n →
    loop m lk maxIters tol k eps s tr = (sF, .ok r) →
    ∃ (N : Nat) (st : Nat → σ) (mv : Nat → E),
      st 0 = s ∧ st N = sF ∧ N ≤ n ∧
      (∀ i, i < N → m.step (st i) = (st (i + 1), .ok (mv i))) ∧
      (∀ i, i + 1 < N → tol < mv i) ∧
      (0 < N → goOn tol eps) ∧
      (N < n → (N = 0 ∧ ¬ goOn tol eps) ∨ (0 < N ∧ mv (N - 1) ≤ tol)) ∧
      r.shapes = tr.shapes ++ (List.range N).map (fun i => m.shape (st (i + 1))) ∧
      r.params = tr.params ++ (List.range N).map (fun i => m.params (st (i + 1))) ∧
      r.costs = tr.costs.map (· ++ (List.range N).map
        (fun i => if lk then m.cost (st i) else m.cost (st (i + 1)))) := by
  intro n
  induction n with
  | zero =>
    intro k eps s sF tr r hn h
    rw [loop_unfold, if_neg (by omega)] at h
    injection h with h1 h2
    injection h2 with h2; subst h1 h2
    refine ⟨0, fun _ => s, fun _ => tol, rfl, rfl, by omega, by omega, by omega, by omega,
      by omega, by simp, by simp, ?_⟩
    cases tr.costs <;> simp
  | succ n ih =>
    intro k eps s sF tr r hn h
    by_cases hc : goOn tol eps
    · have hk : k < maxIters := by omega
      rw [loop_unfold, if_pos ⟨hk, hc⟩] at h
      cases hs : m.step s with
      | mk s' x =>
        cases x with
        | error e => simp [hs] at h
        | ok mv0 =>
          simp only [hs] at h
          obtain ⟨N, st, mv, h1, h2, h3, h4, h5, h6, h7, h8, h9, h10⟩ :=
            ih (k + 1) (some mv0) s' sF _ r (by omega) h
          refine ⟨N + 1, fun i => match i with | 0 => s | j + 1 => st j,
            fun i => match i with | 0 => mv0 | j + 1 => mv j, rfl, h2, by omega, ?_, ?_, ?_, ?_,
            ?_, ?_, ?_⟩
          · intro i hi
            cases i with
            | zero => simp only; rw [hs, h1]
            | succ j => exact h4 j (by omega)
          · intro i hi
            cases i with
            | zero => exact h6 (by omega)
            | succ j => exact h5 j (by omega)
          · intro _; exact hc
          · intro hN
            refine Or.inr ⟨by omega, ?_⟩
            rcases h7 (by omega) with ⟨h0, hg⟩ | ⟨h0, hg⟩
            · subst h0; exact not_lt.mp hg
            · obtain ⟨j, rfl⟩ : ∃ j, N = j + 1 := ⟨N - 1, by omega⟩
              exact hg
          · rw [h8, List.range_succ_eq_map]; simp [h1, Function.comp_def]
          · rw [h9, List.range_succ_eq_map]; simp [h1, Function.comp_def]
          · rw [h10, List.range_succ_eq_map]
            cases tr.costs <;> simp [h1, Function.comp_def]
    · rw [loop_unfold, if_neg (by rintro ⟨-, h'⟩; exact hc h')] at h
      injection h with h1 h2
      injection h2 with h2; subst h1 h2
      refine ⟨0, fun _ => s, fun _ => tol, rfl, rfl, by omega, by omega, by omega, by omega,
        fun _ => Or.inl ⟨rfl, hc⟩, by simp, by simp, ?_⟩
      cases tr.costs <;> simp

/-- An exception of a run is an exception of one of its steps. -/
theorem loop_error (m : Machine σ S V C E) (lk : Bool) (maxIters : Int) (tol : E) :
    ∀ (n : Nat) (k : Int) (eps : Option E) (s sF : σ) (tr : Trace S V C) (e : PyErr),
    (maxIters - k).toNat = n →
    loop m lk maxIters tol k eps s tr = (sF, .error e) →
    ∃ s', m.step s' = (sF, .error e) := by
  intro n
  induction n with
  | zero =>
    intro k eps s sF tr e hn h
    rw [loop_unfold, if_neg (by omega)] at h
    simp at h
  | succ n ih =>
    intro k eps s sF tr e hn h
    rw [loop_unfold] at h
    split at h
    · cases hs : m.step s with
      | mk s' x =>
        cases x with
        | error e' =>
          simp only [hs] at h
          injection h with h1 h2
          injection h2 with h2
          exact ⟨s, by rw [hs, h1, h2]⟩
        | ok mv => simp only [hs] at h; exact ih _ _ _ _ _ _ (by omega) h
    · simp at h

end Menpofit
