import Verif.Lemmas.Optim
/-!
# Properties of the optimiser loops (C14, C15)
-/

namespace Menpofit
open Optim

variable {σ S V C E : Type} [LinearOrder E]

/-- A machine used by the examples: it counts down, moving by its value. -/
def countdown : Machine Nat Nat Nat Nat Nat :=
  ⟨fun s => (s - 1, .ok (s - 1)), id, id, id⟩

/-- The trajectory of a run of `N` updates: `st i` is the state after `i` updates,
`mv i` what the `i`-th update moved. -/
structure Trajectory (m : Machine σ S V C E) (start : σ) (N : Nat) (st : Nat → σ)
    (mv : Nat → E) : Prop where
  start : st 0 = start
  update : ∀ i, i < N → m.step (st i) = (st (i + 1), .ok (mv i))

/-- **C14**.  A run that returns has performed some number `N` of updates, at most
`max_iters` (none if `max_iters ≤ 0`); every update but the last moved more than
`eps`; if fewer than `max_iters` updates were made, the last one moved at most
`eps` (so the run did not stop without a reason); and the reported shapes and
parameters are those of the start and of the state after each update, in order. -/
theorem C14_loop_contract (m : Machine σ S V C E) (lk : Bool) (maxIters : Int) (tol : E)
    (returnCosts : Bool) (s sF : σ) (r : Trace S V C)
    (h : run m lk maxIters tol returnCosts s = (sF, .ok r)) :
    ∃ (N : Nat) (st : Nat → σ) (mv : Nat → E), Trajectory m s N st mv ∧ st N = sF ∧
      N ≤ maxIters.toNat ∧
      (∀ i, i + 1 < N → tol < mv i) ∧
      ((N : Int) < maxIters → 0 < N ∧ mv (N - 1) ≤ tol) ∧
      r.shapes = (List.range (N + 1)).map (fun i => m.shape (st i)) ∧
      r.params = (List.range (N + 1)).map (fun i => m.params (st i)) := by
  obtain ⟨N, st, mv, h1, h2, h3, h4, h5, _, h7, h8, h9, _⟩ :=
    loop_spec m lk maxIters tol _ 0 none s sF _ r rfl h
  refine ⟨N, st, mv, ⟨h1, h4⟩, h2, by omega, h5, ?_, ?_, ?_⟩
  · intro hN
    rcases h7 (by omega) with ⟨_, hg⟩ | h
    · exact absurd trivial hg
    · exact h
  · rw [h8, List.range_succ_eq_map]; simp [h1, Function.comp_def]
  · rw [h9, List.range_succ_eq_map]; simp [h1, Function.comp_def]

/-- **C14** (termination and exceptions).  A run always ends: it returns, or raises
what one of its steps raised. -/
theorem C14_loop_errors (m : Machine σ S V C E) (lk : Bool) (maxIters : Int) (tol : E)
    (returnCosts : Bool) (s sF : σ) (e : PyErr)
    (h : run m lk maxIters tol returnCosts s = (sF, .error e)) :
    ∃ s', m.step s' = (sF, .error e) :=
  loop_error m lk maxIters tol _ 0 none s sF _ e rfl h

/-- Five updates allowed, threshold 2: the countdown from 6 stops after 4. -/
example : ∃ sF r, run countdown false 5 2 true 6 = (sF, .ok r) ∧ r.shapes = [6, 5, 4, 3, 2] := by
  refine ⟨2, ⟨[6, 5, 4, 3, 2], [6, 5, 4, 3, 2], some [6, 5, 4, 3, 2]⟩, ?_, rfl⟩
  simp [run, loop_unfold, goOn, countdown]

/-! ## C15: one cost per reported shape -/

/-- **C15** (partial: every optimiser except the Lucas-Kanade ones, and except the
CLM ones, which warn and return no costs).  With `return_costs` there is one cost
per shape, computed at the same state; without it there is none. -/
theorem C15_costs_partial (m : Machine σ S V C E) (maxIters : Int) (tol : E)
    (returnCosts : Bool) (s sF : σ) (r : Trace S V C)
    (h : run m false maxIters tol returnCosts s = (sF, .ok r)) :
    ∃ states : List σ, r.shapes = states.map m.shape ∧ r.params = states.map m.params ∧
      states.head? = some s ∧ states.getLast? = some sF ∧
      r.costs = if returnCosts then some (states.map m.cost) else none := by
  obtain ⟨N, st, mv, h1, h2, h3, h4, h5, _, h7, h8, h9, h10⟩ :=
    loop_spec m false maxIters tol _ 0 none s sF _ r rfl h
  refine ⟨(List.range (N + 1)).map st, ?_, ?_, ?_, ?_, ?_⟩
  · rw [h8, List.range_succ_eq_map]; simp [h1, Function.comp_def]
  · rw [h9, List.range_succ_eq_map]; simp [h1, Function.comp_def]
  · rw [List.range_succ_eq_map]; simp [h1]
  · rw [List.range_succ]; simp [h2]
  · rw [h10]
    cases returnCosts
    · simp
    · rw [List.range_succ_eq_map]; simp [h1, Function.comp_def]

/-- **C15** fails for every Lucas-Kanade run: the list of costs is one shorter than the
list of shapes (the cost of the final shape is never computed); the costs there
are belong to the shapes before each update. -/
theorem C15_costs_lk_violated (m : Machine σ S V C E) (maxIters : Int) (tol : E)
    (s sF : σ) (r : Trace S V C) (h : run m true maxIters tol true s = (sF, .ok r)) :
    ∃ (states : List σ) (costs : List C), r.shapes = states.map m.shape ∧
      r.costs = some costs ∧ costs = states.dropLast.map m.cost ∧
      costs.length + 1 = r.shapes.length := by
  obtain ⟨N, st, mv, h1, h2, h3, h4, h5, _, h7, h8, h9, h10⟩ :=
    loop_spec m true maxIters tol _ 0 none s sF _ r rfl h
  have hs : r.shapes = ((List.range (N + 1)).map st).map m.shape := by
    rw [h8, List.range_succ_eq_map]; simp [h1, Function.comp_def]
  refine ⟨(List.range (N + 1)).map st, _, hs, h10, ?_, ?_⟩
  · rw [List.range_succ]; simp [Function.comp_def]
  · rw [hs]; simp

example : ∃ sF r, run countdown false 3 0 true 6 = (sF, .ok r) ∧ r.costs = some [6, 5, 4, 3] := by
  refine ⟨3, ⟨[6, 5, 4, 3], [6, 5, 4, 3], some [6, 5, 4, 3]⟩, ?_, rfl⟩
  simp [run, loop_unfold, goOn, countdown]

example : ∃ sF r, run countdown true 3 0 true 6 = (sF, .ok r) ∧ r.shapes = [6, 5, 4, 3] ∧
    r.costs = some [6, 5, 4] := by
  refine ⟨3, ⟨[6, 5, 4, 3], [6, 5, 4, 3], some [6, 5, 4]⟩, ?_, rfl, rfl⟩
  simp [run, loop_unfold, goOn, countdown]

end Menpofit
