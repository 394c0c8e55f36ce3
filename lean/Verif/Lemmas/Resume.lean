import Verif.Lemmas.Optim
import Verif.Spec.Resume
/-!
# Helper lemmas: longer and resumed runs
-/

namespace Menpofit
open Optim Spec

variable {σ S V C E : Type} [LinearOrder E]

/-- A shorter loop is the beginning of a longer one. -/
theorem loop_prefix (m : Machine σ S V C E) (lk : Bool) {N N' : Int} (tol : E) (hN : N ≤ N') :
    ∀ (d : Nat) (k : Int) (eps : Option E) (s sF : σ) (tr r : Trace S V C), (N - k).toNat = d →
    loop m lk N' tol k eps s tr = (sF, .ok r) →
    ∃ s1 r1, loop m lk N tol k eps s tr = (s1, .ok r1) ∧ ∃ X Y Z, r.shapes = r1.shapes ++ X ∧
      r.params = r1.params ++ Y ∧ r.costs = r1.costs.map (· ++ Z) ∧ X.length = Y.length ∧ X.length = Z.length ∧
      ∃ j, j ≤ d ∧ r1.shapes.length = tr.shapes.length + j ∧ r1.params.length = tr.params.length + j ∧
        r1.costs.map List.length = tr.costs.map (fun c => c.length + j) ∧ (j < d → X = []) := by
  intro d
  induction d with
  | zero =>
    intro k eps s sF tr r hd h
    obtain ⟨n, st, mv, -, -, -, -, -, -, -, h8, h9, h10⟩ := loop_spec m lk N' tol _ k eps s sF tr r rfl h
    refine ⟨s, tr, by rw [loop_unfold, if_neg (by omega)], _, _, _, h8, h9, h10, by simp, by simp, 0, le_rfl, rfl, rfl, ?_,
      by omega⟩
    cases tr.costs <;> simp
  | succ d ih =>
    intro k eps s sF tr r hd h
    by_cases hc : goOn tol eps
    · rw [loop_unfold, if_pos ⟨by omega, hc⟩] at h
      rw [loop_unfold, if_pos ⟨by omega, hc⟩]
      cases hs : m.step s with
      | mk s' x =>
        cases x with
        | error e => simp [hs] at h
        | ok mv0 =>
          simp only [hs] at h ⊢
          obtain ⟨s1, r1, h1, X, Y, Z, h2, h3, h4, h5, h6, j, h7, h8, h9, h10, h11⟩ :=
            ih (k + 1) (some mv0) s' sF _ r (by omega) h
          refine ⟨s1, r1, h1, X, Y, Z, h2, h3, h4, h5, h6, j + 1, by omega, by rw [h8]; simp; omega, by rw [h9]; simp; omega,
            ?_, fun hj => h11 (by omega)⟩
          rw [h10]
          cases tr.costs <;> simp
          omega
    · rw [loop_unfold, if_neg (by rintro ⟨-, h'⟩; exact hc h')] at h
      rw [loop_unfold, if_neg (by rintro ⟨-, h'⟩; exact hc h')]
      injection h with h1 h2
      injection h2 with h2; subst h1 h2
      refine ⟨s, tr, rfl, [], [], [], by simp, by simp, ?_, rfl, rfl, 0, by omega, rfl, rfl, ?_, fun _ => rfl⟩
      · cases tr.costs <;> simp
      · cases tr.costs <;> simp

/-- A run with fewer iterations returns the beginning of what a run with more iterations returns. -/
theorem run_prefix (m : Machine σ S V C E) {lk : Bool} (tol : E) {costs : Bool} (hlk : lk = false ∨ costs = false) (s : σ)
    (n k : Nat) {sF : σ} {r : Trace S V C} (h : run m lk (n + k : Nat) tol costs s = (sF, .ok r)) :
    ∃ s1, run m lk n tol costs s = (s1, .ok (firstIterations n r)) := by
  unfold run at h ⊢
  obtain ⟨s1, r1, h1, X, Y, Z, h2, h3, h4, h5, h6, j, h7, h8, h9, h10, h11⟩ :=
    loop_prefix m lk tol (by push_cast; omega : (n : Int) ≤ ((n + k : Nat) : Int)) n 0 none s sF _ r (by simp) h
  refine ⟨s1, ?_⟩
  rw [h1]
  congr 2
  have hl : r1.shapes.length ≤ n + 1 := by rw [h8]; simp; omega
  have key : r1.shapes.length = n + 1 ∨ X = [] := by
    by_cases hj : j < n
    · exact Or.inr (h11 hj)
    · left; rw [h8]; simp; omega
  have take_eq : ∀ {α : Type} (a x : List α), a.length = r1.shapes.length → x.length = X.length →
      (a ++ x).take (n + 1) = a := by
    intro α a x ha hx
    rcases key with hk | hk
    · rw [List.take_append_of_le_length (by omega), List.take_of_length_le (by omega)]
    · rw [hk] at hx
      rw [List.length_eq_zero_iff.1 hx, List.append_nil, List.take_of_length_le (by omega)]
  have hp : r1.params.length = r1.shapes.length := by rw [h8, h9]; simp
  unfold firstIterations
  rw [h2, h3, h4, take_eq _ _ rfl rfl, take_eq _ _ hp h5.symm]
  cases hc : r1.costs with
  | none =>
    rcases r1 with ⟨a, b, c⟩
    simp only at hc; subst hc; rfl
  | some c =>
    rw [hc] at h10
    have hlc : c.length = r1.shapes.length := by
      rcases hlk with rfl | rfl
      · cases costs
        · simp at h10
        · simp at h10
          rw [h8]; simp; omega
      · simp at h10
    simp only [Option.map_some]
    rw [take_eq _ _ hlc h6.symm, ← hc]

/-- The lists of a loop are those it was given, extended by what it does. -/
theorem loop_trace (m : Machine σ S V C E) (lk : Bool) (N : Int) (tol : E) :
    ∀ (d : Nat) (k : Int) (eps : Option E) (s : σ) (a b : Trace S V C), (N - k).toNat = d →
    (loop m lk N tol k eps s ⟨a.shapes ++ b.shapes, a.params ++ b.params,
        a.costs.bind fun x => b.costs.map fun y => x ++ y⟩).2 =
      (loop m lk N tol k eps s b).2.map fun c => ⟨a.shapes ++ c.shapes, a.params ++ c.params,
        a.costs.bind fun x => c.costs.map fun y => x ++ y⟩ := by
  intro d
  induction d with
  | zero =>
    intro k eps s a b hd
    rw [loop_unfold, if_neg (by omega), loop_unfold, if_neg (by omega)]
    rfl
  | succ d ih =>
    intro k eps s a b hd
    rw [loop_unfold, loop_unfold (tr := b)]
    by_cases hc : k < N ∧ goOn tol eps
    · rw [if_pos hc, if_pos hc]
      cases hs : m.step s with
      | mk s' x =>
        cases x with
        | error e => rfl
        | ok mv0 =>
          simp only
          rw [← ih (k + 1) (some mv0) s' a _ (by omega)]
          congr 3
          · simp
          · simp
          · cases a.costs <;> cases b.costs <;> simp
    · rw [if_neg hc, if_neg hc]; rfl

/-- Only the number of iterations left counts. -/
theorem loop_shift (m : Machine σ S V C E) (lk : Bool) (N j : Int) (tol : E) :
    ∀ (d : Nat) (k : Int) (eps : Option E) (s : σ) (tr : Trace S V C), (N - k).toNat = d →
    loop m lk N tol k eps s tr = loop m lk (N - j) tol (k - j) eps s tr := by
  intro d
  induction d with
  | zero =>
    intro k eps s tr hd
    rw [loop_unfold, if_neg (by omega), loop_unfold, if_neg (by omega)]
  | succ d ih =>
    intro k eps s tr hd
    rw [loop_unfold, loop_unfold (k := k - j)]
    by_cases hc : goOn tol eps
    · rw [if_pos ⟨by omega, hc⟩, if_pos ⟨by omega, hc⟩]
      cases hs : m.step s with
      | mk s' x =>
        cases x with
        | error e => rfl
        | ok mv0 =>
          simp only
          rw [ih (k + 1) _ _ _ (by omega)]
          congr 1; ring
    · rw [if_neg (by rintro ⟨-, h⟩; exact hc h), if_neg (by rintro ⟨-, h⟩; exact hc h)]

/-- What was measured before does not count as long as it lets the loop go on. -/
theorem loop_eps (m : Machine σ S V C E) (lk : Bool) (N : Int) (tol : E) (k : Int) {eps eps' : Option E}
    (h : goOn tol eps) (h' : goOn tol eps') (s : σ) (tr : Trace S V C) :
    loop m lk N tol k eps s tr = loop m lk N tol k eps' s tr := by
  rw [loop_unfold, loop_unfold (eps := eps')]
  simp [h, h']

/-- A longer loop goes on where the shorter one stops. -/
theorem loop_split (m : Machine σ S V C E) (lk : Bool) {N N' : Int} (tol : E) (hN : N ≤ N') :
    ∀ (d : Nat) (k : Int) (eps : Option E) (s s1 : σ) (tr tr1 : Trace S V C), (N - k).toNat = d → k ≤ N →
    (∃ pre, tr.shapes = pre ++ [m.shape s]) → (∃ pre, tr.params = pre ++ [m.params s]) →
    loop m lk N tol k eps s tr = (s1, .ok tr1) →
    ∃ k1 eps1, loop m lk N' tol k eps s tr = loop m lk N' tol k1 eps1 s1 tr1 ∧ k1 ≤ N ∧
      (k1 < N → ¬ goOn tol eps1) ∧ (∃ pre, tr1.shapes = pre ++ [m.shape s1]) ∧
      (∃ pre, tr1.params = pre ++ [m.params s1]) ∧
      (eps1 = eps ∧ k1 = k ∨ ∃ s0 e, m.step s0 = (s1, .ok e) ∧ eps1 = some e ∧
        ∃ pre, tr1.shapes = pre ++ [m.shape s0, m.shape s1]) := by
  intro d
  induction d with
  | zero =>
    intro k eps s s1 tr tr1 hd hk hpre hpre' h
    rw [loop_unfold, if_neg (by omega)] at h
    injection h with h1 h2
    injection h2 with h2; subst h1 h2
    exact ⟨k, eps, rfl, hk, fun h => absurd h (by omega), hpre, hpre', Or.inl ⟨rfl, rfl⟩⟩
  | succ d ih =>
    intro k eps s s1 tr tr1 hd hk hpre hpre' h
    by_cases hc : goOn tol eps
    · rw [loop_unfold, if_pos ⟨by omega, hc⟩] at h
      rw [loop_unfold, if_pos ⟨by omega, hc⟩]
      cases hs : m.step s with
      | mk s' x =>
        cases x with
        | error e => simp [hs] at h
        | ok mv0 =>
          simp only [hs] at h ⊢
          obtain ⟨k1, eps1, h1, h2, h3, h4, h4', h5⟩ := ih (k + 1) (some mv0) s' s1 _ tr1 (by omega) (by omega)
            ⟨_, rfl⟩ ⟨_, rfl⟩ h
          refine ⟨k1, eps1, h1, h2, h3, h4, h4', ?_⟩
          rcases h5 with ⟨h5, h6⟩ | h5
          · right
            refine ⟨s, mv0, ?_, h5, ?_⟩
            all_goals
              rw [loop_unfold] at h
              have hstop : ¬ (k + 1 < N ∧ goOn tol (some mv0)) := by
                rintro ⟨ha, hb⟩
                exact h3 (by omega) (by rw [h5]; exact hb)
              rw [if_neg hstop] at h
              injection h with ha hb
              injection hb with hb
              subst ha hb
            · exact hs
            · obtain ⟨pre, hp⟩ := hpre
              exact ⟨pre, by simp [hp]⟩
          · exact Or.inr h5
    · rw [loop_unfold, if_neg (by rintro ⟨-, h'⟩; exact hc h')] at h
      injection h with h1 h2
      injection h2 with h2; subst h1 h2
      exact ⟨k, eps, rfl, hk, fun _ => hc, hpre, hpre', Or.inl ⟨rfl, rfl⟩⟩

/-- A run that was still moving can be resumed from the state it reached. -/
theorem run_resume (m : Machine σ S V C E) (dist : S → S → E)
    (hd : ∀ s s' e, m.step s = (s', .ok e) → e = dist (m.shape s) (m.shape s')) (tol : E) (costs : Bool) (s : σ)
    (n k : Nat) {s1 : σ} {tr1 : Trace S V C} (h : run m false n tol costs s = (s1, .ok tr1))
    (hm : StillMoving dist tol tr1.shapes) :
    (run m false (n + k : Nat) tol costs s).2 = (run m false k tol costs s1).2.map (continued tr1) ∧
      tr1.shapes.getLast? = some (m.shape s1) ∧ tr1.params.getLast? = some (m.params s1) := by
  have h' := h
  unfold run at h
  obtain ⟨k1, eps1, h1, h2, h3, ⟨pre, h4⟩, ⟨pre', h4'⟩, h5⟩ := loop_split m false tol
    (by push_cast; omega : (n : Int) ≤ ((n + k : Nat) : Int)) n 0 none s s1 _ tr1 (by simp) (by omega)
    ⟨[], rfl⟩ ⟨[], rfl⟩ h
  have hgo : goOn tol eps1 := by
    rcases h5 with ⟨h5, -⟩ | ⟨s0, e, h5, h6, pre, h7⟩
    · rw [h5]; trivial
    · rw [h6]
      have := hm _ _ _ h7
      rw [← hd _ _ _ h5] at this
      exact this
  have hk1 : k1 = n := by
    by_contra hne
    exact h3 (lt_of_le_of_ne h2 hne) hgo
  subst hk1
  refine ⟨?_, by rw [h4]; simp, by rw [h4']; simp⟩
  unfold run
  rw [h1, loop_shift m false _ (n : Int) tol _ _ _ _ _ rfl, loop_eps m false _ tol _ hgo (by trivial : goOn tol none)]
  have e1 : ((n + k : Nat) : Int) - n = k := by push_cast; ring
  rw [e1, sub_self]
  have hcost : tr1.costs = none ∧ costs = false ∨ ∃ x, tr1.costs = some x ∧ costs = true := by
    obtain ⟨_, _, _, _, _, _, _, _, _, _, _, _, hc⟩ := loop_spec m false n tol _ 0 none s s1 _ tr1 rfl h
    cases costs
    · left; exact ⟨by rw [hc]; rfl, rfl⟩
    · right; exact ⟨_, by rw [hc]; rfl, rfl⟩
  rcases hcost with ⟨hc, rfl⟩ | ⟨x, hc, rfl⟩
  · have e2 := loop_trace m false k tol _ 0 none s1 tr1 ⟨[], [], none⟩ rfl
    have e3 := loop_trace m false k tol _ 0 none s1 ⟨[m.shape s1], [m.params s1], none⟩ ⟨[], [], none⟩ rfl
    rcases tr1 with ⟨a, b, c⟩
    simp only at hc
    subst hc
    simp only [List.append_nil, Option.map_none, Option.bind_none] at e2 e3
    simp only [Bool.false_eq_true, if_false]
    rw [e2, e3]
    cases (loop m false (k : Int) tol 0 none s1 ⟨[], [], none⟩).2 with
    | error e => rfl
    | ok t => simp [Except.map, continued]
  · have e2 := loop_trace m false k tol _ 0 none s1 tr1 ⟨[], [], some []⟩ rfl
    have e3 := loop_trace m false k tol _ 0 none s1 ⟨[m.shape s1], [m.params s1], some [m.cost s1]⟩ ⟨[], [], some []⟩ rfl
    rcases tr1 with ⟨a, b, c⟩
    simp only at hc
    subst hc
    simp only [List.append_nil, Option.map_some, Option.bind_some] at e2 e3
    simp only [Bool.false_eq_true, if_false, if_true]
    rw [e2, e3]
    cases (loop m false (k : Int) tol 0 none s1 ⟨[], [], some []⟩).2 with
    | error e => rfl
    | ok t =>
      rcases t with ⟨t1, t2, t3⟩
      cases t3 <;> simp [Except.map, continued]

/-- A run without costs that goes on after `n` iterations consists of a run with `n` iterations and one from the
state it reached. -/
theorem run_halves (m : Machine σ S V C E) (lk : Bool) (tol : E) (s : σ) (n k : Nat) {sF : σ} {r : Trace S V C}
    (h : run m lk (n + k : Nat) tol false s = (sF, .ok r)) (hlen : n + 1 < r.shapes.length) :
    ∃ s1 tr1, run m lk n tol false s = (s1, .ok tr1) ∧ tr1.shapes.getLast? = some (m.shape s1) ∧
      (run m lk k tol false s1).2.map (continued tr1) = .ok r := by
  obtain ⟨s1, h1⟩ := run_prefix m tol (Or.inr rfl) s n k h
  refine ⟨s1, _, h1, ?_⟩
  have h1' := h1
  unfold run at h1 h
  obtain ⟨k1, eps1, g1, g2, g3, ⟨pre, g4⟩, -, -⟩ := loop_split m lk tol
    (by push_cast; omega : (n : Int) ≤ ((n + k : Nat) : Int)) n 0 none s s1 _ _ (by simp) (by omega)
    ⟨[], rfl⟩ ⟨[], rfl⟩ h1
  have hgo : goOn tol eps1 := by
    by_contra hno
    rw [g1, loop_unfold, if_neg (by rintro ⟨-, h'⟩; exact hno h')] at h
    injection h with _ h
    injection h with h
    rw [← h] at hlen
    simp [firstIterations] at hlen
  have hk1 : k1 = n := by
    by_contra hne
    exact g3 (lt_of_le_of_ne g2 hne) hgo
  subst hk1
  refine ⟨by rw [g4]; simp, ?_⟩
  rw [g1, loop_shift m lk _ (n : Int) tol _ _ _ _ _ rfl, loop_eps m lk _ tol _ hgo (by trivial : goOn tol none)] at h
  have e1 : ((n + k : Nat) : Int) - n = k := by push_cast; ring
  rw [e1, sub_self] at h
  have hcost : (firstIterations n r).costs = none := by
    obtain ⟨_, _, _, _, _, _, _, _, _, _, _, _, hc⟩ := loop_spec m lk n tol _ 0 none s s1 _ _ rfl h1
    rw [hc]; rfl
  generalize firstIterations n r = tr1 at h hcost
  unfold run
  have e2 := loop_trace m lk k tol _ 0 none s1 tr1 ⟨[], [], none⟩ rfl
  have e3 := loop_trace m lk k tol _ 0 none s1 ⟨[m.shape s1], [m.params s1], none⟩ ⟨[], [], none⟩ rfl
  rcases tr1 with ⟨a, b, c⟩
  simp only at hcost
  subst hcost
  simp only [List.append_nil, Option.map_none, Option.bind_none] at e2 e3
  have h2 := congrArg Prod.snd h
  simp only at h2
  rw [e2] at h2
  rw [← h2]
  simp only [Bool.false_eq_true, if_false]
  rw [e3]
  cases (loop m lk (k : Int) tol 0 none s1 ⟨[], [], none⟩).2 with
  | error e => rfl
  | ok t => simp [Except.map, continued]

end Menpofit
