import Verif.Model.GaussNewton
import Verif.Lemmas.Quadratic
import Verif.Lemmas.Optim
/-!
# Helper lemmas for the Gauss-Newton solvers
-/

set_option linter.unusedSectionVars false

namespace Menpofit
open Matrix GN Optim

section field
variable {K : Type} [Field K] [DecidableEq K]

theorem npSolve_ok {n : Nat} {H : Matrix (Fin n) (Fin n) K} {b d : Fin n → K}
    (h : npSolve H b = .ok d) : H.det ≠ 0 ∧ H *ᵥ d = b := by
  unfold npSolve at h
  split at h
  · cases h
  · next hd =>
    injection h with h
    refine ⟨hd, ?_⟩
    rw [← h, mulVec_mulVec, mul_nonsing_inv _ (isUnit_iff_ne_zero.mpr hd), one_mulVec]

theorem npInv_ok {n : Nat} {H G : Matrix (Fin n) (Fin n) K}
    (h : npInv H = .ok G) : H.det ≠ 0 ∧ H * G = 1 := by
  unfold npInv at h
  split at h
  · cases h
  · next hd =>
    injection h with h
    exact ⟨hd, by rw [← h, mul_nonsing_inv _ (isUnit_iff_ne_zero.mpr hd)]⟩

theorem map_neg_ok {n : Nat} {x : Except PyErr (Fin n → K)} {d : Fin n → K}
    (h : (x.map fun y => -y) = .ok d) : x = .ok (-d) := by
  cases x with
  | error e => cases h
  | ok y =>
    simp only [Except.map] at h
    injection h with h; rw [← h, neg_neg]

/-- What `mapStep` returns solves the regularised normal equations. -/
theorem mapStep_ok {n m : Nat} {H : Matrix (Fin n) (Fin n) K} {J : Matrix (Fin m) (Fin n) K}
    {e : Fin m → K} {prior p d : Fin n → K} (h : (mapStep H J e prior p).2 = .ok d) :
    (H + diagonal prior).det ≠ 0 ∧
    (H + diagonal prior) *ᵥ d = -(Jᵀ *ᵥ e + diagonal prior *ᵥ p) := by
  obtain ⟨h1, h2⟩ := npSolve_ok (map_neg_ok h)
  refine ⟨h1, ?_⟩
  have h3 : (H + diagonal prior) *ᵥ d = -((H + diagonal prior) *ᵥ (-d)) := by
    rw [mulVec_neg, neg_neg]
  rw [h3, h2]
  congr 1
  rw [add_comm]
  congr 1
  funext i
  simp [mulVec_diagonal]

theorem solveShapeMap_same {n m : Nat} (hn : n ≤ 256) (H : Matrix (Fin n) (Fin n) K)
    (J : Matrix (Fin m) (Fin n) K) (e : Fin m → K) (prior p : Fin n → K) :
    solveShapeMap H J e prior p = mapStep H J e prior p := by
  unfold solveShapeMap pyIs
  simp [hn]

theorem solveShapeMap_big {n m : Nat} (hn : 256 < n) (H : Matrix (Fin n) (Fin n) K)
    (J : Matrix (Fin m) (Fin n) K) (e : Fin m → K) (prior p : Fin n → K) :
    solveShapeMap H J e prior p = (H, .error .valueError) := by
  unfold solveShapeMap pyIs
  have h1 : ¬ n ≤ 256 := by omega
  have h2 : ¬ n = n + n := by omega
  have h3 : ¬ n = 0 := by omega
  simp [h1, h3]

theorem solveShapeMap_ok {n m : Nat} {H : Matrix (Fin n) (Fin n) K}
    {J : Matrix (Fin m) (Fin n) K} {e : Fin m → K} {prior p d : Fin n → K}
    (h : (solveShapeMap H J e prior p).2 = .ok d) : (mapStep H J e prior p).2 = .ok d := by
  by_cases hn : n ≤ 256
  · rwa [solveShapeMap_same hn] at h
  · rw [solveShapeMap_big (by omega)] at h; cases h

end field

/-! ### Simulation between runs of an optimiser -/

theorem loop_sim {σ S V C E : Type} [LinearOrder E] (m : Machine σ S V C E) (lk : Bool)
    (maxIters : Int) (tol : E) (R : σ → σ → Prop)
    (hshape : ∀ a b, R a b → m.shape a = m.shape b ∧ m.params a = m.params b ∧ m.cost a = m.cost b)
    (hstep : ∀ a b, R a b → R (m.step a).1 (m.step b).1 ∧ (m.step a).2 = (m.step b).2) :
    ∀ (n : Nat) (k : Int) (eps : Option E) (a b : σ) (tr : Trace S V C),
    (maxIters - k).toNat = n → R a b →
    R (loop m lk maxIters tol k eps a tr).1 (loop m lk maxIters tol k eps b tr).1 ∧
    (loop m lk maxIters tol k eps a tr).2 = (loop m lk maxIters tol k eps b tr).2 := by
  intro n
  induction n with
  | zero =>
    intro k eps a b tr hn h
    rw [loop_unfold, loop_unfold m lk maxIters tol k eps b, if_neg (by omega), if_neg (by omega)]
    exact ⟨h, rfl⟩
  | succ n ih =>
    intro k eps a b tr hn h
    rw [loop_unfold, loop_unfold m lk maxIters tol k eps b]
    by_cases hc : k < maxIters ∧ goOn tol eps
    · rw [if_pos hc, if_pos hc]
      obtain ⟨h1, h2⟩ := hstep a b h
      rcases hA : m.step a with ⟨a', x⟩
      rcases hB : m.step b with ⟨b', y⟩
      rw [hA, hB] at h1 h2
      simp only at h1 h2
      subst h2
      cases x with
      | error e => exact ⟨h1, rfl⟩
      | ok mv =>
        simp only
        obtain ⟨s1, s2, s3⟩ := hshape _ _ h1
        obtain ⟨_, _, s3'⟩ := hshape _ _ h
        rw [s1, s2, s3, s3']
        exact ih (k + 1) (some mv) a' b' _ (by omega) h1
    · rw [if_neg hc, if_neg hc]; exact ⟨h, rfl⟩

/-- Something the steps preserve is preserved by a run. -/
theorem loop_inv {σ S V C E : Type} [LinearOrder E] (m : Machine σ S V C E) (lk : Bool)
    (maxIters : Int) (tol : E) (I : σ → Prop) (hstep : ∀ a, I a → I (m.step a).1) :
    ∀ (n : Nat) (k : Int) (eps : Option E) (a : σ) (tr : Trace S V C),
    (maxIters - k).toNat = n → I a → I (loop m lk maxIters tol k eps a tr).1 := by
  intro n
  induction n with
  | zero =>
    intro k eps a tr hn h
    rw [loop_unfold, if_neg (by omega)]; exact h
  | succ n ih =>
    intro k eps a tr hn h
    rw [loop_unfold]
    by_cases hc : k < maxIters ∧ goOn tol eps
    · rw [if_pos hc]
      have h1 := hstep a h
      rcases hA : m.step a with ⟨a', x⟩
      rw [hA] at h1
      cases x with
      | error e => exact h1
      | ok mv => exact ih (k + 1) (some mv) a' _ (by omega) h1
    · rw [if_neg hc]; exact h

section psd
variable {K : Type} [Field K] [LinearOrder K] [IsStrictOrderedRing K]
variable {n m : Nat} {S Im W E : Type}

/-- The Hessian is left alone or gets the prior added. -/
theorem solveShapeMap_fst (H : Matrix (Fin n) (Fin n) K)
    (J : Matrix (Fin m) (Fin n) K) (e : Fin m → K) (prior p : Fin n → K) :
    (solveShapeMap H J e prior p).1 = H ∨ (solveShapeMap H J e prior p).1 = H + diagonal prior := by
  by_cases hn : n ≤ 256
  · right; rw [solveShapeMap_same hn]; rfl
  · left; rw [solveShapeMap_big (by omega)]

/-- The cached Hessian stays positive semidefinite through any history of runs. -/
theorem afterRuns_psd [LinearOrder E] (env : Env n m K S Im W E) (hQs : env.Qᵀ = env.Q)
    (hQi : env.Q * env.Q = env.Q) (hprior : ∀ i, 0 ≤ env.prior i) (tol : E)
    {J : Matrix (Fin m) (Fin n) K} {cache : Cache n m K} (hc : precompute env.Q J = .ok cache)
    (hist : List (Input S Im E)) (x : Fin n → K) :
    0 ≤ x ⬝ᵥ ((afterRuns env true tol cache hist).JQJ *ᵥ x) := by
  have h0 : ∀ x, 0 ≤ x ⬝ᵥ (cache.JQJ *ᵥ x) := by
    unfold precompute at hc
    cases hs : npSolveMat ((env.Q * J)ᵀ * J) (env.Q * J)ᵀ with
    | error e => simp only [hs, bind, Except.bind] at hc; cases hc
    | ok P =>
      simp only [hs, bind, Except.bind, pure, Except.pure] at hc
      injection hc with hc
      intro x
      rw [← hc]
      simp only
      rw [transpose_mul, hQs, ← mulVec_mulVec, ← mulVec_mulVec, dot_transpose,
        proj_quad hQs hQi]
      exact dot_self_nonneg _
  clear hc
  unfold afterRuns
  induction hist generalizing cache with
  | nil => exact h0 x
  | cons y ys ih =>
    rw [List.foldl_cons]
    refine ih ?_
    unfold poRun
    simp only
    cases hw : env.warp y.im (env.setTarget y.init) with
    | error e => exact h0
    | ok i =>
      simp only
      refine loop_inv _ false y.maxIters tol
        (fun st : PState n m K W => ∀ x, 0 ≤ x ⬝ᵥ (st.cache.JQJ *ᵥ x)) ?_ _ 0 none _ _ rfl h0
      intro a ha
      have hr : ∀ x, 0 ≤ x ⬝ᵥ ((solveInverse env y.map a).1.JQJ *ᵥ x) := by
        intro x
        unfold solveInverse
        cases y.map with
        | false => simpa using ha x
        | true =>
          simp only [if_true]
          rcases solveShapeMap_fst a.cache.JQJ a.cache.QJ (env.mask a.i - env.aBar) env.prior a.p
            with h | h <;> rw [h]
          · exact ha x
          · rw [add_mulVec, dotProduct_add]
            exact add_nonneg (ha x) (diag_psd hprior x)
      show ∀ x, 0 ≤ x ⬝ᵥ ((poStep env true y.map y.im a).1.cache.JQJ *ᵥ x)
      unfold poStep
      simp only [if_true]
      split
      · exact hr
      · split <;> exact hr

end psd

end Menpofit
