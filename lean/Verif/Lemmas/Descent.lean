import Verif.Lemmas.Sdm
import Verif.Lemmas.Regression
import Verif.Model.SdmRegression
import Verif.Spec.Descent
/-!
# Helper lemmas: the distance of the training shapes from the ground truth
-/

namespace Menpofit
open Sdm Spec

section
variable {K V Row R I : Type} [Field K] [LinearOrder K] [IsStrictOrderedRing K] {q : Nat}

theorem zip_shift (proj : V → Fin q → K) : ∀ (G B : List V) (P : List (Fin q → K)),
    List.zipWith (fun g w => sqOffset (proj g) w) G (List.zipWith (fun c e => proj c + e) B P) =
      List.zipWith sqOffset (List.zipWith (fun g c => proj g - proj c) G B) P
  | [], _, _ => by simp
  | _ :: _, [], _ => by simp
  | _ :: _, _ :: _, [] => by simp
  | g :: G, c :: B, e :: P => by
    simp only [List.zipWith_cons_cons, zip_shift proj G B P, List.cons.injEq, and_true]
    unfold sqOffset
    refine Finset.sum_congr rfl fun k _ => ?_
    simp only [Pi.add_apply, Pi.sub_apply]
    ring

theorem totalError_eq (proj : V → Fin q → K) (gts : List V) (cur base : List (List V))
    (h : cur.map List.length = base.map List.length) : totalError proj gts cur =
      (List.zipWith (fun g w => sqOffset (proj g) w) (perShape (fun g _ => g) gts base) (cur.flatten.map proj)).sum := by
  unfold totalError
  rw [perShape_zipWith (fun g s => sqOffset (proj g) (proj s)), perShape_const (fun g => g) gts base cur h]
  rw [List.zipWith_map_right]

theorem stage_improves {ops : RegOps Row (Fin q → K) R} (hz : BeatsZero ops) {co : Coord V (Fin q → K)}
    {feat : I → V → Row} {ims : List I} {gts : List V} {s : Stage V (Fin q → K) Row} {reg : R}
    (hs : Consistent co.proj co.inst feat ims gts s) (ht : ops.train s.features s.delta = .ok reg)
    (hp : s.predicted = ops.predict reg s.features) :
    totalError co.proj gts s.after ≤ totalError co.proj gts s.before := by
  rw [totalError_eq co.proj gts s.after s.before hs.counts, hs.steps, zip_shift]
  have e1 : List.zipWith (fun g c => co.proj g - co.proj c) (perShape (fun g _ => g) gts s.before) s.before.flatten =
      s.delta := by rw [hs.targets, ← perShape_zipWith]
  rw [e1, hp]
  refine le_trans (hz _ _ _ ht) (le_of_eq ?_)
  rw [hs.targets, perShape_map]
  unfold totalError
  congr 1
  congr 1
  funext g c
  unfold sqOffset
  simp

theorem chain_mono {f : List (List V) → K} : ∀ (st : List (Stage V (Fin q → K) Row)) (cur final : List (List V)),
    (∀ s ∈ st, f s.after ≤ f s.before) → st.map Stage.before ++ [final] = cur :: st.map Stage.after →
    ((cur :: st.map Stage.after).map f).Pairwise (fun a b => b ≤ a) ∧ f final ≤ f cur
  | [], cur, final, _, h => by
    simp only [List.map_nil, List.nil_append, List.cons.injEq, and_true] at h
    subst h
    simp
  | s :: st, cur, final, hs, h => by
    simp only [List.map_cons, List.cons_append, List.cons.injEq] at h
    obtain ⟨h1, h2⟩ := h
    have ih := chain_mono st s.after final (fun t ht => hs t (List.mem_cons_of_mem _ ht)) h2
    have h0 := hs s (List.mem_cons_self)
    rw [h1] at h0
    refine ⟨?_, le_trans ih.2 h0⟩
    simp only [List.map_cons, List.pairwise_cons] at ih ⊢
    refine ⟨?_, ih.1⟩
    intro a ha
    rcases List.mem_cons.mp ha with rfl | ha
    · exact h0
    · exact le_trans (ih.1.1 a ha) h0

end

section Irl
open Reg SdmReg GN Matrix
variable {K : Type} [Field K] [LinearOrder K] [IsStrictOrderedRing K] {d q : Nat}

theorem tdot_rows {n n' k q : Nat} {X : Matrix (Fin n) (Fin k) K} {Y : Matrix (Fin n') (Fin q) K} {M}
    (h : tdot X Y = .ok M) : n = n' := by
  unfold tdot at h
  split at h
  · assumption
  · cases h

theorem trainCore_rows {n n' k q : Nat} {st st' : Irl K k q} {X : Matrix (Fin n) (Fin k) K}
    {Y : Matrix (Fin n') (Fin q) K} (h : trainCore st X Y = (st', .ok ())) : n = n' := by
  by_contra hne
  unfold trainCore tdot at h
  rw [dif_neg hne] at h
  simp only [bind, Except.bind] at h
  split at h
  · split at h <;> simp at h
  · simp at h

/-- Sums over rows of matrices and over lists. -/
theorem sum_rows {n : Nat} (ys : List (Fin q → K)) (h : ys.length = n) (M : Matrix (Fin n) (Fin q) K) :
    (List.zipWith sqOffset ys (List.ofFn fun i => M i)).sum = ∑ i, ∑ j, (M i j - stack ys (Fin.cast h.symm i) j) ^ 2 := by
  subst h
  have : List.zipWith sqOffset ys (List.ofFn fun i => M i) = List.ofFn fun i => sqOffset (ys.get i) (M i) := by
    apply List.ext_get
    · simp
    · intro i h1 h2; simp
  rw [this, List.sum_ofFn]
  refine Finset.sum_congr rfl fun i _ => ?_
  unfold sqOffset
  refine Finset.sum_congr rfl fun j _ => ?_
  simp only [Fin.cast_eq_self, stack, of_apply]
  ring

theorem sum_rows_zero (ys : List (Fin q → K)) : (ys.map fun y => sqOffset y 0).sum = ∑ i, ∑ j, (stack ys i j) ^ 2 := by
  rw [← sum_fin_list]
  refine Finset.sum_congr rfl fun i _ => ?_
  unfold sqOffset
  simp [stack]

/-- What a trained regressor is. -/
theorem irl_trained {alpha : K} {bias inc : Bool} {xs : List (Fin d → K)} {ys : List (Fin q → K)} {r}
    (h : (irlOps alpha bias inc d q).train xs ys = .ok r) :
    ∃ (hl : ys.length = xs.length) (W : Matrix (Fin (width bias d)) (Fin q) K),
      (irlOps alpha bias inc d q).predict r xs = List.ofFn (fun i => (addBias bias (stack xs) * W) i) ∧
      (Reg.normal alpha (addBias bias (stack xs))).det ≠ 0 ∧
      Reg.normal alpha (addBias bias (stack xs)) * W =
        (addBias bias (stack xs))ᵀ * (Matrix.of fun i => stack ys (Fin.cast hl.symm i)) := by
  simp only [irlOps] at h
  obtain ⟨st, hst⟩ : ∃ st, Reg.train bias (newIrl alpha inc _ _) (stack xs) (stack ys) = st := ⟨_, rfl⟩
  obtain ⟨st', res⟩ := st
  rw [hst] at h
  cases res with
  | error e => cases h
  | ok u =>
    have hr : st' = r := by simpa [Except.map] using h
    subst hr
    have hl := trainCore_rows hst
    have gen : ∀ (n m : Nat) (e : n = m) (Y : Matrix (Fin m) (Fin q) K) (Z : Matrix (Fin n) (Fin (width bias d)) K),
        trainCore (newIrl alpha inc (width bias d) q) Z Y =
          trainCore (newIrl alpha inc (width bias d) q) Z (Matrix.of fun i => Y (Fin.cast e i)) := by
      rintro n _ rfl Y Z
      rfl
    unfold Reg.train at hst
    rw [gen _ _ hl] at hst
    obtain ⟨hd, hs⟩ := trainCore_ok hst
    have hd : (Reg.normal alpha (addBias bias (stack xs))).det ≠ 0 := hd
    refine ⟨hl.symm, (Reg.normal alpha (addBias bias (stack xs)))⁻¹ * ((addBias bias (stack xs))ᵀ *
      (Matrix.of fun i => stack ys (Fin.cast hl i))), ?_, hd, ?_⟩
    · rw [hs]
      simp only [irlOps, predictRows, newIrl]
    · rw [← Matrix.mul_assoc, mul_nonsing_inv _ (isUnit_iff_ne_zero.mpr hd), Matrix.one_mul]

theorem irl_beatsZero {alpha : K} (ha : 0 ≤ alpha) (bias inc : Bool) : BeatsZero (irlOps alpha bias inc d q) := by
  intro xs ys r h
  obtain ⟨hl, W, hp, hd, hn⟩ := irl_trained h
  rw [hp, sum_rows ys hl, sum_rows_zero]
  rw [normal_eq] at hd hn
  have := (ridge_matrix ha _ _ W 0 hd hn).1
  simp only [Matrix.mul_zero, Matrix.zero_apply, of_apply, zero_sub] at this
  have h0 : 0 ≤ alpha * ∑ k, ∑ j, W k j ^ 2 :=
    mul_nonneg ha (Finset.sum_nonneg fun k _ => Finset.sum_nonneg fun j _ => sq_nonneg _)
  have h1 : ∑ i : Fin xs.length, ∑ j, (-stack ys (Fin.cast hl.symm i) j) ^ 2 = ∑ i, ∑ j, (stack ys i j) ^ 2 := by
    have : ∀ (n m : Nat) (e : n = m) (Y : Matrix (Fin m) (Fin q) K),
        ∑ i : Fin n, ∑ j, (-Y (Fin.cast e i) j) ^ 2 = ∑ i, ∑ j, (Y i j) ^ 2 := by
      rintro n _ rfl Y
      simp
    exact this _ _ _ _
  rw [h1] at this
  have h2 : alpha * ∑ k : Fin (width bias d), ∑ j : Fin q, (0 : K) ^ 2 = 0 := by simp
  linarith

end Irl
end Menpofit
