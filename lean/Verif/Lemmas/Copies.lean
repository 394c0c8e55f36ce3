import Verif.Spec.Copies
import Verif.Lemmas.Regression
import Verif.Lemmas.CorrelationFilter
import Verif.Lemmas.OrderSdm
import Mathlib.Data.List.Forall2
import Verif.Model.SdmRegression
import Verif.Model.Alignment
import Mathlib.Algebra.BigOperators.Fin
import Mathlib.Data.Real.Basic
/-!
# Lemmas: training data listed several times
-/

namespace Menpofit
namespace Copies
open Spec

theorem succ {α : Type} (m : Nat) (l : List α) : copies (m + 1) l = l ++ copies m l := by
  simp [copies, List.replicate_succ]

theorem map {α β : Type} (f : α → β) (m : Nat) (l : List α) : (copies m l).map f = copies m (l.map f) := by
  simp [copies, List.map_flatten]

theorem length {α : Type} (m : Nat) (l : List α) : (copies m l).length = m * l.length := by
  simp [copies]

theorem mem {α : Type} {m : Nat} {l : List α} {x : α} (h : x ∈ copies m l) : x ∈ l := by
  simp only [copies, List.mem_flatten, List.mem_replicate] at h
  obtain ⟨k, h1, h2⟩ := h
  exact h1.2 ▸ h2

theorem flatten {α : Type} (m : Nat) (l : List (List α)) : (copies m l).flatten = copies m l.flatten := by
  induction m with
  | zero => rfl
  | succ m ih => rw [succ, succ, List.flatten_append, ih]

theorem ne_nil {α : Type} {m : Nat} (hm : 0 < m) {l : List α} (h : l ≠ []) : copies m l ≠ [] := by
  intro e
  have := congrArg List.length e
  rw [length, List.length_nil] at this
  rcases Nat.mul_eq_zero.1 this with h1 | h1
  · omega
  · exact h (List.length_eq_zero_iff.1 h1)

theorem sum {A : Type} [AddCommMonoid A] (m : Nat) (l : List A) : (copies m l).sum = m • l.sum := by
  simp [copies, List.sum_flatten]

theorem sum_mul {A : Type} [NonAssocSemiring A] (m : Nat) (l : List A) : (copies m l).sum = m * l.sum := by
  rw [sum, nsmul_eq_mul]

/-! ### Regression -/

section Regression
open Reg SdmReg Sdm GN Matrix

variable {K : Type} [Field K] [DecidableEq K] {d q k : Nat}

theorem normal_scaled [CharZero K] {n a : Nat} {m : K} (hm : m ≠ 0) (alpha : K) (X : Matrix (Fin n) (Fin k) K)
    (X' : Matrix (Fin a) (Fin k) K) (h : X'ᵀ * X' = m • (Xᵀ * X)) :
    Reg.normal (m * alpha) X' = m • Reg.normal alpha X := by
  unfold Reg.normal
  simp only [h, transpose_smul]
  by_cases h0 : alpha = 0
  · rw [if_pos h0, if_pos (by rw [h0, mul_zero]), smul_comm m (2⁻¹ : K), smul_add m]
  · rw [if_neg h0, if_neg (mul_ne_zero hm h0), smul_add m (_ • _), smul_comm m (2⁻¹ : K), smul_add m]
    congr 1
    ext i j
    by_cases hij : i = j <;> simp [hij]

theorem det_scaled {m : K} (hm : m ≠ 0) (N : Matrix (Fin k) (Fin k) K) : (m • N).det = 0 ↔ N.det = 0 := by
  rw [det_smul, mul_eq_zero]
  simp [hm]

theorem inv_scaled {m : K} (hm : m ≠ 0) {N : Matrix (Fin k) (Fin k) K} (hN : N.det ≠ 0) : (m • N)⁻¹ = m⁻¹ • N⁻¹ := by
  apply inv_eq_left_inv
  rw [smul_mul_smul_comm, inv_mul_cancel₀ hm, one_smul, nonsing_inv_mul _ (isUnit_iff_ne_zero.2 hN)]

theorem npSolveMat_scaled {m : K} (hm : m ≠ 0) (N : Matrix (Fin k) (Fin k) K) (B : Matrix (Fin k) (Fin q) K) :
    npSolveMat (m • N) (m • B) = npSolveMat N B := by
  unfold npSolveMat
  by_cases h : N.det = 0
  · rw [if_pos h, if_pos ((det_scaled hm N).2 h)]
  · rw [if_neg h, if_neg (mt (det_scaled hm N).1 h), inv_scaled hm h, Matrix.smul_mul, Matrix.mul_smul,
      smul_smul, inv_mul_cancel₀ hm, one_smul]

/-- The coefficients a regressor ends with, or the exception. -/
def weights (r : Irl K k q × Except PyErr Unit) : Except PyErr (Option (Matrix (Fin k) (Fin q) K)) := r.2.map fun _ => r.1.W

theorem trainCore_scaled [CharZero K] {n n' a a' : Nat} {m : K} (hm : m ≠ 0) (st st' : Irl K k q)
    (hα : st'.alpha = m * st.alpha) (hi : st'.incrementable = st.incrementable) (X : Matrix (Fin n) (Fin k) K)
    (Y : Matrix (Fin n') (Fin q) K) (X' : Matrix (Fin a) (Fin k) K) (Y' : Matrix (Fin a') (Fin q) K)
    (hX : X'ᵀ * X' = m • (Xᵀ * X)) (hY : tdot X' Y' = (tdot X Y).map (m • ·)) :
    weights (trainCore st' X' Y') = weights (trainCore st X Y) := by
  have hs : (tdot X' Y' >>= npSolveMat (Reg.normal st'.alpha X')) = (tdot X Y >>= npSolveMat (Reg.normal st.alpha X)) := by
    rw [hα, normal_scaled hm _ X X' hX, hY]
    cases tdot X Y with
    | error e => rfl
    | ok B => exact npSolveMat_scaled hm _ _
  unfold trainCore
  simp only [hs, hi]
  have hd : (Reg.normal st'.alpha X').det = 0 ↔ (Reg.normal st.alpha X).det = 0 := by
    rw [hα, normal_scaled hm _ X X' hX, det_scaled hm]
  unfold npInv
  by_cases h0 : (Reg.normal st.alpha X).det = 0
  · simp only [hd.2 h0, h0, if_true]
    split_ifs
    · rfl
    · split <;> rfl
  · simp only [mt hd.1 h0, h0, if_false]
    split_ifs <;> split <;> rfl

theorem addBias_row (bias : Bool) {n : Nat} (X : Matrix (Fin n) (Fin d) K) (i : Fin n) :
    addBias bias X i = addBias1 bias (X i) := by
  cases bias <;> rfl

theorem gram (bias : Bool) (xs : List (Fin d → K)) (a b : Fin (width bias d)) :
    ((addBias bias (stack xs))ᵀ * addBias bias (stack xs)) a b =
      (xs.map fun x => addBias1 bias x a * addBias1 bias x b).sum := by
  rw [Matrix.mul_apply, ← Fin.sum_univ_fun_getElem]
  refine Finset.sum_congr rfl fun i _ => ?_
  rw [transpose_apply, addBias_row]
  rfl

theorem tdot_pairs (bias : Bool) (P : List ((Fin d → K) × (Fin q → K))) :
    tdot (addBias bias (stack (P.map Prod.fst))) (stack (P.map Prod.snd)) =
      .ok (Matrix.of fun a b => (P.map fun p => addBias1 bias p.1 a * p.2 b).sum) := by
  unfold tdot
  rw [dif_pos (by simp)]
  congr 1
  ext a b
  rw [Matrix.mul_apply, Matrix.of_apply, ← Fin.sum_univ_fun_getElem, ← Fin.sum_congr' _ (List.length_map Prod.fst)]
  refine Finset.sum_congr rfl fun i _ => ?_
  rw [transpose_apply, addBias_row]
  have h1 : stack (P.map Prod.fst) i = (P[(i : ℕ)]'(by simpa using i.2)).1 := by
    show (P.map Prod.fst).get i = _
    simp
  rw [h1]
  simp [stack]

theorem predictRows_map (bias : Bool) (st : Irl K (width bias d) q) (xs : List (Fin d → K)) (alpha : K) (inc : Bool) :
    (irlOps alpha bias inc d q).predict st xs = xs.map fun x =>
      match Reg.predict bias st x with
      | .ok v => v
      | .error _ => 0 := by
  simp only [irlOps, predictRows, Reg.predict]
  cases st.W with
  | none => rfl
  | some A =>
    simp only
    apply List.ext_get
    · simp
    · intro i h1 h2
      simp only [List.get_eq_getElem, List.getElem_ofFn, List.getElem_map]
      cases bias <;> rfl

theorem train_copies [CharZero K] (m : Nat) (hm : 0 < m) (alpha : K) (bias incrementable : Bool)
    (P : List ((Fin d → K) × (Fin q → K))) :
    ((irlOps (m * alpha) bias incrementable d q).train (copies m (P.map Prod.fst)) (copies m (P.map Prod.snd))).map (·.W) =
      ((irlOps alpha bias incrementable d q).train (P.map Prod.fst) (P.map Prod.snd)).map (·.W) := by
  have hm' : (m : K) ≠ 0 := Nat.cast_ne_zero.2 (by omega)
  have h := trainCore_scaled hm' (newIrl alpha incrementable (width bias d) q)
    (newIrl (m * alpha) incrementable (width bias d) q) rfl rfl (addBias bias (stack (P.map Prod.fst)))
    (stack (P.map Prod.snd)) (addBias bias (stack ((copies m P).map Prod.fst))) (stack ((copies m P).map Prod.snd))
    (by
      ext a b
      rw [Matrix.smul_apply, gram, gram, map, map, sum_mul, smul_eq_mul])
    (by
      rw [tdot_pairs, tdot_pairs]
      simp only [Except.map]
      congr 1
      ext a b
      rw [Matrix.smul_apply, of_apply, of_apply, map, sum_mul, smul_eq_mul])
  rw [map, map] at h
  have e : ∀ {k : Nat} (r : Irl K k q × Except PyErr Unit), (r.2.map fun _ => r.1).map (·.W) = weights r := by
    rintro k ⟨r, (_ | _)⟩ <;> rfl
  show ((Prod.snd (Reg.train bias _ _ _)).map _).map _ = ((Prod.snd (Reg.train bias _ _ _)).map _).map _
  rw [e, e]
  exact h

end Regression

section Ordered
open Reg SdmReg Sdm GN Matrix

variable {K : Type} [Field K] [LinearOrder K] [IsStrictOrderedRing K] {d q : Nat}

/-- Training a regularised regressor succeeds and solves the normal equations. -/
theorem train_runs (alpha : K) (ha : 0 < alpha) (bias incrementable : Bool)
    (P : List ((Fin d → K) × (Fin q → K))) : ∃ st W,
      (irlOps alpha bias incrementable d q).train (P.map Prod.fst) (P.map Prod.snd) = .ok st ∧ st.W = some W ∧
      Reg.normal alpha (addBias bias (stack (P.map Prod.fst))) * W =
        Matrix.of fun a b => (P.map fun p => addBias1 bias p.1 a * p.2 b).sum := by
    obtain ⟨N, hN⟩ : ∃ N, N = Reg.normal alpha (addBias bias (stack (P.map Prod.fst))) := ⟨_, rfl⟩
    have hd : N.det ≠ 0 := hN ▸ normal_det_ne ha _
    obtain ⟨B, hB⟩ : ∃ B : Matrix (Fin (width bias d)) (Fin q) K,
      B = Matrix.of fun a b => (P.map fun p => addBias1 bias p.1 a * p.2 b).sum := ⟨_, rfl⟩
    refine ⟨⟨alpha, incrementable, if incrementable then some N⁻¹ else none, some (N⁻¹ * B)⟩, N⁻¹ * B, ?_, rfl, ?_⟩
    · have ht : (tdot (addBias bias (stack (P.map Prod.fst))) (stack (P.map Prod.snd)) >>= npSolveMat N) = .ok (N⁻¹ * B) := by
        rw [Copies.tdot_pairs, ← hB]
        show npSolveMat N B = _
        unfold npSolveMat
        rw [if_neg hd]
      simp only [irlOps, Reg.train, trainCore, newIrl, ← hN, ht, npInv, if_neg hd]
      cases incrementable <;> rfl
    · rw [← hN, ← hB, ← Matrix.mul_assoc, mul_nonsing_inv _ (isUnit_iff_ne_zero.2 hd), Matrix.one_mul]

end Ordered

/-! ### The cascade -/

section Cascade
open Sdm OrderSdm

variable {V W Row R R' J : Type} [AddCommGroup W]

theorem rows_copies (feat : J → V → Row) (m : Nat) (S : OrderSdm.St V W J) :
    rows feat (copies m S) = copies m (rows feat S) := by
  unfold rows
  rw [map, flatten]

theorem delta_copies (m : Nat) (S : OrderSdm.St V W J) : delta (copies m S) = copies m (delta S) := by
  unfold delta
  rw [map, flatten]

theorem next_copies (co : Coord V W) (feat : J → V → Row) (p : Row → W) (m : Nat) (S : OrderSdm.St V W J) :
    next co feat p (copies m S) = copies m (next co feat p S) := map _ _ _

theorem stages_copies {ops : RegOps Row W R} {ops' : RegOps Row W R'} {p : R → Row → W} {p' : R' → Row → W}
    (hp : ∀ r l, ops.predict r l = l.map (p r)) (hp' : ∀ r l, ops'.predict r l = l.map (p' r)) {m : Nat}
    {Q : R → R' → Prop} (hQ : ∀ r r', Q r r' → p' r' = p r)
    (ht : ∀ (P : List (Row × W)) r, ops.train (P.map Prod.fst) (P.map Prod.snd) = .ok r →
      ∃ r', ops'.train (copies m (P.map Prod.fst)) (copies m (P.map Prod.snd)) = .ok r' ∧ Q r r')
    (co : Coord V W) (feat : J → V → Row) : ∀ (N k k' : Nat) (regs : List R) (regs' : List R') (S : OrderSdm.St V W J),
    (∀ x ∈ S, x.2.2 ≠ []) → List.Forall₂ Q regs regs' → ∀ r,
    stages ops co feat (S.map Prod.fst) (gtRows S) false N k regs (delta S) (cur S) = .ok r →
    ∃ r', stages ops' co feat ((copies m S).map Prod.fst) (gtRows (copies m S)) false N k' regs' (delta (copies m S))
        (cur (copies m S)) = .ok r' ∧
      List.Forall₂ Q r.1 r'.1 ∧ r'.2.1 = copies m r.2.1 := by
  intro N
  induction N with
  | zero =>
    intro k k' regs regs' S hne hr r h
    simp only [stages, Except.ok.injEq] at h
    subst h
    exact ⟨_, rfl, hr, map _ _ _⟩
  | succ N ih =>
    intro k k' regs regs' S hne hr r h
    have hne' : ∀ x ∈ copies m S, x.2.2 ≠ [] := fun x hx => hne x (mem hx)
    simp only [stages, featureRows_eq feat S hne] at h
    obtain ⟨_, e, h⟩ := bind_ok h
    cases e
    obtain ⟨q, hq, h⟩ := bind_ok h
    obtain ⟨P, -, h1, h2⟩ := zipped feat S
    have hq1 : ops.train (P.map Prod.fst) (P.map Prod.snd) = .ok q := by rw [h1, h2]; exact hq
    obtain ⟨q', hq', hQq⟩ := ht P q hq1
    have hqq := hQ q q' hQq
    rw [h1, h2, ← rows_copies, ← delta_copies] at hq'
    obtain ⟨u, hu, h⟩ := bind_ok h
    have hup := fun S : OrderSdm.St V W J => updateAll_eq co feat (p q) S [] [] 0 rfl rfl
    simp only [List.nil_append] at hup
    rw [hp, hup S] at hu
    cases hu
    have hlen := delta_next_length co feat (p q) S
    have hlen' := delta_next_length co feat (p q) (copies m S)
    simp only [hlen, List.drop_length, List.append_nil] at h
    obtain ⟨rest, hrest, h⟩ := bind_ok h
    rw [← gtRows_next co feat (p q) S, ← next_fst co feat (p q) S] at hrest
    obtain ⟨r', a1, a2, a3⟩ := ih (k + 1) (k' + 1) _ (regs' ++ [q']) (next co feat (p q) S) (next_ne co feat (p q) S hne)
      (List.rel_append hr (List.Forall₂.cons hQq .nil)) rest hrest
    rw [← next_copies, next_fst, gtRows_next] at a1
    cases h
    refine ⟨(r'.1, r'.2.1, ⟨cur (copies m S), rows feat (copies m S), delta (copies m S), (rows feat (copies m S)).map (p q),
      cur (next co feat (p q) (copies m S))⟩ :: r'.2.2), ?_, a2, a3⟩
    simp only [stages, featureRows_eq feat _ hne', bind, Except.bind]
    erw [hq']
    simp only [hp', hqq, hup (copies m S), hlen', List.drop_length, List.append_nil, Bool.false_eq_true, if_false, a1]
    rfl

end Cascade

end Copies
end Menpofit
