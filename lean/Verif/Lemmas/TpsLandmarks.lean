import Verif.Spec.TpsLandmarks
import Verif.Lemmas.SpectralExist
/-!
# Lemmas for C107
-/

namespace Menpofit.TpsDl
open Matrix Warp Spec

variable {m np : Nat}

/-- The coefficients of the identity: coordinate `d`. -/
def idc (d : Fin 2) : Ix m → ℝ := Sum.elim (fun _ => 0) (Pi.single d.succ 1)

theorem kMat_symm (s : Fin m → P 2) : (kMat s)ᵀ = kMat s := by
  ext i j
  simp only [kMat, r2LogR2, transpose_apply, of_apply]
  rw [dist_comm]

theorem lMat_symm (s : Fin m → P 2) : (lMat s)ᵀ = lMat s := by
  simp [lMat, fromBlocks_transpose, kMat_symm]

theorem hom_succ (x : P 2) (d : Fin 2) : hom x d.succ = x d := by
  match d with
  | 0 => rfl
  | 1 => rfl

theorem sum_single (g : Fin 3 → ℝ) (a : Fin 3) : ∑ x, g x * (Pi.single a (1 : ℝ) : Fin 3 → ℝ) x = g a := by
  rw [Finset.sum_eq_single a] <;> simp +contextual

theorem lMat_idc (s : Fin m → P 2) (d : Fin 2) : lMat s *ᵥ idc d = yRow s d := by
  ext i
  rcases i with i | a
  · simp [lMat, idc, yRow, mulVec, dotProduct, pMat, sum_single, hom_succ]
  · simp [lMat, idc, yRow, mulVec, dotProduct]

theorem kRow_idc (s : Fin m → P 2) (x : P 2) (d : Fin 2) : kRow s x ⬝ᵥ idc d = x d := by
  simp [kRow, idc, dotProduct, sum_single, hom_succ]

theorem dL_idc (s : Fin m → P 2) (i : Fin m) (d : Fin 2) : dL s i d *ᵥ idc d = -Pi.single (Sum.inl i) 1 := by
  ext j
  rcases j with j | a
  · simp only [dL, idc, mulVec, dotProduct, Fintype.sum_sum_type, fromBlocks_apply₁₁, fromBlocks_apply₁₂, of_apply,
      Sum.elim_inl, Sum.elim_inr, mul_zero, Finset.sum_const_zero, zero_add, Pi.neg_apply]
    have e : ∀ x : Fin 3, dP i d j x * (Pi.single d.succ (1 : ℝ) : Fin 3 → ℝ) x =
        if x = d.succ then dP i d j d.succ else 0 := by
      intro x
      by_cases h : x = d.succ
      · subst h; simp
      · simp [h]
    simp only [e, Finset.sum_ite_eq', Finset.mem_univ, if_true]
    by_cases h : j = i
    · subst h
      match d with
      | 0 => simp [dP]
      | 1 => simp [dP]
    · simp [dP, h]
  · simp [dL, idc, mulVec, dotProduct]

section
variable {A : Matrix (Ix m) (Ix m) ℝ} {f : Factors m} {minSv : ℝ}

theorem keep_iff (hf : IsFactors A f) (r : Fin (m + 3)) : r.val < keep minSv f ↔ minSv ≤ f.s r := by
  have h1 : (Finset.univ.filter fun r => f.s r < minSv).card + (Finset.univ.filter fun r => ¬ f.s r < minSv).card
      = m + 3 := by
    rw [Finset.card_filter_add_card_filter_not]; simp
  have h2 : keep minSv f = (Finset.univ.filter fun r => minSv ≤ f.s r).card := by
    simp only [not_lt] at h1
    unfold keep
    omega
  rw [h2]
  constructor
  · intro h
    by_contra hc
    push Not at hc
    have hsub : (Finset.univ.filter fun r => minSv ≤ f.s r) ⊆ Finset.univ.filter fun q : Fin (m + 3) => q < r := by
      intro q hq
      simp only [Finset.mem_filter, Finset.mem_univ, true_and] at hq ⊢
      by_contra hqr
      push Not at hqr
      have := hf.sorted _ _ hqr
      linarith
    have := Finset.card_le_card hsub
    have e : (Finset.univ.filter fun q : Fin (m + 3) => q < r).card = r.val := by
      rw [show (Finset.univ.filter fun q : Fin (m + 3) => q < r) = Finset.Iio r by ext; simp]
      simp
    omega
  · intro h
    have hsub : (Finset.univ.filter fun q : Fin (m + 3) => q ≤ r) ⊆ Finset.univ.filter fun r => minSv ≤ f.s r := by
      intro q hq
      simp only [Finset.mem_filter, Finset.mem_univ, true_and] at hq ⊢
      exact h.trans (hf.sorted _ _ hq)
    have := Finset.card_le_card hsub
    have e : (Finset.univ.filter fun q : Fin (m + 3) => q ≤ r).card = r.val + 1 := by
      rw [show (Finset.univ.filter fun q : Fin (m + 3) => q ≤ r) = Finset.Iic r by ext; simp]
      simp
    omega

/-- What the truncation inverts. -/
noncomputable def kept (minSv : ℝ) (f : Factors m) : Fin (m + 3) → ℝ := fun r => if minSv ≤ f.s r then 1 / f.s r else 0

theorem truncated_eq (hf : IsFactors A f) : truncated minSv f = f.u * diagonal (kept minSv f) * f.v := by
  ext i j
  rw [Matrix.mul_apply]
  simp only [truncated, of_apply, mul_diagonal, Finset.sum_filter, keep_iff hf, kept]
  refine Finset.sum_congr rfl fun r _ => ?_
  split_ifs <;> simp [mul_assoc]

theorem u_mul (hf : IsFactors A f) : f.u * f.uᵀ = 1 := by
  have hc : Fintype.card (Ix m) = Fintype.card (Fin (m + 3)) := by simp
  exact (Matrix.mul_eq_one_comm_of_card_eq _ _ _ hc.symm).1 hf.left

theorem v_mul (hf : IsFactors A f) : f.vᵀ * f.v = 1 := by
  have hc : Fintype.card (Ix m) = Fintype.card (Fin (m + 3)) := by simp
  exact (Matrix.mul_eq_one_comm_of_card_eq _ _ _ hc.symm).1 hf.right

theorem product' (hf : IsFactors A f) (hA : Aᵀ = A) : A = f.vᵀ * diagonal f.s * f.uᵀ := by
  conv_lhs => rw [← hA, hf.product, transpose_mul, transpose_mul, diagonal_transpose, ← Matrix.mul_assoc]

theorem truncated_mul (hf : IsFactors A f) (hA : Aᵀ = A) (hg : SingularGap minSv f) :
    truncated minSv f * A = f.u * diagonal (fun r => if f.s r = 0 then (0 : ℝ) else 1) * f.uᵀ := by
  rw [truncated_eq hf]
  conv_lhs => rw [product' hf hA]
  have : f.u * diagonal (kept minSv f) * f.v * (f.vᵀ * diagonal f.s * f.uᵀ) =
      f.u * (diagonal (kept minSv f) * (f.v * f.vᵀ) * diagonal f.s) * f.uᵀ := by
    simp only [Matrix.mul_assoc]
  rw [this, hf.right, Matrix.mul_one, diagonal_mul_diagonal]
  congr 3
  ext r
  rcases hg.2 r with h | h
  · simp [h]
  · have h0 : f.s r ≠ 0 := (lt_of_lt_of_le hg.1 h).ne'
    simp [kept, h, h0]

theorem null_col (hf : IsFactors A f) (hA : Aᵀ = A) {r : Fin (m + 3)} (hr : f.s r = 0) :
    A *ᵥ (fun i => f.u i r) = 0 := by
  have h : A * f.u = f.vᵀ * diagonal f.s := by
    conv_lhs => rw [product' hf hA]
    rw [Matrix.mul_assoc, hf.left, Matrix.mul_one]
  ext i
  have := congrFun (congrFun h i) r
  rw [mul_diagonal, hr, mul_zero] at this
  simpa [Matrix.mul_apply, mulVec, dotProduct] using this

theorem truncated_mulVec (hf : IsFactors A f) (hA : Aᵀ = A) (hg : SingularGap minSv f) (c : Ix m → ℝ)
    (hc : ∀ z, A *ᵥ z = 0 → z ⬝ᵥ c = 0) : truncated minSv f *ᵥ (A *ᵥ c) = c := by
  rw [mulVec_mulVec, truncated_mul hf hA hg]
  have h1 : (f.u * diagonal (fun r => if f.s r = 0 then (0 : ℝ) else 1) * f.uᵀ) *ᵥ c = (f.u * f.uᵀ) *ᵥ c := by
    rw [← mulVec_mulVec, ← mulVec_mulVec, ← mulVec_mulVec]
    congr 1
    ext r
    rw [mulVec_diagonal]
    by_cases h : f.s r = 0
    · have := hc _ (null_col hf hA h)
      have e : (f.uᵀ *ᵥ c) r = 0 := by simpa [mulVec, dotProduct] using this
      simp [e]
    · simp [h]
  rw [h1, u_mul hf, one_mulVec]

theorem truncated_inv (hf : IsFactors A f) (hA : Aᵀ = A) (hg : SingularGap minSv f) (hd : A.det ≠ 0) :
    truncated minSv f = A⁻¹ := by
  have hn : ∀ r, f.s r ≠ 0 := by
    intro r hr
    have h := null_col hf hA hr
    have hu : IsUnit A.det := isUnit_iff_ne_zero.2 hd
    have h2 : (fun i => f.u i r) = 0 := by
      have := congrArg (fun z => A⁻¹ *ᵥ z) h
      simpa [mulVec_mulVec, nonsing_inv_mul _ hu] using this
    have h3 := congrFun (congrFun hf.left r) r
    rw [Matrix.mul_apply] at h3
    have : ∀ i, f.u i r = 0 := fun i => congrFun h2 i
    simp [this] at h3
  symm
  apply Matrix.inv_eq_left_inv
  rw [truncated_mul hf hA hg]
  have : (fun r => if f.s r = 0 then (0 : ℝ) else 1) = fun _ => 1 := by ext r; simp [hn r]
  rw [this, diagonal_one, Matrix.mul_one, u_mul hf]
end

theorem null_affine {s : Fin m → P 2} (hs : AffineDetermined s) (z : Ix m → ℝ) (hz : lMat s *ᵥ z = 0) (d : Fin 2) :
    z ⬝ᵥ idc d = 0 := by
  have ha := hs (fun j => z (.inl j)) (fun a => z (.inr a)) ?_ ?_ ?_ ?_
  · have := congrFun ha d.succ
    simpa [idc, dotProduct, sum_single] using this
  · intro i
    have := congrFun hz (.inl i)
    simp only [lMat, mulVec, dotProduct, Fintype.sum_sum_type, fromBlocks_apply₁₁, fromBlocks_apply₁₂, kMat, pMat, hom,
      of_apply, Fin.sum_univ_three, Pi.zero_apply] at this
    simp only [cons_val_zero, cons_val_one, cons_val] at this
    rw [← this]
    simp only [mul_comm]
    ring
  · have := congrFun hz (.inr 0)
    simpa [lMat, mulVec, dotProduct, pMat, hom] using this
  · have := congrFun hz (.inr 1)
    simpa [lMat, mulVec, dotProduct, pMat, hom, mul_comm] using this
  · have := congrFun hz (.inr 2)
    simpa [lMat, mulVec, dotProduct, pMat, hom, mul_comm] using this

theorem invL_eq {s : Fin m → P 2} {f : Factors m} {minSv : ℝ} (hf : IsFactors (lMat s) f) (hg : SingularGap minSv f) :
    invL minSv f s = truncated minSv f := by
  unfold invL
  split
  · rfl
  · rename_i h
    exact (truncated_inv hf (lMat_symm s) hg h).symm

theorem coef_source {s : Fin m → P 2} {f : Factors m} {minSv : ℝ} (hf : IsFactors (lMat s) f)
    (hg : SingularGap minSv f) (hs : AffineDetermined s) (d : Fin 2) : coef minSv f s d = idc d := by
  unfold coef
  rw [← lMat_idc]
  exact truncated_mulVec hf (lMat_symm s) hg _ fun z hz => null_affine hs z hz d

/-- The derivative is a row of the inverse. -/
theorem dDl_eq {s : Fin m → P 2} {f : Factors m} {minSv : ℝ} (hf : IsFactors (lMat s) f)
    (hg : SingularGap minSv f) (hs : AffineDetermined s) (x : Fin np → P 2) (q : Fin np) (i : Fin m) (d : Fin 2) :
    dDl minSv f s x q i d = (kRow s (x q) ᵥ* truncated minSv f) (.inl i) := by
  have hc := coef_source hf hg hs d
  unfold coef at hc
  unfold dDl
  simp only
  rw [invL_eq hf hg, ← dotProduct_mulVec, neg_mulVec, ← mulVec_mulVec, ← mulVec_mulVec, hc, dL_idc, mulVec_neg, neg_neg,
    dotProduct_mulVec]
  simp

theorem apply_eq {s : Fin m → P 2} {f : Factors m} {minSv : ℝ} (t : Fin m → P 2) (x : P 2) (d : Fin 2) :
    apply minSv f s t x d = ∑ i, (kRow s x ᵥ* truncated minSv f) (.inl i) * t i d := by
  unfold apply coef
  rw [dotProduct_mulVec]
  simp [dotProduct, yRow]

end Menpofit.TpsDl

namespace Menpofit.TpsDl
open Matrix Warp Spec

variable {m np : Nat}

/-! ### Constants, and points at the landmarks -/

theorem lMat_const (s : Fin m → P 2) : lMat s *ᵥ (Sum.elim (fun _ => 0) (Pi.single 0 1)) =
    Sum.elim (fun _ => 1) fun _ => 0 := by
  ext i
  rcases i with i | a
  · simp [lMat, mulVec, dotProduct, pMat, sum_single, hom]
  · simp [lMat, mulVec, dotProduct]

theorem null_const {s : Fin m → P 2} (hs : AffineDetermined s) (z : Ix m → ℝ) (hz : lMat s *ᵥ z = 0) :
    z ⬝ᵥ (Sum.elim (fun _ => 0) (Pi.single 0 1)) = 0 := by
  have ha := hs (fun j => z (.inl j)) (fun a => z (.inr a)) ?_ ?_ ?_ ?_
  · have := congrFun ha 0
    simpa [dotProduct, sum_single] using this
  · intro i
    have := congrFun hz (.inl i)
    simp only [lMat, mulVec, dotProduct, Fintype.sum_sum_type, fromBlocks_apply₁₁, fromBlocks_apply₁₂, kMat, pMat, hom,
      of_apply, Fin.sum_univ_three, Pi.zero_apply] at this
    simp only [cons_val_zero, cons_val_one, cons_val] at this
    rw [← this]
    simp only [mul_comm]
    ring
  · have := congrFun hz (.inr 0)
    simpa [lMat, mulVec, dotProduct, pMat, hom] using this
  · have := congrFun hz (.inr 1)
    simpa [lMat, mulVec, dotProduct, pMat, hom, mul_comm] using this
  · have := congrFun hz (.inr 2)
    simpa [lMat, mulVec, dotProduct, pMat, hom, mul_comm] using this

theorem row_sum {s : Fin m → P 2} {f : Factors m} {minSv : ℝ} (hf : IsFactors (lMat s) f)
    (hg : SingularGap minSv f) (hs : AffineDetermined s) (x : P 2) :
    ∑ i, (kRow s x ᵥ* truncated minSv f) (.inl i) = 1 := by
  have h : truncated minSv f *ᵥ Sum.elim (fun _ => 1) (fun _ => 0) = Sum.elim (fun _ => 0) (Pi.single 0 1) := by
    rw [← lMat_const s]
    exact truncated_mulVec hf (lMat_symm s) hg _ fun z hz => null_const hs z hz
  have h2 := congrArg (fun z => kRow s x ⬝ᵥ z) h
  simp only [dotProduct_mulVec] at h2
  simpa [dotProduct, kRow, sum_single, hom] using h2

theorem apply_source {s : Fin m → P 2} {f : Factors m} {minSv : ℝ} (hf : IsFactors (lMat s) f)
    (hg : SingularGap minSv f) (hs : AffineDetermined s) (x : P 2) (d : Fin 2) :
    apply minSv f s s x d = x d := by
  unfold apply
  rw [coef_source hf hg hs, kRow_idc]

theorem kRow_source (s : Fin m → P 2) (j : Fin m) : kRow s (s j) = lMat s (.inl j) := by
  ext i
  rcases i with i | a
  · simp [kRow, lMat, kMat]
  · simp [kRow, lMat, pMat]

theorem affine_of_det {s : Fin m → P 2} (hd : (lMat s).det ≠ 0) : AffineDetermined s := by
  intro w a h1 h2 h3 h4
  have hu : IsUnit (lMat s).det := isUnit_iff_ne_zero.2 hd
  have hz : lMat s *ᵥ Sum.elim w a = 0 := by
    ext i
    rcases i with i | b
    · have := h1 i
      simp only [lMat, mulVec, dotProduct, Fintype.sum_sum_type, fromBlocks_apply₁₁, fromBlocks_apply₁₂, kMat, pMat,
        hom, of_apply, Fin.sum_univ_three, Pi.zero_apply, Sum.elim_inl, Sum.elim_inr]
      simp only [cons_val_zero, cons_val_one, cons_val]
      rw [← this]
      simp only [mul_comm]
      ring
    · match b with
      | 0 => simpa [lMat, mulVec, dotProduct, pMat, hom] using h2
      | 1 => simpa [lMat, mulVec, dotProduct, pMat, hom, mul_comm] using h3
      | 2 => simpa [lMat, mulVec, dotProduct, pMat, hom, mul_comm] using h4
  have h0 : Sum.elim w a = 0 := by
    have := congrArg (fun z => (lMat s)⁻¹ *ᵥ z) hz
    simpa [mulVec_mulVec, nonsing_inv_mul _ hu] using this
  ext b
  exact congrFun h0 (.inr b)

/-- The derivative if the matrix is invertible, whatever the threshold. -/
theorem dDl_det {s : Fin m → P 2} {f : Factors m} {minSv : ℝ} (hd : (lMat s).det ≠ 0) (x : Fin np → P 2)
    (q : Fin np) (i : Fin m) (d : Fin 2) :
    dDl minSv f s x q i d = (kRow s (x q) ᵥ* (lMat s)⁻¹) (.inl i) := by
  have hu : IsUnit (lMat s).det := isUnit_iff_ne_zero.2 hd
  have hc : (lMat s)⁻¹ *ᵥ yRow s d = idc d := by
    rw [← lMat_idc, mulVec_mulVec, nonsing_inv_mul _ hu, one_mulVec]
  unfold dDl invL
  simp only [if_neg hd]
  rw [← dotProduct_mulVec, neg_mulVec, ← mulVec_mulVec, ← mulVec_mulVec, hc, dL_idc, mulVec_neg, neg_neg,
    dotProduct_mulVec]
  simp

theorem row_inv {s : Fin m → P 2} (hd : (lMat s).det ≠ 0) (j i : Fin m) :
    (kRow s (s j) ᵥ* (lMat s)⁻¹) (.inl i) = if i = j then 1 else 0 := by
  have hu : IsUnit (lMat s).det := isUnit_iff_ne_zero.2 hd
  rw [kRow_source]
  have := congrFun (congrFun (mul_nonsing_inv _ hu) (.inl j)) (.inl i)
  rw [Matrix.mul_apply] at this
  simp only [vecMul, dotProduct]
  rw [this]
  simp [Matrix.one_apply, eq_comm]

/-! ### Splines -/

/-- The coefficients of a spline. -/
def cVec (T : Tps m) (d : Fin 2) : Ix m → ℝ := Sum.elim (fun i => T.w i d) fun a => T.aff a d

theorem apply_cVec (T : Tps m) (x : P 2) (d : Fin 2) : T.apply d x = kRow T.centres x ⬝ᵥ cVec T d := by
  simp only [Tps.apply, kRow, cVec, dotProduct, Fintype.sum_sum_type, Sum.elim_inl, Sum.elim_inr, hom,
    Fin.sum_univ_three]
  simp only [cons_val_zero, cons_val_one, cons_val, mul_comm]
  ring

theorem interpolates_iff (T : Tps m) (t : Fin m → P 2) :
    Interpolates T t ↔ ∀ d, lMat T.centres *ᵥ cVec T d = yRow t d := by
  have key : ∀ d i, (lMat T.centres *ᵥ cVec T d) (.inl i) = T.apply d (T.centres i) := by
    intro d i
    rw [apply_cVec, kRow_source]
    rfl
  have k0 : ∀ d, (lMat T.centres *ᵥ cVec T d) (.inr 0) = ∑ i, T.w i d := by
    intro d; simp [lMat, cVec, mulVec, dotProduct, pMat, hom]
  have k1 : ∀ d, (lMat T.centres *ᵥ cVec T d) (.inr 1) = (∑ i, T.w i d • T.centres i) 0 := by
    intro d; simp [lMat, cVec, mulVec, dotProduct, pMat, hom, mul_comm]
  have k2 : ∀ d, (lMat T.centres *ᵥ cVec T d) (.inr 2) = (∑ i, T.w i d • T.centres i) 1 := by
    intro d; simp [lMat, cVec, mulVec, dotProduct, pMat, hom, mul_comm]
  constructor
  · rintro ⟨h1, h2, h3⟩ d
    ext i
    rcases i with i | a
    · rw [key, h3]; rfl
    · match a with
      | 0 => rw [k0, h1]; rfl
      | 1 => rw [k1, h2]; rfl
      | 2 => rw [k2, h2]; rfl
  · intro h
    refine ⟨fun d => ?_, fun d => ?_, fun i d => ?_⟩
    · rw [← k0, h]; rfl
    · ext e
      match e with
      | 0 => rw [← k1, h]; rfl
      | 1 => rw [← k2, h]; rfl
    · rw [← key, h]; rfl

theorem unique_of_det {s : Fin m → P 2} (hd : (lMat s).det ≠ 0) : UniqueSpline s := by
  have hu : IsUnit (lMat s).det := isUnit_iff_ne_zero.2 hd
  intro T T' h h' t hT hT'
  rw [interpolates_iff] at hT hT'
  have e : ∀ d, cVec T d = cVec T' d := by
    intro d
    have h1 : lMat s *ᵥ cVec T d = lMat s *ᵥ cVec T' d := by
      rw [← h, hT, h, ← h', hT']
    have := congrArg (fun z => (lMat s)⁻¹ *ᵥ z) h1
    simpa [mulVec_mulVec, nonsing_inv_mul _ hu] using this
  obtain ⟨c, w, a⟩ := T
  obtain ⟨c', w', a'⟩ := T'
  simp only at h h'
  subst h h'
  congr 1
  · ext i d
    exact congrFun (e d) (.inl i)
  · ext b d
    exact congrFun (e d) (.inr b)

theorem r2LogR2_sub (c x δ : P 2) : r2LogR2 (c + δ) x = r2LogR2 c (x - δ) := by
  have : dist x (c + δ) = dist (x - δ) c := by
    rw [dist_eq_norm, dist_eq_norm]; congr 1; abel
  simp only [r2LogR2, this]

/-- Moving every centre. -/
theorem moved_source {s : Fin m → P 2} (hu : UniqueSpline s) (δ : P 2) (T : Tps m)
    (hc : T.centres = fun i => s i + δ) (hT : Interpolates T s) (x : P 2) (d : Fin 2) :
    T.apply d x = x d - δ d := by
  obtain ⟨h1, h2, h3⟩ := hT
  let T' : Tps m := ⟨s, T.w, fun a d => if a = 0 then T.aff 0 d + T.aff 1 d * δ 0 + T.aff 2 d * δ 1 else T.aff a d⟩
  have hT' : ∀ d x, T'.apply d x = T.apply d (x + δ) := by
    intro d x
    simp only [Tps.apply, T', hc, r2LogR2_sub, add_sub_cancel_right]
    simp
    ring
  let I : Tps m := ⟨s, fun _ _ => 0, fun a d => if a = d.succ then 1 else 0⟩
  have hI : ∀ d x, I.apply d x = x d := by
    intro d x
    match d with
    | 0 => simp [Tps.apply, I]
    | 1 => simp [Tps.apply, I]
  have e : T' = I := by
    refine hu T' I rfl rfl s ⟨h1, fun d => ?_, fun i d => ?_⟩ ⟨by simp [I], by simp [I], fun i d => hI d _⟩
    · have := h2 d
      simp only [hc, smul_add, Finset.sum_add_distrib, ← Finset.sum_smul, h1 d, zero_smul, add_zero] at this
      exact this
    · rw [hT']
      have := h3 i d
      rw [hc] at this
      exact this
  have h4 := hT' d (x - δ)
  rw [e, hI, sub_add_cancel] at h4
  rw [← h4]
  simp

/-- Every matrix has such factors. -/
theorem exists_factors (A : Matrix (Ix m) (Ix m) ℝ) : ∃ f : Factors m, IsFactors A f := by
  obtain ⟨U, s, V, h⟩ := exists_svd_tall (le_refl (m + 3))
    (A.submatrix finSumFinEquiv.symm finSumFinEquiv.symm : Matrix (Fin (m + 3)) (Fin (m + 3)) ℝ)
  refine ⟨⟨U.submatrix finSumFinEquiv id, s, V.submatrix id finSumFinEquiv⟩, ?_, ?_, ?_, h.nonneg, h.sorted⟩
  · have := congrArg (fun M => M.submatrix (finSumFinEquiv (m := m) (n := 3)) finSumFinEquiv) h.product
    simp only [submatrix_submatrix] at this
    simp only [Function.comp_def, Equiv.symm_apply_apply] at this
    rw [show A = A.submatrix (fun x => x) (fun x => x) from rfl, this]
    rfl
  · rw [← h.left]
    ext i j
    simp only [Matrix.mul_apply, transpose_apply, submatrix_apply, id]
    exact Equiv.sum_comp finSumFinEquiv fun x => U x i * U x j
  · rw [← h.right]
    ext i j
    simp only [Matrix.mul_apply, transpose_apply, submatrix_apply, id]
    exact Equiv.sum_comp finSumFinEquiv fun x => V i x * V j x

end Menpofit.TpsDl
