import Verif.Lemmas.SdmReorder
import Verif.Lemmas.Turned
/-!
# Lemmas: supervised descent in other coordinates of features and parameters
-/

namespace Menpofit
namespace Turned
open Sdm Spec Matrix Reg GN SdmReg

variable {d q k : Nat}

/-- A regressor in other coordinates. -/
def irlT (T : Matrix (Fin k) (Fin k) ℝ) (G : Matrix (Fin q) (Fin q) ℝ) (st : Irl ℝ k q) : Irl ℝ k q :=
  ⟨st.alpha, st.incrementable, st.V.map fun V => T * V * Tᵀ, st.W.map fun W => T * W * Gᵀ⟩

theorem normal_turn {T : Matrix (Fin k) (Fin k) ℝ} (hT : T * Tᵀ = 1) (α : ℝ) {n : Nat} (X : Matrix (Fin n) (Fin k) ℝ) :
    Reg.normal α (X * Tᵀ) = T * Reg.normal α X * Tᵀ := by
  have es : (T * (Xᵀ * X) * Tᵀ)ᵀ = T * (Xᵀ * X)ᵀ * Tᵀ := by
    simp only [Matrix.transpose_mul, Matrix.transpose_transpose, Matrix.mul_assoc]
  have e0 : (2⁻¹ : ℝ) • (T * (Xᵀ * X) * Tᵀ + T * (Xᵀ * X)ᵀ * Tᵀ) = T * ((2⁻¹ : ℝ) • (Xᵀ * X + (Xᵀ * X)ᵀ)) * Tᵀ := by
    rw [Matrix.mul_smul, Matrix.smul_mul, Matrix.mul_add, Matrix.add_mul]
  unfold Reg.normal
  simp only [jac_gram, es, e0]
  split_ifs
  · rfl
  · have e : (diagonal fun _ => α : Matrix (Fin k) (Fin k) ℝ) = T * (diagonal fun _ => α) * Tᵀ := by
      have : (diagonal fun _ => α : Matrix (Fin k) (Fin k) ℝ) = α • 1 := by rw [smul_one_eq_diagonal]
      rw [this, Matrix.mul_smul, Matrix.smul_mul, Matrix.mul_one, hT]
    conv_lhs => rw [e]
    rw [Matrix.mul_add, Matrix.add_mul]

theorem tdot_turn {n n' : Nat} (T : Matrix (Fin k) (Fin k) ℝ) (G : Matrix (Fin q) (Fin q) ℝ) (X : Matrix (Fin n) (Fin k) ℝ)
    (Y : Matrix (Fin n') (Fin q) ℝ) :
    tdot (X * Tᵀ) (Y * Gᵀ) = (tdot X Y).map fun B => T * B * Gᵀ := by
  unfold tdot
  split_ifs with h
  · subst h
    simp only [Except.map, Matrix.transpose_mul, Matrix.transpose_transpose]
    simp only [Matrix.mul_assoc]
    rfl
  · rfl

theorem solveMat_turn2 {T : Matrix (Fin k) (Fin k) ℝ} (hT : T * Tᵀ = 1) (G : Matrix (Fin q) (Fin q) ℝ)
    (H : Matrix (Fin k) (Fin k) ℝ) (B : Matrix (Fin k) (Fin q) ℝ) :
    npSolveMat (T * H * Tᵀ) (T * B * Gᵀ) = (npSolveMat H B).map fun W => T * W * Gᵀ := by
  have := solveMat_turn hT H (B * Gᵀ)
  rw [← Matrix.mul_assoc] at this
  rw [this]
  unfold npSolveMat
  split_ifs
  · rfl
  · simp only [Except.map, Matrix.mul_assoc]

theorem trainCore_turn {n n' : Nat} {T : Matrix (Fin k) (Fin k) ℝ} (hT : T * Tᵀ = 1) (G : Matrix (Fin q) (Fin q) ℝ)
    (st : Irl ℝ k q) (X : Matrix (Fin n) (Fin k) ℝ) (Y : Matrix (Fin n') (Fin q) ℝ) :
    trainCore (irlT T G st) (X * Tᵀ) (Y * Gᵀ) = (irlT T G (trainCore st X Y).1, (trainCore st X Y).2) := by
  have e : (tdot (X * Tᵀ) (Y * Gᵀ) >>= npSolveMat (T * Reg.normal st.alpha X * Tᵀ)) =
      (tdot X Y >>= npSolveMat (Reg.normal st.alpha X)).map fun W => T * W * Gᵀ := by
    rw [tdot_turn]
    cases tdot X Y with
    | error e => rfl
    | ok B => exact solveMat_turn2 hT G _ B
  unfold trainCore
  simp only [irlT, normal_turn hT, npInv_turn hT, e]
  split_ifs
  · cases npInv (Reg.normal st.alpha X) with
    | error e => rfl
    | ok v =>
      simp only [Except.map]
      cases (tdot X Y >>= npSolveMat (Reg.normal st.alpha X)) <;> rfl
  · cases (tdot X Y >>= npSolveMat (Reg.normal st.alpha X)) <;> rfl

theorem incrementCore_turn {n n' : Nat} {T : Matrix (Fin k) (Fin k) ℝ} (hT : T * Tᵀ = 1) (G : Matrix (Fin q) (Fin q) ℝ)
    (st : Irl ℝ k q) (X : Matrix (Fin n) (Fin k) ℝ) (Y : Matrix (Fin n') (Fin q) ℝ) :
    incrementCore (irlT T G st) (X * Tᵀ) (Y * Gᵀ) = (irlT T G (incrementCore st X Y).1, (incrementCore st X Y).2) := by
  obtain ⟨α, inc, V, W⟩ := st
  have hl : Tᵀ * T = 1 := orth_left hT
  have cancel : ∀ {a b : Nat} (A : Matrix (Fin a) (Fin k) ℝ) (B : Matrix (Fin k) (Fin b) ℝ), A * (Tᵀ * (T * B)) = A * B := by
    intro a b A B
    rw [← Matrix.mul_assoc Tᵀ, hl, Matrix.one_mul]
  cases inc with
  | false => rfl
  | true =>
    cases V with
    | none => rfl
    | some V =>
      have eU : X * Tᵀ * (T * V * Tᵀ) * (X * Tᵀ)ᵀ = X * V * Xᵀ := by
        rw [Matrix.transpose_mul, Matrix.transpose_transpose]
        simp only [Matrix.mul_assoc, cancel]
      unfold incrementCore
      simp only [irlT, tdot_turn, Option.map_some, eU, if_true]
      cases npInv (if α = 0 then X * V * Xᵀ else X * V * Xᵀ + diagonal fun _ => α) with
      | error e => rfl
      | ok Ui =>
        have eQ : T * V * Tᵀ * (X * Tᵀ)ᵀ * Ui * (X * Tᵀ) = T * (V * Xᵀ * Ui * X) * Tᵀ := by
          rw [Matrix.transpose_mul, Matrix.transpose_transpose]
          simp only [Matrix.mul_assoc, cancel]
        simp only [eQ]
        generalize V * Xᵀ * Ui * X = Q
        have eV : T * V * Tᵀ - T * Q * Tᵀ * (T * V * Tᵀ) = T * (V - Q * V) * Tᵀ := by
          rw [Matrix.mul_sub, Matrix.sub_mul]
          simp only [Matrix.mul_assoc, cancel]
        simp only [eV]
        generalize V - Q * V = V'
        cases W with
        | none => rfl
        | some W =>
          cases tdot X Y with
          | error e => rfl
          | ok XY =>
            have eW : T * W * Gᵀ - T * Q * Tᵀ * (T * W * Gᵀ) + T * V' * Tᵀ * (T * XY * Gᵀ) =
                T * (W - Q * W + V' * XY) * Gᵀ := by
              rw [Matrix.mul_add, Matrix.add_mul, Matrix.mul_sub, Matrix.sub_mul]
              simp only [Matrix.mul_assoc, cancel]
            simp only [Option.map_some, Except.map, eW]

theorem stack_turn (T : Matrix (Fin d) (Fin d) ℝ) (xs : List (Fin d → ℝ)) :
    ∃ h : (xs.map (T *ᵥ ·)).length = xs.length,
      stack (xs.map (T *ᵥ ·)) = (stack xs * Tᵀ).submatrix (Fin.cast h) id := by
  refine ⟨by simp, ?_⟩
  ext i j
  simp [stack, Matrix.mul_apply, mulVec, dotProduct, mul_comm]

/-- The change of coordinates of the features after the column of ones was added. -/
structure Biased (bias : Bool) (T : Matrix (Fin d) (Fin d) ℝ) (T' : Matrix (Fin (width bias d)) (Fin (width bias d)) ℝ) :
    Prop where
  orth : T' * T'ᵀ = 1
  add : ∀ {n : Nat} (X : Matrix (Fin n) (Fin d) ℝ), addBias bias (X * Tᵀ) = addBias bias X * T'ᵀ

theorem train_turn {bias : Bool} {T : Matrix (Fin d) (Fin d) ℝ} {T' : Matrix (Fin (width bias d)) (Fin (width bias d)) ℝ}
    (hb : Biased bias T T') (G : Matrix (Fin q) (Fin q) ℝ) (α : ℝ) (inc : Bool) {n n' m m' : Nat}
    (h : m = n) (h' : m' = n') (X : Matrix (Fin n) (Fin d) ℝ) (Y : Matrix (Fin n') (Fin q) ℝ) :
    Reg.train bias (newIrl α inc _ _) ((X * Tᵀ).submatrix (Fin.cast h) id) ((Y * Gᵀ).submatrix (Fin.cast h') id) =
      (irlT T' G (Reg.train bias (newIrl α inc _ _) X Y).1, (Reg.train bias (newIrl α inc _ _) X Y).2) := by
  subst h h'
  have := trainCore_turn hb.orth G (newIrl α inc (width bias d) q) (addBias bias X) Y
  rw [← hb.add] at this
  exact this

theorem incr_turn {bias : Bool} {T : Matrix (Fin d) (Fin d) ℝ} {T' : Matrix (Fin (width bias d)) (Fin (width bias d)) ℝ}
    (hb : Biased bias T T') (G : Matrix (Fin q) (Fin q) ℝ) (st : Irl ℝ (width bias d) q) {n n' m m' : Nat}
    (h : m = n) (h' : m' = n') (X : Matrix (Fin n) (Fin d) ℝ) (Y : Matrix (Fin n') (Fin q) ℝ) :
    Reg.increment bias (irlT T' G st) ((X * Tᵀ).submatrix (Fin.cast h) id) ((Y * Gᵀ).submatrix (Fin.cast h') id) =
      (irlT T' G (Reg.increment bias st X Y).1, (Reg.increment bias st X Y).2) := by
  subst h h'
  have := incrementCore_turn hb.orth G st (addBias bias X) Y
  rw [← hb.add] at this
  exact this

theorem pred_turn {bias : Bool} {T : Matrix (Fin d) (Fin d) ℝ} {T' : Matrix (Fin (width bias d)) (Fin (width bias d)) ℝ}
    (hb : Biased bias T T') (G : Matrix (Fin q) (Fin q) ℝ) (st : Irl ℝ (width bias d) q) {n m : Nat}
    (h : m = n) (X : Matrix (Fin n) (Fin d) ℝ) :
    predictRows bias (irlT T' G st) ((X * Tᵀ).submatrix (Fin.cast h) id) =
      (predictRows bias st X).map fun M => (M * Gᵀ).submatrix (Fin.cast h) id := by
  subst h
  obtain ⟨α, inc, V, W⟩ := st
  cases W with
  | none => rfl
  | some W =>
    have e' : (X * Tᵀ).submatrix (Fin.cast rfl) id = X * Tᵀ := rfl
    have hl : T'ᵀ * T' = 1 := orth_left hb.orth
    have e : addBias bias X * T'ᵀ * (T' * W * Gᵀ) = addBias bias X * W * Gᵀ := by
      simp only [Matrix.mul_assoc]
      rw [← Matrix.mul_assoc T'ᵀ, hl, Matrix.one_mul]
    simp only [predictRows, irlT, Option.map_some, Except.map, e', hb.add, e]
    rfl

/-- Linear regression commutes with an orthogonal change of the coordinates of features and regressed values. -/
theorem irlOps_turn (α : ℝ) {bias : Bool} (inc : Bool) {T : Matrix (Fin d) (Fin d) ℝ}
    {T' : Matrix (Fin (width bias d)) (Fin (width bias d)) ℝ} (hb : Biased bias T T') (G : Matrix (Fin q) (Fin q) ℝ) :
    Translates (irlOps α bias inc d q) (T *ᵥ ·) (G *ᵥ ·) (irlT T' G) where
  train xs ys := by
    obtain ⟨h, e⟩ := stack_turn T xs
    obtain ⟨h', e'⟩ := stack_turn G ys
    simp only [irlOps, e, e', train_turn hb]
    cases (Reg.train bias (newIrl α inc (width bias d) q) (stack xs) (stack ys)).2 <;> rfl
  increment r xs ys := by
    obtain ⟨h, e⟩ := stack_turn T xs
    obtain ⟨h', e'⟩ := stack_turn G ys
    simp only [irlOps, e, e', incr_turn hb]
    cases (Reg.increment bias r (stack xs) (stack ys)).2 <;> rfl
  predict r xs := by
    obtain ⟨h, e⟩ := stack_turn T xs
    simp only [irlOps, e, pred_turn hb]
    cases predictRows bias r (stack xs) with
    | error e =>
      simp only [Except.map, List.map_map]
      refine List.map_congr_left fun _ _ => ?_
      simp [Function.comp]
    | ok M =>
      simp only [Except.map]
      apply List.ext_getElem
      · simp
      · intro i h1 h2
        simp only [List.getElem_ofFn, List.getElem_map]
        funext j
        simp [Matrix.mul_apply, mulVec, dotProduct, mul_comm]

/-- A regressor of `IIRLRegression` in other coordinates. -/
def iirlT (T : Matrix (Fin d) (Fin d) ℝ) (G : Matrix (Fin q) (Fin q) ℝ) (st : Iirl ℝ d q) : Iirl ℝ d q :=
  { st with W := st.W.map fun W => T * W * Gᵀ }

theorem invertJ_turn (α : ℝ) {T : Matrix (Fin d) (Fin d) ℝ} (hT : T * Tᵀ = 1) {G : Matrix (Fin q) (Fin q) ℝ}
    (hG : G * Gᵀ = 1) (J : Matrix (Fin q) (Fin d) ℝ) :
    invertJ α (G * J * Tᵀ) = (invertJ α J).map fun W => T * W * Gᵀ := by
  have hl : Tᵀ * T = 1 := orth_left hT
  have e : G * J * Tᵀ * (G * J * Tᵀ)ᵀ = G * (J * Jᵀ) * Gᵀ := by
    simp only [Matrix.transpose_mul, Matrix.transpose_transpose, Matrix.mul_assoc]
    rw [← Matrix.mul_assoc Tᵀ, hl, Matrix.one_mul]
  have e2 : G * (J * Jᵀ) * Gᵀ + diagonal (fun _ => α) = G * (J * Jᵀ + diagonal fun _ => α) * Gᵀ := by
    have : (diagonal fun _ => α : Matrix (Fin q) (Fin q) ℝ) = α • 1 := by rw [smul_one_eq_diagonal]
    rw [Matrix.mul_add, Matrix.add_mul, this, Matrix.mul_smul, Matrix.smul_mul, Matrix.mul_one, hG]
  unfold invertJ
  simp only [e, e2]
  split_ifs
  · rw [solveMat_turn2 hG]
    cases npSolveMat (J * Jᵀ) J <;> simp [Except.map, Matrix.transpose_mul, Matrix.mul_assoc]
  · rw [solveMat_turn2 hG]
    cases npSolveMat (J * Jᵀ + diagonal fun _ => α) J <;>
      simp [Except.map, Matrix.transpose_mul, Matrix.mul_assoc]

theorem trainIirl_turn (α α2 : ℝ) {T : Matrix (Fin d) (Fin d) ℝ} (hT : T * Tᵀ = 1) {G : Matrix (Fin q) (Fin q) ℝ}
    (hG : G * Gᵀ = 1) {n n' m m' : Nat}
    (h : m = n) (h' : m' = n') (X : Matrix (Fin n) (Fin d) ℝ) (Y : Matrix (Fin n') (Fin q) ℝ) :
    trainIirl (newIirl α α2 d q) ((X * Tᵀ).submatrix (Fin.cast h) id) ((Y * Gᵀ).submatrix (Fin.cast h') id) =
      (iirlT T G (trainIirl (newIirl α α2 d q) X Y).1, (trainIirl (newIirl α α2 d q) X Y).2) := by
  subst h h'
  have := trainCore_turn hG T (newIrl α false q d) Y X
  have e : irlT G T (newIrl α false q d) = newIrl α false q d := rfl
  rw [e] at this
  unfold trainIirl
  have ex : (X * Tᵀ).submatrix (Fin.cast rfl) id = X * Tᵀ := rfl
  have ey : (Y * Gᵀ).submatrix (Fin.cast rfl) id = Y * Gᵀ := rfl
  simp only [newIirl] at *
  rw [ex, ey, this]
  rcases trainCore (newIrl α false q d) Y X with ⟨⟨a, b, V, W⟩, r⟩
  cases r with
  | error e => rfl
  | ok u =>
    cases W with
    | none => rfl
    | some J =>
      simp only [irlT, Option.map_some, invertJ_turn α2 hT hG]
      cases invertJ α2 J <;> rfl

theorem iirlOps_turn (α α2 : ℝ) {T : Matrix (Fin d) (Fin d) ℝ} (hT : T * Tᵀ = 1) {G : Matrix (Fin q) (Fin q) ℝ}
    (hG : G * Gᵀ = 1) : Translates (iirlOps α α2 d q) (T *ᵥ ·) (G *ᵥ ·) (iirlT T G) where
  train xs ys := by
    obtain ⟨h, e⟩ := stack_turn T xs
    obtain ⟨h', e'⟩ := stack_turn G ys
    simp only [iirlOps, e, e', trainIirl_turn _ _ hT hG]
    cases (trainIirl (newIirl α α2 d q) (stack xs) (stack ys)).2 <;> rfl
  increment r xs ys := rfl
  predict r xs := by
    simp only [iirlOps, List.map_map]
    refine List.map_congr_left fun x _ => ?_
    obtain ⟨a, a2, b, W⟩ := r
    cases W with
    | none => simp [Function.comp, iirlT, predictIirl, orZero]
    | some W =>
      simp only [Function.comp, iirlT, predictIirl, Option.map_some, orZero]
      have e : T *ᵥ x = x ᵥ* Tᵀ := by rw [Matrix.vecMul_transpose]
      have e2 : G *ᵥ (x ᵥ* W) = x ᵥ* W ᵥ* Gᵀ := by rw [Matrix.vecMul_transpose]
      rw [e, e2, Matrix.vecMul_vecMul, Matrix.vecMul_vecMul]
      congr 1
      rw [← Matrix.mul_assoc, ← Matrix.mul_assoc, orth_left hT, Matrix.one_mul]

theorem diag_square {k : Nat} {e : Fin k → ℝ} (he : ∀ i, e i * e i = 1) : diagonal e * (diagonal e)ᵀ = 1 := by
  rw [diagonal_transpose, diagonal_mul_diagonal]
  have : (fun i => e i * e i) = fun _ => 1 := funext he
  rw [this, diagonal_one]

theorem snoc_signs {e : Fin d → ℝ} {n : Nat} (X : Matrix (Fin n) (Fin d) ℝ) :
    (of fun i => (Fin.snoc ((X * (diagonal e)ᵀ) i) 1 : Fin (d + 1) → ℝ)) =
      (of fun i => (Fin.snoc (X i) 1 : Fin (d + 1) → ℝ)) * (diagonal (Fin.snoc e 1 : Fin (d + 1) → ℝ))ᵀ := by
  ext i j
  rw [diagonal_transpose, diagonal_transpose, mul_diagonal]
  refine Fin.lastCases ?_ (fun j => ?_) j
  · simp
  · simp [mul_diagonal]

/-- Changed signs of features, with the column of ones. -/
theorem biased_signs (bias : Bool) {e : Fin d → ℝ} (he : ∀ i, e i * e i = 1) : ∃ T', Biased bias (diagonal e) T' := by
  cases bias with
  | false => exact ⟨diagonal e, diag_square (k := d) he, fun X => rfl⟩
  | true =>
    refine ⟨diagonal (Fin.snoc e 1 : Fin (d + 1) → ℝ), diag_square (k := d + 1) fun i => ?_, fun X => snoc_signs X⟩
    refine Fin.lastCases ?_ (fun j => ?_) i
    · simp
    · simp [he]

theorem biased_one (bias : Bool) : ∃ T', Biased bias (1 : Matrix (Fin d) (Fin d) ℝ) T' :=
  ⟨1, by rw [Matrix.transpose_one, Matrix.mul_one], fun X => by rw [Matrix.transpose_one, Matrix.mul_one, Matrix.transpose_one, Matrix.mul_one]⟩

/-- One change after another. -/
theorem translates_comp {Row W R : Type} {ops : RegOps Row W R} {τ τ' : Row → Row} {ω ω' : W → W} {κ κ' : R → R}
    (h : Translates ops τ ω κ) (h' : Translates ops τ' ω' κ') :
    Translates ops (τ' ∘ τ) (ω' ∘ ω) (κ' ∘ κ) where
  train xs ys := by
    rw [← List.map_map, ← List.map_map, h'.train, h.train]
    cases ops.train xs ys <;> rfl
  increment r xs ys := by
    rw [← List.map_map, ← List.map_map, Function.comp, h'.increment, h.increment]
    cases ops.increment r xs ys <;> rfl
  predict r xs := by
    rw [← List.map_map, Function.comp, h'.predict, h.predict, List.map_map]

end Turned
end Menpofit
