import Verif.Props.Signs
import Verif.Lemmas.ChannelsRest
/-!
# C141 for supervised descent
-/

namespace Menpofit
open Spec Matrix Sdm SdmReg Reg Translate

noncomputable section

theorem sameFits_orthogonal {I : Type} {d q : Nat} {U : Matrix (Fin d) (Fin d) ℝ} (hU : U * Uᵀ = 1)
    (feat feat' : I → (Fin q → ℝ) → Fin d → ℝ) (hf : ∀ im v, feat' im v = U *ᵥ feat im v)
    (junk : Nat → Fin q → ℝ) (n : Nat) (first : Batch I (Fin q → ℝ)) (more : List (Batch I (Fin q → ℝ))) :
    (∀ (α : ℝ) (bias inc : Bool),
      trainAndFit (irlOps α bias inc d q) feat' junk n first more =
        trainAndFit (irlOps α bias inc d q) feat junk n first more) ∧
    ∀ α α2 : ℝ,
      trainAndFit (iirlOps α α2 d q) feat' junk n first more = trainAndFit (iirlOps α α2 d q) feat junk n first more := by
  have h1 : ((1 : Matrix (Fin q) (Fin q) ℝ) *ᵥ ·) = id := by funext v; simp
  constructor
  · intro α bias inc
    obtain ⟨T', hb⟩ := Mix.biased_orth bias hU
    have := Turned.irlOps_turn α inc hb (1 : Matrix (Fin q) (Fin q) ℝ)
    rw [h1] at this
    exact sameFits_features this hf junk n first more
  · intro α α2
    have := Turned.iirlOps_turn α α2 (d := d) (q := q) hU (G := 1) (by simp)
    rw [h1] at this
    exact sameFits_features this hf junk n first more

theorem sameFits_orthogonal_parameters {I V : Type} {d q : Nat} {U : Matrix (Fin d) (Fin d) ℝ} (hU : U * Uᵀ = 1)
    (co : Coord V (Fin q → ℝ)) (feat feat' : I → V → Fin d → ℝ) (hf : ∀ im v, feat' im v = U *ᵥ feat im v)
    (junk : Nat → Fin q → ℝ) (n : Nat) (first : Batch I V) (more : List (Batch I V)) :
    (∀ (α : ℝ) (bias inc : Bool),
      trainAndFitParameters (irlOps α bias inc d q) co feat' junk n first more =
        trainAndFitParameters (irlOps α bias inc d q) co feat junk n first more) ∧
    ∀ α α2 : ℝ,
      trainAndFitParameters (iirlOps α α2 d q) co feat' junk n first more =
        trainAndFitParameters (iirlOps α α2 d q) co feat junk n first more := by
  have h1 : ((1 : Matrix (Fin q) (Fin q) ℝ) *ᵥ ·) = id := by funext v; simp
  have hc : Coords co co id id := ⟨fun _ => rfl, fun _ => rfl, fun _ _ => rfl, fun _ _ => rfl⟩
  constructor
  · intro α bias inc
    obtain ⟨T', hb⟩ := Mix.biased_orth bias hU
    have := Turned.irlOps_turn α inc hb (1 : Matrix (Fin q) (Fin q) ℝ)
    rw [h1] at this
    exact sameFits_turned this hc hf junk n first more
  · intro α α2
    have := Turned.iirlOps_turn α α2 (d := d) (q := q) hU (G := 1) (by simp)
    rw [h1] at this
    exact sameFits_turned this hc hf junk n first more

/-- **C141** (supervised descent on patches).  The features of mixed pictures are the mixed features, patch by patch;
training, any number of increments and every later fit give the same shapes or raise the same exceptions: for either
linear regression, any regularisation, with or without bias. -/
theorem C141_supervised_descent {I : Type} {N c p q : Nat} {R : Matrix (Fin c) (Fin c) ℝ} (hR : R * Rᵀ = 1)
    (feat feat' : I → (Fin q → ℝ) → Fin (N * (c * p)) → ℝ) (hf : ∀ im v, feat' im v = mixedPatches R (feat im v))
    (junk : Nat → Fin q → ℝ) (n : Nat) (first : Batch I (Fin q → ℝ)) (more : List (Batch I (Fin q → ℝ))) :
    (∀ (α : ℝ) (bias inc : Bool),
      trainAndFit (irlOps α bias inc (N * (c * p)) q) feat' junk n first more =
        trainAndFit (irlOps α bias inc (N * (c * p)) q) feat junk n first more) ∧
    ∀ α α2 : ℝ,
      trainAndFit (iirlOps α α2 (N * (c * p)) q) feat' junk n first more =
        trainAndFit (iirlOps α α2 (N * (c * p)) q) feat junk n first more :=
  sameFits_orthogonal (Mix.patch_orth hR) feat feat' (fun im v => (hf im v).trans (Mix.patch_vec _).symm) junk n first more

/-- **C141** (supervised descent on the parameters of a shape model).  The same for features of a warped picture. -/
theorem C141_parametric_descent {I V : Type} {c p q : Nat} {R : Matrix (Fin c) (Fin c) ℝ} (hR : R * Rᵀ = 1)
    (co : Coord V (Fin q → ℝ)) (feat feat' : I → V → Fin (c * p) → ℝ) (hf : ∀ im v, feat' im v = mixedFeatures R (feat im v))
    (junk : Nat → Fin q → ℝ) (n : Nat) (first : Batch I V) (more : List (Batch I V)) :
    (∀ (α : ℝ) (bias inc : Bool),
      trainAndFitParameters (irlOps α bias inc (c * p) q) co feat' junk n first more =
        trainAndFitParameters (irlOps α bias inc (c * p) q) co feat junk n first more) ∧
    ∀ α α2 : ℝ,
      trainAndFitParameters (iirlOps α α2 (c * p) q) co feat' junk n first more =
        trainAndFitParameters (iirlOps α α2 (c * p) q) co feat junk n first more :=
  sameFits_orthogonal_parameters (mul_eq_one_comm.1 (Mix.mat_orth hR)) co feat feat'
    (fun im v => (hf im v).trans (Mix.mat_vec _).symm) junk n first more

/-- **C141** (features of a warped picture).  The pixels are sampled alike in every channel.  Where the appearance model is
that of mixed pictures, the differences to the mean and what is left of them after projecting out are mixed, and the
projections are the same. -/
theorem C141_sd_features {c p P a : Nat} {R : Matrix (Fin c) (Fin c) ℝ} (hR : R * Rᵀ = 1)
    (z z' : SdFeatures.Setup ℝ (c * P) (c * p) a) (f : Fin p → Fin P)
    (hs : ∀ i s, z.iMask (finProdFinEquiv (i, s)) = finProdFinEquiv (i, f s)) (hs' : z'.iMask = z.iMask)
    (hmean : z'.mean = mixedFeatures R z.mean) (hcomp : ∀ k, z'.components.row k = mixedFeatures R (z.components.row k))
    (hpinv : ∀ k, z'.pinv.row k = mixedFeatures R (z.pinv.row k)) (i : Fin (c * P) → ℝ) :
    SdFeatures.meanTemplate z' (mixedFeatures R i) = mixedFeatures R (SdFeatures.meanTemplate z i) ∧
    SdFeatures.projectedOut z' (mixedFeatures R i) = mixedFeatures R (SdFeatures.projectedOut z i) ∧
    SdFeatures.appearanceWeights z' (mixedFeatures R i) = SdFeatures.appearanceWeights z i := by
  have hsam : ∀ v, SdFeatures.sampled z' (mixedFeatures R v) = mixedFeatures R (SdFeatures.sampled z v) := by
    intro v
    funext r
    obtain ⟨x, rfl⟩ := finProdFinEquiv.surjective r
    unfold SdFeatures.sampled
    rw [hs', show x = (x.1, x.2) from rfl, hs]
    simp only [mixedFeatures, Equiv.symm_apply_apply, hs]
  have hU := Mix.mat_orth (q := p) hR
  have he : SdFeatures.sampled z' (mixedFeatures R i) - SdFeatures.aBarM z' =
      Mix.mat R p *ᵥ (SdFeatures.sampled z i - SdFeatures.aBarM z) := by
    unfold SdFeatures.aBarM
    rw [hmean, hsam, hsam, mulVec_sub, Mix.mat_vec, Mix.mat_vec]
  have hA : SdFeatures.aM z' = Mix.mat R p * SdFeatures.aM z := by
    ext r k
    have h1 : SdFeatures.aM z' r k = SdFeatures.sampled z' (z'.components.row k) r := rfl
    have h2 : ∀ s, SdFeatures.aM z s k = SdFeatures.sampled z (z.components.row k) s := fun s => rfl
    rw [h1, hcomp, hsam, ← Mix.mat_vec, mul_apply]
    rfl
  have hP : z'.pinv = z.pinv * (Mix.mat R p)ᵀ := by
    ext k r
    have := congrFun (hpinv k) r
    rw [← Mix.mat_vec] at this
    rw [mul_apply]
    refine this.trans ?_
    simp only [mulVec, dotProduct, transpose_apply]
    exact Finset.sum_congr rfl fun s _ => mul_comm _ _
  have hw : SdFeatures.appearanceWeights z' (mixedFeatures R i) = SdFeatures.appearanceWeights z i := by
    unfold SdFeatures.appearanceWeights
    rw [he, hP, mulVec_mulVec, Matrix.mul_assoc, hU, Matrix.mul_one]
  refine ⟨?_, ?_, hw⟩
  · exact he.trans (Mix.mat_vec _)
  · have hw' : z'.pinv *ᵥ (SdFeatures.sampled z' (mixedFeatures R i) - SdFeatures.aBarM z') =
        z.pinv *ᵥ (SdFeatures.sampled z i - SdFeatures.aBarM z) := hw
    refine Eq.trans ?_ (Mix.mat_vec _)
    unfold SdFeatures.projectedOut
    dsimp only
    rw [hw', he, hA, mulVec_sub (Mix.mat R p) _ (SdFeatures.aM z *ᵥ _), ← mulVec_mulVec]

/-- Two channels exchanged in each of two patches of one pixel, and in a warped picture of two pixels of which the second is
sampled. -/
example : (!![0, 1; 1, 0] : Matrix (Fin 2) (Fin 2) ℝ) * (!![0, 1; 1, 0] : Matrix (Fin 2) (Fin 2) ℝ)ᵀ = 1 ∧
    mixedPatches (N := 2) (q := 1) !![0, 1; 1, 0] (![1, 2, 3, 4] : Fin 4 → ℝ) = (![2, 1, 4, 3] : Fin 4 → ℝ) ∧
    ∃ z z' : SdFeatures.Setup ℝ (2 * 2) (2 * 1) 1,
      (∀ i s, z.iMask (finProdFinEquiv (i, s)) = finProdFinEquiv (i, (fun _ => 1 : Fin 1 → Fin 2) s)) ∧ z'.iMask = z.iMask ∧
      z'.mean = mixedFeatures !![0, 1; 1, 0] z.mean ∧
      (∀ k, z'.components.row k = mixedFeatures !![0, 1; 1, 0] (z.components.row k)) ∧
      (∀ k, z'.pinv.row k = mixedFeatures !![0, 1; 1, 0] (z.pinv.row k)) ∧ z.mean ≠ z'.mean := by
  refine ⟨?_, ?_, ⟨![1, 2, 3, 4], of ![![1, 0, 0, 2]], ![1, 3], of ![![5, 7]]⟩,
    ⟨mixedFeatures (q := 2) !![0, 1; 1, 0] ![1, 2, 3, 4],
      of fun k => mixedFeatures (q := 2) !![0, 1; 1, 0] (![![1, 0, 0, 2]] k), ![1, 3],
      of fun k => mixedFeatures (q := 1) !![0, 1; 1, 0] (![![5, 7]] k)⟩, ?_, rfl, rfl, fun _ => rfl, fun _ => rfl, ?_⟩
  · ext i j
    fin_cases i <;> fin_cases j <;> simp [mul_apply, Fin.sum_univ_two]
  · funext r
    fin_cases r <;> simp [mixedPatches, mixedFeatures, finProdFinEquiv, Fin.divNat, Fin.modNat]
  · intro i s
    fin_cases i <;> fin_cases s <;> rfl
  · intro h
    have := congrFun h 0
    simp [mixedFeatures, finProdFinEquiv, Fin.divNat, Fin.modNat] at this

end

end Menpofit
