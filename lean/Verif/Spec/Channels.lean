import Verif.Model.Placement
import Verif.Model.LkRuns
import Verif.Spec.Lighting
import Verif.Model.CorrelationFilter
import Verif.Model.SdFeatures
/-!
# Specification: pictures with other channels

The channels of a picture are mixed by a square matrix `R`: channel `i` of the new picture is the combination of the old
channels with the weights in row `i` of `R`.  A reordering of the channels is the case of a permutation matrix, an image
and its negative that of `-1`.
-/

namespace Menpofit
namespace Spec
open Matrix Place Lk Dft

/-- The picture with its channels mixed. -/
noncomputable def mixed {c h w : Nat} (R : Matrix (Fin c) (Fin c) ℝ) (x : Planes c h w) : Planes c h w :=
  fun i p => ∑ j, R i j * x j p

/-- The channels reordered by `σ`. -/
def reordered {c h w : Nat} (σ : Equiv.Perm (Fin c)) (x : Planes c h w) : Planes c h w := fun i p => x (σ i) p

/-- The matrix that reorders. -/
def orderMatrix {c : Nat} (σ : Equiv.Perm (Fin c)) : Matrix (Fin c) (Fin c) ℝ := of fun i j => if j = σ i then 1 else 0

/-- The same on feature vectors, which list all pixels of the first channel, then all of the second, and so on. -/
noncomputable def mixedFeatures {c q : Nat} (R : Matrix (Fin c) (Fin c) ℝ) (v : Fin (c * q) → ℝ) : Fin (c * q) → ℝ :=
  fun r => ∑ j, R (finProdFinEquiv.symm r).1 j * v (finProdFinEquiv (j, (finProdFinEquiv.symm r).2))

/-- An appearance model trained on mixed pictures: mean, components and everything measured on a picture or predicted
by the model is mixed, column by column.  `τ` says what becomes of a warped picture. -/
structure MixedAppearance {n a c q : Nat} {W : Type} (R : Matrix (Fin c) (Fin c) ℝ) (τ : W → W)
    (z z' : Appearance n a (c * q) W) : Prop where
  mask : ∀ w, z'.mask (τ w) = mixedFeatures R (z.mask w)
  jacI : ∀ w k, (z'.jacI (τ w)).col k = mixedFeatures R ((z.jacI w).col k)
  jacA : ∀ b k, (z'.jacA b).col k = mixedFeatures R ((z.jacA b).col k)
  aBar : z'.aBar = mixedFeatures R z.aBar
  A : ∀ k, z'.A.col k = mixedFeatures R (z.A.col k)
  pinvA : ∀ k, z'.pinvA.row k = mixedFeatures R (z.pinvA.row k)
  priorA : z'.priorA = z.priorA

/-- menpo's gradient is taken in every channel separately and is linear. -/
def ChannelWise {c h w : Nat} {Im T : Type} (env : Lk.Env c h w Im T) : Prop :=
  ∃ D : Fin 2 → (Pos h w → ℝ) →ₗ[ℝ] (Pos h w → ℝ), ∀ x d i, env.grad x d i = D d (x i)

/-- The whole picture `im'` is `im` with mixed channels: so is everything seen of it through any warp. -/
structure MixedPicture {c h w : Nat} {Im T : Type} (R : Matrix (Fin c) (Fin c) ℝ) (env : Lk.Env c h w Im T)
    (im im' : Im) : Prop where
  warp : ∀ t, env.warp im' t = mixed R (env.warp im t)
  fwdGrad : ∀ t d, env.fwdGrad im' t d = mixed R (env.fwdGrad im t d)

/-- The same for a picture that is normalised as a whole first. -/
structure MixedWhole {c h w : Nat} {Im T : Type} (R : Matrix (Fin c) (Fin c) ℝ) (env : Lk.Env c h w Im T)
    (im im' : Im) : Prop where
  seen : MixedPicture R env im im'
  normed : BothWays (MixedPicture R env) (env.normIm im) (env.normIm im')

/-- Fitting the mixed picture to the mixed template gives exactly what fitting the picture to the template gives, or
fails with the same exception: forward compositional, forward additive and inverse compositional. -/
def ChannelBlind {c h w n : Nat} {Im T ρ A H B : Type} (S V : Type) (r : Lk.Residual c h w n Im T ρ A H B)
    (env : Lk.Env c h w Im T) (R : Matrix (Fin c) (Fin c) ℝ) (pictures : Im → Im → Prop) (s : ρ) : Prop :=
  ∀ (tr : Lk.Transform n T S V) (add : T → (Fin n → ℝ) → T) (pinv : T → (Fin n → ℝ) → (Fin n → ℝ)) (dW : Jac h w n)
    (dWt : T → Jac h w n) (template : Planes c h w) (eps : ℝ) (t : T) (im im' : Im) (initial : S) (maxIters : Int),
    pictures im im' →
    fcRun r env tr dW (mixed R template) eps s t im' initial maxIters =
      fcRun r env tr dW template eps s t im initial maxIters ∧
    faRun r env tr add dWt (mixed R template) eps s t im' initial maxIters =
      faRun r env tr add dWt template eps s t im initial maxIters ∧
    icFit r env tr pinv dW (mixed R template) eps s t im' initial maxIters =
      icFit r env tr pinv dW template eps s t im initial maxIters

/-- The features of a shape list the patches one after the other, and in every patch one channel after the other. -/
noncomputable def mixedPatches {N c q : Nat} (R : Matrix (Fin c) (Fin c) ℝ) (v : Fin (N * (c * q)) → ℝ) :
    Fin (N * (c * q)) → ℝ := fun r =>
  mixedFeatures R (fun s => v (finProdFinEquiv ((finProdFinEquiv.symm r).1, s))) (finProdFinEquiv.symm r).2

/-- The Fourier transform of a mixed patch: the transform is taken channel by channel. -/
noncomputable def mixedSpectrum {k D : Nat} (R : Matrix (Fin k) (Fin k) ℝ) (x : Cf.Spectrum k D) : Cf.Spectrum k D :=
  fun i p => ∑ j, (R i j : ℂ) * x j p

/-- The same for the vectors of the multi-channel filters. -/
noncomputable def mixedFilter {k D : Nat} (R : Matrix (Fin k) (Fin k) ℝ) (f : Cf.Ix k D → ℂ) : Cf.Ix k D → ℂ :=
  fun x => ∑ j, (R x.1 j : ℂ) * f (j, x.2)

/-- The same for their matrices, on both sides. -/
noncomputable def mixedEnergy {k D : Nat} (R : Matrix (Fin k) (Fin k) ℝ) (B : Matrix (Cf.Ix k D) (Cf.Ix k D) ℂ) :
    Matrix (Cf.Ix k D) (Cf.Ix k D) ℂ :=
  Matrix.of fun x y => ∑ i, ∑ j, (R x.1 i : ℂ) * B (i, x.2) (j, y.2) * (R y.1 j : ℂ)

/-- What was learned by one expert, mixed; `β` is what becomes of the filter in the image domain. -/
noncomputable def mixedExpert {F : Type} {k D : Nat} (R : Matrix (Fin k) (Fin k) ℝ) (β : F → F) (e : Cf.MccfOut F k D) :
    Cf.MccfOut F k D := ⟨β e.f, mixedFilter R e.sXY, mixedEnergy R e.sXX⟩

/-- What was learned by all of them. -/
noncomputable def mixedEnsemble {F : Type} {k D : Nat} (R : Matrix (Fin k) (Fin k) ℝ) (β : F → F) (e : Cf.Ensemble F k D) :
    Cf.Ensemble F k D := ⟨e.nImages, e.experts.map (mixedExpert R β)⟩

/-- The response of a filter in the Fourier domain: channels are filtered separately and added. -/
def responseTo {k D : Nat} (f : Fin k → Fin D → ℂ) (x : Cf.Spectrum k D) (p : Fin D) : ℂ := ∑ i, f i p * x i p

end Spec
end Menpofit
