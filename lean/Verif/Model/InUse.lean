import Verif.Model.ModelInstance
/-!
# What is left of a PCA model when components are cut off
-/

namespace Menpofit
namespace InUse
open MI

noncomputable section

/-- menpo `trim_components(k)` of a model all of whose components are active: what `max_n_components` does
(`/repo/menpofit/modelinstance.py:298-309`, as in `MI.newPdm`). -/
def trim {n d : Nat} (k : Nat) (m : Pca n d) : Pca n d :=
  { m with comps := m.comps.take k, nActive := min m.nActive k }

/-- The eigenvalues of a model and those of the components that were cut off.
See `/repo/menpofit/clm/algorithm/gd.py:44-49` -/
structure Spectrum where
  kept : List ℝ
  cut : List ℝ

/-- The eigenvalues after `trim_components(k)`. See `/repo/menpofit/modelinstance.py:298-309` -/
def Spectrum.trim (k : Nat) (s : Spectrum) : Spectrum := ⟨s.kept.take k, s.cut ++ s.kept.drop k⟩

/-- menpo `noise_variance()` with `k` active components: the mean of the eigenvalues of the components
that are not active or were cut off; 0 if there are none. See `/repo/menpofit/clm/algorithm/gd.py:44` -/
def Spectrum.noise (s : Spectrum) (k : Nat) : ℝ :=
  let l := s.kept.drop k ++ s.cut
  if l = [] then 0 else l.sum / l.length

/-- `s2_inv_S` of a parameter vector with four similarity parameters and `k` weights: zero for the
former, the noise variance over the eigenvalue for the latter
(`/repo/menpofit/clm/algorithm/gd.py:44-49`, as in `Shared.clmKind`). -/
def Spectrum.prior (s : Spectrum) (k : Nat) : Fin (4 + k) → ℝ := fun i =>
  if i.val < 4 then 0 else s.noise k / s.kept.getD (i.val - 4) 0

end
end InUse
end Menpofit
