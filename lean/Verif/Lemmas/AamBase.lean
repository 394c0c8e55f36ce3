import Verif.Spec.AamBase
import Verif.Lemmas.Training
/-!
# Lemmas about AAM instances and reconstructions
-/

namespace Menpofit
open AamBase Spec

theorem reconLoop_length {V I : Type} {models : List (V → Except PyErr I)} {params : List V} :
    ∀ {ns : List Nat} {scale previous : Nat} {r : List I},
    (∀ n ∈ ns, n + 1 ≤ params.length) →
    previous + (ns.map (· + 1)).sum ≤ params.length →
    reconLoop models params scale previous ns = .ok r → r.length = (ns.map (· + 1)).sum := by
  intro ns
  induction ns with
  | nil => intro _ _ r _ _ h; injection h with h; rw [← h]; rfl
  | cons n ns ih =>
    intro scale previous r hb hs h
    unfold reconLoop at h
    obtain ⟨own, h1, h⟩ := bind_ok h
    obtain ⟨rest, h2, h⟩ := bind_ok h
    injection h with h; subst h
    simp only [List.map_cons, List.sum_cons] at hs ⊢
    rw [List.length_append, mapM_length h1,
      ih (fun m hm => hb m (List.mem_cons_of_mem _ hm)) (by omega) h2, List.length_take,
      List.length_drop, Nat.min_eq_left (by omega)]

theorem mapM_instanceAt {V I : Type} {models : List (V → Except PyErr I)} {scale : Nat}
    {m : V → Except PyErr I} (h : models[scale]? = some m) (l : List V) :
    l.mapM (instanceAt models scale) = l.mapM m := by
  have : instanceAt models scale = m := by
    funext c; unfold instanceAt; rw [h]
  rw [this]

theorem instance_modeSum {ι : Type} (m : EigModel ι) (w : List ℝ) (hw : w.length ≤ m.modes.length) :
    ∃ x, m.instance w = .ok x ∧ ModeSum m (fun k => w.getD k 0) x := by
  refine ⟨_, by unfold EigModel.instance; rw [if_neg (by omega)], fun i => ?_⟩
  rw [Pi.add_apply]
  congr 1
  have key : ∀ (w : List ℝ) (l : List (ℝ × (ι → ℝ))), w.length ≤ l.length →
      (List.zipWith (fun a c => (a * Real.sqrt c.1) • c.2) w l).sum i =
        ∑ k : Fin l.length, w.getD k 0 * Real.sqrt (l[k]).1 * (l[k]).2 i := by
    intro w
    induction w with
    | nil => intro l _; simp
    | cons a w ih =>
      intro l hl
      cases l with
      | nil => simp at hl
      | cons c l =>
        rw [List.zipWith_cons_cons, List.sum_cons, Pi.add_apply, ih l (by simpa using hl)]
        simp only [List.length_cons, Fin.sum_univ_succ]
        simp
  exact key w m.modes hw

end Menpofit
