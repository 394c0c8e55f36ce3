import Verif.Lemmas.OrderSdm
import Verif.Lemmas.OrderRegression
import Verif.Model.SdmRegression
import Mathlib.Data.List.Forall2
import Mathlib.Data.List.NodupEquivFin
/-!
# C133: supervised descent training and the order of the images
-/

namespace Menpofit
open Sdm Spec

section
variable {V W Row R I : Type} [AddCommGroup W]

/-- **C133** (supervised descent): the training images (with their ground truth and their initial shapes)
may come in any order.  The same regressors are learnt, and each image ends with the same shapes. -/
theorem C133_supervised_descent_partial (ops : RegOps Row W R) (p : R → Row → W)
    (hp : ∀ r l, ops.predict r l = l.map (p r))
    (ht : ∀ P P' : List (Row × W), P.Perm P' →
      Agree (ops.train (P.map Prod.fst) (P.map Prod.snd)) (ops.train (P'.map Prod.fst) (P'.map Prod.snd)))
    (hi : ∀ r, ∀ P P' : List (Row × W), P.Perm P' → Agree (ops.increment r (P.map Prod.fst) (P.map Prod.snd))
      (ops.increment r (P'.map Prod.fst) (P'.map Prod.snd)))
    (co : Coord V W) (feat : I → V → Row) (junk : Nat → W) (nIterations : Nat) (increment : Bool)
    (regs : List R) (T T' : List (I × V × List V)) (hT : T.Perm T') (m : Nat) (hm : 0 < m)
    (hlen : ∀ t ∈ T, t.2.2.length = m) (r) (h : Sdm.train ops co feat junk nIterations increment regs
      (T.map (·.1)) (T.map (·.2.1)) (T.map (·.2.2)) = .ok r) :
    ∃ r', Sdm.train ops co feat junk nIterations increment regs
        (T'.map (·.1)) (T'.map (·.2.1)) (T'.map (·.2.2)) = .ok r' ∧
      r'.1 = r.1 ∧ (T.zip r.2.1).Perm (T'.zip r'.2.1) := by
  have hT0 : T ≠ [] := by
    rintro rfl
    unfold Sdm.train at h
    split at h
    · cases h
    · cases h
  have hT0' : T' ≠ [] := by
    rintro rfl
    exact hT0 hT.eq_nil
  have hlen' : ∀ t ∈ T', t.2.2.length = m := fun t ht => hlen t (hT.mem_iff.mpr ht)
  unfold Sdm.train at h ⊢
  split at h
  · cases h
  rename_i hreg
  rw [if_neg hreg]
  rw [OrderSdm.computeDelta_start co junk T m hT0 hlen] at h
  rw [OrderSdm.computeDelta_start co junk T' m hT0' hlen']
  simp only [bind, Except.bind] at h ⊢
  rw [← OrderSdm.stages_tag ops co (fun t : I × V × List V => t.1) feat] at h
  have hfst : ∀ T : List (I × V × List V), T = (OrderSdm.start co T).map Prod.fst := by
    intro T; simp [OrderSdm.start, Function.comp_def]
  have hcur : ∀ T : List (I × V × List V), T.map (·.2.2) = OrderSdm.cur (OrderSdm.start co T) := by
    intro T; simp [OrderSdm.start, OrderSdm.cur, Function.comp_def]
  have hne : ∀ x ∈ OrderSdm.start co T, x.2.2 ≠ [] := by
    intro x hx
    simp only [OrderSdm.start, List.mem_map] at hx
    obtain ⟨t, ht, rfl⟩ := hx
    have h1 := hlen t ht
    intro h0
    have h2 : t.2.2 = [] := by simpa using h0
    rw [h2] at h1
    simp at h1
    omega
  rw [hcur T] at h
  have h' : stages ops co (fun t : I × V × List V => feat t.1) ((OrderSdm.start co T).map Prod.fst)
      (OrderSdm.gtRows (OrderSdm.start co T)) increment nIterations 0 (if increment then regs else [])
      (OrderSdm.delta (OrderSdm.start co T)) (OrderSdm.cur (OrderSdm.start co T)) = .ok r := by
    rw [← hfst T]; exact h
  obtain ⟨r', S₁, S₁', a1, a2, a3, a4, a5, a6, a7⟩ := OrderSdm.stages_perm hp ht hi co _ increment nIterations 0 _
    (OrderSdm.start co T) (OrderSdm.start co T') (hT.map _) hne r h'
  rw [← hfst T'] at a1 a5
  rw [← hfst T] at a4
  refine ⟨r', ?_, a2, ?_⟩
  · rw [← OrderSdm.stages_tag ops co (fun t : I × V × List V => t.1) feat, hcur T']
    exact a1
  · have hz : ∀ S : OrderSdm.St V W (I × V × List V), (S.map Prod.fst).zip (OrderSdm.cur S) =
        S.map fun x => (x.1, x.2.2.map Prod.fst) := by
      intro S
      unfold OrderSdm.cur
      rw [List.zip_map']
    rw [a6, a7, ← a4, ← a5, hz, hz]
    exact a3.map _

end

/-- Non-vacuity: a regressor that learns the mean target, and two orders of two images with two initial
shapes each. -/
example : ∃ ops : RegOps ℤ ℤ ℤ, (∀ r l, ops.predict r l = l.map fun _ => r) ∧
    (∀ P P' : List (ℤ × ℤ), P.Perm P' →
      Agree (ops.train (P.map Prod.fst) (P.map Prod.snd)) (ops.train (P'.map Prod.fst) (P'.map Prod.snd))) ∧
    ∃ r r', Sdm.train ops (plain ℤ) (fun _ s => s) (fun _ => 0) 2 false [] [(), ()] [10, 20] [[6, 4], [13, 17]] = .ok r ∧
      Sdm.train ops (plain ℤ) (fun _ s => s) (fun _ => 0) 2 false [] [(), ()] [20, 10] [[13, 17], [6, 4]] = .ok r' ∧
      r.1 = [5, 0] ∧ r'.1 = [5, 0] ∧ r.2.1 = [[11, 9], [18, 22]] ∧ r'.2.1 = [[18, 22], [11, 9]] := by
  refine ⟨⟨fun _ ys => .ok (ys.sum / ys.length), fun r _ _ => .ok r, fun r l => l.map fun _ => r⟩, fun _ _ => rfl,
    fun P P' h v => ?_, _, _, rfl, rfl, rfl, rfl, rfl, rfl⟩
  simp only [(h.map Prod.snd).sum_eq, (h.map Prod.snd).length_eq]

/-! ### Regularised linear regression meets the requirements -/

section Regression
open SdmReg Reg GN Matrix

theorem exists_equiv_of_perm {α : Type} {P P' : List α} (h : P.Perm P') :
    ∃ σ : Fin P'.length ≃ Fin P.length, ∀ i, P'.get i = P.get (σ i) := by
  have hf : List.Forall₂ (fun x i => P.get i = x) P (List.finRange P.length) := by
    rw [List.forall₂_iff_get]
    refine ⟨by simp, fun i h1 h2 => by simp⟩
  obtain ⟨l, h1, h2⟩ := List.perm_comp_forall₂ h.symm hf
  have hnd : l.Nodup := h2.nodup_iff.mpr (List.nodup_finRange _)
  have hmem : ∀ x, x ∈ l := fun x => h2.mem_iff.mpr (List.mem_finRange x)
  refine ⟨(finCongr h1.length_eq).trans (hnd.getEquivOfForallMemList l hmem), ?_⟩
  intro i
  have := (List.forall₂_iff_get.mp h1).2 i.1 i.2 (h1.length_eq ▸ i.2)
  exact this.symm

variable {K : Type} [Field K] [DecidableEq K] {d q : Nat}

theorem predictRows_map (bias : Bool) (st : Irl K (width bias d) q) (xs : List (Fin d → K)) (alpha : K)
    (inc : Bool) : (irlOps alpha bias inc d q).predict st xs = xs.map fun x =>
      match Reg.predict bias st x with
      | .ok v => v
      | .error _ => 0 := by
  simp only [irlOps, predictRows, Reg.predict]
  cases st.W with
  | none => rfl
  | some A =>
    simp only
    apply List.ext_get
    · simp
    · intro i h1 h2
      simp only [List.get_eq_getElem, List.getElem_ofFn, List.getElem_map]
      cases bias <;> rfl

theorem stack_perm {P P' : List ((Fin d → K) × (Fin q → K))} (h : P.Perm P') :
    ∃ σ : Fin P'.length ≃ Fin P.length, ∃ X : Matrix (Fin P.length) (Fin d) K,
      ∃ Y : Matrix (Fin P.length) (Fin q) K,
      (∀ (bias : Bool) (st : Irl K (width bias d) q), Reg.train bias st (stack (P.map Prod.fst)) (stack (P.map Prod.snd)) =
          Reg.train bias st X Y ∧
        Reg.increment bias st (stack (P.map Prod.fst)) (stack (P.map Prod.snd)) = Reg.increment bias st X Y) ∧
      (∀ (bias : Bool) (st : Irl K (width bias d) q), Reg.train bias st (stack (P'.map Prod.fst)) (stack (P'.map Prod.snd)) =
          Reg.train bias st (X.submatrix σ id) (Y.submatrix σ id) ∧
        Reg.increment bias st (stack (P'.map Prod.fst)) (stack (P'.map Prod.snd)) =
          Reg.increment bias st (X.submatrix σ id) (Y.submatrix σ id)) := by
  obtain ⟨σ, hσ⟩ := exists_equiv_of_perm h
  have cast : ∀ (n m : Nat) (h : n = m) (X : Matrix (Fin n) (Fin d) K) (n' : Nat) (h' : n' = m)
      (Y : Matrix (Fin n') (Fin q) K) (bias : Bool) (st : Irl K (width bias d) q),
      Reg.train bias st X Y = Reg.train bias st (X.submatrix (Fin.cast h.symm) id) (Y.submatrix (Fin.cast h'.symm) id) ∧
      Reg.increment bias st X Y =
        Reg.increment bias st (X.submatrix (Fin.cast h.symm) id) (Y.submatrix (Fin.cast h'.symm) id) := by
    rintro n _ rfl X n' h' Y bias st
    subst h'
    exact ⟨rfl, rfl⟩
  refine ⟨σ, Matrix.of fun i => (P.get i).1, Matrix.of fun i => (P.get i).2, ?_, ?_⟩
  · intro bias st
    have := cast _ P.length (by simp) (stack (P.map Prod.fst)) _ (by simp) (stack (P.map Prod.snd)) bias st
    rw [this.1, this.2]
    have e1 : (stack (P.map Prod.fst)).submatrix (Fin.cast (by simp)) id = Matrix.of fun i : Fin P.length => (P.get i).1 := by
      ext i j; simp [stack]
    have e2 : (stack (P.map Prod.snd)).submatrix (Fin.cast (by simp)) id = Matrix.of fun i : Fin P.length => (P.get i).2 := by
      ext i j; simp [stack]
    rw [e1, e2]; exact ⟨rfl, rfl⟩
  · intro bias st
    have := cast _ P'.length (by simp) (stack (P'.map Prod.fst)) _ (by simp) (stack (P'.map Prod.snd)) bias st
    rw [this.1, this.2]
    have e1 : (stack (P'.map Prod.fst)).submatrix (Fin.cast (by simp)) id =
        (Matrix.of fun i : Fin P.length => (P.get i).1).submatrix σ id := by
      ext i j
      have := hσ i
      simp only [List.get_eq_getElem] at this
      simp [stack, this]
    have e2 : (stack (P'.map Prod.snd)).submatrix (Fin.cast (by simp)) id =
        (Matrix.of fun i : Fin P.length => (P.get i).2).submatrix σ id := by
      ext i j
      have := hσ i
      simp only [List.get_eq_getElem] at this
      simp [stack, this]
    rw [e1, e2]; exact ⟨rfl, rfl⟩

/-- **C133**: a cascade of regularised linear regressors (the default): the order of the images does not
matter. -/
theorem C133_supervised_descent_irl {V I : Type} (alpha : K) (bias incrementable : Bool)
    (co : Coord V (Fin q → K)) (feat : I → V → Fin d → K) (junk : Nat → Fin q → K) (nIterations : Nat)
    (increment : Bool) (regs : List (Irl K (width bias d) q)) (T T' : List (I × V × List V)) (hT : T.Perm T')
    (m : Nat) (hm : 0 < m) (hlen : ∀ t ∈ T, t.2.2.length = m) (r)
    (h : Sdm.train (irlOps alpha bias incrementable d q) co feat junk nIterations increment regs
      (T.map (·.1)) (T.map (·.2.1)) (T.map (·.2.2)) = .ok r) :
    ∃ r', Sdm.train (irlOps alpha bias incrementable d q) co feat junk nIterations increment regs
        (T'.map (·.1)) (T'.map (·.2.1)) (T'.map (·.2.2)) = .ok r' ∧
      r'.1 = r.1 ∧ (T.zip r.2.1).Perm (T'.zip r'.2.1) := by
  refine C133_supervised_descent_partial _ _ (fun st l => predictRows_map bias st l alpha incrementable) ?_ ?_
    co feat junk nIterations increment regs T T' hT m hm hlen r h
  · intro P P' hP v
    obtain ⟨σ, X, Y, h1, h2⟩ := stack_perm hP
    simp only [irlOps]
    rw [(h1 bias _).1, (h2 bias _).1]
    unfold Reg.train
    rw [addBias_perm, trainCore_perm]
  · intro st P P' hP v
    obtain ⟨σ, X, Y, h1, h2⟩ := stack_perm hP
    simp only [irlOps]
    rw [(h1 bias _).2, (h2 bias _).2]
    unfold Reg.increment
    rw [addBias_perm, incrementCore_perm]

end Regression
end Menpofit
