import Verif.Lemmas.ModelDriven
import Verif.Lemmas.Homogeneous
import Verif.Model.Warps
/-!
# C70, C74, C76: model-driven transforms
-/

namespace Menpofit
open MI Homog MDT Spec

/-! ## C70 -/

/-- C70 is violated by plain model-driven transforms: composing always raises `ValueError` (and
changes nothing). -/
theorem C70_plain_violated {n d : Nat} (dWdx : Md (Pdm n d) n d → Fin n → Fin d → Fin d → ℝ)
    (s : Md (Pdm n d) n d) (delta : List ℝ) : mdCompose dWdx s delta = (s, .error .valueError) := by
  have hc : einsumCheck ["ijk", "ilk"] "eilk" = .error .valueError := by decide
  simp only [mdCompose, compose, plain, increment, hc, bind, Except.bind]

/-- C70 (part): composing a global model-driven transform over a piecewise affine warp (whose spatial
Jacobian is the identity) with an increment of the right length succeeds, changes the
parameters by the unique least-squares solution of the first-order condition, and moves the warp to
the new target of the shape model.  Missing: other warps, plain model-driven transforms, and
equality with the actual composition (this is a first-order method). -/
theorem C70_global_partial {n : Nat} (s : Md (GPdm (Pts n 2 × Sim) n 2) n 2) (delta : List ℝ) (k : Nat)
    (hk : k = 4 + s.pdm.model.active.length) (hd : delta.length = k)
    (hw : s.pdm.weights.length = s.pdm.model.active.length) (jac jac0 : Jac n 2)
    (hj : gpdmSimDdp s.pdm = .ok jac) (hj0 : (glob n).ddp0 s.pdm = .ok jac0) (hi : Independent k jac) :
    ∃ (s' : Md (GPdm (Pts n 2 × Sim) n 2) n 2) (inc : Fin k → ℝ),
      gmdCompose (fun _ => identityDx n 2) s delta = (s', .ok ()) ∧
      UniqueMin (mismatch jac jac0 (identityDx n 2) fun i => delta.getD i 0) inc ∧
      (∀ i : Fin k, (gAsVector (alignmentSimilarity n) s'.pdm).getD i 0 =
        (gAsVector (alignmentSimilarity n) s.pdm).getD i 0 + inc i) ∧
      (gAsVector (alignmentSimilarity n) s'.pdm).length = k ∧ s'.warpTarget = s'.pdm.target := by
  obtain ⟨inc, hinc, hmin⟩ := increment_min jac jac0 hi delta hd
  have hj' : (glob n).ddp s.pdm = .ok jac := hj
  have hlen : ((glob n).asVector s.pdm).length = k := by
    simp [glob, gAsVector, alignmentSimilarity, hw, hk]; omega
  have hnp : (glob n).nParams s.pdm = k := hk.symm
  obtain ⟨v, hv⟩ : ∃ v, v = List.zipWith (· + ·) ((glob n).asVector s.pdm) (List.ofFn inc) := ⟨_, rfl⟩
  have hadd : addVec ((glob n).asVector s.pdm) (List.ofFn inc) = .ok v := by
    rw [addVec, if_pos (by simp [hlen]), hv]
  have hvl : v.length = k := by simp [hv, hlen]
  have hget : ∀ i : Fin k, v.getD i 0 = ((glob n).asVector s.pdm).getD i 0 + inc i := by
    intro i
    have h1 : (i : Nat) < v.length := by rw [hvl]; exact i.isLt
    have h2 : (i : Nat) < ((glob n).asVector s.pdm).length := by rw [hlen]; exact i.isLt
    simp only [List.getD_eq_getElem?_getD, List.getElem?_eq_getElem h1, List.getElem?_eq_getElem h2,
      Option.getD_some]
    simp [hv]
  have hcomp : gmdCompose (fun _ => identityDx n 2) s delta = MDT.fromVectorInplace (glob n) s v := by
    simp only [gmdCompose, compose, hj0, hj', hnp, hinc, hadd, bind, Except.bind]
  rw [hcomp]
  match v, hvl, hget with
  | a :: b :: c :: e :: w, hvl, hget =>
    have hwl : w.length = s.pdm.model.active.length := by
      simp only [List.length_cons] at hvl; omega
    have hinst : s.pdm.model.inst w =
        .ok (s.pdm.model.mean + combine w s.pdm.model.active) := by
      rw [Pca.inst, instanceOf_ok]; exact ⟨hwl.le, rfl⟩
    have hof : (alignmentSimilarity n).ofVec s.pdm.glob ((a :: b :: c :: e :: w).take 4) =
      .ok (s.pdm.glob.1, ⟨1 + a, b, c, e⟩) := rfl
    have hdr : (a :: b :: c :: e :: w).drop 4 = w := rfl
    refine ⟨⟨{ s.pdm with
        glob := (s.pdm.glob.1, ⟨1 + a, b, c, e⟩)
        weights := w
        target := (⟨1 + a, b, c, e⟩ : Sim).apply (s.pdm.model.mean + combine w s.pdm.model.active) },
      (⟨1 + a, b, c, e⟩ : Sim).apply (s.pdm.model.mean + combine w s.pdm.model.active), s.cached⟩, inc, ?_,
      hmin, ?_, ?_, rfl⟩
    · simp only [MDT.fromVectorInplace, glob, gFromVectorInplace, hof, hdr, gTargetOf, hinst, Except.map]
      rfl
    · intro i
      have : gAsVector (alignmentSimilarity n) { s.pdm with
        glob := (s.pdm.glob.1, ⟨1 + a, b, c, e⟩)
        weights := w
        target := (⟨1 + a, b, c, e⟩ : Sim).apply (s.pdm.model.mean + combine w s.pdm.model.active) } =
          a :: b :: c :: e :: w := by
        simp [gAsVector, alignmentSimilarity]
      rw [this]
      exact hget i
    · simp only [gAsVector, alignmentSimilarity, List.length_append, List.length_cons, List.length_nil, hwl, hk]
  | [], hvl, _ => simp at hvl; omega
  | [_], hvl, _ => simp at hvl; omega
  | [_, _], hvl, _ => simp at hvl; omega
  | [_, _, _], hvl, _ => simp at hvl; omega

/-- C70: composed onto a transform whose similarity is the identity, the increment is added as it is. -/
theorem C70_identity {n : Nat} (s : Md (GPdm (Pts n 2 × Sim) n 2) n 2) (delta : List ℝ) (k : Nat)
    (hk : k = 4 + s.pdm.model.active.length) (hd : delta.length = k)
    (hw : s.pdm.weights.length = s.pdm.model.active.length) (jac : Jac n 2)
    (hj : gpdmSimDdp s.pdm = .ok jac) (hi : Independent k jac) (ha : s.pdm.glob.2.a = 1)
    (hb : s.pdm.glob.2.b = 0) :
    ∃ s', gmdCompose (fun _ => identityDx n 2) s delta = (s', .ok ()) ∧
      ∀ i : Fin k, (gAsVector (alignmentSimilarity n) s'.pdm).getD i 0 =
        (gAsVector (alignmentSimilarity n) s.pdm).getD i 0 + delta.getD i 0 := by
  have hj0 : (glob n).ddp0 s.pdm = .ok jac := by
    rw [← hj]
    simp only [glob, gpdmSimDdp, bind, Except.bind]
    cases similarityDdp 2 fun (i : Fin n) r => s.pdm.model.mean (i, r) with
    | error e => rfl
    | ok dq =>
      simp only [Except.ok.injEq]
      funext i k r
      simp only [gpdmDdp]
      split
      · rfl
      · match r with
        | 0 => simp [simDdx, alignmentSimilarity, ha, hb]
        | 1 => simp [simDdx, alignmentSimilarity, ha, hb]
  obtain ⟨s', inc, h1, h2, h3, -⟩ := C70_global_partial s delta k hk hd hw jac jac hj hj0 hi
  refine ⟨s', h1, fun i => ?_⟩
  rw [h3 i]
  congr 1
  have hz : ∀ x : Fin k → ℝ, mismatch jac jac (identityDx n 2) x x = 0 := by
    intro x
    simp [mismatch, identityDx]
  have hnn : ∀ x : Fin k → ℝ, 0 ≤ mismatch jac jac (identityDx n 2) (fun i => delta.getD i 0) x := by
    intro x
    exact Finset.sum_nonneg fun i _ => Finset.sum_nonneg fun r _ => sq_nonneg _
  obtain ⟨hle, heq⟩ := h2 fun i => delta.getD i 0
  rw [hz] at hle heq
  have := heq (le_antisymm hle (hnn _)).symm
  exact (congrFun this i).symm

/-- Two points, no non-rigid component. -/
noncomputable def twoPoints : GPdm (Pts 2 2 × Sim) 2 2 :=
  ⟨⟨fun x => if x.1 = 0 ∧ x.2 = 0 then 1 else 0, [], 0⟩, [],
    fun x => if x.1 = 0 ∧ x.2 = 0 then 1 else 0,
    (fun x => if x.1 = 0 ∧ x.2 = 0 then 1 else 0, ⟨1, 0, 0, 0⟩)⟩

/-- The hypotheses of the two theorems are met. -/
example : ∃ jac jac0, gpdmSimDdp twoPoints = .ok jac ∧ (glob 2).ddp0 twoPoints = .ok jac0 ∧
    Independent 4 jac ∧ twoPoints.weights.length = twoPoints.model.active.length := by
  obtain ⟨dq, hd, hj⟩ := simDdp_eq (fun (i : Fin 2) r => twoPoints.model.mean (i, r))
  refine ⟨gpdmDdp twoPoints.model 4 dq (simDdx fun k =>
      ((alignmentSimilarity 2).toVec twoPoints.glob).getD k 0),
    fun i k r => if k < 4 then dq i k r else pdmDdp twoPoints.model i (k - 4) r,
    by simp only [gpdmSimDdp, hd, bind, Except.bind],
    by simp only [glob, hd, bind, Except.bind], ?_, rfl⟩
  intro v h
  have a := h 0 0
  have b := h 0 1
  have c := h 1 0
  have e := h 1 1
  obtain ⟨⟨p1, p2⟩, ⟨p3, p4⟩, ⟨p5, p6⟩, p7, p8⟩ := hj 0
  obtain ⟨⟨q1, q2⟩, ⟨q3, q4⟩, ⟨q5, q6⟩, q7, q8⟩ := hj 1
  simp [Fin.sum_univ_four, gpdmDdp, p1, p2, p3, p4, p5, p6, p7, p8, q1, q2, q3, q4, q5, q6, q7, q8,
    twoPoints] at a b c e
  funext i
  match i with
  | 0 => simp; linarith
  | 1 => simp; linarith
  | 2 => simp; linarith
  | 3 => simp; linarith

/-- C70 is violated when the spatial Jacobian of the warp is not the identity: rows and columns are
summed instead of multiplied, and the increment is not the least-squares one. -/
theorem C70_spatial_jacobian_violated :
    ∃ (jac : Jac 1 2) (dWdx : Fin 1 → Fin 2 → Fin 2 → ℝ) (inc : List ℝ), Independent 1 jac ∧
      increment "ilk" 1 jac jac dWdx [1] = .ok inc ∧
      ¬ UniqueMin (mismatch (k := 1) jac jac dWdx fun _ => 1) (fun i => inc.getD i 0) := by
  refine ⟨fun _ _ r => if r = 0 then 1 else 0, fun _ r c => if r = c then 0 else 1, [1], ?_, ?_, ?_⟩
  · intro v h
    have := h 0 0
    simp at this
    funext i
    rw [Subsingleton.elim i 0, this]; rfl
  · have hc : einsumCheck ["ijk", "ilk"] "ilk" = .ok () := by decide
    simp only [increment, hc, bind, Except.bind, GN.npSolveMat]
    rw [if_neg]
    · simp [Matrix.mulVec, dotProduct]
    · simp
  · intro h
    have := (h fun _ => 0).1
    simp [mismatch, Fin.sum_univ_two] at this
    linarith

/-! ## C76 -/

/-- C76: whatever is done to a model-driven transform, including calls that raise, its warp maps to
the current target of its shape model. -/
theorem C76_warp_follows_model {A : Type} [DecidableEq A] {n : Nat} (heap : Nat → A) (ops : List (MdOp A)) :
    (∀ (d : Nat) (ddl : A → DW n d) (p : Pdm n d),
      let s := (ops.foldl (mdStep (plain n d) ddl) (heap, newMd (plain n d) p)).2
      s.warpTarget = s.pdm.target) ∧
    (∀ (ddl : A → DW n 2) (p : GPdm (Pts n 2 × Sim) n 2),
      let s := (ops.foldl (mdStep (glob n) ddl) (heap, newMd (glob n) p)).2
      s.warpTarget = s.pdm.target) ∧
    (∀ (ddl : A → DW n 2) (p : OPdm n),
      let s := (ops.foldl (mdStep (ortho n) ddl) (heap, newMd (ortho n) p)).2
      s.warpTarget = s.pdm.target) := by
  refine ⟨fun d ddl p => ?_, fun ddl p => ?_, fun ddl p => ?_⟩
  · exact foldl_inv (P := fun x : (Nat → A) × Md (Pdm n d) n d => x.2.warpTarget = x.2.pdm.target)
      (fun x o h => mdStep_target plain_lawful ddl x o h) ops rfl
  · exact foldl_inv (P := fun x : (Nat → A) × Md (GPdm (Pts n 2 × Sim) n 2) n 2 =>
      x.2.warpTarget = x.2.pdm.target) (fun x o h => mdStep_target glob_lawful ddl x o h) ops rfl
  · exact foldl_inv (P := fun x : (Nat → A) × Md (OPdm n) n 2 => x.2.warpTarget = x.2.pdm.target)
      (fun x o h => mdStep_target ortho_lawful ddl x o h) ops rfl

/-! ## C74 -/

/-- C74 (part): as long as no array is written to after it was passed to the Jacobian, the Jacobian at
given points depends only on the points and the current state of the shape model, not on what
was asked or set before: it is the chain rule through the landmarks.  Missing: histories
that overwrite such an array. -/
theorem C74_jacobian_history_partial {Q A : Type} [DecidableEq A] {n d : Nat} (o : Ops Q n d)
    (ddl : A → DW n d) (q : Q) (heap : Nat → A) (ops : List (MdOp A)) (h : NoOverwrite ops) (addr : Nat)
    (dX : Jac n d)
    (hX : o.ddp (ops.foldl (mdStep o ddl) (heap, newMd o q)).2.pdm = .ok dX) :
    let x := ops.foldl (mdStep o ddl) (heap, newMd o q)
    ∃ jac, (dDp o ddl x.1 x.2 addr).2 = .ok jac ∧
      ∀ i k r, jac i k r = ∑ l, ddl (x.1 addr) i l r * dX l k r := by
  intro x
  have hinv : CacheInv ddl x ([] ++ ops) :=
    cacheInv_run o ddl ops [] _ (by simpa using h) (by intro a dl hc; simp [newMd] at hc)
  have := (dDp_eq o ddl x.1 x.2 addr fun b dl hb => (hinv b dl hb).1).1
  rw [hX] at this
  exact ⟨_, this, fun i k r => rfl⟩

/-- A history with several arrays, none overwritten after use. -/
example : NoOverwrite ([.write 0 7, .jac 0, .write 1 8, .jac 1, .vector [], .jac 0] : List (MdOp Nat)) := by
  intro pre post a v h
  match pre, h with
  | [], h => simp
  | [x], h => simp at h
  | [x, y], h => simp at h; obtain ⟨rfl, rfl, ⟨rfl, -⟩, -⟩ := h; simp
  | [x, y, z], h => simp at h
  | [x, y, z, w], h => simp at h
  | [x, y, z, w, u], h => simp at h
  | x :: y :: z :: w :: u :: t :: r, h => simp at h

/-- C74 is violated by an array that is overwritten between two calls: the cache holds a reference to
the array, finds it equal to itself, and returns the Jacobian of the old points. -/
theorem C74_overwritten_array_violated :
    ∃ (ddl : Nat → DW 1 1) (q : Pdm 1 1) (heap : Nat → Nat) (ops : List (MdOp Nat)) (dX : Jac 1 1)
      (jac : Nat → Nat → Fin 1 → ℝ),
      let x := ops.foldl (mdStep (plain 1 1) ddl) (heap, newMd (plain 1 1) q)
      (plain 1 1).ddp x.2.pdm = .ok dX ∧ (dDp (plain 1 1) ddl x.1 x.2 0).2 = .ok jac ∧
      ∃ i k r, jac i k r ≠ ∑ l, ddl (x.1 0) i l r * dX l k r := by
  refine ⟨fun a _ _ _ => a, ⟨⟨0, [fun _ => 1], 1⟩, [0], 0⟩, fun _ => 0, [.jac 0, .write 0 1],
    _, _, rfl, rfl, 0, 0, 0, ?_⟩
  simp [contract, mdStep, dDp, newMd, plain, pdmDdp, Pca.active]

end Menpofit
