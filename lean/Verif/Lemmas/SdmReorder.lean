import Verif.Spec.SdmReorder
/-!
# Lemmas: supervised descent with coordinates and features in another order
-/

namespace Menpofit
namespace Translate
open Sdm Spec Matrix Reg GN SdmReg

section
variable {V W Row R I : Type} [AddCommGroup W] {ops : RegOps Row W R} {τ : Row → Row} {ω : W → W} {κ : R → R}
  {co co' : Coord V W} {ν : V → V} {feat feat' : I → V → Row}

/-- The two ways of computing parameters correspond. -/
structure Coords (co co' : Coord V W) (ν : V → V) (ω : W → W) : Prop where
  proj : ∀ v, co'.proj (ν v) = ω (co.proj v)
  inst : ∀ w, co'.inst (ω w) = ν (co.inst w)
  add : ∀ a b, ω (a + b) = ω a + ω b
  sub : ∀ a b, ω (a - b) = ω a - ω b

theorem deltaRows_map (hc : Coords co co' ν ω) : ∀ (gts : List V) (cur : List (List V)),
    deltaRows co' (gts.map ν) (cur.map (List.map ν)) = (deltaRows co gts cur).map fun x => (ω x.1, ω x.2)
  | [], cur => by cases cur <;> rfl
  | g :: gs, [] => rfl
  | g :: gs, ss :: sss => by
    simp only [List.map_cons, deltaRows, List.map_append, deltaRows_map hc gs sss, List.map_map]
    congr 1
    refine List.map_congr_left fun s _ => ?_
    simp only [Function.comp, hc.proj, hc.sub]

theorem computeDelta_map (hc : Coords co co' ν ω) (junk : Nat → W) (gts : List V) (cur : List (List V)) :
    computeDelta co' (fun k => ω (junk k)) (gts.map ν) (cur.map (List.map ν)) =
      (computeDelta co junk gts cur).map fun x => (x.1.map ω, x.2.map ω) := by
  cases gts with
  | nil => cases cur <;> rfl
  | cons g gs =>
    cases cur with
    | nil => rfl
    | cons ss sss =>
      have h := deltaRows_map hc (g :: gs) (ss :: sss)
      simp only [List.map_cons] at h
      simp only [computeDelta, List.map_cons, h, List.length_map, List.length_cons]
      split_ifs
      · rfl
      · simp only [Except.map, List.map_map, List.map_append, Function.comp_def]

theorem featureRows_map (hf : ∀ im v, feat' im (ν v) = τ (feat im v)) : ∀ (ims : List I) (cur : List (List V)),
    featureRows feat' ims (cur.map (List.map ν)) = (featureRows feat ims cur).map (List.map τ)
  | [], _ => rfl
  | _ :: _, [] => rfl
  | im :: ims, ss :: sss => by
    simp only [List.map_cons, featureRows, List.length_map, featureRows_map hf ims sss]
    split_ifs
    · rfl
    · cases featureRows feat ims sss with
      | error e => rfl
      | ok r =>
        simp only [Except.map, bind, Except.bind, pure, Except.pure, List.map_append, List.map_map]
        congr 2
        exact List.map_congr_left fun s _ => hf im s

theorem updateShapes_map (hc : Coords co co' ν ω) (est gt : List W) : ∀ (ss : List V) (j : Nat),
    updateShapes co' (est.map ω) (gt.map ω) j (ss.map ν) =
      (updateShapes co est gt j ss).map fun x => (x.1.map ν, x.2.map ω)
  | [], _ => rfl
  | s :: ss, j => by
    simp only [List.map_cons, updateShapes, List.getElem?_map, updateShapes_map hc est gt ss (j + 1)]
    cases est[j]? with
    | none => rfl
    | some e =>
      cases gt[j]? with
      | none => rfl
      | some g =>
        simp only [Option.map_some]
        cases updateShapes co est gt (j + 1) ss with
        | error e => rfl
        | ok r =>
          simp only [Except.map, bind, Except.bind, pure, Except.pure, List.map_cons, hc.proj, ← hc.add, hc.inst, ← hc.sub]

theorem updateAll_map (hc : Coords co co' ν ω) (est gt : List W) : ∀ (cur : List (List V)) (j : Nat),
    updateAll co' (est.map ω) (gt.map ω) j (cur.map (List.map ν)) =
      (updateAll co est gt j cur).map fun x => (x.1.map (List.map ν), x.2.map ω)
  | [], _ => rfl
  | ss :: sss, j => by
    simp only [List.map_cons, updateAll, List.length_map, updateShapes_map hc, updateAll_map hc est gt sss]
    cases updateShapes co est gt j ss with
    | error e => rfl
    | ok r =>
      simp only [Except.map, bind, Except.bind]
      cases updateAll co est gt (j + ss.length) sss with
      | error e => rfl
      | ok q => simp only [pure, Except.pure, List.map_cons, List.map_append]

/-- A translated stage. -/
def stage (ν : V → V) (τ : Row → Row) (ω : W → W) (s : Stage V W Row) : Stage V W Row :=
  ⟨s.before.map (List.map ν), s.features.map τ, s.delta.map ω, s.predicted.map ω, s.after.map (List.map ν)⟩

theorem stages_map (ht : Translates ops τ ω κ) (hc : Coords co co' ν ω)
    (hf : ∀ im v, feat' im (ν v) = τ (feat im v)) (ims : List I) (gt : List W) (inc : Bool) :
    ∀ (m k : Nat) (regs : List R) (delta : List W) (cur : List (List V)),
      stages ops co' feat' ims (gt.map ω) inc m k (regs.map κ) (delta.map ω) (cur.map (List.map ν)) =
        (stages ops co feat ims gt inc m k regs delta cur).map fun r =>
          (r.1.map κ, r.2.1.map (List.map ν), r.2.2.map (stage ν τ ω))
  | 0, _, _, _, _ => rfl
  | m + 1, k, regs, delta, cur => by
    have tail : ∀ (regs' : List R) (features : List Row) (r : R),
        (do
          let u ← updateAll co' (ops.predict (κ r) (features.map τ)) (gt.map ω) 0 (cur.map (List.map ν))
          let rest ← stages ops co' feat' ims (gt.map ω) inc m (k + 1) (regs'.map κ)
            (u.2 ++ (delta.map ω).drop u.2.length) u.1
          pure (rest.1, rest.2.1, (⟨cur.map (List.map ν), features.map τ, delta.map ω,
            ops.predict (κ r) (features.map τ), u.1⟩ : Stage V W Row) :: rest.2.2)) =
        ((do
          let u ← updateAll co (ops.predict r features) gt 0 cur
          let rest ← stages ops co feat ims gt inc m (k + 1) regs' (u.2 ++ delta.drop u.2.length) u.1
          pure (rest.1, rest.2.1, (⟨cur, features, delta, ops.predict r features, u.1⟩ : Stage V W Row) :: rest.2.2)) :
          Except PyErr (List R × List (List V) × List (Stage V W Row))).map fun r =>
            (r.1.map κ, r.2.1.map (List.map ν), r.2.2.map (stage ν τ ω)) := by
      intro regs' features r
      rw [ht.predict, updateAll_map hc]
      cases updateAll co (ops.predict r features) gt 0 cur with
      | error e => rfl
      | ok u =>
        have hd : u.2.map ω ++ (delta.map ω).drop (u.2.map ω).length = (u.2 ++ delta.drop u.2.length).map ω := by
          simp [List.map_drop]
        simp only [Except.map, bind, Except.bind, hd, stages_map ht hc hf ims gt inc m (k + 1)]
        cases stages ops co feat ims gt inc m (k + 1) regs' (u.2 ++ delta.drop u.2.length) u.1 with
        | error e => rfl
        | ok rest => rfl
    unfold stages
    rw [featureRows_map hf]
    cases featureRows feat ims cur with
    | error e => rfl
    | ok features =>
      cases inc with
      | false =>
        simp only [Except.map, bind, Except.bind, Bool.false_eq_true, if_false, ht.train]
        cases ops.train features delta with
        | error e => rfl
        | ok r =>
          have := tail (regs ++ [r]) features r
          simp only [List.map_append, List.map_cons, List.map_nil] at this
          exact this
      | true =>
        simp only [Except.map, bind, Except.bind, if_true, List.getElem?_map]
        cases regs[k]? with
        | none => rfl
        | some r0 =>
          simp only [Option.map_some, ht.increment]
          cases ops.increment r0 features delta with
          | error e => rfl
          | ok r =>
            have := tail (regs.set k r) features r
            simp only [List.map_set] at this
            exact this

theorem train_map (ht : Translates ops τ ω κ) (hc : Coords co co' ν ω)
    (hf : ∀ im v, feat' im (ν v) = τ (feat im v)) (junk : Nat → W) (n : Nat) (inc : Bool) (regs : List R) (b : Batch I V) :
    Sdm.train ops co' feat' (fun k => ω (junk k)) n inc (regs.map κ) (b.translate ν).ims (b.translate ν).gts
        (b.translate ν).cur =
      (Sdm.train ops co feat junk n inc regs b.ims b.gts b.cur).map fun r =>
        (r.1.map κ, r.2.1.map (List.map ν), r.2.2.map (stage ν τ ω)) := by
  have key : ∀ (regs' : List R),
      (computeDelta co' (fun k => ω (junk k)) (b.gts.map ν) (b.cur.map (List.map ν)) >>= fun d =>
        stages ops co' feat' b.ims d.2 inc n 0 (regs'.map κ) d.1 (b.cur.map (List.map ν))) =
      (computeDelta co junk b.gts b.cur >>= fun d => stages ops co feat b.ims d.2 inc n 0 regs' d.1 b.cur).map fun r =>
        (r.1.map κ, r.2.1.map (List.map ν), r.2.2.map (stage ν τ ω)) := by
    intro regs'
    rw [computeDelta_map hc]
    cases computeDelta co junk b.gts b.cur with
    | error e => rfl
    | ok d => exact stages_map ht hc hf b.ims d.2 inc n 0 regs' d.1 b.cur
  unfold Sdm.train
  simp only [List.length_map, Batch.translate]
  by_cases h : inc = true ∧ regs.length = 0
  · simp only [if_pos h]; rfl
  · simp only [if_neg h]
    cases inc with
    | false => exact key []
    | true => exact key regs

theorem afterTraining_map (ht : Translates ops τ ω κ) (hc : Coords co co' ν ω)
    (hf : ∀ im v, feat' im (ν v) = τ (feat im v)) (junk : Nat → W) (n : Nat) (first : Batch I V) (more : List (Batch I V)) :
    afterTraining ops co' feat' (fun k => ω (junk k)) n (first.translate ν) (more.map (Batch.translate ν)) =
      (afterTraining ops co feat junk n first more).map (List.map κ) := by
  have h1 := train_map ht hc hf junk n false [] first
  simp only [List.map_nil] at h1
  unfold afterTraining
  rw [h1]
  cases Sdm.train ops co feat junk n false [] first.ims first.gts first.cur with
  | error e => rfl
  | ok r =>
    simp only [Except.map, bind, Except.bind]
    generalize r.1 = regs
    clear h1 r
    induction more generalizing regs with
    | nil => rfl
    | cons b more ih =>
      simp only [List.map_cons, List.foldlM_cons]
      rw [train_map ht hc hf junk n true regs b]
      cases Sdm.train ops co feat junk n true regs b.ims b.gts b.cur with
      | error e => rfl
      | ok r' =>
        have := ih r'.1
        simp only [Except.map, bind, Except.bind] at this ⊢
        exact this

theorem cascade_map {X Q : Type} (f : X → X) (k : Q → Q) {step step' : Q → X → Except PyErr X}
    (h : ∀ r x, step' (k r) (f x) = (step r x).map f) : ∀ (regs : List Q) (x : X),
    Result.cascade step' (f x) (regs.map k) = (Result.cascade step x regs).map (List.map f)
  | [], _ => rfl
  | r :: rs, x => by
    simp only [List.map_cons, Result.cascade, h]
    cases step r x with
    | error e => rfl
    | ok x' =>
      simp only [Except.map, bind, Except.bind, cascade_map f k h rs x']
      cases Result.cascade step x' rs <;> rfl

theorem fitStep_map (ht : Translates ops τ ω κ) (hc : Coords co co' ν ω)
    (hf : ∀ im v, feat' im (ν v) = τ (feat im v)) (im : I) (r : R) (s : V) :
    fitStep ops co' feat' im (κ r) (ν s) = (fitStep ops co feat im r s).map ν := by
  unfold fitStep
  have := ht.predict r [feat im s]
  simp only [List.map_cons, List.map_nil] at this
  rw [hf, this]
  rcases ops.predict r [feat im s] with _ | ⟨dx, _ | _⟩
  · rfl
  · simp only [List.map_cons, List.map_nil, hc.proj, ← hc.add, hc.inst, Except.map]
  · rfl

theorem fitParamStep_map (ht : Translates ops τ ω κ) (hc : Coords co co' ν ω)
    (hf : ∀ im v, feat' im (ν v) = τ (feat im v)) (im : I) (r : R) (p : W) :
    fitParamStep ops co' feat' im (κ r) (ω p) = (fitParamStep ops co feat im r p).map ω := by
  unfold fitParamStep
  have := ht.predict r [feat im (co.inst p)]
  simp only [List.map_cons, List.map_nil] at this
  rw [hc.inst, hf, this]
  rcases ops.predict r [feat im (co.inst p)] with _ | ⟨dx, _ | _⟩
  · rfl
  · simp only [List.map_cons, List.map_nil, ← hc.add, Except.map]
  · rfl

theorem fitParamShapes_map (ht : Translates ops τ ω κ) (hc : Coords co co' ν ω)
    (hf : ∀ im v, feat' im (ν v) = τ (feat im v)) (im : I) (regs : List R) (s : V) :
    fitParamShapes ops co' feat' im (regs.map κ) (ν s) = (fitParamShapes ops co feat im regs s).map (List.map ν) := by
  unfold fitParamShapes
  rw [hc.proj, cascade_map ω κ (fun r p => fitParamStep_map ht hc hf im r p)]
  cases Result.cascade (fitParamStep ops co feat im) (co.proj s) regs with
  | error e => rfl
  | ok l =>
    simp only [Except.map, bind, Except.bind, pure, Except.pure, List.map_map]
    congr 1
    exact List.map_congr_left fun w _ => hc.inst w

end

/-! ### Linear regression -/

section
variable {d q k : Nat}

/-- The order of the features after the column of ones was added. -/
def biased (bias : Bool) (τ : Equiv.Perm (Fin d)) : Equiv.Perm (Fin (width bias d)) :=
  match bias with
  | true => (finSuccEquivLast (n := d)).trans ((Equiv.optionCongr τ).trans (finSuccEquivLast (n := d)).symm)
  | false => τ

/-- A regressor for reordered features and coordinates. -/
def irl (t : Equiv.Perm (Fin k)) (ρ : Equiv.Perm (Fin q)) (st : Irl ℝ k q) : Irl ℝ k q :=
  ⟨st.alpha, st.incrementable, st.V.map fun V => V.submatrix t t, st.W.map fun W => W.submatrix t ρ⟩

theorem addBias_map (bias : Bool) (τ : Equiv.Perm (Fin d)) {n : Nat} (X : Matrix (Fin n) (Fin d) ℝ) :
    addBias bias (X.submatrix id τ) = (addBias bias X).submatrix id (biased bias τ) := by
  cases bias with
  | false => rfl
  | true =>
    ext i j
    refine Fin.lastCases ?_ (fun j => ?_) j
    · simp [addBias, biased]
    · simp [addBias, biased]

theorem normal_map (α : ℝ) {n : Nat} (t : Equiv.Perm (Fin k)) (X : Matrix (Fin n) (Fin k) ℝ) :
    Reg.normal α (X.submatrix id t) = (Reg.normal α X).submatrix t t := by
  have e : (X.submatrix id t)ᵀ * X.submatrix id t = (Xᵀ * X).submatrix t t := rfl
  unfold Reg.normal
  simp only [e]
  split_ifs
  · rfl
  · ext i j
    simp [Matrix.diagonal_apply]

theorem npInv_map (t : Equiv.Perm (Fin k)) (M : Matrix (Fin k) (Fin k) ℝ) :
    npInv (M.submatrix t t) = (npInv M).map fun V => V.submatrix t t := by
  unfold npInv
  rw [Matrix.det_submatrix_equiv_self]
  split_ifs
  · rfl
  · simp only [Except.map, Matrix.inv_submatrix_equiv]

theorem npSolveMat_map (t : Equiv.Perm (Fin k)) (ρ : Equiv.Perm (Fin q)) (M : Matrix (Fin k) (Fin k) ℝ)
    (B : Matrix (Fin k) (Fin q) ℝ) :
    npSolveMat (M.submatrix t t) (B.submatrix t ρ) = (npSolveMat M B).map fun W => W.submatrix t ρ := by
  unfold npSolveMat
  rw [Matrix.det_submatrix_equiv_self]
  split_ifs
  · rfl
  · simp only [Except.map, Matrix.inv_submatrix_equiv, Matrix.submatrix_mul_equiv]

theorem tdot_map {n n' : Nat} (t : Equiv.Perm (Fin k)) (ρ : Equiv.Perm (Fin q)) (X : Matrix (Fin n) (Fin k) ℝ)
    (Y : Matrix (Fin n') (Fin q) ℝ) :
    tdot (X.submatrix id t) (Y.submatrix id ρ) = (tdot X Y).map fun B => B.submatrix t ρ := by
  unfold tdot
  split_ifs <;> rfl

theorem trainCore_map {n n' : Nat} (t : Equiv.Perm (Fin k)) (ρ : Equiv.Perm (Fin q)) (st : Irl ℝ k q)
    (X : Matrix (Fin n) (Fin k) ℝ) (Y : Matrix (Fin n') (Fin q) ℝ) :
    trainCore (irl t ρ st) (X.submatrix id t) (Y.submatrix id ρ) =
      (irl t ρ (trainCore st X Y).1, (trainCore st X Y).2) := by
  have e : (tdot (X.submatrix id t) (Y.submatrix id ρ) >>= npSolveMat ((Reg.normal st.alpha X).submatrix t t)) =
      (tdot X Y >>= npSolveMat (Reg.normal st.alpha X)).map fun W => W.submatrix t ρ := by
    rw [tdot_map]
    cases tdot X Y with
    | error e => rfl
    | ok B => exact npSolveMat_map t ρ _ B
  unfold trainCore
  simp only [irl, normal_map, npInv_map, e]
  split_ifs
  · cases npInv (Reg.normal st.alpha X) with
    | error e => rfl
    | ok v =>
      simp only [Except.map]
      cases (tdot X Y >>= npSolveMat (Reg.normal st.alpha X)) <;> rfl
  · cases (tdot X Y >>= npSolveMat (Reg.normal st.alpha X)) <;> rfl

theorem incrementCore_map {n n' : Nat} (t : Equiv.Perm (Fin k)) (ρ : Equiv.Perm (Fin q)) (st : Irl ℝ k q)
    (X : Matrix (Fin n) (Fin k) ℝ) (Y : Matrix (Fin n') (Fin q) ℝ) :
    incrementCore (irl t ρ st) (X.submatrix id t) (Y.submatrix id ρ) =
      (irl t ρ (incrementCore st X Y).1, (incrementCore st X Y).2) := by
  obtain ⟨α, inc, V, W⟩ := st
  cases inc with
  | false => rfl
  | true =>
    cases V with
    | none => rfl
    | some V =>
      have eU : X.submatrix id t * V.submatrix t t * (X.submatrix id t)ᵀ = X * V * Xᵀ := by
        rw [Matrix.submatrix_mul_equiv, Matrix.transpose_submatrix, Matrix.submatrix_mul_equiv]; rfl
      unfold incrementCore
      simp only [irl, tdot_map, Option.map_some, eU, if_true]
      cases npInv (if α = 0 then X * V * Xᵀ else X * V * Xᵀ + diagonal fun _ => α) with
      | error e => rfl
      | ok Ui =>
        have eQ : V.submatrix t t * (X.submatrix id t)ᵀ * Ui * X.submatrix id t = (V * Xᵀ * Ui * X).submatrix t t := by
          rw [Matrix.transpose_submatrix, Matrix.submatrix_mul_equiv]; rfl
        simp only [eQ]
        generalize V * Xᵀ * Ui * X = Q
        have eV : V.submatrix t t - Q.submatrix t t * V.submatrix t t = (V - Q * V).submatrix t t := by
          rw [Matrix.submatrix_mul_equiv]; rfl
        simp only [eV]
        generalize V - Q * V = V'
        cases W with
        | none => rfl
        | some W =>
          cases tdot X Y with
          | error e => rfl
          | ok XY =>
            have eW : W.submatrix t ρ - Q.submatrix t t * W.submatrix t ρ + V'.submatrix t t * XY.submatrix t ρ =
                (W - Q * W + V' * XY).submatrix t ρ := by
              rw [Matrix.submatrix_mul_equiv, Matrix.submatrix_mul_equiv]; rfl
            simp only [Option.map_some, Except.map, eW]

theorem stack_map (τ : Equiv.Perm (Fin d)) (xs : List (Fin d → ℝ)) :
    ∃ h : (xs.map (reorder τ)).length = xs.length,
      stack (xs.map (reorder τ)) = (stack xs).submatrix (Fin.cast h) τ := by
  refine ⟨by simp, ?_⟩
  ext i j
  simp [stack, reorder]

theorem train_cast (bias : Bool) (α : ℝ) (inc : Bool) (τ : Equiv.Perm (Fin d)) (ρ : Equiv.Perm (Fin q)) {n n' m m' : Nat}
    (h : m = n) (h' : m' = n') (X : Matrix (Fin n) (Fin d) ℝ) (Y : Matrix (Fin n') (Fin q) ℝ) :
    Reg.train bias (newIrl α inc _ _) (X.submatrix (Fin.cast h) τ) (Y.submatrix (Fin.cast h') ρ) =
      (irl (biased bias τ) ρ (Reg.train bias (newIrl α inc _ _) X Y).1, (Reg.train bias (newIrl α inc _ _) X Y).2) := by
  subst h h'
  have := trainCore_map (biased bias τ) ρ (newIrl α inc (width bias d) q) (addBias bias X) Y
  rw [← addBias_map] at this
  exact this

theorem increment_cast (bias : Bool) (st : Irl ℝ (width bias d) q) (τ : Equiv.Perm (Fin d)) (ρ : Equiv.Perm (Fin q))
    {n n' m m' : Nat} (h : m = n) (h' : m' = n') (X : Matrix (Fin n) (Fin d) ℝ) (Y : Matrix (Fin n') (Fin q) ℝ) :
    Reg.increment bias (irl (biased bias τ) ρ st) (X.submatrix (Fin.cast h) τ) (Y.submatrix (Fin.cast h') ρ) =
      (irl (biased bias τ) ρ (Reg.increment bias st X Y).1, (Reg.increment bias st X Y).2) := by
  subst h h'
  have := incrementCore_map (biased bias τ) ρ st (addBias bias X) Y
  rw [← addBias_map] at this
  exact this

theorem predict_cast (bias : Bool) (st : Irl ℝ (width bias d) q) (τ : Equiv.Perm (Fin d)) (ρ : Equiv.Perm (Fin q))
    {n m : Nat} (h : m = n) (X : Matrix (Fin n) (Fin d) ℝ) :
    predictRows bias (irl (biased bias τ) ρ st) (X.submatrix (Fin.cast h) τ) =
      (predictRows bias st X).map fun M => M.submatrix (Fin.cast h) ρ := by
  subst h
  have e := addBias_map bias τ X
  obtain ⟨α, inc, V, W⟩ := st
  cases W with
  | none => rfl
  | some W =>
    have e' : X.submatrix (Fin.cast rfl) τ = X.submatrix id τ := rfl
    simp only [predictRows, irl, Option.map_some, Except.map, e', e, Matrix.submatrix_mul_equiv]
    rfl

/-- Linear regression commutes with reordering the features and the regressed coordinates. -/
theorem irlOps_translates (α : ℝ) (bias inc : Bool) (τ : Equiv.Perm (Fin d)) (ρ : Equiv.Perm (Fin q)) :
    Translates (irlOps α bias inc d q) (reorder τ) (reorder ρ) (irl (biased bias τ) ρ) where
  train xs ys := by
    obtain ⟨h, e⟩ := stack_map τ xs
    obtain ⟨h', e'⟩ := stack_map ρ ys
    simp only [irlOps, e, e', train_cast]
    cases (Reg.train bias (newIrl α inc (width bias d) q) (stack xs) (stack ys)).2 <;> rfl
  increment r xs ys := by
    obtain ⟨h, e⟩ := stack_map τ xs
    obtain ⟨h', e'⟩ := stack_map ρ ys
    simp only [irlOps, e, e', increment_cast]
    cases (Reg.increment bias r (stack xs) (stack ys)).2 <;> rfl
  predict r xs := by
    obtain ⟨h, e⟩ := stack_map τ xs
    simp only [irlOps, e, predict_cast]
    cases predictRows bias r (stack xs) with
    | error e =>
      simp only [Except.map, List.map_map]
      exact List.map_congr_left fun _ _ => rfl
    | ok M =>
      simp only [Except.map]
      apply List.ext_getElem
      · simp
      · intro i h1 h2
        simp only [List.getElem_ofFn, List.getElem_map]
        rfl

/-- A regressor of `IIRLRegression` for reordered features and coordinates. -/
def iirl (τ : Equiv.Perm (Fin d)) (ρ : Equiv.Perm (Fin q)) (st : Iirl ℝ d q) : Iirl ℝ d q :=
  { st with W := st.W.map fun W => W.submatrix τ ρ }

theorem invertJ_map (α : ℝ) (τ : Equiv.Perm (Fin d)) (ρ : Equiv.Perm (Fin q)) (J : Matrix (Fin q) (Fin d) ℝ) :
    invertJ α (J.submatrix ρ τ) = (invertJ α J).map fun W => W.submatrix τ ρ := by
  have e : J.submatrix ρ τ * (J.submatrix ρ τ)ᵀ = (J * Jᵀ).submatrix ρ ρ := by
    rw [Matrix.transpose_submatrix, Matrix.submatrix_mul_equiv]
  have e2 : (J * Jᵀ).submatrix ρ ρ + diagonal (fun _ => α) = (J * Jᵀ + diagonal fun _ => α).submatrix ρ ρ := by
    ext i j; simp [Matrix.diagonal_apply]
  unfold invertJ
  simp only [e, e2]
  split_ifs
  · rw [npSolveMat_map]; cases npSolveMat (J * Jᵀ) J <;> rfl
  · rw [npSolveMat_map]; cases npSolveMat (J * Jᵀ + diagonal fun _ => α) J <;> rfl

theorem trainIirl_cast (α α2 : ℝ) (τ : Equiv.Perm (Fin d)) (ρ : Equiv.Perm (Fin q)) {n n' m m' : Nat}
    (h : m = n) (h' : m' = n') (X : Matrix (Fin n) (Fin d) ℝ) (Y : Matrix (Fin n') (Fin q) ℝ) :
    trainIirl (newIirl α α2 d q) (X.submatrix (Fin.cast h) τ) (Y.submatrix (Fin.cast h') ρ) =
      (iirl τ ρ (trainIirl (newIirl α α2 d q) X Y).1, (trainIirl (newIirl α α2 d q) X Y).2) := by
  subst h h'
  have := trainCore_map ρ τ (newIrl α false q d) Y X
  have e : irl ρ τ (newIrl α false q d) = newIrl α false q d := rfl
  rw [e] at this
  unfold trainIirl
  have ex : X.submatrix (Fin.cast rfl) τ = X.submatrix id τ := rfl
  have ey : Y.submatrix (Fin.cast rfl) ρ = Y.submatrix id ρ := rfl
  simp only [newIirl] at *
  rw [ex, ey, this]
  rcases trainCore (newIrl α false q d) Y X with ⟨⟨a, b, V, W⟩, r⟩
  cases r with
  | error e => rfl
  | ok u =>
    cases W with
    | none => rfl
    | some J =>
      simp only [irl, Option.map_some, invertJ_map]
      cases invertJ α2 J <;> rfl

theorem iirlOps_translates (α α2 : ℝ) (τ : Equiv.Perm (Fin d)) (ρ : Equiv.Perm (Fin q)) :
    Translates (iirlOps α α2 d q) (reorder τ) (reorder ρ) (iirl τ ρ) where
  train xs ys := by
    obtain ⟨h, e⟩ := stack_map τ xs
    obtain ⟨h', e'⟩ := stack_map ρ ys
    simp only [iirlOps, e, e', trainIirl_cast]
    cases (trainIirl (newIirl α α2 d q) (stack xs) (stack ys)).2 <;> rfl
  increment r xs ys := rfl
  predict r xs := by
    simp only [iirlOps, List.map_map]
    refine List.map_congr_left fun x _ => ?_
    obtain ⟨a, a2, b, W⟩ := r
    cases W with
    | none => rfl
    | some W =>
      funext j
      simp only [Function.comp, iirl, predictIirl, Option.map_some, orZero, reorder, Matrix.vecMul, dotProduct,
        Matrix.submatrix_apply]
      exact Equiv.sum_comp τ fun i => x i * W i (ρ j)

end

end Translate
end Menpofit
