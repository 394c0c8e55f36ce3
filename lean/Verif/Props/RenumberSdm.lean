import Verif.Lemmas.SdmReorder
/-!
# C136: renumbering landmarks in supervised descent
-/

namespace Menpofit
open Sdm Spec SdmReg Reg Translate

section
variable {V W Row R I : Type} [AddCommGroup W]

theorem sameFits_plain [AddCommGroup V] {ops : RegOps Row V R} {τ : Row → Row} {ν : V → V} {κ : R → R}
    (ht : Translates ops τ ν κ) (ha : ∀ a b, ν (a + b) = ν a + ν b) (hs : ∀ a b, ν (a - b) = ν a - ν b)
    {feat feat' : I → V → Row} (hf : ∀ im v, feat' im (ν v) = τ (feat im v)) (junk : Nat → V) (n : Nat)
    (first : Batch I V) (more : List (Batch I V)) :
    SameFits ν (trainAndFit ops feat junk n first more)
      (trainAndFit ops feat' (fun k => ν (junk k)) n (first.translate ν) (more.map (Batch.translate ν))) := by
  have hc : Coords (plain V) (plain V) ν ν := ⟨fun _ => rfl, fun _ => rfl, ha, hs⟩
  unfold SameFits trainAndFit
  rw [afterTraining_map ht hc hf]
  cases afterTraining ops (plain V) feat junk n first more with
  | error e => rfl
  | ok regs =>
    simp only [Except.map]
    congr 1
    funext im s
    exact cascade_map ν κ (fun r x => fitStep_map ht hc hf im r x) regs s

theorem sameFits_parameters {ops : RegOps Row W R} {τ : Row → Row} {ν : V → V} {κ : R → R}
    (ht : Translates ops τ id κ) {co co' : Coord V W} (hp : ∀ v, co'.proj (ν v) = co.proj v)
    (hi : ∀ w, co'.inst w = ν (co.inst w)) {feat feat' : I → V → Row}
    (hf : ∀ im v, feat' im (ν v) = τ (feat im v)) (junk : Nat → W) (n : Nat) (first : Batch I V) (more : List (Batch I V)) :
    SameFits ν (trainAndFitParameters ops co feat junk n first more)
      (trainAndFitParameters ops co' feat' junk n (first.translate ν) (more.map (Batch.translate ν))) := by
  have hc : Coords co co' ν id := ⟨hp, hi, fun _ _ => rfl, fun _ _ => rfl⟩
  have h := afterTraining_map ht hc hf junk n first more
  simp only [id] at h
  unfold SameFits trainAndFitParameters
  rw [h]
  cases afterTraining ops co feat junk n first more with
  | error e => rfl
  | ok regs =>
    simp only [Except.map]
    congr 1
    funext im s
    exact fitParamShapes_map ht hc hf im regs s

end

/-- C136 for supervised descent that regresses shapes, with either linear regression: if every shape lists its
coordinates in another order and the features come in another order, then training, any number of increments and
every later fit give the same shapes in the other order, or raise the same exceptions.  This holds for any
regularisation, with or without bias, and for any number of stages, images and perturbations. -/
theorem C136_supervised_descent {I : Type} {d q : Nat} (τ : Equiv.Perm (Fin d)) (ρ : Equiv.Perm (Fin q))
    (feat feat' : I → (Fin q → ℝ) → Fin d → ℝ) (hf : ∀ im v, feat' im (reorder ρ v) = reorder τ (feat im v))
    (junk : Nat → Fin q → ℝ) (n : Nat) (first : Batch I (Fin q → ℝ)) (more : List (Batch I (Fin q → ℝ))) :
    (∀ (α : ℝ) (bias inc : Bool),
      SameFits (reorder ρ) (trainAndFit (irlOps α bias inc d q) feat junk n first more)
        (trainAndFit (irlOps α bias inc d q) feat' (fun k => reorder ρ (junk k)) n (first.translate (reorder ρ))
          (more.map (Batch.translate (reorder ρ))))) ∧
    ∀ α α2 : ℝ,
      SameFits (reorder ρ) (trainAndFit (iirlOps α α2 d q) feat junk n first more)
        (trainAndFit (iirlOps α α2 d q) feat' (fun k => reorder ρ (junk k)) n (first.translate (reorder ρ))
          (more.map (Batch.translate (reorder ρ)))) :=
  ⟨fun α bias inc => sameFits_plain (irlOps_translates α bias inc τ ρ) (fun _ _ => rfl) (fun _ _ => rfl) hf _ _ _ _,
    fun α α2 => sameFits_plain (iirlOps_translates α α2 τ ρ) (fun _ _ => rfl) (fun _ _ => rfl) hf _ _ _ _⟩

/-- C136 for supervised descent that regresses parameters of a shape model: renumbering the landmarks of the shapes and
of the model (`hp`, `hi`: the parameters of a renumbered shape are the same, and so are the renumbered shapes of
parameters) and reordering the features renumbers the fitted shapes. -/
theorem C136_parametric_descent {I V : Type} {d q : Nat} (τ : Equiv.Perm (Fin d)) (ν : V → V)
    (co co' : Coord V (Fin q → ℝ)) (hp : ∀ v, co'.proj (ν v) = co.proj v) (hi : ∀ w, co'.inst w = ν (co.inst w))
    (feat feat' : I → V → Fin d → ℝ) (hf : ∀ im v, feat' im (ν v) = reorder τ (feat im v))
    (junk : Nat → Fin q → ℝ) (n : Nat) (first : Batch I V) (more : List (Batch I V)) :
    (∀ (α : ℝ) (bias inc : Bool),
      SameFits ν (trainAndFitParameters (irlOps α bias inc d q) co feat junk n first more)
        (trainAndFitParameters (irlOps α bias inc d q) co' feat' junk n (first.translate ν)
          (more.map (Batch.translate ν)))) ∧
    ∀ α α2 : ℝ,
      SameFits ν (trainAndFitParameters (iirlOps α α2 d q) co feat junk n first more)
        (trainAndFitParameters (iirlOps α α2 d q) co' feat' junk n (first.translate ν)
          (more.map (Batch.translate ν))) :=
  ⟨fun α bias inc => sameFits_parameters (irlOps_translates α bias inc τ 1) hp hi hf _ _ _ _,
    fun α α2 => sameFits_parameters (iirlOps_translates α α2 τ 1) hp hi hf _ _ _ _⟩

/-- The hypothesis on the features holds when feature `i` is looked up in the image at coordinate `i`, as patches
are looked up at landmarks: the features then come in the order of the coordinates. -/
example (ρ : Equiv.Perm (Fin 4)) (im : ℝ → ℝ) (v : Fin 4 → ℝ) :
    (fun (im : ℝ → ℝ) (v : Fin 4 → ℝ) (i : Fin 4) => im (v i)) im (reorder ρ v) =
      reorder ρ ((fun (im : ℝ → ℝ) (v : Fin 4 → ℝ) (i : Fin 4) => im (v i)) im v) := rfl

/-- A model with one mode for shapes with two coordinates, and the same model with the coordinates exchanged. -/
example : ∃ co co' : Coord (Fin 2 → ℝ) (Fin 1 → ℝ), (∀ v, co'.proj (reorder (Equiv.swap 0 1) v) = co.proj v) ∧
    (∀ w, co'.inst w = reorder (Equiv.swap 0 1) (co.inst w)) ∧ co ≠ co' := by
  refine ⟨⟨fun v => ![v 0], fun w => ![w 0, 0]⟩, ⟨fun v => ![v 1], fun w => ![0, w 0]⟩, fun v => ?_, fun w => ?_, fun h => ?_⟩
  · simp [reorder]
  · funext i; fin_cases i <;> simp [reorder]
  · have := congrFun (congrFun (congrArg Coord.inst h) ![1]) 0
    simp at this

theorem trainCore_succeeds {n k q : Nat} (α : ℝ) (X : Matrix (Fin n) (Fin k) ℝ) (Y : Matrix (Fin n) (Fin q) ℝ)
    (hd : (Reg.normal α X).det ≠ 0) : (trainCore (newIrl α false k q) X Y).2 = .ok () := by
  simp only [trainCore, newIrl, Bool.false_eq_true, if_false, tdot, dite_true, GN.npSolveMat, bind, Except.bind]
  split
  · rename_i e h
    erw [if_neg hd] at h
    cases h
  · rfl

theorem trains_two : ∃ r, (irlOps (1 : ℝ) false false 2 2).train [![1, 0], ![2, 5]] [![-1, 1], ![-2, -4]] = .ok r := by
  have hd : (Reg.normal (1 : ℝ) (stack [![1, 0], ![2, 5]] : Matrix (Fin 2) (Fin 2) ℝ)).det ≠ 0 := by
    rw [Matrix.det_fin_two]
    simp [Reg.normal, stack, Matrix.mul_apply, Fin.sum_univ_two]
    norm_num
  refine ⟨(Reg.train false (newIrl (1 : ℝ) false (width false 2) 2) (stack [![1, 0], ![2, 5]])
    (stack [![-1, 1], ![-2, -4]])).1, ?_⟩
  have : (Reg.train false (newIrl (1 : ℝ) false (width false 2) 2) (stack [![1, 0], ![2, 5]])
    (stack [![-1, 1], ![-2, -4]])).2 = .ok () :=
    trainCore_succeeds (n := 2) (k := 2) (q := 2) 1 (stack [![1, 0], ![2, 5]]) (stack [![-1, 1], ![-2, -4]]) hd
  simp only [irlOps, this, Except.map]

theorem trains_once {V R : Type} [AddCommGroup V] (ops : RegOps V V R) (g a b x y z : V) (r : R)
    (h : ops.train [a, b] [g - a, g - b] = .ok r) (hp : ops.predict r [a, b] = [x, y]) :
    trainAndFit ops (fun (_ : Unit) v => v) (fun _ => z) 1 ⟨[()], [g], [[a, b]]⟩ [] =
      .ok fun im s => fitShapes ops (fun (_ : Unit) v => v) im [r] s := by
  simp only [trainAndFit, afterTraining, Sdm.train, computeDelta, deltaRows, stages, featureRows, plain, List.length_cons,
    List.length_nil, List.map_cons, List.map_nil, bind, Except.bind, pure, Except.pure, id, List.append_nil, List.cons_append,
    List.nil_append, Bool.false_eq_true, false_and, if_false, updateAll, updateShapes]
  simp [h, hp]
  rfl

/-- Training succeeds in a case where the order matters: one image, one stage, two perturbations. -/
example : ∃ fit, trainAndFit (irlOps (1 : ℝ) false false 2 2) (fun (_ : Unit) v => v) (fun _ => 0) 1
    ⟨[()], [![0, 1]], [[![1, 0], ![2, 5]]]⟩ [] = .ok fit := by
  obtain ⟨r, hr⟩ := trains_two
  have hl : ((irlOps (1 : ℝ) false false 2 2).predict r [![1, 0], ![2, 5]]).length = 2 := by
    simp only [irlOps]
    split <;> simp
  have e1 : (![0, 1] - ![1, 0] : Fin 2 → ℝ) = ![-1, 1] := by funext i; fin_cases i <;> norm_num
  have e2 : (![0, 1] - ![2, 5] : Fin 2 → ℝ) = ![-2, -4] := by funext i; fin_cases i <;> norm_num
  rw [← e1, ← e2] at hr
  rcases hp : (irlOps (1 : ℝ) false false 2 2).predict r [![1, 0], ![2, 5]] with _ | ⟨a, _ | ⟨b, _ | _⟩⟩ <;>
    rw [hp] at hl <;> simp at hl
  exact ⟨_, trains_once _ _ _ _ _ _ _ _ hr hp⟩

end Menpofit
