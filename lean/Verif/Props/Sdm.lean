import Verif.Lemmas.Sdm
import Mathlib.Algebra.Order.Ring.Rat
/-!
# C52, C88: supervised descent training
-/

namespace Menpofit
open Sdm Spec

variable {V W Row Reg I : Type} [AddCommGroup W]

/-- C52: if every image has the same number of shapes and the parameters of a shape generated from
parameters are those parameters, then every stage of a successful training is consistent (see
`Consistent`), there are as many stages as iterations, and each stage starts from the shapes the
previous one ended with, the first from the given shapes. -/
theorem C52_invariant (ops : RegOps Row W Reg) (co : Coord V W)
    (hco : ∀ w, co.proj (co.inst w) = w) (feat : I → V → Row) (junk : Nat → W) (n : Nat)
    (increment : Bool) (regs : List Reg) (ims : List I) (gts : List V) (cur : List (List V))
    (h1 : ims.length = cur.length) (h2 : gts.length = cur.length)
    (c : Nat) (hc : ∀ ss ∈ cur, ss.length = c)
    (r : List Reg × List (List V) × List (Stage V W Row))
    (h : train ops co feat junk n increment regs ims gts cur = .ok r) :
    r.2.2.length = n ∧ (∀ s ∈ r.2.2, Consistent co.proj co.inst feat ims gts s) ∧
    r.2.2.map Stage.before ++ [r.2.1] = cur :: r.2.2.map Stage.after := by
  unfold train at h
  split at h
  · cases h
  · obtain ⟨d, hd, h⟩ := bind_ok h
    have e := computeDelta_ok hd h2 hc
    subst e
    exact stages_ok hco n 0 _ _ _ r h h1 h2 rfl rfl

/-- C52: the final estimate of every shape is its initial estimate plus the sum of the steps
predicted for it. -/
theorem C52_sum (ops : RegOps Row W Reg) (co : Coord V W)
    (hco : ∀ w, co.proj (co.inst w) = w) (feat : I → V → Row) (junk : Nat → W) (n : Nat)
    (increment : Bool) (regs : List Reg) (ims : List I) (gts : List V) (cur : List (List V))
    (h1 : ims.length = cur.length) (h2 : gts.length = cur.length)
    (c : Nat) (hc : ∀ ss ∈ cur, ss.length = c)
    (r : List Reg × List (List V) × List (Stage V W Row))
    (h : train ops co feat junk n increment regs ims gts cur = .ok r)
    (j : Nat) (s : V) (hs : cur.flatten[j]? = some s) :
    ∃ f, r.2.1.flatten[j]? = some f ∧
      co.proj f = co.proj s + (r.2.2.map fun t => t.predicted.getD j 0).sum := by
  obtain ⟨-, h4, h5⟩ := C52_invariant ops co hco feat junk n increment regs ims gts cur h1 h2 c hc r h
  exact chain_sum j _ _ _ h4 h5 s hs

/-- C52: the regressor of stage `k` is trained, or incremented, with the features and the targets
of stage `k`, and it makes the predictions of that stage; the regressors beyond the number of
iterations stay as they are.  Incrementing an untrained algorithm raises `ValueError`. -/
theorem C52_regressors (ops : RegOps Row W Reg) (co : Coord V W) (feat : I → V → Row)
    (junk : Nat → W) (n : Nat) (regs : List Reg) (ims : List I) (gts : List V)
    (cur : List (List V)) :
    (∀ r, train ops co feat junk n false regs ims gts cur = .ok r →
      List.Forall₂ (fun s reg => ops.train s.features s.delta = .ok reg ∧
        s.predicted = ops.predict reg s.features) r.2.2 r.1) ∧
    (∀ r, train ops co feat junk n true regs ims gts cur = .ok r →
      r.1.length = regs.length ∧ (∀ i : Nat, n ≤ i → r.1[i]? = regs[i]?) ∧
      ∀ (i : Nat) (s : Stage V W Row), r.2.2[i]? = some s → ∃ old new, regs[i]? = some old ∧
        r.1[i]? = some new ∧ ops.increment old s.features s.delta = .ok new ∧
        s.predicted = ops.predict new s.features) ∧
    train ops co feat junk n true [] ims gts cur = .error .valueError := by
  refine ⟨?_, ?_, rfl⟩
  · intro r h
    unfold train at h
    rw [if_neg (by simp)] at h
    obtain ⟨d, hd, h⟩ := bind_ok h
    obtain ⟨new, e, hn⟩ := stages_train _ _ _ _ _ _ h
    rw [e]
    simpa using hn
  · intro r h
    unfold train at h
    split at h
    · cases h
    · obtain ⟨d, hd, h⟩ := bind_ok h
      obtain ⟨a, b, e⟩ := stages_increment _ _ _ _ _ _ h
      refine ⟨a, fun i hi => b i (by omega), ?_⟩
      intro i s hs
      simpa using e i s hs

/-- C52 fails when the images do not have equally many shapes (see `C51_later_image_violated` for
how this happens): with more shapes than the first image has, training raises
`IndexError`; with fewer, the targets of the first stage have more rows than the features, and the
surplus rows are uninitialised memory. -/
theorem C52_unequal_violated (ops : RegOps Row W Reg) (co : Coord V W) (feat : I → V → Row)
    (junk : Nat → W) (n : Nat) (regs : List Reg) (ims : List I) (gts : List V)
    (first : List V) (cur : List (List V)) (h1 : ims.length = (first :: cur).length)
    (h2 : gts.length = (first :: cur).length) :
    (gts.length * first.length < ((first :: cur).map List.length).sum →
      train ops co feat junk n false regs ims gts (first :: cur) = .error .indexError) ∧
    (((first :: cur).map List.length).sum < gts.length * first.length →
      ∀ r, train ops co feat junk n false regs ims gts (first :: cur) = .ok r →
      ∀ s, r.2.2.head? = some s →
        s.features.length = ((first :: cur).map List.length).sum ∧
        s.delta = perShape (fun g c => co.proj g - co.proj c) gts (first :: cur) ++
          (List.range (gts.length * first.length - s.features.length)).map junk) := by
  obtain ⟨g, gs, rfl⟩ : ∃ g gs, gts = g :: gs := by
    cases gts with
    | nil => simp at h2
    | cons g gs => exact ⟨g, gs, rfl⟩
  have hl := deltaRows_length co (g :: gs) (first :: cur) h2
  constructor
  · intro hlt
    unfold train
    rw [if_neg (by simp)]
    simp only [computeDelta, hl]
    rw [if_pos hlt]
    rfl
  · intro hlt r h s hs
    unfold train at h
    rw [if_neg (by simp)] at h
    obtain ⟨d, hd, h⟩ := bind_ok h
    simp only [computeDelta, hl] at hd
    rw [if_neg (by omega)] at hd
    injection hd with hd
    cases n with
    | zero => injection h with h; subst h; simp at hs
    | succ n =>
      unfold stages at h
      obtain ⟨f, hf, h⟩ := bind_ok h
      obtain ⟨reg, -, h⟩ := bind_ok h
      obtain ⟨u, hu, h⟩ := bind_ok h
      obtain ⟨q, hq, h⟩ := bind_ok h
      injection h with h
      subst h
      simp only [List.head?_cons, Option.some.injEq] at hs
      subst hs
      have hfl : f.length = ((first :: cur).map List.length).sum := by
        rw [featureRows_ok hf h1, perShape_length _ _ _ h1]
      refine ⟨hfl, ?_⟩
      simp only [hfl]
      rw [← hd, deltaRows_fst]

/-! ### C88 -/

/-- C88: with a regressor that predicts row by row, fitting a training image from one of its
training shapes with the trained cascade visits exactly the shapes this row of the training visited. -/
theorem C88_non_parametric {V Row Reg I : Type} [AddCommGroup V] (ops : RegOps Row V Reg)
    (p : Reg → Row → V) (hp : ∀ r rows, ops.predict r rows = rows.map (p r))
    (feat : I → V → Row) (junk : Nat → V) (n : Nat)
    (regs : List Reg) (ims : List I) (gts : List V) (cur : List (List V))
    (h1 : ims.length = cur.length) (h2 : gts.length = cur.length)
    (c : Nat) (hc : ∀ ss ∈ cur, ss.length = c)
    (r : List Reg × List (List V) × List (Stage V V Row))
    (h : train ops (plain V) feat junk n false regs ims gts cur = .ok r)
    (j : Nat) (im : I) (him : (perShape (fun im _ => im) ims cur)[j]? = some im)
    (s : V) (hs : cur.flatten[j]? = some s) :
    ∃ shapes, fitShapes ops feat im r.1 s = .ok shapes ∧
      shapes.map some = r.2.2.map fun t => t.after.flatten[j]? := by
  obtain ⟨-, h4, h5⟩ := C52_invariant ops (plain V) (fun _ => rfl) feat junk n false regs ims gts
    cur h1 h2 c hc r h
  have h6 := (C52_regressors ops (plain V) feat junk n regs ims gts cur).1 r h
  obtain ⟨a, b⟩ := chain_row hp j im _ _ _ _ h4 (h6.imp fun _ _ x => x.2) h5 him s hs
  refine ⟨(r.2.2.map fun t => t.after.flatten[j]?).map fun o => o.getD s, ?_, ?_⟩
  · unfold fitShapes
    rw [cascade_congr (g := fun r s => .ok ((plain V).inst ((plain V).proj s + p r (feat im s))))
      _ _ (fun r x => by simp [fitStep, hp])]
    exact a
  · rw [List.map_map, List.map_map]
    apply List.map_congr_left
    intro x hx
    obtain ⟨y, hy⟩ := Option.isSome_iff_exists.1 (b x hx)
    simp [hy]

/-- C88, parametric algorithms: the same, provided the training shape is an instance of the shape
model.  (Missing: other training shapes, see `C88_parametric_violated`.) -/
theorem C88_parametric_partial (ops : RegOps Row W Reg) (co : Coord V W)
    (hco : ∀ w, co.proj (co.inst w) = w)
    (p : Reg → Row → W) (hp : ∀ r rows, ops.predict r rows = rows.map (p r))
    (feat : I → V → Row) (junk : Nat → W) (n : Nat)
    (regs : List Reg) (ims : List I) (gts : List V) (cur : List (List V))
    (h1 : ims.length = cur.length) (h2 : gts.length = cur.length)
    (c : Nat) (hc : ∀ ss ∈ cur, ss.length = c)
    (r : List Reg × List (List V) × List (Stage V W Row))
    (h : train ops co feat junk n false regs ims gts cur = .ok r)
    (j : Nat) (im : I) (him : (perShape (fun im _ => im) ims cur)[j]? = some im)
    (s : V) (hs : cur.flatten[j]? = some s) (hin : co.inst (co.proj s) = s) :
    ∃ shapes, fitParamShapes ops co feat im r.1 s = .ok shapes ∧
      shapes.map some = r.2.2.map fun t => t.after.flatten[j]? := by
  obtain ⟨-, h4, h5⟩ := C52_invariant ops co hco feat junk n false regs ims gts
    cur h1 h2 c hc r h
  have h6 := (C52_regressors ops co feat junk n regs ims gts cur).1 r h
  obtain ⟨a, b⟩ := chain_row hp j im _ _ _ _ h4 (h6.imp fun _ _ x => x.2) h5 him s hs
  conv at a => lhs; rw [← hin]
  obtain ⟨ps, e1, e2⟩ := cascade_inst hco (fun r s => p r (feat im s)) _ _ _ a
  refine ⟨(r.2.2.map fun t => t.after.flatten[j]?).map fun o => o.getD s, ?_, ?_⟩
  · unfold fitParamShapes
    rw [cascade_congr (g := fun r x => .ok (x + p r (feat im (co.inst x))))
      _ _ (fun r x => by simp [fitParamStep, hp]), e1]
    simp only [bind, Except.bind, pure, Except.pure]
    rw [e2]
  · rw [List.map_map, List.map_map]
    apply List.map_congr_left
    intro x hx
    obtain ⟨y, hy⟩ := Option.isSome_iff_exists.1 (b x hx)
    simp [hy]

/-- A regressor that predicts its feature: for the witnesses below. -/
def echo : RegOps ℚ ℚ Unit := ⟨fun _ _ => .ok (), fun _ _ _ => .ok (), fun _ rows => rows⟩

/-- A shape model of points in the plane with a single component, the first axis. -/
def axis : Coord (ℚ × ℚ) ℚ := ⟨fun s => s.1, fun w => (w, 0)⟩

/-- C88 fails for parametric algorithms on a training shape outside the shape model: training
computes the first features on the shape itself, fitting on its reconstruction. -/
theorem C88_parametric_violated :
    ¬ ∀ (ops : RegOps ℚ ℚ Unit) (co : Coord (ℚ × ℚ) ℚ) (_ : ∀ w, co.proj (co.inst w) = w)
      (p : Unit → ℚ → ℚ) (_ : ∀ r rows, ops.predict r rows = rows.map (p r))
      (feat : Unit → ℚ × ℚ → ℚ) (junk : Nat → ℚ) (gt s : ℚ × ℚ)
      (r : List Unit × List (List (ℚ × ℚ)) × List (Stage (ℚ × ℚ) ℚ ℚ)),
      train ops co feat junk 1 false [] [()] [gt] [[s]] = .ok r →
      ∃ shapes, fitParamShapes ops co feat () r.1 s = .ok shapes ∧
        shapes.map some = r.2.2.map fun t => t.after.flatten[0]? := by
  intro h
  obtain ⟨shapes, h1, h2⟩ := h echo axis (fun _ => rfl) (fun _ x => x) (fun _ rows => by simp [echo])
    (fun _ s => s.2) (fun _ => 0) (0, 0) (0, 1) _ rfl
  have e : fitParamShapes echo axis (fun (_ : Unit) s => s.2) () [()] (0, 1) = .ok [(0, 0)] := by
    simp [fitParamShapes, Result.cascade, fitParamStep, echo, axis, bind, Except.bind, pure,
      Except.pure]
  have e' : fitParamShapes echo axis (fun (_ : Unit) s => s.2) () [()] (0, 1) = .ok shapes := h1
  rw [e] at e'
  injection e' with e'
  rw [← e'] at h2
  simp [echo, axis, plain] at h2

/-! The hypotheses are met: two images, two shapes each, two iterations. -/

/-- Half of the mean target. -/
def toyOps : RegOps ℚ ℚ ℚ :=
  ⟨fun _ t => .ok (t.sum / (2 * t.length)), fun r _ t => .ok (r + t.sum / (2 * t.length)),
    fun r rows => rows.map fun _ => r⟩

def toyTrain : Except PyErr (List ℚ × List (List ℚ) × List (Stage ℚ ℚ ℚ)) :=
  train toyOps (plain ℚ) (fun (i : ℚ) s => i * s) (fun _ => 7) 2 false [] [10, 20] [1, 2]
    [[0, 1], [2, 4]]

example : ∃ r, toyTrain = .ok r ∧ r.1 = [-1/8, -1/16] ∧
    r.2.1 = [[-3/16, 13/16], [29/16, 61/16]] ∧
    r.2.2.map Stage.delta = [[1, 0, 0, -2], [9/8, 1/8, 1/8, -15/8]] ∧
    r.2.2.map Stage.features = [[0, 10, 40, 80], [-5/4, 35/4, 75/2, 155/2]] := by
  refine ⟨_, rfl, ?_, ?_, ?_, ?_⟩ <;> decide +kernel

example : ∀ r rows, toyOps.predict r rows = rows.map ((fun r _ => r : ℚ → ℚ → ℚ) r) :=
  fun _ _ => rfl

example : fitShapes toyOps (fun (i : ℚ) s => i * s) 20 [-1/8, -1/16] 2 = .ok [15/8, 29/16] := by
  decide +kernel

/-- More shapes in the second image; fewer in the second image. -/
example : train toyOps (plain ℚ) (fun (i : ℚ) s => i * s) (fun _ => 7) 2 false [] [10, 20] [1, 2]
    [[0], [2, 4]] matches .error .indexError := by decide +kernel

example : ∃ r, train toyOps (plain ℚ) (fun (i : ℚ) s => i * s) (fun _ => 7) 1 false [] [10, 20]
    [1, 2] [[0, 1], [2]] = .ok r ∧ r.2.2.map Stage.delta = [[1, 0, 0, 7]] := by
  exact ⟨_, rfl, by decide +kernel⟩

end Menpofit
