import Verif.Model.Training
/-!
# What training leaves behind when it fails

`Verif.Model.Training` models the training loops of `/repo/menpofit/aam/base.py`, `clm/base.py` and
`aps/base.py` up to the exception they may raise.  Here the same loops are modelled with the attributes
of the object as they are when the exception leaves `increment`: assignments that were made before stay.
A model object whose own `increment` raises is unchanged (simplification: the models are atomic).  The
images may come from an iterator that raises.
-/

namespace Menpofit
namespace FailedTraining
open Training

/-- Attributes and outcome. See `/repo/menpofit/aam/base.py:336-386` -/
abbrev Run (σ : Type) := σ × Except PyErr Unit

/-- Evaluate an expression; if it raises, the attributes stay as they are at that point.
See `/repo/menpofit/aam/base.py:186-331` -/
def attempt {σ α : Type} (st : σ) (x : Except PyErr α) (k : α → Run σ) : Run σ :=
  match x with
  | .error e => (st, .error e)
  | .ok a => k a

/-- The images given to `increment`: what the iterator produces, and the exception it raises instead of
ending, if any. See `/repo/menpofit/aam/base.py:176-184` -/
structure Feed (α : Type) where
  items : List α
  fail : Option PyErr

/-- The batches that reach the loop of `_train` and how the iteration ends,
`/repo/menpofit/aam/base.py:179-184` with `/repo/menpofit/base.py:7-13`.  `list(images)` needs all
images; `batch` hands out every full chunk before it asks for more, and a chunk of size zero ends it. -/
def feedBatches {α : Type} (f : Feed α) (batchSize : Option Nat) : List (List α) × Except PyErr Unit :=
  match f.fail with
  | none => (batches f.items batchSize, .ok ())
  | some e =>
    match batchSize with
    | none => ([], .error e)
    | some n =>
      if n = 0 then ([], .ok ()) else (Base.batch n (f.items.take (f.items.length / n * n)), .error e)

variable {Im Sh F W SM AM M D : Type}

/-- `_train_batch` from scale `j` on, `/repo/menpofit/aam/base.py:246-331`,
`/repo/menpofit/clm/base.py:236-305`: the shape model of a scale is stored before its images are warped. -/
def batchRun [DecidableEq F] (o : ImageOps Im Sh F) (L : Learners Im Sh W SM AM) (ref : Sh)
    (increment : Bool) (images : List Im) :
    Nat → Option (F × List Im) → St Sh SM AM → List (Level F) → Run (St Sh SM AM)
  | _, _, st, [] => (st, .ok ())
  | j, prev, st, l :: ls =>
    attempt st (featureImages o images prev l.feature) fun fi =>
    attempt st (scaledImages o l.scale fi) fun si =>
    attempt st (si.mapM o.shapeOf) fun shapes =>
    attempt st (update (L.shape.new l.maxShape) (L.shape.inc l.maxShape) increment j st.shapeModels shapes)
      fun sm =>
    let st := { st with shapeModels := sm }
    attempt st ((si.zip shapes).mapM fun x => L.warp (o.scaleShape l.scale ref) j x.1 x.2) fun warped =>
    attempt st (update (L.second.new l.maxSecond) (L.second.inc l.maxSecond) increment j st.second warped)
      fun am =>
    batchRun o L ref increment images (j + 1) (some (l.feature, fi)) { st with second := am } ls

/-- `_train` from batch `k` on, `/repo/menpofit/aam/base.py:186-224`, `/repo/menpofit/clm/base.py:182-216`:
the reference shape is stored before the images are rescaled to it; `last` is how the iteration ends. -/
def trainRun [DecidableEq F] (o : ImageOps Im Sh F) (L : Learners Im Sh W SM AM) (levels : List (Level F))
    (last : Except PyErr Unit) : Nat → Bool → St Sh SM AM → List (List Im) → Run (St Sh SM AM)
  | _, _, st, [] => (st, last)
  | k, increment, st, b :: bs =>
    attempt st (reference o k st.ref b) fun ref =>
    let st := { st with ref := ref }
    let increment := if k > 0 then true else increment
    match ref with
    | none => (st, .error .attributeError)
    | some r =>
      attempt st (b.mapM (o.rescale r)) fun images =>
      match batchRun o L r increment images 0 none st levels with
      | (st, .error e) => (st, .error e)
      | (st, .ok ()) => trainRun o L levels last (k + 1) increment st bs

/-- `increment` of an AAM or CLM, `/repo/menpofit/aam/base.py:336-386`,
`/repo/menpofit/clm/base.py:322-363`. -/
def incrementRun [DecidableEq F] (o : ImageOps Im Sh F) (L : Learners Im Sh W SM AM)
    (levels : List (Level F)) (st : St Sh SM AM) (images : Feed Im) (batchSize : Option Nat) :
    Run (St Sh SM AM) :=
  let bs := feedBatches images batchSize
  trainRun o L levels bs.2 0 true st bs.1

/-! ### Active pictorial structures -/

variable {G DM : Type}

/-- A `GMRFModel` made with `incremental=can_be_incremented`: otherwise its `increment` raises a
`ValueError`. See `/repo/menpofit/aps/base.py:420-449` -/
def gmrf (canBeIncremented : Bool) (L : Learner M D) : Learner M D where
  build := L.build
  increment m d := if canBeIncremented then L.increment m d else .error .valueError
  trim := L.trim

/-- `_build_appearance_model` and `_increment_appearance_model`, `/repo/menpofit/aps/base.py:432-459`:
without an appearance graph both raise. -/
def appearance (graph : Bool) (L : Learner M D) : Learner M D where
  build d := if graph then L.build d else .error .notImplementedError
  increment m d := if graph then L.increment m d else .error .notImplementedError
  trim := L.trim

/-- What the models of an APS are made of, given `can_be_incremented` and whether there is an appearance
graph (at every scale or at none). See `/repo/menpofit/aps/base.py:401-469` -/
def apsOps (canBeIncremented graph : Bool) (L : ApsOps Im Sh W G SM DM AM) : ApsOps Im Sh W G SM DM AM :=
  { L with
    deformation := fun g => gmrf canBeIncremented (L.deformation g)
    second := appearance graph (gmrf canBeIncremented L.second) }

/-- `_train_batch` of an APS from scale `j` on, `/repo/menpofit/aps/base.py:270-370`. -/
def apsBatchRun [DecidableEq F] (o : ImageOps Im Sh F) (L : ApsOps Im Sh W G SM DM AM)
    (increment : Bool) (images : List Im) :
    Nat → Option (F × List Im) → ApsSt Sh G SM DM AM → List (Level F) → Run (ApsSt Sh G SM DM AM)
  | _, _, st, [] => (st, .ok ())
  | j, prev, st, l :: ls =>
    attempt st (featureImages o images prev l.feature) fun fi =>
    attempt st (scaledImages o l.scale fi) fun si =>
    attempt st (si.mapM o.shapeOf) fun shapes =>
    attempt st (L.align shapes) fun aligned =>
    attempt st (update (L.shape.new l.maxShape) (L.shape.inc none) increment j st.shapeModels aligned)
      fun sm =>
    let st := { st with shapeModels := sm }
    attempt st (match st.graphs[j]? with
      | some (some g) => .ok g
      | _ => .error .typeError : Except PyErr G) fun g =>
    attempt st (update (L.deformation g).build (L.deformation g).increment increment j st.deformation
      (if L.useProcrustes then aligned else shapes)) fun dm =>
    let st := { st with deformation := dm }
    attempt st ((si.zip shapes).mapM fun x => L.warp j x.1 x.2) fun warped =>
    attempt st (update L.second.build L.second.increment increment j st.second warped) fun am =>
    apsBatchRun o L increment images (j + 1) (some (l.feature, fi)) { st with second := am } ls

/-- `_train` of an APS from batch `k` on, `/repo/menpofit/aps/base.py:215-262`. -/
def apsTrainRun [DecidableEq F] (o : ImageOps Im Sh F) (L : ApsOps Im Sh W G SM DM AM)
    (levels : List (Level F)) (last : Except PyErr Unit) :
    Nat → Bool → ApsSt Sh G SM DM AM → List (List Im) → Run (ApsSt Sh G SM DM AM)
  | _, _, st, [] => (st, last)
  | k, increment, st, b :: bs =>
    attempt st (reference o k st.ref b) fun ref =>
    let st := { st with ref := ref }
    let increment := if k > 0 then true else increment
    match ref with
    | none => (st, .error .attributeError)
    | some r =>
      attempt st (b.mapM (o.rescale r)) fun images =>
      attempt st (apsGraphs o L st.graphs images) fun graphs =>
      match apsBatchRun o L increment images 0 none { st with graphs := graphs } levels with
      | (st, .error e) => (st, .error e)
      | (st, .ok ()) => apsTrainRun o L levels last (k + 1) increment st bs

/-- `increment` of an APS, `/repo/menpofit/aps/base.py:375-399`. -/
def apsIncrementRun [DecidableEq F] (o : ImageOps Im Sh F) (L : ApsOps Im Sh W G SM DM AM)
    (levels : List (Level F)) (st : ApsSt Sh G SM DM AM) (images : Feed Im) (batchSize : Option Nat) :
    Run (ApsSt Sh G SM DM AM) :=
  let bs := feedBatches images batchSize
  apsTrainRun o L levels bs.2 0 true st bs.1

end FailedTraining
end Menpofit
