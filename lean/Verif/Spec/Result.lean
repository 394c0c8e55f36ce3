import Verif.Model.Result
/-!
# Specification vocabulary for the result classes (C20–C25)
-/

namespace Menpofit.Spec

/-- What one scale of a parametric fit did: it reconstructed the shape it was given and
updated it a number of times. -/
structure ScaleRun (S : Type) where
  recon : S
  updates : List S

/-- The trajectories of the scales, each in image coordinates. -/
def inImageCoords {S : Type} : List (List S) → List (S → S) → List (S → S) → List (List S)
  | t :: ts, a :: as, s :: ss => t.map (fun x => a (s x)) :: inImageCoords ts as ss
  | _, _, _ => []

/-- The numbers `1, …, n`. -/
def oneTo (n : Nat) : List Int := (List.range n).map fun (i : Nat) => (i : Int) + 1

variable {S V C : Type}
open Result

/-- A single-scale result made by one of the two constructors from a trajectory. -/
def MadeFrom (traj : List S) (r : Res S V C) : Prop :=
  ∃ (init gt : Option S) (costs : Option (List C)),
    nonParam traj init gt costs = .ok r ∨ ∃ ps : List V, param traj ps init gt costs = .ok r

/-- A single-scale parametric result that records the given run. -/
def Records (run : ScaleRun S) (r : Res S V C) : Prop :=
  ∃ (ps : List V) (init gt : Option S) (costs : Option (List C)),
    param (run.recon :: run.updates) ps init gt costs = .ok r

/-- The trajectory of a run. -/
def ScaleRun.trajectory (run : ScaleRun S) : List S := run.recon :: run.updates

/-- Number of updates of all the runs. -/
def totalUpdates (runs : List (ScaleRun S)) : Nat :=
  (runs.map fun run => run.updates.length).sum

/-- Number of shapes of all the runs: reconstructions and updates. -/
def totalShapes (runs : List (ScaleRun S)) : Nat :=
  (runs.map fun run => run.updates.length + 1).sum

/-- What the viewer of a non-parametric result of `n` updates should show. -/
def goodLabels (hasInit : Bool) (n : Nat) : List Label :=
  (if hasInit then [Label.initial] else []) ++ (oneTo (n - 1)).map Label.iteration ++ [Label.final]

/-- Position of update `k` (from 0) of scale `i` among all updates, counted from 1. -/
def updateNumber (runs : List (ScaleRun S)) (i k : Nat) : Nat :=
  totalUpdates (runs.take i) + (k + 1)

/-- Any iterative result the constructors can produce. -/
def IsResult (r : Res S V C) : Prop :=
  (∃ traj, MadeFrom traj r) ∨
  ∃ (results : List (Res S V C)) (n : Nat) (as ts : List (S → S)) (gt : Option S),
    multiNonParam results n as ts gt = .ok r ∨ multiParam results n as ts gt = .ok r ∨
      lkMulti results n as ts gt = .ok r

end Menpofit.Spec
