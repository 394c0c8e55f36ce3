import Verif.Model.ResultShow
import Verif.Spec.Result
/-!
# Specification vocabulary for what a result shows (C126)
-/

namespace Menpofit.Spec

/-- One shape as the reader of a figure sees it. -/
structure DrawnShape (S Col : Type) where
  title : String
  shape : S
  face : Col
  edge : Col
  line : Col

/-- A dictionary lookup. -/
def entryOf {α : Type} (d : List (String × α)) (k : String) : Option α :=
  (d.find? fun e => e.1 = k).map (·.2)

/-- The `i`-th shape that the renderer draws: the `i`-th group, its landmarks and title,
and the `i`-th entry of every list of colours. -/
def drawnAt {S Col : Type} (f : ResultShow.Figure S Col) (i : Nat) : Option (DrawnShape S Col) := do
  let g ← f.groups[i]?
  return { title := ← entryOf f.titles g, shape := ← entryOf f.landmarks g,
           face := ← f.faces[i]?, edge := ← f.edges[i]?, line := ← f.lines[i]? }

/-- Everything that is drawn. -/
def drawn {S Col : Type} (f : ResultShow.Figure S Col) : List (Option (DrawnShape S Col)) :=
  (List.range f.groups.length).map (drawnAt f)

/-- The points of the curves of a plot. -/
def curvePoints {K : Type} (c : ResultShow.Curve K) : List (List (Nat × K)) :=
  c.y.map fun ys => c.x.zip ys

/-- The curve through `(0, l₀), (1, l₁), …`. -/
def numbered {K : Type} (l : List K) : List (Nat × K) :=
  l.mapIdx fun k e => (k, e)

/-- The shapes of a result after the initial one: those that the algorithms computed. -/
def computedShapes {S V C : Type} (r : Result.Res S V C) : List S :=
  if r.initial.isSome then r.shapes.tail else r.shapes

/-- A text of one or more lines. -/
def textLines : String → List String → String
  | first, [] => first
  | first, l :: ls => first ++ "\n" ++ textLines l ls

end Menpofit.Spec
