import Verif.Model.Py
import Verif.Model.Stats
import Mathlib.Data.Real.Basic
/-!
# Generation of perturbed bounding boxes

Models `/repo/menpofit/fitter.py:718-790`.  An image has an ordered landmark manager (insertion
order, as in menpo) and opaque pixels.  Shapes and the menpo operations on them are parameters;
`pointGeom` is the instance for lists of points.  Progress printing is not modelled.
-/

namespace Menpofit
namespace Perturb

/-- An image with its landmark groups in insertion order. See `/repo/menpofit/fitter.py:771-786` -/
structure Im (S P : Type) where
  lms : List (String × S)
  px : P
  deriving DecidableEq

/-- Operations on shapes: `shape.bounding_box()`, and
`shape.constrain_to_bounds(image.bounds())`. See `/repo/menpofit/fitter.py:777-785` -/
structure Geom (S P : Type) where
  bb : S → Except PyErr S
  clamp : P → S → S

variable {S P : Type}

/-- `lms[name]` of an ordered dictionary. See `/repo/menpofit/fitter.py:746` -/
def lookup (lms : List (String × S)) (name : String) : Option S :=
  (lms.find? fun x => x.1 = name).map Prod.snd

/-- `lms[name] = s`: an existing key keeps its place, a new one is appended.
See `/repo/menpofit/fitter.py:780` -/
def assign (lms : List (String × S)) (name : String) (s : S) : List (String × S) :=
  if lms.any fun x => x.1 = name then lms.map fun x => if x.1 = name then (name, s) else x
  else lms ++ [(name, s)]

/-- menpo `landmarks[group]`: `None` is allowed if there is exactly one group.
See `/repo/menpofit/fitter.py:746` -/
def getGroup (im : Im S P) : Option String → Except PyErr S
  | some g => match lookup im.lms g with
    | some s => .ok s
    | none => .error .keyError
  | none => match im.lms with
    | [x] => .ok x.2
    | _ => .error .valueError

/-- `landmarks.items_matching(glob)`: the matching groups in order.
See `/repo/menpofit/fitter.py:750-751` -/
def matching (glob : String → Bool) (im : Im S P) : List S :=
  (im.lms.filter fun x => glob x.1).map Prod.snd

/-- `'__generated_bb_{}'.format(k)`. See `/repo/menpofit/fitter.py:779` -/
def genName (k : Nat) : String := "__generated_bb_" ++ toString k

/-- `fnmatch(name, '__generated_bb_*')`. See `/repo/menpofit/fitter.py:788-789` -/
def isGen (name : String) : Bool := "__generated_bb_".toList.isPrefixOf name.toList

/-- `bb_generator(im)`, `/repo/menpofit/fitter.py:745-752`. -/
def boxes (g : Geom S P) (gtGroup : Option String) (glob : Option (String → Bool)) (im : Im S P) :
    Except PyErr (List S) :=
  match glob with
  | none => do
    let s ← getGroup im gtGroup
    let b ← g.bb s
    return [b]
  | some gl => (matching gl im).mapM g.bb

/-- The loop over the perturbations of one box, `/repo/menpofit/fitter.py:777-781`.  `perturb c` is
the behaviour of `perturb_func` at its `c`-th call (it may draw random numbers); `k` is the
running number of the box.  Returns the image, the next `k` and `c`, and the exception raised
if any; an image is modified in place, so it is returned in that case too. -/
def perturbLoop (g : Geom S P) (perturb : Nat → S → S → Except PyErr S) (gt bb : S) :
    Nat → Im S P → Nat → Nat → (Im S P × Nat × Nat) × Option PyErr
  | 0, im, k, c => ((im, k, c), none)
  | m + 1, im, k, c =>
    match perturb c gt bb with
    | .error e => ((im, k, c + 1), some e)
    | .ok p => match g.bb p with
      | .error e => ((im, k, c + 1), some e)
      | .ok b => perturbLoop g perturb gt bb m
          { im with lms := assign im.lms (genName k) (g.clamp im.px b) } (k + 1) (c + 1)

/-- The loop over the boxes of one image, `/repo/menpofit/fitter.py:776-786`. -/
def boxLoop (g : Geom S P) (perturb : Nat → S → S → Except PyErr S) (nPert : Nat) (addBox : Bool)
    (gt : S) : List S → Im S P → Nat → Nat → (Im S P × Nat × Nat) × Option PyErr
  | [], im, k, c => ((im, k, c), none)
  | bb :: bbs, im, k, c =>
    match perturbLoop g perturb gt bb nPert im k c with
    | (r, some e) => (r, some e)
    | ((im, k, c), none) =>
      if addBox then
        boxLoop g perturb nPert addBox gt bbs
          { im with lms := assign im.lms (genName k) (g.clamp im.px bb) } (k + 1) c
      else boxLoop g perturb nPert addBox gt bbs im k c

/-- One image, `/repo/menpofit/fitter.py:772-786`. -/
def perturbImage (g : Geom S P) (perturb : Nat → S → S → Except PyErr S) (nPert : Nat)
    (gtGroup : Option String) (glob : Option (String → Bool)) (im : Im S P) (c : Nat) :
    (Im S P × Nat) × Option PyErr :=
  match getGroup im gtGroup >>= g.bb with
  | .error e => ((im, c), some e)
  | .ok gt =>
    match boxes g gtGroup glob im with
    | .error e => ((im, c), some e)
    | .ok bbs =>
      let r := boxLoop g perturb nPert glob.isSome gt bbs im 0 c
      ((r.1.1, r.1.2.2), r.2)

/-- The loop over the images, `/repo/menpofit/fitter.py:771-786`. -/
def imageLoop (g : Geom S P) (perturb : Nat → S → S → Except PyErr S) (nPert : Nat)
    (gtGroup : Option String) (glob : Option (String → Bool)) :
    List (Im S P) → Nat → List (Im S P) × Option PyErr
  | [], _ => ([], none)
  | im :: ims, c =>
    match perturbImage g perturb nPert gtGroup glob im c with
    | ((im', _), some e) => (im' :: ims, some e)
    | ((im', c'), none) =>
      let r := imageLoop g perturb nPert gtGroup glob ims c'
      (im' :: r.1, r.2)

/-- `generate_perturbations_from_gt`, `/repo/menpofit/fitter.py:745-790`: the images after the call
and the exception raised if any. -/
def generate (g : Geom S P) (perturb : Nat → S → S → Except PyErr S) (nPert : Nat)
    (gtGroup : Option String) (glob : Option (String → Bool)) (images : List (Im S P)) :
    List (Im S P) × Option PyErr :=
  match glob with
  | none => imageLoop g perturb nPert gtGroup none images 0
  | some gl =>
    match images with
    | [] => ([], some .indexError)
    | im :: _ =>
      match (matching gl im).mapM g.bb with
      | .error e => (images, some e)
      | .ok bbs =>
        if bbs.length = 0 then (images, some .valueError)
        else imageLoop g perturb nPert gtGroup (some gl) images 0

/-- The returned function, `/repo/menpofit/fitter.py:788-789`. -/
def generatedBoxes (im : Im S P) : List S := matching isGen im

/-! ### Shapes as lists of points -/

noncomputable section

/-- menpo `bounding_box` and `constrain_to_bounds` on lists of points; the pixels are the height and
width and `image.bounds()` is `((0, 0), (height - 1, width - 1))`.
See `/repo/menpofit/fitter.py:777-785` -/
def pointGeom : Geom (List (ℝ × ℝ)) (Nat × Nat) where
  bb s := if s.length = 0 then .error .valueError else
    let y0 := Stats.npMin (s.map Prod.fst)
    let y1 := Stats.npMax (s.map Prod.fst)
    let x0 := Stats.npMin (s.map Prod.snd)
    let x1 := Stats.npMax (s.map Prod.snd)
    .ok [(y0, x0), (y1, x0), (y1, x1), (y0, x1)]
  clamp px s := s.map fun p =>
    (min (max p.1 0) ((px.1 : ℝ) - 1), min (max p.2 0) ((px.2 : ℝ) - 1))

end
end Perturb
end Menpofit
