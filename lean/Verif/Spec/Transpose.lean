import Verif.Spec.Signs
import Verif.Model.Sampling
import Verif.Model.Error
import Verif.Model.Alignment
/-!
# Specification: rows and columns exchanged

The same pictures, annotations and models with the two axes exchanged.
-/

namespace Menpofit
namespace Spec
open MI Matrix Place

variable {n d : Nat}

/-- The shape with the order of its axes reversed: in the plane, rows and columns exchanged. -/
def transposed (s : Pts n d) : Pts n d := fun ij => s (ij.1, ij.2.rev)

/-- The same for point clouds of any size. -/
def transposedCloud (c : Cloud) : Cloud := ⟨c.n, c.d, transposed c.pts⟩

/-- A statistical model with rows and columns exchanged. -/
def transposedPca (m : Pca n d) : Pca n d := ⟨transposed m.mean, m.comps.map transposed, m.nActive⟩

/-- What belongs to the four similarity components (scale, rotation, vertical and horizontal translation) after the
exchange: the two translations change places.  `e` are signs: an exchange of rows and columns reverses rotations, and the
components may come with other signs. -/
noncomputable def crossed {M : Type} [AddCommGroup M] [Module ℝ M] (e : Fin 4 → ℝ) (l : List M) : List M :=
  [e 0 • l.getD 0 0, e 1 • l.getD 1 0, e 2 • l.getD 3 0, e 3 • l.getD 2 0]

/-- The similarity that does to exchanged shapes what `s` does to shapes. -/
def transposedSim (s : Sim) : Sim := ⟨s.a, -s.b, s.ty, s.tx⟩

/-- A shape model in the same state with rows and columns exchanged. -/
noncomputable def transposedPdm (e : Fin 4 → ℝ) (p : OPdm n) : OPdm n :=
  ⟨transposedPca p.model, p.weights, transposed p.target, transposed p.simMean, crossed e (p.simComps.map transposed),
    crossed e p.simWeights, transposed p.source, transposedSim p.glob⟩

/-- A parameter vector of such a model. -/
noncomputable def transposedVector (e : Fin 4 → ℝ) (v : List ℝ) : List ℝ := crossed e v ++ v.drop 4

/-- Orthonormalisation of exchanged components gives the exchanged components, with signs of its own choice, and keeps
the four similarity components. -/
def TransposeBlind (ortho : Ortho n) : Prop :=
  ∀ s b, (ortho (similarityComponents s) b).1.length = 4 ∧ ∃ e ε, Signs e ∧ Signs ε ∧
    ortho (similarityComponents (transposed s)) (b.map transposed) =
      (crossed e ((ortho (similarityComponents s) b).1.map transposed),
        flipComps ε ((ortho (similarityComponents s) b).2.map transposed))

/-- The same thing done to a shape model and to one with rows and columns exchanged.  (Parameter vectors are left out:
their signs depend on what was done before.) -/
inductive SameTransposed : PdmOp n 2 → PdmOp n 2 → Prop
  | target (c : Cloud) : SameTransposed (.target c) (.target (transposedCloud c))
  | active (k : Int) : SameTransposed (.active k) (.active k)
  | increment (m : Pca n 2) : SameTransposed (.increment m) (.increment (transposedPca m))

/-- An `h × w` map given row by row, after the exchange: a `w × h` map, row by row. -/
def transposedMap (h w : Nat) (l : List ℝ) : List ℝ :=
  (List.range w).flatMap fun x => (List.range h).map fun y => l.getD (y * w + x) 0

/-- The sign with which parameter `i` of an exchanged model appears: that of its similarity component. -/
noncomputable def simSign (e : Fin 4 → ℝ) (i : Nat) : ℝ := if h : i < 4 then e ⟨i, h⟩ else 1

/-- Which parameter it is: the two translations change places. -/
def simIx (i : Nat) : Nat := if i = 2 then 3 else if i = 3 then 2 else i

/-- The same among `4 + k` parameters. -/
def simParam {k : Nat} (i : Fin (4 + k)) : Fin (4 + k) :=
  ⟨simIx i, by have := i.isLt; unfold simIx; split_ifs <;> omega⟩

/-- The coordinate that a coordinate becomes: `y₀, x₀, y₁, x₁, …` becomes `x₀, y₀, x₁, y₁, …`. -/
def otherAxis {N : Nat} (r : Fin (N * 2)) : Fin (N * 2) :=
  finProdFinEquiv ((finProdFinEquiv.symm r).1, (finProdFinEquiv.symm r).2.rev)

/-- A point of the plane with its coordinates exchanged. -/
noncomputable def otherWay (x : Warp.P 2) : Warp.P 2 := !₂[x 1, x 0]

/-- The columns of a matrix with one column per shape parameter, for the exchanged model. -/
noncomputable def crossedCols {m k : Nat} (e : Fin 4 → ℝ) (J : Matrix (Fin m) (Fin (4 + k)) ℝ) :
    Matrix (Fin m) (Fin (4 + k)) ℝ := of fun r i => simSign e i * J r (simParam i)

/-- The appearance side of a model whose shape model was exchanged: only what has one column per shape parameter
changes. -/
noncomputable def crossedAppearance {k k' a m : Nat} {W : Type} (e : Fin 4 → ℝ) (h : k' = 4 + k)
    (z : Appearance (4 + k) a m W) : Appearance k' a m W :=
  { z with
    jacI := fun w => (crossedCols e (z.jacI w)).submatrix id (Fin.cast h)
    jacA := fun c => (crossedCols e (z.jacA c)).submatrix id (Fin.cast h) }

/-- What a constrained local model sees of a picture with rows and columns exchanged: the pixels of the patches (in an
order `κ` of their own) and the response maps of the experts are exchanged.  Every response map fills the search window. -/
structure CrossedExperts {N q : Nat} {Pic C : Type} (h w : Nat) (κ : Equiv.Perm (Fin q)) (offs offs' : Fin q → Warp.P 2)
    (sample sample' : Pic → Warp.P 2 → C) (im im' : Pic) (expert expert' : Fin N → (Fin q → C) → List ℝ) : Prop where
  pixels : ∀ o, offs' o = otherWay (offs (κ o))
  picture : ∀ x, sample' im' (otherWay x) = sample im x
  response : ∀ i P, expert' i (fun o => P (κ o)) = transposedMap h w (expert i P)
  fills : ∀ i P, (expert i P).length = h * w

/-- The mesh of an exchanged template: a point lies in the triangle in which the exchanged point lies in the first mesh,
with the same coordinates in it. -/
noncomputable def crossedMesh {N : Nat} (mesh : Warp.Pwa N) : Warp.Pwa N :=
  ⟨fun i => otherWay (mesh.source i), fun i => otherWay (mesh.target i), fun x => mesh.locate (otherWay x)⟩

/-- The shape of an error measure with its axes exchanged. -/
def transposedRows {n : Nat} (s : Error.Shape n 2) : Error.Shape n 2 := fun i j => s i j.rev

/-- A shape of complex numbers, row `+ i` column, with rows and columns exchanged. -/
noncomputable def mirrored {n : Nat} (s : Gpa.CShape n) : Gpa.CShape n := fun i => ⟨(s i).im, (s i).re⟩

end Spec
end Menpofit
