import Verif.Spec.Transpose
/-!
# Specification: left and right exchanged

The same pictures, annotations and models seen in a mirror.  Where the mirror stands does not matter (`C124`, `C128`); here
it is the line through the origin along the first axis, so the second coordinate changes its sign.
-/

namespace Menpofit
namespace Spec
open MI Matrix Place

variable {n : Nat}

/-- The sign that a coordinate along an axis gets. -/
def mirrorSign (j : Fin 2) : ℝ := if j = 0 then 1 else -1

/-- The shape in a mirror. -/
def reflected (s : Pts n 2) : Pts n 2 := fun ij => mirrorSign ij.2 * s ij

/-- The same for point clouds of any size. -/
def reflectedCloud (c : Cloud) : Cloud := ⟨c.n, c.d, fun ij => if ij.2.val = 1 then -c.pts ij else c.pts ij⟩

/-- A statistical model in a mirror. -/
def reflectedPca (m : Pca n 2) : Pca n 2 := ⟨reflected m.mean, m.comps.map reflected, m.nActive⟩

/-- What belongs to the four similarity components (scale, rotation, vertical and horizontal translation) in a mirror.  `e`
are signs: rotations and horizontal translations are reversed, and the components may come with other signs. -/
noncomputable def signedSim {M : Type} [AddCommGroup M] [Module ℝ M] (e : Fin 4 → ℝ) (l : List M) : List M :=
  [e 0 • l.getD 0 0, e 1 • l.getD 1 0, e 2 • l.getD 2 0, e 3 • l.getD 3 0]

/-- The similarity that does to reflected shapes what `s` does to shapes. -/
def reflectedSim (s : Sim) : Sim := ⟨s.a, -s.b, s.tx, -s.ty⟩

/-- A shape model in the same state in a mirror. -/
noncomputable def reflectedPdm (e : Fin 4 → ℝ) (p : OPdm n) : OPdm n :=
  ⟨reflectedPca p.model, p.weights, reflected p.target, reflected p.simMean, signedSim e (p.simComps.map reflected),
    signedSim e p.simWeights, reflected p.source, reflectedSim p.glob⟩

/-- A parameter vector of such a model. -/
noncomputable def reflectedVector (e : Fin 4 → ℝ) (v : List ℝ) : List ℝ := signedSim e v ++ v.drop 4

/-- Orthonormalisation of reflected components gives the reflected components, with signs of its own choice, and keeps the
four similarity components. -/
def MirrorBlind (ortho : Ortho n) : Prop :=
  ∀ s b, (ortho (similarityComponents s) b).1.length = 4 ∧ ∃ e ε, Signs e ∧ Signs ε ∧
    ortho (similarityComponents (reflected s)) (b.map reflected) =
      (signedSim e ((ortho (similarityComponents s) b).1.map reflected),
        flipComps ε ((ortho (similarityComponents s) b).2.map reflected))

/-- The same thing done to a shape model and to its mirror image.  (Parameter vectors are left out: their signs depend on
what was done before.) -/
inductive SameReflected : PdmOp n 2 → PdmOp n 2 → Prop
  | target (c : Cloud) : SameReflected (.target c) (.target (reflectedCloud c))
  | active (k : Int) : SameReflected (.active k) (.active k)
  | increment (m : Pca n 2) : SameReflected (.increment m) (.increment (reflectedPca m))

/-- An `h × w` map given row by row, in a mirror: every row reversed. -/
def reflectedMap (h w : Nat) (l : List ℝ) : List ℝ :=
  (List.range h).flatMap fun y => (List.range w).map fun x => l.getD (y * w + (w - 1 - x)) 0

/-- A point of the plane in a mirror. -/
noncomputable def reflectedPoint (x : Warp.P 2) : Warp.P 2 := !₂[x 0, -x 1]

/-- The columns of a matrix with one column per shape parameter, for the reflected model. -/
noncomputable def reflectedCols {m k : Nat} (e : Fin 4 → ℝ) (J : Matrix (Fin m) (Fin (4 + k)) ℝ) :
    Matrix (Fin m) (Fin (4 + k)) ℝ := of fun r i => simSign e i * J r i

/-- The appearance side of a model whose shape model was reflected: only what has one column per shape parameter
changes. -/
noncomputable def reflectedAppearance {k k' a m : Nat} {W : Type} (e : Fin 4 → ℝ) (h : k' = 4 + k)
    (z : Appearance (4 + k) a m W) : Appearance k' a m W :=
  { z with
    jacI := fun w => (reflectedCols e (z.jacI w)).submatrix id (Fin.cast h)
    jacA := fun c => (reflectedCols e (z.jacA c)).submatrix id (Fin.cast h) }

/-- What a constrained local model sees of a reflected picture: the pixels of the patches (in an order `κ` of their own) and
the response maps of the experts are reflected.  Every response map fills the search window. -/
structure ReflectedExperts {N q : Nat} {Pic C : Type} (h w : Nat) (κ : Equiv.Perm (Fin q)) (offs offs' : Fin q → Warp.P 2)
    (sample sample' : Pic → Warp.P 2 → C) (im im' : Pic) (expert expert' : Fin N → (Fin q → C) → List ℝ) : Prop where
  pixels : ∀ o, offs' o = reflectedPoint (offs (κ o))
  picture : ∀ x, sample' im' (reflectedPoint x) = sample im x
  response : ∀ i P, expert' i (fun o => P (κ o)) = reflectedMap h w (expert i P)
  fills : ∀ i P, (expert i P).length = h * w

/-- The mesh of a reflected template: a point lies in the triangle in which the reflected point lies in the first mesh, with
the same coordinates in it. -/
noncomputable def reflectedMesh {N : Nat} (mesh : Warp.Pwa N) : Warp.Pwa N :=
  ⟨fun i => reflectedPoint (mesh.source i), fun i => reflectedPoint (mesh.target i), fun x => mesh.locate (reflectedPoint x)⟩

/-- The shape of an error measure in a mirror at any place `m`. -/
def reflectedRows {n : Nat} (m : ℝ) (s : Error.Shape n 2) : Error.Shape n 2 := fun i j => if j = 0 then s i 0 else m - s i 1

/-- The same for a shape given by all its coordinates in one row. -/
def reflectedFlat {N : Nat} (v : Fin (N * 2) → ℝ) : Fin (N * 2) → ℝ := fun r => mirrorSign (finProdFinEquiv.symm r).2 * v r

/-- The same for a shape whose points are complex numbers. -/
def reflectedComplex {n : Nat} (s : Gpa.CShape n) : Gpa.CShape n := fun i => (starRingEnd ℂ) (s i)

end Spec
end Menpofit
