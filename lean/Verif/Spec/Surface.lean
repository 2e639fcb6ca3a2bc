import Verif.Spec.Pieces
import Verif.Spec.Feature
import Mathlib.Algebra.BigOperators.Group.Multiset.Basic
/-
The triangles of a mesh as a multiset, and the area and volume that they give.
-/
namespace TinyMesh
variable {F A : Type}

/-- the value of `φ` at the corners of a triangle -/
def Mesh.atCorners (m : Mesh F) (φ : Nat → Nat → Nat → A) (f : Nat) : A :=
  φ (m.hSrc (m.fHe f)) (m.hSrc (m.hNext (m.fHe f))) (m.hSrc (m.hNext (m.hNext (m.fHe f))))

open Classical in
/-- the values of `φ` at the corners of the faces that are not holes, each face once -/
noncomputable def Mesh.triVals (m : Mesh F) (φ : Nat → Nat → Nat → A) : Multiset A :=
  ((m.fs.filter (fun f => decide (¬ m.HoleFace f))).map (m.atCorners φ) : List A)

/-- It does not matter at which corner one begins. -/
def Cyclic (φ : Nat → Nat → Nat → A) : Prop := ∀ a b c, φ a b c = φ b c a

/-- the total area of the faces that are not holes, for vertices at `p` -/
noncomputable def Mesh.surfArea (m : Mesh F) (p : Nat → E3) : ℝ := (m.triVals fun a b c => ‖triNormal (p a) (p b) (p c)‖ / 2).sum

/-- six times the volume of the tetrahedron with the corners `a`, `b`, `c`, `d`, positive if `b`, `c`, `d` turn clockwise seen from `a` -/
noncomputable def tetVol6 (a b c d : E3) : ℝ := inner ℝ (b - a) (triNormal a c d)

/-- the sum of the signed volumes of the cones from `o` over the faces that are not holes: the enclosed volume if the mesh is closed -/
noncomputable def Mesh.volume (m : Mesh F) (o : E3) (p : Nat → E3) : ℝ := (m.triVals fun a b c => tetVol6 o (p a) (p b) (p c)).sum / 6

/-- the points of the faces that are not holes -/
def Mesh.points (m : Mesh F) (p : Nat → E3) : Set E3 :=
  {x | ∃ f, m.fAlive f = true ∧ ¬ m.HoleFace f ∧ x ∈ convexHull ℝ
    {p (m.hSrc (m.fHe f)), p (m.hSrc (m.hNext (m.fHe f))), p (m.hSrc (m.hNext (m.hNext (m.fHe f))))}}

/-- The two meshes are the same surface in space. -/
structure SameSurface (m : Mesh F) (p : Nat → E3) (m' : Mesh F) (p' : Nat → E3) : Prop where
  points : m'.points p' = m.points p
  area : m'.surfArea p' = m.surfArea p
  volume : ∀ o, m'.volume o p' = m.volume o p

/-- the vertex `q` is replaced by `p` -/
def renamed (p q v : Nat) : Nat := if v = q then p else v

end TinyMesh
