import Verif.Spec.Report
import Verif.Spec.Build
import Verif.Spec.History
/-
When a consistent mesh, possibly edited, describes a manifold triangle list again.
-/
namespace TinyMesh
variable {F : Type}

/-- the corners of a triangle, as vertex numbers; the first half-edge of the face is the last directed edge but one -/
def Mesh.corners (m : Mesh F) (f : Nat) : Tri :=
  ⟨(m.triple f).2.1.toNat, (m.triple f).2.2.toNat, (m.triple f).1.toNat⟩

open Classical in
/-- the triangles of the faces that are not holes, in the order of the face array -/
noncomputable def Mesh.shown (m : Mesh F) : List Tri := (m.fs.filter (fun f => decide (¬ m.HoleFace f))).map m.corners

/-- the half-edge runs along a hole -/
def Mesh.AtHole (m : Mesh F) (h : Nat) : Prop := m.HoleFace (m.hFace h)

/-- At most one hole at each vertex. -/
def Mesh.OneHole (m : Mesh F) : Prop :=
  ∀ h h', m.hAlive h = true → m.hAlive h' = true → m.hSrc h = m.hSrc h' → m.AtHole h → m.AtHole h' → h = h'

/-- The two sides of an edge have the same boundary flag. -/
def Mesh.BdSym (m : Mesh F) : Prop := ∀ h, m.hAlive h = true → m.hBd (m.hRev h) = m.hBd h

/-- No hole borders on a hole: there is no triangle all of whose edges are boundary edges. -/
def Mesh.NoAlone (m : Mesh F) : Prop := ∀ h, m.hAlive h = true → m.AtHole h → ¬ m.AtHole (m.hRev h)

/-- The vertex lies on a hole. -/
def Mesh.OnHole (m : Mesh F) (v : Nat) : Prop := ∃ h, m.hAlive h = true ∧ m.hSrc h = v ∧ m.AtHole h

/-- Edits that respect the boundary: an edge that is flipped is an interior one, and an edge that is contracted has an end
that is not on a hole. -/
def Edit.inside (m : Mesh F) : Edit → Prop
  | .split h => m.hAlive h = true
  | .collapse h => m.hAlive h = true ∧ ¬ (m.OnHole (m.hSrc h) ∧ m.OnHole (m.hSrc (m.hRev h)))
  | .flip h => m.hAlive h = true ∧ m.hBd h = false

/-- Every call of the sequence respects the boundary at the time it is made. -/
def Inside [Scalar F] : Mesh F → List Edit → Prop
  | _, [] => True
  | m, e :: es => e.inside m ∧ ∀ b m', e.run m = .ok b m' → Inside m' es

end TinyMesh
