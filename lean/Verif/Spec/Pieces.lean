import Verif.Spec.History
import Verif.Spec.Report
import Mathlib.Logic.Relation
import Mathlib.SetTheory.Cardinal.Finite
/-
The connected pieces and the holes of a mesh, and what it means that an operation keeps them.
-/
namespace TinyMesh
variable {F : Type}

/-- One can walk along edges from `u` to `v`. -/
def Mesh.Together (m : Mesh F) (u v : Nat) : Prop := Relation.EqvGen m.Joined u v

/-- being in the same piece -/
def Mesh.linkSetoid (m : Mesh F) : Setoid {v : Nat // m.vAlive v = true} where
  r u v := m.Together u v
  iseqv := ⟨fun u => .refl u.1, fun h => .symm _ _ h, fun h h' => .trans _ _ _ h h'⟩

/-- The connected pieces of the mesh: classes of vertices. -/
def Mesh.Piece (m : Mesh F) : Type := Quotient m.linkSetoid

/-- the piece of a vertex -/
def Mesh.pieceOf (m : Mesh F) (v : Nat) (a : m.vAlive v = true) : m.Piece := Quotient.mk m.linkSetoid ⟨v, a⟩

/-- The pieces of the two meshes correspond one to one, and a vertex that is in both meshes is in corresponding pieces. -/
def SamePieces (m m' : Mesh F) : Prop :=
  ∃ f : m.Piece ≃ m'.Piece, ∀ v (a : m.vAlive v = true) (a' : m'.vAlive v = true), f (m.pieceOf v a) = m'.pieceOf v a'

/-- The boundary marks and the loops of the holes are the same in both meshes. -/
structure KeepsHoles (m m' : Mesh F) : Prop where
  /-- the marked half-edges are the same -/
  marks : ∀ h, (m'.hAlive h = true ∧ m'.hBd h = true) ↔ (m.hAlive h = true ∧ m.hBd h = true)
  /-- the holes are the same -/
  holes : ∀ f, (m'.fAlive f = true ∧ m'.HoleFace f) ↔ (m.fAlive f = true ∧ m.HoleFace f)
  /-- each of them has the same loop of half-edges -/
  loops : ∀ f, m.fAlive f = true → m.HoleFace f → ∀ h, m.hAlive h = true → m.hFace h = f →
    m'.hAlive h = true ∧ m'.hFace h = f ∧ m'.hNext h = m.hNext h
  only : ∀ f, m.fAlive f = true → m.HoleFace f → ∀ h, m'.hAlive h = true → m'.hFace h = f → m.hAlive h = true ∧ m.hFace h = f

/-- As `Edit.okAt`, and an edge to be flipped carries no boundary mark. -/
def Edit.insideAt (m : Mesh F) (e : Edit) : Prop :=
  e.okAt m ∧ ∀ h, e = .flip h → m.hBd h = false ∧ m.hBd (m.hRev h) = false

/-- Every call of the sequence has such an argument at the time it is made. -/
def AllowedInside [Scalar F] : Mesh F → List Edit → Prop
  | _, [] => True
  | m, e :: es => e.insideAt m ∧ ∀ b m', e.run m = .ok b m' → AllowedInside m' es

end TinyMesh
