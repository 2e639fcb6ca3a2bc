import Verif.Spec.WF
import Verif.Spec.Geom
/-
The surface described by a consistent mesh.
-/
namespace TinyMesh
variable {F : Type}

/-- all half-edges of the face are flagged as boundary -/
def Mesh.HoleFace (m : Mesh F) (f : Nat) : Prop := ∀ h, m.hAlive h = true → m.hFace h = f → m.hBd h = true

/-- the corners of a triangle, as the indices of its vertices -/
def Mesh.triple (m : Mesh F) (f : Nat) : Int × Int × Int :=
  (m.vIdx (m.hSrc (m.fHe f)), m.vIdx (m.hSrc (m.hNext (m.fHe f))), m.vIdx (m.hSrc (m.hNext (m.hNext (m.fHe f)))))

/-- the vertices have the finite positions `p` -/
def Mesh.At (m : Mesh XR) (p : Nat → Vec3 ℝ) : Prop := ∀ v, m.vAlive v = true → m.vPos v = (p v).fin

/-- the triangle of a face, for vertices at `p` -/
def Mesh.faceTri (m : Mesh F) (p : Nat → Vec3 ℝ) (f : Nat) : Triangle ℝ :=
  ⟨p (m.hSrc (m.fHe f)), p (m.hSrc (m.hNext (m.fHe f))), p (m.hSrc (m.hNext (m.hNext (m.fHe f))))⟩

/-- the point set covered by the faces that are not holes -/
def Mesh.surface (m : Mesh F) (p : Nat → Vec3 ℝ) : Set E3 :=
  {x | ∃ f, m.fAlive f = true ∧ ¬ m.HoleFace f ∧ x ∈ (m.faceTri p f).hull}

end TinyMesh
