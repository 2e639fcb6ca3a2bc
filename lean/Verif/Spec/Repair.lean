import Verif.Spec.Decide
/-
What the repair of context coherent completion starts from and must achieve.
-/
namespace TinyMesh
variable {F : Type}

/-- all faces are triangles and no half-edge is flagged: the mesh completion works on after it has filled the holes -/
structure Mesh.Shut (m : Mesh F) : Prop where
  good : m.Good
  tri : ∀ h, m.hAlive h = true → m.OnTri h
  noFlag : ∀ h, m.hAlive h = true → m.hBd h = false

/-- no edge at `v` is longer than `lim` -/
def Mesh.ShortAt (m : Mesh F) (p : Nat → E3) (lim : ℝ) (v : Nat) : Prop := ∀ u, m.Joined v u → ‖p v - p u‖ ≤ lim

/-- every vertex has three neighbours or more -/
def Mesh.Deg3 (m : Mesh F) : Prop := ∀ v, m.vAlive v = true → 3 ≤ m.outDeg v

open Classical in
/-- the angle at `y` between `x` and `z`, 0 if one of them is `y` -/
noncomputable def seen (x y z : E3) : ℝ := if x = y ∨ z = y then 0 else EuclideanGeometry.angle x y z

/-- the angle of the triangle of `h` opposite to its edge -/
noncomputable def Mesh.facing (m : Mesh F) (p : Nat → E3) (h : Nat) : ℝ :=
  seen (p (m.hSrc h)) (p (m.hSrc (m.hNext (m.hNext h)))) (p (m.hSrc (m.hNext h)))

/-- the angles opposite to the edge sum up to more than two right angles -/
def Mesh.Wide (m : Mesh F) (p : Nat → E3) (h : Nat) : Prop := Real.pi < m.facing p h + m.facing p (m.hRev h)

/-- one of the angles opposite to the edge is below 18 degrees -/
def Mesh.Thin (m : Mesh F) (p : Nat → E3) (h : Nat) : Prop := m.facing p h < Real.pi / 10 ∨ m.facing p (m.hRev h) < Real.pi / 10

end TinyMesh
