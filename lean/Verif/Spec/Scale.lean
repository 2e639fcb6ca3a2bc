import Verif.Model.Real
import Verif.Spec.Geom
/-
Changes of the unit of length, and what it means for a computation on a mesh not to depend on the unit.
-/
namespace TinyMesh

/-- a change of the unit of length: every coordinate is multiplied by `s`. A negative number also mirrors the mesh in the origin. -/
structure Zoom where
  s : ℝ
  ne : s ≠ 0

namespace Zoom
variable (g : Zoom)

/-- a point in the new unit -/
def pt (a : Vec3 ℝ) : Vec3 ℝ := ⟨g.s * a.x, g.s * a.y, g.s * a.z⟩

/-- a length in the new unit -/
noncomputable def len (x : ℝ) : ℝ := |g.s| * x

/-- an area in the new unit -/
def area (x : ℝ) : ℝ := g.s * g.s * x

/-- the mesh in the new unit -/
def mesh (m : Mesh ℝ) : Mesh ℝ := { m with vPos := fun x => g.pt (m.vPos x) }

/-- the outcome of a call in the new unit: the result is changed by `φ`, the mesh is scaled, an error remains the same error -/
def out {α β : Type} (φ : α → β) : Out ℝ α → Out ℝ β
  | .ok a m => .ok (φ a) (g.mesh m)
  | .err e => .err e

/-- `y` run on the scaled mesh does what `x` does on the mesh: the same errors, the scaled mesh, and the result changed by `φ` -/
def Sim {α β : Type} (φ : α → β) (x : M ℝ α) (y : M ℝ β) : Prop := ∀ m, y (g.mesh m) = g.out φ (x m)

/-- The call gives the same result in every unit, and changes the mesh in the same way. -/
def Same {α : Type} (x : M ℝ α) : Prop := g.Sim id x x

end Zoom
end TinyMesh
