import Verif.Model.Real
import Verif.Spec.Geom
/-
Rigid motions of space, and what it means for a computation on a mesh not to depend on where the mesh lies.
-/
namespace TinyMesh

/-- A rigid motion that keeps the orientation: the axes go to `u`, `v` and `u × v`, the origin to `t`. -/
structure Motion where
  u : Vec3 ℝ
  v : Vec3 ℝ
  t : Vec3 ℝ
  u_unit : u.x * u.x + u.y * u.y + u.z * u.z = 1
  v_unit : v.x * v.x + v.y * v.y + v.z * v.z = 1
  orth : u.x * v.x + u.y * v.y + u.z * v.z = 0

namespace Motion
variable (g : Motion)

/-- the third axis -/
def w : Vec3 ℝ := ⟨g.u.y * g.v.z - g.u.z * g.v.y, g.u.z * g.v.x - g.u.x * g.v.z, g.u.x * g.v.y - g.u.y * g.v.x⟩

/-- a direction, turned -/
def vec (a : Vec3 ℝ) : Vec3 ℝ :=
  ⟨a.x * g.u.x + a.y * g.v.x + a.z * g.w.x, a.x * g.u.y + a.y * g.v.y + a.z * g.w.y, a.x * g.u.z + a.y * g.v.z + a.z * g.w.z⟩

/-- a point, turned and shifted -/
def pt (a : Vec3 ℝ) : Vec3 ℝ := ⟨(g.vec a).x + g.t.x, (g.vec a).y + g.t.y, (g.vec a).z + g.t.z⟩

/-- the mesh with all its vertices moved -/
def mesh (m : Mesh ℝ) : Mesh ℝ := { m with vPos := fun x => g.pt (m.vPos x) }

/-- the outcome of a call, moved: the result is changed by `φ`, the mesh is moved, an error remains the same error -/
def out {α β : Type} (φ : α → β) : Out ℝ α → Out ℝ β
  | .ok a m => .ok (φ a) (g.mesh m)
  | .err e => .err e

/-- `y` run on the moved mesh does what `x` does on the mesh: the same errors, the moved mesh, and the result changed by `φ` -/
def Sim {α β : Type} (φ : α → β) (x : M ℝ α) (y : M ℝ β) : Prop := ∀ m, y (g.mesh m) = g.out φ (x m)

/-- The call gives the same result wherever the mesh lies, and changes the mesh in the same way. -/
def Same {α : Type} (x : M ℝ α) : Prop := g.Sim id x x

end Motion
end TinyMesh
