import Verif.Spec.Report
/-
The same mesh with other coordinates.
-/
namespace TinyMesh
variable {F G : Type}

/-- the mesh `m` with the vertices at `q` -/
def Mesh.over (m : Mesh F) (q : Nat → Vec3 G) : Mesh G where
  hAlive := m.hAlive
  hSrc := m.hSrc
  hNext := m.hNext
  hRev := m.hRev
  hFace := m.hFace
  hIdx := m.hIdx
  hBd := m.hBd
  vAlive := m.vAlive
  vPos := q
  vHe := m.vHe
  vIdx := m.vIdx
  vLock := m.vLock
  fAlive := m.fAlive
  fHe := m.fHe
  fIdx := m.fIdx
  hes := m.hes
  vs := m.vs
  fs := m.fs
  indices := m.indices
  hFresh := m.hFresh
  vFresh := m.vFresh
  fFresh := m.fFresh
  hCap := m.hCap
  hEpoch := m.hEpoch
  grow := m.grow

theorem Mesh.WF.over {m : Mesh F} (w : m.WF) (q : Nat → Vec3 G) : (m.over q).WF := by
  cases w
  constructor <;> assumption

theorem Mesh.Good.over {m : Mesh F} (g : m.Good) (q : Nat → Vec3 G) : (m.over q).Good :=
  ⟨g.wf.over q, ⟨g.tri.holds⟩, ⟨g.simple.no_loop, g.simple.no_dup⟩⟩

/-- the mesh `m` with finite exact coordinates -/
def Mesh.overR (m : Mesh F) (q : Nat → Vec3 ℝ) : Mesh XR := m.over fun v => (q v).fin

theorem Mesh.overR_at (m : Mesh F) (q : Nat → Vec3 ℝ) : (m.overR q).At q := fun _ _ => rfl

end TinyMesh
