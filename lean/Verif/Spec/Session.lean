import Verif.Model.Session
import Verif.Spec.Pieces
import Verif.Spec.Quadric
import Verif.Spec.Remesh
/-
Conditions on the calls of a program that works on a mesh.
-/
namespace TinyMesh
variable {F : Type}

/-- What the library demands of a call without checking it: an edge to be flipped has triangles on both sides, twice the number of
iterations fits into `int`, the difference of the number of faces and the target fits into `int`, and a queue yields only what has been put into
it. Indices need not be in range. -/
def Call.Fits (m : Mesh F) : Call F → Prop
  | .flip i => ∀ h, 0 ≤ i → m.hes[i.toNat]? = some h → m.OnTri h ∧ m.OnTri (m.hRev h)
  | .taubin _ _ n => 2 * n ≤ 2147483647
  | .simplify _ ord target _ => (m.fs.length : Int) - target ≤ 2147483647 ∧ ∀ n l, ∀ c ∈ ord n l, c ∈ l
  | _ => True

/-- Every call fits at the time it is made. -/
def Permitted [Scalar F] : Mesh F → List (Call F) → Prop
  | _, [] => True
  | m, c :: cs => c.Fits m ∧ ∀ m', c.run m = .ok () m' → Permitted m' cs

/-- What a call in exact arithmetic has to meet so that no check of the library can fail: indices are in range, numbers are finite, weights
are uniform, the target is not zero and the linear solver is exact. -/
def Call.Sound (m : Mesh XR) : Call XR → Prop
  | .split i => 0 ≤ i ∧ i < m.hes.length
  | .collapse i => 0 ≤ i ∧ i < m.hes.length
  | .flip i => 0 ≤ i ∧ i < m.hes.length
  | .lock i _ => 0 ≤ i ∧ i < m.vs.length
  | .place i x => (0 ≤ i ∧ i < m.vs.length) ∧ ∃ w : Vec3 ℝ, x = w.fin
  | .laplacian eps cotan _ => (∃ r, eps = XR.fin r) ∧ cotan = false
  | .taubin shrink inflate _ => (∃ r, shrink = XR.fin r) ∧ ∃ r, inflate = XR.fin r
  | .remesh _ _ _ _ _ => True
  | .simplify S _ target _ => S.Exact ∧ target ≠ 0

/-- Every call fits and is sound at the time it is made. -/
def Careful : Mesh XR → List (Call XR) → Prop
  | _, [] => True
  | m, c :: cs => (c.Fits m ∧ c.Sound m) ∧ ∀ m', c.run m = .ok () m' → Careful m' cs

end TinyMesh
