import Verif.Model.Works
import Verif.Spec.Session
/-
Conditions on the calls of a program that works on a mesh with all the filters.
-/
namespace TinyMesh
variable {F : Type}

/-- What the library demands of a call: as `Call.Fits`. A hash set is traversed in some order, each element once. -/
def Work.Fits (m : Mesh F) : Work F → Prop
  | .call c => c.Fits m
  | .l0 _ order _ _ _ => ∀ l, (order l).Perm l
  | _ => True

/-- Every call fits at the time it is made. -/
def WorkPermitted [ScalarX F] : Mesh F → List (Work F) → Prop
  | _, [] => True
  | m, w :: ws => w.Fits m ∧ ∀ m', w.run m = .ok () m' → WorkPermitted m' ws

/-- a call of `denoiseL0Smooth`, whose loop need not end -/
def Work.IsL0 : Work F → Prop
  | .l0 .. => True
  | _ => False

/-- some face of the mesh is not a triangle -/
def Mesh.SomeNotTri (m : Mesh F) : Prop := ∃ f, m.fAlive f = true ∧ m.sides f ≠ 3

end TinyMesh
