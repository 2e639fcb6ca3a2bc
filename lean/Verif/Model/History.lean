import Verif.Model.Ops
/-
Sequences of calls of the local edits.
-/
namespace TinyMesh
variable {F : Type} [Scalar F]

/-- One call of a local edit with a pointer to a half-edge (mesh.h:40-42). -/
inductive Edit where
  | split (h : Nat)
  | collapse (h : Nat)
  | flip (h : Nat)

/-- The call itself; see `splitHE`, `collapseHE`, `flipHE`. See mesh.cpp:562-932. -/
def Edit.run : Edit → M F Bool
  | .split h => splitHE h
  | .collapse h => collapseHE h
  | .flip h => flipHE h

/-- A client that makes the calls one after the other and collects the returned values. See a client of mesh.h:40-42. -/
def runEdits : List Edit → M F (List Bool)
  | [] => pure []
  | e :: es => do
    let b ← e.run
    let bs ← runEdits es
    pure (b :: bs)

end TinyMesh
