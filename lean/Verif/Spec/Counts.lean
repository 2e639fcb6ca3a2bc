import Verif.Spec.Build
import Verif.Spec.Pieces
/-
What a triangle list says about edges, boundary and pieces.
-/
namespace TinyMesh

/-- Some triangle of the list runs from `a` to `b`. -/
def EdgeOf (K : List Tri) (a b : Nat) : Prop := ∃ t ∈ K, (a, b) ∈ t.edges

instance (K : List Tri) (a b : Nat) : Decidable (EdgeOf K a b) := inferInstanceAs (Decidable (∃ t ∈ K, (a, b) ∈ t.edges))

/-- `a` is an end of an edge that belongs to one triangle only. -/
def OnRim (K : List Tri) (a : Nat) : Prop := ∃ b, (EdgeOf K a b ∧ ¬ EdgeOf K b a) ∨ (EdgeOf K b a ∧ ¬ EdgeOf K a b)

end TinyMesh
