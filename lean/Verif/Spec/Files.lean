/-
File names with an extension.
-/
namespace TinyMesh

/-- The path `s` leads to a file called `b.x`, in the current or some other directory, with a non-empty `b`. -/
def Named (s x : List Char) : Prop :=
  ∃ d b : List Char, s = d ++ b ++ '.' :: x ∧ b ≠ [] ∧ '/' ∉ b ∧ (d = [] ∨ ∃ d', d = d' ++ ['/'])

end TinyMesh
