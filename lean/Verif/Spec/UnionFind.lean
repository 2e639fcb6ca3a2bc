import Verif.Model.UnionFind
import Mathlib.Logic.Relation
/-
What a union-find tree is for.
-/
namespace TinyMesh

/-- the arguments of a call are elements of a tree with `n` elements -/
def UFOp.inRange (n : Nat) : UFOp → Prop
  | .root x => 0 ≤ x ∧ x < n
  | .merge x y => (0 ≤ x ∧ x < n) ∧ 0 ≤ y ∧ y < n
  | .same x y => (0 ≤ x ∧ x < n) ∧ 0 ≤ y ∧ y < n

/-- two elements are in the same class: the smallest equivalence relation that contains all pairs that have been merged -/
def UFMerged (ops : List UFOp) : Int → Int → Prop := Relation.EqvGen fun x y => UFOp.merge x y ∈ ops

end TinyMesh
