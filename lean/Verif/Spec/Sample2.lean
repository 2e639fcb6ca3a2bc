import Verif.Spec.Sample
import Verif.Model.IO
import Verif.Model.History
/-
Sample meshes for the local edits.
-/
set_option maxRecDepth 100000
namespace TinyMesh.Sample
attribute [local instance] ratScalar

/-- run `f` on the resulting mesh and look at the mesh before, the value and the mesh after -/
def thenSt {F α β : Type} (f : Mesh F → Out F β) (p : Mesh F → β → Mesh F → Bool) : Out F α → Bool
  | .ok _ m => match f m with
    | .ok b m' => p m b m'
    | .err _ => false
  | .err _ => false

theorem thenSt_iff {F α β : Type} {f : Mesh F → Out F β} {p : Mesh F → β → Mesh F → Bool} {o : Out F α}
    (h : thenSt f p o = true) : ∃ a m b m', o = .ok a m ∧ f m = .ok b m' ∧ p m b m' = true := by
  cases o with
  | err e => cases h
  | ok a m =>
    simp only [thenSt] at h
    split at h
    · next b m' e => exact ⟨a, m, b, m', rfl, e, h⟩
    · cases h

theorem rat_eq (p : Vec3 Rat) : p.eq p = true := by
  unfold Vec3.eq
  have : ∀ a : Rat, Scalar.eq a a = true := fun a => decide_eq_true rfl
  rw [this, this, this]; rfl

/-- icosahedron (closed, all degrees are five) -/
def icoV : List (Vec3 Rat) := [pt 0 2 3, pt 0 (-2) 3, pt 0 2 (-3), pt 0 (-2) (-3),
  pt 2 3 0, pt (-2) 3 0, pt 2 (-3) 0, pt (-2) (-3) 0, pt 3 0 2, pt 3 0 (-2), pt (-3) 0 2, pt (-3) 0 (-2)]
def icoI : List Nat := [0, 1, 8, 0, 10, 1, 0, 8, 4, 0, 4, 5, 0, 5, 10, 1, 6, 8, 1, 7, 6, 1, 10, 7, 8, 9, 4, 8, 6, 9,
  10, 5, 11, 10, 11, 7, 4, 2, 5, 4, 9, 2, 5, 2, 11, 6, 7, 3, 6, 3, 9, 7, 11, 3, 2, 9, 3, 2, 3, 11]

/-- flat patch; its first edge is an interior edge that joins two vertices of the boundary -/
def patV : List (Vec3 Rat) := [pt (-2) 0 0, pt 2 0 0, pt 0 2 0, pt 0 (-2) 0, pt (-2) 3 0, pt 2 3 0, pt 0 5 0,
  pt (-2) (-3) 0, pt 2 (-3) 0, pt 0 (-5) 0, pt 3 6 0, pt (-3) (-6) 0, pt 3 (-6) 0]
def patI : List Nat := [0, 1, 2, 1, 0, 3, 0, 2, 4, 2, 1, 5, 2, 5, 6, 2, 6, 4, 0, 7, 3, 1, 3, 8, 3, 9, 8, 3, 7, 9,
  6, 5, 10, 9, 7, 11, 8, 9, 12]

/-- flat strip; its first edge lies on the boundary and its ends have degree five -/
def wingV : List (Vec3 Rat) := [pt 0 0 0, pt 2 0 0, pt 1 2 0, pt (-1) 2 0, pt (-2) 1 0, pt (-2) (-1) 0, pt 3 2 0,
  pt 4 1 0, pt 4 (-1) 0]
def wingI : List Nat := [0, 1, 2, 0, 2, 3, 0, 3, 4, 0, 4, 5, 1, 6, 2, 1, 7, 6, 1, 8, 7]

end TinyMesh.Sample
