import Verif.Model.Exact
import Verif.Spec.Check
import Mathlib.Algebra.Order.Ring.Rat
/-
Sample inputs and the facts about them that the examples beside the theorems use.
-/
set_option maxRecDepth 100000
namespace TinyMesh.Sample
attribute [local instance] ratScalar

theorem law : EqLaw Rat := by
  intro a b c h1 h2
  have h1 : a = c := of_decide_eq_true h1
  have h2 : b = c := of_decide_eq_true h2
  exact decide_eq_true (h1.trans h2.symm)

/-- the tetrahedron after merging: positions in the order of first use, and its triangles -/
def tetP : List (Vec3 Rat) := [pt 0 0 0, pt 0 1 0, pt 1 0 0, pt 0 0 1]
def tetT : List Tri := [⟨0, 1, 2⟩, ⟨0, 2, 3⟩, ⟨2, 1, 3⟩, ⟨1, 0, 3⟩]

theorem tet_valid : ValidInput tetV tetI := validB_iff (by decide +kernel)
theorem tet_merged : Merged tetV tetI tetP (ofTris tetT) := mergedB_iff (by decide +kernel)
theorem tet_manifold : Manifold tetT :=
  manifoldB_iff (fans := [[⟨0, 1, 2⟩, ⟨0, 2, 3⟩, ⟨1, 0, 3⟩], [⟨0, 1, 2⟩, ⟨2, 1, 3⟩, ⟨1, 0, 3⟩],
    [⟨0, 1, 2⟩, ⟨0, 2, 3⟩, ⟨2, 1, 3⟩], [⟨0, 2, 3⟩, ⟨2, 1, 3⟩, ⟨1, 0, 3⟩]]) (by decide +kernel)
theorem tet_closed : ∀ t ∈ tetT, ∀ e ∈ t.edges, ∃ s ∈ tetT, (e.2, e.1) ∈ s.edges := by decide

def stripT : List Tri := [⟨0, 1, 2⟩, ⟨2, 1, 3⟩, ⟨2, 3, 4⟩]
theorem strip_valid : ValidInput stripV stripI := validB_iff (by decide +kernel)
theorem strip_merged : Merged stripV stripI stripV (ofTris stripT) := mergedB_iff (by decide +kernel)
theorem strip_manifold : Manifold stripT :=
  manifoldB_iff (fans := [[⟨0, 1, 2⟩], [⟨0, 1, 2⟩, ⟨2, 1, 3⟩], [⟨0, 1, 2⟩, ⟨2, 1, 3⟩, ⟨2, 3, 4⟩],
    [⟨2, 1, 3⟩, ⟨2, 3, 4⟩], [⟨2, 3, 4⟩]]) (by decide +kernel)
theorem strip_fits : Fits dbl 0 stripT := by decide

/-- two tetrahedra that touch in one vertex -/
def bowV : List (Vec3 Rat) := [pt 0 0 0, pt 0 1 0, pt 1 0 0, pt 0 0 1, pt 0 (-1) 0, pt (-1) 0 0, pt 0 0 (-1)]
def bowT : List Tri := tetT ++ [⟨0, 4, 5⟩, ⟨0, 5, 6⟩, ⟨5, 4, 6⟩, ⟨4, 0, 6⟩]
theorem bow_valid : ValidInput bowV (ofTris bowT) := validB_iff (by decide +kernel)
theorem bow_merged : Merged bowV (ofTris bowT) bowV (ofTris bowT) := mergedB_iff (by decide +kernel)
theorem bow_split : ¬ SingleFan (keepTris [] bowT) 0 :=
  splitB_iff (p := fun t => decide (t.a < 4 ∧ t.b < 4 ∧ t.c < 4)) (t := ⟨0, 1, 2⟩) (s := ⟨0, 4, 5⟩) (by decide +kernel)
theorem bow_proper : ∀ t ∈ bowT, t.proper := by decide
theorem bow_used : ∀ a, a < bowV.length → ∃ t ∈ keepTris [] bowT, t.has a := by decide
theorem bow_fits : Fits dbl 0 (keepTris [] bowT) := by decide

/-- a square and a triangle apart from it -/
def apartV : List (Vec3 Rat) := stripV.take 4 ++ [pt 7 0 0, pt 8 0 0, pt 7 1 0]
def apartI : List Nat := squareI ++ [4, 5, 6]

end TinyMesh.Sample
