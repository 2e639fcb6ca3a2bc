import Verif.Spec.Average
import Verif.Spec.Pieces
/-
What repeated uniform smoothing tends to.
-/
namespace TinyMesh
variable {F : Type}

/-- the sum of the squared lengths of all half-edges -/
noncomputable def Mesh.stretch (m : Mesh F) (p : Nat → E3) : ℝ :=
  (m.hes.map fun h => ‖p (m.hSrc h) - p (m.hSrc (m.hNext h))‖ ^ 2).sum

open Classical in
/-- the mean of the positions of the vertices in the piece of `v`, weighted by their degrees -/
noncomputable def Mesh.hub (m : Mesh F) (v : Nat) (p : Nat → E3) : E3 :=
  (((m.vs.filter fun u => decide (m.Together v u)).map fun u => (m.outDeg u : ℝ)).sum)⁻¹ •
    ((m.vs.filter fun u => decide (m.Together v u)).map fun u => (m.outDeg u : ℝ) • p u).sum

/-- On the piece of `v`, `h` is `p` at pinned vertices and the mean of its neighbours at all others. -/
structure Mesh.Harmonic (m : Mesh F) (v : Nat) (p h : Nat → E3) : Prop where
  pinned : ∀ u, m.vAlive u = true → m.Together v u → m.Pinned u → h u = p u
  mean : ∀ u, m.vAlive u = true → m.Together v u → ¬ m.Pinned u → h u = m.centroid h u

end TinyMesh
