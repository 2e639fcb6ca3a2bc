import Verif.Spec.Smooth
import Verif.Spec.Geom
/-
Uniform smoothing in exact arithmetic.
-/
namespace TinyMesh

/-- all live vertices have finite positions, given by `p` -/
def Mesh.AtE (m : Mesh XR) (p : Nat → E3) : Prop := ∀ v, m.vAlive v = true → (m.vPos v).Is (p v)

/-- the mean of the positions at the far ends of the half-edges that leave `v` -/
noncomputable def Mesh.centroid {F : Type} (m : Mesh F) (p : Nat → E3) (v : Nat) : E3 :=
  (m.outDeg v : ℝ)⁻¹ • ((m.hes.filter fun h => m.hSrc h == v).map fun h => p (m.hSrc (m.hNext h))).sum

open Classical in
/-- one step of uniform smoothing: a vertex that is not pinned goes the fraction `eps` of the way to the mean of its neighbours -/
noncomputable def Mesh.average {F : Type} (m : Mesh F) (eps : ℝ) (p : Nat → E3) : Nat → E3 :=
  fun v => if m.Pinned v then p v else p v + eps • (m.centroid p v - p v)

/-- `n` steps of Taubin smoothing from step `it` on: even steps shrink, odd ones inflate -/
noncomputable def Mesh.taubin {F : Type} (m : Mesh F) (shrink inflate : ℝ) (it : Nat) : Nat → (Nat → E3) → Nat → E3
  | 0, p => p
  | n + 1, p => m.taubin shrink inflate (it + 1) n (m.average (if it % 2 = 0 then shrink else -inflate) p)

end TinyMesh
