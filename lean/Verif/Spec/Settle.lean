import Verif.Spec.Front
import Verif.Spec.Lines
/-
Which vertices lie inside a filled hole, and where they should go.
-/
namespace TinyMesh
variable {F : Type}

/-- `v` can be reached from `s` along edges whose ends are not locked -/
inductive Mesh.FreePath (m : Mesh F) (s : Nat) : Nat → Prop
  | here : Mesh.FreePath m s s
  | step {h : Nat} : Mesh.FreePath m s (m.hSrc h) → m.hAlive h = true → m.vLock (m.hSrc (m.hNext h)) = false →
      Mesh.FreePath m s (m.hSrc (m.hNext h))

/-- `v` can be reached from a corner of `f` through vertices that are not locked -/
def Mesh.Inside (m : Mesh F) (f v : Nat) : Prop := ∃ s, m.CornerOf f s ∧ m.vLock s = false ∧ m.FreePath s v

/-! ### Normals, rotations and positions -/

/-- the cross product -/
noncomputable def crossE (a b : E3) : E3 := WithLp.toLp 2 (crossProduct a.ofLp b.ofLp)

section
variable (m : Mesh F) (p : Nat → E3)

/-- one half of the vector at `v` and one half of the weighted mean of the vectors at its neighbours -/
noncomputable def Mesh.blend (N : Nat → E3) (v : Nat) : E3 :=
  (1 / 2 : ℝ) • N v + (1 / 2 : ℝ) • ((m.weightOut (m.cotOf p) v)⁻¹ • ((m.outs v).map fun h => m.cotOf p h • N (m.hSrc (m.hNext h))).sum)

/-- the normals of the listed vertices are replaced one after the other -/
noncomputable def Mesh.blendAll : List Nat → (Nat → E3) → Nat → E3
  | [], N => N
  | v :: vs, N => Mesh.blendAll vs (Function.update N v (unitOf (m.blend p N v)))

/-- the normals before the first round: zero outside of the list -/
noncomputable def Mesh.startNormals (vs : List Nat) (v : Nat) : E3 := if v ∈ vs then unitOf (m.maxSum p v) else 0

/-- the normal of the vertex is not defined: a neighbour at the same place, or a sum of zero -/
def Mesh.NoNormal (v : Nat) : Prop :=
  (∃ h, m.hAlive h = true ∧ m.hSrc h = v ∧ (p (m.hSrc (m.hNext h)) = p v ∨ p (m.hSrc (m.hNext (m.hNext h))) = p v)) ∨ m.maxSum p v = 0

/-- some normal of the round is not defined -/
def Mesh.BlendFails : List Nat → (Nat → E3) → Prop
  | [], _ => False
  | v :: vs, N => m.weightOut (m.cotOf p) v = 0 ∨ m.blend p N v = 0 ∨ Mesh.BlendFails vs (Function.update N v (unitOf (m.blend p N v)))

/-- the normals after a thousand rounds -/
noncomputable def Mesh.endNormals (vs : List Nat) : Nat → E3 := (m.blendAll p vs)^[1000] (m.startNormals p vs)

/-- the sum of the vectors at the corners of the triangle `f` -/
def Mesh.cornerSum (N : Nat → E3) (f : Nat) : E3 :=
  N (m.hSrc (m.fHe f)) + N (m.hSrc (m.hNext (m.fHe f))) + N (m.hSrc (m.hNext (m.hNext (m.fHe f))))

/-- the linear map of the code for two unit vectors `n0`, `n1`: Rodrigues' formula with the axis `n0 × n1` as it is. With an axis of length
one it would be the rotation that takes `n0` to `n1`. -/
noncomputable def tilt (n0 n1 x : E3) : E3 :=
  x + ‖crossE n0 n1‖ • crossE (crossE n0 n1) x + (1 - inner ℝ n0 n1) • crossE (crossE n0 n1) (crossE (crossE n0 n1) x)

/-- the vector in the plane of the triangle that is perpendicular to the side from `y` to `z`, as long as this side, and points away from `x` -/
noncomputable def awayOf (x y z : E3) : E3 := ‖z - y‖ • unitOf ((inner ℝ (z - y) (x - y) / ‖z - y‖ ^ 2) • (z - y) - (x - y))

/-- the same for the start of the half-edge `h` and its triangle -/
noncomputable def Mesh.away (h : Nat) : E3 := awayOf (p (m.hSrc h)) (p (m.hSrc (m.hNext h))) (p (m.hSrc (m.hNext (m.hNext h))))

/-- the Laplacian with cotangent weights -/
noncomputable def Mesh.lap (x : Nat → E3) (v : Nat) : E3 := ((m.outs v).map fun h => m.cotOf p h • (x v - x (m.hSrc (m.hNext h)))).sum

/-- the mean over the triangles at `v` of half the vectors away from `v`, each turned by the map of its face -/
noncomputable def Mesh.meanAway (R : Nat → E3 → E3) (v : Nat) : E3 :=
  ((m.outs v).length : ℝ)⁻¹ • ((m.outs v).map fun h => (1 / 2 : ℝ) • R (m.hFace h) (m.away p h)).sum

/-- the map of the code for the face `f`: it should turn the normal of `f` into the direction of the normals of its corners -/
noncomputable def Mesh.faceTilt (N : Nat → E3) (f : Nat) : E3 → E3 := tilt (unitOf (m.areaVec p f)) (unitOf (m.cornerSum N f))

/-- the new normals or the rotations of the faces at the vertices of `vs` are not defined -/
def Mesh.SettleFails (vs : List Nat) : Prop :=
  (∃ v ∈ vs, m.NoNormal p v) ∨ (∃ i < 1000, m.BlendFails p vs ((m.blendAll p vs)^[i] (m.startNormals p vs))) ∨
    ∃ h, m.hAlive h = true ∧ m.hSrc h ∈ vs ∧ (m.areaVec p (m.hFace h) = 0 ∨ m.cornerSum (m.endNormals p vs) (m.hFace h) = 0)

/-- the weights at the vertices of `S` are not negative, and edges of positive weight lead from each of them to a vertex outside of `S` -/
structure Mesh.Anchored (S : Nat → Prop) : Prop where
  nonneg : ∀ h, m.hAlive h = true → S (m.hSrc h) → 0 ≤ m.cotOf p h
  linked : ∀ v, m.vAlive v = true → S v → m.Linked p (fun u => ¬ S u) v

end

end TinyMesh
