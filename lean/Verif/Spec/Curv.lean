import Verif.Model.Curv
import Verif.Spec.Denoise
import Verif.Spec.Fairing
import Mathlib.Geometry.Euclidean.Angle.Unoriented.Affine
/-
Vertex normals, areas and curvatures in exact arithmetic.
-/
namespace TinyMesh

/-- cotangent of the angle `a b c`, regularised as in the code -/
noncomputable def cotReg (a b c : E3) : ℝ := inner ℝ (a - b) (c - b) / (‖triNormal b a c‖ + 1 / 10 ^ 20)

/-- no angle of the triangle exceeds a right angle -/
def NotObtuse (a b c : E3) : Prop := 0 ≤ inner ℝ (b - a) (c - a) ∧ 0 ≤ inner ℝ (c - b) (a - b) ∧ 0 ≤ inner ℝ (a - c) (b - c)

open Classical in
/-- the mixed area of the corner `a` of a triangle: its part of the Voronoi cell of `a`; for an obtuse triangle half of the
triangle at the obtuse angle and a quarter at the others -/
noncomputable def mixedArea (a b c : E3) : ℝ :=
  if NotObtuse a b c then (‖b - a‖ ^ 2 * cotReg a c b + ‖c - a‖ ^ 2 * cotReg a b c) / 8
  else if inner ℝ (b - a) (c - a) < 0 then triArea a b c / 2 else triArea a b c / 4

section
variable {F : Type} (m : Mesh F) (p : Nat → E3)

/-- the half-edges that leave `v` -/
def Mesh.outs (v : Nat) : List Nat := m.hes.filter fun h => m.hSrc h == v

/-- the sum of the normals of the faces at `v`, each divided by the squares of the lengths of the two edges at `v` -/
noncomputable def Mesh.maxSum (v : Nat) : E3 :=
  ((m.outs v).map fun h => (‖p (m.hSrc (m.hNext h)) - p v‖ ^ 2 * ‖p (m.hSrc (m.hNext (m.hNext h))) - p v‖ ^ 2)⁻¹ •
    triNormal (p v) (p (m.hSrc (m.hNext h))) (p (m.hSrc (m.hNext (m.hNext h))))).sum

/-- the angle of the face of `h` at the start of `h` -/
noncomputable def Mesh.cornerAng (h : Nat) : ℝ :=
  EuclideanGeometry.angle (p (m.hSrc (m.hNext h))) (p (m.hSrc h)) (p (m.hSrc (m.hNext (m.hNext h))))

/-- the sum of the angles at `v` -/
noncomputable def Mesh.angleSum (v : Nat) : ℝ := ((m.outs v).map fun h => m.cornerAng p h).sum

/-- the mixed area of the face of `h` at the start of `h` -/
noncomputable def Mesh.cornerMix (h : Nat) : ℝ :=
  mixedArea (p (m.hSrc h)) (p (m.hSrc (m.hNext h))) (p (m.hSrc (m.hNext (m.hNext h))))

/-- the sum of the mixed areas at `v` -/
noncomputable def Mesh.mixedSum (v : Nat) : ℝ :=
  ((m.outs v).map fun h => mixedArea (p v) (p (m.hSrc (m.hNext h))) (p (m.hSrc (m.hNext (m.hNext h))))).sum

/-- the sum of the cotangents of the two angles opposite to the edge of `h` -/
noncomputable def Mesh.edgeCot (h : Nat) : ℝ :=
  cotReg (p (m.hSrc h)) (p (m.hSrc (m.hNext (m.hNext h)))) (p (m.hSrc (m.hNext h))) +
    cotReg (p (m.hSrc h)) (p (m.hSrc (m.hNext (m.hNext (m.hRev h))))) (p (m.hSrc (m.hNext h)))

/-- the sum of the edges at `v`, weighted with the cotangents -/
noncomputable def Mesh.cotLap (v : Nat) : E3 := ((m.outs v).map fun h => m.edgeCot p h • (p (m.hSrc (m.hNext h)) - p v)).sum

/-- all faces at `v` are triangles -/
def Mesh.TriRing (v : Nat) : Prop := ∀ h, m.hAlive h = true → m.hSrc h = v → m.OnTri h

/-- the triangle of `h` has positive area -/
def Mesh.Fat (h : Nat) : Prop :=
  triNormal (p (m.hSrc h)) (p (m.hSrc (m.hNext h))) (p (m.hSrc (m.hNext (m.hNext h)))) ≠ 0

/-- the sum of the areas of the triangles -/
noncomputable def Mesh.totalArea : ℝ := (m.fs.map fun f => triArea (p (m.hSrc (m.fHe f))) (p (m.hSrc (m.hNext (m.fHe f))))
  (p (m.hSrc (m.hNext (m.hNext (m.fHe f)))))).sum

/-- a closed triangle mesh: every face is a triangle of positive area, none stands for a hole -/
def Mesh.Closed : Prop := ∀ h, m.hAlive h = true → m.OnTri h ∧ m.Fat p h

/-- `v` and its neighbours lie on the sphere with centre `c` and radius `r` -/
def Mesh.OnSphere (c : E3) (r : ℝ) (v : Nat) : Prop :=
  ‖p v - c‖ = r ∧ ∀ h, m.hAlive h = true → m.hSrc h = v → ‖p (m.hSrc (m.hNext h)) - c‖ = r

/-- the faces at `v` turn their front side away from `c` -/
def Mesh.Outward (c : E3) (v : Nat) : Prop := ∀ h, m.hAlive h = true → m.hSrc h = v →
  0 < inner ℝ (triNormal (p v) (p (m.hSrc (m.hNext h))) (p (m.hSrc (m.hNext (m.hNext h))))) (p v - c)

end
/-- by how much the map with the symmetric matrix `a b; b c` in the axes `u`, `v` misses the change `d` of the normal along the edge `e` -/
noncomputable def shapeErr (u v : E3) (a b c : ℝ) (e d : E3) : ℝ :=
  (a * inner ℝ e u + b * inner ℝ e v - inner ℝ d u) ^ 2 + (b * inner ℝ e u + c * inner ℝ e v - inner ℝ d v) ^ 2

/-- the same for the three edges of a triangle with corners `x` and normals `n` -/
noncomputable def shapeEnergy (u v x0 x1 x2 n0 n1 n2 : E3) (a b c : ℝ) : ℝ :=
  shapeErr u v a b c (x2 - x1) (n2 - n1) + shapeErr u v a b c (x0 - x2) (n0 - n2) + shapeErr u v a b c (x1 - x0) (n1 - n0)

/-- by how much the cubic form `a b c d` in the axes `u`, `v` misses the change `m` of the second fundamental form along the edge `e`; the
entry in the middle occurs twice in the form -/
noncomputable def cubicErr (u v : E3) (a b c d : ℝ) (e : E3) (m : ℝ × ℝ × ℝ) : ℝ :=
  (a * inner ℝ e u + b * inner ℝ e v - m.1) ^ 2 + 2 * (b * inner ℝ e u + c * inner ℝ e v - m.2.1) ^ 2 +
    (c * inner ℝ e u + d * inner ℝ e v - m.2.2) ^ 2

/-- the same for the three edges of a triangle with corners `x` and forms `m` -/
noncomputable def cubicEnergy (u v x0 x1 x2 : E3) (m0 m1 m2 : ℝ × ℝ × ℝ) (a b c d : ℝ) : ℝ :=
  cubicErr u v a b c d (x2 - x1) (m2 - m1) + cubicErr u v a b c d (x0 - x2) (m0 - m2) + cubicErr u v a b c d (x1 - x0) (m1 - m0)

/-- the symmetric bilinear form with the matrix `a b; b c` in the axes `u`, `v` -/
noncomputable def formOn (u v : E3) (a b c : ℝ) (x y : E3) : ℝ :=
  a * (inner ℝ x u * inner ℝ y u) + b * (inner ℝ x u * inner ℝ y v + inner ℝ x v * inner ℝ y u) + c * (inner ℝ x v * inner ℝ y v)

/-- `Q` takes the plane of the unit normal `n` to that of the unit normal `n'`: the identity for angles below 1e-12, otherwise a rotation
that takes `n` to `n'` -/
def TurnsTo (n n' : E3) (Q : E3 → E3) : Prop :=
  (InnerProductGeometry.angle n n' < 1 / 10 ^ 12 → ∀ x, Q x = x) ∧
  (1 / 10 ^ 12 ≤ InnerProductGeometry.angle n n' → Q n = n' ∧ ∃ A ∈ Matrix.specialOrthogonalGroup (Fin 3) ℝ, ∀ x, (Q x).ofLp = A.mulVec x.ofLp)

section
variable {F : Type} (m : Mesh F) (p : Nat → E3)

/-- the unit normal at `v` -/
noncomputable def Mesh.vNormal (v : Nat) : E3 := unitOf (m.maxSum p v)

/-- the misfit of a symmetric map to the vertex normals of the triangle `f` -/
noncomputable def Mesh.shapeAt (f : Nat) (u v : E3) (a b c : ℝ) : ℝ :=
  let v0 := m.hSrc (m.fHe f)
  let v1 := m.hSrc (m.hNext (m.fHe f))
  let v2 := m.hSrc (m.hNext (m.hNext (m.fHe f)))
  shapeEnergy u v (p v0) (p v1) (p v2) (m.vNormal p v0) (m.vNormal p v1) (m.vNormal p v2) a b c

/-- the form of the face `f`: the one symmetric form on its plane that fits the changes of the vertex normals along its edges best -/
def Mesh.FaceForm (f : Nat) (B : E3 → E3 → ℝ) : Prop :=
  ∃ (u v : E3) (a b c : ℝ), Orthonormal ℝ ![u, v, unitOf (m.areaVec p f)] ∧ B = formOn u v a b c ∧
    ∀ a' b' c', m.shapeAt p f u v a b c ≤ m.shapeAt p f u v a' b' c' ∧
      (m.shapeAt p f u v a' b' c' ≤ m.shapeAt p f u v a b c → a' = a ∧ b' = b ∧ c' = c)

/-- the sum of the normal at `v` and those of its neighbours, weighted by distance -/
noncomputable def Mesh.blurSum (v : Nat) : E3 := m.vNormal p v + ((m.outs v).map fun h =>
  Real.exp (-(1 / 2) * (‖p v - p (m.hSrc (m.hNext h))‖ / m.meanLen p) ^ 2) • m.vNormal p (m.hSrc (m.hNext h))).sum

/-- the direction of the first edge at `v` -/
noncomputable def Mesh.firstDir (v : Nat) : E3 := unitOf (p (m.hSrc (m.hNext (m.vHe v))) - p v)

/-- what `getCurvatureTensors` needs: triangles of positive area, normals at all vertices, also after blurring, a first edge that is not
parallel to the normal, and no face whose normal is opposite to that of one of its corners -/
structure Mesh.CurvProper : Prop where
  closed : m.Closed p
  normal : ∀ v, m.vAlive v = true → m.maxSum p v ≠ 0
  blur : ∀ v, m.vAlive v = true → m.blurSum p v ≠ 0
  first : ∀ v, m.vAlive v = true → triNormal 0 (m.vNormal p v) (m.firstDir p v) ≠ 0
  turn : ∀ h, m.hAlive h = true → unitOf (m.areaVec p (m.hFace h)) ≠ -m.vNormal p (m.hSrc h)

/-- the tensor and frame of the vertex `v`: the axes are the direction `u` of the first edge, the direction of the product of the normal
and `u`, and the normal; the entries are the means, weighted by the mixed areas, of the forms of the faces at `v` for the axes turned
into the planes of these faces -/
def Mesh.TensorAt (v : Nat) (r : Mat2 XR × LFrame XR) : Prop :=
  ∃ (u v' n : Vec3 ℝ) (a b c : ℝ), r = (⟨.fin a, .fin b, .fin b, .fin c⟩, ⟨u.fin, v'.fin, n.fin⟩) ∧
    n.E = m.vNormal p v ∧ u.E = m.firstDir p v ∧ v'.E = unitOf (triNormal 0 (m.vNormal p v) (m.firstDir p v)) ∧
    ∃ (B : Nat → E3 → E3 → ℝ) (Q : Nat → E3 → E3), (∀ h, m.hAlive h = true → m.hSrc h = v →
        m.FaceForm p (m.hFace h) (B h) ∧ TurnsTo n.E (unitOf (m.areaVec p (m.hFace h))) (Q h)) ∧
      a = ((m.outs v).map fun h => m.cornerMix p h * B h (Q h u.E) (Q h u.E)).sum / m.mixedSum p v ∧
      b = ((m.outs v).map fun h => m.cornerMix p h * B h (Q h u.E) (Q h v'.E)).sum / m.mixedSum p v ∧
      c = ((m.outs v).map fun h => m.cornerMix p h * B h (Q h v'.E) (Q h v'.E)).sum / m.mixedSum p v

/-- a closed triangle mesh inscribed in the sphere with centre `c` and radius `r`, every triangle of which faces outwards -/
structure Mesh.Inscribed (c : E3) (r : ℝ) : Prop where
  tri : ∀ h, m.hAlive h = true → m.OnTri h
  sphere : ∀ v, m.vAlive v = true → ‖p v - c‖ = r
  out : ∀ v, m.vAlive v = true → m.Outward p c v

end
end TinyMesh
