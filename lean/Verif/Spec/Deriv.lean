import Verif.Spec.Curv
/-
Tensors at the vertices of a mesh: what smoothing and differentiation mean.
-/
namespace TinyMesh

/-- a symmetric tensor `a b; b c` in the axes `u`, `v`, and the normal `n` -/
structure VertTensor where
  u : Vec3 ℝ
  v : Vec3 ℝ
  n : Vec3 ℝ
  a : ℝ
  b : ℝ
  c : ℝ

/-- as an entry of the arrays of tensors and frames -/
def VertTensor.row (t : VertTensor) : Mat2 XR × LFrame XR := (⟨.fin t.a, .fin t.b, .fin t.b, .fin t.c⟩, ⟨t.u.fin, t.v.fin, t.n.fin⟩)

/-- the bilinear form -/
noncomputable def VertTensor.form (t : VertTensor) : E3 → E3 → ℝ := formOn t.u.E t.v.E t.a t.b t.c

/-- the quadratic form in the plane -/
def VertTensor.quad (t : VertTensor) (x y : ℝ) : ℝ := t.a * x ^ 2 + 2 * t.b * (x * y) + t.c * y ^ 2

section
variable {F : Type} (m : Mesh F) (p : Nat → E3)

/-- the weight of the neighbour at the end of `h` -/
noncomputable def Mesh.nearWeight (h : Nat) : ℝ := Real.exp (-(1 / 2) * (‖p (m.hSrc h) - p (m.hSrc (m.hNext h))‖ / m.meanLen p) ^ 2)

/-- the mean of the value `x` at `v` and the values `y` of its neighbours -/
noncomputable def Mesh.nearMean (v : Nat) (x : ℝ) (y : Nat → ℝ) : ℝ :=
  (x + ((m.outs v).map fun h => m.nearWeight p h * y h).sum) / (1 + ((m.outs v).map (m.nearWeight p)).sum)

/-- `t` is the tensor that results from smoothing at `v`: it has the old axes, and its entries are the means of the entries of the tensors
of `v` and its neighbours for the axes of `v` turned into the planes of the neighbours -/
def Mesh.SmoothedAt (T : Nat → VertTensor) (v : Nat) (t : VertTensor) : Prop :=
  t.u = (T v).u ∧ t.v = (T v).v ∧ t.n = (T v).n ∧ ∃ Q : Nat → E3 → E3,
    (∀ h, m.hAlive h = true → m.hSrc h = v → TurnsTo t.n.E (T (m.hSrc (m.hNext h))).n.E (Q h)) ∧
    t.a = m.nearMean p v (T v).a (fun h => (T (m.hSrc (m.hNext h))).form (Q h t.u.E) (Q h t.u.E)) ∧
    t.b = m.nearMean p v (T v).b (fun h => (T (m.hSrc (m.hNext h))).form (Q h t.u.E) (Q h t.v.E)) ∧
    t.c = m.nearMean p v (T v).c (fun h => (T (m.hSrc (m.hNext h))).form (Q h t.v.E) (Q h t.v.E))

end

/-- the curvatures and directions of a vertex -/
structure VertCurv where
  kMax : ℝ
  kMin : ℝ
  tMax : Vec3 ℝ
  tMin : Vec3 ℝ

/-- as an entry of the arrays of curvatures and directions -/
def VertCurv.row (k : VertCurv) : Principal XR := ⟨.fin k.kMax, .fin k.kMin, k.tMax.fin, k.tMin.fin⟩

/-- `k` are the eigenvalues of the tensor `t` in order; the directions are zero if these are close to each other, otherwise the first is an
eigenvector in the axes `u`, `v` (for the minimum: see C38) and the second is perpendicular to it and the normal -/
def VertTensor.HasCurv (t : VertTensor) (k : VertCurv) : Prop :=
  k.kMin ≤ k.kMax ∧ k.kMax + k.kMin = t.a + t.c ∧ k.kMax * k.kMin = t.a * t.c - t.b * t.b ∧
  (k.kMax - k.kMin < 1 / 10 ^ 6 → k.tMax.E = 0 ∧ k.tMin.E = 0) ∧
  (1 / 10 ^ 6 ≤ k.kMax - k.kMin → ∃ x y : ℝ, x * x + y * y = 1 ∧ Mat2.Eigen ⟨t.a, t.b, t.b, t.c⟩ k.kMin x y ∧
    k.tMax.E = x • t.u.E + y • t.v.E ∧ k.tMin.E = unitOf (triNormal 0 t.n.E k.tMax.E))

/-- the second fundamental form with the curvatures `k` -/
noncomputable def VertCurv.form (k : VertCurv) : E3 → E3 → ℝ := formOn k.tMax.E k.tMin.E k.kMax 0 k.kMin

/-- the symmetric trilinear form with the coefficients `a b c d` in the axes `u`, `v` -/
noncomputable def cubicOn (u v : E3) (a b c d : ℝ) (x y z : E3) : ℝ :=
  a * (inner ℝ x u * inner ℝ y u * inner ℝ z u) +
  b * (inner ℝ x v * inner ℝ y u * inner ℝ z u + inner ℝ x u * inner ℝ y v * inner ℝ z u + inner ℝ x u * inner ℝ y u * inner ℝ z v) +
  c * (inner ℝ x v * inner ℝ y v * inner ℝ z u + inner ℝ x v * inner ℝ y u * inner ℝ z v + inner ℝ x u * inner ℝ y v * inner ℝ z v) +
  d * (inner ℝ x v * inner ℝ y v * inner ℝ z v)

section
variable {F : Type} (m : Mesh F) (p : Nat → E3)

/-- the second fundamental form of a corner for the axes `u`, `v` of a face, turned by `Q` -/
noncomputable def VertCurv.corner (k : VertCurv) (Q : E3 → E3) (u v : E3) : ℝ × ℝ × ℝ := (k.form (Q u) (Q u), k.form (Q u) (Q v), k.form (Q v) (Q v))

/-- the misfit of a cubic form to the changes of the second fundamental forms along the edges of the triangle `f` -/
noncomputable def Mesh.cubicAt (K : Nat → VertCurv) (f : Nat) (Q0 Q1 Q2 : E3 → E3) (u v : E3) (a b c d : ℝ) : ℝ :=
  let v0 := m.hSrc (m.fHe f)
  let v1 := m.hSrc (m.hNext (m.fHe f))
  let v2 := m.hSrc (m.hNext (m.hNext (m.fHe f)))
  cubicEnergy u v (p v0) (p v1) (p v2) ((K v0).corner Q0 u v) ((K v1).corner Q1 u v) ((K v2).corner Q2 u v) a b c d

/-- the derivative of the second fundamental form on the face `f`: the one symmetric trilinear form on its plane that fits the changes of
the forms of its corners, turned into its plane, along its edges best -/
def Mesh.FaceCubic (K : Nat → VertCurv) (f : Nat) (B : E3 → E3 → E3 → ℝ) : Prop :=
  ∃ (Q0 Q1 Q2 : E3 → E3) (u v : E3) (a b c d : ℝ), Orthonormal ℝ ![u, v, unitOf (m.areaVec p f)] ∧ B = cubicOn u v a b c d ∧
    TurnsTo (unitOf (m.areaVec p f)) (m.vNormal p (m.hSrc (m.fHe f))) Q0 ∧
    TurnsTo (unitOf (m.areaVec p f)) (m.vNormal p (m.hSrc (m.hNext (m.fHe f)))) Q1 ∧
    TurnsTo (unitOf (m.areaVec p f)) (m.vNormal p (m.hSrc (m.hNext (m.hNext (m.fHe f))))) Q2 ∧
    ∀ a' b' c' d', m.cubicAt p K f Q0 Q1 Q2 u v a b c d ≤ m.cubicAt p K f Q0 Q1 Q2 u v a' b' c' d' ∧
      (m.cubicAt p K f Q0 Q1 Q2 u v a' b' c' d' ≤ m.cubicAt p K f Q0 Q1 Q2 u v a b c d → a' = a ∧ b' = b ∧ c' = c ∧ d' = d)

/-- `e` are the derivatives of the curvatures of `v` in their directions: the means, weighted by the mixed areas, of the derivatives on the
faces at `v` for the axes turned into the planes of these faces, evaluated in the two directions -/
def Mesh.DerivAt (T : Nat → VertTensor) (K : Nat → VertCurv) (v : Nat) (e : ℝ × ℝ) : Prop :=
  ∃ (B : Nat → E3 → E3 → E3 → ℝ) (Q : Nat → E3 → E3), (∀ h, m.hAlive h = true → m.hSrc h = v →
      m.FaceCubic p K (m.hFace h) (B h) ∧ TurnsTo (T v).n.E (unitOf (m.areaVec p (m.hFace h))) (Q h)) ∧
    ∃ a b c d : ℝ, a = ((m.outs v).map fun h => m.cornerMix p h * B h (Q h (T v).u.E) (Q h (T v).u.E) (Q h (T v).u.E)).sum / m.mixedSum p v ∧
      b = ((m.outs v).map fun h => m.cornerMix p h * B h (Q h (T v).u.E) (Q h (T v).u.E) (Q h (T v).v.E)).sum / m.mixedSum p v ∧
      c = ((m.outs v).map fun h => m.cornerMix p h * B h (Q h (T v).u.E) (Q h (T v).v.E) (Q h (T v).v.E)).sum / m.mixedSum p v ∧
      d = ((m.outs v).map fun h => m.cornerMix p h * B h (Q h (T v).v.E) (Q h (T v).v.E) (Q h (T v).v.E)).sum / m.mixedSum p v ∧
      e.1 = cubicOn (T v).u.E (T v).v.E a b c d (K v).tMax.E (K v).tMax.E (K v).tMax.E ∧
      e.2 = cubicOn (T v).u.E (T v).v.E a b c d (K v).tMin.E (K v).tMin.E (K v).tMin.E

end
end TinyMesh
