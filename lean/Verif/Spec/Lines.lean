import Verif.Model.Lines
import Verif.Spec.Curv
/-
Ridge and valley lines in exact arithmetic.
-/
namespace TinyMesh

/-- a solver that finds the solution of every regular symmetric system of finite numbers -/
def LinSolve.ExactSym (solve : LinSolve XR) : Prop :=
  ∀ (n : Nat) (A : Matrix (Fin n) (Fin n) ℝ) (b : Fin n → ℝ) (A' : Nat → Nat → XR) (b' : Nat → XR), A.IsSymm → A.det ≠ 0 →
    (∀ i j : Fin n, A' i j = .fin (A i j)) → (∀ i : Fin n, b' i = .fin (b i)) →
    ∃ x : Fin n → ℝ, A.mulVec x = b ∧ ∀ i : Fin n, solve n A' b' i = .fin (x i)

/-- data at the vertices: the principal curvatures, the direction of the larger one, and its derivative in that direction -/
structure CurvData where
  kMax : Nat → ℝ
  kMin : Nat → ℝ
  dir : Nat → E3
  slope : Nat → ℝ

namespace CurvData
variable (c : CurvData) (p : Nat → E3)

/-- the two principal curvatures differ -/
def Distinct (v : Nat) : Prop := 1 / 100 ≤ |c.kMax v - c.kMin v|

/-- the derivative changes its sign between `u` and `v`, once the directions point to the same side -/
def Crosses (u v : Nat) : Prop :=
  0 ≤ inner ℝ (c.dir u) (c.dir v) ∧ c.slope u * c.slope v < 0 ∨ inner ℝ (c.dir u) (c.dir v) < 0 ∧ 0 < c.slope u * c.slope v

/-- a ridge crosses the edge: the maximal curvature dominates at both ends and grows towards the inside of the edge from both ends -/
structure Ridge (u v : Nat) : Prop where
  distinct : c.Distinct u ∧ c.Distinct v
  crosses : c.Crosses u v
  convex : |c.kMin u| < c.kMax u ∧ |c.kMin v| < c.kMax v
  grows : 0 < c.slope u * inner ℝ (p v - p u) (c.dir u) ∧ 0 < c.slope v * inner ℝ (p u - p v) (c.dir v)

/-- a valley crosses the edge: the minimal curvature dominates at both ends, and the maximal curvature falls towards the inside of the edge
from both ends -/
structure Valley (u v : Nat) : Prop where
  distinct : c.Distinct u ∧ c.Distinct v
  crosses : c.Crosses u v
  concave : c.kMax u < |c.kMin u| ∧ c.kMax v < |c.kMin v|
  falls : c.slope u * inner ℝ (p v - p u) (c.dir u) < 0 ∧ c.slope v * inner ℝ (p u - p v) (c.dir v) < 0

end CurvData

section
variable {F : Type} (m : Mesh F) (p : Nat → E3) (c : CurvData)

/-- a ridge, or a valley, crosses an edge of the face `f` -/
def Mesh.HasRidge (f : Nat) : Prop := ∃ h, m.hAlive h = true ∧ m.hFace h = f ∧ c.Ridge p (m.hSrc h) (m.hSrc (m.hNext h))
def Mesh.HasValley (f : Nat) : Prop := ∃ h, m.hAlive h = true ∧ m.hFace h = f ∧ c.Valley p (m.hSrc h) (m.hSrc (m.hNext h))

open Classical in
/-- `1` for a face crossed by valleys only, `-1` for a face crossed by ridges only, otherwise `0` -/
noncomputable def Mesh.faceKind (f : Nat) : Int :=
  if m.HasValley p c f ∧ ¬m.HasRidge p c f then 1 else if m.HasRidge p c f ∧ ¬m.HasValley p c f then -1 else 0

/-- `h` runs along a line: its face is plain, and of the faces next to it just the one across `h` is crossed by a ridge or valley -/
structure Mesh.LineEdge (h : Nat) : Prop where
  alive : m.hAlive h = true
  plain : m.faceKind p c (m.hFace h) = 0
  across : m.faceKind p c (m.hFace (m.hRev h)) ≠ 0
  only : ∀ x, m.hAlive x = true → m.hFace x = m.hFace h → x ≠ h → m.faceKind p c (m.hFace (m.hRev x)) = 0

/-- the unit vector in the plane of the triangle of `h` that is perpendicular to `h` and points to its inside -/
noncomputable def Mesh.inward (h : Nat) : E3 :=
  let e1 := p (m.hSrc (m.hNext h)) - p (m.hSrc h)
  let e2 := p (m.hSrc (m.hNext (m.hNext h))) - p (m.hSrc h)
  unitOf (e2 - (inner ℝ e1 e2 / ‖e1‖ ^ 2) • e1)

/-- `v` lies on a line -/
def Mesh.OnLine (v : Nat) : Prop := ∃ h, m.LineEdge p c h ∧ (m.hSrc h = v ∨ m.hSrc (m.hNext h) = v)

open Classical in
/-- the half-edges at `v` along lines -/
noncomputable def Mesh.linesAt (v : Nat) : List Nat :=
  m.hes.filter fun h => decide (m.LineEdge p c h ∧ (m.hSrc h = v ∨ m.hSrc (m.hNext h) = v))

/-- the mean direction away from the valleys and towards the ridges at `v` -/
noncomputable def Mesh.lineMeanDir (v : Nat) : E3 :=
  ((m.linesAt p c v).length : ℝ)⁻¹ • ((m.linesAt p c v).map fun h => (m.faceKind p c (m.hFace (m.hRev h)) : ℝ) • m.inward p h).sum

open Classical in
/-- the same with length one, unless it is too short -/
noncomputable def Mesh.lineDir (v : Nat) : E3 :=
  if 1 / 10 ^ 8 < ‖m.lineMeanDir p c v‖ then unitOf (m.lineMeanDir p c v) else m.lineMeanDir p c v

/-- `x` is the direction on the lines and harmonic elsewhere -/
structure Mesh.LineHarmonic (x : Nat → E3) : Prop where
  onLine : ∀ v, m.vAlive v = true → m.OnLine p c v → x v = m.lineDir p c v
  off : ∀ v, m.vAlive v = true → ¬m.OnLine p c v → ((m.outs v).map fun h => m.cotOf p h • (x v - x (m.hSrc (m.hNext h)))).sum = 0

/-- edges of positive weight lead from `v` to a vertex with `S` -/
inductive Mesh.Linked (S : Nat → Prop) : Nat → Prop
  | here {v : Nat} : S v → Mesh.Linked S v
  | step {h : Nat} : m.hAlive h = true → 0 < m.cotOf p h → Mesh.Linked S (m.hSrc (m.hNext h)) → Mesh.Linked S (m.hSrc h)

/-- the cotangent weights are not negative, and edges of positive weight lead from every vertex to a line -/
structure Mesh.LineProper : Prop where
  nonneg : ∀ h, m.hAlive h = true → 0 ≤ m.cotOf p h
  linked : ∀ v, m.vAlive v = true → m.Linked p (m.OnLine p c) v

end

/-- the arrays hold the curvature data of the vertices -/
def Mesh.HoldsCurv (m : Mesh XR) (c : CurvData) (ks : List (Principal XR)) (es : List (XR × XR)) : Prop :=
  ∀ (i : Nat) v, m.vs[i]? = some v → ∃ k x, ks[i]? = some k ∧ es[i]? = some x ∧
    k.kMax = .fin (c.kMax v) ∧ k.kMin = .fin (c.kMin v) ∧ k.tMax.Is (c.dir v) ∧ x.1 = .fin (c.slope v)

open Classical in
/-- the rows that belong to the directions `x` off the lines -/
def Mesh.LineRows (m : Mesh XR) (p : Nat → E3) (c : CurvData) (x : Nat → E3) (r : List (Vec3 XR × XR)) : Prop :=
  r.length = m.vs.length ∧ ∀ (i : Nat) v, m.vs[i]? = some v → ∃ d, d.Is (if m.OnLine p c v then m.lineDir p c v else unitOf (x v)) ∧
    r[i]? = some (d, .fin (if m.OnLine p c v then 1 else 0))

end TinyMesh
