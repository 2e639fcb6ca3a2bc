import Verif.Model.L0
import Verif.Spec.Fairing
import Verif.Spec.Average
/-
L0 denoising in exact arithmetic: the edge operator and the energy.
-/
namespace TinyMesh
variable {F : Type}

/-- position on the line from `a` to `b` of the foot of the perpendicular through `x`; zero is `a` and one is `b` -/
noncomputable def footAt (a b x : E3) : ℝ := inner ℝ (x - a) (b - a) / ‖b - a‖ ^ 2

/-- a point of the edge `a`, `b`, and of its two tips `c`, `d`: `s` and `t` are the areas of the triangles at `c` and at `d`, each tip
counts with the area of the other triangle -/
noncomputable def tipMean (s t : ℝ) (c d : E3) : E3 := (t / (s + t)) • c + (s / (s + t)) • d

/-- the edge operator for the positions `p`, applied to `q`: the vector from a point of the edge to the weighted mean of the two tips. The
weights and the place of the point on the edge are taken from `p`, where the point is the foot of the perpendicular. -/
noncomputable def Mesh.bendOf (m : Mesh F) (p q : Nat → E3) (h : Nat) : E3 :=
  let a := m.hSrc h
  let b := m.hSrc (m.hNext h)
  let c := m.hSrc (m.hNext (m.hNext h))
  let d := m.hSrc (m.hNext (m.hNext (m.hRev h)))
  let s := m.areaOf p h
  let t := m.areaOf p (m.hRev h)
  let u := footAt (p a) (p b) (tipMean s t (p c) (p d))
  tipMean s t (q c) (q d) - ((1 - u) • q a + u • q b)

/-- the difference of the two diagonals' sums in the two triangles at an edge -/
noncomputable def Mesh.crossOf (m : Mesh F) (q : Nat → E3) (h : Nat) : E3 :=
  q (m.hSrc h) + q (m.hSrc (m.hNext h)) - (q (m.hSrc (m.hNext (m.hNext h))) + q (m.hSrc (m.hNext (m.hNext (m.hRev h)))))

/-- the energy for the target `g`: squared distance from `p0`, `alpha` times the squares of `crossOf`, and `beta` times the squared
distance of the edge operator from the target. Every edge has two half-edges, so the sums are halved. -/
noncomputable def Mesh.l0Energy (m : Mesh F) (p p0 : Nat → E3) (g : Nat → E3) (alpha beta : ℝ) (q : Nat → E3) : ℝ :=
  (m.vs.map fun v => ‖q v - p0 v‖ ^ 2).sum + alpha * ((m.hes.map fun h => ‖m.crossOf q h‖ ^ 2).sum / 2) +
    beta * ((m.hes.map fun h => ‖m.bendOf p q h - g h‖ ^ 2).sum / 2)

open Classical in
/-- the target of an edge: zero if the edge operator is small, otherwise its value -/
noncomputable def Mesh.l0Target (m : Mesh F) (p q : Nat → E3) (t : ℝ) (h : Nat) : E3 :=
  if ‖m.bendOf p q h‖ ^ 2 < t then 0 else m.bendOf p q h

/-- `q'` is the only minimiser of the energy for the targets that `q` has -/
def Mesh.L0Step (m : Mesh F) (p p0 : Nat → E3) (lambda alpha beta : ℝ) (q q' : Nat → E3) : Prop :=
  (∀ r, m.l0Energy p p0 (m.l0Target p q (lambda / beta)) alpha beta q' ≤ m.l0Energy p p0 (m.l0Target p q (lambda / beta)) alpha beta r) ∧
  ∀ r, m.l0Energy p p0 (m.l0Target p q (lambda / beta)) alpha beta r ≤ m.l0Energy p p0 (m.l0Target p q (lambda / beta)) alpha beta q' →
    ∀ v, m.vAlive v = true → r v = q' v

/-- `n` steps; `alpha` is halved and `beta` multiplied with the square root of two after each -/
def Mesh.L0Steps (m : Mesh F) (p p0 : Nat → E3) (lambda : ℝ) : Nat → ℝ → ℝ → (Nat → E3) → (Nat → E3) → Prop
  | 0, _, _, q, q' => ∀ v, m.vAlive v = true → q' v = q v
  | n + 1, alpha, beta, q, q' =>
    ∃ r, m.L0Step p p0 lambda alpha beta q r ∧ m.L0Steps p p0 lambda n (alpha / 2) (beta * Real.sqrt 2) r q'

/-- every edge has a positive length and a triangle of positive area -/
def Mesh.L0Proper (m : Mesh F) (p : Nat → E3) : Prop :=
  ∀ h, m.hAlive h = true → p (m.hSrc h) ≠ p (m.hSrc (m.hNext h)) ∧ 0 < m.areaOf p h + m.areaOf p (m.hRev h)

/-- mean angle of the edges as `getMeanDihedralAngle` has it -/
noncomputable def Mesh.meanAngle (m : Mesh F) (p : Nat → E3) : ℝ := (m.hes.map (m.angleOf p)).sum / m.hes.length

end TinyMesh
