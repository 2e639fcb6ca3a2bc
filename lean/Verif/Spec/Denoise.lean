import Verif.Spec.Operators
import Verif.Spec.Feature
import Verif.Spec.Average
import Mathlib.Analysis.SpecialFunctions.Trigonometric.Basic
/-
Normal based denoising in exact arithmetic.
-/
namespace TinyMesh
open Classical

/-- the weight of the distance `x` for the scale `σ` -/
noncomputable def kernelAt (σ x : ℝ) : ℝ :=
  if x < 2 * σ then Real.exp (-(x ^ 2 / σ ^ 2)) / (Real.sqrt (2 * Real.pi) * σ)
  else if x < 4 * σ then (4 - x / σ) ^ 4 / (16 * Real.exp 2) / (Real.sqrt (2 * Real.pi) * σ) else 0

/-- the vector of length one in the direction of `x`; zero for zero -/
noncomputable def unitOf (x : E3) : E3 := ‖x‖⁻¹ • x

section
variable {F : Type} (m : Mesh F) (p : Nat → E3)

/-- normal of the triangle `f`, twice as long as its area -/
noncomputable def Mesh.areaVec (f : Nat) : E3 :=
  triNormal (p (m.hSrc (m.fHe f))) (p (m.hSrc (m.hNext (m.fHe f)))) (p (m.hSrc (m.hNext (m.hNext (m.fHe f)))))

noncomputable def Mesh.areaAt (f : Nat) : ℝ := ‖m.areaVec p f‖ / 2

/-- centre of gravity of the corners of the triangle `f` -/
noncomputable def Mesh.centerOf (f : Nat) : E3 :=
  (3 : ℝ)⁻¹ • (p (m.hSrc (m.fHe f)) + p (m.hSrc (m.hNext (m.fHe f))) + p (m.hSrc (m.hNext (m.hNext (m.fHe f)))))

/-- the weight of the face `g` in the normal of the face `f`: its area, times the weight of the distance of the centres, for the bilateral
filter also times the weight of the distance of the normals -/
noncomputable def Mesh.normalWeight (bilateral : Bool) (σ σn : ℝ) (f g : Nat) : ℝ :=
  m.areaAt p g * kernelAt σ (dist (m.centerOf p f) (m.centerOf p g)) *
    if bilateral then kernelAt σn (dist (unitOf (m.areaVec p f)) (unitOf (m.areaVec p g))) else 1

/-- the filtered normal of `f`: the direction of the weighted sum of the normals of the faces on the other side of its edges -/
noncomputable def Mesh.filteredNormal (bilateral : Bool) (σ σn : ℝ) (f : Nat) : E3 :=
  unitOf ((m.hes.filter fun h => m.hFace h == f).map fun h =>
    m.normalWeight p bilateral σ σn f (m.hFace (m.hRev h)) • unitOf (m.areaVec p (m.hFace (m.hRev h)))).sum

/-- the denoised position of `v`, for given unit normals `n` of the faces: the mean, weighted by area, of the projections of `p v` to the
planes through the centres of the faces at `v` -/
noncomputable def Mesh.projected (n : Nat → E3) (v : Nat) : E3 :=
  p v + (((m.hes.filter fun h => m.hSrc h == v).map fun h => m.areaAt p (m.hFace h)).sum)⁻¹ •
    ((m.hes.filter fun h => m.hSrc h == v).map fun h =>
      (m.areaAt p (m.hFace h) * inner ℝ (n (m.hFace h)) (m.centerOf p (m.hFace h) - p v)) • n (m.hFace h)).sum

/-- one round of denoising -/
noncomputable def Mesh.denoised (bilateral : Bool) (σ σn : ℝ) : Nat → E3 := m.projected p (m.filteredNormal p bilateral σ σn)

/-- `n` iterations of the denoising filters: Taubin smoothing, then a round of denoising -/
noncomputable def Mesh.denoise (bilateral : Bool) (σ σn : ℝ) : Nat → Nat → E3
  | 0 => p
  | n + 1 => m.denoised (m.taubin (1 / 2) (53 / 100) 0 6 (Mesh.denoise bilateral σ σn n)) bilateral σ σn

/-- every face is a triangle with positive area -/
structure Mesh.Solid : Prop where
  tri : ∀ f, m.fAlive f = true → m.OnTri (m.fHe f)
  area : ∀ f, m.fAlive f = true → m.areaVec p f ≠ 0

end
end TinyMesh
