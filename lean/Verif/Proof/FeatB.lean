import Verif.Proof.FeatA
import Mathlib.LinearAlgebra.UnitaryGroup
import Mathlib.LinearAlgebra.Matrix.Determinant.Basic
/-
Rotations and dihedral angles in exact arithmetic.
-/
namespace TinyMesh

/-! ### rotations -/

theorem rotAxis_fin (θ : ℝ) (w : Vec3 ℝ) : ∀ i j, rotAxis (XR.fin θ) w.fin i j = XR.fin (rotAxis θ w i j) := by
  intro i j
  unfold rotAxis
  simp only [X_sin, X_cos, X_lit, X_sub]
  fin_cases i <;> fin_cases j <;> rfl

/-- `I + s K + t K²` -/
def rotMat (s t x y z : ℝ) : Matrix (Fin 3) (Fin 3) ℝ :=
  !![1 - t * (y * y + z * z), -(s * z) + t * x * y, s * y + t * x * z;
    s * z + t * x * y, 1 - t * (x * x + z * z), -(s * x) + t * y * z;
    -(s * y) + t * x * z, s * x + t * y * z, 1 - t * (x * x + y * y)]

theorem rotAxis_def (θ : ℝ) (w : Vec3 ℝ) : (Matrix.of (rotAxis θ w) : Matrix (Fin 3) (Fin 3) ℝ) =
    rotMat (Real.sin θ) (1 - Real.cos θ) w.x w.y w.z := by
  ext i j
  rw [show (Matrix.of (rotAxis θ w) : Matrix (Fin 3) (Fin 3) ℝ) i j = rotAxis θ w i j from rfl]
  fin_cases i <;> fin_cases j <;>
    simp [rotAxis, Mat3.add, Mat3.mul, Mat3.scale, Mat3.one, crossMat, R_lit0, R_lit1, R_sin, R_cos, Matrix.mul_apply,
      Fin.sum_univ_three, Matrix.one_apply, rotMat] <;> ring

theorem rotAxis_mem (θ : ℝ) {w : Vec3 ℝ} (hw : w.dot w = 1) :
    Matrix.of (rotAxis θ w) ∈ Matrix.specialOrthogonalGroup (Fin 3) ℝ := by
  rw [Vec3.dot_def] at hw
  have hsc := Real.sin_sq_add_cos_sq θ
  rw [rotAxis_def]
  generalize Real.sin θ = s at *
  generalize Real.cos θ = c at *
  obtain ⟨x, y, z⟩ := w
  simp only at hw ⊢
  obtain ⟨t, rfl⟩ : ∃ t, c = 1 - t := ⟨1 - c, by ring⟩
  rw [sub_sub_cancel]
  have hz : 2 * t - s * s - t * t * (x * x + y * y + z * z) = 0 := by
    rw [hw]; linear_combination -hsc
  rw [Matrix.mem_specialOrthogonalGroup_iff, Matrix.mem_orthogonalGroup_iff]
  constructor
  · ext i j
    fin_cases i <;> fin_cases j <;>
      simp [rotMat, Matrix.mul_apply, Fin.sum_univ_three, Matrix.one_apply]
    · linear_combination (-(y * y) - z * z) * hz
    · linear_combination (x * y) * hz
    · linear_combination (x * z) * hz
    · linear_combination (x * y) * hz
    · linear_combination (-(x * x) - z * z) * hz
    · linear_combination (y * z) * hz
    · linear_combination (x * z) * hz
    · linear_combination (y * z) * hz
    · linear_combination (-(x * x) - y * y) * hz
  · have e : (1 - t * (x * x + y * y + z * z)) * (1 - t * (x * x + y * y + z * z)) + s * s * (x * x + y * y + z * z) = 1 := by
      rw [hw]; linear_combination hsc
    rw [← e, Matrix.det_fin_three]
    simp only [rotMat, Matrix.of_apply, Matrix.cons_val]
    ring

theorem arg_unit {x y : ℝ} (h : x * x + y * y = 1) (hy : 0 ≤ y) :
    0 ≤ Complex.arg ⟨x, y⟩ ∧ Real.cos (Complex.arg ⟨x, y⟩) = x ∧ Real.sin (Complex.arg ⟨x, y⟩) = y := by
  have hn : ‖(⟨x, y⟩ : ℂ)‖ = 1 := by
    rw [Complex.norm_def, Complex.normSq_mk, h, Real.sqrt_one]
  have h0 : (⟨x, y⟩ : ℂ) ≠ 0 := by intro e; rw [e] at hn; simp at hn
  refine ⟨Complex.arg_nonneg_iff.2 hy, ?_, ?_⟩
  · rw [Complex.cos_arg h0, hn]; simp
  · rw [Complex.sin_arg, hn]; simp

theorem lagrange (a b : Vec3 ℝ) : a.dot b * a.dot b + (a.cross b).dot (a.cross b) = a.dot a * b.dot b := by
  simp only [Vec3.cross_def, Vec3.dot_def]; ring

/-- the outcome of `rotationFromTwoVectors` for unit vectors -/
theorem rotTwo_ok {a b : Vec3 ℝ} (ha : a.dot a = 1) (hb : b.dot b = 1) : ∃ θ : ℝ, 0 ≤ θ ∧ Real.cos θ = a.dot b ∧
    Real.sin θ = (a.cross b).length ∧ θ = Complex.arg ⟨a.dot b, (a.cross b).length⟩ ∧
    (θ < 1 / 10 ^ 12 → rotTwo a.fin b.fin = some Mat3.one) ∧
    (1 / 10 ^ 12 ≤ θ → (a.cross b).length = 0 → rotTwo a.fin b.fin = none) ∧
    (1 / 10 ^ 12 ≤ θ → (a.cross b).length ≠ 0 → ∃ w : Vec3 ℝ, w.dot w = 1 ∧
      a.cross b = w.smul (a.cross b).length ∧ rotTwo a.fin b.fin = some (rotAxis (.fin θ) w.fin)) := by
  have hL := lagrange a b
  rw [ha, hb, ← Vec3.length_sq] at hL
  obtain ⟨h0, hc, hs⟩ := arg_unit (by linarith : a.dot b * a.dot b + (a.cross b).length * (a.cross b).length = 1) (a.cross b).length_nonneg
  refine ⟨Complex.arg ⟨a.dot b, (a.cross b).length⟩, h0, hc, hs, rfl, ?_, ?_, ?_⟩
  · intro h
    unfold rotTwo
    simp only [Vec3.X_vcross, Vec3.X_vlength, Vec3.X_vdot, X_atan2, X_abs, X_lit, X_lt]
    rw [if_pos ((R_lt _ _).2 (by rw [abs_of_nonneg h0, R_lit]; norm_num at h ⊢; exact h))]
  all_goals
    intro h hz
    unfold rotTwo
    simp only [Vec3.X_vcross, Vec3.X_vlength, Vec3.X_vdot, X_atan2, X_abs, X_lit, X_lt]
    rw [if_neg (by rw [R_lt, abs_of_nonneg h0, R_lit]; norm_num at h ⊢; exact h)]
  · classical
    rw [Vec3.X_vnormalize, Vec3.normalize?_def, if_pos (Vec3.length_eq_zero _ |>.1 hz)]; rfl
  · classical
    rw [Vec3.X_vnormalize, Vec3.normalize?_def, if_neg (fun e => hz (Vec3.length_eq_zero _ |>.2 e))]
    have hq := Vec3.length_sq (a.cross b)
    set L := (a.cross b).length
    refine ⟨⟨(a.cross b).x / L, (a.cross b).y / L, (a.cross b).z / L⟩, ?_, ?_, rfl⟩
    · rw [Vec3.dot_def] at hq ⊢
      field_simp
      linear_combination -hq
    · apply Vec3.ext' <;> simp only [Vec3.smul_def] <;> field_simp

/-- the rotation about the normalised cross product by the angle between them takes the first vector to the second -/
theorem rot_maps {a b w : Vec3 ℝ} {θ : ℝ} (ha : a.dot a = 1) (hw : w.dot w = 1)
    (hc : Real.cos θ = a.dot b) (hs : Real.sin θ = (a.cross b).length) (he : a.cross b = w.smul (a.cross b).length)
    (hn : (a.cross b).length ≠ 0) : (rotAxis θ w).apply a = b := by
  generalize (a.cross b).length = L at *
  have hwx : a.y * b.z - a.z * b.y = w.x * L := congrArg Vec3.x he
  have hwy : a.z * b.x - a.x * b.z = w.y * L := congrArg Vec3.y he
  have hwz : a.x * b.y - a.y * b.x = w.z * L := congrArg Vec3.z he
  rw [Vec3.dot_def] at ha hw hc
  have hwa : w.x * a.x + w.y * a.y + w.z * a.z = 0 := by
    apply mul_right_cancel₀ hn
    linear_combination (-a.x) * hwx - a.y * hwy - a.z * hwz
  apply Vec3.ext'
  all_goals
    simp only [Mat3.apply, rotAxis, Mat3.add, Mat3.mul, Mat3.scale, Mat3.one, crossMat, R_lit0, R_lit1, R_sin, R_cos]
    simp
  · linear_combination (w.y * a.z - w.z * a.y) * hs + (1 - Real.cos θ) * w.x * hwa - (1 - Real.cos θ) * a.x * hw +
      a.x * hc - a.z * hwy + a.y * hwz + b.x * ha
  · linear_combination (w.z * a.x - w.x * a.z) * hs + (1 - Real.cos θ) * w.y * hwa - (1 - Real.cos θ) * a.y * hw +
      a.y * hc - a.x * hwz + a.z * hwx + b.y * ha
  · linear_combination (w.x * a.y - w.y * a.x) * hs + (1 - Real.cos θ) * w.z * hwa - (1 - Real.cos θ) * a.z * hw +
      a.z * hc - a.y * hwx + a.x * hwy + b.z * ha

theorem apply_E (A : Mat3 ℝ) (v : Vec3 ℝ) : (Matrix.of A).mulVec v.E.ofLp = (A.apply v).E.ofLp := by
  ext i
  have : ∀ i j, (Matrix.of A : Matrix (Fin 3) (Fin 3) ℝ) i j = A i j := fun _ _ => rfl
  fin_cases i <;> simp [Matrix.mulVec, dotProduct, Fin.sum_univ_three, Mat3.apply, Vec3.E, this]

/-! ### dihedral angles -/

open Classical in
theorem dihedral_ok (a b c d : Vec3 ℝ) : Vec3.dihedral a.fin b.fin c.fin d.fin =
    .fin (if triNormal a.E b.E c.E = 0 ∨ triNormal d.E b.E c.E = 0 then 0
      else InnerProductGeometry.angle (triNormal a.E b.E c.E) (triNormal d.E b.E c.E)) := by
  rw [triNormal_E, triNormal_E]
  unfold Vec3.dihedral
  simp only [Vec3.X_vsub, Vec3.X_vcross, Vec3.X_vlength, Vec3.X_vdot, X_lit, X_eq]
  generalize (b.sub a).cross (c.sub a) = n
  generalize (b.sub d).cross (c.sub d) = k
  have z : ∀ v : Vec3 ℝ, v.E = 0 ↔ v.length = 0 := fun v => by rw [← Vec3.E_norm, norm_eq_zero]
  by_cases h : n.length = 0 ∨ k.length = 0
  · rw [if_pos (by rw [Bool.or_eq_true, R_eq, R_eq, R_lit0]; exact h), if_pos (by rw [z, z]; exact h), R_lit0]
  · rw [if_neg (by rw [Bool.or_eq_true, R_eq, R_eq, R_lit0]; exact h), if_neg (by rw [z, z]; exact h)]
    rw [not_or] at h
    rw [X_mul, X_div _ (mul_ne_zero h.1 h.2), X_fmin, X_fmax]
    have hi := abs_le.1 (abs_real_inner_div_norm_mul_norm_le_one n.E k.E)
    rw [Vec3.E_inner, Vec3.E_norm, Vec3.E_norm] at hi
    have e : (fmax (Scalar.lit (-1) 1) (fmin (n.dot k / (n.length * k.length)) (Scalar.lit 1 1)) : ℝ) =
        n.dot k / (n.length * k.length) := by
      rw [R_fmin, R_fmax, R_lit1, R_lit, min_eq_left hi.2]
      push_cast
      rw [max_eq_right (by linarith [hi.1])]
    rw [e, X_acos hi.1 hi.2, InnerProductGeometry.angle, Vec3.E_inner, Vec3.E_norm, Vec3.E_norm]

theorem triNormal_swap (p q r : E3) : triNormal p r q = -triNormal p q r := by
  unfold triNormal
  rw [← cross_anticomm]; rfl

end TinyMesh
