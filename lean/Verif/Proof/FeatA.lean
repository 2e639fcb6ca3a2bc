import Verif.Spec.Feature
import Verif.Proof.Tri
import Mathlib.Tactic.LinearCombination
import Mathlib.Geometry.Euclidean.Angle.Unoriented.Basic
import Mathlib.Analysis.SpecialFunctions.Trigonometric.Bounds
/-
Principal curvatures, rotations and dihedral angles in exact arithmetic.
-/
namespace TinyMesh

theorem triNormal_E (a b c : Vec3 ℝ) : triNormal a.E b.E c.E = ((b.sub a).cross (c.sub a)).E := by
  unfold triNormal
  rw [← Vec3.E_sub, ← Vec3.E_sub, cross_apply]
  apply Vec3.E_ext <;> simp [Vec3.cross_def, Vec3.E]

theorem triArea_E (a b c : Vec3 ℝ) : triArea a.E b.E c.E = ((b.sub a).cross (c.sub a)).length / 2 := by
  rw [← Vec3.E_norm, ← triNormal_E]; rfl

/-! ### principal curvatures -/

theorem jacobi_ok (M : Mat2 ℝ) : ∃ c s t : ℝ, jacobi M.fin = (.fin c, .fin s, .fin t) ∧ 0 < c ∧ c * c * (1 + t * t) = 1 ∧
    s = t * c ∧ M.m01 * (1 - t * t) = t * (M.m11 - M.m00) := by
  unfold jacobi Mat2.fin
  simp only [X_lit, X_eq, R_lit0, R_lit1]
  by_cases hb : M.m01 = 0
  · rw [if_pos ((R_eq _ _).2 hb)]
    exact ⟨1, 0, 0, rfl, one_pos, by ring, by ring, by rw [hb]; ring⟩
  rw [if_neg (by rw [R_eq]; exact hb)]
  simp only [X_sub, X_mul, X_div _ hb, X_add]
  set h : ℝ := (Scalar.lit 1 2 : ℝ) * (M.m11 - M.m00) / M.m01 with hh
  have hpos : (0 : ℝ) ≤ 1 + h * h := by nlinarith [mul_self_nonneg h]
  simp only [X_sqrt hpos, X_lt, X_sub, X_add]
  set r := Real.sqrt (1 + h * h) with hr
  have hrr : r * r = 1 + h * h := Real.mul_self_sqrt hpos
  have hr0 : 0 ≤ r := Real.sqrt_nonneg _
  have h2 : M.m01 * (2 * h) = M.m11 - M.m00 := by
    rw [hh, R_lit]; field_simp; norm_num
  have fin : ∀ t : ℝ, t * t + 2 * h * t - 1 = 0 →
      ∃ c s t' : ℝ, (XR.fin 1 / Scalar.sqrt (XR.fin 1 + XR.fin t * XR.fin t),
        XR.fin t * (XR.fin 1 / Scalar.sqrt (XR.fin 1 + XR.fin t * XR.fin t)), XR.fin t) = (XR.fin c, XR.fin s, XR.fin t') ∧
        0 < c ∧ c * c * (1 + t' * t') = 1 ∧ s = t' * c ∧ M.m01 * (1 - t' * t') = t' * (M.m11 - M.m00) := by
    intro t ht
    have ht0 : (0 : ℝ) < 1 + t * t := by nlinarith [mul_self_nonneg t]
    have hs := Real.sqrt_pos.2 ht0
    rw [X_mul, X_add, X_sqrt ht0.le, X_div _ hs.ne', X_mul]
    refine ⟨_, _, t, rfl, by positivity, ?_, rfl, ?_⟩
    · have := Real.mul_self_sqrt ht0.le
      rw [div_mul_div_comm, this]; field_simp
    · rw [← h2]; linear_combination (-M.m01) * ht
  by_cases hl : h < 0
  · have n : h - r ≠ 0 := by intro e; nlinarith
    rw [if_pos ((R_lt _ _).2 hl)]
    simp only [X_div _ n]
    apply fin
    field_simp
    linear_combination -hrr
  · have n : h + r ≠ 0 := by intro e; nlinarith
    rw [if_neg (by rw [R_lt]; exact hl)]
    simp only [X_div _ n]
    apply fin
    field_simp
    linear_combination -hrr

theorem cross_unit {n u : Vec3 ℝ} (hn : n.dot n = 1) (hu : u.dot u = 1) (hnu : n.dot u = 0) :
    (n.cross u).dot (n.cross u) = 1 := by
  have : (n.cross u).dot (n.cross u) = n.dot n * u.dot u - n.dot u * n.dot u := by
    simp only [Vec3.cross_def, Vec3.dot_def]; ring
  rw [this, hn, hu, hnu]; norm_num

theorem normalize_unit {u : Vec3 ℝ} (hu : u.dot u = 1) : u.fin.normalize? = some u.fin := by
  have hl : u.length = 1 := by rw [Vec3.length_def, hu, Real.sqrt_one]
  classical
  rw [Vec3.X_vnormalize, Vec3.normalize?_def, if_neg (by rw [← Vec3.length_eq_zero, hl]; norm_num), hl]
  simp

/-- the outcome of `principal` for a real tensor and an orthonormal frame -/
theorem principal_ok (M : Mat2 ℝ) (hsym : M.m10 = M.m01) {up vp np : Vec3 ℝ} (huu : up.dot up = 1) (hvv : vp.dot vp = 1)
    (hnn : np.dot np = 1) (huv : up.dot vp = 0) (hun : np.dot up = 0) (hvn : np.dot vp = 0) :
    ∃ (kmax kmin x y : ℝ), kmin ≤ kmax ∧ kmax + kmin = M.m00 + M.m11 ∧
      kmax * kmin = M.m00 * M.m11 - M.m01 * M.m10 ∧ x * x + y * y = 1 ∧ M.Eigen kmin x y ∧ M.Eigen kmax (-y) x ∧
      (((up.smul x).add (vp.smul y)).dot ((up.smul x).add (vp.smul y)) = 1) ∧
      (np.dot ((up.smul x).add (vp.smul y)) = 0) ∧
      principal M.fin up.fin vp.fin np.fin = if kmax - kmin < 1 / 10 ^ 6 then
        .ok ⟨.fin kmax, .fin kmin, (Vec3.zero : Vec3 ℝ).fin, (Vec3.zero : Vec3 ℝ).fin⟩
        else .ok ⟨.fin kmax, .fin kmin, ((up.smul x).add (vp.smul y)).fin, (np.cross ((up.smul x).add (vp.smul y))).fin⟩ := by
  obtain ⟨c, s, t, hj, hc, hct, hs, hb⟩ := jacobi_ok M
  have dot2 : ∀ x y : ℝ, ((up.smul x).add (vp.smul y)).dot ((up.smul x).add (vp.smul y)) = x * x + y * y := by
    intro x y
    have : ((up.smul x).add (vp.smul y)).dot ((up.smul x).add (vp.smul y)) =
        x * x * up.dot up + 2 * x * y * up.dot vp + y * y * vp.dot vp := by
      simp only [Vec3.dot_def, Vec3.add_def, Vec3.smul_def]; ring
    rw [this, huu, huv, hvv]; ring
  have dotn : ∀ x y : ℝ, np.dot ((up.smul x).add (vp.smul y)) = 0 := by
    intro x y
    have : np.dot ((up.smul x).add (vp.smul y)) = x * np.dot up + y * np.dot vp := by
      simp only [Vec3.dot_def, Vec3.add_def, Vec3.smul_def]; ring
    rw [this, hun, hvn]; ring
  have unit : ∀ x y : ℝ, x * x + y * y = 1 →
      (np.cross ((up.smul x).add (vp.smul y))).fin.normalize? = some (np.cross ((up.smul x).add (vp.smul y))).fin :=
    fun x y hxy => normalize_unit (cross_unit hnn (by rw [dot2, hxy]) (dotn x y))
  have small : ∀ kmin kmax : ℝ, kmin ≤ kmax →
      (Scalar.lt |kmin - kmax| (Scalar.lit 1 (10 ^ 6) : ℝ) = true ↔ kmax - kmin < 1 / 10 ^ 6) := by
    intro kmin kmax hk
    have e : |kmin - kmax| = kmax - kmin := by rw [abs_sub_comm]; exact abs_of_nonneg (by linarith)
    rw [R_lt, e, R_lit]
    norm_num
  have e1 : t * c * (t * c) + c * c = 1 := by linear_combination hct
  by_cases hk : M.m00 - t * M.m01 < M.m11 + t * M.m01
  · refine ⟨M.m11 + t * M.m01, M.m00 - t * M.m01, c, -s, hk.le, by ring, ?_, ?_, ?_, ?_, ?_, dotn _ _, ?_⟩
    · rw [hsym]; linear_combination M.m01 * hb
    · rw [hs]; linear_combination e1
    · refine ⟨Or.inl hc.ne', ?_, ?_⟩
      · rw [hs]; ring
      · rw [hs, hsym]; linear_combination c * hb
    · refine ⟨Or.inr hc.ne', ?_, ?_⟩
      · rw [hs]; linear_combination c * hb
      · rw [hs, hsym]; ring
    · rw [dot2, hs]; linear_combination e1
    · have e : (up.smul c).sub (vp.smul s) = (up.smul c).add (vp.smul (-s)) := by
        simp only [Vec3.sub_def, Vec3.add_def, Vec3.smul_def, Vec3.mk.injEq]
        refine ⟨?_, ?_, ?_⟩ <;> ring
      unfold principal
      rw [hj]
      simp only [Mat2.fin, X_mul, X_sub, X_add, X_lt, (R_lt _ _).2 hk, if_true, Vec3.X_vsmul, Vec3.X_vsub, e,
        Vec3.X_vcross, unit c (-s) (by rw [hs]; linear_combination e1), X_abs, X_lit]
      by_cases h : M.m11 + t * M.m01 - (M.m00 - t * M.m01) < 1 / 10 ^ 6
      · rw [if_pos ((small _ _ hk.le).2 h), if_pos h]; rfl
      · rw [if_neg (fun g => h ((small _ _ hk.le).1 g)), if_neg h]
  · refine ⟨M.m00 - t * M.m01, M.m11 + t * M.m01, s, c, not_lt.1 hk, by ring, ?_, ?_, ?_, ?_, ?_, dotn _ _, ?_⟩
    · rw [hsym]; linear_combination M.m01 * hb
    · rw [hs]; linear_combination e1
    · refine ⟨Or.inr hc.ne', ?_, ?_⟩
      · rw [hs]; linear_combination c * hb
      · rw [hs, hsym]; ring
    · refine ⟨Or.inl (by simpa using hc.ne'), ?_, ?_⟩
      · rw [hs]; ring
      · rw [hs, hsym]; linear_combination (-c) * hb
    · rw [dot2, hs]; linear_combination e1
    · have hk' := not_lt.1 hk
      unfold principal
      rw [hj]
      simp only [Mat2.fin, X_mul, X_sub, X_add, X_lt, (R_lt' _ _).2 hk', Bool.false_eq_true, if_false, Vec3.X_vsmul,
        Vec3.X_vadd, Vec3.X_vcross, unit s c (by rw [hs]; linear_combination e1), X_abs, X_lit]
      by_cases h : M.m00 - t * M.m01 - (M.m11 + t * M.m01) < 1 / 10 ^ 6
      · rw [if_pos ((small _ _ hk').2 h), if_pos h]; rfl
      · rw [if_neg (fun g => h ((small _ _ hk').1 g)), if_neg h]

end TinyMesh
