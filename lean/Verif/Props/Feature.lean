import Verif.Proof.FeatD
import Verif.Spec.Report
import Verif.Spec.SampleX
import Mathlib.Analysis.Real.Pi.Bounds
/-
C37-C42, C44, C48, C49: curvature, rotations, areas, angles, weights, signatures, progress, post-increment.
-/
set_option maxRecDepth 100000
namespace TinyMesh
open Orbit

/-! ## C37, C38: principal curvatures -/

theorem frame_dots {u v n : Vec3 ℝ} (h : Orthonormal ℝ ![u.E, v.E, n.E]) : u.dot u = 1 ∧ v.dot v = 1 ∧ n.dot n = 1 ∧
    u.dot v = 0 ∧ n.dot u = 0 ∧ n.dot v = 0 := by
  have h0 : ‖u.E‖ = 1 := h.1 0
  have h1 : ‖v.E‖ = 1 := h.1 1
  have h2 : ‖n.E‖ = 1 := h.1 2
  have e0 : inner ℝ u.E v.E = 0 := h.2 (show (0 : Fin 3) ≠ 1 by decide)
  have e1 : inner ℝ n.E u.E = 0 := h.2 (show (2 : Fin 3) ≠ 0 by decide)
  have e2 : inner ℝ n.E v.E = 0 := h.2 (show (2 : Fin 3) ≠ 1 by decide)
  rw [Vec3.E_inner] at e0 e1 e2
  have sq : ∀ w : Vec3 ℝ, ‖w.E‖ = 1 → w.dot w = 1 := by
    intro w hw
    rw [← Vec3.E_inner, real_inner_self_eq_norm_sq, hw]; norm_num
  exact ⟨sq u h0, sq v h1, sq n h2, e0, e1, e2⟩

/-- C37, partial: for every symmetric tensor and orthonormal frame the reported values are the two eigenvalues, in order, with
the trace as sum and the determinant as product; the two directions are orthonormal and tangent unless the values differ
by less than 1e-6. Missing: directions of nearly umbilic points, which are reported as zero vectors (`c37_umbilic`). -/
theorem c37_principal_partial (M : Mat2 ℝ) (hs : M.m10 = M.m01) (u v n : Vec3 ℝ) (hf : Orthonormal ℝ ![u.E, v.E, n.E]) :
    ∃ P kmax kmin, principal M.fin u.fin v.fin n.fin = .ok P ∧ P.kMax = .fin kmax ∧ P.kMin = .fin kmin ∧
      kmin ≤ kmax ∧ kmax + kmin = M.m00 + M.m11 ∧ kmax * kmin = M.m00 * M.m11 - M.m01 * M.m10 ∧
      (∃ x y, M.Eigen kmax x y) ∧ (∃ x y, M.Eigen kmin x y) ∧
      (1 / 10 ^ 6 ≤ kmax - kmin → ∃ s t, P.tMax.Is s ∧ P.tMin.Is t ∧ Orthonormal ℝ ![s, t, n.E]) := by
  obtain ⟨h1, h2, h3, h4, h5, h6⟩ := frame_dots hf
  obtain ⟨kmax, kmin, x, y, ho, ht, hd, hxy, he1, he2, hu, hn, e⟩ := principal_ok M hs h1 h2 h3 h4 h5 h6
  classical
  by_cases hk : kmax - kmin < 1 / 10 ^ 6
  · rw [if_pos hk] at e
    exact ⟨_, kmax, kmin, e, rfl, rfl, ho, ht, hd, ⟨_, _, he2⟩, ⟨_, _, he1⟩, fun h => absurd hk (not_lt.2 h)⟩
  · rw [if_neg hk] at e
    refine ⟨_, kmax, kmin, e, rfl, rfl, ho, ht, hd, ⟨_, _, he2⟩, ⟨_, _, he1⟩, fun _ =>
      ⟨_, _, ⟨_, rfl, rfl⟩, ⟨_, rfl, rfl⟩, ?_⟩⟩
    generalize (u.smul x).add (v.smul y) = t at *
    have c1 := cross_unit h3 hu hn
    have c2 : t.dot (n.cross t) = 0 := by simp only [Vec3.dot_def, Vec3.cross_def]; ring
    have c3 : n.dot (n.cross t) = 0 := by simp only [Vec3.dot_def, Vec3.cross_def]; ring
    have nrm : ∀ w : Vec3 ℝ, w.dot w = 1 → ‖w.E‖ = 1 := by
      intro w hw; rw [Vec3.E_norm, Vec3.length_def, hw, Real.sqrt_one]
    constructor
    · intro i; fin_cases i
      · exact nrm _ hu
      · exact nrm _ c1
      · exact nrm _ h3
    · intro i j hij
      fin_cases i <;> fin_cases j <;> first
        | exact absurd rfl hij
        | skip
      all_goals
        show inner ℝ _ _ = _
        simp only [Fin.reduceFinMk, Fin.isValue, Matrix.cons_val]
        rw [Vec3.E_inner]
        first | assumption | (rw [Vec3.dot_comm]; assumption)

/-- C37 is false for the directions of an umbilic point: both are the zero vector. -/
theorem c37_umbilic (u v n : Vec3 ℝ) (hf : Orthonormal ℝ ![u.E, v.E, n.E]) :
    ∃ P, principal (Mat2.fin ⟨1, 0, 0, 1⟩) u.fin v.fin n.fin = .ok P ∧ P.tMax.Is 0 ∧ P.tMin.Is 0 := by
  obtain ⟨h1, h2, h3, h4, h5, h6⟩ := frame_dots hf
  obtain ⟨kmax, kmin, x, y, ho, ht, hd, -, -, -, -, -, e⟩ := principal_ok ⟨1, 0, 0, 1⟩ rfl h1 h2 h3 h4 h5 h6
  have hz : (Vec3.zero : Vec3 ℝ).E = 0 := by
    apply Vec3.E_ext <;> simp [Vec3.zero_def]
  classical
  rw [if_pos] at e
  · exact ⟨_, e, ⟨_, rfl, hz⟩, ⟨_, rfl, hz⟩⟩
  · simp only at ht hd
    have : (kmax - kmin) * (kmax - kmin) = 0 := by
      have : kmax = 2 - kmin := by linarith
      subst this; nlinarith
    rw [mul_self_eq_zero.1 this]; positivity

/-- a right-handed orthonormal frame: `v` is `n × u`, as the code computes it (features.cpp:253) -/
structure Frame (u v n : Vec3 ℝ) : Prop where
  on : Orthonormal ℝ ![u.E, v.E, n.E]
  cross : v.E.ofLp = crossProduct n.E.ofLp u.E.ofLp

/-- C38, partial: the two reported directions are eigenvectors, each for the *other* value: the direction of maximum curvature
belongs to the minimum and the direction of minimum curvature to the maximum. Missing: the claim itself, which is false
(`c38_counterexample`). -/
theorem c38_directions_partial (M : Mat2 ℝ) (hs : M.m10 = M.m01) (u v n : Vec3 ℝ) (hf : Frame u v n) :
    ∃ P kmax kmin, principal M.fin u.fin v.fin n.fin = .ok P ∧ P.kMax = .fin kmax ∧ P.kMin = .fin kmin ∧
      (1 / 10 ^ 6 ≤ kmax - kmin → ∃ s t, P.tMax.Is s ∧ P.tMin.Is t ∧ M.EigenDir u.E v.E kmin s ∧
        M.EigenDir u.E v.E kmax t) := by
  obtain ⟨h1, h2, h3, h4, h5, h6⟩ := frame_dots hf.on
  obtain ⟨kmax, kmin, x, y, ho, ht, hd, hxy, he1, he2, hu, hn, e⟩ := principal_ok M hs h1 h2 h3 h4 h5 h6
  classical
  by_cases hk : kmax - kmin < 1 / 10 ^ 6
  · rw [if_pos hk] at e
    exact ⟨_, kmax, kmin, e, rfl, rfl, fun h => absurd hk (not_lt.2 h)⟩
  · rw [if_neg hk] at e
    have hv : v = n.cross u := by
      have := hf.cross
      rw [cross_apply] at this
      have g0 := congrFun this 0
      have g1 := congrFun this 1
      have g2 := congrFun this 2
      simp at g0 g1 g2
      exact Vec3.ext' g0 g1 g2
    refine ⟨_, kmax, kmin, e, rfl, rfl, fun _ => ⟨_, _, ⟨_, rfl, rfl⟩, ⟨_, rfl, rfl⟩, ⟨x, y, ?_, he1⟩, ⟨-y, x, ?_, he2⟩⟩⟩
    · rw [Vec3.E_add, Vec3.E_smul, Vec3.E_smul]
    · rw [← Vec3.E_smul, ← Vec3.E_smul, ← Vec3.E_add, Vec3.E_inj, hv]
      rw [Vec3.dot_def] at h3 h5
      apply Vec3.ext' <;> simp only [Vec3.cross_def, Vec3.add_def, Vec3.smul_def]
      · linear_combination (-y * u.x) * h3 + y * n.x * h5
      · linear_combination (-y * u.y) * h3 + y * n.y * h5
      · linear_combination (-y * u.z) * h3 + y * n.z * h5

theorem Mat2.Eigen.unique {M : Mat2 ℝ} {k l x y : ℝ} (h : M.Eigen k x y) (h' : M.Eigen l x y) : k = l := by
  obtain ⟨h0, h1, h2⟩ := h
  obtain ⟨-, h3, h4⟩ := h'
  rcases h0 with h0 | h0
  · exact mul_right_cancel₀ h0 (by linarith)
  · exact mul_right_cancel₀ h0 (by linarith)

/-- C38 is false for *every* symmetric tensor whose eigenvalues differ by at least 1e-6: the reported direction of maximum
curvature is never an eigenvector for the maximum. -/
theorem c38_counterexample (M : Mat2 ℝ) (hs : M.m10 = M.m01) (u v n : Vec3 ℝ) (hf : Frame u v n) :
    ∃ P kmax kmin, principal M.fin u.fin v.fin n.fin = .ok P ∧ P.kMax = .fin kmax ∧ P.kMin = .fin kmin ∧
      (1 / 10 ^ 6 ≤ kmax - kmin → ∃ s t, P.tMax.Is s ∧ P.tMin.Is t ∧ ¬ M.EigenDir u.E v.E kmax s ∧
        ¬ M.EigenDir u.E v.E kmin t) := by
  obtain ⟨P, kmax, kmin, e, e1, e2, h⟩ := c38_directions_partial M hs u v n hf
  refine ⟨P, kmax, kmin, e, e1, e2, fun hk => ?_⟩
  obtain ⟨s, t, hs, ht, ⟨x, y, e3, h1⟩, ⟨x', y', e4, h2⟩⟩ := h hk
  obtain ⟨d1, d2, -, d3, -, -⟩ := frame_dots hf.on
  have uniq : ∀ a b c d : ℝ, a • u.E + b • v.E = c • u.E + d • v.E → a = c ∧ b = d := by
    intro a b c d h
    have g1 := congrArg (fun p => inner ℝ p u.E) h
    have g2 := congrArg (fun p => inner ℝ p v.E) h
    simp only [inner_add_left, inner_smul_left, Vec3.E_inner, d1, d2, d3, Vec3.dot_comm v u] at g1 g2
    simp at g1 g2
    exact ⟨g1, g2⟩
  have pos : (0 : ℝ) < 1 / 10 ^ 6 := by positivity
  refine ⟨s, t, hs, ht, ?_, ?_⟩
  · rintro ⟨a, b, e5, h3⟩
    obtain ⟨rfl, rfl⟩ := uniq _ _ _ _ (e5.symm.trans e3)
    have := h3.unique h1
    linarith
  · rintro ⟨a, b, e5, h3⟩
    obtain ⟨rfl, rfl⟩ := uniq _ _ _ _ (e5.symm.trans e4)
    have := h3.unique h2
    linarith

/-- the coordinate axes -/
theorem frame_std : Frame ⟨1, 0, 0⟩ ⟨0, 1, 0⟩ ⟨0, 0, 1⟩ where
  on := by
    constructor
    · intro i
      fin_cases i <;> simp [Vec3.E, EuclideanSpace.norm_eq, Fin.sum_univ_three]
    · intro i j hij
      fin_cases i <;> fin_cases j <;> simp_all [Vec3.E, PiLp.inner_apply, Fin.sum_univ_three]
  cross := by
    rw [cross_apply]
    ext i; fin_cases i <;> simp [Vec3.E]

/-- the tensor `diag(1, 2)`: the direction reported for the value 2 is the first axis, which belongs to 1 -/
example : ∃ P kmax kmin, principal (Mat2.fin ⟨1, 0, 0, 2⟩) (Vec3.fin ⟨1, 0, 0⟩) (Vec3.fin ⟨0, 1, 0⟩) (Vec3.fin ⟨0, 0, 1⟩) =
    .ok P ∧ P.kMax = .fin kmax ∧ P.kMin = .fin kmin ∧ kmax = 2 ∧ kmin = 1 ∧
    ∃ s, P.tMax.Is s ∧ ¬ (Mat2.mk 1 0 0 2 : Mat2 ℝ).EigenDir (Vec3.E ⟨1, 0, 0⟩) (Vec3.E ⟨0, 1, 0⟩) 2 s := by
  obtain ⟨P, kmax, kmin, e, e1, e2, ho, ht, hd, -⟩ := c37_principal_partial ⟨1, 0, 0, 2⟩ rfl _ _ _ frame_std.on
  obtain ⟨P', kmax', kmin', e', e1', e2', h⟩ := c38_counterexample ⟨1, 0, 0, 2⟩ rfl _ _ _ frame_std
  rw [e] at e'
  cases e'
  rw [e1] at e1'
  rw [e2] at e2'
  cases e1'
  cases e2'
  simp only at ht hd
  have h2 : kmax = 2 ∧ kmin = 1 := by
    have : (kmax - 2) * (kmax - 1) = 0 := by
      have : kmin = 3 - kmax := by linarith
      subst this; linarith
    rcases mul_eq_zero.1 this with h | h
    · exact ⟨by linarith, by linarith⟩
    · exact absurd ho (by linarith)
  obtain ⟨rfl, rfl⟩ := h2
  obtain ⟨s, t, hs, -, hn, -⟩ := h (by norm_num)
  exact ⟨P, 2, 1, e, e1, e2, rfl, rfl, s, hs, hn⟩

/-! ## C39: rotation of one vector onto another -/

theorem dot_of_unit {a : Vec3 ℝ} (h : ‖a.E‖ = 1) : a.dot a = 1 := by
  rw [← Vec3.E_inner, real_inner_self_eq_norm_sq, h]; norm_num

theorem angle_unit {a b : Vec3 ℝ} (ha : ‖a.E‖ = 1) (hb : ‖b.E‖ = 1) :
    InnerProductGeometry.angle a.E b.E = Complex.arg ⟨a.dot b, (a.cross b).length⟩ := by
  obtain ⟨θ, h0, hc, hs, he, -⟩ := rotTwo_ok (dot_of_unit ha) (dot_of_unit hb)
  rw [← he, InnerProductGeometry.angle, ha, hb, Vec3.E_inner, ← hc]
  rw [mul_one, div_one, Real.arccos_cos h0]
  rw [he]; exact Complex.arg_le_pi _

/-- C39, partial: for unit vectors that are not opposite and enclose an angle of at least 1e-12 the result is a proper rotation
that takes the first vector to the second. Missing: smaller angles, for which the identity is returned
(`c39_close`, `c39_counterexample`). -/
theorem c39_rotation_partial (a b : Vec3 ℝ) (ha : ‖a.E‖ = 1) (hb : ‖b.E‖ = 1) (hop : b.E ≠ -a.E)
    (hang : 1 / 10 ^ 12 ≤ InnerProductGeometry.angle a.E b.E) :
    ∃ R A, rotTwo a.fin b.fin = some R ∧ R.Is A ∧ A ∈ Matrix.specialOrthogonalGroup (Fin 3) ℝ ∧
      A.mulVec a.E.ofLp = b.E.ofLp := by
  have da := dot_of_unit ha
  have db := dot_of_unit hb
  rw [angle_unit ha hb] at hang
  obtain ⟨θ, h0, hc, hs, he, -, -, h⟩ := rotTwo_ok da db
  rw [← he] at hang
  have hL : (a.cross b).length ≠ 0 := by
    intro hz
    rw [hz] at hs
    have lg := lagrange a b
    rw [← Vec3.length_sq, hz, da, db] at lg
    rw [← hc] at lg
    have h2 : (Real.cos θ - 1) * (Real.cos θ + 1) = 0 := by linarith
    rcases mul_eq_zero.1 h2 with h3 | h3
    · have hle : θ ≤ Real.pi := by rw [he]; exact Complex.arg_le_pi _
      have : Real.arccos (Real.cos θ) = θ := Real.arccos_cos h0 hle
      rw [sub_eq_zero.1 h3, Real.arccos_one] at this
      rw [← this] at hang
      norm_num at hang
    · apply hop
      have hd : a.dot b = -1 := by rw [← hc]; linarith
      have : (a.add b).dot (a.add b) = 0 := by
        have : (a.add b).dot (a.add b) = a.dot a + 2 * a.dot b + b.dot b := by
          simp only [Vec3.dot_def, Vec3.add_def]; ring
        rw [this, da, db, hd]; norm_num
      have := (Vec3.dot_self_eq_zero _).1 this
      rw [← Vec3.E_neg, Vec3.E_inj]
      simp only [Vec3.add_def, Vec3.mk.injEq] at this
      apply Vec3.ext' <;> simp only [Vec3.neg_def] <;> linarith [this.1, this.2.1, this.2.2]
  obtain ⟨w, hw, hwe, hr⟩ := h hang hL
  refine ⟨_, Matrix.of (rotAxis θ w), hr, rotAxis_fin θ w, rotAxis_mem θ hw, ?_⟩
  rw [apply_E, rot_maps da hw hc hs hwe hL]

/-- C39: for unit vectors that enclose less than 1e-12 the identity is returned; the error is below 1e-12. -/
theorem c39_close (a b : Vec3 ℝ) (ha : ‖a.E‖ = 1) (hb : ‖b.E‖ = 1)
    (hang : InnerProductGeometry.angle a.E b.E < 1 / 10 ^ 12) :
    ∃ R, rotTwo a.fin b.fin = some R ∧ R.Is 1 ∧ ‖a.E - b.E‖ < 1 / 10 ^ 12 := by
  have da := dot_of_unit ha
  have db := dot_of_unit hb
  rw [angle_unit ha hb] at hang
  obtain ⟨θ, h0, hc, hs, he, h, -⟩ := rotTwo_ok da db
  rw [← he] at hang
  refine ⟨_, h hang, ?_, ?_⟩
  · intro i j
    simp only [Mat3.one, Matrix.one_apply]
    split <;> simp [R_lit]
  · rw [← Vec3.E_sub, Vec3.E_norm]
    have : (a.sub b).length * (a.sub b).length = 2 - 2 * Real.cos θ := by
      rw [Vec3.length_sq, hc]
      have : (a.sub b).dot (a.sub b) = a.dot a - 2 * a.dot b + b.dot b := by
        simp only [Vec3.dot_def, Vec3.sub_def]; ring
      rw [this, da, db]; ring
    have hcos := Real.one_sub_sq_div_two_le_cos (x := θ)
    refine lt_of_le_of_lt ?_ hang
    apply le_of_sq_le_sq _ h0 |> fun h => h
    rw [pow_two, this]; linarith

/-- C39: opposite vectors are reported by an exception; equal vectors give the identity. -/
theorem c39_parallel (a : Vec3 ℝ) (ha : ‖a.E‖ = 1) :
    rotTwo a.fin a.neg.fin = none ∧ ∃ R, rotTwo a.fin a.fin = some R ∧ R.Is 1 := by
  have da := dot_of_unit ha
  constructor
  · have dn : a.neg.dot a.neg = 1 := by
      rw [← da]; simp only [Vec3.dot_def, Vec3.neg_def]; ring
    obtain ⟨θ, h0, hc, hs, he, -, h, -⟩ := rotTwo_ok da dn
    have hz : (a.cross a.neg).length = 0 := by
      rw [Vec3.length_eq_zero]
      simp only [Vec3.cross_def, Vec3.neg_def, Vec3.mk.injEq]
      refine ⟨?_, ?_, ?_⟩ <;> ring
    have hd : a.dot a.neg = -1 := by
      rw [← da]; simp only [Vec3.dot_def, Vec3.neg_def]; ring
    refine h ?_ hz
    rw [he, hz, hd, show (⟨-1, 0⟩ : ℂ) = -1 by apply Complex.ext <;> simp, Complex.arg_neg_one]
    have := Real.pi_gt_three
    linarith [show (1 : ℝ) / 10 ^ 12 < 1 by norm_num]
  · have hne : a.E ≠ 0 := by intro h; rw [h, norm_zero] at ha; norm_num at ha
    obtain ⟨R, h1, h2, -⟩ := c39_close a a ha ha (by rw [InnerProductGeometry.angle_self hne]; positivity)
    exact ⟨R, h1, h2⟩

/-- C39 is false for very small angles: the identity does not take the first vector to the second. -/
theorem c39_counterexample : ∃ a b : Vec3 ℝ, ‖a.E‖ = 1 ∧ ‖b.E‖ = 1 ∧ a.E ≠ b.E ∧ b.E ≠ -a.E ∧
    ∃ R, rotTwo a.fin b.fin = some R ∧ R.Is 1 := by
  have hpos : (0 : ℝ) < 1 / 10 ^ 13 := by positivity
  have hpi : (1 : ℝ) / 10 ^ 13 < Real.pi := by
    have := Real.pi_gt_three
    linarith [show (1 : ℝ) / 10 ^ 13 < 1 by norm_num]
  have hsin : 0 < Real.sin (1 / 10 ^ 13) := Real.sin_pos_of_pos_of_lt_pi hpos hpi
  have e0 : ‖(Vec3.mk 1 0 0 : Vec3 ℝ).E‖ = 1 := by simp [Vec3.E_norm, Vec3.length_def, Vec3.dot_def]
  have e1 : ‖(Vec3.mk (Real.cos (1 / 10 ^ 13)) (Real.sin (1 / 10 ^ 13)) 0 : Vec3 ℝ).E‖ = 1 := by
    rw [Vec3.E_norm, Vec3.length_def, Vec3.dot_def]
    have := Real.cos_sq_add_sin_sq (1 / 10 ^ 13)
    simp only [mul_zero, add_zero]
    rw [← pow_two, ← pow_two, this, Real.sqrt_one]
  refine ⟨⟨1, 0, 0⟩, ⟨Real.cos (1 / 10 ^ 13), Real.sin (1 / 10 ^ 13), 0⟩, e0, e1, ?_, ?_, ?_⟩
  · rw [Ne, Vec3.E_inj, Vec3.mk.injEq]
    rintro ⟨-, h, -⟩; linarith
  · rw [Ne, ← Vec3.E_neg, Vec3.E_inj, Vec3.neg_def, Vec3.mk.injEq]
    rintro ⟨-, h, -⟩; simp only [neg_zero] at h; linarith
  · obtain ⟨R, h1, h2, -⟩ := c39_close _ _ e0 e1 (by
      rw [InnerProductGeometry.angle, e0, e1, Vec3.E_inner, Vec3.dot_def]
      simp only [one_mul, zero_mul, add_zero, div_one]
      rw [Real.arccos_cos hpos.le hpi.le]
      norm_num)
    exact ⟨R, h1, h2⟩

/-- the first axis is turned to the second one -/
example : ∃ R A, rotTwo (Vec3.fin ⟨1, 0, 0⟩) (Vec3.fin ⟨0, 1, 0⟩) = some R ∧ R.Is A ∧
    A ∈ Matrix.specialOrthogonalGroup (Fin 3) ℝ ∧ A.mulVec (Vec3.E ⟨1, 0, 0⟩).ofLp = (Vec3.E ⟨0, 1, 0⟩).ofLp := by
  have e0 : ‖(Vec3.mk 1 0 0 : Vec3 ℝ).E‖ = 1 := by simp [Vec3.E_norm, Vec3.length_def, Vec3.dot_def]
  have e1 : ‖(Vec3.mk 0 1 0 : Vec3 ℝ).E‖ = 1 := by simp [Vec3.E_norm, Vec3.length_def, Vec3.dot_def]
  refine c39_rotation_partial _ _ e0 e1 ?_ ?_
  · rw [Ne, ← Vec3.E_neg, Vec3.E_inj, Vec3.neg_def, Vec3.mk.injEq]
    rintro ⟨h, -⟩; norm_num at h
  · rw [InnerProductGeometry.angle, e0, e1, Vec3.E_inner, Vec3.dot_def]
    simp only [mul_zero, zero_mul, add_zero, mul_one, zero_div, Real.arccos_zero]
    have := Real.pi_gt_three
    linarith [show (1 : ℝ) / 10 ^ 12 < 1 by norm_num]

/-! ## C40: Voronoi areas -/

/-- C40: the Voronoi areas of the three corners of any triangle are finite, not negative, and add up to its area up to 1e-20. -/
theorem c40_corners (p q r : Vec3 ℝ) : ∃ x y z : ℝ, vorCorner p.fin q.fin r.fin = .fin x ∧
    vorCorner q.fin r.fin p.fin = .fin y ∧ vorCorner r.fin p.fin q.fin = .fin z ∧ 0 ≤ x ∧ 0 ≤ y ∧ 0 ≤ z ∧
    x + y + z ≤ triArea p.E q.E r.E ∧ triArea p.E q.E r.E - 1 / 10 ^ 20 ≤ x + y + z := by
  rw [triArea_E]; exact vor_sum p q r

/-- C40 for a triangle of a mesh: `volonoiArea(f)` succeeds for the three corners of every triangle of a consistent mesh, and
the results are not negative and add up to the area of the face up to 1e-20. -/
theorem c40_face {m : Mesh XR} (g : m.Good) {p : Nat → Vec3 ℝ} (hp : m.At p) (h : Nat) (a : m.hAlive h = true)
    (t : m.OnTri h) : ∃ x y z : ℝ, vorFace (m.hSrc h) (m.hFace h) m = .ok (.fin x) m ∧
      vorFace (m.hSrc (m.hNext h)) (m.hFace h) m = .ok (.fin y) m ∧
      vorFace (m.hSrc (m.hNext (m.hNext h))) (m.hFace h) m = .ok (.fin z) m ∧ 0 ≤ x ∧ 0 ≤ y ∧ 0 ≤ z ∧
      x + y + z ≤ triArea (p (m.hSrc h)).E (p (m.hSrc (m.hNext h))).E (p (m.hSrc (m.hNext (m.hNext h)))).E ∧
      triArea (p (m.hSrc h)).E (p (m.hSrc (m.hNext h))).E (p (m.hSrc (m.hNext (m.hNext h)))).E - 1 / 10 ^ 20 ≤
        x + y + z := by
  have w := g.wf
  have a1 := w.next_alive _ a
  have a2 := w.next_alive _ a1
  obtain ⟨x, y, z, h1, h2, h3, h4⟩ := c40_corners (p (m.hSrc h)) (p (m.hSrc (m.hNext h))) (p (m.hSrc (m.hNext (m.hNext h))))
  have e0 := g.vorFace_ok a t
  have e1 := g.vorFace_ok a1 (Mesh.WF.onTri_next t)
  have e2 := g.vorFace_ok a2 (Mesh.WF.onTri_next (Mesh.WF.onTri_next t))
  have f1 := w.face_next _ a
  have f2 := w.face_next _ a1
  have t' := t
  unfold Mesh.OnTri at t'
  rw [t', f1] at e1
  rw [t', f2, f1] at e2
  rw [hp _ (w.src_alive _ a), hp _ (w.src_alive _ a1), hp _ (w.src_alive _ a2)] at e0 e1
  rw [hp _ (w.src_alive _ a), hp _ (w.src_alive _ a1), hp _ (w.src_alive _ a2)] at e2
  rw [h1] at e0
  rw [h2] at e1
  rw [h3] at e2
  exact ⟨x, y, z, e0, e1, e2, h4⟩

/-- `volonoiArea(f)` ends the program when the vertex is not a corner of the face. -/
theorem c40_not_corner {F : Type} [ScalarX F] {m : Mesh F} (w : m.WF) (v f : Nat) (a : m.fAlive f = true)
    (h : ∀ x, m.hAlive x = true → m.hFace x = f → m.hSrc x ≠ v) : vorFace v f m = .err .abort := by
  unfold vorFace
  rw [bind_apply, w.faceVerts_ok a]
  have : ∀ l : List Nat, (∀ x ∈ l, x ≠ v) → lastIdx v l = none := by
    intro l
    induction l with
    | nil => intro _; rfl
    | cons x l ih =>
      intro hl
      rw [lastIdx, ih (fun y hy => hl y (by simp [hy])), if_neg (hl x (by simp))]
  have hl : lastIdx v ((orbit m.hNext (m.fHe f)).map m.hSrc) = none := this _ ?_
  · simp only [hl]; rfl
  · intro x hx
    obtain ⟨y, hy, rfl⟩ := List.mem_map.1 hx
    obtain ⟨ay, ey⟩ := (w.mem_loop a).1 hy
    exact h y ay ey

/-- a tetrahedron with real coordinates has triangles -/
example : ∃ (m : Mesh XR) (p : Nat → Vec3 ℝ) (h : Nat), m.Good ∧ m.At p ∧ m.hAlive h = true ∧ m.OnTri h := by
  obtain ⟨m, h, G, hp, hi⟩ := closedX corner_valid corner_merged corner_manifold corner_closed (fun n => 2 * n + 1)
  obtain ⟨p, pa, hpv⟩ := exists_at G.wf hp
  have hv : m.vs ≠ [] := by
    intro e; rw [e] at hp; simp [cornerV] at hp
  obtain ⟨v, l, hvl⟩ := List.exists_cons_of_ne_nil hv
  have av : m.vAlive v = true := (G.wf.vDense.mem v).1 (by rw [hvl]; simp)
  have ah := (G.wf.vHe_ok v av).1
  rcases G.tri.holds _ ah with t | t
  · exact ⟨m, p, _, G, pa, ah, t⟩
  · exact ⟨m, p, _, G, pa, G.wf.rev_alive _ ah, (t _ ah rfl).2.2⟩

/-! ## C41: dihedral angles -/

/-- C41: the dihedral angle of the triangles `a b c` and `d b c` is the angle between their normals, 0 if one of them is
degenerate; it lies between 0 and π and does not change when the ends of the edge or the triangles are exchanged. -/
theorem c41_dihedral (a b c d : Vec3 ℝ) : ∃ r : ℝ, Vec3.dihedral a.fin b.fin c.fin d.fin = .fin r ∧ 0 ≤ r ∧ r ≤ Real.pi ∧
    Vec3.dihedral a.fin c.fin b.fin d.fin = .fin r ∧ Vec3.dihedral d.fin b.fin c.fin a.fin = .fin r ∧
    (triArea a.E b.E c.E = 0 ∨ triArea d.E b.E c.E = 0 → r = 0) ∧
    (triArea a.E b.E c.E ≠ 0 → triArea d.E b.E c.E ≠ 0 →
      r = InnerProductGeometry.angle (triNormal a.E b.E c.E) (triNormal d.E b.E c.E)) := by
  classical
  have z : ∀ p q r : E3, triArea p q r = 0 ↔ triNormal p q r = 0 := by
    intro p q r
    unfold triArea
    change ‖triNormal p q r‖ / 2 = 0 ↔ _
    rw [div_eq_zero_iff, norm_eq_zero]
    norm_num
  refine ⟨_, dihedral_ok a b c d, ?_, ?_, ?_, ?_, ?_, ?_⟩
  · split
    · exact le_rfl
    · exact InnerProductGeometry.angle_nonneg _ _
  · split
    · exact Real.pi_pos.le
    · exact InnerProductGeometry.angle_le_pi _ _
  · rw [dihedral_ok, triNormal_swap a.E b.E c.E, triNormal_swap d.E b.E c.E, InnerProductGeometry.angle_neg_neg]
    simp only [neg_eq_zero]
  · rw [dihedral_ok, InnerProductGeometry.angle_comm]
    simp only [or_comm]
  · intro h
    rw [z, z] at h
    rw [if_pos h]
  · intro h1 h2
    rw [Ne, z] at h1 h2
    rw [if_neg (by tauto)]

/-- two faces of a cube corner: neither is degenerate -/
example : triArea (Vec3.E ⟨1, 0, 0⟩) (Vec3.E ⟨0, 0, 0⟩) (Vec3.E ⟨0, 1, 0⟩) ≠ 0 ∧
    triArea (Vec3.E ⟨0, 0, 1⟩) (Vec3.E ⟨0, 0, 0⟩) (Vec3.E ⟨0, 1, 0⟩) ≠ 0 := by
  rw [triArea_E, triArea_E]
  constructor
  all_goals
    simp only [dblArea, Vec3.cross_def, Vec3.sub_def, Vec3.length_def, Vec3.dot_def]
    norm_num

/-! ## C42: denoising weights -/

/-- C42, partial: the weight is finite, not negative, zero from four sigma on, and non-increasing below two sigma and from two
sigma on. Missing: monotonicity across two sigma, which is false (`c42_counterexample`). -/
theorem c42_weight_partial (σ : ℝ) (hσ : 0 < σ) : ∃ w : ℝ → ℝ, (∀ x, weightK (XR.fin x) (XR.fin σ) = XR.fin (w x)) ∧ (∀ x, 0 ≤ w x) ∧
    (∀ x, 4 * σ ≤ x → w x = 0) ∧ (∀ x y, 0 ≤ x → x ≤ y → y < 2 * σ → w y ≤ w x) ∧
    (∀ x y, 2 * σ ≤ x → x ≤ y → w y ≤ w x) := by
  classical
  have hc : 0 ≤ 1 / (Real.sqrt (2 * Real.pi) * σ) := by positivity
  refine ⟨_, fun x => weightK_ok x hσ, ?_, ?_, ?_, ?_⟩
  · intro x
    split
    · positivity
    · split <;> positivity
  · intro x hx
    rw [if_neg (by linarith), if_neg (by linarith)]
  · intro x y h0 hxy hy
    rw [if_pos hy, if_pos (by linarith)]
    apply mul_le_mul_of_nonneg_left _ hc
    apply Real.exp_le_exp.2
    apply div_le_div_of_nonneg_right _ (by positivity)
    nlinarith
  · intro x y h2 hxy
    rw [if_neg (by linarith : ¬ y < 2 * σ), if_neg (by linarith : ¬ x < 2 * σ)]
    by_cases hy : y < 4 * σ
    · rw [if_pos hy, if_pos (by linarith)]
      apply mul_le_mul_of_nonneg_left _ (by positivity)
      have hx0 : 0 ≤ x := by linarith
      rw [abs_of_nonneg hx0, abs_of_nonneg (by linarith)]
      apply pow_le_pow_left₀
      · rw [sub_nonneg, div_le_iff₀ hσ]; linarith
      · apply sub_le_sub_left
        exact div_le_div_of_nonneg_right hxy hσ.le
    · rw [if_neg hy]
      split <;> positivity

/-- C42 is false for every sigma: the weight at distance 2σ is larger than at every slightly smaller distance; it jumps up by a
factor of at least 2 over the weight at 1.9 σ. -/
theorem c42_counterexample (σ : ℝ) (hσ : 0 < σ) : ∃ v w : ℝ, weightK (XR.fin (19 / 10 * σ)) (XR.fin σ) = XR.fin v ∧
    weightK (XR.fin (2 * σ)) (XR.fin σ) = XR.fin w ∧ 0 < v ∧ 2 * v ≤ w := by
  classical
  refine ⟨_, _, weightK_ok _ hσ, weightK_ok _ hσ, ?_⟩
  rw [if_pos (by linarith), if_neg (lt_irrefl _), if_pos (by linarith)]
  have hc : 0 < 1 / (Real.sqrt (2 * Real.pi) * σ) := by positivity
  have e1 : -(19 / 10 * σ) * (19 / 10 * σ) / (σ * σ) = -(361 / 100) := by field_simp; norm_num
  have e2 : (4 - |2 * σ| / σ) ^ 4 = 16 := by
    rw [abs_of_pos (by linarith), mul_div_assoc, div_self hσ.ne']; norm_num
  rw [e1, e2]
  refine ⟨by positivity, ?_⟩
  generalize 1 / (Real.sqrt (2 * Real.pi) * σ) = c at *
  have h3 : 2 * Real.exp (-(361 / 100)) ≤ 1 / (16 * Real.exp 2) * 16 := by
    have : 1 / (16 * Real.exp 2) * 16 = Real.exp (-2) := by rw [Real.exp_neg]; field_simp
    rw [this, show (-2 : ℝ) = 161 / 100 + -(361 / 100) by norm_num, Real.exp_add]
    apply mul_le_mul_of_nonneg_right _ (Real.exp_pos _).le
    have := Real.add_one_le_exp (161 / 100 : ℝ)
    linarith
  calc 2 * (c * Real.exp (-(361 / 100))) = c * (2 * Real.exp (-(361 / 100))) := by ring
    _ ≤ c * (1 / (16 * Real.exp 2) * 16) := mul_le_mul_of_nonneg_left h3 hc.le
    _ = _ := by ring

/-! ## C44: progress bar -/

/-- the state of the bar after some two-face steps at times `clock` -/
theorem bar_steps {total : Int} (ht : 1 ≤ total) (hm : 40 * (total + 1) ≤ 2147483647) :
    ∀ (clock : List Nat) (s : Int), 0 ≤ s → (∀ t ∈ clock, Calm total t) → s + 2 * clock.length ≤ total + 1 →
      (s + 2 * clock.length ≤ total ∨ 40 < total) →
      clock.foldlM (fun (b : Bar) t => b.stepBy XR 2 t) (⟨s, total⟩ : Bar) = .ok ⟨s + 2 * clock.length, total⟩ := by
  intro clock
  induction clock with
  | nil => intro s _ _ _ _; simp; rfl
  | cons t l ih =>
    intro s hs hc h1 h2
    simp only [List.length_cons, Nat.cast_add, Nat.cast_one] at h1 h2
    rw [List.foldlM_cons, stepBy_shown (b := ⟨s, total⟩) (st := s + 2) rfl (by omega) (by simp only; omega) (by simp only; omega)
      ht hm (hc t (by simp))]
    refine (ih (s + 2) (by omega) (fun x hx => hc x (by simp [hx])) (by omega) (by omega)).trans ?_
    simp only [List.length_cons, Nat.cast_add, Nat.cast_one]
    congr 2; omega

/-- C44, partial: with a clock within range, the two-face steps that `simplifyQEM` reports (each made only while fewer than
`total` faces have been removed) are all accepted, unless an odd target of at most 40 is overshot. Missing: those targets
(`c44_counterexample`) and steps within the first millisecond (`c44_instant`). -/
theorem c44_progress_partial {total : Int} (ht : 1 ≤ total) (hm : 40 * (total + 1) ≤ 2147483647) (clock : List Nat) (last : Nat)
    (hc : ∀ t ∈ clock, Calm total t) (hl : Calm total last) (hn : 2 * clock.length ≤ total + 1)
    (hb : 2 * clock.length ≤ total ∨ 40 < total) : qemBar XR total clock last = .ok ⟨total, total⟩ := by
  unfold qemBar
  rw [bar_steps ht hm clock 0 le_rfl hc (by omega) (by omega)]
  change Bar.finish XR ⟨0 + 2 * clock.length, total⟩ last = _
  unfold Bar.finish
  simp only
  by_cases h : (0 : Int) + 2 * clock.length = total
  · rw [if_neg (by simpa using h), h]
  · rw [if_pos h, int32_ok (by omega) (by omega)]
    simp only
    rw [stepBy_shown (b := ⟨0 + 2 * clock.length, total⟩) (st := total) (by simp only; omega) (by omega) (by simp only; omega)
      (Or.inl le_rfl) ht hm hl]

/-- C44 is false: for every odd target of at most 39 the step that overshoots it throws. -/
theorem c44_counterexample {k : Nat} (hk : 2 * k + 1 ≤ 39) (clock : List Nat) (last : Nat)
    (hc : ∀ t ∈ clock, Calm (2 * k + 1) t) (hn : clock.length = k + 1) :
    qemBar XR (2 * k + 1) clock last = .error .throw := by
  obtain ⟨l, t, rfl⟩ : ∃ l t, clock = l ++ [t] := by
    refine ⟨clock.dropLast, clock.getLast (by intro h; simp [h] at hn), ?_⟩
    rw [List.dropLast_append_getLast]
  simp only [List.length_append, List.length_singleton] at hn
  have h1 : List.foldlM (fun (b : Bar) t => b.stepBy XR 2 t) (⟨0 + 2 * l.length, 2 * k + 1⟩ : Bar) [t] = .error .throw := by
    rw [List.foldlM_cons, stepBy_throw (b := ⟨0 + 2 * l.length, 2 * k + 1⟩) (by simp only; omega) (by simp only; omega)
      (by simp only; omega) (hc t (by simp))]
    rfl
  have h2 : List.foldlM (fun (b : Bar) t => b.stepBy XR 2 t) (⟨0, 2 * k + 1⟩ : Bar) (l ++ [t]) = .error .throw := by
    rw [List.foldlM_append, bar_steps (by omega) (by omega) l 0 le_rfl (fun x hx => hc x (by simp [hx])) (by omega) (by omega)]
    rw [show ∀ (x : Bar) (f : Bar → Except Err Bar), ((Except.ok x : Except Err Bar) >>= f) = f x from fun _ _ => rfl]
    exact h1
  unfold qemBar
  rw [h2]; rfl

theorem calm_sample (n : Int) (h : n = 9 ∨ n = 10) : ∀ t ∈ [3, 5, 5, 9, 12], Calm n t := by
  intro t ht
  simp only [List.mem_cons, List.not_mem_nil, or_false] at ht
  rcases h with rfl | rfl <;> rcases ht with rfl | rfl | rfl | rfl | rfl <;> constructor <;> decide

/-- five steps towards ten faces are accepted -/
example : qemBar XR 10 [3, 5, 5, 9, 12] 20 = .ok ⟨10, 10⟩ :=
  c44_progress_partial (by decide) (by decide) _ _ (calm_sample 10 (by simp)) (by constructor <;> decide) (by decide)
    (Or.inl (by decide))

/-- five steps towards nine faces are not -/
example : qemBar XR 9 [3, 5, 5, 9, 12] 20 = .error .throw :=
  c44_counterexample (k := 4) (by decide) _ _ (calm_sample 9 (by simp)) rfl

/-- C44 is false for every target: a step reported in the first millisecond converts an infinite number of steps per second
to `int`, which is undefined behaviour. -/
theorem c44_instant {total : Int} (ht : 1 ≤ total) (hm : total ≤ 2147483647) (clock : List Nat) (last : Nat) :
    qemBar XR total (0 :: clock) last = .error .ub := by
  unfold qemBar
  rw [List.foldlM_cons, stepBy_instant (b := ⟨0, total⟩) (st := 2) rfl (by omega) (by omega) ht hm]
  rfl

/-! ## C48: heat kernel signatures -/

/-- C48, partial: for at least two eigenvalues, any eigenvectors and a number of times other than one, every entry is finite
and not negative; for non-negative eigenvalues in ascending order the entries of a row do not grow from one time to the
next. Missing: a single time (`c48_counterexample`). -/
theorem c48_signature_partial (N K n : Nat) (hK : K < N) (h2 : 2 ≤ K) (hn : n ≠ 1) (e : Eigs ℝ) :
    ∃ S : Nat → Nat → ℝ, hks N K n (some e.fin) =
        .ok ((List.range N).map fun i => (List.range n).map fun j => .fin (S i j)) ∧
      (∀ i j, 0 ≤ S i j) ∧
      ((∀ k < K, 0 ≤ e.val k) → e.val 1 ≤ e.val (K - 1) → ∀ i j j', j ≤ j' → j' < n → S i j' ≤ S i j) := by
  obtain ⟨s, d, hd, h⟩ := hksEntry_ok e K hn
  refine ⟨fun i j => ((List.range K).map fun k => e.vec i k * e.vec i k * Real.exp (-(Real.exp (s + j * d)) * e.val k)).sum,
    ?_, ?_, ?_⟩
  · unfold hks
    rw [if_neg (not_not.2 hK)]
    simp only [h]
    rw [if_neg (by omega)]
  · intro i j
    apply List.sum_nonneg
    intro x hx
    obtain ⟨k, -, rfl⟩ := List.mem_map.1 hx
    exact mul_nonneg (mul_self_nonneg _) (Real.exp_pos _).le
  · intro hv ho i j j' hj hn'
    apply List.sum_le_sum
    intro k hk
    have hd' : 0 ≤ d := hd ho (by omega)
    apply mul_le_mul_of_nonneg_left _ (mul_self_nonneg _)
    apply Real.exp_le_exp.2
    rw [neg_mul, neg_mul, neg_le_neg_iff]
    apply mul_le_mul_of_nonneg_right _ (hv k (List.mem_range.1 hk))
    apply Real.exp_le_exp.2
    have : (j : ℝ) ≤ j' := by exact_mod_cast hj
    nlinarith

/-- C48: too many eigenvalues or a failed decomposition end the program; fewer than two eigenvalues are read out of range. -/
theorem c48_errors {F : Type} [ScalarX F] (N K n : Nat) (s : Option (Eigs F)) :
    (N ≤ K → hks N K n s = .error .abort) ∧ (hks N K n (none : Option (Eigs F)) = .error .abort) ∧
    (K < N → K < 2 → s.isSome = true → hks N K n s = .error .ub) := by
  unfold hks
  refine ⟨fun h => if_pos (by omega), ?_, fun h1 h2 h3 => ?_⟩
  · split <;> rfl
  · obtain ⟨e, rfl⟩ := Option.isSome_iff_exists.1 h3
    rw [if_neg (by omega)]
    simp only
    rw [if_pos h2]

/-- C48 is false for a single time: the increment is divided by zero and every entry is NaN. -/
theorem c48_counterexample (N K : Nat) (hK : K < N) (h2 : 2 ≤ K) (e : Eigs ℝ) :
    hks N K 1 (some e.fin) = .ok ((List.range N).map fun _ => [XR.nan]) := by
  have l0 : (Scalar.lit ((1 : Nat) - 1 : Int) 1 : ℝ) = 0 := by rw [R_lit]; norm_num
  have l4 : (Scalar.lit 4 1 : ℝ) = 4 := by rw [R_lit]; norm_num
  have l10 : (Scalar.lit 10 1 : ℝ) = 10 := by rw [R_lit]; norm_num
  have le : (Scalar.lit 1 (10 ^ 12) : ℝ) = 1 / 10 ^ 12 := by rw [R_lit]; norm_num
  have hlog : 0 < 4 * Real.log 10 := by have := Real.log_pos (by norm_num : (1 : ℝ) < 10); linarith
  have hm : ∀ r : ℝ, 0 < max (1 / 10 ^ 12) r := fun r => lt_of_lt_of_le (by positivity) (le_max_left _ _)
  have ht : hksTime e.fin K 1 0 = XR.nan := by
    unfold hksTime Eigs.fin
    simp only [X_lit, l4, l10, le, X_log (by norm_num : (0 : ℝ) < 10), X_mul, X_fmax, R_fmax, X_div _ (hm _).ne',
      X_log (div_pos hlog (hm _)), X_sub, l0, X_div0]
    have hz : ∀ r : ℝ, XR.fin (Scalar.lit ((0 : Nat) : Int) 1 : ℝ) * XR.infOf r = XR.nan := by
      intro r
      rw [R_lit]
      change XR.mul _ _ = _
      unfold XR.infOf
      split
      · simp [XR.mul, XR.infOf]
      · split
        · simp [XR.mul, XR.infOf]
        · simp [XR.mul]
    rw [hz]; rfl
  have hnan : ∀ x : XR, x * XR.nan = XR.nan := by intro x; cases x <;> rfl
  have hadd : ∀ x : XR, x + XR.nan = XR.nan := by intro x; cases x <;> rfl
  have he : ∀ i, hksEntry e.fin K 1 i 0 = XR.nan := by
    intro i
    unfold hksEntry
    rw [ht]
    have : ∀ k, (-XR.nan : XR) * e.fin.val k = XR.nan := by intro k; rfl
    simp only [this]
    have hx : (Scalar.exp XR.nan : XR) = XR.nan := rfl
    simp only [hx, hnan, hadd]
    obtain ⟨K, rfl⟩ : ∃ k, K = k + 1 := ⟨K - 1, by omega⟩
    rw [List.range_succ, List.foldl_append]; rfl
  unfold hks
  rw [if_neg (not_not.2 hK)]
  simp only
  rw [if_neg (by omega)]
  simp [List.range_succ, he]

/-- three vertices, the spectrum 0, 1 and a constant eigenvector -/
example : ∃ e : Eigs ℝ, (∀ k < 2, 0 ≤ e.val k) ∧ e.val 1 ≤ e.val (2 - 1) ∧ e.vec 0 0 ≠ 0 :=
  ⟨⟨fun _ _ => 1, fun k => k⟩, fun k _ => Nat.cast_nonneg k, le_rfl, one_ne_zero⟩

/-! ## C49: post-increment -/

section
variable {F : Type} {m : Mesh F}

/-- what `it++` does on a circulator that is `i` steps from its start `s`, when `l` lists the elements from `s` on -/
structure PostInc (step : Nat → M F Nat) (m : Mesh F) (l : List Nat) (s i : Nat) (c : Circ) : Prop where
  /-- the iterator itself advances like `++it` -/
  advance : ∃ c' old, c.post step m = .ok (c', old) m ∧ c.pre step m = .ok c' m ∧
    /- the returned iterator compares equal to the old one -/
    old.ne c = false ∧
    /- continuing from the old iterator visits the remaining elements -/
    c.rest step m = .ok (l.drop i) m ∧
    /- continuing from the returned iterator visits all elements, starting from the current one -/
    ∃ l', old.rest step m = .ok l' m ∧ l'.length = l.length ∧ l'.head? = l[i]?

theorem postInc_ok {step : Nat → M F Nat} {f : Nat → Nat} {S : Nat → Prop} (p : Perm f S m.hFresh)
    (hstep : ∀ x, S x → step x m = .ok (f x) m) (h0 : ∀ x, S x → x ≠ 0) {s : Nat} (hs : S s) {i : Nat}
    (hi : i < (orbit f s).length) : PostInc step m (orbit f s) s i ⟨s, (orbit f s)[i]⟩ := by
  have hi' := hi
  rw [length_orbit] at hi'
  have e : (orbit f s)[i] = f^[i] s := by simp [orbit]
  have hx := p.iter hs i
  have hper : period f (f^[i] s) = period f s := by
    have h1 := p.period_spec hs
    have h2 := p.period_spec hx
    have r1 : f^[period f s] (f^[i] s) = f^[i] s := by
      rw [← Function.iterate_add_apply, Nat.add_comm, Function.iterate_add_apply, h1.2.1]
    have r2 : f^[period f (f^[i] s)] s = s := by
      apply p.iter_inj (p.iter hs _) hs i
      rw [← Function.iterate_add_apply, Nat.add_comm, Function.iterate_add_apply, h2.2.1]
    apply Nat.le_antisymm
    · by_contra h
      exact h2.2.2 _ h1.1 (by omega) r1
    · by_contra h
      exact h1.2.2 _ h2.1 (by omega) r2
  constructor
  rw [e]
  refine ⟨if f (f^[i] s) = s then ⟨s, 0⟩ else ⟨s, f (f^[i] s)⟩, Circ.mk1 (f^[i] s), ?_, ?_, ?_, rest_ok p hstep h0 hs hi',
    orbit f (f^[i] s), ?_, ?_, ?_⟩
  · simp only [Circ.post, bind_apply, hstep _ hx, pure_apply]
  · simp only [Circ.pre, bind_apply, hstep _ hx, pure_apply]
  · simp [Circ.ne, Circ.mk1]
  · have := rest_ok p hstep h0 hx (i := 0) (p.period_spec hx).1
    simpa [Circ.mk1] using this
  · rw [length_orbit, length_orbit, hper]
  · rw [p.orbit_head hx, List.getElem?_eq_getElem hi, e]

/-- C49, partial: at every position of the circulators of a vertex and of a face, `it++` advances like `++it` and returns an
iterator that compares equal to the old one. Missing: the remaining iteration; the returned iterator goes around the whole
vertex or face instead of stopping at the original start (`c49_counterexample`). -/
theorem c49_post_increment_partial (w : m.WF) :
    (∀ v, m.vAlive v = true → ∃ l, ringList v m = .ok l m ∧ ∀ i (hi : i < l.length),
      PostInc ringStep m l (m.vHe v) i ⟨m.vHe v, l[i]⟩) ∧
    (∀ f, m.fAlive f = true → ∃ l, faceList f m = .ok l m ∧ ∀ i (hi : i < l.length),
      PostInc faceStep m l (m.fHe f) i ⟨m.fHe f, l[i]⟩) :=
  ⟨fun v a => ⟨_, w.ringList_ok a, fun _ hi => postInc_ok w.permSig (fun _ hx => w.ringStep_ok hx) (fun _ hx => w.ne0 hx)
      (w.vHe_ok v a).1 hi⟩,
    fun f a => ⟨_, w.faceList_ok a, fun _ hi => postInc_ok w.permNext (fun _ hx => Mesh.WF.faceStep_ok hx) (fun _ hx => w.ne0 hx)
      (w.fHe_ok f a).1 hi⟩⟩

/-- C49 is false at every position other than the first: the loop continued from the returned iterator differs from the loop
continued from the old one. -/
theorem c49_counterexample (w : m.WF) (v : Nat) (a : m.vAlive v = true) : ∃ l, ringList v m = .ok l m ∧
    ∀ i (hi : i < l.length), 0 < i → ∃ c' old l1 l2, Circ.post ringStep ⟨m.vHe v, l[i]⟩ m = .ok (c', old) m ∧
      Circ.rest ringStep ⟨m.vHe v, l[i]⟩ m = .ok l1 m ∧ old.rest ringStep m = .ok l2 m ∧ l1.length < l2.length := by
  obtain ⟨l, e, h⟩ := (c49_post_increment_partial w).1 v a
  refine ⟨l, e, fun i hi h0 => ?_⟩
  obtain ⟨c', old, h1, -, -, h2, l', h3, h4, -⟩ := (h i hi).advance
  refine ⟨c', old, _, l', h1, h2, h3, ?_⟩
  rw [h4, List.length_drop]; omega
end

section
open Sample
attribute [local instance] Sample.ratScalar

/-- in a tetrahedron every vertex has three half-edges, so there are positions other than the first -/
example : ∃ m v l, construct tetV tetI fresh = .ok () m ∧ m.WF ∧ m.vAlive v = true ∧ ringList v m = .ok l m ∧ l.length = 3 := by
  obtain ⟨_, m2, h2⟩ := isOk_iff (o := construct tetV tetI fresh) (by decide +kernel)
  have w := (c01_construct_consistent (Owned.empty dbl) h2).wf
  have hl : m2.vAlive 1 = true ∧ m2.outDeg 1 = 3 := by
    have : okSt (fun m : Mesh Rat => m.vAlive 1 && decide (m.outDeg 1 = 3)) (construct tetV tetI fresh) = true := by
      decide +kernel
    rw [h2] at this
    simpa [okSt] using this
  exact ⟨m2, 1, _, h2, w, hl.1, w.ringList_ok hl.1, by rw [w.ring_length hl.1]; exact hl.2⟩
end

end TinyMesh
