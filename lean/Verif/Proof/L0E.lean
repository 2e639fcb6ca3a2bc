import Verif.Proof.L0D
/-
L0 denoising: geometry of the edge operator and of the energy.
-/
namespace TinyMesh

/-- Binet-Cauchy for the normals of two triangles -/
theorem triNormal_inner (a b c d e f : E3) : inner ℝ (triNormal a b c) (triNormal d e f) =
    inner ℝ (b - a) (e - d) * inner ℝ (c - a) (f - d) - inner ℝ (b - a) (f - d) * inner ℝ (c - a) (e - d) := by
  obtain ⟨a, rfl⟩ := Vec3.E_surj a
  obtain ⟨b, rfl⟩ := Vec3.E_surj b
  obtain ⟨c, rfl⟩ := Vec3.E_surj c
  obtain ⟨d, rfl⟩ := Vec3.E_surj d
  obtain ⟨e, rfl⟩ := Vec3.E_surj e
  obtain ⟨f, rfl⟩ := Vec3.E_surj f
  simp only [triNormal_E, ← Vec3.E_sub, Vec3.E_inner, Vec3.dot_def, Vec3.cross_def, Vec3.sub_def]
  ring

theorem triArea_norm (a b c : E3) : triArea a b c = ‖triNormal a b c‖ / 2 := rfl

theorem triArea_sq (a b c : E3) : 4 * triArea a b c ^ 2 = ‖b - a‖ ^ 2 * ‖c - a‖ ^ 2 - inner ℝ (c - a) (b - a) ^ 2 := by
  have := triNormal_inner a b c a b c
  rw [real_inner_self_eq_norm_sq, real_inner_self_eq_norm_sq, real_inner_self_eq_norm_sq, real_inner_comm] at this
  rw [triArea_norm]
  linear_combination this

section
variable {F : Type} {m : Mesh F}

/-- the edge operator is zero on constants -/
theorem bendOf_const {p : Nat → E3} {h : Nat} (hs : 0 < m.areaOf p h + m.areaOf p (m.hRev h)) (c : E3) : m.bendOf p (fun _ => c) h = 0 := by
  unfold Mesh.bendOf tipMean
  dsimp only
  rw [← add_smul, ← add_smul, ← add_div, add_comm (m.areaOf p (m.hRev h)), div_self hs.ne']
  simp

/-- the edge operator commutes with linear maps -/
theorem bendOf_linear (p q : Nat → E3) (h : Nat) (L : E3 →ₗ[ℝ] E3) : m.bendOf p (fun v => L (q v)) h = L (m.bendOf p q h) := by
  unfold Mesh.bendOf tipMean
  simp

theorem bendOf_add (p q r : Nat → E3) (h : Nat) : m.bendOf p (fun v => q v + r v) h = m.bendOf p q h + m.bendOf p r h := by
  unfold Mesh.bendOf tipMean
  dsimp only
  simp only [smul_add]
  abel

theorem crossOf_linear (q : Nat → E3) (h : Nat) (L : E3 →ₗ[ℝ] E3) : m.crossOf (fun v => L (q v)) h = L (m.crossOf q h) := by
  unfold Mesh.crossOf
  simp

theorem crossOf_add (q r : Nat → E3) (h : Nat) : m.crossOf (fun v => q v + r v) h = m.crossOf q h + m.crossOf r h := by
  unfold Mesh.crossOf
  dsimp only
  abel

theorem crossOf_const (c : E3) (h : Nat) : m.crossOf (fun _ => c) h = 0 := by
  unfold Mesh.crossOf
  abel

end

/-- size of the combination of the two heights with the weights of the edge operator -/
theorem height_sum {x y e : E3} {s t : ℝ} (he : e ≠ 0) (hs : 4 * s ^ 2 = ‖e‖ ^ 2 * ‖x‖ ^ 2 - inner ℝ x e ^ 2)
    (ht : 4 * t ^ 2 = ‖e‖ ^ 2 * ‖y‖ ^ 2 - inner ℝ y e ^ 2) :
    ‖e‖ ^ 2 * ‖t • (x - (inner ℝ x e / ‖e‖ ^ 2) • e) + s • (y - (inner ℝ y e / ‖e‖ ^ 2) • e)‖ ^ 2 =
      8 * s ^ 2 * t ^ 2 + 2 * s * t * (‖e‖ ^ 2 * inner ℝ x y - inner ℝ x e * inner ℝ y e) := by
  have hn : ‖e‖ ^ 2 ≠ 0 := pow_ne_zero 2 (norm_ne_zero_iff.2 he)
  rw [← real_inner_self_eq_norm_sq (t • _ + s • _)]
  simp only [inner_add_left, inner_add_right, real_inner_smul_left, real_inner_smul_right, inner_sub_left, inner_sub_right]
  rw [real_inner_comm x e, real_inner_comm y e, real_inner_comm x y, real_inner_self_eq_norm_sq x, real_inner_self_eq_norm_sq y,
    real_inner_self_eq_norm_sq e]
  have e1 : ‖x‖ ^ 2 = (4 * s ^ 2 + inner ℝ x e ^ 2) / ‖e‖ ^ 2 := by rw [eq_div_iff hn]; linarith
  have e2 : ‖y‖ ^ 2 = (4 * t ^ 2 + inner ℝ y e ^ 2) / ‖e‖ ^ 2 := by rw [eq_div_iff hn]; linarith
  rw [e1, e2]
  field_simp
  ring

/-- the vector from the foot of the perpendicular to the weighted mean of the tips -/
noncomputable def bendVec (a b c d : E3) : E3 :=
  let s := triArea a b c
  let t := triArea b a d
  tipMean s t c d - ((1 - footAt a b (tipMean s t c d)) • a + footAt a b (tipMean s t c d) • b)

theorem bendVec_eq {a b c d : E3} (hs : 0 < triArea a b c + triArea b a d) :
    (triArea a b c + triArea b a d) • bendVec a b c d =
      triArea b a d • (c - a - (inner ℝ (c - a) (b - a) / ‖b - a‖ ^ 2) • (b - a)) +
        triArea a b c • (d - a - (inner ℝ (d - a) (b - a) / ‖b - a‖ ^ 2) • (b - a)) := by
  unfold bendVec footAt tipMean
  dsimp only
  generalize triArea a b c = s at hs ⊢
  generalize triArea b a d = t at hs ⊢
  have h0 := hs.ne'
  have e1 : (t / (s + t)) • c + (s / (s + t)) • d - a = (t / (s + t)) • (c - a) + (s / (s + t)) • (d - a) := by
    have : (t / (s + t)) • a + (s / (s + t)) • a = a := by
      rw [← add_smul, ← add_div, add_comm t, div_self h0, one_smul]
    rw [smul_sub, smul_sub, sub_add_sub_comm, this]
  have e2 : ∀ (z : E3) (u : ℝ), z - ((1 - u) • a + u • b) = (z - a) - u • (b - a) := by
    intro z u
    rw [sub_smul, one_smul, smul_sub]; abel
  rw [e2, e1, inner_add_left, real_inner_smul_left, real_inner_smul_left]
  simp only [smul_sub, smul_add, smul_smul, mul_div_cancel₀ _ h0]
  have e3 : (s + t) * ((t / (s + t) * inner ℝ (c - a) (b - a) + s / (s + t) * inner ℝ (d - a) (b - a)) / ‖b - a‖ ^ 2) =
      t * (inner ℝ (c - a) (b - a) / ‖b - a‖ ^ 2) + s * (inner ℝ (d - a) (b - a) / ‖b - a‖ ^ 2) := by
    field_simp
  rw [e3, add_smul, add_smul]
  abel

theorem bendVec_perp {a b c d : E3} (hab : a ≠ b) (hs : 0 < triArea a b c + triArea b a d) : inner ℝ (bendVec a b c d) (b - a) = 0 := by
  have hn : ‖b - a‖ ^ 2 ≠ 0 := pow_ne_zero 2 (norm_ne_zero_iff.2 (sub_ne_zero.2 hab.symm))
  have h := congrArg (fun x => inner ℝ x (b - a)) (bendVec_eq hs)
  have key : ∀ x : E3, inner ℝ (x - (inner ℝ x (b - a) / ‖b - a‖ ^ 2) • (b - a)) (b - a) = 0 := by
    intro x
    rw [inner_sub_left, real_inner_smul_left, real_inner_self_eq_norm_sq, div_mul_cancel₀ _ hn, sub_self]
  rw [real_inner_smul_left, inner_add_left, real_inner_smul_left, real_inner_smul_left, key, key] at h
  simpa [hs.ne'] using h

/-- length of the edge operator: it measures the angle between the two triangles -/
theorem bendVec_norm {a b c d : E3} (hab : a ≠ b) (hs : 0 < triArea a b c + triArea b a d) :
    ‖bendVec a b c d‖ ^ 2 = 8 * (triArea a b c * triArea b a d) ^ 2 *
      (1 - Real.cos (InnerProductGeometry.angle (triNormal a b c) (triNormal b a d))) /
        (‖b - a‖ * (triArea a b c + triArea b a d)) ^ 2 := by
  have hn : ‖b - a‖ ≠ 0 := norm_ne_zero_iff.2 (sub_ne_zero.2 hab.symm)
  have h1 := height_sum (x := c - a) (y := d - a) (e := b - a) (s := triArea a b c) (t := triArea b a d) (sub_ne_zero.2 hab.symm)
    (triArea_sq a b c) (by rw [triArea_swap, triArea_sq])
  rw [← bendVec_eq hs, norm_smul, Real.norm_of_nonneg hs.le] at h1
  have h2 := InnerProductGeometry.cos_angle_mul_norm_mul_norm (triNormal a b c) (triNormal b a d)
  have h3 : ‖triNormal a b c‖ = 2 * triArea a b c := by rw [triArea_norm]; ring
  have h4 : ‖triNormal b a d‖ = 2 * triArea b a d := by rw [triArea_norm]; ring
  have h5 : inner ℝ (triNormal a b c) (triNormal b a d) =
      -(‖b - a‖ ^ 2 * inner ℝ (c - a) (d - a) - inner ℝ (c - a) (b - a) * inner ℝ (d - a) (b - a)) := by
    rw [triNormal_inner, show a - b = -(b - a) by abel, show d - b = (d - a) - (b - a) by abel]
    generalize b - a = e
    generalize c - a = x
    generalize d - a = y
    simp only [inner_neg_right, inner_sub_right, real_inner_self_eq_norm_sq]
    rw [real_inner_comm y e]
    ring
  rw [h3, h4, h5] at h2
  rw [eq_div_iff (pow_ne_zero 2 (mul_ne_zero hn hs.ne'))]
  linear_combination h1 + 2 * triArea a b c * triArea b a d * h2

end TinyMesh
