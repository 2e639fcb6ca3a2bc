import Verif.Spec.Geom
import Verif.Proof.RealA
/-
`Triangle::closestPoint` in exact arithmetic.
-/
namespace TinyMesh

namespace Vec3

@[simp] theorem E_zero (v : Vec3 ℝ) : v.E 0 = v.x := rfl
@[simp] theorem E_one (v : Vec3 ℝ) : v.E 1 = v.y := rfl
@[simp] theorem E_two (v : Vec3 ℝ) : v.E 2 = v.z := rfl

theorem E_ext {p q : E3} (h0 : p 0 = q 0) (h1 : p 1 = q 1) (h2 : p 2 = q 2) : p = q := by
  ext i; fin_cases i <;> assumption

theorem E_inj {a b : Vec3 ℝ} : a.E = b.E ↔ a = b := by
  constructor
  · intro h
    exact ext' (by rw [← E_zero, h, E_zero]) (by rw [← E_one, h, E_one]) (by rw [← E_two, h, E_two])
  · rintro rfl; rfl

theorem E_add (a b : Vec3 ℝ) : (a.add b).E = a.E + b.E := by
  apply E_ext <;> simp [add_def]
theorem E_sub (a b : Vec3 ℝ) : (a.sub b).E = a.E - b.E := by
  apply E_ext <;> simp [sub_def]
theorem E_neg (a : Vec3 ℝ) : a.neg.E = -a.E := by
  apply E_ext <;> simp [neg_def]
theorem E_smul (s : ℝ) (a : Vec3 ℝ) : (a.smul s).E = s • a.E := by
  apply E_ext <;> simp [smul_def, mul_comm]

theorem E_inner (a b : Vec3 ℝ) : inner ℝ a.E b.E = a.dot b := by
  simp [PiLp.inner_apply, Fin.sum_univ_three, dot_def]
  ring

theorem E_norm (a : Vec3 ℝ) : ‖a.E‖ = a.length := by
  rw [length_def, ← E_inner, real_inner_self_eq_norm_sq, Real.sqrt_sq (norm_nonneg _)]

theorem E_dist (a b : Vec3 ℝ) : dist a.E b.E = (a.sub b).length := by
  rw [dist_eq_norm, ← E_sub, E_norm]

theorem E_surj (p : E3) : ∃ v : Vec3 ℝ, v.E = p := ⟨⟨p 0, p 1, p 2⟩, E_ext rfl rfl rfl⟩

end Vec3

/-- what is left of `closestPoint`: the case distinction of lines 17-38 with the two edge cases -/
theorem Triangle.closest_cases (t : Triangle ℝ) (q : Vec3 ℝ) :
    ∃ c : Vec3 ℝ, t.fin.closestPoint q.fin = c.fin ∧ t.closestPoint q = c ∧
      (c = t.p0 ∨ c = t.p1 ∨ c = t.p2 ∨ (∃ v : ℝ, 0 ≤ v ∧ v ≤ 1 ∧ c = t.p0.add ((t.p1.sub t.p0).smul v)) ∨
        (∃ v : ℝ, 0 ≤ v ∧ v ≤ 1 ∧ c = t.p0.add ((t.p2.sub t.p0).smul v))) := by
  obtain ⟨p0, p1, p2⟩ := t
  unfold closestPoint fin
  simp only [Vec3.X_vsub, Vec3.X_vdot, X_lit, X_le, X_mul, X_sub, X_add, R_lit0]
  generalize h1 : (p1.sub p0).dot (q.sub p0) = d1
  generalize h2 : (p2.sub p0).dot (q.sub p0) = d2
  generalize h3 : (p1.sub p0).dot (q.sub p2) = d3
  generalize h4 : (p2.sub p0).dot (q.sub p2) = d4
  by_cases g1 : d1 ≤ 0 ∧ d2 ≤ 0
  · have : (Scalar.le d1 0 && Scalar.le d2 0) = true := by simpa [R_le] using g1
    simp only [this, if_true]
    exact ⟨p0, rfl, rfl, Or.inl rfl⟩
  have n1 : (Scalar.le d1 0 && Scalar.le d2 0) = false := by
    rw [Bool.eq_false_iff]; simpa [R_le] using g1
  simp only [n1]
  by_cases g2 : 0 ≤ d3 ∧ d4 ≤ d3
  · have : (Scalar.le 0 d3 && Scalar.le d4 d3) = true := by simpa [R_le] using g2
    simp only [this, if_true]
    exact ⟨p1, rfl, rfl, Or.inr (Or.inl rfl)⟩
  have n2 : (Scalar.le 0 d3 && Scalar.le d4 d3) = false := by
    rw [Bool.eq_false_iff]; simpa [R_le] using g2
  simp only [n2]
  by_cases g3 : 0 ≤ d4 ∧ d3 ≤ d4
  · have : (Scalar.le 0 d4 && Scalar.le d3 d4) = true := by simpa [R_le] using g3
    simp only [this, if_true]
    exact ⟨p2, rfl, rfl, Or.inr (Or.inr (Or.inl rfl))⟩
  have n3 : (Scalar.le 0 d4 && Scalar.le d3 d4) = false := by
    rw [Bool.eq_false_iff]; simpa [R_le] using g3
  simp only [n3]
  have c3 : d3 < 0 := by
    by_contra hc
    rw [not_lt] at hc
    have hd : d3 < d4 := by by_contra h; exact g2 ⟨hc, not_lt.1 h⟩
    exact g3 ⟨hc.trans hd.le, hd.le⟩
  have c4 : d4 < 0 := by
    by_contra hc
    rw [not_lt] at hc
    have hd : d4 < d3 := by by_contra h; exact g3 ⟨hc, not_lt.1 h⟩
    exact absurd c3 (not_lt.2 (hc.trans hd.le))
  by_cases g4 : (d1 * d4 - d3 * d2 ≤ 0 ∧ 0 ≤ d1) ∧ d3 ≤ 0
  · have : (Scalar.le (d1 * d4 - d3 * d2) 0 && Scalar.le 0 d1 && Scalar.le d3 0) = true := by simpa [R_le] using g4
    have hne : d1 - d3 ≠ 0 := by linarith [g4.1.2]
    simp only [this, if_true, X_div _ hne]
    refine ⟨_, rfl, rfl, Or.inr (Or.inr (Or.inr (Or.inl ⟨d1 / (d1 - d3), ?_, ?_, rfl⟩)))⟩
    · exact div_nonneg g4.1.2 (by linarith [g4.1.2])
    · rw [div_le_one (by linarith [g4.1.2])]; linarith
  have n4 : (Scalar.le (d1 * d4 - d3 * d2) 0 && Scalar.le 0 d1 && Scalar.le d3 0) = false := by
    rw [Bool.eq_false_iff]; simpa [R_le] using g4
  simp only [n4]
  have g5 : (d3 * d2 - d1 * d4 ≤ 0 ∧ 0 ≤ d2) ∧ d4 ≤ 0 := by
    have hv : 0 < d1 * d4 - d3 * d2 := by
      by_contra hv
      rw [not_lt] at hv
      apply g4
      refine ⟨⟨hv, ?_⟩, c3.le⟩
      by_contra h1
      rw [not_le] at h1
      have h2 : 0 < d2 := by by_contra h2; exact g1 ⟨h1.le, not_lt.1 h2⟩
      nlinarith [mul_pos_of_neg_of_neg h1 c4, mul_neg_of_neg_of_pos c3 h2]
    refine ⟨⟨by linarith, ?_⟩, c4.le⟩
    by_contra h2
    rw [not_le] at h2
    have h1 : 0 < d1 := by by_contra h1; exact g1 ⟨not_lt.1 h1, h2.le⟩
    nlinarith [mul_pos_of_neg_of_neg h2 c3, mul_neg_of_neg_of_pos c4 h1]
  have n5 : (Scalar.le (d3 * d2 - d1 * d4) 0 && Scalar.le 0 d2 && Scalar.le d4 0) = true := by simpa [R_le] using g5
  have hne : d2 - d4 ≠ 0 := by linarith [g5.1.2]
  simp only [n5, if_true, X_div _ hne]
  refine ⟨_, rfl, rfl, Or.inr (Or.inr (Or.inr (Or.inr ⟨d2 / (d2 - d4), ?_, ?_, rfl⟩)))⟩
  · exact div_nonneg g5.1.2 (by linarith [g5.1.2])
  · rw [div_le_one (by linarith [g5.1.2])]; linarith

theorem Triangle.closest_fin (t : Triangle ℝ) (q : Vec3 ℝ) : t.fin.closestPoint q.fin = (t.closestPoint q).fin := by
  obtain ⟨c, h1, h2, -⟩ := t.closest_cases q
  rw [h1, h2]

theorem Triangle.closest_mem (t : Triangle ℝ) (q : Vec3 ℝ) : (t.closestPoint q).E ∈ t.hull := by
  obtain ⟨c, -, h2, h⟩ := t.closest_cases q
  rw [h2]
  have m0 : t.p0.E ∈ t.hull := subset_convexHull ℝ _ (by simp)
  have m1 : t.p1.E ∈ t.hull := subset_convexHull ℝ _ (by simp)
  have m2 : t.p2.E ∈ t.hull := subset_convexHull ℝ _ (by simp)
  have cv : Convex ℝ t.hull := convex_convexHull ℝ _
  have key : ∀ (p : Vec3 ℝ) (v : ℝ), p.E ∈ t.hull → 0 ≤ v → v ≤ 1 → (t.p0.add ((p.sub t.p0).smul v)).E ∈ t.hull := by
    intro p v hp h0 h1
    rw [Vec3.E_add, Vec3.E_smul, Vec3.E_sub]
    have := cv m0 hp (sub_nonneg.2 h1) h0 (by ring)
    convert this using 1
    module
  rcases h with rfl | rfl | rfl | ⟨v, h0, h1, rfl⟩ | ⟨v, h0, h1, rfl⟩
  · exact m0
  · exact m1
  · exact m2
  · exact key _ _ m1 h0 h1
  · exact key _ _ m2 h0 h1

end TinyMesh
