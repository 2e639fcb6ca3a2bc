import Verif.Proof.BvhC
/-
Nearest points of triangles, and the Hausdorff distance.
-/
namespace TinyMesh

/-- a point of the triangle at which all corners lie behind the plane through it and orthogonal to the direction of `q` is
nearest to `q` -/
theorem Triangle.nearest_of {t : Triangle ℝ} {q c : Vec3 ℝ} (h0 : (q.sub c).dot (t.p0.sub c) ≤ 0)
    (h1 : (q.sub c).dot (t.p1.sub c) ≤ 0) (h2 : (q.sub c).dot (t.p2.sub c) ≤ 0) :
    ∀ x ∈ t.hull, dist q.E c.E ≤ dist q.E x := by
  have hs : t.hull ⊆ {x | inner ℝ (q.E - c.E) (x - c.E) ≤ 0} := by
    apply convexHull_min
    · rintro x (rfl | rfl | rfl)
      · simpa only [Set.mem_setOf_eq, ← Vec3.E_sub, Vec3.E_inner] using h0
      · simpa only [Set.mem_setOf_eq, ← Vec3.E_sub, Vec3.E_inner] using h1
      · simpa only [Set.mem_setOf_eq, ← Vec3.E_sub, Vec3.E_inner] using h2
    · intro x hx y hy a b ha hb hab
      simp only [Set.mem_setOf_eq] at *
      have : a • x + b • y - c.E = a • (x - c.E) + b • (y - c.E) := by
        have : b = 1 - a := by linarith
        subst this; module
      rw [this, inner_add_right, inner_smul_right, inner_smul_right]
      nlinarith
  intro x hx
  have hx' := hs hx
  simp only [Set.mem_setOf_eq] at hx'
  rw [dist_eq_norm, dist_eq_norm]
  apply le_of_sq_le_sq _ (norm_nonneg _)
  have e : q.E - x = (q.E - c.E) - (x - c.E) := by abel
  rw [e, norm_sub_sq_real (q.E - c.E) (x - c.E)]
  nlinarith [sq_nonneg ‖x - c.E‖]

/-- the case distinction of `closestPoint` in terms of the four numbers it depends on -/
theorem Triangle.closest_eq (t : Triangle ℝ) (q : Vec3 ℝ) {d1 d2 d3 d4 : ℝ} (h1 : (t.p1.sub t.p0).dot (q.sub t.p0) = d1)
    (h2 : (t.p2.sub t.p0).dot (q.sub t.p0) = d2) (h3 : (t.p1.sub t.p0).dot (q.sub t.p2) = d3)
    (h4 : (t.p2.sub t.p0).dot (q.sub t.p2) = d4) :
    (d1 ≤ 0 ∧ d2 ≤ 0 → t.closestPoint q = t.p0) ∧
    (¬ (d1 ≤ 0 ∧ d2 ≤ 0) → 0 ≤ d3 ∧ d4 ≤ d3 → t.closestPoint q = t.p1) ∧
    (¬ (d1 ≤ 0 ∧ d2 ≤ 0) → ¬ (0 ≤ d3 ∧ d4 ≤ d3) → 0 ≤ d4 ∧ d3 ≤ d4 → t.closestPoint q = t.p2) ∧
    (¬ (d1 ≤ 0 ∧ d2 ≤ 0) → ¬ (0 ≤ d3 ∧ d4 ≤ d3) → ¬ (0 ≤ d4 ∧ d3 ≤ d4) →
      ((d1 * d4 - d3 * d2 ≤ 0 ∧ 0 ≤ d1) ∧ d3 ≤ 0) →
      t.closestPoint q = t.p0.add ((t.p1.sub t.p0).smul (d1 / (d1 - d3)))) ∧
    (¬ (d1 ≤ 0 ∧ d2 ≤ 0) → ¬ (0 ≤ d3 ∧ d4 ≤ d3) → ¬ (0 ≤ d4 ∧ d3 ≤ d4) →
      ¬ ((d1 * d4 - d3 * d2 ≤ 0 ∧ 0 ≤ d1) ∧ d3 ≤ 0) → ((d3 * d2 - d1 * d4 ≤ 0 ∧ 0 ≤ d2) ∧ d4 ≤ 0) →
      t.closestPoint q = t.p0.add ((t.p2.sub t.p0).smul (d2 / (d2 - d4)))) := by
  unfold closestPoint
  simp only [R_lit0, h1, h2, h3, h4, Bool.and_eq_true, R_le]
  refine ⟨?_, ?_, ?_, ?_, ?_⟩
  · intro a; rw [if_pos a]
  · intro a b; rw [if_neg a, if_pos b]
  · intro a b c; rw [if_neg a, if_neg b, if_pos c]
  · intro a b c d; rw [if_neg a, if_neg b, if_neg c, if_pos d]
  · intro a b c d e; rw [if_neg a, if_neg b, if_neg c, if_neg d, if_pos e]

theorem Vec3.dot_sub_right (a b c : Vec3 ℝ) : a.dot (b.sub c) = a.dot b - a.dot c := by
  simp only [Vec3.dot_def, Vec3.sub_def]; ring

/-- the queries for which the result is known to be nearest -/
theorem Triangle.closest_nearest {t : Triangle ℝ} {q : Vec3 ℝ} {d1 d2 d3 d4 : ℝ}
    (h1 : (t.p1.sub t.p0).dot (q.sub t.p0) = d1)
    (h2 : (t.p2.sub t.p0).dot (q.sub t.p0) = d2) (h3 : (t.p1.sub t.p0).dot (q.sub t.p2) = d3)
    (h4 : (t.p2.sub t.p0).dot (q.sub t.p2) = d4)
    (h : (d1 ≤ 0 ∧ d2 ≤ 0) ∨ (0 ≤ d4 ∧ d3 < d4) ∨
      ((0 ≤ d3 ∧ d4 ≤ d3) ∧ (t.p0.sub t.p1).dot (q.sub t.p1) ≤ 0 ∧ (t.p2.sub t.p1).dot (q.sub t.p1) ≤ 0) ∨
      ((d3 < 0 ∧ d4 ≤ 0) ∧ 0 ≤ d2 ∧ d3 * d2 - d1 * d4 < 0)) :
    ∀ x ∈ t.hull, dist q.E (t.closestPoint q).E ≤ dist q.E x := by
  obtain ⟨c1, c2, c3, c4, c5⟩ := t.closest_eq q h1 h2 h3 h4
  by_cases g1 : d1 ≤ 0 ∧ d2 ≤ 0
  · rw [c1 g1]
    apply nearest_of
    · simp [Vec3.sub_def, Vec3.dot_def]
    · rw [Vec3.dot_comm, h1]; exact g1.1
    · rw [Vec3.dot_comm, h2]; exact g1.2
  rcases h with h | h | ⟨h, h'⟩ | ⟨⟨a1, a2⟩, a3, a4⟩
  · exact absurd h g1
  · rw [c3 g1 (fun g => absurd g.2 (not_le.2 h.2)) ⟨h.1, h.2.le⟩]
    apply nearest_of
    · have : (q.sub t.p2).dot (t.p0.sub t.p2) = -d4 := by
        rw [← h4]; simp only [Vec3.dot_def, Vec3.sub_def]; ring
      rw [this]; linarith
    · have : (q.sub t.p2).dot (t.p1.sub t.p2) = d3 - d4 := by
        rw [← h4, ← h3]; simp only [Vec3.dot_def, Vec3.sub_def]; ring
      rw [this]; linarith
    · simp [Vec3.sub_def, Vec3.dot_def]
  · rw [c2 g1 h]
    apply nearest_of
    · rw [Vec3.dot_comm]; exact h'.1
    · simp [Vec3.sub_def, Vec3.dot_def]
    · rw [Vec3.dot_comm]; exact h'.2
  · have hd : 0 < d2 - d4 := by
      rcases lt_or_eq_of_le a2 with h | h
      · linarith
      · rcases lt_or_eq_of_le a3 with h' | h'
        · linarith
        · exfalso; rw [h, ← h'] at a4; simp at a4
    by_cases g3 : 0 ≤ d4 ∧ d3 ≤ d4
    · have e4 : d4 = 0 := le_antisymm a2 g3.1
      rw [c3 g1 (fun g => absurd g.1 (not_le.2 a1)) g3]
      apply nearest_of
      · have : (q.sub t.p2).dot (t.p0.sub t.p2) = -d4 := by
          rw [← h4]; simp only [Vec3.dot_def, Vec3.sub_def]; ring
        rw [this]; linarith
      · have : (q.sub t.p2).dot (t.p1.sub t.p2) = d3 - d4 := by
          rw [← h4, ← h3]; simp only [Vec3.dot_def, Vec3.sub_def]; ring
        rw [this]; linarith
      · simp [Vec3.sub_def, Vec3.dot_def]
    rw [c5 g1 (fun g => absurd g.1 (not_le.2 a1)) g3 (fun g => by linarith [g.1.1]) ⟨⟨a4.le, a3⟩, a2⟩]
    have e2 : (t.p2.sub t.p0).dot (t.p2.sub t.p0) = d2 - d4 := by
      rw [← h2, ← h4]; simp only [Vec3.dot_def, Vec3.sub_def]; ring
    have e1 : (t.p1.sub t.p0).dot (t.p2.sub t.p0) = d1 - d3 := by
      rw [← h1, ← h3]; simp only [Vec3.dot_def, Vec3.sub_def]; ring
    set v := d2 / (d2 - d4) with hv
    have hv' : v * (d2 - d4) = d2 := by rw [hv]; field_simp
    have k2 : (q.sub (t.p0.add ((t.p2.sub t.p0).smul v))).dot (t.p2.sub t.p0) = 0 := by
      have : (q.sub (t.p0.add ((t.p2.sub t.p0).smul v))).dot (t.p2.sub t.p0) =
          (t.p2.sub t.p0).dot (q.sub t.p0) - v * (t.p2.sub t.p0).dot (t.p2.sub t.p0) := by
        simp only [Vec3.dot_def, Vec3.sub_def, Vec3.add_def, Vec3.smul_def]; ring
      rw [this, h2, e2, hv', sub_self]
    have k1 : (q.sub (t.p0.add ((t.p2.sub t.p0).smul v))).dot (t.p1.sub t.p0) ≤ 0 := by
      have : (q.sub (t.p0.add ((t.p2.sub t.p0).smul v))).dot (t.p1.sub t.p0) =
          (t.p1.sub t.p0).dot (q.sub t.p0) - v * (t.p1.sub t.p0).dot (t.p2.sub t.p0) := by
        simp only [Vec3.dot_def, Vec3.sub_def, Vec3.add_def, Vec3.smul_def]; ring
      rw [this, h1, e1]
      have : d1 - v * (d1 - d3) = (d3 * d2 - d1 * d4) / (d2 - d4) := by
        rw [hv]; field_simp; ring
      rw [this]
      exact (div_neg_of_neg_of_pos a4 hd).le
    apply nearest_of
    · have : (q.sub (t.p0.add ((t.p2.sub t.p0).smul v))).dot (t.p0.sub (t.p0.add ((t.p2.sub t.p0).smul v))) =
          -v * (q.sub (t.p0.add ((t.p2.sub t.p0).smul v))).dot (t.p2.sub t.p0) := by
        simp only [Vec3.dot_def, Vec3.sub_def, Vec3.add_def, Vec3.smul_def]; ring
      rw [this, k2, mul_zero]
    · have : (q.sub (t.p0.add ((t.p2.sub t.p0).smul v))).dot (t.p1.sub (t.p0.add ((t.p2.sub t.p0).smul v))) =
          (q.sub (t.p0.add ((t.p2.sub t.p0).smul v))).dot (t.p1.sub t.p0)
          - v * (q.sub (t.p0.add ((t.p2.sub t.p0).smul v))).dot (t.p2.sub t.p0) := by
        simp only [Vec3.dot_def, Vec3.sub_def, Vec3.add_def, Vec3.smul_def]; ring
      rw [this, k2, mul_zero, sub_zero]; exact k1
    · have : (q.sub (t.p0.add ((t.p2.sub t.p0).smul v))).dot (t.p2.sub (t.p0.add ((t.p2.sub t.p0).smul v))) =
          (1 - v) * (q.sub (t.p0.add ((t.p2.sub t.p0).smul v))).dot (t.p2.sub t.p0) := by
        simp only [Vec3.dot_def, Vec3.sub_def, Vec3.add_def, Vec3.smul_def]; ring
      rw [this, k2, mul_zero]

/-- a query at the third corner gives the second one -/
theorem Triangle.closest_third (t : Triangle ℝ) (h : t.p2 ≠ t.p0) : t.closestPoint t.p2 = t.p1 := by
  obtain ⟨-, c2, -⟩ := t.closest_eq t.p2 rfl rfl rfl rfl
  have z : ∀ a : Vec3 ℝ, a.dot (t.p2.sub t.p2) = 0 := by intro a; simp [Vec3.dot_def, Vec3.sub_def]
  refine c2 ?_ ?_
  · rintro ⟨-, h2⟩
    have : (t.p2.sub t.p0).dot (t.p2.sub t.p0) = 0 := le_antisymm h2 (Vec3.dot_self_nonneg _)
    rw [Vec3.dot_self_eq_zero, Vec3.sub_def] at this
    simp only [Vec3.mk.injEq, sub_eq_zero] at this
    exact h (Vec3.ext' this.1 this.2.1 this.2.2)
  · rw [z, z]; exact ⟨le_rfl, le_rfl⟩

end TinyMesh
