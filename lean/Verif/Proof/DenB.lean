import Verif.Proof.DenA
/-
Properties of one round of denoising, and of several.
-/
namespace TinyMesh
open Orbit

section
variable {F : Type} {m : Mesh F} {p : Nat → E3}

theorem norm_unitOf_le (x : E3) : ‖unitOf x‖ ≤ 1 := by
  unfold unitOf
  rw [norm_smul, norm_inv, norm_norm]
  by_cases h : ‖x‖ = 0
  · rw [h]; simp
  · rw [inv_mul_cancel₀ h]

theorem unitOf_smul {c : ℝ} (hc : 0 < c) (x : E3) : unitOf (c • x) = unitOf x := by
  unfold unitOf
  rw [norm_smul, Real.norm_of_nonneg hc.le, smul_smul, mul_inv]
  congr 1
  field_simp

/-- a weighted mean of bounded vectors is bounded -/
theorem wmean_le (l : List Nat) (w : Nat → ℝ) (x : Nat → E3) (r : ℝ) (h0 : ∀ h ∈ l, 0 ≤ w h) (hx : ∀ h ∈ l, ‖x h‖ ≤ r) :
    ‖(l.map fun h => w h • x h).sum‖ ≤ (l.map w).sum * r := by
  induction l with
  | nil => simp
  | cons a l ih =>
    simp only [List.map_cons, List.sum_cons]
    have h1 := ih (fun h hh => h0 h (by simp [hh])) fun h hh => hx h (by simp [hh])
    have h2 : ‖w a • x a‖ ≤ w a * r := by
      rw [norm_smul, Real.norm_of_nonneg (h0 a (by simp))]
      exact mul_le_mul_of_nonneg_left (hx a (by simp)) (h0 a (by simp))
    calc _ ≤ ‖w a • x a‖ + _ := norm_add_le _ _
      _ ≤ _ := by rw [add_mul]; linarith

theorem areaAt_nonneg (f : Nat) : 0 ≤ m.areaAt p f := by unfold Mesh.areaAt; positivity

theorem projected_bound {n : Nat → E3} (hn : ∀ f, ‖n f‖ ≤ 1) {v : Nat} {r : ℝ} (hr : 0 ≤ r)
    (h : ∀ x ∈ m.hes, m.hSrc x = v → dist (m.centerOf p (m.hFace x)) (p v) ≤ r) : dist (m.projected p n v) (p v) ≤ r := by
  unfold Mesh.projected
  rw [dist_eq_norm, add_sub_cancel_left, norm_smul, norm_inv]
  have h0 : 0 ≤ ((m.hes.filter fun h => m.hSrc h == v).map fun h => m.areaAt p (m.hFace h)).sum :=
    List.sum_nonneg fun x hx => by
      obtain ⟨h, -, rfl⟩ := List.mem_map.1 hx
      exact areaAt_nonneg _
  have := wmean_le (m.hes.filter fun h => m.hSrc h == v) (fun h => m.areaAt p (m.hFace h))
    (fun h => (inner ℝ (n (m.hFace h)) (m.centerOf p (m.hFace h) - p v)) • n (m.hFace h)) r (fun h _ => areaAt_nonneg _) (by
      intro x hx
      have hx' := List.mem_filter.1 hx
      have d := h x hx'.1 (by simpa using hx'.2)
      rw [dist_eq_norm] at d
      rw [norm_smul]
      have i1 := norm_inner_le_norm (𝕜 := ℝ) (n (m.hFace x)) (m.centerOf p (m.hFace x) - p v)
      have n1 := hn (m.hFace x)
      have n0 := norm_nonneg (n (m.hFace x))
      have d0 := norm_nonneg (m.centerOf p (m.hFace x) - p v)
      have : ‖inner ℝ (n (m.hFace x)) (m.centerOf p (m.hFace x) - p v)‖ ≤ r := by nlinarith
      have := norm_nonneg (inner ℝ (n (m.hFace x)) (m.centerOf p (m.hFace x) - p v))
      nlinarith)
  simp only [smul_smul] at this
  rw [Real.norm_of_nonneg h0]
  by_cases hz : ((m.hes.filter fun h => m.hSrc h == v).map fun h => m.areaAt p (m.hFace h)).sum = 0
  · rw [hz]; simpa using hr
  · rw [inv_mul_le_iff₀ (lt_of_le_of_ne h0 (Ne.symm hz))]
    exact this

/-! ### flat meshes -/

theorem inner_coords (x y : E3) : inner ℝ x y = x 0 * y 0 + x 1 * y 1 + x 2 * y 2 := by
  simp [PiLp.inner_apply, Fin.sum_univ_three, mul_comm]

theorem triNormal_coords (a b c : E3) :
    triNormal a b c 0 = (b - a) 1 * (c - a) 2 - (b - a) 2 * (c - a) 1 ∧
    triNormal a b c 1 = (b - a) 2 * (c - a) 0 - (b - a) 0 * (c - a) 2 ∧
    triNormal a b c 2 = (b - a) 0 * (c - a) 1 - (b - a) 1 * (c - a) 0 := by
  unfold triNormal
  rw [cross_apply]
  exact ⟨rfl, rfl, rfl⟩

theorem inner_triNormal {a b c n : E3} (hn : n ≠ 0) (h1 : inner ℝ n (b - a) = 0) (h2 : inner ℝ n (c - a) = 0) {y : E3}
    (hy : inner ℝ n y = 0) : inner ℝ (triNormal a b c) y = 0 := by
  obtain ⟨e0, e1, e2⟩ := triNormal_coords a b c
  rw [inner_coords] at *
  rw [e0, e1, e2]
  generalize b - a = x at *
  generalize c - a = z at *
  have : n 0 ≠ 0 ∨ n 1 ≠ 0 ∨ n 2 ≠ 0 := by
    by_contra h
    push Not at h
    apply hn
    ext i
    fin_cases i
    · exact h.1
    · exact h.2.1
    · exact h.2.2
  rcases this with h | h | h
  · apply mul_left_cancel₀ h
    linear_combination (z 1 * y 2 - z 2 * y 1) * h1 + (y 1 * x 2 - y 2 * x 1) * h2 + (x 1 * z 2 - x 2 * z 1) * hy
  · apply mul_left_cancel₀ h
    linear_combination (z 2 * y 0 - z 0 * y 2) * h1 + (y 2 * x 0 - y 0 * x 2) * h2 + (x 2 * z 0 - x 0 * z 2) * hy
  · apply mul_left_cancel₀ h
    linear_combination (z 0 * y 1 - z 1 * y 0) * h1 + (y 0 * x 1 - y 1 * x 0) * h2 + (x 0 * z 1 - x 1 * z 0) * hy

theorem inner_unitOf {x y : E3} (h : inner ℝ x y = 0) : inner ℝ (unitOf x) y = 0 := by
  unfold unitOf
  rw [inner_smul_left, h, mul_zero]

theorem inner_sum {l : List Nat} {x : Nat → E3} {y : E3} (h : ∀ a ∈ l, inner ℝ (x a) y = 0) : inner ℝ (l.map x).sum y = 0 := by
  induction l with
  | nil => simp
  | cons a l ih =>
    rw [List.map_cons, List.sum_cons, inner_add_left, h a (by simp), ih fun b hb => h b (by simp [hb]), add_zero]

theorem denoised_flat (w : m.WF) {n : E3} {d : ℝ} (hn : n ≠ 0) (h : ∀ v, m.vAlive v = true → inner ℝ n (p v) = d) (bil : Bool) (σ σn : ℝ)
    {v : Nat} (a : m.vAlive v = true) : m.denoised p bil σ σn v = p v := by
  have fl : ∀ f, m.fAlive f = true → m.vAlive (m.hSrc (m.fHe f)) = true ∧ m.vAlive (m.hSrc (m.hNext (m.fHe f))) = true ∧
      m.vAlive (m.hSrc (m.hNext (m.hNext (m.fHe f)))) = true := fun f af => by
    have ah := (w.fHe_ok f af).1
    exact ⟨w.src_alive _ ah, w.src_alive _ (w.next_alive _ ah), w.src_alive _ (w.next_alive _ (w.next_alive _ ah))⟩
  have area : ∀ f, m.fAlive f = true → ∀ y, inner ℝ n y = 0 → inner ℝ (m.areaVec p f) y = 0 := by
    intro f af y hy
    obtain ⟨a1, a2, a3⟩ := fl f af
    refine inner_triNormal hn ?_ ?_ hy
    · rw [inner_sub_right, h _ a1, h _ a2, sub_self]
    · rw [inner_sub_right, h _ a1, h _ a3, sub_self]
  have filt : ∀ f, m.fAlive f = true → ∀ y, inner ℝ n y = 0 → inner ℝ (m.filteredNormal p bil σ σn f) y = 0 := by
    intro f af y hy
    refine inner_unitOf (inner_sum fun x hx => ?_)
    have ax := (w.hDense.mem x).1 (List.mem_filter.1 hx).1
    rw [inner_smul_left, inner_unitOf (area _ (w.face_alive _ (w.rev_alive _ ax)) y hy), mul_zero]
  unfold Mesh.denoised Mesh.projected
  have : ((m.hes.filter fun h => m.hSrc h == v).map fun h =>
      (m.areaAt p (m.hFace h) * inner ℝ (m.filteredNormal p bil σ σn (m.hFace h)) (m.centerOf p (m.hFace h) - p v)) •
        m.filteredNormal p bil σ σn (m.hFace h)).sum = 0 := by
    apply List.sum_eq_zero
    intro x hx
    obtain ⟨k, hk, rfl⟩ := List.mem_map.1 hx
    have af := w.face_alive _ ((w.hDense.mem k).1 (List.mem_filter.1 hk).1)
    obtain ⟨a1, a2, a3⟩ := fl _ af
    rw [filt _ af, mul_zero, zero_smul]
    unfold Mesh.centerOf
    rw [inner_sub_right, inner_smul_right, inner_add_right, inner_add_right, h _ a1, h _ a2, h _ a3, h _ a]
    ring
  rw [this, smul_zero, add_zero]

/-! ### similar meshes -/

theorem kernelAt_scale {c : ℝ} (hc : 0 < c) (σ x : ℝ) : kernelAt (c * σ) (c * x) = c⁻¹ * kernelAt σ x := by
  unfold kernelAt
  have h2 : c * x < 2 * (c * σ) ↔ x < 2 * σ := by
    rw [show 2 * (c * σ) = c * (2 * σ) by ring]; exact mul_lt_mul_iff_right₀ hc
  have h4 : c * x < 4 * (c * σ) ↔ x < 4 * σ := by
    rw [show 4 * (c * σ) = c * (4 * σ) by ring]; exact mul_lt_mul_iff_right₀ hc
  simp only [h2, h4]
  have e1 : (c * x) ^ 2 / (c * σ) ^ 2 = x ^ 2 / σ ^ 2 := by
    rw [mul_pow, mul_pow, mul_div_mul_left _ _ (pow_pos hc 2).ne']
  have e2 : c * x / (c * σ) = x / σ := mul_div_mul_left _ _ hc.ne'
  rw [e1, e2]
  split
  · rw [show Real.sqrt (2 * Real.pi) * (c * σ) = c * (Real.sqrt (2 * Real.pi) * σ) by ring, div_mul_eq_div_div_swap]
    ring
  · split
    · rw [show Real.sqrt (2 * Real.pi) * (c * σ) = c * (Real.sqrt (2 * Real.pi) * σ) by ring, div_mul_eq_div_div_swap]
      ring
    · rw [mul_zero]

theorem triNormal_scale (c : ℝ) (t x y z : E3) :
    triNormal (c • x + t) (c • y + t) (c • z + t) = (c * c) • triNormal x y z := by
  unfold triNormal
  rw [add_sub_add_right_eq_sub, add_sub_add_right_eq_sub, ← smul_sub, ← smul_sub, WithLp.ofLp_smul, WithLp.ofLp_smul, map_smul,
    map_smul, LinearMap.smul_apply, smul_smul, WithLp.toLp_smul]

theorem dist_scale {c : ℝ} (hc : 0 < c) (t x y : E3) : dist (c • x + t) (c • y + t) = c * dist x y := by
  rw [dist_add_right, dist_smul₀, Real.norm_of_nonneg hc.le]

theorem denoised_scale (w : m.WF) {q : Nat → E3} {c : ℝ} (hc : 0 < c) {t : E3} (h : ∀ v, m.vAlive v = true → q v = c • p v + t)
    (bil : Bool) (σ σn : ℝ) {v : Nat} (a : m.vAlive v = true) :
    m.denoised q bil (c * σ) σn v = c • m.denoised p bil σ σn v + t := by
  have hcc : 0 < c * c := mul_pos hc hc
  have fl : ∀ f, m.fAlive f = true → m.vAlive (m.hSrc (m.fHe f)) = true ∧ m.vAlive (m.hSrc (m.hNext (m.fHe f))) = true ∧
      m.vAlive (m.hSrc (m.hNext (m.hNext (m.fHe f)))) = true := fun f af => by
    have ah := (w.fHe_ok f af).1
    exact ⟨w.src_alive _ ah, w.src_alive _ (w.next_alive _ ah), w.src_alive _ (w.next_alive _ (w.next_alive _ ah))⟩
  have av : ∀ f, m.fAlive f = true → m.areaVec q f = (c * c) • m.areaVec p f := by
    intro f af
    obtain ⟨a1, a2, a3⟩ := fl f af
    unfold Mesh.areaVec
    rw [h _ a1, h _ a2, h _ a3, triNormal_scale]
  have aa : ∀ f, m.fAlive f = true → m.areaAt q f = (c * c) * m.areaAt p f := by
    intro f af
    unfold Mesh.areaAt
    rw [av f af, norm_smul, Real.norm_of_nonneg hcc.le]
    ring
  have ce : ∀ f, m.fAlive f = true → m.centerOf q f = c • m.centerOf p f + t := by
    intro f af
    obtain ⟨a1, a2, a3⟩ := fl f af
    unfold Mesh.centerOf
    rw [h _ a1, h _ a2, h _ a3]
    module
  have un : ∀ f, m.fAlive f = true → unitOf (m.areaVec q f) = unitOf (m.areaVec p f) := fun f af => by
    rw [av f af, unitOf_smul hcc]
  have nw : ∀ f g, m.fAlive f = true → m.fAlive g = true →
      m.normalWeight q bil (c * σ) σn f g = c * m.normalWeight p bil σ σn f g := by
    intro f g af ag
    unfold Mesh.normalWeight
    rw [aa g ag, ce f af, ce g ag, dist_scale hc, kernelAt_scale hc, un f af, un g ag]
    field_simp
  have fi : ∀ f, m.fAlive f = true → m.filteredNormal q bil (c * σ) σn f = m.filteredNormal p bil σ σn f := by
    intro f af
    unfold Mesh.filteredNormal
    refine Eq.trans ?_ (unitOf_smul hc _)
    rw [List.smul_sum, List.map_map]
    congr 2
    refine List.map_congr_left fun x hx => ?_
    have ag := w.face_alive _ (w.rev_alive _ ((w.hDense.mem x).1 (List.mem_filter.1 hx).1))
    rw [Function.comp_apply, nw f _ af ag, un _ ag, smul_smul]
  unfold Mesh.denoised Mesh.projected
  have s1 : ((m.hes.filter fun h => m.hSrc h == v).map fun h => m.areaAt q (m.hFace h)).sum =
      (c * c) * ((m.hes.filter fun h => m.hSrc h == v).map fun h => m.areaAt p (m.hFace h)).sum := by
    rw [← List.sum_map_mul_left]
    congr 1
    exact List.map_congr_left fun x hx => aa _ (w.face_alive _ ((w.hDense.mem x).1 (List.mem_filter.1 hx).1))
  have s2 : ((m.hes.filter fun h => m.hSrc h == v).map fun h =>
      (m.areaAt q (m.hFace h) * inner ℝ (m.filteredNormal q bil (c * σ) σn (m.hFace h)) (m.centerOf q (m.hFace h) - q v)) •
        m.filteredNormal q bil (c * σ) σn (m.hFace h)).sum =
      (c * c * c) • ((m.hes.filter fun h => m.hSrc h == v).map fun h =>
      (m.areaAt p (m.hFace h) * inner ℝ (m.filteredNormal p bil σ σn (m.hFace h)) (m.centerOf p (m.hFace h) - p v)) •
        m.filteredNormal p bil σ σn (m.hFace h)).sum := by
    rw [List.smul_sum, List.map_map]
    congr 1
    refine List.map_congr_left fun x hx => ?_
    have af := w.face_alive _ ((w.hDense.mem x).1 (List.mem_filter.1 hx).1)
    rw [Function.comp_apply, fi _ af, aa _ af, ce _ af, h _ a, add_sub_add_right_eq_sub, ← smul_sub, inner_smul_right, smul_smul]
    congr 1
    ring
  rw [s1, s2, h v a, smul_smul, smul_add, smul_smul, add_right_comm]
  congr 2
  congr 1
  rw [mul_inv]
  field_simp

theorem meanLen_scale (w : m.WF) {q : Nat → E3} {c : ℝ} (hc : 0 < c) {t : E3} (h : ∀ v, m.vAlive v = true → q v = c • p v + t) :
    m.meanLen q = c * m.meanLen p := by
  unfold Mesh.meanLen
  rw [← mul_div_assoc, ← List.sum_map_mul_left]
  congr 2
  refine List.map_congr_left fun x hx => ?_
  have ax := (w.hDense.mem x).1 hx
  rw [h _ (w.src_alive _ ax), h _ (w.src_alive _ (w.next_alive _ ax)), dist_scale hc]

theorem denoise_scale (w : m.WF) {q : Nat → E3} {c : ℝ} (hc : 0 < c) {t : E3} (h : ∀ v, m.vAlive v = true → q v = c • p v + t)
    (bil : Bool) (σ σn : ℝ) : ∀ (n : Nat) {v : Nat}, m.vAlive v = true →
    m.denoise q bil (c * σ) σn n v = c • m.denoise p bil σ σn n v + t
  | 0, v, a => h v a
  | n + 1, v, a => by
    have ih := fun u (b : m.vAlive u = true) => denoise_scale w hc h bil σ σn n b
    refine denoised_scale w hc (fun u b => ?_) bil σ σn a
    have := taubin_affine w ((c • (LinearMap.id : E3 →ₗ[ℝ] E3)).toAffineMap + AffineMap.const ℝ E3 t) (1 / 2) (53 / 100) 6 0
      (m.denoise p bil σ σn n) (m.denoise q bil (c * σ) σn n) (fun u b => by
        simpa using ih u b) u b
    simpa using this

end
end TinyMesh
