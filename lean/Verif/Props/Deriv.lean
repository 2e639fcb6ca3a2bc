import Verif.Proof.CurvL
import Verif.Props.Tensor
/-
C91: smoothing of the tensors and derivatives of the curvatures.
-/
set_option maxRecDepth 100000
namespace TinyMesh
open Sample Orbit
attribute [local instance] Sample.ratScalar

section
variable {m : Mesh XR} {p : Nat → E3}

/-- C91: for tensors with unit axes and normals none of which is opposite to that of a neighbour, `smoothingTensors` returns. The axes are
kept, and each entry of the tensor of a vertex is the mean, weighted by distance, of its old value and the values of the tensors of all
neighbours for the axes turned into their planes. -/
theorem c91_smooth (w : m.WF) (A : m.AtE p) (hne : m.hes ≠ []) (T : Nat → VertTensor) (hs : m.meanLen p ≠ 0)
    (unit : ∀ v, m.vAlive v = true → ‖(T v).u.E‖ = 1 ∧ ‖(T v).v.E‖ = 1 ∧ ‖(T v).n.E‖ = 1)
    (opp : ∀ h, m.hAlive h = true → (T (m.hSrc (m.hNext h))).n.E ≠ -(T (m.hSrc h)).n.E) :
    ∃ T' : Nat → VertTensor, smoothTensors (m.vs.map fun v => (T v).row) m = .ok (m.vs.map fun v => (T' v).row) m ∧
      ∀ v, m.vAlive v = true → m.SmoothedAt p T v (T' v) := smoothTensors_exact w A hne hs unit opp

/-- C91: smoothing does not leave a range of curvatures that contains zero: if the curvatures of all tensors, in every direction, lie
between `lo ≤ 0` and `hi ≥ 0`, so do those of the smoothed ones. -/
theorem c91_range (w : m.WF) (A : m.AtE p) (hne : m.hes ≠ []) (T : Nat → VertTensor) (hs : m.meanLen p ≠ 0)
    (unit : ∀ v, m.vAlive v = true → ‖(T v).u.E‖ = 1 ∧ ‖(T v).v.E‖ = 1 ∧ ‖(T v).n.E‖ = 1)
    (opp : ∀ h, m.hAlive h = true → (T (m.hSrc (m.hNext h))).n.E ≠ -(T (m.hSrc h)).n.E)
    (axes : ∀ v, m.vAlive v = true → inner ℝ (T v).u.E (T v).v.E = 0) {lo hi : ℝ} (l0 : lo ≤ 0) (h0 : 0 ≤ hi)
    (h : ∀ v, m.vAlive v = true → ∀ x y, lo * (x ^ 2 + y ^ 2) ≤ (T v).quad x y ∧ (T v).quad x y ≤ hi * (x ^ 2 + y ^ 2)) :
    ∃ T' : Nat → VertTensor, smoothTensors (m.vs.map fun v => (T v).row) m = .ok (m.vs.map fun v => (T' v).row) m ∧
      ∀ v, m.vAlive v = true → ∀ x y, lo * (x ^ 2 + y ^ 2) ≤ (T' v).quad x y ∧ (T' v).quad x y ≤ hi * (x ^ 2 + y ^ 2) := by
  obtain ⟨T', e, hT⟩ := smoothTensors_exact w A hne hs unit opp
  exact ⟨T', e, fun v a => SmoothedAt.range w a (hT v a) (fun v a => ⟨(unit v a).1, (unit v a).2.1, axes v a⟩) l0 h0 h⟩

/-- C91, as far as it holds: on a consistent closed mesh of triangles of positive area whose normals exist and are in general position, and
with a solver that solves regular systems, `getPrincipalCurvaturesWithDerivatives` returns, with or without smoothing. The curvatures and
directions are those of `getPrincipalCurvatures`, the eigenvalues of the (smoothed) tensors. The derivatives are the means, weighted by the
mixed areas, of the trilinear forms that fit the changes of the second fundamental forms along the edges of the faces best, evaluated in
the two directions; they are zero where the curvatures differ by less than 1e-6. Missing: the form that is differentiated is not that of the
tensor (`c91_counterexample`). -/
theorem c91_derivatives_partial (G : m.Good) {solve : LinSolve XR} (hS : solve.Exact) (A : m.AtE p) (C : m.CurvProper p) (hne : m.hes ≠ [])
    (smooth : Bool) (opp : smooth = true → ∀ h, m.hAlive h = true → m.vNormal p (m.hSrc (m.hNext h)) ≠ -m.vNormal p (m.hSrc h)) :
    ∃ (T0 T : Nat → VertTensor) (K : Nat → VertCurv) (E : Nat → ℝ × ℝ),
      tensorsFor solve smooth m = .ok (m.vs.map fun v => (T v).row) m ∧
      principalCurvatures solve smooth m = .ok (m.vs.map fun v => (K v).row) m ∧
      principalDerivatives solve smooth m = .ok (m.vs.map fun v => (K v).row, m.vs.map fun v => (.fin (E v).1, .fin (E v).2)) m ∧
      ∀ v, m.vAlive v = true → m.TensorAt p v (T0 v).row ∧ (smooth = false → T v = T0 v) ∧
        (smooth = true → m.SmoothedAt p T0 v (T v)) ∧ (T v).HasCurv (K v) ∧ m.DerivAt p T K v (E v) ∧
        ((K v).kMax - (K v).kMin < 1 / 10 ^ 6 → E v = (0, 0)) := by
  obtain ⟨T0, T, K, E, e1, e2, e3, h⟩ := principalDerivatives_exact G hS A C hne smooth opp
  exact ⟨T0, T, K, E, e1, e2, e3, fun v a => by
    obtain ⟨h1, h2, h3, h4, h5, h6⟩ := h v a
    exact ⟨h1, h3, h4, h5, h6, fun hk => DerivAt.umbilic h6 h5 hk⟩⟩

/-- On every such mesh, at every vertex whose curvatures differ by at least 1e-6, the two curvatures are exchanged in the form that is
differentiated: in the first direction its value is the maximum, that of the tensor the minimum. -/
theorem c91_exchanged (G : m.Good) {solve : LinSolve XR} (hS : solve.Exact) (A : m.AtE p) (C : m.CurvProper p) (hne : m.hes ≠ [])
    (smooth : Bool) (opp : smooth = true → ∀ h, m.hAlive h = true → m.vNormal p (m.hSrc (m.hNext h)) ≠ -m.vNormal p (m.hSrc h)) :
    ∃ (T : Nat → VertTensor) (K : Nat → VertCurv) (E : Nat → ℝ × ℝ),
      tensorsFor solve smooth m = .ok (m.vs.map fun v => (T v).row) m ∧
      principalDerivatives solve smooth m = .ok (m.vs.map fun v => (K v).row, m.vs.map fun v => (.fin (E v).1, .fin (E v).2)) m ∧
      ∀ v, m.vAlive v = true → m.DerivAt p T K v (E v) ∧ (1 / 10 ^ 6 ≤ (K v).kMax - (K v).kMin →
        (K v).form (K v).tMax.E (K v).tMax.E = (K v).kMax ∧ (T v).form (K v).tMax.E (K v).tMax.E = (K v).kMin) := by
  obtain ⟨T0, T, K, E, e1, e2, e3, h⟩ := principalDerivatives_exact G hS A C hne smooth opp
  exact ⟨T, K, E, e1, e3, fun v a => by
    obtain ⟨h1, h2, h3, h4, h5, h6⟩ := h v a
    obtain ⟨u1, u2, -, u3, -⟩ := h2.unit G.wf C a
    exact ⟨h6, HasCurv.swapped h5 u1 u2 u3⟩⟩

end

/-! ### Examples -/

theorem ball_opposite {m : Mesh XR} (w : m.WF) (I : m.Inscribed (fun v => (ballAt v).E) 0 (Real.sqrt 3))
    (h8 : ∀ h, m.hAlive h = true → ‖(ballAt (m.hSrc (m.hNext h))).E - (ballAt (m.hSrc h)).E‖ ^ 2 = 8) :
    ∀ h, m.hAlive h = true → m.vNormal (fun v => (ballAt v).E) (m.hSrc (m.hNext h)) ≠ -m.vNormal (fun v => (ballAt v).E) (m.hSrc h) := by
  intro h ah e
  have a := w.src_alive _ ah
  have a' := w.src_alive _ (w.next_alive _ ah)
  obtain ⟨hr, -, e1⟩ := I.normal w a
  obtain ⟨-, -, e2⟩ := I.normal w a'
  rw [e1, e2, sub_zero, sub_zero, ← smul_neg] at e
  have e3 : (ballAt (m.hSrc (m.hNext h))).E = -(ballAt (m.hSrc h)).E := smul_right_injective _ (inv_ne_zero hr.ne') e
  have n3 := I.sphere _ a
  rw [sub_zero] at n3
  have := h8 h ah
  rw [e3, show -(ballAt (m.hSrc h)).E - (ballAt (m.hSrc h)).E = (-2 : ℝ) • (ballAt (m.hSrc h)).E by rw [neg_smul, two_smul]; abel, norm_smul, n3,
    mul_pow, Real.sq_sqrt (by norm_num)] at this
  norm_num at this

/-- the tetrahedron meets the hypotheses of `c91_derivatives_partial` and `c91_exchanged`, with smoothing and without -/
example (smooth : Bool) : ∃ (m : Mesh XR) (T0 T : Nat → VertTensor) (K : Nat → VertCurv) (E : Nat → ℝ × ℝ), m.Good ∧ m.vs = [1, 2, 3, 4] ∧
    principalDerivatives exactSolve smooth m = .ok (m.vs.map fun v => (K v).row, m.vs.map fun v => (.fin (E v).1, .fin (E v).2)) m ∧
    m.TensorAt (fun v => (ballAt v).E) 1 (T0 1).row ∧ (smooth = true → m.SmoothedAt (fun v => (ballAt v).E) T0 1 (T 1)) ∧
    m.DerivAt (fun v => (ballAt v).E) T K 1 (E 1) := by
  obtain ⟨m, G, vs, hne, A, I, hb, -, h8⟩ := ball_inscribed
  obtain ⟨T0, T, K, E, -, -, e, h⟩ := c91_derivatives_partial G exactSolve_exact A (I.proper G.wf hb) hne smooth (fun _ => ball_opposite G.wf I h8)
  obtain ⟨h1, -, h2, -, h3, -⟩ := h 1 ((G.wf.vDense.mem 1).1 (by rw [vs]; decide))
  exact ⟨m, T0, T, K, E, G, vs, e, h1, h2, h3⟩

/-- C91 does not hold: at all vertices of the tetrahedron the form that is differentiated is not that of the tensor. In the first
direction the curvature of the tensor is a third of `1 / √3`, that of the form is `1 / √3`. -/
theorem c91_counterexample : ∃ (m : Mesh XR) (T : Nat → VertTensor) (K : Nat → VertCurv) (E : Nat → ℝ × ℝ), m.Good ∧ m.vs = [1, 2, 3, 4] ∧
    m.Inscribed (fun v => (ballAt v).E) 0 (Real.sqrt 3) ∧
    tensorsFor exactSolve false m = .ok (m.vs.map fun v => (T v).row) m ∧
    principalDerivatives exactSolve false m = .ok (m.vs.map fun v => (K v).row, m.vs.map fun v => (.fin (E v).1, .fin (E v).2)) m ∧
    ∀ v ∈ m.vs, m.DerivAt (fun v => (ballAt v).E) T K v (E v) ∧
      (T v).form (K v).tMax.E (K v).tMax.E = (Real.sqrt 3)⁻¹ / 3 ∧ (K v).form (K v).tMax.E (K v).tMax.E = (Real.sqrt 3)⁻¹ := by
  obtain ⟨m, G, vs, hne, A, I, hb, ha, h8⟩ := ball_inscribed
  have C := I.proper G.wf hb
  obtain ⟨T0, T, K, E, e1, e2, e3, h⟩ := principalDerivatives_exact G exactSolve_exact A C hne false (fun hf => by cases hf)
  obtain ⟨ks, f1, len, f2⟩ := c63_sphere_partial G exactSolve_exact A I hb ha hne
  rw [e2] at f1
  cases f1
  refine ⟨m, T, K, E, G, vs, I, e1, e3, fun v hv => ?_⟩
  have a := (G.wf.vDense.mem v).1 hv
  obtain ⟨h1, h2, h3, h4, h5, h6⟩ := h v a
  obtain ⟨u1, u2, -, u3, -⟩ := h2.unit G.wf C a
  obtain ⟨i, hi⟩ := List.mem_iff_getElem?.1 hv
  obtain ⟨k, k1, k2, k3⟩ := f2 i v hi
  rw [krows_at hi] at k1
  cases k1
  have kmax : (K v).kMax = (Real.sqrt 3)⁻¹ := XR.fin.inj k2
  have kmin : (K v).kMin = (Real.sqrt 3)⁻¹ / 3 := by
    have := XR.fin.inj k3
    have hh := G.wf.vHe_ok _ a
    have e8 := h8 _ hh.1
    rw [hh.2] at e8
    rw [e8, Real.sq_sqrt (by norm_num)] at this
    rw [this]
    ring
  have big : 1 / 10 ^ 6 ≤ (K v).kMax - (K v).kMin := by
    rw [kmax, kmin]
    have s2 : Real.sqrt 3 < 2 := by rw [Real.sqrt_lt' (by norm_num)]; norm_num
    have s0 : 0 < Real.sqrt 3 := by positivity
    have : (2 : ℝ)⁻¹ < (Real.sqrt 3)⁻¹ := (inv_lt_inv₀ (by norm_num) s0).2 s2
    linarith
  obtain ⟨g1, g2⟩ := HasCurv.swapped h5 u1 u2 u3 big
  exact ⟨h6, by rw [g2, kmin], by rw [g1, kmax]⟩

/-- the tensors of the tetrahedron meet the hypotheses of `c91_smooth` and, with a range that contains all curvatures, of `c91_range` -/
example : ∃ (m : Mesh XR) (T T' : Nat → VertTensor), m.Good ∧ m.vs = [1, 2, 3, 4] ∧
    tensorsFor exactSolve false m = .ok (m.vs.map fun v => (T v).row) m ∧
    smoothTensors (m.vs.map fun v => (T v).row) m = .ok (m.vs.map fun v => (T' v).row) m ∧
    ∀ v ∈ m.vs, m.SmoothedAt (fun v => (ballAt v).E) T v (T' v) ∧ ∀ x y, 0 * (x ^ 2 + y ^ 2) ≤ (T' v).quad x y ∧ (T' v).quad x y ≤ (Real.sqrt 3)⁻¹ * (x ^ 2 + y ^ 2) := by
  obtain ⟨m, G, vs, hne, A, I, hb, ha, h8⟩ := ball_inscribed
  have w := G.wf
  have C := I.proper w hb
  obtain ⟨T0, T, e, h⟩ := tensorsFor_exact G exactSolve_exact A C hne false (fun hf => by cases hf)
  have hlen : m.meanLen (fun v => (ballAt v).E) ≠ 0 := by
    obtain ⟨h, hh⟩ := List.exists_mem_of_ne_nil _ hne
    have ah := (w.hDense.mem h).1 hh
    exact (meanLen_pos w ah (C.closed h ah).2.ne.1.symm).ne'
  have unit : ∀ v, m.vAlive v = true → ‖(T v).u.E‖ = 1 ∧ ‖(T v).v.E‖ = 1 ∧ ‖(T v).n.E‖ = 1 := fun v a => by
    obtain ⟨x1, x2, x3, -⟩ := (h v a).2.1.unit w C a
    exact ⟨x1, x2, x3⟩
  have opp : ∀ h, m.hAlive h = true → (T (m.hSrc (m.hNext h))).n.E ≠ -(T (m.hSrc h)).n.E := fun k ak => by
    rw [(h _ (w.src_alive _ ak)).2.1.1, (h _ (w.src_alive _ (w.next_alive _ ak))).2.1.1]
    exact ball_opposite w I h8 k ak
  obtain ⟨T', e', hT⟩ := c91_smooth w A hne T hlen unit opp
  have pos : (0 : ℝ) < (Real.sqrt 3)⁻¹ := by positivity
  obtain ⟨T'', e'', hT'⟩ := c91_range w A hne T hlen unit opp (fun v a => ((h v a).2.1.unit w C a).2.2.2.1) (lo := 0) (hi := (Real.sqrt 3)⁻¹) le_rfl pos.le
    (fun v a x y => by
      obtain ⟨h1, h2, h3, -⟩ := h v a
      rw [← h3 rfl] at h1
      obtain ⟨u, v', n, er, -, -, -⟩ := I.tensor w ha a h1
      unfold VertTensor.row at er
      simp only [Prod.mk.injEq, Mat2.mk.injEq, XR.fin.injEq] at er
      obtain ⟨⟨ea, eb, -, ec⟩, -⟩ := er
      have hh := w.vHe_ok _ a
      have e8 := h8 _ hh.1
      rw [hh.2] at e8
      rw [e8, Real.sq_sqrt (by norm_num)] at ea
      unfold VertTensor.quad
      rw [ea, eb, ec]
      constructor
      · nlinarith [mul_nonneg pos.le (sq_nonneg x), mul_nonneg pos.le (sq_nonneg y)]
      · nlinarith [mul_nonneg pos.le (sq_nonneg x), mul_nonneg pos.le (sq_nonneg y)])
  refine ⟨m, T, T', G, vs, e, e', fun v hv => ⟨hT v ((w.vDense.mem v).1 hv), ?_⟩⟩
  rw [e'] at e''
  have hrow : ∀ v ∈ m.vs, (T' v).row = (T'' v).row := by
    have := (Out.ok.inj e'').1
    exact fun v hv => List.map_inj_left.1 this v hv
  have hr := hrow v hv
  unfold VertTensor.row at hr
  simp only [Prod.mk.injEq, Mat2.mk.injEq, XR.fin.injEq] at hr
  obtain ⟨⟨ra, rb, -, rc⟩, -⟩ := hr
  have := hT' v ((w.vDense.mem v).1 hv)
  unfold VertTensor.quad at this ⊢
  rw [ra, rb, rc]
  exact this

end TinyMesh
