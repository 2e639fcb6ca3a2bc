import Verif.Proof.CurvI
import Verif.Props.Curv
import Verif.Props.Fairing
/-
C62: tensors of a triangle. C63: tensors and principal curvatures of the vertices. C64: faces that are no triangles.
-/
set_option maxRecDepth 100000
namespace TinyMesh
open Sample Orbit
attribute [local instance] Sample.ratScalar

/-! ## C62: tensors of a triangle -/

/-- C62: for a triangle of positive area the frame is orthonormal, its third axis is the unit normal of the triangle and its first the
direction from the second corner to the third. For all normals at the corners, the tensor set up in this frame is the only symmetric
one that fits the changes of the normals along the three edges best; the system is regular. -/
theorem c62_face {p0 p1 p2 : Vec3 XR} {x0 x1 x2 : E3} (h0 : p0.Is x0) (h1 : p1.Is x1) (h2 : p2.Is x2) (h : triNormal x0 x1 x2 ≠ 0) :
    ∃ u v n : Vec3 ℝ, faceFrame p0 p1 p2 = some ⟨u.fin, v.fin, n.fin⟩ ∧ Orthonormal ℝ ![u.E, v.E, n.E] ∧ n.E = unitOf (triNormal x0 x1 x2) ∧
      u.E = unitOf (x2 - x1) ∧ ∀ (solve : LinSolve XR) (n0 n1 n2 : Vec3 XR) (y0 y1 y2 : E3), solve.Exact → n0.Is y0 → n1.Is y1 → n2.Is y2 →
        ∃ a b c : ℝ, faceTensor solve ⟨u.fin, v.fin, n.fin⟩ p0 p1 p2 n0 n1 n2 = ⟨.fin a, .fin b, .fin b, .fin c⟩ ∧
          ∀ a' b' c', shapeEnergy u.E v.E x0 x1 x2 y0 y1 y2 a b c ≤ shapeEnergy u.E v.E x0 x1 x2 y0 y1 y2 a' b' c' ∧
            (shapeEnergy u.E v.E x0 x1 x2 y0 y1 y2 a' b' c' ≤ shapeEnergy u.E v.E x0 x1 x2 y0 y1 y2 a b c → a' = a ∧ b' = b ∧ c' = c) := by
  obtain ⟨u, v, n, e, hf, hn, hu, hd⟩ := faceFrame_ok h0 h1 h2 h
  exact ⟨u, v, n, e, hf.on, hn, hu, fun solve n0 n1 n2 y0 y1 y2 hS i0 i1 i2 => faceTensor_fit hS h0 h1 h2 hd.ne' i0 i1 i2⟩

/-- C62: if the normals at the corners are the values of a map that is symmetric on the plane of the triangle (up to a constant and to
the direction of the normal), the tensor is the matrix of that map, exactly. -/
theorem c62_exact {p0 p1 p2 : Vec3 XR} {x0 x1 x2 : E3} (h0 : p0.Is x0) (h1 : p1.Is x1) (h2 : p2.Is x2) (h : triNormal x0 x1 x2 ≠ 0) :
    ∃ u v n : Vec3 ℝ, faceFrame p0 p1 p2 = some ⟨u.fin, v.fin, n.fin⟩ ∧
      ∀ (solve : LinSolve XR) (n0 n1 n2 : Vec3 XR) (y0 y1 y2 : E3) (S : E3 →ₗ[ℝ] E3), solve.Exact → n0.Is y0 → n1.Is y1 → n2.Is y2 →
        inner ℝ (S u.E) v.E = inner ℝ (S v.E) u.E → inner ℝ (S n.E) u.E = 0 → inner ℝ (S n.E) v.E = 0 →
        (∀ z, inner ℝ z n.E = 0 → inner ℝ (y1 - y0) z = inner ℝ (S (x1 - x0)) z ∧ inner ℝ (y2 - y1) z = inner ℝ (S (x2 - x1)) z) →
        faceTensor solve ⟨u.fin, v.fin, n.fin⟩ p0 p1 p2 n0 n1 n2 =
          ⟨.fin (inner ℝ (S u.E) u.E), .fin (inner ℝ (S u.E) v.E), .fin (inner ℝ (S u.E) v.E), .fin (inner ℝ (S v.E) v.E)⟩ := by
  obtain ⟨u, v, n, e, hf, hn, hu, hd⟩ := faceFrame_ok h0 h1 h2 h
  refine ⟨u, v, n, e, fun solve n0 n1 n2 y0 y1 y2 S hS i0 i1 i2 sym su sv hy => ?_⟩
  obtain ⟨a, b, c, e2, fit⟩ := faceTensor_fit (n := n) hS h0 h1 h2 hd.ne' i0 i1 i2
  have un : inner ℝ u.E n.E = 0 := by simpa using hf.on.2 (i := 0) (j := 2) (by decide)
  have vn : inner ℝ v.E n.E = 0 := by simpa using hf.on.2 (i := 1) (j := 2) (by decide)
  have expand : ∀ x z : E3, inner ℝ z n.E = 0 → inner ℝ (S x) z = inner ℝ x u.E * inner ℝ (S u.E) z + inner ℝ x v.E * inner ℝ (S v.E) z +
      inner ℝ x n.E * inner ℝ (S n.E) z := by
    intro x z _
    have hx : x = inner ℝ x u.E • u.E + inner ℝ x v.E • v.E + inner ℝ x n.E • n.E := by
      apply ext_inner_right ℝ
      intro y
      rw [frame_inner hf.on x y, inner_add_left, inner_add_left, inner_smul_left, inner_smul_left, inner_smul_left, real_inner_comm u.E y,
        real_inner_comm v.E y, real_inner_comm n.E y]
      simp only [conj_trivial]
    conv_lhs => rw [hx]
    rw [map_add, map_add, map_smul, map_smul, map_smul, inner_add_left, inner_add_left, inner_smul_left, inner_smul_left, inner_smul_left]
    simp only [conj_trivial]
  have eu : ∀ x, inner ℝ (S x) u.E = inner ℝ (S u.E) u.E * inner ℝ x u.E + inner ℝ (S u.E) v.E * inner ℝ x v.E := fun x => by
    rw [expand x _ un, su, sym]; ring
  have ev : ∀ x, inner ℝ (S x) v.E = inner ℝ (S u.E) v.E * inner ℝ x u.E + inner ℝ (S v.E) v.E * inner ℝ x v.E := fun x => by
    rw [expand x _ vn, sv]; ring
  have y20 : ∀ z, inner ℝ z n.E = 0 → inner ℝ (y0 - y2) z = inner ℝ (S (x0 - x2)) z := fun z hz => by
    obtain ⟨h1, h2⟩ := hy z hz
    have e1 : y0 - y2 = -((y2 - y1) + (y1 - y0)) := by abel
    have e2 : x0 - x2 = -((x2 - x1) + (x1 - x0)) := by abel
    rw [e1, e2, map_neg, map_add, inner_neg_left, inner_add_left, inner_neg_left, inner_add_left, h1, h2]
  have zero : shapeEnergy u.E v.E x0 x1 x2 y0 y1 y2 (inner ℝ (S u.E) u.E) (inner ℝ (S u.E) v.E) (inner ℝ (S v.E) v.E) = 0 := by
    unfold shapeEnergy shapeErr
    rw [(hy _ un).1, (hy _ vn).1, (hy _ un).2, (hy _ vn).2, y20 _ un, y20 _ vn]
    rw [eu (x2 - x1), ev (x2 - x1), eu (x1 - x0), ev (x1 - x0), eu (x0 - x2), ev (x0 - x2)]
    ring
  have pos : 0 ≤ shapeEnergy u.E v.E x0 x1 x2 y0 y1 y2 a b c := by
    unfold shapeEnergy shapeErr
    positivity
  obtain ⟨e3, e4, e5⟩ := (fit _ _ _).2 (by rw [zero]; exact pos)
  rw [e2, e3, e4, e5]

/-- C62: the derivative tensor of a triangle of positive area is the only cubic form that fits the changes of the second fundamental
forms along the edges best; the system is regular. -/
theorem c62_derivative {p0 p1 p2 : Vec3 XR} {x0 x1 x2 : E3} (h0 : p0.Is x0) (h1 : p1.Is x1) (h2 : p2.Is x2) (h : triNormal x0 x1 x2 ≠ 0) :
    ∃ u v n : Vec3 ℝ, faceFrame p0 p1 p2 = some ⟨u.fin, v.fin, n.fin⟩ ∧ ∀ (solve : LinSolve XR) (m0 m1 m2 : ℝ × ℝ × ℝ), solve.Exact →
      ∃ a b c d : ℝ, faceDeriv solve ⟨u.fin, v.fin, n.fin⟩ p0 p1 p2 (.fin m0.1, .fin m0.2.1, .fin m0.2.2) (.fin m1.1, .fin m1.2.1, .fin m1.2.2)
          (.fin m2.1, .fin m2.2.1, .fin m2.2.2) = ⟨.fin a, .fin b, .fin c, .fin d⟩ ∧
        ∀ a' b' c' d', cubicEnergy u.E v.E x0 x1 x2 m0 m1 m2 a b c d ≤ cubicEnergy u.E v.E x0 x1 x2 m0 m1 m2 a' b' c' d' ∧
          (cubicEnergy u.E v.E x0 x1 x2 m0 m1 m2 a' b' c' d' ≤ cubicEnergy u.E v.E x0 x1 x2 m0 m1 m2 a b c d →
            a' = a ∧ b' = b ∧ c' = c ∧ d' = d) := by
  obtain ⟨u, v, n, e, hf, hn, hu, hd⟩ := faceFrame_ok h0 h1 h2 h
  exact ⟨u, v, n, e, fun solve m0 m1 m2 hS => faceDeriv_fit hS h0 h1 h2 hd.ne' m0 m1 m2⟩

/-! ## C63: tensors and principal curvatures of the vertices -/

section
variable {m : Mesh XR} {p : Nat → E3}

/-- C63: on a consistent closed mesh of triangles of positive area whose normals exist and are in general position, and with a solver that
solves regular systems, `getCurvatureTensors` returns for every vertex the mean, weighted by the mixed areas, of the forms of the faces
around it for the axes of the vertex turned into the planes of these faces. -/
theorem c63_tensor (G : m.Good) {solve : LinSolve XR} (hS : solve.Exact) (A : m.AtE p) (C : m.CurvProper p) (hne : m.hes ≠ []) :
    ∃ ts, curvatureTensors solve m = .ok ts m ∧ ts.length = m.vs.length ∧
      ∀ i v : Nat, m.vs[i]? = some v → ∃ r, ts[i]? = some r ∧ m.TensorAt p v r := curvatureTensors_exact G hS A C hne

/-- C63, as far as it holds: on a closed mesh inscribed in a sphere of radius `r`, whatever the shape of its triangles,
`getPrincipalCurvatures` without smoothing returns the maximum `1 / r` exactly; the minimum is too small by the factor
`1 - (l / 2r)²`, where `l` is the length of the first edge at the vertex: the first axis is not in the tangent plane. -/
theorem c63_sphere_partial (G : m.Good) {solve : LinSolve XR} (hS : solve.Exact) (A : m.AtE p) {c : E3} {r : ℝ} (I : m.Inscribed p c r)
    (hb : ∀ v, m.vAlive v = true → m.blurSum p v ≠ 0)
    (ha : ∀ h, m.hAlive h = true → 1 / 10 ^ 12 ≤ InnerProductGeometry.angle (m.vNormal p (m.hSrc h)) (unitOf (m.areaVec p (m.hFace h))))
    (hne : m.hes ≠ []) :
    ∃ ks, principalCurvatures solve false m = .ok ks m ∧ ks.length = m.vs.length ∧
      ∀ i v : Nat, m.vs[i]? = some v → ∃ k, ks[i]? = some k ∧ k.kMax = .fin r⁻¹ ∧
        k.kMin = .fin (r⁻¹ * (1 - ‖p (m.hSrc (m.hNext (m.vHe v))) - p v‖ ^ 2 / (4 * r ^ 2))) := by
  have w := G.wf
  obtain ⟨ts, e, len, h⟩ := curvatureTensors_exact G hS A (I.proper w hb) hne
  have e1 : tensorsFor solve false m = .ok ts m := by
    unfold tensorsFor
    rw [bind_apply, e]
    rfl
  obtain ⟨ks, e2, len2, q⟩ := principals_ok (m := m) (P := fun i k => ∀ v, m.vs[i]? = some v → k.kMax = .fin r⁻¹ ∧
      k.kMin = .fin (r⁻¹ * (1 - ‖p (m.hSrc (m.hNext (m.vHe v))) - p v‖ ^ 2 / (4 * r ^ 2)))) ts fun i t ht => by
    have hlt : i < m.vs.length := by rw [← len]; exact (List.getElem?_eq_some_iff.1 ht).1
    have hv : m.vs[i]? = some m.vs[i] := List.getElem?_eq_getElem hlt
    obtain ⟨t', ht', T⟩ := h i _ hv
    cases ht.symm.trans ht'
    have a := w.vDense.alive_at hv
    obtain ⟨u, v', n, rfl, -, -, hx⟩ := I.tensor w ha a T
    have hh := w.vHe_ok _ a
    have hne := ((I.out _ a).fat _ hh.1 hh.2).ne.1
    rw [hh.2] at hne
    have hr := (I.normal w a).1
    have h1 : 0 < ‖p (m.hSrc (m.hNext (m.vHe m.vs[i]))) - p m.vs[i]‖ := norm_pos_iff.2 (sub_ne_zero.2 hne)
    have hlt2 : r⁻¹ * (1 - ‖p (m.hSrc (m.hNext (m.vHe m.vs[i]))) - p m.vs[i]‖ ^ 2 / (4 * r ^ 2)) < r⁻¹ := by
      have : 0 < r⁻¹ * (‖p (m.hSrc (m.hNext (m.vHe m.vs[i]))) - p m.vs[i]‖ ^ 2 / (4 * r ^ 2)) := by positivity
      linarith
    obtain ⟨P, e3, e4, e5, -⟩ := principal_diag hlt2 (v := v') hx
    exact ⟨P, e3, fun v hv' => by cases hv.symm.trans hv'; exact ⟨e4, e5⟩⟩
  refine ⟨ks, ?_, len2.trans len, fun i v hv => ?_⟩
  · unfold principalCurvatures
    rw [bind_apply, e1]
    exact e2
  · obtain ⟨k, h1, h2⟩ := q i (by rw [len]; exact (List.getElem?_eq_some_iff.1 hv).1)
    exact ⟨k, h1, h2 v hv⟩

end

/-! ## C64: faces that are no triangles -/

/-- C64: none of the curvature functions returns normally for a consistent mesh with a face of more or fewer than three sides, such as
most holes. -/
theorem c64_holes {F : Type} [ScalarX F] {m : Mesh F} (w : m.WF) {f : Nat} (a : m.fAlive f = true)
    (hf : m.sides f ≠ 3) (solve : LinSolve F) (smooth : Bool) :
    (∀ r m', curvatureTensors solve m ≠ .ok r m') ∧ (∀ r m', principalCurvatures solve smooth m ≠ .ok r m') ∧
      ∀ r m', principalDerivatives solve smooth m ≠ .ok r m' := by
  have hl : (orbit m.hNext (m.fHe f)).length ≠ 3 := by rwa [(w.loop_perm a).length_eq, ← List.countP_eq_length_filter]
  exact ⟨fun r m' e => hl (curvatureTensors_tri w e a), fun r m' e => hl (principalCurvatures_tri w e a),
    fun r m' e => hl (principalDerivatives_tri w e a)⟩

/-! ### Examples -/

/-- a right triangle and the normals of a cylinder of radius one around the first axis at its corners, up to their third components -/
example : ∃ u v n : Vec3 ℝ, faceFrame (⟨.fin 0, .fin 0, .fin 0⟩ : Vec3 XR) ⟨.fin 1, .fin 0, .fin 0⟩ ⟨.fin 0, .fin 1, .fin 0⟩ =
    some ⟨u.fin, v.fin, n.fin⟩ ∧ Orthonormal ℝ ![u.E, v.E, n.E] ∧
    ∃ a b c : ℝ, faceTensor exactSolve ⟨u.fin, v.fin, n.fin⟩ ⟨.fin 0, .fin 0, .fin 0⟩ ⟨.fin 1, .fin 0, .fin 0⟩ ⟨.fin 0, .fin 1, .fin 0⟩
      ⟨.fin 0, .fin 0, .fin 1⟩ ⟨.fin 0, .fin 0, .fin 1⟩ ⟨.fin 0, .fin 1, .fin 0⟩ = ⟨.fin a, .fin b, .fin b, .fin c⟩ := by
  have hne : triNormal (⟨0, 0, 0⟩ : Vec3 ℝ).E (⟨1, 0, 0⟩ : Vec3 ℝ).E (⟨0, 1, 0⟩ : Vec3 ℝ).E ≠ 0 := by
    rw [triNormal_E, ← E_zero, Ne, Vec3.E_inj]
    simp [Vec3.cross_def, Vec3.sub_def, Vec3.zero_def]
  obtain ⟨u, v, n, e, o, -, -, h⟩ := c62_face (p0 := ⟨.fin 0, .fin 0, .fin 0⟩) (p1 := ⟨.fin 1, .fin 0, .fin 0⟩) (p2 := ⟨.fin 0, .fin 1, .fin 0⟩)
    ⟨⟨0, 0, 0⟩, rfl, rfl⟩ ⟨⟨1, 0, 0⟩, rfl, rfl⟩ ⟨⟨0, 1, 0⟩, rfl, rfl⟩ hne
  obtain ⟨a, b, c, h1, -⟩ := h exactSolve ⟨.fin 0, .fin 0, .fin 1⟩ ⟨.fin 0, .fin 0, .fin 1⟩ ⟨.fin 0, .fin 1, .fin 0⟩ _ _ _ exactSolve_exact
    ⟨⟨0, 0, 1⟩, rfl, rfl⟩ ⟨⟨0, 0, 1⟩, rfl, rfl⟩ ⟨⟨0, 1, 0⟩, rfl, rfl⟩
  exact ⟨u, v, n, e, o, a, b, c, h1⟩

/-- the normals of a sphere of radius 1/2 at the corners of a triangle: the tensor is twice the identity -/
example : ∃ u v n : Vec3 ℝ, faceFrame (⟨.fin 0, .fin 0, .fin 0⟩ : Vec3 XR) ⟨.fin 1, .fin 0, .fin 0⟩ ⟨.fin 0, .fin 1, .fin 0⟩ =
    some ⟨u.fin, v.fin, n.fin⟩ ∧
    faceTensor exactSolve ⟨u.fin, v.fin, n.fin⟩ ⟨.fin 0, .fin 0, .fin 0⟩ ⟨.fin 1, .fin 0, .fin 0⟩ ⟨.fin 0, .fin 1, .fin 0⟩
      ⟨.fin 0, .fin 0, .fin 1⟩ ⟨.fin 2, .fin 0, .fin 1⟩ ⟨.fin 0, .fin 2, .fin 1⟩ = ⟨.fin 2, .fin 0, .fin 0, .fin 2⟩ := by
  have hne : triNormal (⟨0, 0, 0⟩ : Vec3 ℝ).E (⟨1, 0, 0⟩ : Vec3 ℝ).E (⟨0, 1, 0⟩ : Vec3 ℝ).E ≠ 0 := by
    rw [triNormal_E, ← E_zero, Ne, Vec3.E_inj]
    simp [Vec3.cross_def, Vec3.sub_def, Vec3.zero_def]
  have i0 : (⟨.fin 0, .fin 0, .fin 0⟩ : Vec3 XR).Is (⟨0, 0, 0⟩ : Vec3 ℝ).E := ⟨⟨0, 0, 0⟩, rfl, rfl⟩
  have i1 : (⟨.fin 1, .fin 0, .fin 0⟩ : Vec3 XR).Is (⟨1, 0, 0⟩ : Vec3 ℝ).E := ⟨⟨1, 0, 0⟩, rfl, rfl⟩
  have i2 : (⟨.fin 0, .fin 1, .fin 0⟩ : Vec3 XR).Is (⟨0, 1, 0⟩ : Vec3 ℝ).E := ⟨⟨0, 1, 0⟩, rfl, rfl⟩
  obtain ⟨u, v, n, e, h⟩ := c62_exact i0 i1 i2 hne
  obtain ⟨u', v', n', e', o, -⟩ := c62_face i0 i1 i2 hne
  have e2 := e.symm.trans e'
  simp only [Option.some.injEq, LFrame.mk.injEq, Vec3.fin_inj] at e2
  obtain ⟨rfl, rfl, rfl⟩ := e2
  have uu : inner ℝ u.E u.E = 1 := by have := o.1 0; simp only [Matrix.cons_val_zero] at this; rw [real_inner_self_eq_norm_sq, this, one_pow]
  have vv : inner ℝ v.E v.E = 1 := by have := o.1 1; simp only [Matrix.cons_val_one, Matrix.cons_val_zero] at this; rw [real_inner_self_eq_norm_sq, this, one_pow]
  have uv : inner ℝ u.E v.E = 0 := by simpa using o.2 (i := 0) (j := 1) (by decide)
  have un : inner ℝ u.E n.E = 0 := by simpa using o.2 (i := 0) (j := 2) (by decide)
  have vn : inner ℝ v.E n.E = 0 := by simpa using o.2 (i := 1) (j := 2) (by decide)
  refine ⟨u, v, n, e, ?_⟩
  have := h exactSolve ⟨.fin 0, .fin 0, .fin 1⟩ ⟨.fin 2, .fin 0, .fin 1⟩ ⟨.fin 0, .fin 2, .fin 1⟩ _ _ _ ((2 : ℝ) • LinearMap.id) exactSolve_exact
    ⟨⟨0, 0, 1⟩, rfl, rfl⟩ ⟨⟨2, 0, 1⟩, rfl, rfl⟩ ⟨⟨0, 2, 1⟩, rfl, rfl⟩ (by simp [inner_smul_left, uv, real_inner_comm u.E v.E])
    (by simp [inner_smul_left, real_inner_comm u.E n.E, un]) (by simp [inner_smul_left, real_inner_comm v.E n.E, vn]) (fun z _ => by
      have d1 : (⟨2, 0, 1⟩ : Vec3 ℝ).E - (⟨0, 0, 1⟩ : Vec3 ℝ).E = (2 : ℝ) • ((⟨1, 0, 0⟩ : Vec3 ℝ).E - (⟨0, 0, 0⟩ : Vec3 ℝ).E) := by
        rw [← Vec3.E_sub, ← Vec3.E_sub, ← E_smul]; congr 1; norm_num [Vec3.sub_def, Vec3.smul_def]
      have d2 : (⟨0, 2, 1⟩ : Vec3 ℝ).E - (⟨2, 0, 1⟩ : Vec3 ℝ).E = (2 : ℝ) • ((⟨0, 1, 0⟩ : Vec3 ℝ).E - (⟨1, 0, 0⟩ : Vec3 ℝ).E) := by
        rw [← Vec3.E_sub, ← Vec3.E_sub, ← E_smul]; congr 1; norm_num [Vec3.sub_def, Vec3.smul_def]
      rw [d1, d2]
      exact ⟨rfl, rfl⟩)
  rw [this]
  simp only [LinearMap.smul_apply, LinearMap.id_apply, inner_smul_left, uu, vv, uv, conj_trivial, mul_one, mul_zero]

/-- a regular tetrahedron satisfies the hypotheses of `c63_sphere_partial` and, with `Mesh.Inscribed.proper`, those of `c63_tensor` -/
theorem ball_inscribed : ∃ m : Mesh XR, m.Good ∧ m.vs = [1, 2, 3, 4] ∧ m.hes ≠ [] ∧ (m.AtE fun v => (ballAt v).E) ∧
    m.Inscribed (fun v => (ballAt v).E) 0 (Real.sqrt 3) ∧ (∀ v, m.vAlive v = true → m.blurSum (fun v => (ballAt v).E) v ≠ 0) ∧
    (∀ h, m.hAlive h = true → 1 / 10 ^ 12 ≤ InnerProductGeometry.angle (m.vNormal (fun v => (ballAt v).E) (m.hSrc h))
      (unitOf (m.areaVec (fun v => (ballAt v).E) (m.hFace h)))) ∧
    ∀ h, m.hAlive h = true → ‖(ballAt (m.hSrc (m.hNext h))).E - (ballAt (m.hSrc h)).E‖ ^ 2 = 8 := by
  obtain ⟨m, G, C⟩ := corner_tables
  have w := G.wf
  have hh : ∀ h, m.hAlive h = true → h ∈ [1, 2, 3, 4, 5, 6, 7, 8, 9, 10, 11, 12] := fun h a => by
    rw [← C.hes]; exact (w.hDense.mem h).2 a
  have hv : ∀ v, m.vAlive v = true → v ∈ [1, 2, 3, 4] := fun v a => by rw [← C.vs]; exact (w.vDense.mem v).2 a
  obtain ⟨a1, a2, a3, d, e, f, g, h0⟩ := C
  rw [a3] at e f g h0
  simp only [List.map_cons, List.map_nil, List.cons.injEq, and_true] at e f g h0
  have tri : ∀ h, m.hAlive h = true → m.OnTri h := fun h a => by
    have := hh h a
    simp only [List.mem_cons, List.not_mem_nil, or_false] at this
    unfold Mesh.OnTri
    rcases this with rfl | rfl | rfl | rfl | rfl | rfl | rfl | rfl | rfl | rfl | rfl | rfl <;> simp only [f]
  have onS : ∀ v, m.vAlive v = true → ‖(ballAt v).E - 0‖ = Real.sqrt 3 := fun v a => by
    have := hv v a
    simp only [List.mem_cons, List.not_mem_nil, or_false] at this
    rw [sub_zero, ← Real.sqrt_sq (norm_nonneg _), ← real_inner_self_eq_norm_sq, Vec3.E_inner, Vec3.dot_def]
    rcases this with rfl | rfl | rfl | rfl <;> norm_num [ballAt]
  have num : ∀ h, m.hAlive h = true →
      inner ℝ (triNormal (ballAt (m.hSrc h)).E (ballAt (m.hSrc (m.hNext h))).E (ballAt (m.hSrc (m.hNext (m.hNext h)))).E) (ballAt (m.hSrc h)).E = 4 ∧
      inner ℝ (triNormal (ballAt (m.hSrc h)).E (ballAt (m.hSrc (m.hNext h))).E (ballAt (m.hSrc (m.hNext (m.hNext h)))).E)
        (triNormal (ballAt (m.hSrc h)).E (ballAt (m.hSrc (m.hNext h))).E (ballAt (m.hSrc (m.hNext (m.hNext h)))).E) = 48 ∧
      inner ℝ (ballAt (m.hSrc (m.hNext h))).E (ballAt (m.hSrc h)).E = -1 ∧
      ‖(ballAt (m.hSrc (m.hNext h))).E - (ballAt (m.hSrc h)).E‖ ^ 2 = 8 := fun h a => by
    have := hh h a
    simp only [List.mem_cons, List.not_mem_nil, or_false] at this
    rw [triNormal_E, Vec3.E_inner, Vec3.E_inner, Vec3.E_inner, ← real_inner_self_eq_norm_sq, ← Vec3.E_sub, Vec3.E_inner]
    rcases this with rfl | rfl | rfl | rfl | rfl | rfl | rfl | rfl | rfl | rfl | rfl | rfl <;>
      (simp only [f, e, ballAt]; norm_num [Vec3.cross_def, Vec3.sub_def, Vec3.dot_def])
  have outs3 : ∀ v, m.vAlive v = true → (m.outs v).length = 3 := fun v a => by
    have := hv v a
    simp only [List.mem_cons, List.not_mem_nil, or_false] at this
    unfold Mesh.outs
    rw [a3]
    rcases this with rfl | rfl | rfl | rfl <;> simp only [List.filter_cons, List.filter_nil, e] <;> rfl
  have W : (m.overR ballAt).WF := w.over _
  have I : (m.overR ballAt).Inscribed (fun v => (ballAt v).E) 0 (Real.sqrt 3) := by
    refine ⟨tri, onS, fun v a h ah sh => ?_⟩
    have := (num h ah).1
    change m.hSrc h = v at sh
    rw [sh] at this
    rw [sub_zero]
    change 0 < inner ℝ (triNormal (ballAt v).E (ballAt (m.hSrc (m.hNext h))).E (ballAt (m.hSrc (m.hNext (m.hNext h)))).E) (ballAt v).E
    rw [this]; norm_num
  have s3 : (0 : ℝ) < Real.sqrt 3 := by positivity
  refine ⟨m.overR ballAt, G.over _, a2, ?_, fun v _ => ⟨ballAt v, rfl, rfl⟩, I, ?_, ?_, fun h a => (num h a).2.2.2⟩
  · change m.hes ≠ []
    rw [a3]; simp
  · intro v a hz
    have key : 0 < inner ℝ ((m.overR ballAt).blurSum (fun v => (ballAt v).E) v) (ballAt v).E := by
      unfold Mesh.blurSum
      rw [inner_add_left, inner_sum_list, (I.normal W a).2.2, inner_smul_left, sub_zero, real_inner_self_eq_norm_sq]
      have n3 := onS v a
      rw [sub_zero] at n3
      rw [n3, Real.sq_sqrt (by norm_num)]
      simp only [conj_trivial]
      have bound : ∀ x ∈ ((m.overR ballAt).outs v).map (fun h => inner ℝ (Real.exp (-(1 / 2) * (‖(ballAt v).E -
          (ballAt ((m.overR ballAt).hSrc ((m.overR ballAt).hNext h))).E‖ / (m.overR ballAt).meanLen (fun v => (ballAt v).E)) ^ 2) •
          (m.overR ballAt).vNormal (fun v => (ballAt v).E) ((m.overR ballAt).hSrc ((m.overR ballAt).hNext h))) (ballAt v).E),
          -(Real.sqrt 3)⁻¹ < x := by
        intro x hx
        obtain ⟨h, hm, rfl⟩ := List.mem_map.1 hx
        obtain ⟨ah, sh⟩ := (W.mem_ring a).1 ((W.ring_perm a).mem_iff.2 hm)
        rw [inner_smul_left, (I.normal W (W.src_alive _ (W.next_alive _ ah))).2.2, inner_smul_left, sub_zero]
        have q := (num h ah).2.2
        change m.hSrc h = v at sh
        rw [sh] at q
        change _ < _ * (_ * inner ℝ (ballAt (m.hSrc (m.hNext h))).E (ballAt v).E)
        rw [q.1]
        simp only [conj_trivial]
        have lp : 0 < (m.overR ballAt).meanLen (fun v => (ballAt v).E) := meanLen_pos W ah (by
          intro he
          have q2 := q.2
          change (ballAt (m.hSrc h)).E = (ballAt (m.hSrc (m.hNext h))).E at he
          rw [sh] at he
          rw [he, sub_self, norm_zero] at q2
          norm_num at q2)
        have np : 0 < ‖(ballAt v).E - (ballAt (m.hSrc (m.hNext h))).E‖ := by
          rw [norm_sub_rev]
          by_contra hc
          have : ‖(ballAt (m.hSrc (m.hNext h))).E - (ballAt v).E‖ = 0 := le_antisymm (not_lt.1 hc) (norm_nonneg _)
          have q2 := q.2
          rw [this] at q2
          norm_num at q2
        have ex : Real.exp (-(1 / 2) * (‖(ballAt v).E - (ballAt (m.hSrc (m.hNext h))).E‖ / (m.overR ballAt).meanLen (fun v => (ballAt v).E)) ^ 2) < 1 := by
          rw [Real.exp_lt_one_iff]
          have : 0 < (‖(ballAt v).E - (ballAt (m.hSrc (m.hNext h))).E‖ / (m.overR ballAt).meanLen (fun v => (ballAt v).E)) ^ 2 := by positivity
          linarith
        have i3 : 0 < (Real.sqrt 3)⁻¹ := inv_pos.2 s3
        change _ < Real.exp (-(1 / 2) * (‖(ballAt v).E - (ballAt (m.hSrc (m.hNext h))).E‖ / (m.overR ballAt).meanLen (fun v => (ballAt v).E)) ^ 2) * _
        nlinarith
      have len : (((m.overR ballAt).outs v).map (fun h => inner ℝ (Real.exp (-(1 / 2) * (‖(ballAt v).E -
          (ballAt ((m.overR ballAt).hSrc ((m.overR ballAt).hNext h))).E‖ / (m.overR ballAt).meanLen (fun v => (ballAt v).E)) ^ 2) •
          (m.overR ballAt).vNormal (fun v => (ballAt v).E) ((m.overR ballAt).hSrc ((m.overR ballAt).hNext h))) (ballAt v).E)).length = 3 := by
        rw [List.length_map]; exact outs3 v a
      generalize ((m.overR ballAt).outs v).map _ = l at bound len ⊢
      match l, len with
      | [x, y, z], _ =>
        have b1 := bound x (by simp)
        have b2 := bound y (by simp)
        have b3 := bound z (by simp)
        simp only [List.sum_cons, List.sum_nil]
        linarith
    rw [hz, inner_zero_left] at key
    exact lt_irrefl _ key
  · intro h a
    have aw : (m.overR ballAt).areaVec (fun v => (ballAt v).E) ((m.overR ballAt).hFace h) = _ := areaVec_of W a (tri h a)
    rw [aw, (I.normal W (W.src_alive _ a)).2.2, sub_zero]
    change _ ≤ InnerProductGeometry.angle ((Real.sqrt 3)⁻¹ • (ballAt (m.hSrc h)).E) (unitOf (triNormal (ballAt (m.hSrc h)).E (ballAt (m.hSrc (m.hNext h))).E
      (ballAt (m.hSrc (m.hNext (m.hNext h)))).E))
    obtain ⟨q1, q2, -⟩ := num h a
    generalize triNormal (ballAt (m.hSrc h)).E (ballAt (m.hSrc (m.hNext h))).E (ballAt (m.hSrc (m.hNext (m.hNext h)))).E = T at q1 q2 ⊢
    have hT : ‖T‖ = Real.sqrt 48 := by rw [← q2, real_inner_self_eq_norm_sq, Real.sqrt_sq (norm_nonneg _)]
    have hp : (0 : ℝ) < ‖T‖ := by rw [hT]; positivity
    rw [unitOf, InnerProductGeometry.angle_smul_left_of_pos _ _ (inv_pos.2 s3), InnerProductGeometry.angle_smul_right_of_pos _ _ (inv_pos.2 hp)]
    have hc : Real.cos (InnerProductGeometry.angle (ballAt (m.hSrc h)).E T) = 1 / 3 := by
      rw [InnerProductGeometry.cos_angle, real_inner_comm, q1, hT]
      have := onS _ (w.src_alive _ a)
      rw [sub_zero] at this
      rw [this, ← Real.sqrt_mul (by norm_num), show (3 : ℝ) * 48 = 12 ^ 2 by norm_num, Real.sqrt_sq (by norm_num)]
      norm_num
    by_contra hlt
    have h0 := InnerProductGeometry.angle_nonneg (ballAt (m.hSrc h)).E T
    have h1 := Real.one_sub_sq_div_two_le_cos (x := InnerProductGeometry.angle (ballAt (m.hSrc h)).E T)
    rw [hc] at h1
    have h2 : InnerProductGeometry.angle (ballAt (m.hSrc h)).E T < 1 := lt_of_lt_of_le (not_le.1 hlt) (by norm_num)
    nlinarith

/-- a tetrahedron has the tensors described in `c63_tensor` -/
example : ∃ (m : Mesh XR) (ts : List (Mat2 XR × LFrame XR)), m.Good ∧ m.vs = [1, 2, 3, 4] ∧ curvatureTensors exactSolve m = .ok ts m ∧
    ∃ r, ts[0]? = some r ∧ m.TensorAt (fun v => (ballAt v).E) 1 r := by
  obtain ⟨m, G, vs, hne, A, I, hb, -⟩ := ball_inscribed
  obtain ⟨ts, h1, -, h2⟩ := c63_tensor G exactSolve_exact A (I.proper G.wf hb) hne
  exact ⟨m, ts, G, vs, h1, h2 0 1 (by rw [vs]; rfl)⟩

/-- C63 does not hold: both principal curvatures of a sphere of radius `r` are `1 / r`, but the minimum returned for an inscribed mesh is
smaller at every vertex; for a regular tetrahedron it is a third of the right value. -/
theorem c63_counterexample : (∀ (m : Mesh XR) (p : Nat → E3) (c : E3) (r : ℝ) (solve : LinSolve XR), m.Good → solve.Exact → m.AtE p →
      m.Inscribed p c r → (∀ v, m.vAlive v = true → m.blurSum p v ≠ 0) →
      (∀ h, m.hAlive h = true → 1 / 10 ^ 12 ≤ InnerProductGeometry.angle (m.vNormal p (m.hSrc h)) (unitOf (m.areaVec p (m.hFace h)))) →
      m.hes ≠ [] → ∃ ks, principalCurvatures solve false m = .ok ks m ∧ ks.length = m.vs.length ∧
        ∀ k ∈ ks, ∃ x, k.kMin = .fin x ∧ x < r⁻¹) ∧
    ∃ (m : Mesh XR) (ks : List (Principal XR)), m.Good ∧ m.vs = [1, 2, 3, 4] ∧ m.Inscribed (fun v => (ballAt v).E) 0 (Real.sqrt 3) ∧
      principalCurvatures exactSolve false m = .ok ks m ∧ ks.length = 4 ∧
      ∀ k ∈ ks, k.kMax = .fin (Real.sqrt 3)⁻¹ ∧ k.kMin = .fin ((Real.sqrt 3)⁻¹ / 3) := by
  constructor
  · intro m p c r solve G hS A I hb ha hne
    obtain ⟨ks, e, len, h⟩ := c63_sphere_partial G hS A I hb ha hne
    refine ⟨ks, e, len, fun k hk => ?_⟩
    obtain ⟨i, hi⟩ := List.mem_iff_getElem?.1 hk
    have hlt : i < m.vs.length := by rw [← len]; exact (List.getElem?_eq_some_iff.1 hi).1
    have hv : m.vs[i]? = some m.vs[i] := List.getElem?_eq_getElem hlt
    obtain ⟨k', hk', -, h2⟩ := h i _ hv
    cases hi.symm.trans hk'
    have a := G.wf.vDense.alive_at hv
    have hh := G.wf.vHe_ok _ a
    have hn := ((I.out _ a).fat _ hh.1 hh.2).ne.1
    rw [hh.2] at hn
    have hr := (I.normal G.wf a).1
    have h1 : 0 < ‖p (m.hSrc (m.hNext (m.vHe m.vs[i]))) - p m.vs[i]‖ := norm_pos_iff.2 (sub_ne_zero.2 hn)
    have : 0 < r⁻¹ * (‖p (m.hSrc (m.hNext (m.vHe m.vs[i]))) - p m.vs[i]‖ ^ 2 / (4 * r ^ 2)) := by positivity
    exact ⟨_, h2, by linarith⟩
  · obtain ⟨m, G, vs, hne, A, I, hb, ha, h8⟩ := ball_inscribed
    obtain ⟨ks, e, len, h⟩ := c63_sphere_partial G exactSolve_exact A I hb ha hne
    refine ⟨m, ks, G, vs, I, e, by rw [len, vs]; rfl, fun k hk => ?_⟩
    obtain ⟨i, hi⟩ := List.mem_iff_getElem?.1 hk
    have hlt : i < m.vs.length := by rw [← len]; exact (List.getElem?_eq_some_iff.1 hi).1
    have hv : m.vs[i]? = some m.vs[i] := List.getElem?_eq_getElem hlt
    obtain ⟨k', hk', h1, h2⟩ := h i _ hv
    cases hi.symm.trans hk'
    refine ⟨h1, h2.trans ?_⟩
    have hh := G.wf.vHe_ok _ (G.wf.vDense.alive_at hv)
    have e8 := h8 _ hh.1
    rw [hh.2] at e8
    rw [e8, Real.sq_sqrt (by norm_num)]
    congr 1
    ring

/-- the hypotheses of `c64_holes` hold for the square, whose hole has four sides -/
example : ∃ (m : Mesh Rat) (m' : Mesh XR), squareMesh = .ok () m ∧ m' = m.overR squareAt ∧ m'.WF ∧ m'.fAlive 3 = true ∧ m'.sides 3 ≠ 3 ∧
    ∀ r m1, principalCurvatures exactSolve true m' ≠ .ok r m1 := by
  obtain ⟨m, h, S⟩ := squareMesh_ok
  have w := (S.good.over fun v => (squareAt v).fin).wf
  have a : (m.overR squareAt).fAlive 3 = true := S.alive
  have hs : (m.overR squareAt).sides 3 ≠ 3 := by change m.sides 3 ≠ 3; rw [S.sides]; omega
  exact ⟨m, _, h, rfl, w, a, hs, (c64_holes w a hs exactSolve true).2.1⟩

end TinyMesh
