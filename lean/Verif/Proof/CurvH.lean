import Verif.Proof.CurvG
/-
Principal curvatures of meshes inscribed in a sphere.
-/
namespace TinyMesh
open Orbit

/-- inner products by coordinates in an orthonormal frame -/
theorem frame_inner {u v n : E3} (h : Orthonormal ℝ ![u, v, n]) (x y : E3) :
    inner ℝ x y = inner ℝ x u * inner ℝ y u + inner ℝ x v * inner ℝ y v + inner ℝ x n * inner ℝ y n := by
  have hc : Fintype.card (Fin 3) = Module.finrank ℝ E3 := by simp
  have hb := (basisOfOrthonormalOfCardEqFinrank h hc)
  let b : OrthonormalBasis (Fin 3) ℝ E3 := (basisOfOrthonormalOfCardEqFinrank h hc).toOrthonormalBasis (by
    rw [coe_basisOfOrthonormalOfCardEqFinrank]; exact h)
  have hbi : ∀ i, b i = ![u, v, n] i := fun i => by
    simp only [b, Module.Basis.coe_toOrthonormalBasis, coe_basisOfOrthonormalOfCardEqFinrank]
  have := b.sum_inner_mul_inner x y
  rw [Fin.sum_univ_three, hbi, hbi, hbi] at this
  simp only [Matrix.cons_val_zero, Matrix.cons_val_one, Matrix.cons_val_two, Matrix.tail_cons, Matrix.head_cons, Matrix.cons_val] at this
  rw [← this, real_inner_comm u y, real_inner_comm v y, real_inner_comm n y]

/-- a rotation keeps inner products -/
theorem rotation_inner {A : Matrix (Fin 3) (Fin 3) ℝ} (hA : A ∈ Matrix.specialOrthogonalGroup (Fin 3) ℝ) {x y x' y' : E3}
    (hx : x'.ofLp = A.mulVec x.ofLp) (hy : y'.ofLp = A.mulVec y.ofLp) : inner ℝ x' y' = inner ℝ x y := by
  have h1 : A.transpose * A = 1 := (Matrix.mem_orthogonalGroup_iff' (Fin 3) ℝ).1 (Matrix.mem_specialOrthogonalGroup_iff.1 hA).1
  rw [EuclideanSpace.inner_eq_star_dotProduct, EuclideanSpace.inner_eq_star_dotProduct, hx, hy]
  simp only [star_trivial]
  rw [Matrix.dotProduct_mulVec, Matrix.vecMul_mulVec, h1, Matrix.vecMul_one]

/-- the principal curvatures of a diagonal tensor with increasing entries -/
theorem principal_diag {a c : ℝ} (h : a < c) {u v n : Vec3 ℝ} (hx : (n.cross u).E ≠ 0) :
    ∃ P, principal (⟨.fin a, .fin 0, .fin 0, .fin c⟩ : Mat2 XR) u.fin v.fin n.fin = .ok P ∧ P.kMax = .fin c ∧ P.kMin = .fin a ∧
      (c - a < 1 / 10 ^ 6 → P.tMax.Is 0 ∧ P.tMin.Is 0) ∧
      (1 / 10 ^ 6 ≤ c - a → P.tMax.Is u.E ∧ P.tMin.Is (unitOf (n.cross u).E)) := by
  have hj : jacobi (⟨.fin a, .fin 0, .fin 0, .fin c⟩ : Mat2 XR) = (.fin 1, .fin 0, .fin 0) := by
    unfold jacobi
    simp only [X_lit, X_eq, R_lit0, R_lit1]
    rw [if_pos ((R_eq _ _).2 rfl)]
  obtain ⟨t, e1, e2⟩ := Vec3.Is.normalize ⟨n.cross u, rfl, rfl⟩ hx
  have hd : ((u.fin).smul (.fin 1)).sub ((v.fin).smul (.fin 0)) = u.fin := by
    rw [Vec3.X_vsmul, Vec3.X_vsmul, Vec3.X_vsub, Vec3.fin_inj]
    apply Vec3.ext' <;> simp [Vec3.sub_def, Vec3.smul_def]
  unfold principal
  rw [hj]
  simp only [X_mul, X_sub, X_add, X_lt, mul_zero, sub_zero, add_zero]
  rw [if_pos ((R_lt _ _).2 h), hd]
  dsimp only
  rw [Vec3.X_vcross, e1]
  dsimp only
  rw [X_sub, X_abs, X_lit, X_lt, abs_of_neg (by linarith : a - c < 0), neg_sub]
  by_cases hl : c - a < 1 / 10 ^ 6
  · rw [if_pos ((R_lt _ _).2 (by rw [R_lit]; norm_num at hl ⊢; exact hl))]
    exact ⟨_, rfl, rfl, rfl, fun _ => ⟨Vec3.Is.zero, Vec3.Is.zero⟩, fun h' => absurd hl (not_lt.2 h')⟩
  · rw [if_neg (by rw [R_lt, R_lit]; norm_num at hl ⊢; exact hl)]
    exact ⟨_, rfl, rfl, rfl, fun h' => absurd h' hl, fun _ => ⟨⟨u, rfl, rfl⟩, e2⟩⟩

theorem principals_ok {F : Type} [ScalarX F] {m : Mesh F} {P : Nat → Principal F → Prop} :
    ∀ (ts : List (Mat2 F × LFrame F)), (∀ (i : Nat) t, ts[i]? = some t → ∃ k, principal t.1 t.2.u t.2.v t.2.n = .ok k ∧ P i k) →
      ∃ ks, principals ts m = .ok ks m ∧ ks.length = ts.length ∧ ∀ i : Nat, i < ts.length → ∃ k, ks[i]? = some k ∧ P i k := by
  intro ts
  induction ts generalizing P with
  | nil => intro _; exact ⟨[], rfl, rfl, fun i hi => by simp at hi⟩
  | cons t ts ih =>
    intro h
    obtain ⟨k, e, pk⟩ := h 0 t (by simp)
    obtain ⟨ks, e', len, q⟩ := ih (P := fun i => P (i + 1)) fun i t' hi => h (i + 1) t' (by simpa using hi)
    refine ⟨k :: ks, ?_, by simp [len], fun i hi => ?_⟩
    · rw [principals, bind_apply, e]
      change (principals ts >>= fun ks => pure (k :: ks)) m = _
      rw [bind_apply, e']
      rfl
    · cases i with
      | zero => exact ⟨k, by simp, pk⟩
      | succ i => obtain ⟨b, h1, h2⟩ := q i (by simpa using hi); exact ⟨b, by simpa using h1, h2⟩

section
variable {m : Mesh XR} {p : Nat → E3} {c : E3} {r : ℝ}

theorem Mesh.Inscribed.onSphere (I : m.Inscribed p c r) (w : m.WF) {v : Nat} (a : m.vAlive v = true) : m.OnSphere p c r v :=
  ⟨I.sphere v a, fun h ah _ => I.sphere _ (w.src_alive _ (w.next_alive _ ah))⟩

theorem Mesh.Inscribed.normal (I : m.Inscribed p c r) (w : m.WF) {v : Nat} (a : m.vAlive v = true) :
    0 < r ∧ m.maxSum p v ≠ 0 ∧ m.vNormal p v = r⁻¹ • (p v - c) :=
  m.maxSum_sphere w a (fun h ah _ => I.tri h ah) (I.onSphere w a) (I.out v a)

theorem Mesh.Inscribed.closed (I : m.Inscribed p c r) (w : m.WF) : m.Closed p :=
  fun h ah => ⟨I.tri h ah, (I.out _ (w.src_alive _ ah)).fat h ah rfl⟩

theorem Mesh.Inscribed.first_ne (I : m.Inscribed p c r) (w : m.WF) {v : Nat} (a : m.vAlive v = true) :
    triNormal 0 (m.vNormal p v) (m.firstDir p v) ≠ 0 := by
  intro e
  have hv := w.vHe_ok v a
  have o := I.out v a _ hv.1 hv.2
  obtain ⟨hr, -, hn⟩ := I.normal w a
  rw [hn, Mesh.firstDir, unitOf, triNormal_zero_smul] at e
  have hne := ((I.out v a).fat _ hv.1 hv.2).ne.1
  rw [hv.2] at hne
  have e2 : triNormal 0 (p v - c) (p (m.hSrc (m.hNext (m.vHe v))) - p v) = 0 := by
    rcases smul_eq_zero.1 e with e | e
    · exact absurd e (mul_ne_zero (inv_ne_zero hr.ne') (inv_ne_zero (norm_ne_zero_iff.2 (sub_ne_zero.2 hne))))
    · exact e
  rw [triNormal_sub] at o
  generalize p v - c = d at *
  generalize p (m.hSrc (m.hNext (m.vHe v))) - p v = x at *
  generalize p (m.hSrc (m.hNext (m.hNext (m.vHe v)))) - p v = y at *
  obtain ⟨d, rfl⟩ := Vec3.E_surj d
  obtain ⟨x, rfl⟩ := Vec3.E_surj x
  obtain ⟨y, rfl⟩ := Vec3.E_surj y
  have hz : (0 : E3) = Vec3.E Vec3.zero := E_zero.symm
  rw [hz, triNormal_E, Vec3.E_inj] at e2
  rw [hz, triNormal_E, Vec3.E_inner] at o
  simp only [Vec3.cross_def, Vec3.sub_def, Vec3.zero_def, sub_zero, Vec3.mk.injEq] at e2
  simp only [Vec3.dot_def, Vec3.cross_def, Vec3.sub_def, Vec3.zero_def, sub_zero] at o
  obtain ⟨z1, z2, z3⟩ := e2
  have : (x.y * y.z - x.z * y.y) * d.x + (x.z * y.x - x.x * y.z) * d.y + (x.x * y.y - x.y * y.x) * d.z = 0 := by
    linear_combination y.x * z1 + y.y * z2 + y.z * z3
  rw [this] at o
  exact lt_irrefl _ o

/-- an inscribed mesh has all that the tensors need, if the blurred normals do not vanish -/
theorem Mesh.Inscribed.proper (I : m.Inscribed p c r) (w : m.WF) (hb : ∀ v, m.vAlive v = true → m.blurSum p v ≠ 0) : m.CurvProper p where
  closed := I.closed w
  normal := fun v a => (I.normal w a).2.1
  blur := hb
  first := fun v a => I.first_ne w a
  turn := fun h ah e => by
    have a := w.src_alive _ ah
    have o := I.out _ a h ah rfl
    obtain ⟨hr, -, hn⟩ := I.normal w a
    rw [← areaVec_of w ah (I.tri h ah)] at o
    have h0 : m.areaVec p (m.hFace h) ≠ 0 := fun z => by rw [z, inner_zero_left] at o; exact lt_irrefl _ o
    rw [hn, unitOf] at e
    have hp := norm_pos_iff.2 h0
    have : inner ℝ (‖m.areaVec p (m.hFace h)‖⁻¹ • m.areaVec p (m.hFace h)) (p (m.hSrc h) - c) =
        inner ℝ (-(r⁻¹ • (p (m.hSrc h) - c))) (p (m.hSrc h) - c) := by rw [e]
    rw [inner_smul_left, inner_neg_left, inner_smul_left, real_inner_self_eq_norm_sq] at this
    simp only [conj_trivial] at this
    have l1 := mul_pos (inv_pos.2 hp) o
    have l2 : 0 ≤ r⁻¹ * ‖p (m.hSrc h) - c‖ ^ 2 := by positivity
    linarith

/-- the form of a face of an inscribed mesh -/
theorem Mesh.Inscribed.form (I : m.Inscribed p c r) (w : m.WF) {f : Nat} (a : m.fAlive f = true) {B : E3 → E3 → ℝ} (hB : m.FaceForm p f B)
    (x y : E3) : B x y = r⁻¹ * (inner ℝ x y - inner ℝ x (unitOf (m.areaVec p f)) * inner ℝ y (unitOf (m.areaVec p f))) := by
  obtain ⟨u, v, a1, b1, c1, ho, rfl, fit⟩ := hB
  obtain ⟨b, -⟩ := w.fHe_ok _ a
  have b1' := w.next_alive _ b
  have b2' := w.next_alive _ b1'
  have n0 := (I.normal w (w.src_alive _ b)).2.2
  have n1 := (I.normal w (w.src_alive _ b1')).2.2
  have n2 := (I.normal w (w.src_alive _ b2')).2.2
  have hd : ∀ x y : E3, r⁻¹ • (x - c) - r⁻¹ • (y - c) = r⁻¹ • (x - y) := fun x y => by rw [← smul_sub]; congr 1; abel
  have zero : m.shapeAt p f u v r⁻¹ 0 r⁻¹ = 0 := by
    unfold Mesh.shapeAt shapeEnergy shapeErr
    dsimp only
    rw [n0, n1, n2, hd, hd, hd]
    simp only [inner_smul_left, conj_trivial]
    ring
  have pos : 0 ≤ m.shapeAt p f u v a1 b1 c1 := by
    unfold Mesh.shapeAt shapeEnergy shapeErr
    positivity
  obtain ⟨e1, e2, e3⟩ := (fit r⁻¹ 0 r⁻¹).2 (by rw [zero]; exact pos)
  subst e1 e2 e3
  rw [frame_inner ho x y, formOn]
  ring

/-- the tensor of a vertex of an inscribed mesh none of whose triangles is tiny -/
theorem Mesh.Inscribed.tensor (I : m.Inscribed p c r) (w : m.WF)
    (ha : ∀ h, m.hAlive h = true → 1 / 10 ^ 12 ≤ InnerProductGeometry.angle (m.vNormal p (m.hSrc h)) (unitOf (m.areaVec p (m.hFace h))))
    {v : Nat} (a : m.vAlive v = true) {t : Mat2 XR × LFrame XR} (ht : m.TensorAt p v t) :
    ∃ u v' n : Vec3 ℝ, t = (⟨.fin (r⁻¹ * (1 - ‖p (m.hSrc (m.hNext (m.vHe v))) - p v‖ ^ 2 / (4 * r ^ 2))), .fin 0, .fin 0, .fin r⁻¹⟩,
      ⟨u.fin, v'.fin, n.fin⟩) ∧ u.E = m.firstDir p v ∧ n.E = m.vNormal p v ∧ (n.cross u).E ≠ 0 := by
  obtain ⟨u, v', n, x, y, z, rfl, hn, hu, hv', B, Q, hBQ, rfl, rfl, rfl⟩ := ht
  have hv := w.vHe_ok v a
  obtain ⟨hr, hm0, hnn⟩ := I.normal w a
  have hne : p (m.hSrc (m.hNext (m.vHe v))) ≠ p v := by
    have := ((I.out v a).fat _ hv.1 hv.2).ne.1
    rwa [hv.2] at this
  have hcr : triNormal 0 n.E u.E = (n.cross u).E := by
    rw [← E_zero, triNormal_E]
    congr 1
    apply Vec3.ext' <;> simp [Vec3.cross_def, Vec3.sub_def, Vec3.zero_def]
  have hx0 : (n.cross u).E ≠ 0 := by
    rw [← hcr, hn, hu]
    exact I.first_ne w a
  have hv2 : v'.E = unitOf (n.cross u).E := by rw [hv', ← hn, ← hu, hcr]
  have uu : inner ℝ u.E u.E = 1 := by
    rw [real_inner_self_eq_norm_sq, hu, Mesh.firstDir, unit_norm (sub_ne_zero.2 hne), one_pow]
  have vv : inner ℝ v'.E v'.E = 1 := by rw [real_inner_self_eq_norm_sq, hv2, unit_norm hx0, one_pow]
  have uv : inner ℝ u.E v'.E = 0 := by
    rw [hv2, unitOf, inner_smul_right, Vec3.E_inner]
    have : u.dot (n.cross u) = 0 := by simp only [Vec3.cross_def, Vec3.dot_def]; ring
    rw [this, mul_zero]
  have vn : inner ℝ v'.E n.E = 0 := by
    rw [hv2, unitOf, inner_smul_left, Vec3.E_inner]
    have : (n.cross u).dot n = 0 := by simp only [Vec3.cross_def, Vec3.dot_def]; ring
    rw [this, mul_zero]
  have un : inner ℝ u.E n.E * inner ℝ u.E n.E = ‖p (m.hSrc (m.hNext (m.vHe v))) - p v‖ ^ 2 / (4 * r ^ 2) := by
    have hs := I.onSphere w a
    have ch := chord_inner (x := p v) (c := c) (e := p (m.hSrc (m.hNext (m.vHe v))) - p v) (by
      rw [show p v + (p (m.hSrc (m.hNext (m.vHe v))) - p v) - c = p (m.hSrc (m.hNext (m.vHe v))) - c by abel, hs.2 _ hv.1 hv.2, hs.1])
    have hp := norm_ne_zero_iff.2 (sub_ne_zero.2 hne)
    rw [hn, hu, hnn, Mesh.firstDir, unitOf, inner_smul_left, inner_smul_right]
    simp only [conj_trivial]
    have : inner ℝ (p (m.hSrc (m.hNext (m.vHe v))) - p v) (p v - c) = -‖p (m.hSrc (m.hNext (m.vHe v))) - p v‖ ^ 2 / 2 := by linarith
    rw [this]
    field_simp
    ring
  have val : ∀ h, m.hAlive h = true → m.hSrc h = v → ∀ x y : E3, B h (Q h x) (Q h y) = r⁻¹ * (inner ℝ x y - inner ℝ x n.E * inner ℝ y n.E) := by
    intro h ah sh x y
    obtain ⟨h1, h2⟩ := hBQ h ah sh
    rw [I.form w (w.face_alive _ ah) h1]
    have hang := ha h ah
    rw [sh, ← hn] at hang
    obtain ⟨e, A, hA, hq⟩ := h2.2 hang
    rw [← e, rotation_inner hA (hq x) (hq y), rotation_inner hA (hq x) (hq n.E), rotation_inner hA (hq y) (hq n.E)]
  have hpos := m.mixedSum_pos w a fun h ah _ => (I.closed w h ah).2
  have mean : ∀ x y : E3, ((m.outs v).map fun h => m.cornerMix p h * B h (Q h x) (Q h y)).sum / m.mixedSum p v =
      r⁻¹ * (inner ℝ x y - inner ℝ x n.E * inner ℝ y n.E) := by
    intro x y
    have : ((m.outs v).map fun h => m.cornerMix p h * B h (Q h x) (Q h y)) =
        (m.outs v).map fun h => (r⁻¹ * (inner ℝ x y - inner ℝ x n.E * inner ℝ y n.E)) *
          mixedArea (p v) (p (m.hSrc (m.hNext h))) (p (m.hSrc (m.hNext (m.hNext h)))) := by
      apply List.map_congr_left
      intro h hh
      obtain ⟨ah, sh⟩ := (w.mem_ring a).1 ((w.ring_perm a).mem_iff.2 hh)
      rw [val h ah sh, Mesh.cornerMix, sh, mul_comm]
    rw [this, List.sum_map_mul_left (f := fun h => mixedArea (p v) (p (m.hSrc (m.hNext h))) (p (m.hSrc (m.hNext (m.hNext h)))))]
    change _ * m.mixedSum p v / _ = _
    rw [mul_div_assoc, div_self hpos.ne', mul_one]
  refine ⟨u, v', n, ?_, hu, hn, hx0⟩
  rw [mean, mean, mean, uu, vv, uv, vn, un]
  simp

end
end TinyMesh
