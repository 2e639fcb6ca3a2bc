import Verif.Proof.CurvK
/-
`getPrincipalCurvatures` and `getPrincipalCurvaturesWithDerivatives` in exact arithmetic.
-/
namespace TinyMesh
open Orbit

section
variable {m : Mesh XR} {p : Nat → E3}

/-- the axes of the tensor of a vertex -/
def AxesAt (m : Mesh XR) (p : Nat → E3) (v : Nat) (t : VertTensor) : Prop :=
  t.n.E = m.vNormal p v ∧ t.u.E = m.firstDir p v ∧ t.v.E = unitOf (triNormal 0 (m.vNormal p v) (m.firstDir p v))

theorem AxesAt.of {v : Nat} {t : VertTensor} (h : m.TensorAt p v t.row) : AxesAt m p v t := by
  obtain ⟨u, v', n, a, b, c, e, h1, h2, h3, -⟩ := h
  unfold VertTensor.row at e
  simp only [Prod.mk.injEq, LFrame.mk.injEq, Vec3.fin_inj] at e
  obtain ⟨-, rfl, rfl, rfl⟩ := e
  exact ⟨h1, h2, h3⟩

theorem AxesAt.cross {v : Nat} {t : VertTensor} (h : AxesAt m p v t) : t.v.E = unitOf (t.n.cross t.u).E ∧
    triNormal 0 (m.vNormal p v) (m.firstDir p v) = (t.n.cross t.u).E := by
  obtain ⟨h1, h2, h3⟩ := h
  have : triNormal 0 t.n.E t.u.E = (t.n.cross t.u).E := by
    rw [← E_zero, triNormal_E]
    congr 1
    apply Vec3.ext' <;> simp [Vec3.cross_def, Vec3.sub_def, Vec3.zero_def]
  rw [h3, ← h1, ← h2, this]
  exact ⟨rfl, rfl⟩

theorem AxesAt.unit (w : m.WF) (C : m.CurvProper p) {v : Nat} (a : m.vAlive v = true) {t : VertTensor} (h : AxesAt m p v t) :
    ‖t.u.E‖ = 1 ∧ ‖t.v.E‖ = 1 ∧ ‖t.n.E‖ = 1 ∧ inner ℝ t.u.E t.v.E = 0 ∧ inner ℝ t.n.E t.v.E = 0 := by
  obtain ⟨e1, e2⟩ := h.cross
  have hv := w.vHe_ok v a
  have hp : p (m.hSrc (m.hNext (m.vHe v))) ≠ p v := by
    have := (C.closed _ hv.1).2.ne.1
    rwa [hv.2] at this
  have hx : (t.n.cross t.u).E ≠ 0 := by rw [← e2]; exact C.first v a
  refine ⟨?_, ?_, ?_, ?_, ?_⟩
  · rw [h.2.1]; exact unit_norm (sub_ne_zero.2 hp)
  · rw [e1]; exact unit_norm hx
  · rw [h.1]; exact unit_norm (C.normal v a)
  · rw [e1, unitOf, inner_smul_right, Vec3.E_inner]
    have : t.u.dot (t.n.cross t.u) = 0 := by simp only [Vec3.cross_def, Vec3.dot_def]; ring
    rw [this, mul_zero]
  · rw [e1, unitOf, inner_smul_right, Vec3.E_inner]
    have : t.n.dot (t.n.cross t.u) = 0 := by simp only [Vec3.cross_def, Vec3.dot_def]; ring
    rw [this, mul_zero]

theorem AxesAt.principal (w : m.WF) (C : m.CurvProper p) {v : Nat} (a : m.vAlive v = true) {t : VertTensor} (h : AxesAt m p v t) :
    ∃ k : VertCurv, principal t.row.1 t.row.2.u t.row.2.v t.row.2.n = .ok k.row ∧ t.HasCurv k := by
  obtain ⟨u1, v1, n1, uv, nv⟩ := h.unit w C a
  obtain ⟨e1, e2⟩ := h.cross
  have hx : (t.n.cross t.u).E ≠ 0 := by rw [← e2]; exact C.first v a
  refine principal_gen t fun x y hxy hz => ?_
  have hp : 0 < ‖(t.n.cross t.u).E‖ := norm_pos_iff.2 hx
  have split : t.n.cross ((t.u.smul x).add (t.v.smul y)) = ((t.n.cross t.u).smul x).add ((t.n.cross t.v).smul y) := by
    apply Vec3.ext' <;> simp only [Vec3.cross_def, Vec3.add_def, Vec3.smul_def] <;> ring
  rw [split, Vec3.E_add, Vec3.E_smul, Vec3.E_smul] at hz
  have g1 := congrArg (fun q => inner ℝ q t.v.E) hz
  have cv : inner ℝ (t.n.cross t.u).E t.v.E = ‖(t.n.cross t.u).E‖ := by
    rw [e1, unitOf, inner_smul_right, real_inner_self_eq_norm_sq]
    field_simp
  have nvv : inner ℝ (t.n.cross t.v).E t.v.E = 0 := by
    rw [Vec3.E_inner]; simp only [Vec3.cross_def, Vec3.dot_def]; ring
  simp only [inner_add_left, inner_smul_left, cv, nvv, conj_trivial, mul_zero, add_zero, inner_zero_left] at g1
  have x0 : x = 0 := by
    rcases mul_eq_zero.1 g1 with h | h
    · exact h
    · exact absurd h hp.ne'
  rw [x0, zero_smul, zero_add] at hz
  have y1 : y * y = 1 := by rw [x0] at hxy; linarith
  have : ‖(t.n.cross t.v).E‖ ^ 2 = 1 := by
    rw [← real_inner_self_eq_norm_sq, Vec3.E_inner]
    rw [Vec3.E_inner] at nv
    have nn : t.n.dot t.n = 1 := by rw [← Vec3.E_inner, real_inner_self_eq_norm_sq, n1, one_pow]
    have vv : t.v.dot t.v = 1 := by rw [← Vec3.E_inner, real_inner_self_eq_norm_sq, v1, one_pow]
    exact cross_unit nn vv nv
  rcases smul_eq_zero.1 hz with h | h
  · rw [h] at y1; norm_num at y1
  · rw [h, norm_zero] at this; norm_num at this

/-- the tensors, smoothed or not -/
theorem tensorsFor_exact (G : m.Good) {solve : LinSolve XR} (hS : solve.Exact) (A : m.AtE p) (C : m.CurvProper p) (hne : m.hes ≠ [])
    (smooth : Bool) (opp : smooth = true → ∀ h, m.hAlive h = true → m.vNormal p (m.hSrc (m.hNext h)) ≠ -m.vNormal p (m.hSrc h)) :
    ∃ T0 T : Nat → VertTensor, tensorsFor solve smooth m = .ok (m.vs.map fun v => (T v).row) m ∧ ∀ v, m.vAlive v = true →
      m.TensorAt p v (T0 v).row ∧ AxesAt m p v (T v) ∧ (smooth = false → T v = T0 v) ∧ (smooth = true → m.SmoothedAt p T0 v (T v)) := by
  have w := G.wf
  obtain ⟨ts, e, len, h⟩ := curvatureTensors_exact G hS A C hne
  have key : ∀ v, m.vAlive v = true → ∃ t : VertTensor, m.TensorAt p v t.row ∧ ∀ i : Nat, m.vs[i]? = some v → ts[i]? = some t.row := by
    intro v a
    obtain ⟨i, hi⟩ := w.vDense.exists_at a
    obtain ⟨r, h1, h2⟩ := h i v hi
    obtain ⟨u, v', n, x, y, z, rfl, hh⟩ := h2
    refine ⟨⟨u, v', n, x, y, z⟩, ⟨u, v', n, x, y, z, rfl, hh⟩, fun j hj => ?_⟩
    have : j = i := by
      have h1 := w.vDense.idx_of hi
      have h2 := w.vDense.idx_of hj
      omega
    rw [this, h1]
    rfl
  haveI : Inhabited VertTensor := ⟨⟨Vec3.zero, Vec3.zero, Vec3.zero, 0, 0, 0⟩⟩
  choose! T0 h1 h2 using key
  have ets : ts = m.vs.map fun v => (T0 v).row := by
    apply List.ext_getElem?
    intro i
    by_cases hi : i < m.vs.length
    · have hv : m.vs[i]? = some m.vs[i] := List.getElem?_eq_getElem hi
      rw [rows_at hv, h2 _ (w.vDense.alive_at hv) i hv]
    · rw [List.getElem?_eq_none (by omega), List.getElem?_eq_none (by rw [List.length_map]; omega)]
  subst ets
  cases smooth with
  | false =>
    refine ⟨T0, T0, ?_, fun v a => ⟨h1 v a, AxesAt.of (h1 v a), fun _ => rfl, fun hf => by cases hf⟩⟩
    unfold tensorsFor
    rw [bind_apply, e]
    rfl
  | true =>
    have hlen : m.meanLen p ≠ 0 := by
      obtain ⟨h, hh⟩ := List.exists_mem_of_ne_nil _ hne
      have ah := (w.hDense.mem h).1 hh
      exact (meanLen_pos w ah (C.closed h ah).2.ne.1.symm).ne'
    obtain ⟨T, e2, hT⟩ := smoothTensors_exact w A hne (T := T0) hlen
      (fun v a => by obtain ⟨x1, x2, x3, -⟩ := (AxesAt.of (h1 v a)).unit w C a; exact ⟨x1, x2, x3⟩)
      (fun h ah => by
        rw [(AxesAt.of (h1 _ (w.src_alive _ ah))).1, (AxesAt.of (h1 _ (w.src_alive _ (w.next_alive _ ah)))).1]
        exact opp rfl h ah)
    refine ⟨T0, T, ?_, fun v a => ⟨h1 v a, ?_, fun hf => (by cases hf), fun _ => hT v a⟩⟩
    · unfold tensorsFor
      rw [bind_apply, e]
      exact e2
    · obtain ⟨x1, x2, x3, -⟩ := hT v a
      have := AxesAt.of (h1 v a)
      unfold AxesAt
      rw [x1, x2, x3]
      exact this

theorem principalDerivatives_exact (G : m.Good) {solve : LinSolve XR} (hS : solve.Exact) (A : m.AtE p) (C : m.CurvProper p) (hne : m.hes ≠ [])
    (smooth : Bool) (opp : smooth = true → ∀ h, m.hAlive h = true → m.vNormal p (m.hSrc (m.hNext h)) ≠ -m.vNormal p (m.hSrc h)) :
    ∃ (T0 T : Nat → VertTensor) (K : Nat → VertCurv) (E : Nat → ℝ × ℝ),
      tensorsFor solve smooth m = .ok (m.vs.map fun v => (T v).row) m ∧
      principalCurvatures solve smooth m = .ok (m.vs.map fun v => (K v).row) m ∧
      principalDerivatives solve smooth m = .ok (m.vs.map fun v => (K v).row, m.vs.map fun v => (.fin (E v).1, .fin (E v).2)) m ∧
      ∀ v, m.vAlive v = true → m.TensorAt p v (T0 v).row ∧ AxesAt m p v (T v) ∧ (smooth = false → T v = T0 v) ∧
        (smooth = true → m.SmoothedAt p T0 v (T v)) ∧ (T v).HasCurv (K v) ∧ m.DerivAt p T K v (E v) := by
  have w := G.wf
  obtain ⟨T0, T, e, h⟩ := tensorsFor_exact G hS A C hne smooth opp
  have key : ∀ v, m.vAlive v = true → ∃ k : VertCurv, principal (T v).row.1 (T v).row.2.u (T v).row.2.v (T v).row.2.n = .ok k.row ∧ (T v).HasCurv k :=
    fun v a => (h v a).2.1.principal w C a
  haveI : Inhabited VertCurv := ⟨⟨0, 0, Vec3.zero, Vec3.zero⟩⟩
  choose! K k1 k2 using key
  have e2 : principals (m.vs.map fun v => (T v).row) m = .ok (m.vs.map fun v => (K v).row) m := by
    obtain ⟨ks, e2, len2, q⟩ := principals_ok (m := m) (P := fun i k => ∀ v, m.vs[i]? = some v → k = (K v).row) (m.vs.map fun v => (T v).row)
      fun i t ht => by
        have hlt : i < m.vs.length := by
          have := (List.getElem?_eq_some_iff.1 ht).1
          rwa [List.length_map] at this
        have hv : m.vs[i]? = some m.vs[i] := List.getElem?_eq_getElem hlt
        rw [rows_at hv] at ht
        cases ht
        exact ⟨_, k1 _ (w.vDense.alive_at hv), fun v hv' => by cases hv.symm.trans hv'; rfl⟩
    rw [e2]
    congr 1
    apply List.ext_getElem?
    intro i
    rw [List.length_map] at len2 q
    by_cases hi : i < m.vs.length
    · obtain ⟨r, hr, hq⟩ := q i hi
      have hv : m.vs[i]? = some m.vs[i] := List.getElem?_eq_getElem hi
      rw [hr, krows_at hv, hq _ hv]
    · rw [List.getElem?_eq_none (by omega), List.getElem?_eq_none (by rw [List.length_map]; omega)]
  have hT : ∀ v, m.vAlive v = true → (T v).n.E = m.vNormal p v := fun v a => (h v a).2.1.1
  obtain ⟨faces, e3, -, q3⟩ := eachM_range (m := m) (f := derivFace solve (m.vs.map fun v => (K v).row) (m.vs.map fun v => (T v).row))
    (P := fun i r => ∀ f, m.fs[i]? = some f → CubicOut m p K f r) m.fs.length (fun i hi => by
      have hf : m.fs[i]? = some m.fs[i] := List.getElem?_eq_getElem hi
      obtain ⟨r, h1, h2⟩ := derivFace_exact G hS A C (K := K) hT hf
      refine ⟨r, h1, fun f' hf' => ?_⟩
      rw [hf] at hf'; cases hf'; exact h2)
  have hF : ∀ i f : Nat, m.fs[i]? = some f → ∃ r, faces[i]? = some r ∧ CubicOut m p K f r := fun i f hf => by
    obtain ⟨n, h1, h2⟩ := q3 i (List.getElem?_eq_some_iff.1 hf).1
    exact ⟨n, h1, h2 f hf⟩
  have key2 : ∀ v, m.vAlive v = true → ∃ x : ℝ × ℝ, m.DerivAt p T K v x ∧ ∀ i : Nat, m.vs[i]? = some v →
      derivVert (m.vs.map fun v => (K v).row) (m.vs.map fun v => (T v).row) faces i m = .ok (.fin x.1, .fin x.2) m := by
    intro v a
    obtain ⟨i, hi⟩ := w.vDense.exists_at a
    obtain ⟨x, h1, h2⟩ := derivVert_exact G A C hT hF hi
    refine ⟨x, h2, fun j hj => ?_⟩
    have : j = i := by
      have h1 := w.vDense.idx_of hi
      have h2 := w.vDense.idx_of hj
      omega
    rw [this, h1]
  choose! E x1 x2 using key2
  obtain ⟨as, e4, len4, q4⟩ := eachM_range (m := m) (f := derivVert (m.vs.map fun v => (K v).row) (m.vs.map fun v => (T v).row) faces)
    (P := fun i r => ∀ v, m.vs[i]? = some v → r = (.fin (E v).1, .fin (E v).2)) m.vs.length (fun i hi => by
      have hv : m.vs[i]? = some m.vs[i] := List.getElem?_eq_getElem hi
      refine ⟨_, x2 _ (w.vDense.alive_at hv) i hv, fun v hv' => ?_⟩
      rw [hv] at hv'; cases hv'; rfl)
  have eas : as = m.vs.map fun v => ((.fin (E v).1, .fin (E v).2) : XR × XR) := by
    apply List.ext_getElem?
    intro i
    by_cases hi : i < m.vs.length
    · obtain ⟨r, hr, hq⟩ := q4 i hi
      have hv : m.vs[i]? = some m.vs[i] := List.getElem?_eq_getElem hi
      rw [hr, List.getElem?_map, hv, hq _ hv]
      rfl
    · rw [List.getElem?_eq_none (by omega), List.getElem?_eq_none (by rw [List.length_map]; omega)]
  subst eas
  refine ⟨T0, T, K, E, e, ?_, ?_, fun v a => ⟨(h v a).1, (h v a).2.1, (h v a).2.2.1, (h v a).2.2.2, k2 v a, x1 v a⟩⟩
  · unfold principalCurvatures
    rw [bind_apply, e]
    exact e2
  · unfold principalDerivatives
    rw [bind_apply, e]; dsimp only
    rw [bind_apply, e2]; dsimp only
    rw [bind_apply, read_apply]; dsimp only
    rw [bind_apply, e3]; dsimp only
    rw [bind_apply, read_apply]; dsimp only
    rw [bind_apply, e4]
    rfl

/-- the directions are exchanged: the form that is differentiated has the other curvature in the first direction -/
theorem HasCurv.swapped {t : VertTensor} {k : VertCurv} (h : t.HasCurv k) (uu : ‖t.u.E‖ = 1) (vv : ‖t.v.E‖ = 1) (uv : inner ℝ t.u.E t.v.E = 0)
    (hk : 1 / 10 ^ 6 ≤ k.kMax - k.kMin) : k.form k.tMax.E k.tMax.E = k.kMax ∧ t.form k.tMax.E k.tMax.E = k.kMin := by
  obtain ⟨x, y, hxy, he, e1, e2⟩ := h.2.2.2.2 hk
  have uu' : inner ℝ t.u.E t.u.E = (1 : ℝ) := by rw [real_inner_self_eq_norm_sq, uu, one_pow]
  have vv' : inner ℝ t.v.E t.v.E = (1 : ℝ) := by rw [real_inner_self_eq_norm_sq, vv, one_pow]
  have vu : inner ℝ t.v.E t.u.E = (0 : ℝ) := by rw [real_inner_comm, uv]
  have i1 : inner ℝ k.tMax.E t.u.E = x := by
    rw [e1, inner_add_left, inner_smul_left, inner_smul_left, uu', vu]; simp
  have i2 : inner ℝ k.tMax.E t.v.E = y := by
    rw [e1, inner_add_left, inner_smul_left, inner_smul_left, vv', uv]; simp
  constructor
  · have s1 : inner ℝ k.tMax.E k.tMax.E = (1 : ℝ) := by
      rw [e1]
      simp only [inner_add_left, inner_add_right, inner_smul_left, inner_smul_right, uu', vv', uv, vu, conj_trivial]
      linarith
    have s2 : inner ℝ k.tMax.E k.tMin.E = (0 : ℝ) := by
      rw [e2, unitOf, inner_smul_right]
      have : inner ℝ k.tMax.E (triNormal 0 t.n.E k.tMax.E) = (0 : ℝ) := by
        rw [← E_zero, triNormal_E, Vec3.E_inner]
        simp only [Vec3.cross_def, Vec3.dot_def, Vec3.sub_def, Vec3.zero_def]
        ring
      rw [this, mul_zero]
    unfold VertCurv.form formOn
    rw [s1, s2]
    ring
  · obtain ⟨-, h1, h2⟩ := he
    dsimp only at h1 h2
    unfold VertTensor.form formOn
    rw [i1, i2]
    linear_combination x * h1 + y * h2 + k.kMin * hxy

theorem DerivAt.umbilic {T : Nat → VertTensor} {K : Nat → VertCurv} {v : Nat} {e : ℝ × ℝ} (h : m.DerivAt p T K v e) (hc : (T v).HasCurv (K v))
    (hk : (K v).kMax - (K v).kMin < 1 / 10 ^ 6) : e = (0, 0) := by
  obtain ⟨B, Q, -, a, b, c, d, -, -, -, -, e1, e2⟩ := h
  obtain ⟨z1, z2⟩ := hc.2.2.2.1 hk
  rw [z1] at e1
  rw [z2] at e2
  unfold cubicOn at e1 e2
  simp only [inner_zero_left, mul_zero, add_zero] at e1 e2
  exact Prod.ext e1 e2

end
end TinyMesh
