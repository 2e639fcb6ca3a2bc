import Verif.Proof.L0F
import Verif.Proof.Reads
import Verif.Props.Denoise
/-
C58: L0 denoising; C43 for it.
-/
set_option maxRecDepth 100000
namespace TinyMesh
open Sample Orbit
attribute [local instance] Sample.ratScalar

/-! ## C58: L0 denoising -/

/-- C58: the coefficients of the edge operator that `denoiseL0Smooth` computes for two triangles `a`, `b`, `c` and `b`, `a`, `d` with a
common edge of positive length, not both of area zero. They sum to zero. The combination of the four points that they give is
perpendicular to the edge. Its length depends on the areas, the length of the edge and the angle between the normals; it is zero if and only
if one triangle has area zero or the triangles continue each other in a plane. -/
theorem c58_operator {a b c d : Vec3 ℝ} (hab : a.E ≠ b.E) (hs : 0 < triArea a.E b.E c.E + triArea b.E a.E d.E) :
    ∃ c1 c2 c3 c4 : ℝ, l0Coefs (F := XR) a.fin c.fin b.fin d.fin = (XR.fin c1, XR.fin c2, XR.fin c3, XR.fin c4) ∧ c1 + c2 + c3 + c4 = 0 ∧
      inner ℝ (c1 • a.E + c2 • c.E + c3 • b.E + c4 • d.E) (b.E - a.E) = 0 ∧
      ‖c1 • a.E + c2 • c.E + c3 • b.E + c4 • d.E‖ ^ 2 = 8 * (triArea a.E b.E c.E * triArea b.E a.E d.E) ^ 2 *
        (1 - Real.cos (InnerProductGeometry.angle (triNormal a.E b.E c.E) (triNormal b.E a.E d.E))) /
          (dist a.E b.E * (triArea a.E b.E c.E + triArea b.E a.E d.E)) ^ 2 ∧
      (c1 • a.E + c2 • c.E + c3 • b.E + c4 • d.E = 0 ↔ triArea a.E b.E c.E = 0 ∨ triArea b.E a.E d.E = 0 ∨
        InnerProductGeometry.angle (triNormal a.E b.E c.E) (triNormal b.E a.E d.E) = 0) := by
  have h := l0Coefs_exact (a := a.fin) (b := c.fin) (c := b.fin) (d := d.fin) ⟨a, rfl, rfl⟩ ⟨c, rfl, rfl⟩ ⟨b, rfl, rfl⟩ ⟨d, rfl, rfl⟩ hab rfl rfl hs
  have e : ∀ u k l : ℝ, (u - 1) • a.E + k • c.E + -u • b.E + l • d.E = k • c.E + l • d.E - ((1 - u) • a.E + u • b.E) := by
    intro u k l
    rw [sub_smul, sub_smul, neg_smul]
    abel
  have hn := bendVec_norm (c := c.E) (d := d.E) hab hs
  have hl : ‖b.E - a.E‖ = dist a.E b.E := by rw [dist_comm, dist_eq_norm]
  refine ⟨_, _, _, _, h, ?_, ?_, ?_, ?_⟩
  · have : triArea b.E a.E d.E / (triArea a.E b.E c.E + triArea b.E a.E d.E) + triArea a.E b.E c.E / (triArea a.E b.E c.E + triArea b.E a.E d.E) = 1 := by
      rw [← add_div, add_comm, div_self hs.ne']
    linarith
  · rw [e]
    exact bendVec_perp hab hs
  · rw [e, ← hl]
    exact hn
  · rw [e]
    change bendVec a.E b.E c.E d.E = 0 ↔ _
    have hd : (‖b.E - a.E‖ * (triArea a.E b.E c.E + triArea b.E a.E d.E)) ^ 2 ≠ 0 :=
      pow_ne_zero 2 (mul_ne_zero (norm_ne_zero_iff.2 (sub_ne_zero.2 hab.symm)) hs.ne')
    rw [← norm_eq_zero, ← sq_eq_zero_iff, hn, div_eq_zero_iff, or_iff_left hd, mul_eq_zero, mul_eq_zero, sq_eq_zero_iff, mul_eq_zero,
      sub_eq_zero, eq_comm (a := (1 : ℝ)), InnerProductGeometry.cos_eq_one_iff_angle_eq_zero, or_assoc, or_iff_right (by norm_num), or_assoc]

section
variable {m m' : Mesh XR} {p : Nat → E3}

theorem Mesh.SameButPos.l0Steps (s : m.SameButPos m') (q p0 : Nat → E3) (lambda : ℝ) : ∀ (n : Nat) (alpha beta : ℝ) (x y : Nat → E3),
    m'.L0Steps q p0 lambda n alpha beta x y ↔ m.L0Steps q p0 lambda n alpha beta x y
  | 0, _, _, _, _ => by rw [s]; rfl
  | n + 1, alpha, beta, x, y => by
    unfold Mesh.L0Steps
    simp only [s.l0Steps q p0 lambda n]
    rw [s]; rfl

theorem taubinDefault_exact (wf : m.WF) (A : m.AtE p) :
    ∃ m', smoothTaubinDefault m = .ok () m' ∧ m.SameButPos m' ∧ m'.AtE (m.taubin (1 / 2) (53 / 100) 0 6 p) := by
  have l1 : (Scalar.lit 1 2 : XR) = .fin (1 / 2) := lit_half
  have l2 : (Scalar.lit 53 100 : XR) = .fin (53 / 100) := by rw [X_lit, R_lit]; norm_num
  unfold smoothTaubinDefault
  rw [l1, l2]
  exact c29_taubin_formula wf A (1 / 2) (53 / 100) (n := 3) (by omega)

/-- C58: on a consistent mesh with finite positions and a positive mean edge length, all of whose edges have positive length and a
triangle of positive area after the smoothing, with an exact solver, a weight `alpha` that is not negative and a positive weight `beta`,
`denoiseL0Smooth` returns normally after `N` rounds and changes only positions. The rounds start with the positions of the input. Each
round gives the unique minimiser of the energy: the squared distance from the input, plus the weight of the regularisation, plus the
squared distance of the edge operator from its targets. The edge operator is that of the smoothed mesh in all rounds. -/
theorem c58_result (wf : m.WF) (A : m.AtE p) (hne : m.hes ≠ []) {order : List Nat → List Nat} (ho : ∀ l, (order l).Perm l)
    {solve : LinSolve XR} (hS : solve.Exact) {alpha beta : ℝ} (ha : 0 ≤ alpha) (hb : 0 < beta) (hl : 0 < m.meanLen p)
    (hp : m.L0Proper (m.taubin (1 / 2) (53 / 100) 0 6 p)) {N : Nat} (h1 : ∀ k < N, beta * Real.sqrt 2 ^ k < 1000)
    (h2 : 1000 ≤ beta * Real.sqrt 2 ^ N) :
    ∃ m' q, (∀ fuel, N < fuel → denoiseL0Smooth solve order fuel (XR.fin alpha) (XR.fin beta) m = .ok () m') ∧ m.SameButPos m' ∧ m'.AtE q ∧
      m.L0Steps (m.taubin (1 / 2) (53 / 100) 0 6 p) p (2 / 100 * m.meanLen p * m.meanLen p * m.meanAngle p) N (alpha * m.meanLen p)
        (beta * m.meanLen p) p q := by
  obtain ⟨S, R, x0, o, hR, hx0, r0, run⟩ := l0_start wf A hne ho
  obtain ⟨m1, e1, s1, A1⟩ := taubinDefault_exact wf A
  have wf1 := s1.wf wf
  have vs1 : m1.vs = m.vs := by rw [s1]
  have o1 : m1.OnePerEdge S := by rw [s1]; exact ⟨o.nodup, o.alive, o.one, o.all⟩
  have hp1 : m1.L0Proper (m.taubin (1 / 2) (53 / 100) 0 6 p) := by rw [s1]; exact hp
  have r1 : RowsAt m1 x0 p := by intro i v hv; rw [vs1] at hv; exact r0 i v hv
  have hR1 : ∀ (e : Fin S.length) (j : Fin m1.vs.length), R e j = XR.fin (m1.quadMat S (fun _ => (1, -1, 1, -1)) e j) := by
    rw [s1]; exact hR
  obtain ⟨x', q, e2, r2, st⟩ := l0Loop_exact wf1 A1 hp1 o1 (lambda := 2 / 100 * m.meanLen p * m.meanLen p * m.meanAngle p)
    (bmax := 1000 * m.meanLen p) hS hR1 r1 N (alpha * m.meanLen p) (beta * m.meanLen p) x0 p (mul_nonneg ha hl.le) (mul_pos hb hl) r1
    (fun k hk => by
      have := mul_lt_mul_of_pos_right (h1 k hk) hl
      linarith [mul_right_comm beta (m.meanLen p) (Real.sqrt 2 ^ k)])
    (by
      have := mul_le_mul_of_nonneg_right h2 hl.le
      linarith [mul_right_comm beta (m.meanLen p) (Real.sqrt 2 ^ N)])
  obtain ⟨m2, e3, s2, f1, f2⟩ := putRows_ok x' (List.range m1.vs.length) wf1 List.nodup_range (by simp)
  refine ⟨m2, q, fun fuel hf => ?_, s1.trans s2, ?_, (s1.l0Steps _ _ _ _ _ _ _ _).1 st⟩
  · rw [run, bind_apply, e1]; dsimp only
    rw [bind_apply, ← vs1, e2 fuel hf]; dsimp only
    exact e3
  · intro v a
    have a1 : m1.vAlive v = true := by rw [s2] at a; exact a
    obtain ⟨i, hi⟩ := List.mem_iff_getElem?.1 ((wf1.vDense.mem v).2 a1)
    rw [f1 i (List.mem_range.2 (List.getElem?_eq_some_iff.1 hi).1) v hi]
    exact r2 i v hi

/-- C58: `beta` is positive, then the number of rounds exists; it does not depend on the mesh, nor on `alpha`. -/
theorem c58_rounds {beta : ℝ} (hb : 0 < beta) : ∃ N : Nat, (∀ k < N, beta * Real.sqrt 2 ^ k < 1000) ∧ 1000 ≤ beta * Real.sqrt 2 ^ N := by
  classical
  have h : ∃ N : Nat, 1000 ≤ beta * Real.sqrt 2 ^ N := by
    obtain ⟨N, hN⟩ := pow_unbounded_of_one_lt (1000 / beta) (show 1 < Real.sqrt 2 by rw [Real.lt_sqrt] <;> norm_num)
    refine ⟨N, ?_⟩
    rw [div_lt_iff₀ hb] at hN
    linarith
  exact ⟨Nat.find h, fun k hk => not_le.1 (Nat.find_min h hk), Nat.find_spec h⟩

/-- C58: with the default `beta` of one thousandth there are forty rounds. -/
theorem c58_rounds_default : (∀ k < 40, 1 / 1000 * Real.sqrt 2 ^ k < 1000) ∧ 1000 ≤ 1 / 1000 * Real.sqrt 2 ^ 40 := by
  have h2 : Real.sqrt 2 ^ 2 = 2 := Real.sq_sqrt (by norm_num)
  have h1 : 1 ≤ Real.sqrt 2 := by rw [Real.le_sqrt] <;> norm_num
  have h3 : Real.sqrt 2 < 1.42 := by rw [Real.sqrt_lt' (by norm_num)]; norm_num
  constructor
  · intro k hk
    have : Real.sqrt 2 ^ k ≤ Real.sqrt 2 ^ 39 := pow_le_pow_right₀ h1 (by omega)
    rw [show Real.sqrt 2 ^ 39 = (Real.sqrt 2 ^ 2) ^ 19 * Real.sqrt 2 by ring, h2] at this
    linarith
  · rw [show Real.sqrt 2 ^ 40 = (Real.sqrt 2 ^ 2) ^ 20 by ring, h2]
    norm_num

/-- C58: if `beta` is not positive, `denoiseL0Smooth` does not terminate, whatever the solver returns. -/
theorem c58_diverges (wf : m.WF) (A : m.AtE p) (hne : m.hes ≠ []) {order : List Nat → List Nat} (ho : ∀ l, (order l).Perm l)
    (solve : LinSolve XR) {alpha beta : ℝ} (hb : beta ≤ 0) (hl : 0 < m.meanLen p) (fuel : Nat) :
    denoiseL0Smooth solve order fuel (XR.fin alpha) (XR.fin beta) m = .err .diverge := by
  obtain ⟨S, R, x0, o, hR, hx0, r0, run⟩ := l0_start wf A hne ho
  obtain ⟨m1, e1, s1, A1⟩ := taubinDefault_exact wf A
  have vs1 : m1.vs = m.vs := by rw [s1]
  have hS : ∀ h ∈ S, m1.hAlive h = true := by rw [s1]; exact o.alive
  rw [run, bind_apply, e1]; dsimp only
  rw [bind_apply, ← vs1, l0Loop_diverge (s1.wf wf) hS solve R x0 _ (mul_pos (by norm_num) hl) fuel _ _ x0
    (mul_nonpos_of_nonpos_of_nonneg hb hl.le)]

/-- C58: if `beta` is at least one thousand, `denoiseL0Smooth` leaves all positions as they are, whatever the solver returns: no round is
made, and the result of the smoothing is overwritten. -/
theorem c58_skip (wf : m.WF) (A : m.AtE p) (hne : m.hes ≠ []) {order : List Nat → List Nat} (ho : ∀ l, (order l).Perm l)
    (solve : LinSolve XR) {alpha beta : ℝ} (hb : 1000 ≤ beta) (fuel : Nat) :
    ∃ m', denoiseL0Smooth solve order (fuel + 1) (XR.fin alpha) (XR.fin beta) m = .ok () m' ∧ m.SameButPos m' ∧
      ∀ v, m.vAlive v = true → m'.vPos v = m.vPos v := by
  obtain ⟨S, R, x0, o, hR, hx0, r0, run⟩ := l0_start wf A hne ho
  obtain ⟨m1, e1, s1, A1⟩ := taubinDefault_exact wf A
  have vs1 : m1.vs = m.vs := by rw [s1]
  have hl : 0 ≤ m.meanLen p := by
    unfold Mesh.meanLen
    refine div_nonneg (List.sum_nonneg fun y hy => ?_) (Nat.cast_nonneg _)
    obtain ⟨v, -, rfl⟩ := List.mem_map.1 hy
    exact dist_nonneg
  obtain ⟨m2, e3, s2, f1, f2⟩ := putRows_ok x0 (List.range m1.vs.length) (s1.wf wf) List.nodup_range (by simp)
  refine ⟨m2, ?_, s1.trans s2, fun v a => ?_⟩
  · rw [run, bind_apply, e1]; dsimp only
    rw [bind_apply, ← vs1]
    unfold l0Loop
    rw [if_neg (by rw [X_lt, R_lt]; simpa using mul_le_mul_of_nonneg_right hb hl)]
    exact e3
  · obtain ⟨i, hi⟩ := List.mem_iff_getElem?.1 ((wf.vDense.mem v).2 a)
    rw [f1 i (List.mem_range.2 (by rw [vs1]; exact (List.getElem?_eq_some_iff.1 hi).1)) v (by rw [vs1]; exact hi)]
    exact hx0 i v hi

/-- C58: a mesh whose vertices lie in a plane stays in the plane. -/
theorem c58_plane (wf : m.WF) (A : m.AtE p) (hne : m.hes ≠ []) {order : List Nat → List Nat} (ho : ∀ l, (order l).Perm l)
    {solve : LinSolve XR} (hS : solve.Exact) {alpha beta : ℝ} (ha : 0 ≤ alpha) (hb : 0 < beta) (hl : 0 < m.meanLen p)
    (hp : m.L0Proper (m.taubin (1 / 2) (53 / 100) 0 6 p)) {n : E3} {d : ℝ} (hn : n ≠ 0) (h : ∀ v, m.vAlive v = true → inner ℝ n (p v) = d) :
    ∃ fuel m' q, denoiseL0Smooth solve order fuel (XR.fin alpha) (XR.fin beta) m = .ok () m' ∧ m'.AtE q ∧
      ∀ v, m.vAlive v = true → inner ℝ n (q v) = d := by
  obtain ⟨N, h1, h2⟩ := c58_rounds hb
  obtain ⟨m', q, run, s, A', st⟩ := c58_result wf A hne ho hS ha hb hl hp h1 h2
  refine ⟨N + 1, m', q, run _ (by omega), A', fun v a => ?_⟩
  have n0 := norm_ne_zero_iff.2 hn
  have hu : ‖‖n‖⁻¹ • n‖ = 1 := by rw [norm_smul, norm_inv, norm_norm, inv_mul_cancel₀ n0]
  have hi : ∀ v, m.vAlive v = true → inner ℝ (‖n‖⁻¹ • n) (p v) = ‖n‖⁻¹ * d := fun v a => by rw [real_inner_smul_left, h v a]
  have := st.plane wf hp hu hi N _ _ (mul_nonneg ha hl.le) (mul_nonneg hb.le hl.le) hi v a
  rw [real_inner_smul_left] at this
  exact mul_left_cancel₀ (inv_ne_zero n0) this

/-- C58: moving the mesh rigidly moves the result in the same way. -/
theorem c58_isometry {m1 m2 : Mesh XR} (wf : m1.WF) (s : m1.SameButPos m2) (A1 : m1.AtE p) (f : E3 ≃ᵃⁱ[ℝ] E3) (A2 : m2.AtE fun v => f (p v))
    (hne : m1.hes ≠ []) {order : List Nat → List Nat} (ho : ∀ l, (order l).Perm l) {solve : LinSolve XR} (hS : solve.Exact)
    {alpha beta : ℝ} (ha : 0 ≤ alpha) (hb : 0 < beta) (hl : 0 < m1.meanLen p) (hp : m1.L0Proper (m1.taubin (1 / 2) (53 / 100) 0 6 p)) :
    ∃ fuel m1' m2' q, denoiseL0Smooth solve order fuel (XR.fin alpha) (XR.fin beta) m1 = .ok () m1' ∧
      denoiseL0Smooth solve order fuel (XR.fin alpha) (XR.fin beta) m2 = .ok () m2' ∧ m1'.AtE q ∧ m2'.AtE fun v => f (q v) := by
  obtain ⟨N, h1, h2⟩ := c58_rounds hb
  obtain ⟨m1', q1, run1, s1, B1, st1⟩ := c58_result wf A1 hne ho hS ha hb hl hp h1 h2
  have wf2 := s.wf wf
  have t := taubin_affine wf f.toAffineEquiv.toAffineMap (1 / 2) (53 / 100) 6 0 p (fun v => f (p v)) (fun _ _ => rfl)
  have ml : m2.meanLen (fun v => f (p v)) = m1.meanLen p := by rw [← meanLen_iso f p, s]; rfl
  have ma : m2.meanAngle (fun v => f (p v)) = m1.meanAngle p := by rw [← meanAngle_iso f p, s]; rfl
  have hp2 : m2.L0Proper (m2.taubin (1 / 2) (53 / 100) 0 6 fun v => f (p v)) := by
    have := L0Proper_iso f hp
    rw [s.taubin]
    have h3 : m1.L0Proper (m1.taubin (1 / 2) (53 / 100) 0 6 fun v => f (p v)) := by
      intro h a
      obtain ⟨k1, k2⟩ := this h a
      rw [t _ (wf.src_alive _ a), t _ (wf.src_alive _ (wf.next_alive _ a)), areaOf_congr wf t a, areaOf_congr wf t (wf.rev_alive _ a)]
      exact ⟨k1, k2⟩
    rw [s]; exact h3
  obtain ⟨m2', q2, run2, s2, B2, st2⟩ := c58_result wf2 A2 (by rw [s]; exact hne) ho hS ha hb (by rw [ml]; exact hl) hp2 h1 h2
  refine ⟨N + 1, m1', m2', q1, run1 _ (by omega), run2 _ (by omega), B1, fun v a => ?_⟩
  rw [ml, ma, s.taubin, s.l0Steps] at st2
  have st1' := (st1.iso f wf hp)
  have st1'' := Mesh.L0Steps.congr wf (AgreeV.symm t) (.refl _) N _ _ (.refl _) (.refl _) st1'
  have a1 : m1.vAlive v = true := by rw [s.trans s2] at a; exact a
  have := st1''.unique wf N _ _ st2 v a1
  change (m2'.vPos v).Is (f (q1 v))
  dsimp only at this
  rw [this]
  exact B2 v a

end

/-! ## C43: locked vertices -/

/-- C43, what holds of it for L0 denoising, for any arithmetic and any solver: when it returns normally it has changed positions only, so
locks, links and indices are as before. That locked vertices stay where they are is missing, and false by the counterexample. -/
theorem c43_l0_partial {F : Type} [ScalarX F] {m m' : Mesh F} (w : m.WF) {solve : LinSolve F} {order : List Nat → List Nat} {fuel : Nat}
    {alpha beta : F} (h : denoiseL0Smooth solve order fuel alpha beta m = .ok () m') : m.SameButPos m' := by
  have step : ∀ {α : Type} {x : M F α} {f : α → M F Unit}, OnlyReads x → (x >>= f) m = .ok () m' → ∃ a, f a m = .ok () m' := by
    intro α x f hx h
    rw [bind_apply] at h
    split at h
    · next a m1 e => rw [hx m a m1 e] at h; exact ⟨a, h⟩
    · cases h
  unfold denoiseL0Smooth at h
  obtain ⟨ne, h⟩ := step OnlyReads.numEdges h
  rw [bind_apply, read_apply] at h; dsimp only at h
  obtain ⟨avg, h⟩ := step OnlyReads.meanEdgeLength h
  obtain ⟨ang, h⟩ := step OnlyReads.meanDihedralAngle h
  rw [bind_apply, read_apply] at h; dsimp only at h
  obtain ⟨s, h⟩ := step (OnlyReads.numEdgesLoop _ _) h
  split at h
  · cases h
  obtain ⟨ts, h⟩ := step (OnlyReads.rows (OnlyReads.l0RowR _) _) h
  obtain ⟨R, h⟩ := step (OnlyReads.ofTripletsRect _ _ _) h
  obtain ⟨ps, h⟩ := step (OnlyReads.posRows _) h
  rw [bindUnit_ok] at h
  obtain ⟨m1, h1, h⟩ := h
  have k := c27_taubin (Scalar.lit 1 2) (Scalar.lit 53 100) (n := 3) (by omega) w
  unfold smoothTaubinDefault at h1
  rw [h1] at k
  rcases k with k | ⟨m1', k, s1, -⟩
  · cases k
  cases k
  rw [bind_apply] at h
  split at h
  · next x m2 e =>
    rw [OnlyReads.l0Loop _ _ _ _ _ _ _ _ _ _ _ _ m1 x m2 e] at h
    obtain ⟨m3, e3, s3, -⟩ := putRows_ok x (List.range m1.vs.length) (s1.wf w) List.nodup_range (by simp)
    have : m1.vs.length = m.vs.length := by rw [s1]
    rw [← this, e3] at h
    cases h
    exact s1.trans s3
  · cases h

/-- C43, what holds of it for implicit fairing, in the same way -/
theorem c43_fairing_partial {F : Type} [Scalar F] {solve : LinSolve F} {eps : F} : ∀ (n : Nat) {m m' : Mesh F}, m.WF →
    implicitFairing solve eps n m = .ok () m' → m.SameButPos m'
  | 0, m, m', _, h => by cases h; rfl
  | n + 1, m, m', w, h => by
    unfold implicitFairing at h
    rw [bindUnit_ok] at h
    obtain ⟨m1, h1, h⟩ := h
    unfold fairStep at h1
    rw [bind_apply, read_apply] at h1; dsimp only at h1
    have key : m.SameButPos m1 := by
      rw [bind_apply] at h1
      split at h1
      · next A m2 e =>
        rw [OnlyReads.fairMatrix _ m A m2 e, bind_apply] at h1
        split at h1
        · next ps m3 e' =>
          rw [OnlyReads.posRows _ m ps m3 e'] at h1
          obtain ⟨m4, e4, s4, -⟩ := putRows_ok (solveRows solve m.vs.length A ps) (List.range m.vs.length) w List.nodup_range (by simp)
          rw [e4] at h1
          cases h1
          exact s4
        · cases h1
      · cases h1
    exact key.trans (c43_fairing_partial n (key.wf w) h)

/-- the half-edges of the corner tetrahedron -/
theorem CornerFacts.he {F : Type} {m : Mesh F} (C : CornerFacts m) (G : m.Good) {h : Nat} (a : m.hAlive h = true) :
    h = 1 ∨ h = 2 ∨ h = 3 ∨ h = 4 ∨ h = 5 ∨ h = 6 ∨ h = 7 ∨ h = 8 ∨ h = 9 ∨ h = 10 ∨ h = 11 ∨ h = 12 := by
  have := (G.wf.hDense.mem h).2 a
  rw [C.hes] at this
  simpa using this

theorem CornerFacts.properOf {F : Type} {m : Mesh F} (G : m.Good) {q : Nat → Vec3 ℝ}
    (h : ∀ h, m.hAlive h = true → q (m.hSrc h) ≠ q (m.hSrc (m.hNext h)) ∧
      ((q (m.hSrc (m.hNext h))).sub (q (m.hSrc h))).cross ((q (m.hSrc (m.hNext (m.hNext h)))).sub (q (m.hSrc h))) ≠ ⟨0, 0, 0⟩) :
    m.L0Proper fun v => (q v).E := by
  have pos : ∀ h, m.hAlive h = true → 0 < m.areaOf (fun v => (q v).E) h := by
    intro x a
    refine div_pos (norm_pos_iff.2 ?_) (by norm_num)
    change triNormal (q _).E (q _).E (q _).E ≠ 0
    rw [triNormal_E]
    intro e
    exact (h x a).2 (Vec3.E_inj.1 (e.trans (by apply Vec3.E_ext <;> simp)))
  intro x a
  exact ⟨fun e => (h x a).1 (Vec3.E_inj.1 e), add_pos (pos x a) (pos _ (G.wf.rev_alive _ a))⟩

theorem CornerFacts.proper {F : Type} {m : Mesh F} (C : CornerFacts m) (G : m.Good) : m.L0Proper fun v => (cornerAt v).E := by
  refine CornerFacts.properOf G fun x a => ?_
  have hx := C.he G a
  obtain ⟨a, b, c, d, e, f, g, h⟩ := C
  rw [c] at e f g h
  simp only [List.map_cons, List.map_nil, List.cons.injEq, and_true] at e f g h
  rcases hx with rfl | rfl | rfl | rfl | rfl | rfl | rfl | rfl | rfl | rfl | rfl | rfl <;>
    (simp only [e, f, cornerAt]; simp [Vec3.cross, Vec3.sub_def])

/-- C43 does not hold for L0 denoising: all vertices of a tetrahedron are locked, and every exact solver and every positive weight of the
regularisation move one. -/
theorem c43_l0_counterexample {solve : LinSolve XR} (hS : solve.Exact) {order : List Nat → List Nat} (ho : ∀ l, (order l).Perm l) {alpha : ℝ}
    (ha : 0 < alpha) : ∃ m m' : Mesh XR, m.Good ∧ FinPos m ∧ (∀ v, m.vLock v = true) ∧
      denoiseL0Smooth solve order 2 (XR.fin alpha) (XR.fin 999) m = .ok () m' ∧ ∃ v, m.vAlive v = true ∧ m'.vPos v ≠ m.vPos v := by
  obtain ⟨m0, G0, C0⟩ := corner_tables
  generalize hm : ({ m0.overR cornerAt with vLock := fun _ => true } : Mesh XR) = m
  have G : m.Good := by rw [← hm]; exact (G0.over _).setLocks _
  have C : CornerFacts m := by
    rw [← hm]
    exact ⟨C0.fs, C0.vs, C0.hes, C0.fHe, C0.src, C0.next, C0.rev, C0.face⟩
  have A : m.AtE fun v => (cornerAt v).E := by
    rw [← hm]
    exact fun v _ => ⟨cornerAt v, rfl, rfl⟩
  have L : ∀ v, m.vLock v = true := by rw [← hm]; exact fun _ => rfl
  have P : ∀ v, m.Pinned v := fun v => Or.inr (L v)
  have ml := C.meanLen
  have hl : 0 < m.meanLen fun v => (cornerAt v).E := by
    rw [ml]
    have := Real.sqrt_nonneg 2
    linarith
  have s1 : 1.41 < Real.sqrt 2 := by rw [Real.lt_sqrt (by norm_num)]; norm_num
  have hne : m.hes ≠ [] := by rw [C.hes]; simp
  obtain ⟨m', q, run, s, A', st⟩ := c58_result G.wf A hne ho hS ha.le (beta := 999) (by norm_num) hl (by rw [taubin_pinned P]; exact C.proper G)
    (N := 1) (fun k hk => by obtain rfl : k = 0 := by omega
                             norm_num) (by rw [pow_one]; linarith)
  rw [taubin_pinned P] at st
  obtain ⟨r, st1, st2⟩ := st
  have a1 : m.hAlive 1 = true := (G.wf.hDense.mem 1).1 (by rw [C.hes]; simp)
  obtain ⟨v, av, hv⟩ := st1.moves G.wf (mul_pos ha hl) (mul_nonneg (by norm_num) hl.le) a1 (by
    obtain ⟨a, b, c, d, e, f, g, h⟩ := C
    rw [c] at e f g h
    simp only [List.map_cons, List.map_nil, List.cons.injEq, and_true] at e f g h
    intro hz
    simp only [Mesh.crossOf, e, f, g, cornerAt, ← Vec3.E_add, ← Vec3.E_sub, Vec3.add_def, Vec3.sub_def] at hz
    have := congrArg (fun x : E3 => x 0) hz
    simp at this)
  refine ⟨m, m', G, ⟨_, A⟩, L, run 2 (by omega), v, av, fun e => hv ?_⟩
  have h1 := A' v (by rw [s]; exact av)
  rw [e] at h1
  rw [← st2 v av]
  exact h1.unique (A v av)

/-! ### the hypotheses hold -/

/-- the hypotheses of `c58_operator` hold for two triangles at a right angle -/
example : (⟨0, 0, 0⟩ : Vec3 ℝ).E ≠ (⟨1, 0, 0⟩ : Vec3 ℝ).E ∧
    0 < triArea (⟨0, 0, 0⟩ : Vec3 ℝ).E (⟨1, 0, 0⟩ : Vec3 ℝ).E (⟨0, 1, 0⟩ : Vec3 ℝ).E +
      triArea (⟨1, 0, 0⟩ : Vec3 ℝ).E (⟨0, 0, 0⟩ : Vec3 ℝ).E (⟨0, 0, 1⟩ : Vec3 ℝ).E := by
  constructor
  · rw [Ne, Vec3.E_inj]
    simp
  · refine add_pos_of_pos_of_nonneg (div_pos (norm_pos_iff.2 ?_) (by norm_num)) (div_nonneg (norm_nonneg _) (by norm_num))
    change triNormal (⟨0, 0, 0⟩ : Vec3 ℝ).E (⟨1, 0, 0⟩ : Vec3 ℝ).E (⟨0, 1, 0⟩ : Vec3 ℝ).E ≠ 0
    rw [triNormal_E]
    intro h
    have := congrArg (fun x : E3 => x 2) h
    simp [Vec3.cross, Vec3.sub_def] at this

/-- the hypotheses of `c58_result`, `c58_diverges`, `c58_skip` and `c58_isometry` on the mesh hold for the corner tetrahedron with locked
vertices, those on the solver for `exactSolve`, those on the order for the identity -/
example : ∃ (m m2 : Mesh XR) (p : Nat → E3), m.Good ∧ m.AtE p ∧ m.hes ≠ [] ∧ 0 < m.meanLen p ∧
    m.L0Proper (m.taubin (1 / 2) (53 / 100) 0 6 p) ∧ exactSolve.Exact ∧ (∀ l : List Nat, (id l).Perm l) ∧ m.SameButPos m2 ∧
    m2.AtE fun v => AffineIsometryEquiv.constVAdd ℝ E3 (⟨1, 0, 0⟩ : Vec3 ℝ).E (p v) := by
  obtain ⟨m0, G0, C0⟩ := corner_tables
  have s2 := Real.sqrt_nonneg 2
  refine ⟨{ m0.overR cornerAt with vLock := fun _ => true },
    { m0.overR (fun v => (⟨1, 0, 0⟩ : Vec3 ℝ).add (cornerAt v)) with vLock := fun _ => true }, fun v => (cornerAt v).E,
    (G0.over _).setLocks _, fun v _ => ⟨cornerAt v, rfl, rfl⟩, ?_, ?_, ?_, exactSolve_exact, fun _ => List.Perm.refl _, rfl, fun v _ => ⟨_, rfl, ?_⟩⟩
  · change m0.hes ≠ []
    rw [C0.hes]; simp
  · change 0 < m0.meanLen fun v => (cornerAt v).E
    rw [C0.meanLen]
    linarith
  · rw [taubin_pinned fun v => Or.inr rfl]
    exact C0.proper G0
  · rw [Vec3.E_add]; rfl

/-- the hypotheses of `c58_plane` hold for a tetrahedron pressed flat -/
example : ∃ (m : Mesh XR) (p : Nat → E3), m.Good ∧ m.AtE p ∧ m.hes ≠ [] ∧ 0 < m.meanLen p ∧
    m.L0Proper (m.taubin (1 / 2) (53 / 100) 0 6 p) ∧ ∀ v, inner ℝ (⟨0, 0, 1⟩ : Vec3 ℝ).E (p v) = 0 := by
  obtain ⟨m, G, C⟩ := corner_tables
  let q : Nat → Vec3 ℝ := fun v => if v = 1 then ⟨0, 0, 0⟩ else if v = 2 then ⟨0, 1, 0⟩ else if v = 3 then ⟨1, 0, 0⟩ else ⟨1, 1, 0⟩
  have hp : m.L0Proper fun v => (q v).E := by
    refine CornerFacts.properOf G fun x a => ?_
    have hx := C.he G a
    obtain ⟨a, b, c, d, e, f, g, h⟩ := C
    rw [c] at e f g h
    simp only [List.map_cons, List.map_nil, List.cons.injEq, and_true] at e f g h
    rcases hx with rfl | rfl | rfl | rfl | rfl | rfl | rfl | rfl | rfl | rfl | rfl | rfl <;>
      (simp only [e, f, q]; simp [Vec3.cross, Vec3.sub_def])
  have hne : m.hes ≠ [] := by rw [C.hes]; simp
  refine ⟨{ m.overR q with vLock := fun _ => true }, fun v => (q v).E, (G.over _).setLocks _, fun v _ => ⟨q v, rfl, rfl⟩, hne, ?_, ?_, ?_⟩
  · change 0 < m.meanLen fun v => (q v).E
    unfold Mesh.meanLen
    refine div_pos ?_ (Nat.cast_pos.2 (List.length_pos_iff.2 hne))
    have a1 : m.hAlive 1 = true := (G.wf.hDense.mem 1).1 (by rw [C.hes]; simp)
    refine lt_of_lt_of_le (dist_pos.2 (hp 1 a1).1) (List.single_le_sum (fun y hy => ?_) _
      (List.mem_map_of_mem (f := fun h => dist ((fun v => (q v).E) (m.hSrc h)) ((fun v => (q v).E) (m.hSrc (m.hNext h)))) ((G.wf.hDense.mem 1).2 a1)))
    obtain ⟨v, -, rfl⟩ := List.mem_map.1 hy
    exact dist_nonneg
  · rw [taubin_pinned fun v => Or.inr rfl]
    exact hp
  · intro v
    rw [Vec3.E_inner, Vec3.dot_def]
    simp only [q]
    split
    · simp
    · split
      · simp
      · split <;> simp

/-- runs that return normally, as in `c43_l0_partial` -/
example : ∃ m m' : Mesh XR, m.WF ∧ denoiseL0Smooth exactSolve id 2 (XR.fin 1) (XR.fin 999) m = .ok () m' := by
  obtain ⟨m, m', G, -, -, h, -⟩ := c43_l0_counterexample exactSolve_exact (order := id) (fun _ => List.Perm.refl _) (alpha := 1) one_pos
  exact ⟨m, m', G.wf, h⟩

/-- and as in `c43_fairing_partial` -/
example : ∃ m m' : Mesh XR, m.WF ∧ implicitFairing exactSolve (XR.fin 1) 1 m = .ok () m' := by
  obtain ⟨m, m', G, -, -, h, -⟩ := c43_fairing_counterexample (eps := 1) one_pos exactSolve_exact
  exact ⟨m, m', G.wf, h⟩

end TinyMesh
