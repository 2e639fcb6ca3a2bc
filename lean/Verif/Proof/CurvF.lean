import Verif.Proof.CurvE
import Verif.Props.Feature
/-
The tensors of the faces.
-/
namespace TinyMesh

theorem frame_of {u n : Vec3 ℝ} (hu : u.dot u = 1) (hn : n.dot n = 1) (hun : n.dot u = 0) : Frame u (n.cross u) n where
  on := by
    have hv := cross_unit hn hu hun
    have e1 : u.dot (n.cross u) = 0 := by simp only [Vec3.cross_def, Vec3.dot_def]; ring
    have e2 : n.dot (n.cross u) = 0 := by simp only [Vec3.cross_def, Vec3.dot_def]; ring
    have sq : ∀ w : Vec3 ℝ, w.dot w = 1 → ‖w.E‖ = 1 := fun w h => by
      rw [← Vec3.E_inner, real_inner_self_eq_norm_sq] at h
      nlinarith [norm_nonneg w.E]
    constructor
    · intro i
      fin_cases i
      exacts [sq _ hu, sq _ hv, sq _ hn]
    · intro i j hij
      fin_cases i <;> fin_cases j <;> first | exact absurd rfl hij | skip
      · exact (Vec3.E_inner _ _).trans e1
      · exact ((real_inner_comm _ _).trans (Vec3.E_inner _ _)).trans hun
      · exact ((real_inner_comm _ _).trans (Vec3.E_inner _ _)).trans e1
      · exact ((real_inner_comm _ _).trans (Vec3.E_inner _ _)).trans e2
      · exact (Vec3.E_inner _ _).trans hun
      · exact (Vec3.E_inner _ _).trans e2
  cross := by
    rw [cross_apply]
    ext i; fin_cases i <;> simp [Vec3.E, Vec3.cross_def]

theorem unitOf_dot {w x : Vec3 ℝ} (h : w.E = unitOf x.E) (hx : x.E ≠ 0) : w.dot w = 1 ∧ ∀ y : Vec3 ℝ, x.dot y = ‖x.E‖ * w.dot y := by
  have h0 := norm_ne_zero_iff.2 hx
  refine ⟨?_, fun y => ?_⟩
  · rw [← Vec3.E_inner, real_inner_self_eq_norm_sq, h, unitOf, norm_smul, norm_inv, norm_norm, inv_mul_cancel₀ h0, one_pow]
  · rw [← Vec3.E_inner, ← Vec3.E_inner, h, unitOf, inner_smul_left, conj_trivial, mul_inv_cancel_left₀ h0]

/-- the frame of a triangle of positive area -/
theorem faceFrame_ok {a b c : Vec3 XR} {x y z : E3} (ha : a.Is x) (hb : b.Is y) (hc : c.Is z) (h : triNormal x y z ≠ 0) :
    ∃ u v n : Vec3 ℝ, faceFrame a b c = some ⟨u.fin, v.fin, n.fin⟩ ∧ Frame u v n ∧ n.E = unitOf (triNormal x y z) ∧
      u.E = unitOf (z - y) ∧ 0 < inner ℝ (z - y) u.E * inner ℝ (x - z) v.E - inner ℝ (x - z) u.E * inner ℝ (z - y) v.E := by
  obtain ⟨p, rfl, rfl⟩ := ha
  obtain ⟨q, rfl, rfl⟩ := hb
  obtain ⟨r, rfl, rfl⟩ := hc
  have hcr : (r.sub q).cross (p.sub r) = (q.sub p).cross (r.sub p) := by
    apply Vec3.ext' <;> simp only [Vec3.cross_def, Vec3.sub_def] <;> ring
  rw [triNormal_E, ← hcr] at h ⊢
  have hzy : (r.sub q).E ≠ 0 := by
    intro e
    apply h
    have : r.sub q = Vec3.zero := Vec3.E_inj.1 (by rw [e, E_zero])
    rw [this, ← E_zero]
    congr 1
    apply Vec3.ext' <;> simp [Vec3.cross_def, Vec3.zero_def]
  obtain ⟨_, h1, u, rfl, hu⟩ := Vec3.Is.normalize ⟨r.sub q, rfl, rfl⟩ hzy
  obtain ⟨_, h2, n, rfl, hn⟩ := Vec3.Is.normalize ⟨(r.sub q).cross (p.sub r), rfl, rfl⟩ h
  obtain ⟨u1, u2⟩ := unitOf_dot hu hzy
  obtain ⟨n1, n2⟩ := unitOf_dot hn h
  have hz0 := norm_pos_iff.2 hzy
  have h00 := norm_pos_iff.2 h
  have hun : n.dot u = 0 := by
    have e1 : ((r.sub q).cross (p.sub r)).dot (r.sub q) = 0 := by simp only [Vec3.cross_def, Vec3.dot_def]; ring
    rw [n2] at e1
    have e2 : n.dot (r.sub q) = 0 := by
      rcases mul_eq_zero.1 e1 with e | e
      · exact absurd e h00.ne'
      · exact e
    have e3 : n.dot (r.sub q) = (r.sub q).dot n := by simp only [Vec3.dot_def]; ring
    rw [e3, u2] at e2
    rcases mul_eq_zero.1 e2 with e | e
    · exact absurd e hz0.ne'
    · rw [← e]; simp only [Vec3.dot_def]; ring
  refine ⟨u, n.cross u, n, ?_, frame_of u1 n1 hun, hn, by rw [hu, E_sub], ?_⟩
  · unfold faceFrame
    dsimp only
    rw [Vec3.X_vsub, Vec3.X_vsub, h1, Vec3.X_vcross, h2]
    simp only [Option.bind_eq_bind, Option.bind_some]
    rw [Vec3.X_vcross, normalize_unit (cross_unit n1 u1 hun)]
    rfl
  · rw [← E_sub, ← E_sub, Vec3.E_inner, Vec3.E_inner, Vec3.E_inner, Vec3.E_inner]
    have e1 : (r.sub q).dot u * (p.sub r).dot (n.cross u) - (p.sub r).dot u * (r.sub q).dot (n.cross u) =
        ((r.sub q).cross (p.sub r)).dot (u.cross (n.cross u)) := by
      simp only [Vec3.cross_def, Vec3.dot_def]; ring
    have e2 : u.cross (n.cross u) = n := by
      have : u.cross (n.cross u) = (n.smul (u.dot u)).sub (u.smul (n.dot u)) := by
        apply Vec3.ext' <;> simp only [Vec3.cross_def, Vec3.dot_def, Vec3.sub_def, Vec3.smul_def] <;> ring
      rw [this, u1, hun]
      apply Vec3.ext' <;> simp only [Vec3.sub_def, Vec3.smul_def] <;> ring
    rw [e1, e2, n2, n1, mul_one]
    exact h00

/-- a matrix with a definite form is regular -/
theorem det_of_def {n : Nat} {A : Matrix (Fin n) (Fin n) ℝ} (h : ∀ x : Fin n → ℝ, dotProduct x (A.mulVec x) = 0 → x = 0) : A.det ≠ 0 := by
  intro e
  obtain ⟨x, hx, hA⟩ := Matrix.exists_mulVec_eq_zero_iff.2 e
  exact hx (h x (by rw [hA, dotProduct_zero]))

/-- a linear form of two variables that vanishes on two independent vectors -/
theorem two_zero {u0 v0 u1 v1 a b : ℝ} (h : u0 * v1 - u1 * v0 ≠ 0) (h0 : a * u0 + b * v0 = 0) (h1 : a * u1 + b * v1 = 0) : a = 0 ∧ b = 0 := by
  constructor
  · have : a * (u0 * v1 - u1 * v0) = 0 := by linear_combination v1 * h0 - v0 * h1
    exact (mul_eq_zero.1 this).resolve_right h
  · have : b * (u0 * v1 - u1 * v0) = 0 := by linear_combination u0 * h1 - u1 * h0
    exact (mul_eq_zero.1 this).resolve_right h

section
variable {u v n : Vec3 ℝ} {p0 p1 p2 : Vec3 XR} {x0 x1 x2 : E3}

theorem gramSums_ok (h0 : p0.Is x0) (h1 : p1.Is x1) (h2 : p2.Is x2) {α : Type} (s : α → α → α) (a b c : α) :
    gramSums (⟨u.fin, v.fin, n.fin⟩ : LFrame XR) ((edgeDiffs s p0 p1 p2 a b c).map Prod.fst) =
      (.fin (inner ℝ (x2 - x1) u.E ^ 2 + inner ℝ (x0 - x2) u.E ^ 2 + inner ℝ (x1 - x0) u.E ^ 2),
       .fin (inner ℝ (x2 - x1) u.E * inner ℝ (x2 - x1) v.E + inner ℝ (x0 - x2) u.E * inner ℝ (x0 - x2) v.E +
         inner ℝ (x1 - x0) u.E * inner ℝ (x1 - x0) v.E),
       .fin (inner ℝ (x2 - x1) v.E ^ 2 + inner ℝ (x0 - x2) v.E ^ 2 + inner ℝ (x1 - x0) v.E ^ 2)) := by
  have iu : (u.fin).Is u.E := ⟨u, rfl, rfl⟩
  have iv : (v.fin).Is v.E := ⟨v, rfl, rfl⟩
  unfold gramSums edgeDiffs
  simp only [List.map_cons, List.map_nil, List.foldl_cons, List.foldl_nil]
  rw [(h2.sub h1).dot iu, (h0.sub h2).dot iu, (h1.sub h0).dot iu, (h2.sub h1).dot iv, (h0.sub h2).dot iv, (h1.sub h0).dot iv]
  change ((Scalar.lit 0 1 : XR) + _ + _ + _, (Scalar.lit 0 1 : XR) + _ + _ + _, (Scalar.lit 0 1 : XR) + _ + _ + _) = _
  rw [lit_zero]
  simp only [X_add, X_mul, zero_add, pow_two]

/-- the tensor of a triangle is the symmetric map that fits the changes of the normals along the edges best -/
theorem faceTensor_fit {solve : LinSolve XR} (hS : solve.Exact) (h0 : p0.Is x0) (h1 : p1.Is x1) (h2 : p2.Is x2)
    (hd : inner ℝ (x2 - x1) u.E * inner ℝ (x0 - x2) v.E - inner ℝ (x0 - x2) u.E * inner ℝ (x2 - x1) v.E ≠ 0)
    {n0 n1 n2 : Vec3 XR} {y0 y1 y2 : E3} (i0 : n0.Is y0) (i1 : n1.Is y1) (i2 : n2.Is y2) :
    ∃ a b c : ℝ, faceTensor solve ⟨u.fin, v.fin, n.fin⟩ p0 p1 p2 n0 n1 n2 = ⟨.fin a, .fin b, .fin b, .fin c⟩ ∧
      ∀ a' b' c', shapeEnergy u.E v.E x0 x1 x2 y0 y1 y2 a b c ≤ shapeEnergy u.E v.E x0 x1 x2 y0 y1 y2 a' b' c' ∧
        (shapeEnergy u.E v.E x0 x1 x2 y0 y1 y2 a' b' c' ≤ shapeEnergy u.E v.E x0 x1 x2 y0 y1 y2 a b c → a' = a ∧ b' = b ∧ c' = c) := by
  have iu : (u.fin).Is u.E := ⟨u, rfl, rfl⟩
  have iv : (v.fin).Is v.E := ⟨v, rfl, rfl⟩
  unfold faceTensor
  dsimp only
  rw [gramSums_ok h0 h1 h2]
  have hb : curvRhs (⟨u.fin, v.fin, n.fin⟩ : LFrame XR) (edgeDiffs Vec3.sub p0 p1 p2 n0 n1 n2) =
      (.fin (inner ℝ (y2 - y1) u.E * inner ℝ (x2 - x1) u.E + inner ℝ (y0 - y2) u.E * inner ℝ (x0 - x2) u.E +
          inner ℝ (y1 - y0) u.E * inner ℝ (x1 - x0) u.E),
       .fin (inner ℝ (y2 - y1) u.E * inner ℝ (x2 - x1) v.E + inner ℝ (y2 - y1) v.E * inner ℝ (x2 - x1) u.E +
          (inner ℝ (y0 - y2) u.E * inner ℝ (x0 - x2) v.E + inner ℝ (y0 - y2) v.E * inner ℝ (x0 - x2) u.E) +
          (inner ℝ (y1 - y0) u.E * inner ℝ (x1 - x0) v.E + inner ℝ (y1 - y0) v.E * inner ℝ (x1 - x0) u.E)),
       .fin (inner ℝ (y2 - y1) v.E * inner ℝ (x2 - x1) v.E + inner ℝ (y0 - y2) v.E * inner ℝ (x0 - x2) v.E +
          inner ℝ (y1 - y0) v.E * inner ℝ (x1 - x0) v.E)) := by
    unfold curvRhs edgeDiffs
    simp only [List.foldl_cons, List.foldl_nil]
    rw [(h2.sub h1).dot iu, (h0.sub h2).dot iu, (h1.sub h0).dot iu, (h2.sub h1).dot iv, (h0.sub h2).dot iv, (h1.sub h0).dot iv,
      (i2.sub i1).dot iu, (i0.sub i2).dot iu, (i1.sub i0).dot iu, (i2.sub i1).dot iv, (i0.sub i2).dot iv, (i1.sub i0).dot iv]
    change ((Scalar.lit 0 1 : XR) + _ + _ + _, (Scalar.lit 0 1 : XR) + _ + _ + _, (Scalar.lit 0 1 : XR) + _ + _ + _) = _
    rw [lit_zero]
    simp only [X_add, X_mul, zero_add]
  rw [hb]
  unfold shapeEnergy shapeErr
  generalize inner ℝ (x2 - x1) u.E = u0 at *
  generalize inner ℝ (x0 - x2) u.E = u1 at *
  generalize inner ℝ (x1 - x0) u.E = u2 at *
  generalize inner ℝ (x2 - x1) v.E = v0 at *
  generalize inner ℝ (x0 - x2) v.E = v1 at *
  generalize inner ℝ (x1 - x0) v.E = v2 at *
  generalize inner ℝ (y2 - y1) u.E = r0 at *
  generalize inner ℝ (y0 - y2) u.E = r1 at *
  generalize inner ℝ (y1 - y0) u.E = r2 at *
  generalize inner ℝ (y2 - y1) v.E = s0 at *
  generalize inner ℝ (y0 - y2) v.E = s1 at *
  generalize inner ℝ (y1 - y0) v.E = s2 at *
  set S := u0 ^ 2 + u1 ^ 2 + u2 ^ 2 with hSS
  set T := u0 * v0 + u1 * v1 + u2 * v2 with hT
  set R := v0 ^ 2 + v1 ^ 2 + v2 ^ 2 with hR
  have key : ∀ a b c : ℝ, a * (S * a + T * b) + b * (T * a + (S + R) * b + T * c) + c * (T * b + R * c) =
      ((a * u0 + b * v0) ^ 2 + (b * u0 + c * v0) ^ 2) + ((a * u1 + b * v1) ^ 2 + (b * u1 + c * v1) ^ 2) +
        ((a * u2 + b * v2) ^ 2 + (b * u2 + c * v2) ^ 2) := by
    intro a b c; rw [hSS, hT, hR]; ring
  have zero : ∀ a b c : ℝ, ((a * u0 + b * v0) ^ 2 + (b * u0 + c * v0) ^ 2) + ((a * u1 + b * v1) ^ 2 + (b * u1 + c * v1) ^ 2) +
        ((a * u2 + b * v2) ^ 2 + (b * u2 + c * v2) ^ 2) ≤ 0 → a = 0 ∧ b = 0 ∧ c = 0 := by
    intro a b c h
    have q1 := sq_nonneg (a * u0 + b * v0)
    have q2 := sq_nonneg (b * u0 + c * v0)
    have q3 := sq_nonneg (a * u1 + b * v1)
    have q4 := sq_nonneg (b * u1 + c * v1)
    have q5 := sq_nonneg (a * u2 + b * v2)
    have q6 := sq_nonneg (b * u2 + c * v2)
    have z1 : a * u0 + b * v0 = 0 := pow_eq_zero_iff (two_ne_zero) |>.1 (by linarith)
    have z2 : b * u0 + c * v0 = 0 := pow_eq_zero_iff (two_ne_zero) |>.1 (by linarith)
    have z3 : a * u1 + b * v1 = 0 := pow_eq_zero_iff (two_ne_zero) |>.1 (by linarith)
    have z4 : b * u1 + c * v1 = 0 := pow_eq_zero_iff (two_ne_zero) |>.1 (by linarith)
    obtain ⟨ha, hb⟩ := two_zero hd z1 z3
    exact ⟨ha, hb, (two_zero hd z2 z4).2⟩
  obtain ⟨x, hx, e⟩ := hS 3 (!![S, T, 0; T, S + R, T; 0, T, R])
    ![r0 * u0 + r1 * u1 + r2 * u2, r0 * v0 + s0 * u0 + (r1 * v1 + s1 * u1) + (r2 * v2 + s2 * u2), s0 * v0 + s1 * v1 + s2 * v2]
    (curvMat (.fin S, .fin T, .fin R)) (vec3At (.fin (r0 * u0 + r1 * u1 + r2 * u2),
      .fin (r0 * v0 + s0 * u0 + (r1 * v1 + s1 * u1) + (r2 * v2 + s2 * u2)), .fin (s0 * v0 + s1 * v1 + s2 * v2))) (by
      apply det_of_def
      intro x hx
      simp [Matrix.mulVec, dotProduct, Fin.sum_univ_three] at hx
      have := key (x 0) (x 1) (x 2)
      obtain ⟨z0, z1, z2⟩ := zero (x 0) (x 1) (x 2) (by rw [← this]; linarith)
      ext i; fin_cases i <;> assumption) (by
      have z : (Scalar.lit 0 1 : XR) = .fin 0 := lit_zero
      intro i j
      fin_cases i <;> fin_cases j <;> first | rfl | exact z) (by
      intro i; fin_cases i <;> rfl)
  have e0 := congrFun hx 0
  have e1 := congrFun hx 1
  have e2 := congrFun hx 2
  simp [Matrix.mulVec, dotProduct, Fin.sum_univ_three] at e0 e1 e2
  refine ⟨x 0, x 1, x 2, by rw [← e 0, ← e 1, ← e 2]; rfl, fun a b c => ?_⟩
  have main : ((a * u0 + b * v0 - r0) ^ 2 + (b * u0 + c * v0 - s0) ^ 2) + ((a * u1 + b * v1 - r1) ^ 2 + (b * u1 + c * v1 - s1) ^ 2) +
        ((a * u2 + b * v2 - r2) ^ 2 + (b * u2 + c * v2 - s2) ^ 2) =
      ((x 0 * u0 + x 1 * v0 - r0) ^ 2 + (x 1 * u0 + x 2 * v0 - s0) ^ 2) + ((x 0 * u1 + x 1 * v1 - r1) ^ 2 + (x 1 * u1 + x 2 * v1 - s1) ^ 2) +
        ((x 0 * u2 + x 1 * v2 - r2) ^ 2 + (x 1 * u2 + x 2 * v2 - s2) ^ 2) +
      ((((a - x 0) * u0 + (b - x 1) * v0) ^ 2 + ((b - x 1) * u0 + (c - x 2) * v0) ^ 2) +
        (((a - x 0) * u1 + (b - x 1) * v1) ^ 2 + ((b - x 1) * u1 + (c - x 2) * v1) ^ 2) +
        (((a - x 0) * u2 + (b - x 1) * v2) ^ 2 + ((b - x 1) * u2 + (c - x 2) * v2) ^ 2)) := by
    rw [hSS, hT] at e0
    rw [hSS, hT, hR] at e1
    rw [hT, hR] at e2
    linear_combination 2 * (a - x 0) * e0 + 2 * (b - x 1) * e1 + 2 * (c - x 2) * e2
  refine ⟨by rw [main]; linarith [sq_nonneg ((a - x 0) * u0 + (b - x 1) * v0), sq_nonneg ((b - x 1) * u0 + (c - x 2) * v0),
    sq_nonneg ((a - x 0) * u1 + (b - x 1) * v1), sq_nonneg ((b - x 1) * u1 + (c - x 2) * v1),
    sq_nonneg ((a - x 0) * u2 + (b - x 1) * v2), sq_nonneg ((b - x 1) * u2 + (c - x 2) * v2)], fun h => ?_⟩
  rw [main] at h
  obtain ⟨z0, z1, z2⟩ := zero (a - x 0) (b - x 1) (c - x 2) (by linarith)
  exact ⟨sub_eq_zero.1 z0, sub_eq_zero.1 z1, sub_eq_zero.1 z2⟩

def fin3 (m : ℝ × ℝ × ℝ) : XR × XR × XR := (.fin m.1, .fin m.2.1, .fin m.2.2)

/-- the derivative tensor of a triangle is the cubic form that fits the changes of the second fundamental forms best -/
theorem faceDeriv_fit {solve : LinSolve XR} (hS : solve.Exact) (h0 : p0.Is x0) (h1 : p1.Is x1) (h2 : p2.Is x2)
    (hd : inner ℝ (x2 - x1) u.E * inner ℝ (x0 - x2) v.E - inner ℝ (x0 - x2) u.E * inner ℝ (x2 - x1) v.E ≠ 0) (m0 m1 m2 : ℝ × ℝ × ℝ) :
    ∃ a b c d : ℝ, faceDeriv solve ⟨u.fin, v.fin, n.fin⟩ p0 p1 p2 (fin3 m0) (fin3 m1) (fin3 m2) = ⟨.fin a, .fin b, .fin c, .fin d⟩ ∧
      ∀ a' b' c' d', cubicEnergy u.E v.E x0 x1 x2 m0 m1 m2 a b c d ≤ cubicEnergy u.E v.E x0 x1 x2 m0 m1 m2 a' b' c' d' ∧
        (cubicEnergy u.E v.E x0 x1 x2 m0 m1 m2 a' b' c' d' ≤ cubicEnergy u.E v.E x0 x1 x2 m0 m1 m2 a b c d →
          a' = a ∧ b' = b ∧ c' = c ∧ d' = d) := by
  have iu : (u.fin).Is u.E := ⟨u, rfl, rfl⟩
  have iv : (v.fin).Is v.E := ⟨v, rfl, rfl⟩
  have hsub : ∀ a b : ℝ × ℝ × ℝ, subForm (fin3 a) (fin3 b) = fin3 (a - b) := fun a b => by
    unfold subForm fin3
    simp only [X_sub]
    rfl
  have two : (Scalar.lit 2 1 : XR) = .fin 2 := by rw [X_lit, R_lit]; norm_num
  unfold faceDeriv
  dsimp only
  rw [gramSums_ok h0 h1 h2]
  unfold edgeDiffs derivRhs cubicEnergy cubicErr
  rw [hsub, hsub, hsub]
  generalize m2 - m1 = d0
  generalize m0 - m2 = d1
  generalize m1 - m0 = d2
  simp only [List.foldl_cons, List.foldl_nil]
  rw [(h2.sub h1).dot iu, (h0.sub h2).dot iu, (h1.sub h0).dot iu, (h2.sub h1).dot iv, (h0.sub h2).dot iv, (h1.sub h0).dot iv]
  generalize inner ℝ (x2 - x1) u.E = u0 at *
  generalize inner ℝ (x0 - x2) u.E = u1 at *
  generalize inner ℝ (x1 - x0) u.E = u2 at *
  generalize inner ℝ (x2 - x1) v.E = v0 at *
  generalize inner ℝ (x0 - x2) v.E = v1 at *
  generalize inner ℝ (x1 - x0) v.E = v2 at *
  set S := u0 ^ 2 + u1 ^ 2 + u2 ^ 2 with hSS
  set T := u0 * v0 + u1 * v1 + u2 * v2 with hT
  set R := v0 ^ 2 + v1 ^ 2 + v2 ^ 2 with hR
  have hb : (⟨(Scalar.lit 0 1 : XR) + .fin u0 * (fin3 d0).1 + .fin u1 * (fin3 d1).1 + .fin u2 * (fin3 d2).1,
      (Scalar.lit 0 1 : XR) + (.fin v0 * (fin3 d0).1 + Scalar.lit 2 1 * .fin u0 * (fin3 d0).2.1) +
        (.fin v1 * (fin3 d1).1 + Scalar.lit 2 1 * .fin u1 * (fin3 d1).2.1) + (.fin v2 * (fin3 d2).1 + Scalar.lit 2 1 * .fin u2 * (fin3 d2).2.1),
      (Scalar.lit 0 1 : XR) + (Scalar.lit 2 1 * .fin v0 * (fin3 d0).2.1 + .fin u0 * (fin3 d0).2.2) +
        (Scalar.lit 2 1 * .fin v1 * (fin3 d1).2.1 + .fin u1 * (fin3 d1).2.2) + (Scalar.lit 2 1 * .fin v2 * (fin3 d2).2.1 + .fin u2 * (fin3 d2).2.2),
      (Scalar.lit 0 1 : XR) + .fin v0 * (fin3 d0).2.2 + .fin v1 * (fin3 d1).2.2 + .fin v2 * (fin3 d2).2.2⟩ : Cubic XR) =
      ⟨.fin (u0 * d0.1 + u1 * d1.1 + u2 * d2.1),
       .fin ((v0 * d0.1 + 2 * u0 * d0.2.1) + (v1 * d1.1 + 2 * u1 * d1.2.1) + (v2 * d2.1 + 2 * u2 * d2.2.1)),
       .fin ((2 * v0 * d0.2.1 + u0 * d0.2.2) + (2 * v1 * d1.2.1 + u1 * d1.2.2) + (2 * v2 * d2.2.1 + u2 * d2.2.2)),
       .fin (v0 * d0.2.2 + v1 * d1.2.2 + v2 * d2.2.2)⟩ := by
    unfold fin3
    rw [two, lit_zero]
    simp only [X_add, X_mul, zero_add]
  have key : ∀ a b c d : ℝ, a * (S * a + T * b) + b * (T * a + (2 * S + R) * b + 2 * T * c) +
        c * (2 * T * b + (S + 2 * R) * c + T * d) + d * (T * c + R * d) =
      ((a * u0 + b * v0) ^ 2 + 2 * (b * u0 + c * v0) ^ 2 + (c * u0 + d * v0) ^ 2) +
      ((a * u1 + b * v1) ^ 2 + 2 * (b * u1 + c * v1) ^ 2 + (c * u1 + d * v1) ^ 2) +
        ((a * u2 + b * v2) ^ 2 + 2 * (b * u2 + c * v2) ^ 2 + (c * u2 + d * v2) ^ 2) := by
    intro a b c d; rw [hSS, hT, hR]; ring
  have zero : ∀ a b c d : ℝ, ((a * u0 + b * v0) ^ 2 + 2 * (b * u0 + c * v0) ^ 2 + (c * u0 + d * v0) ^ 2) +
      ((a * u1 + b * v1) ^ 2 + 2 * (b * u1 + c * v1) ^ 2 + (c * u1 + d * v1) ^ 2) +
        ((a * u2 + b * v2) ^ 2 + 2 * (b * u2 + c * v2) ^ 2 + (c * u2 + d * v2) ^ 2) ≤ 0 → a = 0 ∧ b = 0 ∧ c = 0 ∧ d = 0 := by
    intro a b c d h
    have q1 := sq_nonneg (a * u0 + b * v0)
    have q2 := sq_nonneg (b * u0 + c * v0)
    have q3 := sq_nonneg (a * u1 + b * v1)
    have q4 := sq_nonneg (b * u1 + c * v1)
    have q5 := sq_nonneg (a * u2 + b * v2)
    have q6 := sq_nonneg (b * u2 + c * v2)
    have q7 := sq_nonneg (c * u0 + d * v0)
    have q8 := sq_nonneg (c * u1 + d * v1)
    have q9 := sq_nonneg (c * u2 + d * v2)
    have z1 : a * u0 + b * v0 = 0 := pow_eq_zero_iff (two_ne_zero) |>.1 (by linarith)
    have z3 : a * u1 + b * v1 = 0 := pow_eq_zero_iff (two_ne_zero) |>.1 (by linarith)
    have z5 : c * u0 + d * v0 = 0 := pow_eq_zero_iff (two_ne_zero) |>.1 (by linarith)
    have z6 : c * u1 + d * v1 = 0 := pow_eq_zero_iff (two_ne_zero) |>.1 (by linarith)
    obtain ⟨ha, hb⟩ := two_zero hd z1 z3
    obtain ⟨hc, hd'⟩ := two_zero hd z5 z6
    exact ⟨ha, hb, hc, hd'⟩
  change ∃ a b c d : ℝ, Cubic.mk (solve 4 (derivMat (.fin S, .fin T, .fin R)) (Cubic.at (Cubic.mk _ _ _ _)) 0)
    (solve 4 (derivMat (.fin S, .fin T, .fin R)) (Cubic.at (Cubic.mk _ _ _ _)) 1)
    (solve 4 (derivMat (.fin S, .fin T, .fin R)) (Cubic.at (Cubic.mk _ _ _ _)) 2)
    (solve 4 (derivMat (.fin S, .fin T, .fin R)) (Cubic.at (Cubic.mk _ _ _ _)) 3) = _ ∧ _
  erw [hb]
  obtain ⟨x, hx, e⟩ := hS 4 (!![S, T, 0, 0; T, 2 * S + R, 2 * T, 0; 0, 2 * T, S + 2 * R, T; 0, 0, T, R])
    ![u0 * d0.1 + u1 * d1.1 + u2 * d2.1,
       ((v0 * d0.1 + 2 * u0 * d0.2.1) + (v1 * d1.1 + 2 * u1 * d1.2.1) + (v2 * d2.1 + 2 * u2 * d2.2.1)),
       ((2 * v0 * d0.2.1 + u0 * d0.2.2) + (2 * v1 * d1.2.1 + u1 * d1.2.2) + (2 * v2 * d2.2.1 + u2 * d2.2.2)),
       (v0 * d0.2.2 + v1 * d1.2.2 + v2 * d2.2.2)]
    (derivMat (.fin S, .fin T, .fin R)) (Cubic.at ⟨.fin (u0 * d0.1 + u1 * d1.1 + u2 * d2.1),
       .fin ((v0 * d0.1 + 2 * u0 * d0.2.1) + (v1 * d1.1 + 2 * u1 * d1.2.1) + (v2 * d2.1 + 2 * u2 * d2.2.1)),
       .fin ((2 * v0 * d0.2.1 + u0 * d0.2.2) + (2 * v1 * d1.2.1 + u1 * d1.2.2) + (2 * v2 * d2.2.1 + u2 * d2.2.2)),
       .fin (v0 * d0.2.2 + v1 * d1.2.2 + v2 * d2.2.2)⟩) (by
      apply det_of_def
      intro x hx
      simp [Matrix.mulVec, dotProduct, Fin.sum_univ_four] at hx
      have := key (x 0) (x 1) (x 2) (x 3)
      obtain ⟨z0, z1, z2, z3⟩ := zero (x 0) (x 1) (x 2) (x 3) (by rw [← this]; linarith)
      ext i; fin_cases i <;> assumption) (by
      have z : (Scalar.lit 0 1 : XR) = .fin 0 := lit_zero
      have w1 : (Scalar.lit 2 1 : XR) * .fin S + .fin R = .fin (2 * S + R) := by rw [two, X_mul, X_add]
      have w2 : (Scalar.lit 2 1 : XR) * .fin T = .fin (2 * T) := by rw [two, X_mul]
      have w3 : (XR.fin S : XR) + (Scalar.lit 2 1 : XR) * .fin R = .fin (S + 2 * R) := by rw [two, X_mul, X_add]
      intro i j
      fin_cases i <;> fin_cases j <;> first | rfl | exact z | exact w1 | exact w2 | exact w3) (by
      intro i; fin_cases i <;> rfl)
  have e0 := congrFun hx 0
  have e1 := congrFun hx 1
  have e2 := congrFun hx 2
  have e3 := congrFun hx 3
  simp [Matrix.mulVec, dotProduct, Fin.sum_univ_four] at e0 e1 e2 e3
  refine ⟨x 0, x 1, x 2, x 3, by rw [← e 0, ← e 1, ← e 2, ← e 3]; rfl, fun a b c d => ?_⟩
  obtain ⟨r0, s0, t0⟩ := d0
  obtain ⟨r1, s1, t1⟩ := d1
  obtain ⟨r2, s2, t2⟩ := d2
  dsimp only at *
  have main : ((a * u0 + b * v0 - r0) ^ 2 + 2 * (b * u0 + c * v0 - s0) ^ 2 + (c * u0 + d * v0 - t0) ^ 2) +
        ((a * u1 + b * v1 - r1) ^ 2 + 2 * (b * u1 + c * v1 - s1) ^ 2 + (c * u1 + d * v1 - t1) ^ 2) +
        ((a * u2 + b * v2 - r2) ^ 2 + 2 * (b * u2 + c * v2 - s2) ^ 2 + (c * u2 + d * v2 - t2) ^ 2) =
      ((x 0 * u0 + x 1 * v0 - r0) ^ 2 + 2 * (x 1 * u0 + x 2 * v0 - s0) ^ 2 + (x 2 * u0 + x 3 * v0 - t0) ^ 2) +
        ((x 0 * u1 + x 1 * v1 - r1) ^ 2 + 2 * (x 1 * u1 + x 2 * v1 - s1) ^ 2 + (x 2 * u1 + x 3 * v1 - t1) ^ 2) +
        ((x 0 * u2 + x 1 * v2 - r2) ^ 2 + 2 * (x 1 * u2 + x 2 * v2 - s2) ^ 2 + (x 2 * u2 + x 3 * v2 - t2) ^ 2) +
      ((((a - x 0) * u0 + (b - x 1) * v0) ^ 2 + 2 * ((b - x 1) * u0 + (c - x 2) * v0) ^ 2 + ((c - x 2) * u0 + (d - x 3) * v0) ^ 2) +
        (((a - x 0) * u1 + (b - x 1) * v1) ^ 2 + 2 * ((b - x 1) * u1 + (c - x 2) * v1) ^ 2 + ((c - x 2) * u1 + (d - x 3) * v1) ^ 2) +
        (((a - x 0) * u2 + (b - x 1) * v2) ^ 2 + 2 * ((b - x 1) * u2 + (c - x 2) * v2) ^ 2 + ((c - x 2) * u2 + (d - x 3) * v2) ^ 2)) := by
    rw [hSS, hT] at e0
    rw [hSS, hT, hR] at e1
    rw [hSS, hT, hR] at e2
    rw [hT, hR] at e3
    linear_combination 2 * (a - x 0) * e0 + 2 * (b - x 1) * e1 + 2 * (c - x 2) * e2 + 2 * (d - x 3) * e3
  refine ⟨by rw [main]; linarith [sq_nonneg ((a - x 0) * u0 + (b - x 1) * v0), sq_nonneg ((b - x 1) * u0 + (c - x 2) * v0),
    sq_nonneg ((a - x 0) * u1 + (b - x 1) * v1), sq_nonneg ((b - x 1) * u1 + (c - x 2) * v1),
    sq_nonneg ((a - x 0) * u2 + (b - x 1) * v2), sq_nonneg ((b - x 1) * u2 + (c - x 2) * v2),
    sq_nonneg ((c - x 2) * u0 + (d - x 3) * v0), sq_nonneg ((c - x 2) * u1 + (d - x 3) * v1),
    sq_nonneg ((c - x 2) * u2 + (d - x 3) * v2)], fun h => ?_⟩
  rw [main] at h
  obtain ⟨z0, z1, z2, z3⟩ := zero (a - x 0) (b - x 1) (c - x 2) (d - x 3) (by linarith)
  exact ⟨sub_eq_zero.1 z0, sub_eq_zero.1 z1, sub_eq_zero.1 z2, sub_eq_zero.1 z3⟩

end
end TinyMesh
