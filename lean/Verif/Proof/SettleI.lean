import Verif.Proof.SettleH
/-
Geometry of the maps and of the right-hand side.
-/
namespace TinyMesh
open Orbit

/-! ### Vectors -/

theorem crossE_norm_sq (a b : E3) : ‖crossE a b‖ ^ 2 = ‖a‖ ^ 2 * ‖b‖ ^ 2 - inner ℝ a b ^ 2 := by
  obtain ⟨u, rfl⟩ := Vec3.E_surj a
  obtain ⟨v, rfl⟩ := Vec3.E_surj b
  rw [crossE_E, Vec3.E_inner, Vec3.E_norm, Vec3.E_norm, Vec3.E_norm, pow_two, pow_two, pow_two, Vec3.length_sq, Vec3.length_sq, Vec3.length_sq]
  have := lagrange u v
  linarith

theorem crossE_left (a b : E3) : crossE (crossE a b) a = ‖a‖ ^ 2 • b - inner ℝ a b • a := by
  obtain ⟨u, rfl⟩ := Vec3.E_surj a
  obtain ⟨v, rfl⟩ := Vec3.E_surj b
  rw [crossE_E, crossE_E, Vec3.E_inner, Vec3.E_norm, pow_two, Vec3.length_sq, ← Vec3.E_smul, ← Vec3.E_smul, ← Vec3.E_sub, Vec3.E_inj]
  apply Vec3.ext' <;> simp [Vec3.cross_def, Vec3.smul_def, Vec3.sub_def, Vec3.dot_def] <;> ring

theorem crossE_inner (a b : E3) : inner ℝ (crossE a b) a = 0 := by
  obtain ⟨u, rfl⟩ := Vec3.E_surj a
  obtain ⟨v, rfl⟩ := Vec3.E_surj b
  rw [crossE_E, Vec3.E_inner]
  simp [Vec3.cross_def, Vec3.dot_def]; ring

theorem crossE_self (a : E3) : crossE a a = 0 := by
  unfold crossE
  rw [cross_self]; rfl

theorem crossE_zero_left (a : E3) : crossE 0 a = 0 := by
  unfold crossE
  rw [WithLp.ofLp_zero, map_zero, LinearMap.zero_apply]; rfl

theorem crossE_add_left (a b c : E3) : crossE (a + b) c = crossE a c + crossE b c := by
  unfold crossE
  rw [WithLp.ofLp_add, map_add, LinearMap.add_apply]; rfl

theorem crossE_smul (s : ℝ) (a b : E3) : crossE a (s • b) = s • crossE a b := by
  unfold crossE
  rw [WithLp.ofLp_smul, map_smul]; rfl

/-! ### The map -/

/-- nothing happens when the normals agree -/
theorem tilt_same (n x : E3) : tilt n n x = x := by
  unfold tilt
  rw [crossE_self]
  simp [crossE_zero_left]

/-- the image of the first normal -/
theorem tilt_first {a b : E3} (ha : ‖a‖ = 1) (hb : ‖b‖ = 1) :
    tilt a b a = (1 - ‖crossE a b‖ * inner ℝ a b - (1 - inner ℝ a b) * ‖crossE a b‖ ^ 2) • a + ‖crossE a b‖ • b := by
  unfold tilt
  rw [crossE_crossE, crossE_left, crossE_inner, ha]
  generalize ‖crossE a b‖ = s
  generalize inner ℝ a b = c
  module

theorem crossE_unit {a b : E3} (ha : ‖a‖ = 1) (hb : ‖b‖ = 1) : ‖crossE a b‖ ^ 2 = 1 - inner ℝ a b ^ 2 := by
  rw [crossE_norm_sq, ha, hb]; ring

/-- the first normal goes to the second only if they agree or are perpendicular -/
theorem tilt_goes {a b : E3} (ha : ‖a‖ = 1) (hb : ‖b‖ = 1) : tilt a b a = b ↔ a = b ∨ inner ℝ a b = 0 := by
  have hs := crossE_unit ha hb
  have nn := norm_nonneg (crossE a b)
  rw [tilt_first ha hb]
  constructor
  · intro h
    generalize ‖crossE a b‖ = s at *
    have h1 := congrArg (fun x => inner ℝ x a) h
    have h2 := congrArg (fun x => inner ℝ x b) h
    simp only [inner_add_left, inner_smul_left, conj_trivial, real_inner_self_eq_norm_sq, ha, hb, real_inner_comm a b] at h1 h2
    by_cases e : inner ℝ a b = 1
    · exact .inl ((inner_eq_one_iff_of_norm_eq_one ha hb).1 e)
    · right
      generalize inner ℝ a b = c at *
      -- along `a`: (1 - c) (1 - s²) = 0
      have h3 : (1 - c) * (1 - s ^ 2) = 0 := by nlinarith
      rcases mul_eq_zero.1 h3 with h4 | h4
      · exact absurd (by linarith) e
      · have : c ^ 2 = 0 := by linarith
        exact pow_eq_zero_iff two_ne_zero |>.1 this
  · rintro (rfl | h)
    · rw [crossE_self, norm_zero, real_inner_self_eq_norm_sq, ha]; simp
    · have s1 : ‖crossE a b‖ = 1 := by
        rw [h] at hs
        nlinarith
      rw [h, s1]; simp

/-- the length of the image -/
theorem tilt_length {a b : E3} (ha : ‖a‖ = 1) (hb : ‖b‖ = 1) :
    ‖tilt a b a‖ ^ 2 = 1 - (1 - inner ℝ a b ^ 2) * inner ℝ a b ^ 2 * (1 - inner ℝ a b) ^ 2 := by
  have hs := crossE_unit ha hb
  rw [tilt_first ha hb, ← real_inner_self_eq_norm_sq]
  simp only [inner_add_left, inner_add_right, inner_smul_left, inner_smul_right, conj_trivial, real_inner_self_eq_norm_sq, ha, hb]
  rw [real_inner_comm a b]
  generalize ‖crossE a b‖ = s at *
  generalize inner ℝ a b = c at *
  linear_combination ((1 - c) ^ 2 * (s ^ 2 + 1 - c ^ 2) + 1 - c ^ 2 - 2 * (1 - c)) * hs

/-! ### The right-hand side -/

theorem triNormal_cross (x y z : E3) : triNormal x y z = crossE (z - y) (x - y) := by
  obtain ⟨a, rfl⟩ := Vec3.E_surj x
  obtain ⟨b, rfl⟩ := Vec3.E_surj y
  obtain ⟨c, rfl⟩ := Vec3.E_surj z
  rw [triNormal_E, ← Vec3.E_sub, ← Vec3.E_sub, crossE_E]
  congr 1
  apply Vec3.ext' <;> simp [Vec3.cross_def, Vec3.sub_def] <;> ring

theorem triNormal_lagrange (x y z : E3) : ‖triNormal x y z‖ ^ 2 = ‖z - y‖ ^ 2 * ‖x - y‖ ^ 2 - inner ℝ (z - y) (x - y) ^ 2 := by
  rw [triNormal_cross, crossE_norm_sq]

theorem away_eq {x y z : E3} (h : triNormal x y z ≠ 0) :
    awayOf x y z = ‖triNormal x y z‖⁻¹ • (inner ℝ (z - y) (x - y) • (z - y) - ‖z - y‖ ^ 2 • (x - y)) := by
  obtain ⟨-, hzy, hd⟩ := altitude_ne h
  have hw : 0 < ‖z - y‖ := norm_pos_iff.2 (sub_ne_zero.2 hzy)
  have hS := triNormal_lagrange x y z
  have hS0 : 0 < ‖triNormal x y z‖ := norm_pos_iff.2 h
  unfold awayOf unitOf
  generalize hu : x - y = u at *
  generalize hww : z - y = w at *
  have e : inner ℝ w u • w - ‖w‖ ^ 2 • u = ‖w‖ ^ 2 • ((inner ℝ w u / ‖w‖ ^ 2) • w - u) := by
    rw [smul_sub, smul_smul, mul_div_cancel₀ _ (pow_ne_zero 2 hw.ne')]
  have n : ‖(inner ℝ w u / ‖w‖ ^ 2) • w - u‖ = ‖triNormal x y z‖ / ‖w‖ := by
    rw [← sq_eq_sq₀ (norm_nonneg _) (by positivity), div_pow, hS, ← real_inner_self_eq_norm_sq]
    simp only [inner_sub_left, inner_sub_right, inner_smul_left, inner_smul_right, conj_trivial, real_inner_self_eq_norm_sq]
    rw [real_inner_comm w u]
    field_simp
    ring
  rw [e, n, smul_smul, smul_smul]
  congr 1
  field_simp

theorem away_cross {x y z : E3} (h : triNormal x y z ≠ 0) : awayOf x y z = crossE (z - y) (unitOf (triNormal x y z)) := by
  rw [away_eq h]
  conv_rhs => rw [unitOf, crossE_smul, triNormal_cross, crossE_crossE]
  rw [triNormal_cross]

theorem cotAt_fat {x y z : E3} (h : 1 / 10 ^ 6 ≤ ‖triNormal x y z‖) : cotAt x z y = inner ℝ (x - y) (z - y) / ‖triNormal x y z‖ := by
  unfold cotAt
  have : ‖x - y‖ ^ 2 * ‖z - y‖ ^ 2 - inner ℝ (x - y) (z - y) ^ 2 = ‖triNormal x y z‖ ^ 2 := by
    rw [triNormal_lagrange, real_inner_comm]; ring
  rw [this, Real.sqrt_sq (norm_nonneg _), max_eq_left h]

theorem triNormal_flip (x y z : E3) : triNormal x z y = -triNormal x y z := by
  obtain ⟨a, rfl⟩ := Vec3.E_surj x
  obtain ⟨b, rfl⟩ := Vec3.E_surj y
  obtain ⟨c, rfl⟩ := Vec3.E_surj z
  rw [triNormal_E, triNormal_E, ← neg_one_smul ℝ, ← Vec3.E_smul]
  congr 1
  apply Vec3.ext' <;> simp [Vec3.cross_def, Vec3.sub_def, Vec3.smul_def] <;> ring

theorem cot_away {x y z : E3} (h : 1 / 10 ^ 6 ≤ ‖triNormal x y z‖) : cotAt x y z • (x - y) + cotAt x z y • (x - z) = -awayOf x y z := by
  have h0 : triNormal x y z ≠ 0 := by
    intro e; rw [e, norm_zero] at h; norm_num at h
  have h' : 1 / 10 ^ 6 ≤ ‖triNormal x z y‖ := by rwa [triNormal_flip, norm_neg]
  rw [cotAt_fat h, cotAt_fat h', triNormal_flip, norm_neg, away_eq h0]
  have e1 : x - z = (x - y) - (z - y) := by abel
  have e2 : y - z = -(z - y) := by abel
  rw [e1, e2]
  generalize x - y = u
  generalize z - y = w
  rw [inner_neg_right, inner_sub_left, real_inner_self_eq_norm_sq, real_inner_comm u w]
  generalize ‖triNormal x y z‖ = S
  generalize inner ℝ w u = c
  rw [div_eq_inv_mul, div_eq_inv_mul, mul_smul, mul_smul, ← smul_add, ← smul_neg]
  congr 1
  module

section
variable {m : Mesh XR} {p : Nat → E3}

/-- the Laplacian as a sum over the triangles at the vertex -/
theorem lap_corners (w : m.WF) {v : Nat} (a : m.vAlive v = true) (t : m.TriRing v) :
    m.lap p p v = ((m.outs v).map fun h => (1 / 2 : ℝ) • (cotAt (p v) (p (m.hSrc (m.hNext h))) (p (m.hSrc (m.hNext (m.hNext h)))) • (p v - p (m.hSrc (m.hNext h))) +
      cotAt (p v) (p (m.hSrc (m.hNext (m.hNext h)))) (p (m.hSrc (m.hNext h))) • (p v - p (m.hSrc (m.hNext (m.hNext h)))))).sum := by
  have split : ∀ (l : List Nat) (f g : Nat → E3), (l.map fun h => f h + g h).sum = (l.map f).sum + (l.map g).sum := by
    intro l f g
    induction l with
    | nil => simp
    | cons x l ih => simp only [List.map_cons, List.sum_cons, ih]; abel
  simp only [smul_add, split]
  unfold Mesh.lap
  rw [w.outs_sum a (fun h => (1 / 2 : ℝ) • cotAt (p v) (p (m.hSrc (m.hNext (m.hNext h)))) (p (m.hSrc (m.hNext h))) • (p v - p (m.hSrc (m.hNext (m.hNext h))))),
    ← w.ring_shift a, ← w.outs_sum a, ← split]
  congr 1
  refine List.map_congr_left fun h hh => ?_
  have hh' := List.mem_filter.1 hh
  have ah := (w.hDense.mem h).1 hh'.1
  have sh : m.hSrc h = v := by simpa using hh'.2
  have t1 := w.tri_sig ah (t _ (w.sig_alive ah) ((w.sig_src ah).trans sh))
  rw [t1]
  unfold Mesh.cotOf
  rw [sh, show m.hNext (m.sig h) = m.hNext (m.hNext (m.hRev h)) from rfl, smul_smul, smul_smul, ← add_smul]
  congr 1
  ring

theorem outs_mem (w : m.WF) {v h : Nat} (hh : h ∈ m.outs v) : m.hAlive h = true ∧ m.hSrc h = v := by
  have hh' := List.mem_filter.1 hh
  exact ⟨(w.hDense.mem h).1 hh'.1, by simpa using hh'.2⟩

/-- the right-hand side for maps that do nothing at the triangles of `v` -/
theorem meanAway_id (w : m.WF) {v : Nat} (a : m.vAlive v = true) (t : m.TriRing v)
    (fat : ∀ h, m.hAlive h = true → m.hSrc h = v → 1 / 10 ^ 6 ≤ ‖m.areaVec p (m.hFace h)‖) {R : Nat → E3 → E3}
    (hR : ∀ h, m.hAlive h = true → m.hSrc h = v → ∀ x, R (m.hFace h) x = x) :
    m.meanAway p R v = -(((m.outs v).length : ℝ)⁻¹ • m.lap p p v) := by
  unfold Mesh.meanAway
  rw [lap_corners w a t, ← smul_neg]
  congr 1
  have neg : ∀ (l : List Nat) (f : Nat → E3), -(l.map f).sum = (l.map fun h => -f h).sum := by
    intro l f
    induction l with
    | nil => simp
    | cons x l ih => simp only [List.map_cons, List.sum_cons, ← ih]; abel
  rw [neg]
  congr 1
  refine List.map_congr_left fun h hh => ?_
  obtain ⟨ah, sh⟩ := outs_mem w hh
  have f1 := fat h ah sh
  rw [areaVec_of w ah (t h ah sh), sh] at f1
  rw [hR h ah sh, cot_away f1, smul_neg, neg_neg]
  unfold Mesh.away
  rw [sh]

/-- there is only one solution -/
theorem lap_unique (w : m.WF) {S : Nat → Prop} (P : m.Anchored p S) {x y : Nat → E3} (off : ∀ v, ¬ S v → x v = y v)
    (on : ∀ v, m.vAlive v = true → S v → m.lap p x v = m.lap p y v) {v : Nat} (a : m.vAlive v = true) : x v = y v := by
  have key : ∀ k : Fin 3, x v k - y v k = 0 := fun k =>
    P.zero w (x := fun u => x u k - y u k) (fun u _ s => by rw [off u s, sub_self]) (fun u au su => by
      have h1 := congrArg (fun z : E3 => z k) (on u au su)
      unfold Mesh.lap at h1
      simp only [outs_smul_sum] at h1
      rw [← sub_eq_zero, ← weightOut_sub] at h1
      rw [← h1]
      refine weightOut_congr w fun h _ _ => ?_
      ring) v a
  ext k
  exact sub_eq_zero.1 (key k)

/-! ### Flat regions -/

variable {n : E3} {vs : List Nat}

/-- sums of positive multiples -/
theorem sum_multiples {c : Nat → ℝ} {x : Nat → E3} : ∀ {l : List Nat}, (∀ h ∈ l, x h = c h • n) → (l.map x).sum = (l.map c).sum • n
  | [], _ => by simp
  | a :: l, h => by
    rw [List.map_cons, List.sum_cons, List.map_cons, List.sum_cons, add_smul, h a (by simp), sum_multiples fun b hb => h b (by simp [hb])]

theorem sum_pos_list {c : Nat → ℝ} {l : List Nat} (nn : ∀ h ∈ l, 0 ≤ c h) {k : Nat} (hk : k ∈ l) (pos : 0 < c k) : 0 < (l.map c).sum :=
  pos.trans_le (List.single_le_sum (by
    intro x hx
    obtain ⟨y, hy, rfl⟩ := List.mem_map.1 hx
    exact nn y hy) _ (List.mem_map_of_mem hk))

theorem unit_of_unit (hn : ‖n‖ = 1) {c : ℝ} (hc : 0 < c) : unitOf (c • n) = n := by
  rw [unitOf_smul hc, unitOf, hn, inv_one, one_smul]

theorem eq_norm_unit (x : E3) : x = ‖x‖ • unitOf x := by
  unfold unitOf
  by_cases h : x = 0
  · rw [h]; simp
  · rw [smul_smul, mul_inv_cancel₀ (norm_ne_zero_iff.2 h), one_smul]

theorem ring_nonempty (w : m.WF) {v : Nat} (a : m.vAlive v = true) : ∃ h ∈ m.outs v, m.hAlive h = true ∧ m.hSrc h = v := by
  have h := w.vHe_ok v a
  exact ⟨m.vHe v, List.mem_filter.2 ⟨(w.hDense.mem _).2 h.1, by simpa using h.2⟩, h⟩

/-- the region at the vertices of `vs` is flat -/
structure FlatAt (m : Mesh XR) (p : Nat → E3) (vs : List Nat) (n : E3) : Prop where
  unit : ‖n‖ = 1
  alive : ∀ v ∈ vs, m.vAlive v = true
  tri : ∀ h, m.hAlive h = true → m.hSrc h ∈ vs → m.OnTri h
  flat : ∀ h, m.hAlive h = true → m.hSrc h ∈ vs → unitOf (m.areaVec p (m.hFace h)) = n

theorem FlatAt.ne (H : FlatAt m p vs n) {h : Nat} (a : m.hAlive h = true) (s : m.hSrc h ∈ vs) : m.areaVec p (m.hFace h) ≠ 0 := by
  intro e
  have := H.flat h a s
  rw [e, unitOf, smul_zero] at this
  have h1 := H.unit
  rw [← this, norm_zero] at h1
  exact zero_ne_one h1

theorem FlatAt.maxSum (w : m.WF) (H : FlatAt m p vs n) {v : Nat} (hv : v ∈ vs) : ∃ c : ℝ, 0 < c ∧ m.maxSum p v = c • n := by
  have key : ∀ h ∈ m.outs v, 0 < (‖p (m.hSrc (m.hNext h)) - p v‖ ^ 2 * ‖p (m.hSrc (m.hNext (m.hNext h))) - p v‖ ^ 2)⁻¹ * ‖m.areaVec p (m.hFace h)‖ ∧
      (‖p (m.hSrc (m.hNext h)) - p v‖ ^ 2 * ‖p (m.hSrc (m.hNext (m.hNext h))) - p v‖ ^ 2)⁻¹ •
        triNormal (p v) (p (m.hSrc (m.hNext h))) (p (m.hSrc (m.hNext (m.hNext h)))) =
      ((‖p (m.hSrc (m.hNext h)) - p v‖ ^ 2 * ‖p (m.hSrc (m.hNext (m.hNext h))) - p v‖ ^ 2)⁻¹ * ‖m.areaVec p (m.hFace h)‖) • n := by
    intro h hh
    obtain ⟨ah, sh⟩ := outs_mem w hh
    have hs : m.hSrc h ∈ vs := by rw [sh]; exact hv
    have z := H.ne ah hs
    have e := areaVec_of (p := p) w ah (H.tri h ah hs)
    rw [sh] at e
    have z' := z
    rw [e] at z'
    constructor
    · have h1 : p (m.hSrc (m.hNext h)) - p v ≠ 0 := by
        intro e1; apply z'; unfold triNormal; rw [e1]; simp
      have h2 : p (m.hSrc (m.hNext (m.hNext h))) - p v ≠ 0 := by
        intro e1; apply z'; unfold triNormal; rw [e1]; simp
      have := norm_pos_iff.2 h1
      have := norm_pos_iff.2 h2
      have := norm_pos_iff.2 z
      positivity
    · rw [mul_smul, ← e]
      congr 1
      rw [← H.flat h ah hs]
      exact eq_norm_unit _
  obtain ⟨k, hk, -⟩ := ring_nonempty w (H.alive v hv)
  exact ⟨_, sum_pos_list (fun h hh => (key h hh).1.le) hk (key k hk).1, sum_multiples fun h hh => (key h hh).2⟩

/-- the normals of a flat region -/
noncomputable def flatN (vs : List Nat) (n : E3) (v : Nat) : E3 := if v ∈ vs then n else 0

theorem FlatAt.start (w : m.WF) (H : FlatAt m p vs n) : m.startNormals p vs = flatN vs n := by
  funext v
  unfold Mesh.startNormals flatN
  by_cases hv : v ∈ vs
  · rw [if_pos hv, if_pos hv]
    obtain ⟨c, hc, e⟩ := H.maxSum w hv
    rw [e, unit_of_unit H.unit hc]
  · rw [if_neg hv, if_neg hv]

theorem Mesh.Anchored.weight_pos (w : m.WF) (P : m.Anchored p (· ∈ vs)) {v : Nat} (hv : v ∈ vs) (a : m.vAlive v = true) : 0 < m.weightOut (m.cotOf p) v := by
  have L := P.linked v a hv
  have : ∃ h, m.hAlive h = true ∧ m.hSrc h = v ∧ 0 < m.cotOf p h := by
    cases L with
    | here h => exact absurd hv h
    | step ah ch _ => exact ⟨_, ah, rfl, ch⟩
  obtain ⟨h, ah, sh, ch⟩ := this
  exact sum_pos_list (l := m.outs v) (fun x hx => P.nonneg x (outs_mem w hx).1 (by rw [(outs_mem w hx).2]; exact hv))
    (List.mem_filter.2 ⟨(w.hDense.mem _).2 ah, by simpa using sh⟩) ch

theorem FlatAt.blend (w : m.WF) (H : FlatAt m p vs n) (P : m.Anchored p (· ∈ vs)) {v : Nat} (hv : v ∈ vs) :
    m.blend p (flatN vs n) v ≠ 0 ∧ unitOf (m.blend p (flatN vs n) v) = n := by
  have pos := P.weight_pos w hv (H.alive v hv)
  have e : m.blend p (flatN vs n) v = (1 / 2 + 1 / 2 * ((m.weightOut (m.cotOf p) v)⁻¹ * ((m.outs v).map fun h =>
      if m.hSrc (m.hNext h) ∈ vs then m.cotOf p h else 0).sum)) • n := by
    unfold Mesh.blend
    rw [sum_multiples (n := n) (c := fun h => if m.hSrc (m.hNext h) ∈ vs then m.cotOf p h else 0)]
    · have : flatN vs n v = n := if_pos hv
      rw [this]
      module
    · intro h _
      unfold flatN
      split
      · rfl
      · rw [smul_zero, zero_smul]
  have nn : 0 ≤ ((m.outs v).map fun h => if m.hSrc (m.hNext h) ∈ vs then m.cotOf p h else 0).sum := by
    refine List.sum_nonneg fun x hx => ?_
    obtain ⟨h, hh, rfl⟩ := List.mem_map.1 hx
    split
    · exact P.nonneg h (outs_mem w hh).1 (by rw [(outs_mem w hh).2]; exact hv)
    · exact le_rfl
  have c0 : 0 < (1 / 2 + 1 / 2 * ((m.weightOut (m.cotOf p) v)⁻¹ * ((m.outs v).map fun h =>
      if m.hSrc (m.hNext h) ∈ vs then m.cotOf p h else 0).sum)) := by positivity
  rw [e]
  refine ⟨fun z => ?_, unit_of_unit H.unit c0⟩
  rcases smul_eq_zero.1 z with z | z
  · exact c0.ne' z
  · have := H.unit
    rw [z, norm_zero] at this
    exact zero_ne_one this

theorem FlatAt.round (w : m.WF) (H : FlatAt m p vs n) (P : m.Anchored p (· ∈ vs)) : ∀ l : List Nat, (∀ v ∈ l, v ∈ vs) →
    m.blendAll p l (flatN vs n) = flatN vs n ∧ ¬ m.BlendFails p l (flatN vs n)
  | [], _ => ⟨rfl, id⟩
  | v :: l, hl => by
    have hv := hl v (by simp)
    obtain ⟨b0, b1⟩ := H.blend w P hv
    have e : Function.update (flatN vs n) v (unitOf (m.blend p (flatN vs n) v)) = flatN vs n := by
      rw [b1]
      funext u
      by_cases h : u = v
      · rw [h, Function.update_self]; exact (if_pos hv).symm
      · rw [Function.update_of_ne h]
    obtain ⟨r1, r2⟩ := FlatAt.round w H P l fun u hu => hl u (by simp [hu])
    unfold Mesh.blendAll Mesh.BlendFails
    rw [e]
    refine ⟨r1, ?_⟩
    rintro (h | h | h)
    · exact (P.weight_pos w hv (H.alive v hv)).ne' h
    · exact b0 h
    · exact r2 h

theorem FlatAt.rounds (w : m.WF) (H : FlatAt m p vs n) (P : m.Anchored p (· ∈ vs)) : ∀ k : Nat, (m.blendAll p vs)^[k] (flatN vs n) = flatN vs n
  | 0 => rfl
  | k + 1 => by rw [Function.iterate_succ_apply, (H.round w P vs fun _ h => h).1, FlatAt.rounds w H P k]

theorem FlatAt.corners (w : m.WF) (H : FlatAt m p vs n) {h : Nat} (a : m.hAlive h = true) (s : m.hSrc h ∈ vs) (s3 : m.sides (m.hFace h) = 3) :
    ∃ c : ℝ, 0 < c ∧ m.cornerSum (flatN vs n) (m.hFace h) = c • n := by
  have af := w.face_alive _ a
  obtain ⟨b, e⟩ := w.fHe_ok _ af
  obtain ⟨-, -, cyc⟩ := w.three_cyc af s3 b e
  have val : ∀ u, ∃ c : ℝ, 0 ≤ c ∧ flatN vs n u = c • n ∧ (u ∈ vs → c = 1) := by
    intro u
    unfold flatN
    split
    · exact ⟨1, zero_le_one, (one_smul _ _).symm, fun _ => rfl⟩
    · rename_i hu; exact ⟨0, le_rfl, (zero_smul _ _).symm, fun k => absurd k hu⟩
  obtain ⟨c0, g0, e0, k0⟩ := val (m.hSrc (m.fHe (m.hFace h)))
  obtain ⟨c1, g1, e1, k1⟩ := val (m.hSrc (m.hNext (m.fHe (m.hFace h))))
  obtain ⟨c2, g2, e2, k2⟩ := val (m.hSrc (m.hNext (m.hNext (m.fHe (m.hFace h)))))
  refine ⟨c0 + c1 + c2, ?_, ?_⟩
  · rcases cyc h a rfl with q | q | q
    · rw [q] at s
      have := k0 (by rw [q] at *; exact s)
      linarith
    · have := k1 (by rw [← q]; exact s)
      linarith
    · have := k2 (by rw [← q]; exact s)
      linarith
  · unfold Mesh.cornerSum
    rw [e0, e1, e2, add_smul, add_smul]

theorem FlatAt.lap (w : m.WF) (H : FlatAt m p vs n) (fat : ∀ h, m.hAlive h = true → m.hSrc h ∈ vs → 1 / 10 ^ 6 ≤ ‖m.areaVec p (m.hFace h)‖) {v : Nat} (hv : v ∈ vs) :
    m.lap p p v = 0 := by
  have a := H.alive v hv
  have t : m.TriRing v := fun h ah sh => H.tri h ah (by rw [sh]; exact hv)
  rw [lap_corners w a t]
  have cr : ∀ (l : List Nat) (x : Nat → E3), (l.map fun h => -((1 / 2 : ℝ) • crossE (x h) n)).sum = -((1 / 2 : ℝ) • crossE (l.map x).sum n) := by
    intro l x
    induction l with
    | nil => simp [crossE_zero_left]
    | cons b l ih =>
      rw [List.map_cons, List.sum_cons, ih, List.map_cons, List.sum_cons, crossE_add_left]
      module
  have e : ((m.outs v).map fun h => (1 / 2 : ℝ) • (cotAt (p v) (p (m.hSrc (m.hNext h))) (p (m.hSrc (m.hNext (m.hNext h)))) • (p v - p (m.hSrc (m.hNext h))) +
      cotAt (p v) (p (m.hSrc (m.hNext (m.hNext h)))) (p (m.hSrc (m.hNext h))) • (p v - p (m.hSrc (m.hNext (m.hNext h)))))).sum =
      ((m.outs v).map fun h => -((1 / 2 : ℝ) • crossE (p (m.hSrc (m.hNext (m.hNext h))) - p (m.hSrc (m.hNext h))) n)).sum := by
    congr 1
    refine List.map_congr_left fun h hh => ?_
    obtain ⟨ah, sh⟩ := outs_mem w hh
    have hs : m.hSrc h ∈ vs := by rw [sh]; exact hv
    have f1 := fat h ah hs
    have z := H.ne ah hs
    have fl := H.flat h ah hs
    rw [areaVec_of w ah (t h ah sh), sh] at f1 z fl
    rw [cot_away f1, smul_neg, away_cross z, fl]
  rw [e, cr]
  have zero : ((m.outs v).map fun h => p (m.hSrc (m.hNext (m.hNext h))) - p (m.hSrc (m.hNext h))).sum = 0 := by
    have split : ∀ (l : List Nat) (f g : Nat → E3), (l.map fun h => f h - g h).sum = (l.map f).sum - (l.map g).sum := by
      intro l f g
      induction l with
      | nil => simp
      | cons x l ih => simp only [List.map_cons, List.sum_cons, ih]; abel
    rw [split, w.outs_sum a (fun h => p (m.hSrc (m.hNext (m.hNext h)))), ← w.ring_shift a, ← w.outs_sum a, sub_eq_zero]
    congr 1
    refine List.map_congr_left fun h hh => ?_
    obtain ⟨ah, sh⟩ := outs_mem w hh
    rw [w.tri_sig ah (t _ (w.sig_alive ah) ((w.sig_src ah).trans sh))]
  rw [zero, crossE_zero_left]
  simp

/-- a flat region is solved by its own positions -/
theorem FlatAt.settles (w : m.WF) (H : FlatAt m p vs n) (P : m.Anchored p (· ∈ vs)) (s3 : ∀ h, m.hAlive h = true → m.hSrc h ∈ vs → m.sides (m.hFace h) = 3)
    (fat : ∀ h, m.hAlive h = true → m.hSrc h ∈ vs → 1 / 10 ^ 6 ≤ ‖m.areaVec p (m.hFace h)‖) :
    ¬ m.SettleFails p vs ∧ ∀ v ∈ vs, m.meanAway p (m.faceTilt p (m.endNormals p vs)) v = m.lap p p v := by
  have en : m.endNormals p vs = flatN vs n := by
    unfold Mesh.endNormals
    rw [H.start w, H.rounds w P]
  constructor
  · rintro (⟨v, hv, h | h⟩ | ⟨i, -, h⟩ | ⟨h, ah, sh, z | z⟩)
    · obtain ⟨h, ah, sh, e⟩ := h
      have hs : m.hSrc h ∈ vs := by rw [sh]; exact hv
      have z := H.ne ah hs
      rw [areaVec_of w ah (H.tri h ah hs), sh] at z
      apply z
      unfold triNormal
      rcases e with e | e <;> rw [e] <;> simp
    · obtain ⟨c, hc, e⟩ := H.maxSum w hv
      rw [e] at h
      have := unit_of_unit H.unit hc
      rw [h, unitOf, smul_zero] at this
      have h1 := H.unit
      rw [← this, norm_zero] at h1
      exact zero_ne_one h1
    · rw [H.start w, H.rounds w P] at h
      exact (H.round w P vs fun _ h => h).2 h
    · exact H.ne ah sh z
    · obtain ⟨c, hc, e⟩ := H.corners w ah sh (s3 h ah sh)
      rw [en, e] at z
      have := unit_of_unit H.unit hc
      rw [z, unitOf, smul_zero] at this
      have h1 := H.unit
      rw [← this, norm_zero] at h1
      exact zero_ne_one h1
  · intro v hv
    have a := H.alive v hv
    rw [meanAway_id w a (fun h ah sh => H.tri h ah (by rw [sh]; exact hv)) (fun h ah sh => fat h ah (by rw [sh]; exact hv)), H.lap w fat hv, smul_zero, neg_zero]
    intro h ah sh x
    have hs : m.hSrc h ∈ vs := by rw [sh]; exact hv
    obtain ⟨c, hc, e⟩ := H.corners w ah hs (s3 h ah hs)
    unfold Mesh.faceTilt
    rw [en, e, unit_of_unit H.unit hc, H.flat h ah hs, tilt_same]

/-! ### Vertices without neighbours inside -/

theorem lone_round (w : m.WF) {v : Nat} (lone : ∀ h, m.hAlive h = true → m.hSrc h = v → m.hSrc (m.hNext h) ∉ vs) : ∀ (l : List Nat) (N : Nat → E3),
    (∀ u, u ∉ vs → N u = 0) → ‖N v‖ = 1 → (∀ u ∈ l, u ∈ vs) → m.blendAll p l N v = N v
  | [], _, _, _, _ => rfl
  | u :: l, N, z, one, hl => by
    unfold Mesh.blendAll
    have keep : Function.update N u (unitOf (m.blend p N u)) v = N v := by
      by_cases e : v = u
      · subst e
        rw [Function.update_self]
        have : m.blend p N v = (1 / 2 : ℝ) • N v := by
          unfold Mesh.blend
          rw [sum_multiples (n := (0 : E3)) (c := fun _ => 0), smul_zero, smul_zero, smul_zero, add_zero]
          intro h hh
          obtain ⟨ah, sh⟩ := outs_mem w hh
          rw [z _ (lone h ah sh), smul_zero, smul_zero]
        rw [this, unit_of_unit one (by norm_num)]
      · rw [Function.update_of_ne e]
    rw [lone_round w lone l _ (fun x hx => by
      rw [Function.update_of_ne, z x hx]
      rintro rfl
      exact hx (hl x (by simp))) (by rw [keep]; exact one) (fun x hx => hl x (by simp [hx])), keep]

theorem lone_rounds (w : m.WF) {v : Nat} (lone : ∀ h, m.hAlive h = true → m.hSrc h = v → m.hSrc (m.hNext h) ∉ vs) : ∀ (k : Nat) (N : Nat → E3),
    (∀ u, u ∉ vs → N u = 0) → ‖N v‖ = 1 → (m.blendAll p vs)^[k] N v = N v
  | 0, _, _, _ => rfl
  | k + 1, N, z, one => by
    have e := lone_round (p := p) w lone vs N z one fun _ h => h
    rw [Function.iterate_succ_apply, lone_rounds w lone k _ (fun u hu => by rw [blendAll_out vs N hu, z u hu]) (by rw [e]; exact one), e]

end
end TinyMesh
