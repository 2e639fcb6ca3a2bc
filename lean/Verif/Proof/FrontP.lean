import Verif.Proof.FrontO
import Verif.Proof.CurvB
import Verif.Proof.DenA
import Verif.Proof.LinesE
/-
The angles and the new positions over the reals.
-/
namespace TinyMesh
open Orbit EuclideanGeometry
variable {m0 m m' : Mesh XR} {f : Nat} {p : Nat → E3}

theorem crossLen_norm {a b : Vec3 XR} {x y : E3} (ha : a.Is x) (hb : b.Is y) :
    Real.sqrt (‖x‖ ^ 2 * ‖y‖ ^ 2 - inner ℝ x y ^ 2) = ‖triNormal 0 x y‖ := by
  have h1 := ha.crossLen hb
  rw [(ha.cross hb).length] at h1
  exact (XR.fin_inj.1 h1).symm

/-- the angle is a number between 0 and 2π, whatever the normal is -/
theorem theta_bound (n : Vec3 XR) {a b c : Vec3 XR} {x y z : E3} (ha : a.Is x) (hb : b.Is y) (hc : c.Is z) :
    ∃ r : ℝ, frontTheta n a b c = .fin r ∧ 0 ≤ r ∧ r < 2 * Real.pi := by
  unfold frontTheta
  dsimp only
  rw [(hc.sub hb).crossLen (ha.sub hb), (ha.sub hb).dot (hc.sub hb)]
  have key : ∀ s : ℝ, ∃ r : ℝ, (if Scalar.lt (Scalar.atan2 (XR.fin s) (XR.fin (inner ℝ (x - y) (z - y)))) (Scalar.lit 0 1) = true then
      Scalar.atan2 (XR.fin s) (XR.fin (inner ℝ (x - y) (z - y))) + Scalar.lit 2 1 * Scalar.pi else
      Scalar.atan2 (XR.fin s) (XR.fin (inner ℝ (x - y) (z - y)))) = XR.fin r ∧ 0 ≤ r ∧ r < 2 * Real.pi := by
    intro s
    have h1 := Complex.neg_pi_lt_arg ⟨inner ℝ (x - y) (z - y), s⟩
    have h2 := Complex.arg_le_pi ⟨inner ℝ (x - y) (z - y), s⟩
    have hp := Real.pi_pos
    simp only [X_atan2, X_lit, X_lt, X_pi, X_mul, X_add, R_lt, R_lit]
    split
    · next h =>
      rw [Int.cast_zero, zero_div] at h
      exact ⟨_, rfl, by push_cast; linarith, by push_cast; linarith⟩
    · next h =>
      rw [Int.cast_zero, zero_div] at h
      exact ⟨_, rfl, not_lt.1 h, by linarith⟩
  split
  · exact key _
  · exact key _

/-- the angle in closed form -/
theorem theta_exact {n a b c : Vec3 XR} {x y z w : E3} (hn : n.Is w) (ha : a.Is x) (hb : b.Is y) (hc : c.Is z) (h1 : x ≠ y) (h2 : z ≠ y) :
    frontTheta n a b c = .fin (if 0 ≤ inner ℝ (triNormal 0 (z - y) (x - y)) w then ∠ x y z else 2 * Real.pi - ∠ x y z) := by
  have hx := ha.sub hb
  have hz := hc.sub hb
  have s0 := crossLen_norm hz hx
  have e0 : ∀ s : ℝ, s = Real.sqrt (‖z - y‖ ^ 2 * ‖x - y‖ ^ 2 - inner ℝ (z - y) (x - y) ^ 2) → Complex.arg ⟨inner ℝ (x - y) (z - y), s⟩ = ∠ x y z := by
    intro s hs
    rw [hs, real_inner_comm, mul_comm (‖z - y‖ ^ 2), real_inner_comm, angle_arg (sub_ne_zero.2 h1) (sub_ne_zero.2 h2)]
    rfl
  unfold frontTheta
  dsimp only
  rw [hz.crossLen hx, hx.dot hz, (hz.cross hx).dot hn]
  have a0 : 0 ≤ ∠ x y z := EuclideanGeometry.angle_nonneg _ _ _
  have lit1 : (Scalar.lit 1 1 : ℝ) = 1 := by simp [R_lit]
  have litm : (Scalar.lit (-1) 1 : ℝ) = -1 := by simp [R_lit]
  have lit2 : (Scalar.lit 2 1 : ℝ) = 2 := by simp [R_lit]
  simp only [X_lit, X_le, R_lit0, R_le]
  split
  · next h =>
    rw [lit1, X_mul, one_mul, X_atan2, e0 _ rfl, X_lt, if_neg (by rw [R_lt]; exact not_lt.2 a0)]
  · next h =>
    have hne : triNormal 0 (z - y) (x - y) ≠ 0 := by
      intro e
      rw [e, inner_zero_left] at h
      exact h le_rfl
    have sp : 0 < Real.sqrt (‖z - y‖ ^ 2 * ‖x - y‖ ^ 2 - inner ℝ (z - y) (x - y) ^ 2) := by rw [s0]; exact norm_pos_iff.2 hne
    have conj : (⟨inner ℝ (x - y) (z - y), -1 * Real.sqrt (‖z - y‖ ^ 2 * ‖x - y‖ ^ 2 - inner ℝ (z - y) (x - y) ^ 2)⟩ : ℂ) =
        (starRingEnd ℂ) ⟨inner ℝ (x - y) (z - y), Real.sqrt (‖z - y‖ ^ 2 * ‖x - y‖ ^ 2 - inner ℝ (z - y) (x - y) ^ 2)⟩ := by
      apply Complex.ext <;> simp
    have npi : Complex.arg ⟨inner ℝ (x - y) (z - y), Real.sqrt (‖z - y‖ ^ 2 * ‖x - y‖ ^ 2 - inner ℝ (z - y) (x - y) ^ 2)⟩ ≠ Real.pi := by
      intro e
      rw [Complex.arg_eq_pi_iff] at e
      exact sp.ne' e.2
    have n0 : Complex.arg ⟨inner ℝ (x - y) (z - y), Real.sqrt (‖z - y‖ ^ 2 * ‖x - y‖ ^ 2 - inner ℝ (z - y) (x - y) ^ 2)⟩ ≠ 0 := by
      intro e
      rw [Complex.arg_eq_zero_iff] at e
      exact sp.ne' e.2
    rw [litm, X_mul, X_atan2, conj, Complex.arg_conj, if_neg npi]
    rw [e0 _ rfl] at n0 ⊢
    have a1 : 0 < ∠ x y z := lt_of_le_of_ne a0 (Ne.symm n0)
    rw [X_lt, if_pos (by rw [R_lt]; linarith), X_pi, X_mul, X_add, lit2]
    congr 1
    ring

theorem mid_exact {a b c : Vec3 XR} {x y z : E3} (ha : a.Is x) (hb : b.Is y) (hc : c.Is z) :
    ((x - y) + (z - y) = 0 → frontMid a b c = none) ∧
    ((x - y) + (z - y) ≠ 0 → ∃ v, frontMid a b c = some v ∧ v.Is (y + ((dist x y + dist z y) / 2) • unitOf ((x - y) + (z - y)))) := by
  have hx := ha.sub hb
  have hz := hc.sub hb
  unfold frontMid
  dsimp only
  constructor
  · intro e
    have k : ((a.sub b).add (c.sub b)).Is 0 := e ▸ hx.add hz
    rw [Vec3.Is.normalize_zero k]
    rfl
  · intro e
    obtain ⟨d, h1, h2⟩ := (hx.add hz).normalize e
    rw [h1, hx.length, hz.length]
    refine ⟨_, rfl, ?_⟩
    have l : (XR.fin ‖x - y‖ + XR.fin ‖z - y‖) * Scalar.lit 1 2 = XR.fin ((dist x y + dist z y) / 2) := by
      rw [X_add, X_lit, X_mul, R_lit, dist_eq_norm, dist_eq_norm]
      congr 1
      push_cast
      ring
    show (Vec3.add b (Vec3.smul ((XR.fin ‖x - y‖ + XR.fin ‖z - y‖) * Scalar.lit 1 2) d)).Is _
    rw [l]
    exact hb.add (h2.smul _)

theorem thirds_exact {a b c : Vec3 XR} {x y z : E3} (ha : a.Is x) (hb : b.Is y) (hc : c.Is z) :
    (((2 : ℝ) • (x - y) + (z - y) = 0 ∨ (x - y) + (2 : ℝ) • (z - y) = 0) → frontThirds a b c = none) ∧
    ((2 : ℝ) • (x - y) + (z - y) ≠ 0 → (x - y) + (2 : ℝ) • (z - y) ≠ 0 → ∃ v v', frontThirds a b c = some (v, v') ∧
      v.Is (y + ((2 * dist x y + dist z y) / 3) • unitOf ((2 : ℝ) • (x - y) + (z - y))) ∧
      v'.Is (y + ((dist x y + 2 * dist z y) / 3) • unitOf ((x - y) + (2 : ℝ) • (z - y)))) := by
  have hx := ha.sub hb
  have hz := hc.sub hb
  have lit2 : (Scalar.lit 2 1 : XR) = .fin 2 := by rw [X_lit]; simp [R_lit]
  have lit3 : (Scalar.lit 3 1 : XR) = .fin 3 := by rw [X_lit]; simp [R_lit]
  unfold frontThirds
  dsimp only
  rw [lit2, lit3]
  constructor
  · rintro (e | e)
    · have k : (Vec3.add (Vec3.smul (.fin 2) (a.sub b)) (c.sub b)).Is 0 := e ▸ (hx.smul 2).add hz
      rw [Vec3.Is.normalize_zero k]
    · have k : (Vec3.add (a.sub b) (Vec3.smul (.fin 2) (c.sub b))).Is 0 := e ▸ hx.add (hz.smul 2)
      rw [Vec3.Is.normalize_zero k]
      split
      · next h => exact absurd h (by simp)
      · rfl
  · intro e1 e2
    obtain ⟨d1, h1, k1⟩ := ((hx.smul 2).add hz).normalize e1
    obtain ⟨d2, h2, k2⟩ := (hx.add (hz.smul 2)).normalize e2
    rw [h1, h2, hx.length, hz.length]
    refine ⟨_, _, rfl, ?_, ?_⟩
    · have l : (XR.fin ‖x - y‖ * XR.fin 2 + XR.fin ‖z - y‖) / XR.fin 3 = XR.fin ((2 * dist x y + dist z y) / 3) := by
        rw [X_mul, X_add, X_div _ (by norm_num), dist_eq_norm, dist_eq_norm, mul_comm]
      rw [l]
      exact hb.add (k1.smul _)
    · have l : (XR.fin ‖x - y‖ + XR.fin ‖z - y‖ * XR.fin 2) / XR.fin 3 = XR.fin ((dist x y + 2 * dist z y) / 3) := by
        rw [X_mul, X_add, X_div _ (by norm_num), dist_eq_norm, dist_eq_norm, mul_comm 2]
      rw [l]
      exact hb.add (k2.smul _)

/-! ### The smallest angle -/

theorem pick_min {ang : Nat → Option XR} (h : ∀ i t, ang i = some t → ∃ r : ℝ, t = .fin r ∧ r < 10 ^ 20) :
    ∀ {is : List Nat} {r0 : ℝ} {o : Option Nat} {x : XR × Option Nat}, pickAngle ang is (.fin r0, o) = some x →
    ∃ r : ℝ, x.1 = .fin r ∧ r ≤ r0 ∧ (∀ i ∈ is, ∀ s, ang i = some (.fin s) → r ≤ s) ∧
      ((r = r0 ∧ x.2 = o) ∨ ∃ i ∈ is, x.2 = some i ∧ ang i = some (.fin r))
  | [], r0, o, x, e => by
    have := Option.some.inj e
    subst this
    exact ⟨r0, rfl, le_rfl, by simp, .inl ⟨rfl, rfl⟩⟩
  | i :: is, r0, o, x, e => by
    unfold pickAngle at e
    cases ha : ang i with
    | none => rw [ha] at e; exact absurd e (by simp)
    | some t =>
      obtain ⟨s, rfl, _⟩ := h i t ha
      rw [ha] at e
      have e : pickAngle ang is (if Scalar.lt (XR.fin s) (XR.fin r0) = true then (XR.fin s, some i) else (XR.fin r0, o)) = some x := e
      by_cases l : s < r0
      · rw [if_pos (by rw [X_lt, R_lt]; exact l)] at e
        obtain ⟨r, k1, k2, k3, k4⟩ := pick_min h e
        refine ⟨r, k1, by linarith, ?_, ?_⟩
        · intro j hj s' hs'
          rcases List.mem_cons.1 hj with rfl | hj
          · rw [ha] at hs'
            have := XR.fin_inj.1 (Option.some.inj hs')
            linarith
          · exact k3 j hj s' hs'
        · rcases k4 with ⟨k4, k5⟩ | ⟨j, hj, k4, k5⟩
          · exact .inr ⟨i, by simp, k5, by rw [ha, k4]⟩
          · exact .inr ⟨j, by simp [hj], k4, k5⟩
      · rw [if_neg (by rw [X_lt, R_lt]; exact l)] at e
        obtain ⟨r, k1, k2, k3, k4⟩ := pick_min h e
        refine ⟨r, k1, k2, ?_, ?_⟩
        · intro j hj s' hs'
          rcases List.mem_cons.1 hj with rfl | hj
          · rw [ha] at hs'
            have := XR.fin_inj.1 (Option.some.inj hs')
            linarith
          · exact k3 j hj s' hs'
        · rcases k4 with k4 | ⟨j, hj, k4, k5⟩
          · exact .inl k4
          · exact .inr ⟨j, by simp [hj], k4, k5⟩

theorem pick_restrict {n : Nat} {ang : Nat → Option XR} {is : List Nat} : ∀ {r0 : XR × Option Nat} {x}, (∀ i ∈ is, i < n) → pickAngle ang is r0 = some x →
    pickAngle (fun i => if i < n then ang i else none) is r0 = some x := by
  induction is with
  | nil => intro r0 x _ e; exact e
  | cons i is ih =>
    intro r0 x hi e
    unfold pickAngle at e ⊢
    rw [if_pos (hi i (by simp))]
    cases q : ang i with
    | none => rw [q] at e; exact absurd e (by simp)
    | some t => rw [q] at e; exact ih (fun j hj => hi j (by simp [hj])) e

/-! ### Finite positions -/

theorem angleAt_fin (A : m.AtE p) (w : m.WF) (af : m.fAlive f = true) {hs : List Nat} (hl : FaceLoop m f hs) (n4 : 4 ≤ hs.length) {i : Nat} (hi : i < hs.length) {t : XR}
    (e : m.angleAt hs i = some t) : ∃ r : ℝ, t = .fin r ∧ 0 ≤ r ∧ r < 2 * Real.pi := by
  obtain ⟨pp, prev, next, qq, p', a, b, q, C⟩ := w.corner af hl n4 hi
  rw [C.angle hl.nodup] at e
  unfold Mesh.frontAngle? at e
  split at e
  · rw [Option.map_eq_some_iff] at e
    obtain ⟨n, _, e⟩ := e
    rw [← e]
    exact theta_bound n (A _ (w.src_alive _ C.aa)) (A _ (w.src_alive _ C.ab)) (A _ (w.src_alive _ C.aq))
  · exact absurd e (by simp)

/-- positions stay numbers -/
theorem FrontStep.finite (A : ∃ p, m.AtE p) (w : m.WF) (af : m.fAlive f = true) {avg : XR} (s : FrontStep avg m f (.ok false m')) : ∃ p, m'.AtE p := by
  obtain ⟨p, A⟩ := A
  have ext : (∀ v, m'.vAlive v = true → ∃ x, (m'.vPos v).Is x) → ∃ p, m'.AtE p := by
    intro h
    choose g hg using h
    classical
    exact ⟨fun v => if h : m'.vAlive v = true then g v h else 0, fun v hv => by
      dsimp only
      rw [dif_pos hv]
      exact hg v hv⟩
  apply ext
  generalize e : Out.ok false m' = o at s
  cases s with
  | @merge hs pp prev i next qq p1 a b q m2 C c s R =>
    injection e with e1 e2
    subst e2
    intro v av
    have av' : m.vAlive v = true := ((R.tab.va v).1 av).2
    rw [R.pos]
    unfold upd
    split
    · have := ((A _ (w.src_alive _ C.ab)).add (A _ (w.src_alive _ C.aq)))
      exact ⟨_, this.smul _⟩
    · exact ⟨_, A v av'⟩
  | ear C =>
    injection e with e1 e2
    subst e2
    intro v av
    exact ⟨_, A v av⟩
  | @mid hs pp prev i next qq p1 a b q t x C nc hl _ _ _ ex =>
    injection e with e1 e2
    subst e2
    intro v av
    have T := midMesh_tab (x := x) w af C
    by_cases hv : v = m.vFresh
    · have : (m.midMesh f p1 a b q x).vPos v = x := by simp [Mesh.midMesh, Mesh.midTwo, upd, hv]
      rw [this]
      obtain ⟨k1, k2⟩ := mid_exact (A _ (w.src_alive _ C.aa)) (A _ (w.src_alive _ C.ab)) (A _ (w.src_alive _ C.aq))
      by_cases z : (p (m.hSrc a) - p (m.hSrc b)) + (p (m.hSrc q) - p (m.hSrc b)) = 0
      · rw [k1 z] at ex; exact absurd ex (by simp)
      · obtain ⟨v, h1, h2⟩ := k2 z
        rw [h1] at ex
        rw [← Option.some.inj ex]
        exact ⟨_, h2⟩
    · have : (m.midMesh f p1 a b q x).vPos v = m.vPos v := by simp [Mesh.midMesh, Mesh.midTwo, upd, hv]
      rw [this]
      rcases (T.va v).1 av with e | e
      · exact absurd e hv
      · exact ⟨_, A v e⟩
  | @wide hs pp prev i next qq p1 a b q t x y C nc hl _ _ _ ex =>
    injection e with e1 e2
    subst e2
    intro v av
    have T := wideMesh_tab (x := x) (y := y) w af C
    have fin : ∃ u u', x.Is u ∧ y.Is u' := by
      obtain ⟨k1, k2⟩ := thirds_exact (A _ (w.src_alive _ C.aa)) (A _ (w.src_alive _ C.ab)) (A _ (w.src_alive _ C.aq))
      by_cases z1 : (2 : ℝ) • (p (m.hSrc a) - p (m.hSrc b)) + (p (m.hSrc q) - p (m.hSrc b)) = 0
      · rw [k1 (.inl z1)] at ex; exact absurd ex (by simp)
      · by_cases z2 : (p (m.hSrc a) - p (m.hSrc b)) + (2 : ℝ) • (p (m.hSrc q) - p (m.hSrc b)) = 0
        · rw [k1 (.inr z2)] at ex; exact absurd ex (by simp)
        · obtain ⟨v, v', h1, h2, h3⟩ := k2 z1 z2
          rw [h1] at ex
          have := Option.some.inj ex
          injection this with e1 e2
          subst e1 e2
          exact ⟨_, _, h2, h3⟩
    obtain ⟨u, u', h2, h3⟩ := fin
    by_cases hv : v = m.vFresh
    · have : (m.wideMesh f p1 a b q x y).vPos v = x := by simp [Mesh.wideMesh, Mesh.wideTwo, upd, hv]
      rw [this]; exact ⟨_, h2⟩
    · by_cases hv' : v = m.vFresh + 1
      · have : (m.wideMesh f p1 a b q x y).vPos v = y := by simp [Mesh.wideMesh, Mesh.wideTwo, upd, hv']
        rw [this]; exact ⟨_, h3⟩
      · have : (m.wideMesh f p1 a b q x y).vPos v = m.vPos v := by simp [Mesh.wideMesh, Mesh.wideTwo, upd, hv, hv']
        rw [this]
        rcases (T.va v).1 av with e | e | e
        · exact absurd e hv'
        · exact absurd e hv
        · exact ⟨_, A v e⟩
  | mergeAbort => exact absurd e (by simp)
  | angleThrow => exact absurd e (by simp)
  | noAngle => exact absurd e (by simp)
  | bisectorThrow => exact absurd e (by simp)

/-- with finite positions only an exception ends the loop early -/
theorem FrontStep.throw (A : ∃ p, m.AtE p) (w : m.WF) (af : m.fAlive f = true) (n4 : 4 ≤ (orbit m.hNext (m.fHe f)).length) {avg : XR} {e : Err}
    (s : FrontStep avg m f (.err e)) : e = .throw := by
  obtain ⟨p, A⟩ := A
  generalize h : Out.err e = o at s
  cases s with
  | angleThrow => injection h
  | bisectorThrow => injection h
  | mergeAbort C c s =>
    exfalso
    obtain ⟨u, e1, _⟩ := A _ (w.src_alive _ C.ab)
    apply s
    rw [e1, Vec3.X_veq, Vec3.R_veq]
  | @noAngle hs nc hl e =>
    exfalso
    have len : hs.length = (orbit m.hNext (m.fHe f)).length := by
      have l := w.faceLoop af
      refine (List.perm_ext_iff_of_nodup hl.nodup l.nodup |>.2 fun h => ?_).length_eq
      rw [hl.mem, l.mem]
    obtain ⟨k1, k2⟩ := pickAngle_some e
    obtain ⟨t, ht⟩ := k2 0 (List.mem_range.2 (by omega))
    obtain ⟨r, rfl, hr, hr'⟩ := angleAt_fin A w af hl (by omega) (by omega) ht
    have big : (Scalar.lit (10 ^ 20) 1 : XR) = .fin (10 ^ 20) := by rw [X_lit, R_lit]; norm_num
    rw [big] at e
    have pb : 2 * Real.pi < 10 ^ 20 := by have := Real.pi_lt_d2; norm_num at this ⊢; linarith
    have e' := pick_restrict (fun i hi => List.mem_range.1 hi) e
    obtain ⟨r1, q1, _, q3, _⟩ := pick_min (by
      intro i t hi
      split at hi
      · next l =>
        obtain ⟨r, h1, _, h3⟩ := angleAt_fin A w af hl (by omega) l hi
        exact ⟨r, h1, by linarith⟩
      · exact absurd hi (by simp)) e'
    have := q3 0 (List.mem_range.2 (by omega)) r (by rw [if_pos (by omega)]; exact ht)
    have := XR.fin_inj.1 q1
    linarith
  | _ => exact absurd h (by simp)

end TinyMesh
