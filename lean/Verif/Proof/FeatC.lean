import Verif.Proof.FeatB
import Verif.Proof.Query
import Mathlib.Algebra.Order.BigOperators.Ring.Finset
/-
Voronoi areas, denoising weights and heat kernel signatures in exact arithmetic.
-/
namespace TinyMesh
open Orbit

/-! ### Voronoi areas -/

theorem sort3_ok {x y z : ℝ} (hx : 0 ≤ x) (hy : 0 ≤ y) (hz : 0 ≤ z) :
    ((Vec3.sort3 x y z).1 * (Vec3.sort3 x y z).1 + (Vec3.sort3 x y z).2.1 * (Vec3.sort3 x y z).2.1 <
      (Vec3.sort3 x y z).2.2 * (Vec3.sort3 x y z).2.2) ↔
    (x * x + y * y < z * z ∨ y * y + z * z < x * x ∨ z * z + x * x < y * y) := by
  unfold Vec3.sort3
  have k : ∀ a b : ℝ, 0 ≤ a → a < b → a * a ≤ b * b := fun a b h1 h2 => by nlinarith
  have k' : ∀ a b : ℝ, 0 ≤ b → ¬ a < b → b * b ≤ a * a := fun a b h1 h2 => by nlinarith [not_lt.1 h2]
  have sx := mul_self_nonneg x
  have sy := mul_self_nonneg y
  have sz := mul_self_nonneg z
  simp only [R_lt]
  by_cases h1 : y < x
  · simp only [h1, if_true]
    have e1 := k _ _ hy h1
    by_cases h2 : z < y
    · simp only [h2, if_true]
      have e2 := k _ _ hz h2
      constructor
      · intro h; right; left; linarith
      · rintro (h | h | h) <;> linarith
    · simp only [h2, if_false]
      have e2 := k' _ _ hy h2
      by_cases h3 : z < x
      · simp only [h3, if_true]
        have e3 := k _ _ hz h3
        constructor
        · intro h; right; left; linarith
        · rintro (h | h | h) <;> linarith
      · simp only [h3, if_false]
        have e3 := k' _ _ hx h3
        constructor
        · intro h; left; linarith
        · rintro (h | h | h) <;> linarith
  · simp only [h1, if_false]
    have e1 := k' _ _ hx h1
    by_cases h2 : z < x
    · simp only [h2, if_true]
      have e2 := k _ _ hz h2
      constructor
      · intro h; right; right; linarith
      · rintro (h | h | h) <;> linarith
    · simp only [h2, if_false]
      have e2 := k' _ _ hx h2
      by_cases h3 : z < y
      · simp only [h3, if_true]
        have e3 := k _ _ hz h3
        constructor
        · intro h; right; right; linarith
        · rintro (h | h | h) <;> linarith
      · simp only [h3, if_false]
        have e3 := k' _ _ hy h3
        constructor
        · intro h; left; linarith
        · rintro (h | h | h) <;> linarith

theorem sort3_fin (x y z : ℝ) : Vec3.sort3 (XR.fin x) (XR.fin y) (XR.fin z) =
    (XR.fin (Vec3.sort3 x y z).1, XR.fin (Vec3.sort3 x y z).2.1, XR.fin (Vec3.sort3 x y z).2.2) := by
  unfold Vec3.sort3
  simp only [X_lt]
  rcases Bool.eq_false_or_eq_true (Scalar.lt y x) with h1 | h1 <;>
  rcases Bool.eq_false_or_eq_true (Scalar.lt z x) with h2 | h2 <;>
  rcases Bool.eq_false_or_eq_true (Scalar.lt z y) with h3 | h3 <;> simp [h1, h2, h3]

/-- dot product of the edges at the first corner -/
noncomputable def cornerDot (p q r : Vec3 ℝ) : ℝ := (q.sub p).dot (r.sub p)

theorem sq_len (p q r : Vec3 ℝ) : (q.sub p).length * (q.sub p).length = cornerDot p q r + cornerDot q r p := by
  rw [Vec3.length_sq]; simp only [cornerDot, Vec3.dot_def, Vec3.sub_def]; ring

theorem obtuse_iff (p q r : Vec3 ℝ) : Vec3.obtuse p.fin q.fin r.fin = true ↔
    (cornerDot p q r < 0 ∨ cornerDot q r p < 0 ∨ cornerDot r p q < 0) := by
  have e : Vec3.obtuse p.fin q.fin r.fin = Vec3.obtuse p q r := by
    unfold Vec3.obtuse
    simp only [Vec3.X_vsub, Vec3.X_vlength, sort3_fin]
    rfl
  rw [e]
  unfold Vec3.obtuse
  change (Scalar.lt
      ((Vec3.sort3 (q.sub p).length (r.sub q).length (p.sub r).length).1 *
        (Vec3.sort3 (q.sub p).length (r.sub q).length (p.sub r).length).1 +
        (Vec3.sort3 (q.sub p).length (r.sub q).length (p.sub r).length).2.1 *
        (Vec3.sort3 (q.sub p).length (r.sub q).length (p.sub r).length).2.1)
        ((Vec3.sort3 (q.sub p).length (r.sub q).length (p.sub r).length).2.2 *
        (Vec3.sort3 (q.sub p).length (r.sub q).length (p.sub r).length).2.2) = true) ↔ _
  rw [R_lt, sort3_ok (Vec3.length_nonneg _) (Vec3.length_nonneg _) (Vec3.length_nonneg _), sq_len p q r, sq_len q r p,
    sq_len r p q]
  constructor
  · rintro (h | h | h)
    · right; left; linarith
    · right; right; linarith
    · left; linarith
  · rintro (h | h | h)
    · right; right; linarith
    · left; linarith
    · right; left; linarith

/-- twice the area -/
noncomputable def dblArea (p q r : Vec3 ℝ) : ℝ := ((q.sub p).cross (r.sub p)).length

theorem length_congr {a b : Vec3 ℝ} (h : a.dot a = b.dot b) : a.length = b.length := by
  rw [Vec3.length_def, Vec3.length_def, h]

theorem dblArea_rot (p q r : Vec3 ℝ) : dblArea q r p = dblArea p q r := by
  apply length_congr
  simp only [Vec3.dot_def, Vec3.cross_def, Vec3.sub_def]; ring

theorem dblArea_sq (p q r : Vec3 ℝ) : dblArea p q r * dblArea p q r =
    cornerDot p q r * cornerDot q r p + cornerDot q r p * cornerDot r p q + cornerDot r p q * cornerDot p q r := by
  unfold dblArea
  rw [Vec3.length_sq]
  simp only [cornerDot, Vec3.dot_def, Vec3.cross_def, Vec3.sub_def]; ring

theorem dblArea_nonneg (p q r : Vec3 ℝ) : 0 ≤ dblArea p q r := Vec3.length_nonneg _

theorem cot_ok (a b c : Vec3 ℝ) {d x : ℝ} (hd : (a.sub b).dot (c.sub b) = d)
    (hx : ((a.sub b).cross (c.sub b)).length = x) :
    Vec3.cot a.fin b.fin c.fin = .fin (d / (x + 1 / 10 ^ 20)) := by
  have hx0 : 0 ≤ x := hx ▸ Vec3.length_nonneg _
  unfold Vec3.cot
  simp only [Vec3.X_vsub, Vec3.X_vdot, Vec3.X_vcross, Vec3.X_vlength, X_lit, X_add, hd, hx]
  have e : (Scalar.lit 1 (10 ^ 20) : ℝ) = 1 / 10 ^ 20 := by rw [R_lit]; norm_num
  rw [e, X_div _ (by positivity)]

open Classical in
theorem vorCorner_ok (p q r : Vec3 ℝ) : vorCorner p.fin q.fin r.fin = .fin
    (if cornerDot p q r < 0 ∨ cornerDot q r p < 0 ∨ cornerDot r p q < 0 then
      (if cornerDot p q r < 0 then dblArea p q r / 4 else dblArea p q r / 8)
    else ((cornerDot p q r + cornerDot q r p) * cornerDot r p q + (cornerDot p q r + cornerDot r p q) * cornerDot q r p) /
      (8 * (dblArea p q r + 1 / 10 ^ 20))) := by
  unfold vorCorner
  by_cases h : cornerDot p q r < 0 ∨ cornerDot q r p < 0 ∨ cornerDot r p q < 0
  · rw [if_pos h]
    simp only [(obtuse_iff p q r).2 h, Bool.not_true, Bool.false_eq_true, if_false, Vec3.X_vsub, Vec3.X_vdot, X_lit,
      Vec3.X_vcross, Vec3.X_vlength, X_mul]
    by_cases h' : cornerDot p q r < 0
    · rw [if_pos h', if_pos (by rw [X_lt, R_lt, R_lit0]; exact h')]
      congr 1
      rw [R_lit]; unfold dblArea; push_cast; ring
    · rw [if_neg h', if_neg (by rw [X_lt, R_lt, R_lit0]; exact h')]
      congr 1
      rw [R_lit, R_lit]; unfold dblArea; push_cast; ring
  · rw [if_neg h]
    have ho : Vec3.obtuse p.fin q.fin r.fin = false := by
      rw [Bool.eq_false_iff]; exact fun e => h ((obtuse_iff p q r).1 e)
    have c1 := cot_ok p r q (d := cornerDot r p q) (x := dblArea p q r) rfl (by
      apply length_congr; simp only [Vec3.dot_def, Vec3.cross_def, Vec3.sub_def]; ring)
    have c2 := cot_ok p q r (d := cornerDot q r p) (x := dblArea p q r) (by
      simp only [cornerDot, Vec3.dot_def, Vec3.sub_def]; ring) (by
      apply length_congr; simp only [Vec3.dot_def, Vec3.cross_def, Vec3.sub_def]; ring)
    simp only [ho, Bool.not_false, if_true, c1, c2, Vec3.X_vsub, Vec3.X_vlength, X_lit, X_mul, X_add]
    congr 1
    have s1 := sq_len p q r
    have s2 : (r.sub p).length * (r.sub p).length = cornerDot p q r + cornerDot r p q := by
      rw [Vec3.length_sq]; simp only [cornerDot, Vec3.dot_def, Vec3.sub_def]; ring
    have e : (Scalar.lit 1 8 : ℝ) = 1 / 8 := by rw [R_lit]; norm_num
    rw [e, mul_assoc (1 / 8), mul_assoc (1 / 8) (r.sub p).length, s1, s2]
    have hx := dblArea_nonneg p q r
    field_simp

/-- the three corner areas are not negative and add up to the area, up to the regularisation of the cotangent -/
theorem vor_sum (p q r : Vec3 ℝ) : ∃ x y z : ℝ, vorCorner p.fin q.fin r.fin = .fin x ∧ vorCorner q.fin r.fin p.fin = .fin y ∧
    vorCorner r.fin p.fin q.fin = .fin z ∧ 0 ≤ x ∧ 0 ≤ y ∧ 0 ≤ z ∧ x + y + z ≤ dblArea p q r / 2 ∧
    dblArea p q r / 2 - 1 / 10 ^ 20 ≤ x + y + z := by
  classical
  refine ⟨_, _, _, vorCorner_ok p q r, vorCorner_ok q r p, vorCorner_ok r p q, ?_⟩
  have e1 := dblArea_rot p q r
  have e2 := dblArea_rot q r p
  rw [e2, e1]
  have hX := dblArea_nonneg p q r
  have hsq := dblArea_sq p q r
  have l0 : 0 ≤ cornerDot p q r + cornerDot q r p := by rw [← sq_len]; exact mul_self_nonneg _
  have l1 : 0 ≤ cornerDot q r p + cornerDot r p q := by rw [← sq_len]; exact mul_self_nonneg _
  have l2 : 0 ≤ cornerDot r p q + cornerDot p q r := by rw [← sq_len]; exact mul_self_nonneg _
  generalize dblArea p q r = X at *
  generalize cornerDot p q r = a at *
  generalize cornerDot q r p = b at *
  generalize cornerDot r p q = c at *
  have he : (0 : ℝ) < 1 / 10 ^ 20 := by positivity
  generalize (1 / 10 ^ 20 : ℝ) = ε at *
  by_cases ha : a < 0
  · rw [if_pos (Or.inl ha), if_pos (Or.inr (Or.inr ha)), if_pos (Or.inr (Or.inl ha)), if_pos ha,
      if_neg (by linarith), if_neg (by linarith)]
    refine ⟨?_, ?_, ?_, ?_, ?_⟩ <;> linarith
  by_cases hb : b < 0
  · rw [if_pos (Or.inr (Or.inl hb)), if_pos (Or.inl hb), if_pos (Or.inr (Or.inr hb)), if_pos hb,
      if_neg (by linarith), if_neg (by linarith)]
    refine ⟨?_, ?_, ?_, ?_, ?_⟩ <;> linarith
  by_cases hc : c < 0
  · rw [if_pos (Or.inr (Or.inr hc)), if_pos (Or.inr (Or.inl hc)), if_pos (Or.inl hc), if_pos hc,
      if_neg (by linarith), if_neg (by linarith)]
    refine ⟨?_, ?_, ?_, ?_, ?_⟩ <;> linarith
  rw [if_neg (by tauto), if_neg (by tauto), if_neg (by tauto)]
  rw [not_lt] at ha hb hc
  have hd : 0 < X + ε := by linarith
  have sum : ((a + b) * c + (a + c) * b) / (8 * (X + ε)) + ((b + c) * a + (b + a) * c) / (8 * (X + ε)) +
      ((c + a) * b + (c + b) * a) / (8 * (X + ε)) = X * X / (2 * (X + ε)) := by
    rw [hsq]; field_simp; ring
  refine ⟨by positivity, by positivity, by positivity, ?_, ?_⟩
  · rw [sum, div_le_iff₀ (by positivity)]; nlinarith
  · rw [sum, le_div_iff₀ (by positivity)]; nlinarith [mul_nonneg hX he.le, mul_pos he he]

section
variable {F : Type} {m : Mesh F}

/-- the loop of a triangle -/
theorem Mesh.WF.tri_orbit (w : m.WF) (sm : m.Simple) {h : Nat} (a : m.hAlive h = true) (t : m.OnTri h) :
    orbit m.hNext h = [h, m.hNext h, m.hNext (m.hNext h)] := by
  have hs := w.permNext.period_spec a
  have h1 : m.hNext h ≠ h := by
    intro e; have := sm.no_loop h a; rw [e] at this; exact this rfl
  have h2 : m.hNext (m.hNext h) ≠ h := by
    intro e; unfold Mesh.OnTri at t; rw [e] at t; exact h1 t
  have p3 : period m.hNext h = 3 := by
    have hle : period m.hNext h ≤ 3 := by
      by_contra hgt
      exact hs.2.2 3 (by omega) (by omega) t
    have : period m.hNext h ≠ 1 := by intro e; have := hs.2.1; rw [e] at this; exact h1 this
    have : period m.hNext h ≠ 2 := by intro e; have := hs.2.1; rw [e] at this; exact h2 this
    omega
  unfold orbit
  rw [p3]; rfl

variable [ScalarX F]

theorem Mesh.Good.vorFace_ok (g : m.Good) {h : Nat} (a : m.hAlive h = true) (t : m.OnTri h) :
    vorFace (m.hSrc h) (m.hFace h) m = .ok (vorCorner (m.vPos (m.hSrc h)) (m.vPos (m.hSrc (m.hNext h)))
      (m.vPos (m.hSrc (m.hNext (m.hNext h))))) m := by
  have w := g.wf
  have a1 := w.next_alive _ a
  have a2 := w.next_alive _ a1
  have af := w.face_alive _ a
  obtain ⟨b, e⟩ := w.fHe_ok _ af
  have n01 := g.simple.no_loop h a
  have n12 := g.simple.no_loop _ a1
  have n20 := g.simple.no_loop _ a2
  have t' := t
  unfold Mesh.OnTri at t'
  rw [t'] at n20
  unfold vorFace
  rw [bind_apply, w.faceVerts_ok af]
  have hx := w.tri_face a t b e
  have fin : ∀ (l : List Nat) (i : Nat), l.length = 3 → lastIdx (m.hSrc h) l = some i →
      l[i]? = some (m.hSrc h) → l[(i + 1) % 3]? = some (m.hSrc (m.hNext h)) →
      l[(i + 2) % 3]? = some (m.hSrc (m.hNext (m.hNext h))) →
      (match lastIdx (m.hSrc h) l with
        | none => (M.fail .abort : M F F)
        | some i => do
          M.assert (l.length = 3)
          match l[i]?, l[(i + 1) % l.length]?, l[(i + 2) % l.length]? with
          | some a, some b, some c => do
            let p0 ← getPos a
            let p1 ← getPos b
            let p2 ← getPos c
            pure (vorCorner p0 p1 p2)
          | _, _, _ => M.fail .ub) m = .ok (vorCorner (m.vPos (m.hSrc h)) (m.vPos (m.hSrc (m.hNext h)))
        (m.vPos (m.hSrc (m.hNext (m.hNext h))))) m := by
    intro l i hl hi h0 h1 h2
    simp only [hi, bind_apply, hl, decide_true, assert_true rfl, h0, h1, h2, getPos_ok (w.src_alive _ a),
      getPos_ok (w.src_alive _ a1), getPos_ok (w.src_alive _ a2)]
    rfl
  rcases hx with hx | hx | hx
  · rw [hx, w.tri_orbit g.simple a t]
    refine fin _ 0 rfl ?_ rfl rfl rfl
    simp only [List.map, lastIdx]
    simp [n01.symm, n20]
  · rw [hx, w.tri_orbit g.simple a1 (Mesh.WF.onTri_next t), t']
    refine fin _ 2 rfl ?_ rfl rfl rfl
    simp only [List.map, lastIdx]
    simp
  · rw [hx, w.tri_orbit g.simple a2 (Mesh.WF.onTri_next (Mesh.WF.onTri_next t)), t']
    refine fin _ 1 rfl ?_ rfl rfl rfl
    simp only [List.map, lastIdx]
    simp [n01.symm]
end

end TinyMesh
