import Verif.Proof.CurvA
/-
Areas and angles at a vertex.
-/
namespace TinyMesh
open Orbit

theorem Vec3.Is.cot {a b c : Vec3 XR} {x y z : E3} (ha : a.Is x) (hb : b.Is y) (hc : c.Is z) :
    Vec3.cot a b c = .fin (cotReg x y z) := by
  unfold Vec3.cot cotReg
  dsimp only
  rw [(ha.sub hb).dot (hc.sub hb), (hb.triNormal ha hc).length, X_lit, X_add, X_div]
  · rw [R_lit]; norm_num
  · rw [R_lit]
    have := norm_nonneg (TinyMesh.triNormal y x z)
    positivity

theorem triArea_norm (a b c : E3) : triArea a b c = ‖triNormal a b c‖ / 2 := rfl

theorem cornerDot_E (p q r : Vec3 ℝ) : cornerDot p q r = inner ℝ (q.E - p.E) (r.E - p.E) := by
  rw [cornerDot, ← Vec3.E_inner, Vec3.E_sub, Vec3.E_sub]

theorem obtuse_spec {a b c : Vec3 XR} {x y z : E3} (ha : a.Is x) (hb : b.Is y) (hc : c.Is z) :
    Vec3.obtuse a b c = true ↔ ¬ NotObtuse x y z := by
  obtain ⟨u, rfl, rfl⟩ := ha
  obtain ⟨v, rfl, rfl⟩ := hb
  obtain ⟨w, rfl, rfl⟩ := hc
  rw [obtuse_iff, cornerDot_E, cornerDot_E, cornerDot_E, NotObtuse]
  simp only [← not_le]
  tauto

theorem vorCorner_exact {a b c : Vec3 XR} {x y z : E3} (ha : a.Is x) (hb : b.Is y) (hc : c.Is z) :
    vorCorner a b c = .fin (mixedArea x y z) := by
  unfold vorCorner mixedArea
  dsimp only
  by_cases h : NotObtuse x y z
  · have ho : Vec3.obtuse a b c = false := by
      rw [Bool.eq_false_iff]; exact fun e => (obtuse_spec ha hb hc).1 e h
    rw [if_pos h, ho, if_pos (by rfl), ha.cot hc hb, ha.cot hb hc, (hb.sub ha).length, (hc.sub ha).length, X_lit, R_lit]
    simp only [X_mul, X_add]
    congr 1
    push_cast; ring
  · rw [if_neg h, (obtuse_spec ha hb hc).2 h, if_neg (by decide), (hb.sub ha).dot (hc.sub ha), (ha.triNormal hb hc).length, X_lit]
    change (if Scalar.lt (XR.fin _) (Scalar.lit 0 1) = true then _ else _) = _
    rw [lit_zero, X_lt]
    by_cases h' : inner ℝ (y - x) (z - x) < 0
    · rw [if_pos h', if_pos (by rw [R_lt]; exact h'), R_lit]
      simp only [X_mul]
      congr 1
      rw [triArea_norm]; push_cast; ring
    · rw [if_neg h', if_neg (by rw [R_lt]; exact h'), X_lit, R_lit, R_lit]
      simp only [X_mul]
      congr 1
      rw [triArea_norm]; push_cast; ring

theorem triNormal_rot (a b c : E3) : triNormal b c a = triNormal a b c := by
  obtain ⟨u, rfl⟩ := Vec3.E_surj a
  obtain ⟨v, rfl⟩ := Vec3.E_surj b
  obtain ⟨w, rfl⟩ := Vec3.E_surj c
  rw [triNormal_E, triNormal_E, Vec3.E_inj]
  apply Vec3.ext' <;> simp only [Vec3.cross_def, Vec3.sub_def] <;> ring

theorem triNormal_swap12 (a b c : E3) : triNormal b a c = -triNormal a b c := by
  rw [← triNormal_swap, ← triNormal_rot]

theorem cotReg_comm (a b c : E3) : cotReg c b a = cotReg a b c := by
  unfold cotReg
  rw [triNormal_swap, norm_neg, real_inner_comm]

theorem mixedArea_comm (a b c : E3) : mixedArea a c b = mixedArea a b c := by
  have h : NotObtuse a c b ↔ NotObtuse a b c := by
    unfold NotObtuse
    rw [real_inner_comm (b - a) (c - a), real_inner_comm (a - c) (b - c), real_inner_comm (c - b) (a - b)]
    tauto
  unfold mixedArea
  rw [real_inner_comm (b - a) (c - a), triArea_norm, triArea_norm, triNormal_swap, norm_neg, add_comm]
  by_cases ho : NotObtuse a b c
  · rw [if_pos ho, if_pos (h.2 ho)]
  · rw [if_neg ho, if_neg (fun e => ho (h.1 e))]

theorem triNormal_sq (a b c : E3) : ‖triNormal a b c‖ ^ 2 = inner ℝ (b - a) (c - a) * inner ℝ (c - b) (a - b) +
    inner ℝ (c - b) (a - b) * inner ℝ (a - c) (b - c) + inner ℝ (a - c) (b - c) * inner ℝ (b - a) (c - a) := by
  obtain ⟨u, rfl⟩ := Vec3.E_surj a
  obtain ⟨v, rfl⟩ := Vec3.E_surj b
  obtain ⟨w, rfl⟩ := Vec3.E_surj c
  rw [← cornerDot_E, ← cornerDot_E, ← cornerDot_E, ← dblArea_sq, triNormal_E, Vec3.E_norm, sq]
  rfl

theorem sq_corner (a b c : E3) : ‖b - a‖ ^ 2 = inner ℝ (b - a) (c - a) + inner ℝ (c - b) (a - b) := by
  rw [← real_inner_self_eq_norm_sq]
  have h : c - a = (c - b) + (b - a) := by abel
  have h2 : a - b = -(b - a) := by abel
  rw [h, h2, inner_add_right, inner_neg_right, real_inner_comm (c - b) (b - a)]
  ring

theorem mixedArea_pos {a b c : E3} (h : triNormal a b c ≠ 0) : 0 < mixedArea a b c := by
  have hn := norm_pos_iff.2 h
  unfold mixedArea
  split
  · next no =>
    obtain ⟨h1, h2, h3⟩ := no
    have hs := triNormal_sq a b c
    unfold cotReg
    have e1 : ‖triNormal c a b‖ = ‖triNormal a b c‖ := by rw [← triNormal_rot]
    have e2 : ‖triNormal b a c‖ = ‖triNormal a b c‖ := by rw [triNormal_swap12, norm_neg]
    rw [e1, e2, sq_corner a b c, show ‖c - a‖ ^ 2 = inner ℝ (a - c) (b - c) + inner ℝ (b - a) (c - a) from by
      rw [norm_sub_rev]; exact sq_corner c a b, real_inner_comm (c - b) (a - b)]
    generalize inner ℝ (b - a) (c - a) = x at *
    generalize inner ℝ (c - b) (a - b) = y at *
    generalize inner ℝ (a - c) (b - c) = z at *
    have hd : 0 < ‖triNormal a b c‖ + 1 / 10 ^ 20 := by positivity
    have : 0 < (x + y) * z + (z + x) * y := by
      have : 0 < ‖triNormal a b c‖ ^ 2 := by positivity
      nlinarith [mul_nonneg h2 h3]
    rw [mul_div_assoc', mul_div_assoc', ← add_div]
    positivity
  · split
    · rw [triArea_norm]; positivity
    · rw [triArea_norm]; positivity

theorem angle_arg {x y : E3} (hx : x ≠ 0) (hy : y ≠ 0) :
    Complex.arg ⟨inner ℝ x y, Real.sqrt (‖x‖ ^ 2 * ‖y‖ ^ 2 - inner ℝ x y ^ 2)⟩ = InnerProductGeometry.angle x y := by
  have hp : 0 < ‖x‖ * ‖y‖ := mul_pos (norm_pos_iff.2 hx) (norm_pos_iff.2 hy)
  have hs : Real.sqrt (‖x‖ ^ 2 * ‖y‖ ^ 2 - inner ℝ x y ^ 2) = Real.sin (InnerProductGeometry.angle x y) * (‖x‖ * ‖y‖) := by
    rw [InnerProductGeometry.sin_angle_mul_norm_mul_norm]
    congr 1
    simp only [real_inner_self_eq_norm_sq]; ring
  have hc := InnerProductGeometry.cos_angle_mul_norm_mul_norm x y
  have e : (⟨inner ℝ x y, Real.sqrt (‖x‖ ^ 2 * ‖y‖ ^ 2 - inner ℝ x y ^ 2)⟩ : ℂ) = ((‖x‖ * ‖y‖ : ℝ) : ℂ) *
      (Complex.cos (InnerProductGeometry.angle x y) + Complex.sin (InnerProductGeometry.angle x y) * Complex.I) := by
    rw [hs, ← hc]
    apply Complex.ext
    · simp [Complex.cos_ofReal_re, Complex.sin_ofReal_re, Complex.sin_ofReal_im, Complex.cos_ofReal_im]; ring
    · simp [Complex.cos_ofReal_re, Complex.sin_ofReal_re, Complex.sin_ofReal_im, Complex.cos_ofReal_im]; ring
  rw [e, Complex.arg_mul_cos_add_sin_mul_I hp]
  constructor
  · have := InnerProductGeometry.angle_nonneg x y
    have := Real.pi_pos
    linarith
  · exact InnerProductGeometry.angle_le_pi x y

theorem cornerAngle_exact {a b c : Vec3 XR} {x y z : E3} (ha : a.Is x) (hb : b.Is y) (hc : c.Is z) (h1 : y ≠ x) (h2 : z ≠ x) :
    cornerAngle a b c = .fin (EuclideanGeometry.angle y x z) := by
  unfold cornerAngle
  dsimp only
  rw [(hb.sub ha).crossLen (hc.sub ha), (hb.sub ha).dot (hc.sub ha), X_atan2, angle_arg (sub_ne_zero.2 h1) (sub_ne_zero.2 h2)]
  rfl

/-! ### Sums over the ring -/

section
variable {m : Mesh XR} {p : Nat → E3}

theorem Mesh.WF.ringPos_ok (w : m.WF) {v : Nat} (a : m.vAlive v = true) :
    ringPos v m = .ok ((orbit m.sig (m.vHe v)).map fun x => m.vPos (m.hSrc (m.hNext x))) m := by
  unfold ringPos
  rw [bind_apply, w.ringVerts_ok a]
  dsimp only
  rw [getPosList_ok, List.map_map]
  · rfl
  · intro u hu
    obtain ⟨x, hx, rfl⟩ := List.mem_map.1 hu
    exact w.src_alive _ (w.next_alive _ ((w.mem_ring a).1 hx).1)

theorem Mesh.WF.outs_sum {F A : Type} [AddCommMonoid A] {m : Mesh F} (w : m.WF) {v : Nat} (a : m.vAlive v = true) (T : Nat → A) :
    ((m.outs v).map T).sum = ((orbit m.sig (m.vHe v)).map T).sum := ((w.ring_perm a).map T).sum_eq.symm

/-- the sum over the ring does not change when each half-edge is replaced by the next one -/
theorem Mesh.WF.ring_shift {F A : Type} [AddCommMonoid A] {m : Mesh F} (w : m.WF) {v : Nat} (a : m.vAlive v = true) (T : Nat → A) :
    ((orbit m.sig (m.vHe v)).map fun y => T (m.sig y)).sum = ((orbit m.sig (m.vHe v)).map T).sum := by
  rw [← ((w.permSig.map_orbit (w.vHe_ok v a).1).map T).sum_eq, List.map_map]
  rfl

/-- in a ring of triangles the neighbour before `σ y` is the one of `y` -/
theorem Mesh.WF.tri_sig {F : Type} {m : Mesh F} (w : m.WF) {y : Nat} (a : m.hAlive y = true) (t : m.OnTri (m.sig y)) :
    m.hSrc (m.hNext (m.hNext (m.sig y))) = m.hSrc (m.hNext y) := by
  have e : m.hNext (m.hNext (m.sig y)) = m.hRev y := by
    have h := w.next_inj _ _ (w.next_alive _ (w.next_alive _ (w.sig_alive a))) (w.rev_alive _ a)
    apply h
    rw [show m.hNext (m.hRev y) = m.sig y from rfl]
    exact t
  rw [e, w.src_rev _ a]

/-- a sum over the positions around a vertex, read backwards, is the sum over the corners of its triangles -/
theorem Mesh.WF.corner_sum {F A : Type} [AddCommMonoid A] {m : Mesh F} (w : m.WF) {v : Nat} (a : m.vAlive v = true) (t : m.TriRing v)
    (T : Nat → Nat → A) :
    ((orbit m.sig (m.vHe v)).map fun y => T (m.hSrc (m.hNext (m.sig y))) (m.hSrc (m.hNext y))).sum =
      ((m.outs v).map fun h => T (m.hSrc (m.hNext h)) (m.hSrc (m.hNext (m.hNext h)))).sum := by
  rw [w.outs_sum a, ← w.ring_shift a fun h => T (m.hSrc (m.hNext h)) (m.hSrc (m.hNext (m.hNext h)))]
  congr 1
  refine List.map_congr_left fun y hy => ?_
  have hy' := (w.mem_ring a).1 hy
  rw [w.tri_sig hy'.1 (t _ (w.sig_alive hy'.1) ((w.sig_src hy'.1).trans hy'.2))]

/-- the value of a sum over consecutive neighbours -/
theorem sumPairs_exact (w : m.WF) {v : Nat} (a : m.vAlive v = true) {g : Vec3 XR → Vec3 XR → XR} {G : Nat → Nat → ℝ}
    (hg : ∀ y z, m.hAlive y = true → m.hSrc y = v → m.hAlive z = true → m.hSrc z = v →
      g (m.vPos (m.hSrc (m.hNext y))) (m.vPos (m.hSrc (m.hNext z))) = .fin (G (m.hSrc (m.hNext y)) (m.hSrc (m.hNext z)))) :
    let ps := (orbit m.sig (m.vHe v)).map fun x => m.vPos (m.hSrc (m.hNext x))
    sumPairs g ps = .fin ((orbit m.sig (m.vHe v)).map fun y => G (m.hSrc (m.hNext y)) (m.hSrc (m.hNext (m.sig y)))).sum ∧
    sumPairs g ps.reverse = .fin ((orbit m.sig (m.vHe v)).map fun y => G (m.hSrc (m.hNext (m.sig y))) (m.hSrc (m.hNext y))).sum := by
  intro ps
  -- the same sums over pairs of a vertex and its position
  let q : Nat → Nat × Vec3 XR := fun x => (m.hSrc (m.hNext x), m.vPos (m.hSrc (m.hNext x)))
  let qs := (orbit m.sig (m.vHe v)).map q
  have hps : ps = qs.map Prod.snd := by rw [List.map_map]; rfl
  have hv := (w.vHe_ok v a).1
  have mem : ∀ l : List (Nat × Vec3 XR), (∀ x ∈ l, x ∈ qs) → ∀ i, i < l.length → ∃ y, m.hAlive y = true ∧ m.hSrc y = v ∧
      l.getD i (0, Vec3.zero) = q y := by
    intro l hl i hi
    rw [List.getD_eq_getElem _ _ hi]
    obtain ⟨y, hy, e⟩ := List.mem_map.1 (hl _ (List.getElem_mem hi))
    exact ⟨y, ((w.mem_ring a).1 hy).1, ((w.mem_ring a).1 hy).2, e.symm⟩
  have snd : ∀ (l : List (Nat × Vec3 XR)) i, (l.map Prod.snd).getD i Vec3.zero = (l.getD i (0, Vec3.zero)).2 := by
    intro l i
    rw [List.getD_eq_getElem?_getD, List.getD_eq_getElem?_getD, List.getElem?_map]
    cases l[i]? <;> rfl
  have key : ∀ l : List (Nat × Vec3 XR), (∀ x ∈ l, x ∈ qs) → sumPairs g (l.map Prod.snd) =
      .fin (∑ i ∈ Finset.range l.length, G (l.getD i (0, Vec3.zero)).1 (l.getD ((i + 1) % l.length) (0, Vec3.zero)).1) := by
    intro l hl
    unfold sumPairs
    rw [List.length_map, ← sum_range_list]
    change List.foldl _ (Scalar.lit 0 1) _ = _
    rw [lit_zero, foldl_fin' _ (fun i => G (l.getD i (0, Vec3.zero)).1 (l.getD ((i + 1) % l.length) (0, Vec3.zero)).1) _ _, zero_add]
    intro i hi
    rw [List.mem_range] at hi
    obtain ⟨y, ay, sy, ey⟩ := mem l hl i hi
    obtain ⟨z, az, sz, ez⟩ := mem l hl ((i + 1) % l.length) (Nat.mod_lt _ (by omega))
    rw [snd, snd, ey, ez]
    exact hg y z ay sy az sz
  constructor
  · rw [hps, key qs fun _ h => h]
    rw [w.permSig.sum_forward hv q (0, Vec3.zero) fun b c => G b.1 c.1]
  · rw [hps, ← List.map_reverse, key qs.reverse fun _ h => List.mem_reverse.1 h]
    rw [w.permSig.sum_reverse hv q (0, Vec3.zero) fun b c _ => G b.1 c.1]

end

end TinyMesh
