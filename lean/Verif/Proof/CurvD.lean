import Verif.Proof.CurvC
import Verif.Proof.DenB
/-
The mean curvature of a vertex; spheres.
-/
namespace TinyMesh
open Orbit
variable {m : Mesh XR} {p : Nat → E3}

theorem ringLaplace_exact (w : m.WF) (A : m.AtE p) {v : Nat} (a : m.vAlive v = true) (t : m.TriRing v) :
    (ringLaplace (m.vPos v) ((orbit m.sig (m.vHe v)).map fun x => m.vPos (m.hSrc (m.hNext x))).reverse).Is (m.cotLap p v) := by
  let q : Nat → Nat × Vec3 XR := fun x => (m.hSrc (m.hNext x), m.vPos (m.hSrc (m.hNext x)))
  let qs := ((orbit m.sig (m.vHe v)).map q).reverse
  have hps : ((orbit m.sig (m.vHe v)).map fun x => m.vPos (m.hSrc (m.hNext x))).reverse = qs.map Prod.snd := by
    rw [List.map_reverse, List.map_map]; rfl
  have hv := (w.vHe_ok v a).1
  have mem : ∀ i, i < qs.length → ∃ y, m.hAlive y = true ∧ m.hSrc y = v ∧ qs.getD i (0, Vec3.zero) = q y := by
    intro i hi
    rw [List.getD_eq_getElem _ _ hi]
    obtain ⟨y, hy, e⟩ := List.mem_map.1 (List.mem_reverse.1 (List.getElem_mem hi))
    exact ⟨y, ((w.mem_ring a).1 hy).1, ((w.mem_ring a).1 hy).2, e.symm⟩
  have snd : ∀ i, (qs.map Prod.snd).getD i Vec3.zero = (qs.getD i (0, Vec3.zero)).2 := by
    intro i
    rw [List.getD_eq_getElem?_getD, List.getD_eq_getElem?_getD, List.getElem?_map]
    cases qs[i]? <;> rfl
  let G : Nat → Nat → Nat → E3 := fun b c d => (cotReg (p v) (p c) (p b) + cotReg (p v) (p d) (p b)) • (p b - p v)
  have h1 : (ringLaplace (m.vPos v) (qs.map Prod.snd)).Is (∑ i ∈ Finset.range qs.length, G (qs.getD i (0, Vec3.zero)).1
      (qs.getD ((i + 1) % qs.length) (0, Vec3.zero)).1 (qs.getD ((i + qs.length - 1) % qs.length) (0, Vec3.zero)).1) := by
    unfold ringLaplace
    rw [List.length_map, ← sum_range_list]
    have := foldl_is (fun i => Vec3.smul (Vec3.cot (m.vPos v) (qs.getD ((i + 1) % qs.length) (0, Vec3.zero)).2 (qs.getD i (0, Vec3.zero)).2 +
        Vec3.cot (m.vPos v) (qs.getD ((i + qs.length - 1) % qs.length) (0, Vec3.zero)).2 (qs.getD i (0, Vec3.zero)).2)
        ((qs.getD i (0, Vec3.zero)).2.sub (m.vPos v)))
      (fun i => G (qs.getD i (0, Vec3.zero)).1 (qs.getD ((i + 1) % qs.length) (0, Vec3.zero)).1
        (qs.getD ((i + qs.length - 1) % qs.length) (0, Vec3.zero)).1) (List.range qs.length) Vec3.zero 0 Vec3.Is.zero ?_
    · rw [zero_add] at this
      simpa only [snd] using this
    · intro i hi
      rw [List.mem_range] at hi
      obtain ⟨x, ax, sx, ex⟩ := mem i hi
      obtain ⟨y, ay, sy, ey⟩ := mem ((i + 1) % qs.length) (Nat.mod_lt _ (by omega))
      obtain ⟨z, az, sz, ez⟩ := mem ((i + qs.length - 1) % qs.length) (Nat.mod_lt _ (by omega))
      rw [ex, ey, ez]
      have ix := A _ (w.src_alive _ (w.next_alive _ ax))
      have iy := A _ (w.src_alive _ (w.next_alive _ ay))
      have iz := A _ (w.src_alive _ (w.next_alive _ az))
      change (Vec3.smul (Vec3.cot (m.vPos v) (m.vPos (m.hSrc (m.hNext y))) (m.vPos (m.hSrc (m.hNext x))) +
        Vec3.cot (m.vPos v) (m.vPos (m.hSrc (m.hNext z))) (m.vPos (m.hSrc (m.hNext x))))
        ((m.vPos (m.hSrc (m.hNext x))).sub (m.vPos v))).Is _
      rw [(A v a).cot iy ix, (A v a).cot iz ix, X_add]
      exact (ix.sub (A v a)).smul _
  rw [hps]
  have h2 := w.permSig.sum_reverse hv q (0, Vec3.zero) fun b c d => G b.1 c.1 d.1
  dsimp only at h2
  rw [h2] at h1
  have e : m.cotLap p v = ((orbit m.sig (m.vHe v)).map fun y => G (q (m.sig y)).1 (q y).1 (q (m.sig (m.sig y))).1).sum := by
    unfold Mesh.cotLap
    rw [w.outs_sum a, ← w.ring_shift a fun h => m.edgeCot p h • (p (m.hSrc (m.hNext h)) - p v)]
    congr 1
    refine List.map_congr_left fun y hy => ?_
    obtain ⟨ay, sy⟩ := (w.mem_ring a).1 hy
    have s1 : m.hSrc (m.sig y) = v := (w.sig_src ay).trans sy
    have t1 := w.tri_sig ay (t _ (w.sig_alive ay) s1)
    simp only [Mesh.edgeCot, s1, t1]
    rfl
  rw [e]
  exact h1

theorem meanH_exact (w : m.WF) (A : m.AtE p) {v : Nat} (a : m.vAlive v = true) (t : m.TriRing v)
    (hf : ∀ h, m.hAlive h = true → m.hSrc h = v → m.Fat p h) (hn : m.maxSum p v ≠ 0) :
    meanH v m = .ok (.fin (-inner ℝ (m.cotLap p v) (unitOf (m.maxSum p v)) / (2 * m.mixedSum p v))) m := by
  have hd : ∀ h, m.hAlive h = true → m.hSrc h = v → p (m.hSrc (m.hNext h)) ≠ p v ∧ p (m.hSrc (m.hNext (m.hNext h))) ≠ p v :=
    fun h ah sh => by have := (hf h ah sh).ne; rwa [sh] at this
  obtain ⟨n, en, hn⟩ := (vertNormal_exact w A a hd).1 hn
  unfold meanH
  rw [bind_apply, w.ringPos_ok a]; dsimp only
  rw [bind_apply, getPos_ok a]; dsimp only
  rw [bind_apply, en]; dsimp only
  have h1 := (sumPairs_exact w a (g := vorCorner (m.vPos v)) (G := fun y z => mixedArea (p v) (p y) (p z)) fun y z ay _ az _ =>
    vorCorner_exact (A v a) (A _ (w.src_alive _ (w.next_alive _ ay))) (A _ (w.src_alive _ (w.next_alive _ az)))).2
  have hp : (2 : ℝ) * m.mixedSum p v ≠ 0 := mul_ne_zero two_ne_zero (m.mixedSum_pos w a hf).ne'
  rw [pure_apply, h1, w.corner_sum a t fun y z => mixedArea (p v) (p y) (p z), (ringLaplace_exact w A a t).dot hn, X_lit, X_lit, R_lit, R_lit,
    X_mul, X_mul, X_div]
  · congr 2
    congr 1
    · norm_num
    · norm_num [Mesh.mixedSum]
  · intro e; apply hp; rw [← e]; norm_num [Mesh.mixedSum]

/-! ### Spheres -/

theorem cross_parallel {d x y : E3} (hx : inner ℝ x d = 0) (hy : inner ℝ y d = 0) :
    (‖d‖ ^ 2) • triNormal 0 x y = inner ℝ (triNormal 0 x y) d • d := by
  obtain ⟨d, rfl⟩ := Vec3.E_surj d
  obtain ⟨x, rfl⟩ := Vec3.E_surj x
  obtain ⟨y, rfl⟩ := Vec3.E_surj y
  rw [← E_zero, triNormal_E, ← real_inner_self_eq_norm_sq, Vec3.E_inner, Vec3.E_inner, ← E_smul, ← E_smul, Vec3.E_inj]
  rw [Vec3.E_inner] at hx hy
  simp only [Vec3.dot_def] at hx hy
  apply Vec3.ext' <;> simp only [Vec3.smul_def, Vec3.cross_def, Vec3.sub_def, Vec3.dot_def, Vec3.zero_def, sub_zero]
  · linear_combination (d.z * x.y - d.y * x.z) * hy - (d.z * y.y - d.y * y.z) * hx
  · linear_combination (d.x * x.z - d.z * x.x) * hy - (d.x * y.z - d.z * y.x) * hx
  · linear_combination (d.y * x.x - d.x * x.y) * hy - (d.y * y.x - d.x * y.y) * hx

theorem triNormal_sub (x y z : E3) : triNormal x y z = triNormal 0 (y - x) (z - x) := by
  unfold triNormal; simp

theorem triNormal_zero_smul (s t : ℝ) (x y : E3) : triNormal 0 (s • x) (t • y) = (s * t) • triNormal 0 x y := by
  unfold triNormal
  simp [smul_smul, mul_comm]

theorem triNormal_shift (z x y : E3) : triNormal 0 x y = triNormal 0 (x - z) (y - z) + triNormal 0 x z - triNormal 0 y z := by
  obtain ⟨z, rfl⟩ := Vec3.E_surj z
  obtain ⟨x, rfl⟩ := Vec3.E_surj x
  obtain ⟨y, rfl⟩ := Vec3.E_surj y
  rw [← E_zero, ← Vec3.E_sub, ← Vec3.E_sub, triNormal_E, triNormal_E, triNormal_E, triNormal_E, ← Vec3.E_add, ← Vec3.E_sub, Vec3.E_inj]
  apply Vec3.ext' <;> simp only [Vec3.cross_def, Vec3.sub_def, Vec3.add_def, Vec3.zero_def, sub_zero] <;> ring

theorem sum_list_add {ι A : Type} [AddCommMonoid A] (l : List ι) (f g : ι → A) :
    (l.map fun i => f i + g i).sum = (l.map f).sum + (l.map g).sum := List.sum_map_add

theorem inner_sum_list {ι : Type} (l : List ι) (f : ι → E3) (d : E3) : inner ℝ (l.map f).sum d = (l.map fun i => inner ℝ (f i) d).sum := by
  induction l with
  | nil => simp
  | cons x l ih => simp [inner_add_left, ih]

theorem smul_sum_list {ι : Type} (l : List ι) (f : ι → E3) (s : ℝ) : s • (l.map f).sum = (l.map fun i => s • f i).sum := by
  induction l with
  | nil => simp
  | cons x l ih => simp [smul_add, ih]

theorem sum_list_smul {ι : Type} (l : List ι) (f : ι → ℝ) (x : E3) : (l.map fun i => f i • x).sum = (l.map f).sum • x := by
  induction l with
  | nil => simp
  | cons y l ih => simp [add_smul, ih]

/-- chords of a sphere after inversion -/
theorem chord_inner {x c e : E3} (h : ‖x + e - c‖ = ‖x - c‖) : 2 * inner ℝ e (x - c) = -‖e‖ ^ 2 := by
  have : x + e - c = e + (x - c) := by abel
  rw [this] at h
  have h2 := norm_add_sq_real e (x - c)
  rw [h] at h2
  linarith

/-- the weighted normals of the triangles of a closed ring inscribed in a sphere add up to a multiple of the radius vector -/
theorem Mesh.maxSum_parallel (w : m.WF) {v : Nat} (a : m.vAlive v = true) (t : m.TriRing v) {c : E3} {r : ℝ} (hs : m.OnSphere p c r v)
    (hd : ∀ h, m.hAlive h = true → m.hSrc h = v → p (m.hSrc (m.hNext h)) ≠ p v) :
    (‖p v - c‖ ^ 2) • m.maxSum p v = inner ℝ (m.maxSum p v) (p v - c) • (p v - c) := by
  let g : Nat → E3 := fun h => (‖p (m.hSrc (m.hNext h)) - p v‖ ^ 2)⁻¹ • (p (m.hSrc (m.hNext h)) - p v)
  have hg : ∀ h, m.hAlive h = true → m.hSrc h = v → inner ℝ (g h) (p v - c) = -(1 / 2) := by
    intro h ah sh
    have n0 := norm_ne_zero_iff.2 (sub_ne_zero.2 (hd h ah sh))
    have := chord_inner (x := p v) (c := c) (e := p (m.hSrc (m.hNext h)) - p v) (by
      rw [show p v + (p (m.hSrc (m.hNext h)) - p v) - c = p (m.hSrc (m.hNext h)) - c by abel, hs.2 h ah sh, hs.1])
    simp only [g]
    rw [inner_smul_left]
    have e : inner ℝ (p (m.hSrc (m.hNext h)) - p v) (p v - c) = -(1 / 2) * ‖p (m.hSrc (m.hNext h)) - p v‖ ^ 2 := by linarith
    rw [e]
    simp only [map_inv₀, map_pow, conj_trivial]
    field_simp
  have hm : m.maxSum p v = ((orbit m.sig (m.vHe v)).map fun y => triNormal 0 (g (m.sig y)) (g y)).sum := by
    unfold Mesh.maxSum
    rw [w.outs_sum a, ← w.ring_shift a fun h => (‖p (m.hSrc (m.hNext h)) - p v‖ ^ 2 * ‖p (m.hSrc (m.hNext (m.hNext h))) - p v‖ ^ 2)⁻¹ •
      triNormal (p v) (p (m.hSrc (m.hNext h))) (p (m.hSrc (m.hNext (m.hNext h))))]
    congr 1
    refine List.map_congr_left fun y hy => ?_
    obtain ⟨ay, sy⟩ := (w.mem_ring a).1 hy
    have t1 := w.tri_sig ay (t _ (w.sig_alive ay) ((w.sig_src ay).trans sy))
    simp only [g]
    rw [triNormal_zero_smul, ← triNormal_sub, t1, mul_inv]
  have hk : m.maxSum p v = ((orbit m.sig (m.vHe v)).map fun y => triNormal 0 (g (m.sig y) - g (m.vHe v)) (g y - g (m.vHe v))).sum := by
    have e : ∀ y, triNormal 0 (g (m.sig y)) (g y) + triNormal 0 (g y) (g (m.vHe v)) =
        triNormal 0 (g (m.sig y) - g (m.vHe v)) (g y - g (m.vHe v)) + triNormal 0 (g (m.sig y)) (g (m.vHe v)) := by
      intro y
      rw [triNormal_shift (g (m.vHe v)) (g (m.sig y)) (g y)]
      abel
    have e2 := congrArg List.sum (List.map_congr_left (l := orbit m.sig (m.vHe v)) fun y _ => e y)
    rw [sum_list_add, sum_list_add, w.ring_shift a fun y => triNormal 0 (g y) (g (m.vHe v))] at e2
    rw [hm]
    exact add_right_cancel e2
  have h0 := w.vHe_ok v a
  rw [hk, inner_sum_list, ← sum_list_smul, smul_sum_list]
  congr 1
  refine List.map_congr_left fun y hy => ?_
  obtain ⟨ay, sy⟩ := (w.mem_ring a).1 hy
  refine cross_parallel ?_ ?_
  · rw [inner_sub_left, hg _ (w.sig_alive ay) ((w.sig_src ay).trans sy), hg _ h0.1 h0.2, sub_self]
  · rw [inner_sub_left, hg _ ay sy, hg _ h0.1 h0.2, sub_self]

theorem Mesh.Outward.fat {c : E3} {v : Nat} (o : m.Outward p c v) : ∀ h, m.hAlive h = true → m.hSrc h = v → m.Fat p h := by
  intro h ah sh e
  have := o h ah sh
  rw [sh] at e
  rw [e, inner_zero_left] at this
  exact lt_irrefl _ this

/-- on a sphere the vertex normal is the direction of the radius -/
theorem Mesh.maxSum_sphere (w : m.WF) {v : Nat} (a : m.vAlive v = true) (t : m.TriRing v) {c : E3} {r : ℝ} (hs : m.OnSphere p c r v)
    (o : m.Outward p c v) : 0 < r ∧ m.maxSum p v ≠ 0 ∧ unitOf (m.maxSum p v) = r⁻¹ • (p v - c) := by
  have hd : ∀ h, m.hAlive h = true → m.hSrc h = v → p (m.hSrc (m.hNext h)) ≠ p v := fun h ah sh => by
    have := (o.fat h ah sh).ne.1; rwa [sh] at this
  have hd2 : ∀ h, m.hAlive h = true → m.hSrc h = v → p (m.hSrc (m.hNext (m.hNext h))) ≠ p v := fun h ah sh => by
    have := (o.fat h ah sh).ne.2; rwa [sh] at this
  have hp : 0 < inner ℝ (m.maxSum p v) (p v - c) := by
    unfold Mesh.maxSum
    rw [inner_sum_list]
    apply List.sum_pos
    · intro x hx
      obtain ⟨h, hh, rfl⟩ := List.mem_map.1 hx
      obtain ⟨h1, h2⟩ := (w.mem_ring a).1 ((w.ring_perm a).mem_iff.2 hh)
      rw [inner_smul_left]
      have n1 := norm_pos_iff.2 (sub_ne_zero.2 (hd h h1 h2))
      have n2 := norm_pos_iff.2 (sub_ne_zero.2 (hd2 h h1 h2))
      exact mul_pos (by simp only [conj_trivial]; positivity) (o h h1 h2)
    · intro e
      have := (w.ring_perm a).mem_iff.1 ((w.mem_ring a).2 (w.vHe_ok v a))
      rw [List.map_eq_nil_iff] at e
      change _ ∈ m.outs v at this
      rw [e] at this
      cases this
  have hr : 0 < r := by
    rw [← hs.1]
    refine norm_pos_iff.2 fun e => ?_
    rw [e, inner_zero_right] at hp
    exact lt_irrefl _ hp
  have hpar := m.maxSum_parallel w a t hs hd
  have h0 : m.maxSum p v ≠ 0 := fun e => by rw [e, inner_zero_left] at hp; exact lt_irrefl _ hp
  refine ⟨hr, h0, ?_⟩
  rw [hs.1] at hpar
  rw [← unitOf_smul (show 0 < r ^ 2 by positivity) (m.maxSum p v), hpar, unitOf_smul hp]
  unfold unitOf
  rw [hs.1]

/-- the squares of the edges weighted with the cotangents add up to eight times the Voronoi area -/
theorem Mesh.cot_area (w : m.WF) {v : Nat} (a : m.vAlive v = true) (t : m.TriRing v)
    (no : ∀ h, m.hAlive h = true → m.hSrc h = v → NotObtuse (p v) (p (m.hSrc (m.hNext h))) (p (m.hSrc (m.hNext (m.hNext h))))) :
    ((m.outs v).map fun h => m.edgeCot p h * ‖p (m.hSrc (m.hNext h)) - p v‖ ^ 2).sum = 8 * m.mixedSum p v := by
  let q : Nat → E3 := fun h => p (m.hSrc (m.hNext h))
  have e1 : ((m.outs v).map fun h => m.edgeCot p h * ‖p (m.hSrc (m.hNext h)) - p v‖ ^ 2).sum =
      ((orbit m.sig (m.vHe v)).map fun y => cotReg (p v) (q y) (q (m.sig y)) * ‖q (m.sig y) - p v‖ ^ 2).sum +
      ((orbit m.sig (m.vHe v)).map fun y => cotReg (p v) (q (m.sig y)) (q y) * ‖q y - p v‖ ^ 2).sum := by
    rw [w.outs_sum a]
    rw [← w.ring_shift a fun h => cotReg (p v) (q (m.sig h)) (q h) * ‖q h - p v‖ ^ 2, ← sum_list_add,
      ← w.ring_shift a fun h => m.edgeCot p h * ‖p (m.hSrc (m.hNext h)) - p v‖ ^ 2]
    congr 1
    refine List.map_congr_left fun y hy => ?_
    obtain ⟨ay, sy⟩ := (w.mem_ring a).1 hy
    have s1 : m.hSrc (m.sig y) = v := (w.sig_src ay).trans sy
    have t1 := w.tri_sig ay (t _ (w.sig_alive ay) s1)
    simp only [Mesh.edgeCot, s1, t1, q, add_mul]
    rfl
  have e2 : 8 * m.mixedSum p v = ((orbit m.sig (m.vHe v)).map fun y => cotReg (p v) (q y) (q (m.sig y)) * ‖q (m.sig y) - p v‖ ^ 2 +
      cotReg (p v) (q (m.sig y)) (q y) * ‖q y - p v‖ ^ 2).sum := by
    unfold Mesh.mixedSum
    rw [← List.sum_map_mul_left, w.outs_sum a,
      ← w.ring_shift a fun h => 8 * mixedArea (p v) (p (m.hSrc (m.hNext h))) (p (m.hSrc (m.hNext (m.hNext h))))]
    congr 1
    refine List.map_congr_left fun y hy => ?_
    obtain ⟨ay, sy⟩ := (w.mem_ring a).1 hy
    have s1 : m.hSrc (m.sig y) = v := (w.sig_src ay).trans sy
    have t1 := w.tri_sig ay (t _ (w.sig_alive ay) s1)
    have n1 := no _ (w.sig_alive ay) s1
    rw [t1] at n1 ⊢
    rw [mixedArea, if_pos n1]
    simp only [q]
    ring
  rw [e1, e2, sum_list_add]

/-- twice the mean curvature of the sphere -/
theorem meanH_sphere (w : m.WF) (A : m.AtE p) {v : Nat} (a : m.vAlive v = true) (t : m.TriRing v) {c : E3} {r : ℝ}
    (hs : m.OnSphere p c r v) (o : m.Outward p c v)
    (no : ∀ h, m.hAlive h = true → m.hSrc h = v → NotObtuse (p v) (p (m.hSrc (m.hNext h))) (p (m.hSrc (m.hNext (m.hNext h))))) :
    meanH v m = .ok (.fin (2 / r)) m := by
  obtain ⟨hr, h0, hu⟩ := m.maxSum_sphere w a t hs o
  rw [meanH_exact w A a t o.fat h0, hu]
  have hA := m.mixedSum_pos w a o.fat
  have e : inner ℝ (m.cotLap p v) (r⁻¹ • (p v - c)) = -(r⁻¹ * (4 * m.mixedSum p v)) := by
    rw [inner_smul_right]
    have : inner ℝ (m.cotLap p v) (p v - c) = -(4 * m.mixedSum p v) := by
      have h8 := m.cot_area w a t no
      have e4 : -(4 * m.mixedSum p v) = -(1 / 2) * (8 * m.mixedSum p v) := by ring
      unfold Mesh.cotLap
      rw [inner_sum_list, e4, ← h8, ← List.sum_map_mul_left]
      congr 1
      refine List.map_congr_left fun h hh => ?_
      obtain ⟨h1, h2⟩ := (w.mem_ring a).1 ((w.ring_perm a).mem_iff.2 hh)
      have := chord_inner (x := p v) (c := c) (e := p (m.hSrc (m.hNext h)) - p v) (by
        rw [show p v + (p (m.hSrc (m.hNext h)) - p v) - c = p (m.hSrc (m.hNext h)) - c by abel, hs.2 h h1 h2, hs.1])
      rw [inner_smul_left]
      simp only [conj_trivial]
      linear_combination (m.edgeCot p h / 2) * this
    rw [this]; ring
  rw [e]
  congr 2
  field_simp
  ring

/-! ### Planes -/

theorem Mesh.maxSum_plane (w : m.WF) {v : Nat} (a : m.vAlive v = true) (t : m.TriRing v) {ν : E3}
    (hs : ∀ h, m.hAlive h = true → m.hSrc h = v → inner ℝ (p (m.hSrc (m.hNext h)) - p v) ν = 0) :
    (‖ν‖ ^ 2) • m.maxSum p v = inner ℝ (m.maxSum p v) ν • ν := by
  have hm : m.maxSum p v = ((orbit m.sig (m.vHe v)).map fun y => (‖p (m.hSrc (m.hNext (m.sig y))) - p v‖ ^ 2 * ‖p (m.hSrc (m.hNext y)) - p v‖ ^ 2)⁻¹ •
      triNormal 0 (p (m.hSrc (m.hNext (m.sig y))) - p v) (p (m.hSrc (m.hNext y)) - p v)).sum := by
    unfold Mesh.maxSum
    rw [w.outs_sum a, ← w.ring_shift a fun h => (‖p (m.hSrc (m.hNext h)) - p v‖ ^ 2 * ‖p (m.hSrc (m.hNext (m.hNext h))) - p v‖ ^ 2)⁻¹ •
      triNormal (p v) (p (m.hSrc (m.hNext h))) (p (m.hSrc (m.hNext (m.hNext h))))]
    congr 1
    refine List.map_congr_left fun y hy => ?_
    obtain ⟨ay, sy⟩ := (w.mem_ring a).1 hy
    have t1 := w.tri_sig ay (t _ (w.sig_alive ay) ((w.sig_src ay).trans sy))
    rw [← triNormal_sub, t1]
  rw [hm, inner_sum_list, ← sum_list_smul, smul_sum_list]
  congr 1
  refine List.map_congr_left fun y hy => ?_
  obtain ⟨ay, sy⟩ := (w.mem_ring a).1 hy
  rw [smul_comm, cross_parallel (hs _ (w.sig_alive ay) ((w.sig_src ay).trans sy)) (hs y ay sy), smul_smul, inner_smul_left, conj_trivial]

theorem meanH_plane (w : m.WF) (A : m.AtE p) {v : Nat} (a : m.vAlive v = true) (t : m.TriRing v)
    (hf : ∀ h, m.hAlive h = true → m.hSrc h = v → m.Fat p h) (hn : m.maxSum p v ≠ 0) {ν : E3} (h0 : ν ≠ 0)
    (hs : ∀ h, m.hAlive h = true → m.hSrc h = v → inner ℝ (p (m.hSrc (m.hNext h)) - p v) ν = 0) :
    meanH v m = .ok (.fin 0) m := by
  rw [meanH_exact w A a t hf hn]
  have hc : inner ℝ (m.cotLap p v) ν = 0 := by
    unfold Mesh.cotLap
    rw [inner_sum_list, List.map_congr_left (g := fun _ => (0 : ℝ))]
    · simp
    · intro h hh
      obtain ⟨h1, h2⟩ := (w.mem_ring a).1 ((w.ring_perm a).mem_iff.2 hh)
      rw [inner_smul_left, hs h h1 h2, mul_zero]
  have hpar := m.maxSum_plane w a t hs
  have hz : inner ℝ (m.cotLap p v) (m.maxSum p v) = 0 := by
    have := congrArg (inner ℝ (m.cotLap p v)) hpar
    rw [inner_smul_right, inner_smul_right, hc, mul_zero] at this
    rcases mul_eq_zero.1 this with h | h
    · exact absurd h (by have := norm_ne_zero_iff.2 h0; positivity)
    · exact h
  unfold unitOf
  rw [inner_smul_right, hz]
  simp

end TinyMesh
