import Verif.Proof.RelaxC
import Verif.Props.Smooth
import Verif.Spec.Over
/-
C105, C106, C107: energy and limit of uniform smoothing, energy of Taubin smoothing.
-/
namespace TinyMesh
open Sample
attribute [local instance] Sample.ratScalar

/-- C105: with a step size in [0, 1] `smoothLaplacian` never increases the sum of the squared edge lengths, and with one in (0, 1) it
decreases it as soon as any vertex ends at another position. -/
theorem c105_stretch {m : Mesh XR} (w : m.WF) {p : Nat → E3} (A : m.AtE p) {eps : ℝ} (h0 : 0 ≤ eps) (h1 : eps ≤ 1) (n : Nat) :
    ∃ m' p', smoothLaplacian (XR.fin eps) false n m = .ok () m' ∧ m.SameButPos m' ∧ m'.AtE p' ∧ m'.stretch p' ≤ m.stretch p ∧
      (0 < eps → eps < 1 → (∃ v, m.vAlive v = true ∧ p' v ≠ p v) → m'.stretch p' < m.stretch p) := by
  obtain ⟨m', e, s, A'⟩ := smoothLaplacian_exact eps n w A
  have k : ∀ q, m'.stretch q = m.stretch q := fun q => by rw [s]; rfl
  refine ⟨m', _, e, s, A', ?_, fun k0 k1 ⟨v, av, hv⟩ => ?_⟩
  · rw [k]; exact stretch_iter_le w h0 h1 n p
  · rw [k]; exact stretch_iter_lt w k0 k1 n p av hv

/-- C105: the amount of one step: at least `4 eps (1 - eps)` times the sum over the vertices that are not pinned of the degree times the
squared distance to the mean of the neighbours. -/
theorem c105_step {m : Mesh XR} (w : m.WF) {p : Nat → E3} (A : m.AtE p) (eps : ℝ) :
    ∃ m' p', smoothLaplacian (XR.fin eps) false 1 m = .ok () m' ∧ m.SameButPos m' ∧ m'.AtE p' ∧
      ∀ vs : Finset Nat, (∀ v, v ∈ vs ↔ m.vAlive v = true ∧ ¬ m.Pinned v) →
        m'.stretch p' ≤ m.stretch p - 4 * (eps * (1 - eps)) * ∑ v ∈ vs, (m.outDeg v : ℝ) * ‖m.centroid p v - p v‖ ^ 2 := by
  obtain ⟨m', e, s, A'⟩ := smoothLaplacian_exact eps 1 w A
  have k : ∀ q, m'.stretch q = m.stretch q := fun q => by rw [s]; rfl
  refine ⟨m', _, e, s, A', fun vs hvs => ?_⟩
  rw [k]
  have := stretch_average w eps p
  rwa [drop_eq w p vs hvs] at this

/-- C106: a piece with a pinned vertex. With a step size in (0, 1] the vertices of the piece tend to positions that depend only on the
pinned ones: there every vertex that is not pinned is the mean of its neighbours. The distance decreases geometrically. -/
theorem c106_anchored {m : Mesh XR} (w : m.WF) {p : Nat → E3} (A : m.AtE p) {eps : ℝ} (h0 : 0 < eps) (h1 : eps ≤ 1) {v : Nat}
    (hp : ∃ u, m.Together v u ∧ m.Pinned u) :
    ∃ h, m.Harmonic v p h ∧ (∀ h', m.Harmonic v p h' → ∀ u, m.vAlive u = true → m.Together v u → h' u = h u) ∧
      ∃ K θ B, 0 < K ∧ 0 ≤ θ ∧ θ < (1 : ℝ) ∧ ∀ n, ∃ m' p', smoothLaplacian (XR.fin eps) false n m = .ok () m' ∧ m.SameButPos m' ∧
        m'.AtE p' ∧ ∀ u, m.vAlive u = true → m.Together v u → ∀ i, |p' u i - h u i| ≤ θ ^ (n / K) * B := by
  obtain ⟨h, H, U, K, θ, B, hK, t0, t1, S⟩ := average_anchored w h0 h1 hp p
  refine ⟨h, H, U, K, θ, B, hK, t0, t1, fun n => ?_⟩
  obtain ⟨m', e, s, A'⟩ := smoothLaplacian_exact eps n w A
  exact ⟨m', _, e, s, A', S n⟩

/-- C106: a piece without pinned vertices. With a step size in (0, 1) all its vertices tend to one point, the mean of their first
positions weighted by the degrees. The distance decreases geometrically. -/
theorem c106_free {m : Mesh XR} (w : m.WF) {p : Nat → E3} (A : m.AtE p) {eps : ℝ} (h0 : 0 < eps) (h1 : eps < 1) {v : Nat}
    (av : m.vAlive v = true) (hp : ∀ u, m.vAlive u = true → m.Together v u → ¬ m.Pinned u) :
    ∃ K θ B, 0 < K ∧ 0 ≤ θ ∧ θ < (1 : ℝ) ∧ ∀ n, ∃ m' p', smoothLaplacian (XR.fin eps) false n m = .ok () m' ∧ m.SameButPos m' ∧
        m'.AtE p' ∧ ∀ u, m.vAlive u = true → m.Together v u → ∀ i, |p' u i - m.hub v p i| ≤ θ ^ (n / K) * B := by
  obtain ⟨K, θ, B, hK, t0, t1, S⟩ := average_free w h0 h1 av hp p
  refine ⟨K, θ, B, hK, t0, t1, fun n => ?_⟩
  obtain ⟨m', e, s, A'⟩ := smoothLaplacian_exact eps n w A
  exact ⟨m', _, e, s, A', S n⟩

/-- C106: in a mesh of triangles the same holds for steps of full size, the default of the library. -/
theorem c106_free_triangles {m : Mesh XR} (w : m.WF) (t : m.TriOrHole) {p : Nat → E3} (A : m.AtE p) {eps : ℝ} (h0 : 0 < eps) (h1 : eps ≤ 1)
    {v : Nat} (av : m.vAlive v = true) (hp : ∀ u, m.vAlive u = true → m.Together v u → ¬ m.Pinned u) :
    ∃ K θ B, 0 < K ∧ 0 ≤ θ ∧ θ < (1 : ℝ) ∧ ∀ n, ∃ m' p', smoothLaplacian (XR.fin eps) false n m = .ok () m' ∧ m.SameButPos m' ∧
        m'.AtE p' ∧ ∀ u, m.vAlive u = true → m.Together v u → ∀ i, |p' u i - m.hub v p i| ≤ θ ^ (n / K) * B := by
  obtain ⟨K, θ, B, hK, t0, t1, S⟩ := average_free_tri w t h0 h1 av hp p
  refine ⟨K, θ, B, hK, t0, t1, fun n => ?_⟩
  obtain ⟨m', e, s, A'⟩ := smoothLaplacian_exact eps n w A
  exact ⟨m', _, e, s, A', S n⟩

/-- one step moves a vertex of degree three that is not in the middle of its neighbours -/
theorem c105_moves {m : Mesh XR} (w : m.WF) {q : Nat → Vec3 ℝ} (A : m.At q) {v a b c : Nat} (av : m.vAlive v = true) (np : ¬ m.Pinned v)
    (d : m.outDeg v = 3) (n : (m.hes.filter fun h => m.hSrc h == v).map (fun h => m.hSrc (m.hNext h)) = [a, b, c]) {eps : ℝ} (h0 : 0 < eps)
    (h1 : eps < 1) (hne : (q a).x + (q b).x + (q c).x ≠ 3 * (q v).x) :
    ∃ m' p', smoothLaplacian (XR.fin eps) false 1 m = .ok () m' ∧ m'.AtE p' ∧ m'.stretch p' < m.stretch fun v => (q v).E := by
  have A' : m.AtE fun v => (q v).E := fun v a => ⟨q v, A v a, rfl⟩
  obtain ⟨m', e, s, A'⟩ := smoothLaplacian_exact eps 1 w A'
  have k : ∀ q, m'.stretch q = m.stretch q := fun q => by rw [s]; rfl
  refine ⟨m', _, e, A', ?_⟩
  rw [k]
  refine stretch_iter_lt w h0 h1 1 _ av fun hv => hne ?_
  rw [Function.iterate_one] at hv
  unfold Mesh.average at hv
  rw [if_neg np, add_eq_left, smul_eq_zero] at hv
  have hv := congrArg (fun z : E3 => z 0) (hv.resolve_left h0.ne')
  have c : m.centroid (fun v => (q v).E) v = (3 : ℝ)⁻¹ • ((q a).E + ((q b).E + (q c).E)) := by
    unfold Mesh.centroid
    have : (m.hes.filter fun h => m.hSrc h == v).map (fun h => (q (m.hSrc (m.hNext h))).E) = [(q a).E, (q b).E, (q c).E] := by
      have := congrArg (List.map fun u => (q u).E) n
      rwa [List.map_map] at this
    rw [this, d]
    simp
  rw [c] at hv
  simp [Vec3.E] at hv
  linarith

/-- a patch with a rim: vertex 3 is inside and one edge away from the rim -/
example : ∃ m : Mesh Rat, construct patV patI fresh = .ok () m ∧ m.WF ∧ m.vAlive 3 = true ∧ ¬ m.Pinned 3 ∧
    (∃ u, m.Together 3 u ∧ m.Pinned u) ∧ ∀ q : Nat → Vec3 ℝ, ∃ h, (m.overR q).Harmonic 3 (fun v => (q v).E) h ∧
      h 3 = (m.overR q).centroid h 3 := by
  obtain ⟨_, m, h1, h2⟩ := okSt_iff (o := construct patV patI fresh)
    (p := fun m => m.vAlive 3 && (m.hes.all fun h => !(m.hSrc h == 3 && m.hBd h)) && !m.vLock 3 &&
      (m.hes.any fun h => m.hSrc h == 3 && m.hes.any fun h' => m.hSrc h' == m.hSrc (m.hNext h) && m.hBd h')) (by decide +kernel)
  have g := c01_construct_consistent (Owned.empty dbl) h1
  simp only [Bool.and_eq_true, Bool.not_eq_true', List.all_eq_true, List.any_eq_true, beq_iff_eq] at h2
  obtain ⟨⟨⟨a, b⟩, l⟩, x, hx, sx, y, hy, sy, by'⟩ := h2
  have np : ¬ m.Pinned 3 := by
    rintro (⟨h, ah, sh, bh⟩ | h)
    · have := b h ((g.wf.hDense.mem h).2 ah)
      rw [sh, bh] at this
      cases this
    · rw [h] at l; cases l
  have ex : ∃ u, m.Together 3 u ∧ m.Pinned u :=
    ⟨m.hSrc (m.hNext x), .rel _ _ ⟨x, (g.wf.hDense.mem x).1 hx, sx, rfl⟩, Or.inl ⟨y, (g.wf.hDense.mem y).1 hy, sy, by'⟩⟩
  refine ⟨m, h1, g.wf, a, np, ex, fun q => ?_⟩
  obtain ⟨h, H, -⟩ := c106_anchored (m := m.overR q) (p := fun v => (q v).E) (g.over _).wf (fun v _ => ⟨q v, rfl, rfl⟩) (eps := 1) one_pos le_rfl
    (v := 3) ex
  exact ⟨h, H, H.mean 3 a (.refl _) np⟩

/-- A closed mesh: a tetrahedron, with the corners at 1, 2, 3 and 4 on a line. One step moves the first corner and so shortens the
edges. -/
example : ∃ m : Mesh Rat, construct tetV tetI fresh = .ok () m ∧ m.WF ∧ m.vAlive 1 = true ∧ (∀ u, m.vAlive u = true → ¬ m.Pinned u) ∧
    ∀ eps : ℝ, 0 < eps → eps < 1 → ∃ m' p', smoothLaplacian (XR.fin eps) false 1 (m.overR fun v => ⟨v, 0, 0⟩) = .ok () m' ∧ m'.AtE p' ∧
      m'.stretch p' < (m.overR fun v => ⟨v, 0, 0⟩).stretch fun v => (⟨v, 0, 0⟩ : Vec3 ℝ).E := by
  obtain ⟨_, m, h1, h2⟩ := okSt_iff (o := construct tetV tetI fresh)
    (p := fun m => m.vAlive 1 && (m.hes.all fun h => !m.hBd h) && m.vs.all (fun v => !m.vLock v) &&
      decide (m.outDeg 1 = 3 ∧ (m.hes.filter fun h => m.hSrc h == 1).map (fun h => m.hSrc (m.hNext h)) = [2, 3, 4])) (by decide +kernel)
  have g := c01_construct_consistent (Owned.empty dbl) h1
  simp only [Bool.and_eq_true, Bool.not_eq_true', List.all_eq_true, decide_eq_true_eq] at h2
  obtain ⟨⟨⟨a, b⟩, l⟩, d, n⟩ := h2
  have np : ∀ u, m.vAlive u = true → ¬ m.Pinned u := by
    rintro u au (⟨h, ah, sh, bh⟩ | h)
    · rw [b h ((g.wf.hDense.mem h).2 ah)] at bh
      cases bh
    · rw [l u ((g.wf.vDense.mem u).2 au)] at h; cases h
  refine ⟨m, h1, g.wf, a, np, fun eps h0 h1 => ?_⟩
  exact c105_moves (g.over _).wf (m.overR_at fun v => (⟨v, 0, 0⟩ : Vec3 ℝ)) a (np 1 a) d n h0 h1 (by norm_num)

/-- C107: Taubin smoothing with `0 < shrink ≤ 1/2` and `0 < inflate`. Each iteration multiplies the sum of the squared edge lengths by at
most the square of `1 + (inflate - shrink)² / (4 shrink inflate)`, and in a piece without pinned vertices it keeps the mean of the positions
weighted by degrees. -/
theorem c107_taubin {m : Mesh XR} (w : m.WF) {p : Nat → E3} (A : m.AtE p) {shrink inflate : ℝ} (h0 : 0 < shrink) (h1 : shrink ≤ 1 / 2)
    (h2 : 0 < inflate) {n : Nat} (hn : 2 * n ≤ 2147483647) :
    ∃ m' p', smoothTaubin (XR.fin shrink) (XR.fin inflate) n m = .ok () m' ∧ m.SameButPos m' ∧ m'.AtE p' ∧
      m'.stretch p' ≤ ((1 + (inflate - shrink) ^ 2 / (4 * (shrink * inflate))) ^ 2) ^ n * m.stretch p ∧
      ∀ v, (∀ u, m.vAlive u = true → m.Together v u → ¬ m.Pinned u) → m'.hub v p' = m.hub v p := by
  obtain ⟨m', e, s, A'⟩ := c29_taubin_formula w A shrink inflate hn
  have k : ∀ q, m'.stretch q = m.stretch q := fun q => by rw [s]; rfl
  have k' : ∀ v q, m'.hub v q = m.hub v q := fun v q => by rw [s]; rfl
  have t := taubin_pairs m shrink inflate n 0 p
  rw [Nat.mul_zero] at t
  rw [t] at A'
  refine ⟨m', _, e, s, A', ?_, fun v hp => ?_⟩
  · rw [k]; exact stretch_taubin w h0 h1 h2 n p
  · rw [k']; exact hub_taubin w _ _ hp p n

/-- C107: with equal sizes of both steps the sum of the squared edge lengths never grows. -/
theorem c107_equal {m : Mesh XR} (w : m.WF) {p : Nat → E3} (A : m.AtE p) {eps : ℝ} (h0 : 0 < eps) (h1 : eps ≤ 1 / 2)
    {n : Nat} (hn : 2 * n ≤ 2147483647) :
    ∃ m' p', smoothTaubin (XR.fin eps) (XR.fin eps) n m = .ok () m' ∧ m.SameButPos m' ∧ m'.AtE p' ∧ m'.stretch p' ≤ m.stretch p := by
  obtain ⟨m', p', e, s, A', k, -⟩ := c107_taubin w A h0 h1 h0 hn
  exact ⟨m', p', e, s, A', by simpa using k⟩

/-- C107: with the default sizes 0.5 and 0.53 it grows by less than 0.17 percent per iteration. -/
theorem c107_default {m : Mesh XR} (w : m.WF) {p : Nat → E3} (A : m.AtE p) {n : Nat} (hn : 2 * n ≤ 2147483647) :
    ∃ m' p', smoothTaubin (XR.fin 0.5) (XR.fin 0.53) n m = .ok () m' ∧ m.SameButPos m' ∧ m'.AtE p' ∧
      m'.stretch p' ≤ 1.0017 ^ n * m.stretch p := by
  obtain ⟨m', p', e, s, A', k, -⟩ := c107_taubin w A (shrink := 0.5) (inflate := 0.53) (by norm_num) (by norm_num) (by norm_num) hn
  refine ⟨m', p', e, s, A', k.trans (mul_le_mul_of_nonneg_right (pow_le_pow_left₀ (by positivity) (by norm_num) _) ?_)⟩
  rw [stretch_eq w]
  exact Finset.sum_nonneg fun _ _ => by positivity

/-- C107: smoothing a tetrahedron, any positions: each iteration scales it about the mean of its corners. With the default sizes the
factor is 0.569, so Taubin smoothing does not keep the size. -/
theorem c107_tetrahedron : ∃ m : Mesh Rat, construct tetV tetI fresh = .ok () m ∧ m.Good ∧ m.vs = [1, 2, 3, 4] ∧
    ∀ (q : Nat → Vec3 ℝ) (shrink inflate : ℝ) (n : Nat), 2 * n ≤ 2147483647 →
      ∃ m' p', smoothTaubin (XR.fin shrink) (XR.fin inflate) n (m.overR q) = .ok () m' ∧ m'.AtE p' ∧ ∀ v ∈ [1, 2, 3, 4],
        p' v = (1 / 4 : ℝ) • ((q 1).E + (q 2).E + (q 3).E + (q 4).E) + ((1 - 4 / 3 * shrink) * (1 + 4 / 3 * inflate)) ^ n •
          ((q v).E - (1 / 4 : ℝ) • ((q 1).E + (q 2).E + (q 3).E + (q 4).E)) := by
  obtain ⟨_, m, h1, h2⟩ := okSt_iff (o := construct tetV tetI fresh)
    (p := fun m => decide (m.vs = [1, 2, 3, 4]) && (m.hes.all fun h => !m.hBd h) && m.vs.all (fun v => !m.vLock v) &&
      [1, 2, 3, 4].all fun v => decide (m.outDeg v = 3) &&
        (v :: (m.hes.filter fun h => m.hSrc h == v).map (fun h => m.hSrc (m.hNext h))).isPerm [1, 2, 3, 4]) (by decide +kernel)
  have g := c01_construct_consistent (Owned.empty dbl) h1
  simp only [Bool.and_eq_true, Bool.not_eq_true', List.all_eq_true, decide_eq_true_eq, List.isPerm_iff] at h2
  obtain ⟨⟨⟨a, b⟩, l⟩, d⟩ := h2
  have np : ∀ v ∈ [1, 2, 3, 4], ¬ m.Pinned v := by
    rintro u au (⟨h, ah, sh, bh⟩ | h)
    · rw [b h ((g.wf.hDense.mem h).2 ah)] at bh
      cases bh
    · rw [l u (by rw [a]; exact au)] at h; cases h
  refine ⟨m, h1, g, a, fun q shrink inflate n hn => ?_⟩
  obtain ⟨m', e, s, A'⟩ := c29_taubin_formula (m := m.overR q) (g.over _).wf (p := fun v => (q v).E) (fun v _ => ⟨q v, rfl, rfl⟩) shrink inflate hn
  have t := taubin_pairs (m.overR q) shrink inflate n 0 fun v => (q v).E
  rw [Nat.mul_zero] at t
  rw [t] at A'
  exact ⟨m', _, e, A', full_pairs (m := m.overR q) np d shrink inflate (fun v => (q v).E) n⟩

end TinyMesh
