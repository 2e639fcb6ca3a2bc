import Verif.Proof.RelaxB
import Mathlib.LinearAlgebra.BilinearMap
import Mathlib.Tactic.LinearCombination
import Mathlib.Tactic.Module
/-
Energy of Taubin smoothing.
-/
namespace TinyMesh
variable {F : Type} {m : Mesh F}

section form
variable {V : Type} [AddCommGroup V] [Module ℝ V] (B : V →ₗ[ℝ] V →ₗ[ℝ] ℝ) (K : V →ₗ[ℝ] V)

/-- a form and an operator between zero and two -/
structure BetweenTwo : Prop where
  symm : ∀ x y, B x y = B y x
  nonneg : ∀ x, 0 ≤ B x x
  adj : ∀ x y, B (K x) y = B x (K y)
  pos : ∀ x, 0 ≤ B x (K x)
  two : ∀ x, B (K x) (K x) ≤ 2 * B x (K x)

variable {B K}

theorem BetweenTwo.le_two (h : BetweenTwo B K) (x : V) : B x (K x) ≤ 2 * B x x := by
  have a := h.nonneg (x - (1 / 2 : ℝ) • K x)
  have b := h.two x
  have c := h.symm (K x) x
  simp only [map_sub, map_smul, LinearMap.sub_apply, LinearMap.smul_apply, smul_eq_mul] at a
  nlinarith

theorem BetweenTwo.taubin (h : BetweenTwo B K) {l u : ℝ} (hl : 0 < l) (hl2 : l ≤ 1 / 2) (hu : 0 < u) (x : V) {y : V}
    (hy : y = x + (u - l) • K x - (l * u) • K (K x)) : B y y ≤ (1 + (u - l) ^ 2 / (4 * (l * u))) ^ 2 * B x x := by
  obtain ⟨t, ht⟩ : ∃ t, t = l * u := ⟨_, rfl⟩
  obtain ⟨s, hs⟩ : ∃ s, s = u - l := ⟨_, rfl⟩
  have t0 : 0 < t := by rw [ht]; positivity
  obtain ⟨k, hk⟩ : ∃ k, k = s / (2 * t) := ⟨_, rfl⟩
  have kt : s = 2 * t * k := by rw [hk]; field_simp
  obtain ⟨c, hc⟩ : ∃ c, c = 1 + t * k ^ 2 := ⟨_, rfl⟩
  have ce : 1 + (u - l) ^ 2 / (4 * (l * u)) = c := by
    rw [← hs, ← ht, hc, hk]
    field_simp
    ring
  rw [ce]
  have G0 := h.nonneg (K x - k • x)
  have G1 := h.pos (K x - k • x)
  have G2 := h.two (K x - k • x)
  have G3 := h.le_two (K x - k • x)
  have e1 : B (K x) x = B x (K x) := h.adj x x
  have e2 : B x (K (K x)) = B (K x) (K x) := (h.adj x (K x)).symm
  have e3 : B (K (K x)) x = B (K x) (K x) := h.adj (K x) x
  have e4 : B (K (K x)) (K x) = B (K x) (K (K x)) := h.adj (K x) (K x)
  have e5 : B (K x) (K (K (K x))) = B (K (K x)) (K (K x)) := (h.adj (K x) (K (K x))).symm
  rw [← hs, ← ht] at hy
  rw [hy]
  simp only [map_sub, map_add, map_smul, LinearMap.sub_apply, LinearMap.add_apply, LinearMap.smul_apply, smul_eq_mul, e1, e2, e3, e4, e5] at G0 G1 G2 G3 ⊢
  generalize B x x = b0 at *
  generalize B x (K x) = b1 at *
  generalize B (K x) (K x) = b2 at *
  generalize B (K x) (K (K x)) = b3 at *
  generalize B (K (K x)) (K (K x)) = b4 at *
  obtain ⟨g0, hg0⟩ : ∃ g, g = b2 - 2 * k * b1 + k ^ 2 * b0 := ⟨_, rfl⟩
  obtain ⟨g1, hg1⟩ : ∃ g, g = b3 - 2 * k * b2 + k ^ 2 * b1 := ⟨_, rfl⟩
  obtain ⟨g2, hg2⟩ : ∃ g, g = b4 - 2 * k * b3 + k ^ 2 * b2 := ⟨_, rfl⟩
  have p0 : 0 ≤ g0 := by linarith
  have p1 : 0 ≤ g1 := by linarith
  have p2 : g2 ≤ 2 * g1 := by linarith
  have p3 : g1 ≤ 2 * g0 := by linarith
  have pc : 0 ≤ c + 1 + 2 * (s - 2 * t) := by
    have : 0 ≤ t * k ^ 2 := by positivity
    rw [hc, hs, ht]
    rw [ht] at this
    nlinarith
  have q : 0 ≤ (c + 1) * g0 + s * g1 - t * g2 := by
    have : t * g2 ≤ t * (2 * g1) := mul_le_mul_of_nonneg_left p2 t0.le
    rcases le_total 0 (s - 2 * t) with e | e
    · have c1 : 0 ≤ c + 1 := by rw [hc]; positivity
      nlinarith [mul_nonneg c1 p0, mul_nonneg e p1]
    · nlinarith [mul_nonneg pc p0, mul_nonneg (neg_nonneg.2 e) (sub_nonneg.2 p3)]
  have q' := mul_nonneg t0.le q
  rw [hg0, hg1, hg2, kt, hc] at q'
  rw [kt, hc]
  refine sub_nonneg.1 (q'.trans (le_of_eq ?_))
  ring

end form

section
open Classical

/-- the scalar product of the differences along half-edges -/
noncomputable def edgeForm (m : Mesh F) : (Nat → E3) →ₗ[ℝ] (Nat → E3) →ₗ[ℝ] ℝ :=
  LinearMap.mk₂ ℝ (fun p q => ∑ h ∈ m.hes.toFinset, inner ℝ (p (m.hSrc h) - p (m.hSrc (m.hNext h))) (q (m.hSrc h) - q (m.hSrc (m.hNext h))))
    (fun p p' q => by
      rw [← Finset.sum_add_distrib]
      refine Finset.sum_congr rfl fun h _ => ?_
      rw [← inner_add_left]
      congr 1
      simp only [Pi.add_apply]
      abel)
    (fun c p q => by
      rw [smul_eq_mul, Finset.mul_sum]
      refine Finset.sum_congr rfl fun h _ => ?_
      rw [← real_inner_smul_left, smul_sub]
      rfl)
    (fun p q q' => by
      rw [← Finset.sum_add_distrib]
      refine Finset.sum_congr rfl fun h _ => ?_
      rw [← inner_add_right]
      congr 1
      simp only [Pi.add_apply]
      abel)
    (fun c p q => by
      rw [smul_eq_mul, Finset.mul_sum]
      refine Finset.sum_congr rfl fun h _ => ?_
      rw [← real_inner_smul_right, smul_sub]
      rfl)

theorem edgeForm_apply (m : Mesh F) (p q : Nat → E3) : edgeForm m p q =
    ∑ h ∈ m.hes.toFinset, inner ℝ (p (m.hSrc h) - p (m.hSrc (m.hNext h))) (q (m.hSrc h) - q (m.hSrc (m.hNext h))) := rfl

theorem edgeForm_self (w : m.WF) (p : Nat → E3) : edgeForm m p p = m.stretch p := by
  rw [stretch_eq w, edgeForm_apply]
  exact Finset.sum_congr rfl fun h _ => real_inner_self_eq_norm_sq _

/-- the way of a vertex that is not pinned from the mean of its neighbours -/
noncomputable def away (m : Mesh F) : (Nat → E3) →ₗ[ℝ] (Nat → E3) where
  toFun p := fun v => if m.Pinned v then 0 else p v - m.centroid p v
  map_add' p q := by
    funext v
    simp only [Pi.add_apply]
    split
    · simp
    · have : m.centroid (p + q) v = m.centroid p v + m.centroid q v := by
        unfold Mesh.centroid
        rw [← smul_add, ← List.sum_map_add]
        rfl
      rw [this]
      abel
  map_smul' c p := by
    funext v
    simp only [Pi.smul_apply, RingHom.id_apply]
    split
    · simp
    · have : m.centroid (c • p) v = c • m.centroid p v := by
        unfold Mesh.centroid
        rw [smul_comm c]
        congr 1
        rw [List.smul_sum, List.map_map]
        rfl
      rw [this, smul_sub]

theorem average_away (m : Mesh F) (eps : ℝ) (p : Nat → E3) : m.average eps p = p - eps • away m p := by
  funext v
  unfold Mesh.average
  simp only [Pi.sub_apply, Pi.smul_apply, away, LinearMap.coe_mk, AddHom.coe_mk]
  split
  · simp
  · rw [smul_sub, smul_sub]
    abel

/-- the form with differences to the means on one side -/
theorem edgeForm_away (w : m.WF) (p q : Nat → E3) (hq : ∀ v, m.vAlive v = true → m.Pinned v → q v = 0) :
    edgeForm m p q = 2 * ∑ v ∈ m.vs.toFinset, (m.outDeg v : ℝ) * inner ℝ (away m p v) (q v) := by
  have cr : ∑ h ∈ m.hes.toFinset, inner ℝ (p (m.hSrc h) - p (m.hSrc (m.hNext h))) (q (m.hSrc h)) =
      ∑ v ∈ m.vs.toFinset, (m.outDeg v : ℝ) * inner ℝ (away m p v) (q v) := by
    have a := sum_all_src w fun u h => inner ℝ (p u - p (m.hSrc (m.hNext h))) (q u)
    rw [← a]
    refine Finset.sum_congr rfl fun u hu => ?_
    rw [List.mem_toFinset, w.vDense.mem] at hu
    rw [← sum_inner, Finset.sum_sub_distrib, ← sum_out_E w u fun h => p (m.hSrc (m.hNext h))]
    have c0 : (m.outDeg u : ℝ) ≠ 0 := by
      have := outDeg_pos w hu
      positivity
    have c : ((m.hes.filter fun h => m.hSrc h == u).map fun h => p (m.hSrc (m.hNext h))).sum = (m.outDeg u : ℝ) • m.centroid p u := by
      unfold Mesh.centroid
      rw [smul_smul, mul_inv_cancel₀ c0, one_smul]
    have k : ∑ h ∈ m.hes.toFinset with m.hSrc h = u, p u = (m.outDeg u : ℝ) • p u := by
      rw [card_out w, Finset.sum_smul]
      simp
    rw [c, k, ← smul_sub, real_inner_smul_left]
    by_cases hp : m.Pinned u
    · rw [hq u hu hp, inner_zero_right, inner_zero_right]
    · simp only [away, LinearMap.coe_mk, AddHom.coe_mk, if_neg hp]
  have cr' : ∑ h ∈ m.hes.toFinset, inner ℝ (p (m.hSrc h) - p (m.hSrc (m.hNext h))) (q (m.hSrc (m.hNext h))) =
      - ∑ v ∈ m.vs.toFinset, (m.outDeg v : ℝ) * inner ℝ (away m p v) (q v) := by
    rw [← cr, ← Finset.sum_neg_distrib, ← sum_all_rev w]
    refine Finset.sum_congr rfl fun h hh => ?_
    rw [List.mem_toFinset, w.hDense.mem] at hh
    rw [w.src_next_rev hh, w.src_rev _ hh, ← inner_neg_left, neg_sub]
  rw [edgeForm_apply]
  simp only [inner_sub_right]
  rw [Finset.sum_sub_distrib, cr, cr']
  ring

theorem away_pinned (m : Mesh F) (p : Nat → E3) {v : Nat} (h : m.Pinned v) : away m p v = 0 := by
  simp only [away, LinearMap.coe_mk, AddHom.coe_mk, if_pos h]

theorem edgeForm_between (w : m.WF) : BetweenTwo (edgeForm m) (away m) where
  symm p q := by
    rw [edgeForm_apply, edgeForm_apply]
    exact Finset.sum_congr rfl fun h _ => real_inner_comm _ _
  nonneg p := by
    rw [edgeForm_apply]
    exact Finset.sum_nonneg fun h _ => real_inner_self_nonneg
  adj p q := by
    have e : edgeForm m (away m p) q = edgeForm m q (away m p) := by
      rw [edgeForm_apply, edgeForm_apply]
      exact Finset.sum_congr rfl fun h _ => real_inner_comm _ _
    rw [e, edgeForm_away w _ _ fun v _ h => away_pinned m p h, edgeForm_away w _ _ fun v _ h => away_pinned m q h]
    congr 1
    exact Finset.sum_congr rfl fun v _ => by rw [real_inner_comm]
  pos p := by
    rw [edgeForm_away w _ _ fun v _ h => away_pinned m p h]
    exact mul_nonneg (by norm_num) (Finset.sum_nonneg fun v _ => mul_nonneg (Nat.cast_nonneg _) real_inner_self_nonneg)
  two p := by
    rw [edgeForm_away w p _ fun v _ h => away_pinned m p h]
    generalize away m p = u
    have a : ∑ h ∈ m.hes.toFinset, ‖u (m.hSrc h)‖ ^ 2 = ∑ v ∈ m.vs.toFinset, (m.outDeg v : ℝ) * inner ℝ (u v) (u v) := by
      rw [← sum_all_src w fun v _ => ‖u v‖ ^ 2]
      refine Finset.sum_congr rfl fun v _ => ?_
      rw [card_out w, Finset.sum_mul]
      exact Finset.sum_congr rfl fun _ _ => by rw [real_inner_self_eq_norm_sq, one_mul]
    have b : ∑ h ∈ m.hes.toFinset, ‖u (m.hSrc (m.hNext h))‖ ^ 2 = ∑ v ∈ m.vs.toFinset, (m.outDeg v : ℝ) * inner ℝ (u v) (u v) := by
      rw [← a, ← sum_all_rev w]
      refine Finset.sum_congr rfl fun h hh => ?_
      rw [List.mem_toFinset, w.hDense.mem] at hh
      rw [w.src_next_rev hh]
    have pt : ∀ h ∈ m.hes.toFinset, inner ℝ (u (m.hSrc h) - u (m.hSrc (m.hNext h))) (u (m.hSrc h) - u (m.hSrc (m.hNext h))) ≤
        2 * ‖u (m.hSrc h)‖ ^ 2 + 2 * ‖u (m.hSrc (m.hNext h))‖ ^ 2 := by
      intro h _
      rw [real_inner_self_eq_norm_sq]
      have t := parallelogram_law_with_norm ℝ (u (m.hSrc h)) (u (m.hSrc (m.hNext h)))
      have s := sq_nonneg ‖u (m.hSrc h) + u (m.hSrc (m.hNext h))‖
      nlinarith
    rw [edgeForm_apply]
    refine (Finset.sum_le_sum pt).trans (le_of_eq ?_)
    rw [Finset.sum_add_distrib, ← Finset.mul_sum, ← Finset.mul_sum, a, b]
    ring

/-- one iteration of Taubin smoothing -/
theorem stretch_pair (w : m.WF) {l u : ℝ} (hl : 0 < l) (hl2 : l ≤ 1 / 2) (hu : 0 < u) (p : Nat → E3) :
    m.stretch (m.average (-u) (m.average l p)) ≤ (1 + (u - l) ^ 2 / (4 * (l * u))) ^ 2 * m.stretch p := by
  rw [← edgeForm_self w, ← edgeForm_self w]
  refine (edgeForm_between w).taubin hl hl2 hu p ?_
  rw [average_away, average_away, map_sub, map_smul, neg_smul, sub_neg_eq_add, smul_sub, smul_smul, sub_smul, mul_comm u l]
  abel

theorem taubin_pairs (m : Mesh F) (l u : ℝ) (n : Nat) : ∀ (k : Nat) (p : Nat → E3),
    m.taubin l u (2 * k) (2 * n) p = (fun q => m.average (-u) (m.average l q))^[n] p := by
  induction n with
  | zero => intro k p; rfl
  | succ n ih =>
    intro k p
    have h1 : (2 * k) % 2 = 0 := by omega
    have h2 : ¬ (2 * k + 1) % 2 = 0 := by omega
    rw [Nat.mul_succ, Mesh.taubin, Mesh.taubin, if_pos h1, if_neg h2, Function.iterate_succ_apply]
    exact ih (k + 1) _

theorem stretch_taubin (w : m.WF) {l u : ℝ} (hl : 0 < l) (hl2 : l ≤ 1 / 2) (hu : 0 < u) (n : Nat) (p : Nat → E3) :
    m.stretch ((fun q => m.average (-u) (m.average l q))^[n] p) ≤ ((1 + (u - l) ^ 2 / (4 * (l * u))) ^ 2) ^ n * m.stretch p := by
  induction n with
  | zero => simp
  | succ n ih =>
    rw [Function.iterate_succ_apply', pow_succ', mul_assoc]
    exact (stretch_pair w hl hl2 hu _).trans (mul_le_mul_of_nonneg_left ih (by positivity))

/-- the weighted mean is kept -/
theorem hub_average (w : m.WF) (eps : ℝ) {v : Nat} (hp : ∀ u, m.vAlive u = true → m.Together v u → ¬ m.Pinned u) (p : Nat → E3) :
    m.hub v (m.average eps p) = m.hub v p := by
  ext i
  rw [hub_coord w, hub_coord w]
  have := relax_weighted w eps (v := v) (fun u hu => hp u ((mem_pieceOf w).1 hu).1 ((mem_pieceOf w).1 hu).2) fun u => p u i
  simp only [average_coord]
  rw [this]

theorem hub_taubin (w : m.WF) (l u : ℝ) {v : Nat} (hp : ∀ u, m.vAlive u = true → m.Together v u → ¬ m.Pinned u) (p : Nat → E3) (n : Nat) :
    m.hub v ((fun q => m.average (-u) (m.average l q))^[n] p) = m.hub v p := by
  induction n with
  | zero => rfl
  | succ n ih => rw [Function.iterate_succ_apply', hub_average w _ hp, hub_average w _ hp, ih]

/-- four vertices that are all joined -/
theorem full_average (np : ∀ v ∈ [1, 2, 3, 4], ¬ m.Pinned v) (d : ∀ v ∈ [1, 2, 3, 4], m.outDeg v = 3 ∧
      (v :: (m.hes.filter fun h => m.hSrc h == v).map (fun h => m.hSrc (m.hNext h))).Perm [1, 2, 3, 4]) (eps : ℝ) {p : Nat → E3} {b : E3}
    (hb : p 1 + p 2 + p 3 + p 4 = (4 : ℝ) • b) : ∀ v ∈ [1, 2, 3, 4], m.average eps p v = b + (1 - 4 / 3 * eps) • (p v - b) := by
  intro v hv
  obtain ⟨d1, d2⟩ := d v hv
  have s := (d2.map p).sum_eq
  rw [List.map_cons, List.sum_cons, List.map_map] at s
  have s' : p v + ((m.hes.filter fun h => m.hSrc h == v).map fun h => p (m.hSrc (m.hNext h))).sum = (4 : ℝ) • b := by
    rw [← hb]
    refine s.trans ?_
    simp only [List.map_cons, List.map_nil, List.sum_cons, List.sum_nil, add_zero]
    abel
  unfold Mesh.average
  rw [if_neg (np v hv)]
  unfold Mesh.centroid
  rw [d1, eq_sub_of_add_eq' s']
  module

theorem full_pairs (np : ∀ v ∈ [1, 2, 3, 4], ¬ m.Pinned v) (d : ∀ v ∈ [1, 2, 3, 4], m.outDeg v = 3 ∧
      (v :: (m.hes.filter fun h => m.hSrc h == v).map (fun h => m.hSrc (m.hNext h))).Perm [1, 2, 3, 4]) (l u : ℝ) (p : Nat → E3) (n : Nat) :
    ∀ v ∈ [1, 2, 3, 4], (fun q => m.average (-u) (m.average l q))^[n] p v = (1 / 4 : ℝ) • (p 1 + p 2 + p 3 + p 4) +
      ((1 - 4 / 3 * l) * (1 + 4 / 3 * u)) ^ n • (p v - (1 / 4 : ℝ) • (p 1 + p 2 + p 3 + p 4)) := by
  obtain ⟨b, hb⟩ : ∃ b, b = (1 / 4 : ℝ) • (p 1 + p 2 + p 3 + p 4) := ⟨_, rfl⟩
  rw [← hb]
  induction n with
  | zero => intro v _; simp
  | succ n ih =>
    have h4 : ∀ (q : Nat → E3) (c : ℝ), (∀ v ∈ [1, 2, 3, 4], q v = b + c • (p v - b)) → q 1 + q 2 + q 3 + q 4 = (4 : ℝ) • b := by
      intro q c hq
      rw [hq 1 (by simp), hq 2 (by simp), hq 3 (by simp), hq 4 (by simp), hb]
      module
    intro v hv
    rw [Function.iterate_succ_apply']
    have a1 := full_average np d l (h4 _ _ ih)
    have a1' : ∀ v ∈ [1, 2, 3, 4], m.average l ((fun q => m.average (-u) (m.average l q))^[n] p) v =
        b + ((1 - 4 / 3 * l) * ((1 - 4 / 3 * l) * (1 + 4 / 3 * u)) ^ n) • (p v - b) := by
      intro v hv
      rw [a1 v hv, ih v hv]
      module
    rw [full_average np d (-u) (h4 _ _ a1') v hv, a1' v hv]
    module

end
end TinyMesh
