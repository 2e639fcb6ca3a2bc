import Verif.Proof.Fair
import Verif.Proof.RemC
import Verif.Spec.SampleX
import Mathlib.LinearAlgebra.Matrix.NonsingularInverse
/-
C56: implicit fairing; C43 for implicit fairing.
-/
set_option maxRecDepth 100000
namespace TinyMesh
open Sample
attribute [local instance] Sample.ratScalar

/-! ## C56: implicit fairing -/

/-- C56: on a consistent mesh with finite positions, whose cotangent weights are not negative and at every vertex not all zero, and
with a solver that solves regular systems, one iteration of implicit fairing with a step size of at least zero returns normally,
changes nothing but the positions, and the new positions solve the equation of a backward Euler step: the system it sets up
is regular. -/
theorem c56_step {m : Mesh XR} (wf : m.WF) {p : Nat → E3} (A : m.AtE p) (W : m.Weighted p) {eps : ℝ} (he : 0 ≤ eps)
    {solve : LinSolve XR} (hS : solve.Exact) :
    ∃ m' q, implicitFairing solve (XR.fin eps) 1 m = .ok () m' ∧ m.SameButPos m' ∧ m'.AtE q ∧ m.Faired eps p q := by
  obtain ⟨m', q, h1, h2⟩ := fairStep_exact W wf A he hS
  refine ⟨m', q, ?_, h2⟩
  unfold implicitFairing
  rw [bind_apply, h1]
  rfl

/-- C56: the equation of the backward Euler step has only one solution. -/
theorem c56_unique {m : Mesh XR} (wf : m.WF) {p : Nat → E3} (W : m.Weighted p) {eps : ℝ} (he : 0 ≤ eps) {q q' : Nat → E3}
    (h : m.Faired eps p q) (h' : m.Faired eps p q') : ∀ v, m.vAlive v = true → q v = q' v :=
  h.unique h' W wf he

/-- C56: implicit fairing with any number of iterations never leaves a half-space that contains the mesh, however large the step size
is, as long as the weights stay as in `c56_step`. -/
theorem c56_halfspace {m : Mesh XR} (wf : m.WF) {eps : ℝ} (he : 0 ≤ eps) {solve : LinSolve XR} (hS : solve.Exact) (n : Nat)
    (A : FinPos m)
    (hW : ∀ k m1 p1, k < n → implicitFairing solve (XR.fin eps) k m = .ok () m1 → m1.AtE p1 → m1.Weighted p1)
    (l : E3 →L[ℝ] ℝ) (c : ℝ) (hp : ∀ p, m.AtE p → ∀ v, m.vAlive v = true → l (p v) ≤ c) :
    ∃ m' q, implicitFairing solve (XR.fin eps) n m = .ok () m' ∧ m.SameButPos m' ∧ m'.AtE q ∧
      ∀ v, m.vAlive v = true → l (q v) ≤ c := by
  obtain ⟨p, A⟩ := A
  replace hp := hp p A
  induction n generalizing m p with
  | zero => exact ⟨m, p, rfl, rfl, A, hp⟩
  | succ n ih =>
    have W := hW 0 m p (by omega) rfl A
    obtain ⟨m1, q, h1, s, A1, fq⟩ := fairStep_exact W wf A he hS
    have al : ∀ v, m1.vAlive v = m.vAlive v := by intro v; rw [s]
    obtain ⟨m', q', h2, s', A', hl⟩ := ih (s.wf wf) (fun k m2 p2 hk e a => hW (k + 1) m2 p2 (by omega) (by
      change (fairStep solve (XR.fin eps) >>= fun _ => implicitFairing solve (XR.fin eps) k) m = _
      rw [bind_apply, h1]
      exact e) a) q A1 (fun v a => fq.le W wf he l hp v (by rwa [al] at a))
    refine ⟨m', q', ?_, s.trans s', A', fun v a => hl v (by rwa [al])⟩
    change (fairStep solve (XR.fin eps) >>= fun _ => implicitFairing solve (XR.fin eps) n) m = _
    rw [bind_apply, h1]
    exact h2

/-- the coordinates stay in the range of the original ones -/
example {m : Mesh XR} (wf : m.WF) {p : Nat → E3} (A : m.AtE p) (W : m.Weighted p) {eps : ℝ} (he : 0 ≤ eps) {solve : LinSolve XR}
    (hS : solve.Exact) {a b : ℝ} (hp : ∀ v, m.vAlive v = true → ∀ i, a ≤ p v i ∧ p v i ≤ b) :
    ∃ m' q, implicitFairing solve (XR.fin eps) 1 m = .ok () m' ∧ m'.AtE q ∧ ∀ v, m.vAlive v = true → ∀ i, a ≤ q v i ∧ q v i ≤ b := by
  obtain ⟨m', q, h1, -, h3, h4⟩ := c56_step wf A W he hS
  refine ⟨m', q, h1, h3, fun v hv i => ⟨?_, h4.le W wf he (EuclideanSpace.proj i) (fun v a => (hp v a i).2) v hv⟩⟩
  have := h4.le W wf he (-EuclideanSpace.proj i) (c := -a) (fun v a => neg_le_neg (hp v a i).1) v hv
  exact neg_le_neg_iff.1 this

/-- C56: implicit fairing commutes with every rigid motion: if the positions of `m2` are the images of those of `m1`, the same holds
for the results. -/
theorem c56_isometry {m1 m2 : Mesh XR} (wf : m1.WF) (s : m1.SameButPos m2) {p : Nat → E3} (f : E3 ≃ᵃⁱ[ℝ] E3) (A1 : m1.AtE p)
    (A2 : m2.AtE fun v => f (p v)) (W : m1.Weighted p) {eps : ℝ} (he : 0 ≤ eps) {solve : LinSolve XR} (hS : solve.Exact) :
    ∃ m1' m2' q, implicitFairing solve (XR.fin eps) 1 m1 = .ok () m1' ∧ implicitFairing solve (XR.fin eps) 1 m2 = .ok () m2' ∧
      m1'.AtE q ∧ m2'.AtE fun v => f (q v) := by
  have cot : ∀ a b c, cotAt (f a) (f b) (f c) = cotAt a b c := by
    intro a b c
    have e : ∀ x y, f x - f y = f.linearIsometryEquiv (x - y) := fun x y => (f.map_vsub x y).symm
    unfold cotAt
    rw [e, e, LinearIsometryEquiv.inner_map_map, LinearIsometryEquiv.norm_map, LinearIsometryEquiv.norm_map]
  have hcot : ∀ h, m2.cotOf (fun v => f (p v)) h = m1.cotOf p h := by
    intro h
    rw [s]
    unfold Mesh.cotOf
    dsimp only
    rw [cot, cot]
  have W2 : m2.Weighted fun v => f (p v) := by
    constructor
    · intro h a
      rw [hcot]
      exact W.nonneg h (by rw [s] at a; exact a)
    · intro v a
      obtain ⟨h, h1, h2, h3⟩ := W.pos v (by rw [s] at a; exact a)
      exact ⟨h, by rw [s]; exact h1, by rw [s]; exact h2, by rw [hcot]; exact h3⟩
  obtain ⟨m1', q, h1, s1, B1, F1⟩ := c56_step wf A1 W he hS
  obtain ⟨m2', r, h2, s2, B2, F2⟩ := c56_step (s.wf wf) A2 W2 he hS
  refine ⟨m1', m2', q, h1, h2, B1, fun v a => ?_⟩
  have share : ∀ h, m2.share (fun v => f (p v)) h = m1.share p h := by
    intro h
    unfold Mesh.share Mesh.weightOut
    rw [hcot, show m2.cotOf (fun v => f (p v)) = m1.cotOf p from funext hcot, s]
  have a2 : m2.vAlive v = true := by rw [s2] at a; exact a
  have : r v = f (q v) := by
    refine c56_unique (q' := fun v => f (q v)) (s.wf wf) W2 he F2 (fun v a => ?_) v a2
    have a1 : m1.vAlive v = true := by rw [s] at a; exact a
    have e0 : ∀ x, f x = f.linearIsometryEquiv x + f 0 := by
      intro x
      have h0 := f.map_vsub x 0
      rw [vsub_eq_sub, vsub_eq_sub, sub_zero] at h0
      rw [h0, sub_add_cancel]
    have sum1 : ((m1.hes.filter fun h => m1.hSrc h == v).map (m1.share p)).sum = 1 := share_sum wf (W.out wf a1).ne'
    have key : ∀ hs : List Nat, (hs.map fun h => m1.share p h • f (q (m1.hSrc (m1.hNext h)))).sum =
        f.linearIsometryEquiv (hs.map fun h => m1.share p h • q (m1.hSrc (m1.hNext h))).sum + (hs.map (m1.share p)).sum • f 0 := by
      intro hs
      induction hs with
      | nil => simp
      | cons x hs ih =>
        simp only [List.map_cons, List.sum_cons, ih, map_add, map_smul, add_smul]
        rw [e0 (q _), smul_add]
        abel
    have e2 : (m2.hes.filter fun h => m2.hSrc h == v) = m1.hes.filter fun h => m1.hSrc h == v := by rw [s]
    have e3 : ∀ h, m2.hSrc (m2.hNext h) = m1.hSrc (m1.hNext h) := by intro h; rw [s]
    simp only [share, e2, e3]
    rw [key, sum1, one_smul, e0 (q v), e0 (p v), add_sub_add_right_eq_sub, add_sub_add_right_eq_sub, ← map_sub, F1 v a1, map_smul, map_sub]
  have h := B2 v a
  rwa [this] at h

/-- an exact solver -/
noncomputable def exactSolve : LinSolve XR := fun n A b i =>
  let re : XR → ℝ := fun x => match x with | .fin r => r | _ => 0
  if hi : i < n then .fin (((Matrix.of fun i j : Fin n => re (A i j))⁻¹.mulVec fun i => re (b i)) ⟨i, hi⟩) else .nan

theorem exactSolve_exact : exactSolve.Exact := by
  intro n A b A' b' hd hA hb
  refine ⟨A⁻¹.mulVec b, ?_, ?_⟩
  · rw [Matrix.mulVec_mulVec, Matrix.mul_nonsing_inv A (Ne.isUnit hd), Matrix.one_mulVec]
  · intro i
    unfold exactSolve
    simp only [hA, hb, i.2, dif_pos]
    rfl

/-- the corners of a regular tetrahedron -/
def regularV : List (Vec3 Rat) := [pt 1 1 1, pt 1 (-1) (-1), pt (-1) 1 (-1), pt (-1) (-1) 1]

theorem regular_valid : ValidInput regularV (ofTris cornerT) := validB_iff (by decide +kernel)
theorem regular_merged : Merged regularV (ofTris cornerT) regularV (ofTris cornerT) := mergedB_iff (by decide +kernel)

/-- the regular tetrahedron has positive weights -/
theorem regular_weighted : ∃ (m : Mesh XR) (p : Nat → E3), m.Good ∧ m.AtE p ∧ m.Weighted p ∧ (∀ h, m.hAlive h = true → m.OnTri h) ∧
    m.vs.map p = regularV.map fun v => v.toR.E := by
  obtain ⟨m, hm, G, hv, hi⟩ := closedX regular_valid regular_merged corner_manifold corner_closed dbl
  obtain ⟨p, A, hp⟩ := exists_at G.wf hv
  have tri : ∀ h, m.hAlive h = true → m.OnTri h := by
    obtain ⟨ts, e, hc⟩ := c02_closed_no_holes (Owned.empty dbl) hm
    rw [hi] at e
    have e : ts = cornerT := by
      have h3 := toTris_ofTris ts
      rw [← e, toTris_ofTris] at h3
      cases h3; rfl
    subst e
    obtain ⟨-, -, h2⟩ := hc (by decide +kernel)
    exact fun h a => (h2 h a).1
  have nd : (m.vs.map p).Nodup := by
    rw [hp]
    have : (regularV).Nodup := by simp [regularV, pt]; norm_num
    refine this.map ?_
    intro a b h
    cases a; cases b
    simpa [Vec3.toR] using h
  have inj : ∀ u v, m.vAlive u = true → m.vAlive v = true → u ≠ v → p u ≠ p v := fun u v a b h e =>
    h (List.inj_on_of_nodup_map nd ((G.wf.vDense.mem _).2 a) ((G.wf.vDense.mem _).2 b) e)
  have mem : ∀ v, m.vAlive v = true → p v ∈ regularV.map Vec3.toR := fun v a => by
    rw [← hp]; exact List.mem_map_of_mem ((G.wf.vDense.mem v).2 a)
  have pos : ∀ u v w, m.vAlive u = true → m.vAlive v = true → m.vAlive w = true → u ≠ w → v ≠ w → u ≠ v →
      0 < cotAt (p u).E (p v).E (p w).E := by
    intro u v w au av aw h1 h2 h3
    unfold cotAt
    refine div_pos ?_ (lt_max_of_lt_right (by norm_num))
    rw [← Vec3.E_sub, ← Vec3.E_sub, Vec3.E_inner]
    have n1 := inj u w au aw h1
    have n2 := inj v w av aw h2
    have n3 := inj u v au av h3
    have e1 := mem u au
    have e2 := mem v av
    have e3 := mem w aw
    simp only [regularV, List.map_cons, List.map_nil, List.mem_cons, List.not_mem_nil, or_false] at e1 e2 e3
    rcases e1 with e1 | e1 | e1 | e1 <;> rcases e2 with e2 | e2 | e2 | e2 <;> rcases e3 with e3 | e3 | e3 | e3 <;>
      rw [e1, e3] at n1 <;> rw [e2, e3] at n2 <;> rw [e1, e2] at n3 <;>
      first
        | exact absurd rfl n1
        | exact absurd rfl n2
        | exact absurd rfl n3
        | (rw [e1, e2, e3]; simp only [Vec3.dot_def, Vec3.sub_def, Vec3.toR, pt]; norm_num)
  have cot : ∀ h, m.hAlive h = true → 0 < m.cotOf (fun v => (p v).E) h := by
    intro h a
    have side : ∀ h, m.hAlive h = true → 0 < cotAt (p (m.hSrc h)).E (p (m.hSrc (m.hNext h))).E (p (m.hSrc (m.hNext (m.hNext h)))).E := by
      intro h a
      have a1 := G.wf.next_alive _ a
      have a2 := G.wf.next_alive _ a1
      have l1 := G.simple.no_loop _ a
      have l2 := G.simple.no_loop _ a1
      have l3 := G.simple.no_loop _ a2
      rw [show m.hNext (m.hNext (m.hNext h)) = h from tri h a] at l3
      exact pos _ _ _ (G.wf.src_alive _ a) (G.wf.src_alive _ a1) (G.wf.src_alive _ a2) l3.symm l2 l1
    have ar := G.wf.rev_alive _ a
    have h1 := side h a
    have h2 := side _ ar
    have e1 : m.hSrc (m.hNext h) = m.hSrc (m.hRev h) := (G.wf.src_rev _ a).symm
    have e2 : m.hSrc (m.hNext (m.hRev h)) = m.hSrc h := by
      have := G.wf.src_rev _ ar
      rw [G.wf.rev_rev _ a] at this
      exact this.symm
    rw [e2, ← e1] at h2
    have h3 : cotAt (p (m.hSrc h)).E (p (m.hSrc (m.hNext h))).E (p (m.hSrc (m.hNext (m.hNext (m.hRev h))))).E =
        cotAt (p (m.hSrc (m.hNext h))).E (p (m.hSrc h)).E (p (m.hSrc (m.hNext (m.hNext (m.hRev h))))).E := by
      unfold cotAt
      rw [real_inner_comm, mul_comm]
    unfold Mesh.cotOf
    dsimp only
    rw [h3]
    linarith
  refine ⟨m, fun v => (p v).E, G, fun v a => ⟨p v, A v a, rfl⟩, ⟨fun h a => (cot h a).le, fun v a => ?_⟩, tri, ?_⟩
  · exact ⟨m.vHe v, (G.wf.vHe_ok v a).1, (G.wf.vHe_ok v a).2, cot _ (G.wf.vHe_ok v a).1⟩
  · have := congrArg (List.map Vec3.E) hp
    rw [List.map_map, List.map_map] at this
    exact this

/-- the hypotheses of the theorems on implicit fairing hold for the regular tetrahedron and any step size -/
example (eps : ℝ) (he : 0 ≤ eps) : ∃ (m m' : Mesh XR) (p q : Nat → E3), m.Good ∧ m.AtE p ∧ m.vs.length = 4 ∧
    implicitFairing exactSolve (XR.fin eps) 1 m = .ok () m' ∧ m'.AtE q ∧ m.Faired eps p q := by
  obtain ⟨m, p, G, A, W, -, hp⟩ := regular_weighted
  obtain ⟨m', q, h1, -, h2, h3⟩ := c56_step G.wf A W he exactSolve_exact
  refine ⟨m, m', p, q, G, A, ?_, h1, h2, h3⟩
  have := congrArg List.length hp
  simpa [regularV] using this

/-! ## C43: locked vertices -/

/-- C43 does not hold for implicit fairing: all vertices of a tetrahedron are locked, and every iteration with a positive step size
moves one. -/
theorem c43_fairing_counterexample {eps : ℝ} (he : 0 < eps) {solve : LinSolve XR} (hS : solve.Exact) :
    ∃ m m' : Mesh XR, m.Good ∧ FinPos m ∧ (∀ v, m.vLock v = true) ∧ implicitFairing solve (XR.fin eps) 1 m = .ok () m' ∧
      ∃ v, m.vAlive v = true ∧ m'.vPos v ≠ m.vPos v := by
  obtain ⟨m, p, G, A, W, -, hp⟩ := regular_weighted
  have G' := G.setLocks fun _ => true
  have W' : ({ m with vLock := fun _ => true } : Mesh XR).Weighted p := ⟨W.nonneg, W.pos⟩
  obtain ⟨m', q, h1, s, h2, h3⟩ := c56_step (m := { m with vLock := fun _ => true }) G'.wf A W' he.le hS
  refine ⟨_, m', G', ⟨p, A⟩, fun _ => rfl, h1, ?_⟩
  by_contra hn
  push Not at hn
  -- the vertex at (1, 1, 1)
  have hl : m.vs.length = 4 := by simpa [regularV] using congrArg List.length hp
  obtain ⟨v0, v1, v2, v3, hvs⟩ : ∃ a b c d, m.vs = [a, b, c, d] := by
    match h : m.vs, hl with
    | [a, b, c, d], _ => exact ⟨a, b, c, d, rfl⟩
  rw [hvs] at hp
  simp only [regularV, List.map_cons, List.map_nil, List.cons.injEq, and_true] at hp
  obtain ⟨p0, p1, p2, p3⟩ := hp
  have a0 : m.vAlive v0 = true := (G.wf.vDense.mem _).1 (by rw [hvs]; simp)
  have same : ∀ v, m.vAlive v = true → q v = p v := by
    intro v a
    have e1 := h2 v (by rw [s]; exact a)
    rw [hn v a] at e1
    obtain ⟨w1, e1, rfl'⟩ := e1
    obtain ⟨w2, e2, e3⟩ := A v a
    have e1 : m.vPos v = w1.fin := e1
    rw [e1] at e2
    rw [← rfl', ← e3, Vec3.fin_inj.1 e2]
  -- a linear functional
  let l : E3 →L[ℝ] ℝ := EuclideanSpace.proj 0 + EuclideanSpace.proj 1 + EuclideanSpace.proj 2
  have lE : ∀ x : Vec3 ℝ, l x.E = x.x + x.y + x.z := fun x => rfl
  have l0 : l (p v0) = 3 := by rw [p0, lE]; simp [Vec3.toR, pt]; norm_num
  have lo : ∀ u, m.vAlive u = true → u ≠ v0 → l (p u) ≤ -1 := by
    intro u a hu
    have := (G.wf.vDense.mem u).2 a
    rw [hvs] at this
    simp only [List.mem_cons, List.not_mem_nil, or_false] at this
    rcases this with e | e | e | e
    · exact absurd e hu
    all_goals
      subst e
      first | rw [p1] | rw [p2] | rw [p3]
      rw [lE]; simp [Vec3.toR, pt]
  have F := h3.map l (v := v0) a0
  rw [same v0 a0] at F
  have e : ∀ h ∈ m.hes.filter fun h => m.hSrc h == v0, q (m.hSrc (m.hNext h)) = p (m.hSrc (m.hNext h)) := by
    intro h hh
    exact same _ (G.wf.src_alive _ (G.wf.next_alive _ ((G.wf.hDense.mem h).1 (List.mem_filter.1 hh).1)))
  have F : l (p v0) - l (p v0) = eps * (((m.hes.filter fun h => m.hSrc h == v0).map fun h => m.share p h * l (q (m.hSrc (m.hNext h)))).sum
    - l (p v0)) := F
  rw [sub_self, l0] at F
  have le := wsum_le (m.hes.filter fun h => m.hSrc h == v0) (m.share p) (fun h => l (q (m.hSrc (m.hNext h)))) (-1)
    (fun h hh => W.share_nonneg G.wf ((G.wf.hDense.mem h).1 (List.mem_filter.1 hh).1)) (fun h hh => by
      rw [e h hh]
      have ah := (G.wf.hDense.mem h).1 (List.mem_filter.1 hh).1
      refine lo _ (G.wf.src_alive _ (G.wf.next_alive _ ah)) fun e => G.simple.no_loop h ah ?_
      rw [e]
      simpa using (List.mem_filter.1 hh).2)
  have s1 : ((m.hes.filter fun h => m.hSrc h == v0).map (m.share p)).sum = 1 := share_sum G.wf (W.out G.wf a0).ne'
  rw [s1] at le
  have : ((m.hes.filter fun h => m.hSrc h == v0).map fun h => m.share p h * l (q (m.hSrc (m.hNext h)))).sum - 3 < 0 := by linarith
  have := mul_neg_of_pos_of_neg he this
  linarith

end TinyMesh
