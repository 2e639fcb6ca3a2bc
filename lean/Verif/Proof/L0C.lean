import Verif.Proof.L0B
/-
L0 denoising: one round finds the minimum of the energy; the loop.
-/
namespace TinyMesh
open Matrix

theorem list_sum_fin (l : List Nat) (f : Nat → ℝ) : (l.map f).sum = ∑ i : Fin l.length, f l[i] := by
  induction l with
  | nil => simp
  | cons x l ih =>
    rw [List.map_cons, List.sum_cons, ih]
    change _ = ∑ i : Fin (l.length + 1), _
    rw [Fin.sum_univ_succ]
    rfl

section
variable {m : Mesh XR} {p p0 : Nat → E3}

/-- the edge operator is the same for both half-edges of an edge -/
theorem bendOf_rev (wf : m.WF) (hp : m.L0Proper p) (q : Nat → E3) {h : Nat} (a : m.hAlive h = true) :
    m.bendOf p q (m.hRev h) = m.bendOf p q h := by
  have ar := wf.rev_alive h a
  have e0 := wf.rev_rev _ a
  have e1 : m.hSrc (m.hRev h) = m.hSrc (m.hNext h) := wf.src_rev _ a
  have e2 : m.hSrc (m.hNext (m.hRev h)) = m.hSrc h := by
    have := wf.src_rev _ ar
    rw [e0] at this
    exact this.symm
  obtain ⟨h1, h2⟩ := hp h a
  unfold Mesh.bendOf
  simp only [e0, e1, e2]
  have et : ∀ (s t : ℝ) (x y : E3), tipMean s t x y = tipMean t s y x := by
    intro s t x y
    unfold tipMean
    rw [add_comm t s, add_comm]
  simp only [et (m.areaOf p (m.hRev h)) (m.areaOf p h)]
  have ef : ∀ x y z : E3, x ≠ y → footAt y x z = 1 - footAt x y z := by
    intro x y z hxy
    have hn : ‖y - x‖ ^ 2 ≠ 0 := pow_ne_zero 2 (norm_ne_zero_iff.2 (sub_ne_zero.2 hxy.symm))
    unfold footAt
    rw [norm_sub_rev x y, eq_sub_iff_add_eq, ← add_div, div_eq_one_iff_eq hn, ← real_inner_self_eq_norm_sq, ← neg_sub y x, inner_neg_right,
      ← inner_neg_left, ← inner_add_left]
    congr 1; abel
  rw [ef _ _ _ h1]
  congr 1
  rw [sub_sub_cancel, add_comm]

theorem crossOf_rev (wf : m.WF) (q : Nat → E3) {h : Nat} (a : m.hAlive h = true) : m.crossOf q (m.hRev h) = m.crossOf q h := by
  have ar := wf.rev_alive h a
  have e0 := wf.rev_rev _ a
  have e1 : m.hSrc (m.hRev h) = m.hSrc (m.hNext h) := wf.src_rev _ a
  have e2 : m.hSrc (m.hNext (m.hRev h)) = m.hSrc h := by
    have := wf.src_rev _ ar
    rw [e0] at this
    exact this.symm
  unfold Mesh.crossOf
  simp only [e0, e1, e2]
  abel

theorem l0Target_rev (wf : m.WF) (hp : m.L0Proper p) (q : Nat → E3) (t : ℝ) {h : Nat} (a : m.hAlive h = true) :
    m.l0Target p q t (m.hRev h) = m.l0Target p q t h := by
  unfold Mesh.l0Target
  rw [bendOf_rev wf hp q a]

/-- the energy is the sum of three quadratic functions -/
theorem l0Energy_quad (wf : m.WF) (hp : m.L0Proper p) {S : List Nat} (o : m.OnePerEdge S) {g : Nat → E3}
    (hg : ∀ h, m.hAlive h = true → g (m.hRev h) = g h) (alpha beta : ℝ) (r : Nat → E3) :
    m.l0Energy p p0 g alpha beta r = ∑ k : Fin 3, l0Quad (m.quadMat S fun _ => (1, -1, 1, -1)) (m.quadMat S (m.bendC p)) alpha beta
      (fun i => p0 m.vs[i] k) (fun e => g S[e] k) (fun i => r m.vs[i] k) := by
  unfold Mesh.l0Energy l0Quad
  rw [onePerEdge_sum wf o fun h a => by rw [crossOf_rev wf r a],
    onePerEdge_sum wf o fun h a => by rw [bendOf_rev wf hp r a, hg h a],
    mul_div_cancel_left₀ _ (two_ne_zero), mul_div_cancel_left₀ _ (two_ne_zero), list_sum_fin, list_sum_fin, list_sum_fin]
  simp only [Finset.sum_add_distrib, ← Finset.mul_sum]
  congr 1
  · congr 1
    · rw [Finset.sum_comm]
      refine Finset.sum_congr rfl fun i _ => ?_
      rw [EuclideanSpace.real_norm_sq_eq]
      rfl
    · congr 1
      rw [Finset.sum_comm]
      refine Finset.sum_congr rfl fun e _ => ?_
      have a := o.alive _ (List.getElem_mem e.2)
      rw [EuclideanSpace.real_norm_sq_eq]
      refine Finset.sum_congr rfl fun k _ => ?_
      rw [quadMat_apply wf o.alive _ (fun v => r v k)]
      congr 1
      exact (crossC_apply wf a r k).symm
  · congr 1
    rw [Finset.sum_comm]
    refine Finset.sum_congr rfl fun e _ => ?_
    have a := o.alive _ (List.getElem_mem e.2)
    rw [EuclideanSpace.real_norm_sq_eq]
    refine Finset.sum_congr rfl fun k _ => ?_
    rw [quadMat_apply wf o.alive _ (fun v => r v k), PiLp.sub_apply]
    congr 2
    exact (bendC_apply wf a p r k).symm

/-- the rows of a matrix are the positions `q` of the vertices -/
def RowsAt (m : Mesh XR) (x : Nat → Vec3 XR) (q : Nat → E3) : Prop := ∀ i v, m.vs[i]? = some v → (x i).Is (q v)

theorem RowsAt.fin {x : Nat → Vec3 XR} {q : Nat → E3} (h : RowsAt m x q) (i : Fin m.vs.length) :
    x i = ⟨XR.fin (q m.vs[i] 0), XR.fin (q m.vs[i] 1), XR.fin (q m.vs[i] 2)⟩ := (h i _ (List.getElem?_eq_getElem i.2)).coords

theorem l0Y_ok (wf : m.WF) {S : List Nat} (hS : ∀ h ∈ S, m.hAlive h = true) {D : Nat → Nat → XR}
    (hD : ∀ (e : Fin S.length) (j : Fin m.vs.length), D e j = XR.fin (m.quadMat S (m.bendC p) e j)) {x : Nat → Vec3 XR} {q : Nat → E3}
    (hx : RowsAt m x q) (e : Fin S.length) :
    l0Y m.vs.length D x e = ⟨XR.fin (m.bendOf p q S[e] 0), XR.fin (m.bendOf p q S[e] 1), XR.fin (m.bendOf p q S[e] 2)⟩ := by
  have a := hS _ (List.getElem_mem e.2)
  have key : ∀ (c : Vec3 XR → XR) (k : Fin 3), (∀ j : Fin m.vs.length, c (x j) = XR.fin (q m.vs[j] k)) →
      sumN m.vs.length (fun i => D e i * c (x i)) = XR.fin (m.bendOf p q S[e] k) := by
    intro c k hc
    rw [sumN_fin (g := fun j => m.quadMat S (m.bendC p) e j * q m.vs[j] k) (fun j => by rw [hD, hc, X_mul])]
    congr 1
    have := quadMat_apply wf hS (m.bendC p) (fun v => q v k) e
    exact this.trans (bendC_apply wf a p q k)
  unfold l0Y
  congr 1
  · exact key Vec3.x 0 fun j => by rw [hx.fin]
  · exact key Vec3.y 1 fun j => by rw [hx.fin]
  · exact key Vec3.z 2 fun j => by rw [hx.fin]

theorem l0Delta_ok (wf : m.WF) {S : List Nat} (hS : ∀ h ∈ S, m.hAlive h = true) {D : Nat → Nat → XR}
    (hD : ∀ (e : Fin S.length) (j : Fin m.vs.length), D e j = XR.fin (m.quadMat S (m.bendC p) e j)) {x : Nat → Vec3 XR} {q : Nat → E3}
    (hx : RowsAt m x q) (t : ℝ) (e : Fin S.length) :
    l0Delta m.vs.length D x (XR.fin t) e =
      ⟨XR.fin (m.l0Target p q t S[e] 0), XR.fin (m.l0Target p q t S[e] 1), XR.fin (m.l0Target p q t S[e] 2)⟩ := by
  have hn : ‖m.bendOf p q S[e]‖ ^ 2 = m.bendOf p q S[e] 0 * m.bendOf p q S[e] 0 + m.bendOf p q S[e] 1 * m.bendOf p q S[e] 1 +
      m.bendOf p q S[e] 2 * m.bendOf p q S[e] 2 := by
    rw [EuclideanSpace.real_norm_sq_eq, Fin.sum_univ_three]; ring
  unfold l0Delta Mesh.l0Target
  rw [l0Y_ok wf hS hD hx e]
  dsimp only
  simp only [X_mul, X_add, X_lt, R_lt, decide_eq_true_eq, ← hn]
  by_cases c : ‖m.bendOf p q S[e]‖ ^ 2 < t
  · rw [if_pos c, if_pos c]
    simp [Vec3.zero, R_lit0]
  · rw [if_neg c, if_neg c]

theorem l0Step_of_strong {lambda alpha beta : ℝ} {q q' : Nat → E3} (wf : m.WF)
    (h : ∀ r, m.l0Energy p p0 (m.l0Target p q (lambda / beta)) alpha beta q' + (m.vs.map fun v => ‖r v - q' v‖ ^ 2).sum ≤
      m.l0Energy p p0 (m.l0Target p q (lambda / beta)) alpha beta r) : m.L0Step p p0 lambda alpha beta q q' := by
  have nn : ∀ r : Nat → E3, ∀ x ∈ m.vs.map fun v => ‖r v - q' v‖ ^ 2, 0 ≤ x := by
    intro r x hx
    obtain ⟨v, -, rfl⟩ := List.mem_map.1 hx
    exact sq_nonneg _
  refine ⟨fun r => ?_, fun r hr v a => ?_⟩
  · have := List.sum_nonneg (nn r)
    linarith [h r]
  · have h1 := h r
    have h2 := List.single_le_sum (nn r) _ (List.mem_map_of_mem (f := fun v => ‖r v - q' v‖ ^ 2) ((wf.vDense.mem v).2 a))
    have h3 : ‖r v - q' v‖ ^ 2 ≤ 0 := by linarith
    have h4 := pow_eq_zero_iff (two_ne_zero) |>.1 (le_antisymm h3 (sq_nonneg _))
    exact sub_eq_zero.1 (norm_eq_zero.1 h4)

/-- one round in exact arithmetic -/
theorem l0Round_exact (wf : m.WF) (A : m.AtE p) (hp : m.L0Proper p) {S : List Nat} (o : m.OnePerEdge S) {lambda alpha beta : ℝ}
    (ha : 0 ≤ alpha) (hb : 0 < beta) {solve : LinSolve XR} (hS : solve.Exact) {R : Nat → Nat → XR}
    (hR : ∀ (e : Fin S.length) (j : Fin m.vs.length), R e j = XR.fin (m.quadMat S (fun _ => (1, -1, 1, -1)) e j))
    {x0 x : Nat → Vec3 XR} {q : Nat → E3} (h0 : RowsAt m x0 p0) (hx : RowsAt m x q) :
    ∃ x' q', l0Round solve S.length m.vs.length S R x0 (XR.fin lambda) (XR.fin alpha) (XR.fin beta) x m = .ok x' m ∧ RowsAt m x' q' ∧
      m.L0Step p p0 lambda alpha beta q q' := by
  obtain ⟨ts, D, h1, h2, hD⟩ := quadMat_ok wf o.alive (c := m.bendC p) (row := l0RowD S) fun e h he =>
    l0RowD_ok wf A hp he (o.alive _ (List.mem_of_getElem? he))
  have hdl := l0Delta_ok wf o.alive hD hx (lambda / beta)
  set g := m.l0Target p q (lambda / beta) with hg
  have hA : ∀ i j : Fin m.vs.length, l0A S.length R D (XR.fin alpha) (XR.fin beta) i j =
      XR.fin (l0Mat (m.quadMat S fun _ => (1, -1, 1, -1)) (m.quadMat S (m.bendC p)) alpha beta i j) := by
    intro i j
    unfold l0A l0Mat
    rw [sumN_fin (g := fun e => alpha * m.quadMat S (fun _ => (1, -1, 1, -1)) e i * m.quadMat S (fun _ => (1, -1, 1, -1)) e j)
        (fun e => by rw [hR, hR, X_mul, X_mul]),
      sumN_fin (g := fun e => beta * m.quadMat S (m.bendC p) e i * m.quadMat S (m.bendC p) e j) (fun e => by rw [hD, hD, X_mul, X_mul])]
    by_cases c : i = j
    · rw [if_pos (by rw [c]), if_pos c]
      simp [R_lit]
    · rw [if_neg (fun e => c (Fin.ext e)), if_neg c]
      simp [R_lit]
  have key : ∀ (c : Vec3 XR → XR) (k : Fin 3), (∀ j : Fin m.vs.length, c (x0 j) = XR.fin (p0 m.vs[j] k)) →
      (∀ e : Fin S.length, c (l0Delta m.vs.length D x (XR.fin (lambda / beta)) e) = XR.fin (g S[e] k)) →
      ∃ y : Nat → ℝ, (∀ i v, m.vs[i]? = some v → solve m.vs.length (l0A S.length R D (XR.fin alpha) (XR.fin beta))
          (l0B S.length D (XR.fin beta) (fun i => c (x0 i)) (fun e => c (l0Delta m.vs.length D x (XR.fin (lambda / beta)) e))) i = XR.fin (y v)) ∧
        ∀ r : Nat → ℝ, l0Quad (m.quadMat S fun _ => (1, -1, 1, -1)) (m.quadMat S (m.bendC p)) alpha beta (fun i => p0 m.vs[i] k)
          (fun e => g S[e] k) (fun i => y m.vs[i]) + ∑ i : Fin m.vs.length, (r m.vs[i] - y m.vs[i]) ^ 2 ≤
          l0Quad (m.quadMat S fun _ => (1, -1, 1, -1)) (m.quadMat S (m.bendC p)) alpha beta (fun i => p0 m.vs[i] k)
          (fun e => g S[e] k) (fun i => r m.vs[i]) := by
    intro c k hc hd
    obtain ⟨z, z1, z2⟩ := hS m.vs.length _ (fun i => p0 m.vs[i] k + ∑ e, beta * m.quadMat S (m.bendC p) e i * g S[e] k) _
      (l0B S.length D (XR.fin beta) (fun i => c (x0 i)) (fun e => c (l0Delta m.vs.length D x (XR.fin (lambda / beta)) e)))
      (l0Mat_det ha hb.le) hA (by
        intro i
        unfold l0B
        rw [sumN_fin (g := fun e => beta * m.quadMat S (m.bendC p) e i * g S[e] k) (fun e => by dsimp only; rw [hD, hd, X_mul, X_mul])]
        dsimp only
        rw [hc, X_add])
    obtain ⟨y, hy⟩ := exists_fun wf z
    have ey : (fun i : Fin m.vs.length => y m.vs[i]) = z := funext hy
    refine ⟨y, ?_, fun r => ?_⟩
    · intro i v hv
      obtain ⟨hi, rfl⟩ := List.getElem?_eq_some_iff.1 hv
      rw [z2 ⟨i, hi⟩, ← hy ⟨i, hi⟩]
      rfl
    · refine l0Quad_min ha hb.le (fun i => ?_) (fun i => r m.vs[i])
      rw [ey, z1]
  obtain ⟨y0, s0, f0⟩ := key Vec3.x 0 (fun j => by rw [h0.fin]) (fun e => by rw [hdl])
  obtain ⟨y1, s1, f1⟩ := key Vec3.y 1 (fun j => by rw [h0.fin]) (fun e => by rw [hdl])
  obtain ⟨y2, s2, f2⟩ := key Vec3.z 2 (fun j => by rw [h0.fin]) (fun e => by rw [hdl])
  let X (c : Vec3 XR → XR) : Nat → XR := solve m.vs.length (l0A S.length R D (XR.fin alpha) (XR.fin beta))
    (l0B S.length D (XR.fin beta) (fun i => c (x0 i)) (fun e => c (l0Delta m.vs.length D x (XR.fin (lambda / beta)) e)))
  refine ⟨fun i => ⟨X Vec3.x i, X Vec3.y i, X Vec3.z i⟩, fun v => !₂[y0 v, y1 v, y2 v], ?_, ?_, ?_⟩
  · unfold l0Round
    rw [bind_apply, h1]; dsimp only
    rw [bind_apply, h2]; dsimp only
    rw [pure_apply, X_div (h := hb.ne')]
  · intro i v hv
    dsimp only [X]
    rw [s0 i v hv, s1 i v hv, s2 i v hv]
    exact Vec3.Is.of _ _ _
  · refine l0Step_of_strong wf fun r => ?_
    rw [← hg, l0Energy_quad wf hp o (fun h a => l0Target_rev wf hp q _ a), l0Energy_quad wf hp o (fun h a => l0Target_rev wf hp q _ a),
      Fin.sum_univ_three, Fin.sum_univ_three, list_sum_fin]
    have e : ∑ i : Fin m.vs.length, ‖r m.vs[i] - !₂[y0 m.vs[i], y1 m.vs[i], y2 m.vs[i]]‖ ^ 2 =
        ∑ i : Fin m.vs.length, (r m.vs[i] 0 - y0 m.vs[i]) ^ 2 + ∑ i : Fin m.vs.length, (r m.vs[i] 1 - y1 m.vs[i]) ^ 2 +
          ∑ i : Fin m.vs.length, (r m.vs[i] 2 - y2 m.vs[i]) ^ 2 := by
      rw [← Finset.sum_add_distrib, ← Finset.sum_add_distrib]
      refine Finset.sum_congr rfl fun i _ => ?_
      rw [EuclideanSpace.real_norm_sq_eq, Fin.sum_univ_three]
      rfl
    rw [e]
    have g0 := f0 fun v => r v 0
    have g1 := f1 fun v => r v 1
    have g2 := f2 fun v => r v 2
    change l0Quad _ _ _ _ _ _ (fun i => y0 m.vs[i]) + l0Quad _ _ _ _ _ _ (fun i => y1 m.vs[i]) +
      l0Quad _ _ _ _ _ _ (fun i => y2 m.vs[i]) + _ ≤ _
    linarith

end
end TinyMesh
