import Verif.Spec.Turn
import Verif.Proof.CurvF
import Verif.Proof.EditA
/-
The test of `collapseHE` for faces that would be turned over, in exact arithmetic.
-/
namespace TinyMesh
open Orbit

theorem getD_fin (ps : List (Vec3 ℝ)) (j : Nat) : (ps.map Vec3.fin).getD j (Vec3.zero : Vec3 XR) = (ps.getD j Vec3.zero).fin := by
  rw [Vec3.X_vzero, List.getD_map]

/-- the product of the edges to two consecutive neighbours -/
noncomputable def side (p : Vec3 ℝ) (ps : List (Vec3 ℝ)) (j : Nat) : Vec3 ℝ :=
  ((ps.getD j Vec3.zero).sub p).cross ((ps.getD ((j + 1) % ps.length) Vec3.zero).sub p)

theorem sumCross_fin (p : Vec3 ℝ) (ps : List (Vec3 ℝ)) : sumCross p.fin (ps.map Vec3.fin) =
    ((List.range ps.length).foldl (fun a j => a.add (side p ps j)) Vec3.zero).fin := by
  have key : ∀ (l : List Nat) (a : Vec3 ℝ), l.foldl (fun acc i => acc.add (Vec3.cross (((ps.map Vec3.fin).getD i Vec3.zero).sub p.fin)
      (((ps.map Vec3.fin).getD ((i + 1) % (ps.map Vec3.fin).length) Vec3.zero).sub p.fin))) a.fin =
      (l.foldl (fun a j => a.add (side p ps j)) a).fin := by
    intro l
    induction l with
    | nil => intro a; rfl
    | cons j l ih =>
      intro a
      rw [List.foldl_cons, List.foldl_cons, ← ih, getD_fin, getD_fin, List.length_map]
      simp only [Vec3.X_vsub, Vec3.X_vcross, Vec3.X_vadd]
      rfl
  unfold sumCross
  rw [List.length_map]
  have := key (List.range ps.length) Vec3.zero
  rw [List.length_map] at this
  exact this

theorem foldl_add_E (f : Nat → Vec3 ℝ) : ∀ (l : List Nat) (a : Vec3 ℝ), (l.foldl (fun a j => a.add (f j)) a).E = a.E + (l.map fun j => (f j).E).sum
  | [], a => by simp
  | j :: l, a => by
    rw [List.foldl_cons, foldl_add_E f l, Vec3.E_add, List.map_cons, List.sum_cons, add_assoc]

theorem signLoop_iff (n p : Vec3 ℝ) (ps : List (Vec3 ℝ)) : ∀ (k : Nat) (s : ℝ) (i : Nat),
    signLoop n.fin p.fin (ps.map Vec3.fin) k (.fin s) i = true ↔
      (0 < k → 0 ≤ s * n.dot (side p ps i)) ∧ ∀ j, i ≤ j → j + 1 < i + k → 0 ≤ n.dot (side p ps j) * n.dot (side p ps (j + 1))
  | 0, s, i => by
    unfold signLoop
    simp only [true_iff]
    exact ⟨fun h => by omega, fun j h1 h2 => by omega⟩
  | k + 1, s, i => by
    unfold signLoop
    dsimp only
    rw [getD_fin, List.length_map, getD_fin]
    simp only [Vec3.X_vsub, Vec3.X_vcross, Vec3.X_vdot, X_mul, X_lit, X_lt]
    change (if Scalar.lt (s * n.dot (side p ps i)) (Scalar.lit 0 1) = true then false
      else signLoop n.fin p.fin (ps.map Vec3.fin) k (.fin (n.dot (side p ps i))) (i + 1)) = true ↔ _
    by_cases h : s * n.dot (side p ps i) < 0
    · rw [if_pos ((R_lt _ _).2 (by rw [R_lit0]; exact h))]
      constructor
      · intro h'; cases h'
      · intro h'; exact absurd (h'.1 (by omega)) (not_le.2 h)
    · rw [if_neg (by rw [R_lt, R_lit0]; exact h), signLoop_iff n p ps k]
      constructor
      · rintro ⟨h1, h2⟩
        refine ⟨fun _ => not_lt.1 h, fun j hj hj' => ?_⟩
        rcases Nat.eq_or_lt_of_le hj with rfl | hj
        · exact h1 (by omega)
        · exact h2 j (by omega) (by omega)
      · rintro ⟨-, h2⟩
        exact ⟨fun hk => h2 i le_rfl (by omega), fun j hj hj' => h2 j (by omega) (by omega)⟩

/-- the geometric test -/
theorem collapseGeomOK_iff (q0 q2 : Vec3 ℝ) (ps : List (Vec3 ℝ)) :
    collapseGeomOK q0.fin q2.fin (ps.map Vec3.fin) = some true ↔
      ((List.range ps.length).map fun j => (side q2 ps j).E).sum ≠ 0 ∧
      ∀ j, j + 1 < ps.length → 0 ≤ inner ℝ ((List.range ps.length).map fun j => (side q2 ps j).E).sum (side q0 ps j).E *
        inner ℝ ((List.range ps.length).map fun j => (side q2 ps j).E).sum (side q0 ps (j + 1)).E := by
  have hs := sumCross_fin q2 ps
  have hE := foldl_add_E (fun j => side q2 ps j) (List.range ps.length) Vec3.zero
  rw [E_zero, zero_add] at hE
  rw [← hE]
  generalize (List.range ps.length).foldl (fun a j => a.add (side q2 ps j)) Vec3.zero = N at hs hE ⊢
  unfold collapseGeomOK
  rw [hs]
  dsimp only
  rw [Vec3.X_vlength, X_lit, X_eq]
  by_cases h : N.E = 0
  · have : N.length = 0 := by rw [← Vec3.E_norm, h, norm_zero]
    rw [this, if_pos ((R_eq _ _).2 R_lit0.symm)]
    constructor
    · intro h'; cases h'
    · intro h'; exact absurd h h'.1
  · have hl : N.length ≠ 0 := by rw [← Vec3.E_norm]; exact norm_ne_zero_iff.2 h
    rw [if_neg (by rw [R_eq, R_lit0]; exact hl)]
    obtain ⟨b, e, w, rfl, hw⟩ := Vec3.Is.normalize ⟨N, rfl, rfl⟩ h
    rw [e]
    dsimp only
    rw [Option.some.injEq, R_lit0, List.length_map, signLoop_iff]
    have hd := (unitOf_dot hw h).2
    have hp := norm_pos_iff.2 h
    constructor
    · rintro ⟨-, h2⟩
      refine ⟨h, fun j hj => ?_⟩
      have := h2 j (by omega) (by omega)
      rw [Vec3.E_inner, Vec3.E_inner, hd, hd]
      have : 0 ≤ ‖N.E‖ * ‖N.E‖ * (w.dot (side q0 ps j) * w.dot (side q0 ps (j + 1))) := by positivity
      linarith
    · rintro ⟨-, h2⟩
      refine ⟨fun _ => by rw [zero_mul], fun j _ hj => ?_⟩
      have := h2 j (by omega)
      rw [Vec3.E_inner, Vec3.E_inner, hd, hd] at this
      have : 0 ≤ (‖N.E‖ * ‖N.E‖) * (w.dot (side q0 ps j) * w.dot (side q0 ps (j + 1))) := by linarith
      exact nonneg_of_mul_nonneg_right (by linarith) (mul_pos hp hp)

theorem sum_map_neg_list (f : Nat → E3) : ∀ l : List Nat, (l.map fun h => -f h).sum = -(l.map f).sum
  | [] => by simp
  | x :: l => by rw [List.map_cons, List.sum_cons, List.map_cons, List.sum_cons, sum_map_neg_list f l, neg_add]

section
variable {m : Mesh XR} {p : Nat → E3}

/-- the test on the ring of a vertex with triangles around it -/
theorem ring_geom (w : m.WF) (A : m.AtE p) {k q : Nat} (ak : m.vAlive k = true) (aq : m.vAlive q = true) (t : m.TriRing q) :
    collapseGeomOK (m.vPos k) (m.vPos q) ((m.nbrs q).map m.vPos) = some true ↔
      m.starArea p q ≠ 0 ∧ ∀ y, m.hAlive y = true → m.hSrc y = q → y ≠ m.vHe q → 0 ≤ m.movedSign p k y * m.movedSign p k (m.sig y) := by
  have hv := w.vHe_ok q aq
  have hper := w.permSig.period_spec hv.1
  choose W hW using fun v => Vec3.E_surj (p v)
  have hW1 : ∀ v, m.vAlive v = true → m.vPos v = (W v).fin := fun v a => by
    obtain ⟨x, h1, h2⟩ := A v a
    rw [h1, Vec3.fin_inj, ← Vec3.E_inj, h2, hW]
  have hx : ∀ j, m.hAlive (m.sig^[j] (m.vHe q)) = true ∧ m.hSrc (m.sig^[j] (m.vHe q)) = q := fun j =>
    ⟨w.permSig.iter hv.1 j, by rw [w.sig_iter_src hv.1, hv.2]⟩
  have hda : ∀ j, m.vAlive (m.hSrc (m.hNext (m.sig^[j] (m.vHe q)))) = true := fun j => w.src_alive _ (w.next_alive _ (hx j).1)
  have hps : (m.nbrs q).map m.vPos = ((m.nbrs q).map W).map Vec3.fin := by
    rw [List.map_map]
    apply List.map_congr_left
    intro v hv'
    unfold Mesh.nbrs at hv'
    obtain ⟨x, hx', rfl⟩ := List.mem_map.1 hv'
    exact hW1 _ (w.src_alive _ (w.next_alive _ ((w.mem_ring aq).1 hx').1))
  have hlen : ((m.nbrs q).map W).length = period m.sig (m.vHe q) := by
    rw [List.length_map, Mesh.nbrs, List.length_map, length_orbit]
  have hget : ∀ j, j < period m.sig (m.vHe q) → (((m.nbrs q).map W).getD j Vec3.zero) = W (m.hSrc (m.hNext (m.sig^[j] (m.vHe q)))) := by
    intro j hj
    have : ((m.nbrs q).map W)[j]? = some (W (m.hSrc (m.hNext (m.sig^[j] (m.vHe q))))) := by
      unfold Mesh.nbrs orbit
      simp [hj]
    rw [List.getD_eq_getElem?_getD, this]
    rfl
  have hside : ∀ c, m.vAlive c = true → ∀ j, j < period m.sig (m.vHe q) → (side (W c) ((m.nbrs q).map W) j).E =
      -triNormal (p c) (p (m.hSrc (m.hNext (m.sig^[j + 1] (m.vHe q))))) (p (m.hSrc (m.hNext (m.hNext (m.sig^[j + 1] (m.vHe q)))))) := by
    intro c ac j hj
    have e1 : m.sig^[j + 1] (m.vHe q) = m.sig (m.sig^[j] (m.vHe q)) := Function.iterate_succ_apply' _ _ _
    have t1 := t _ (hx (j + 1)).1 (hx (j + 1)).2
    rw [e1] at t1
    have e2 := w.tri_sig (hx j).1 t1
    rw [← e1] at e2
    unfold side
    rw [hlen, hget j hj, hget _ (Nat.mod_lt _ hper.1), ← w.permSig.iter_mod hv.1, e2]
    rw [← hW c, ← hW (m.hSrc (m.hNext (m.sig^[j] (m.vHe q)))), ← hW (m.hSrc (m.hNext (m.sig^[j + 1] (m.vHe q)))), triNormal_E, ← Vec3.E_neg]
    congr 1
    apply Vec3.ext' <;> simp only [Vec3.cross_def, Vec3.sub_def, Vec3.neg_def] <;> ring
  have hsum : ((List.range ((m.nbrs q).map W).length).map fun j => (side (W q) ((m.nbrs q).map W) j).E).sum = -m.starArea p q := by
    have : ((List.range ((m.nbrs q).map W).length).map fun j => (side (W q) ((m.nbrs q).map W) j).E) =
        (orbit m.sig (m.vHe q)).map fun y => -triNormal (p q) (p (m.hSrc (m.hNext (m.sig y)))) (p (m.hSrc (m.hNext (m.hNext (m.sig y))))) := by
      unfold orbit
      rw [List.map_map, hlen]
      apply List.map_congr_left
      intro j hj
      rw [hside q aq j (List.mem_range.1 hj), Function.iterate_succ_apply']
      rfl
    rw [this, w.ring_shift aq fun y => -triNormal (p q) (p (m.hSrc (m.hNext y))) (p (m.hSrc (m.hNext (m.hNext y)))), ← w.outs_sum aq]
    unfold Mesh.starArea
    exact sum_map_neg_list _ _
  rw [hps, hW1 k ak, hW1 q aq, collapseGeomOK_iff, hsum, neg_ne_zero]
  apply and_congr_right
  intro _
  have hin : ∀ j, j < period m.sig (m.vHe q) → inner ℝ (-m.starArea p q) (side (W k) ((m.nbrs q).map W) j).E =
      m.movedSign p k (m.sig^[j + 1] (m.vHe q)) := by
    intro j hj
    rw [hside k ak j hj, inner_neg_neg, Mesh.movedSign, (hx (j + 1)).2]
  constructor
  · intro h y ay sy hy
    obtain ⟨i, hi, e⟩ : ∃ i, i < period m.sig (m.vHe q) ∧ m.sig^[i] (m.vHe q) = y := by
      have := (w.mem_ring aq).2 ⟨ay, sy⟩
      unfold orbit at this
      obtain ⟨i, hi, e⟩ := List.mem_map.1 this
      exact ⟨i, List.mem_range.1 hi, e⟩
    cases i with
    | zero => exact absurd e.symm hy
    | succ j =>
      have := h j (by rw [hlen]; omega)
      rw [hin j (by omega), hin (j + 1) (by omega), Function.iterate_succ_apply' m.sig (j + 1), e] at this
      exact this
  · intro h j hj
    rw [hlen] at hj
    rw [hin j (by omega), hin (j + 1) (by omega), Function.iterate_succ_apply' m.sig (j + 1)]
    exact h _ (hx (j + 1)).1 (hx (j + 1)).2 (hper.2.2 (j + 1) (by omega) (by omega))

end
end TinyMesh
