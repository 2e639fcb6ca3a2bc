import Verif.Proof.TurnA
import Verif.Proof.CurvD
import Verif.Proof.EditA
/-
Acceptance of edge collapses, and faces turned over by them.
-/
namespace TinyMesh
open Orbit

theorem sum_nonpos_list : ∀ l : List ℝ, (∀ x ∈ l, x ≤ 0) → l.sum ≤ 0
  | [], _ => by simp
  | x :: l, h => by
    rw [List.sum_cons]
    exact add_nonpos (h x (by simp)) (sum_nonpos_list l fun y hy => h y (by simp [hy]))

section
variable {m : Mesh XR} {p : Nat → E3}

theorem guard_iff (G : m.Good) (A : m.AtE p) {e : Nat} (a : m.hAlive e = true) (t : m.TriRing (m.hSrc (m.hRev e))) :
    CollapseGuard m e (m.hRev e) ↔ m.MayCollapse p e := by
  have w := G.wf
  have ar := w.rev_alive _ a
  have ak := w.src_alive _ a
  have aq := w.src_alive _ ar
  have hlink : ((m.nbrs (m.hSrc e)).filter (fun d => (m.nbrs (m.hSrc (m.hRev e))).contains d)).length =
      (m.outs (m.hSrc e)).countP (fun x => (m.outs (m.hSrc (m.hRev e))).any fun y => m.hSrc (m.hNext y) == m.hSrc (m.hNext x)) := by
    rw [← List.countP_eq_length_filter]
    unfold Mesh.nbrs
    rw [List.countP_map]
    refine Eq.trans ?_ ((w.ring_perm ak).countP_eq _)
    apply List.countP_congr
    intro x _
    rw [Function.comp_apply, List.contains_iff_mem, List.mem_map, List.any_eq_true]
    constructor
    · rintro ⟨y, hy, e'⟩
      exact ⟨y, (w.ring_perm aq).mem_iff.1 hy, by rw [e', beq_self_eq_true]⟩
    · rintro ⟨y, hy, e'⟩
      exact ⟨y, (w.ring_perm aq).mem_iff.2 hy, beq_iff_eq.1 e'⟩
  have hg := ring_geom w A ak aq t
  constructor
  · intro C
    obtain ⟨g1, g2⟩ := hg.1 C.geom
    exact ⟨fun x ax hx => hx.elim (C.b0 x ax) (C.b1 x ax), ⟨C.d0, C.d2⟩, ⟨C.d1, C.d3⟩, by rw [← hlink]; exact C.link, g1, g2⟩
  · intro C
    exact ⟨fun x ax hx => C.flags x ax (Or.inl hx), fun x ax hx => C.flags x ax (Or.inr hx), C.ends.1, C.sides.1, C.ends.2, C.sides.2,
      by rw [hlink]; exact C.link, hg.2 ⟨C.area, C.signs⟩⟩

/-- `collapseHE` in exact arithmetic accepts an edge if and only if it may be collapsed -/
theorem collapseHE_accept (G : m.Good) (A : m.AtE p) {h e : Nat} (a : m.hAlive h = true)
    (he : e = if m.outDeg (m.hSrc (m.hRev h)) < m.outDeg (m.hSrc h) then m.hRev h else h) (t : m.TriRing (m.hSrc (m.hRev e))) :
    (m.MayCollapse p e → ∃ m', collapseHE h m = .ok true m' ∧ CollapseDone m m' (m.hSrc e) (m.hSrc (m.hRev e))) ∧ (¬ m.MayCollapse p e → collapseHE h m = .ok false m) := by
  have w := G.wf
  have ae : m.hAlive e = true := by rw [he]; split; exacts [w.rev_alive _ a, a]
  have ht : collapseHE h m = collapseTail e (m.hRev e) m := by
    rw [collapseHE_tail w a, he]
    split
    · rw [w.rev_rev _ a]
    · rfl
  obtain ⟨k1, k2⟩ := collapseTail_ok G ae rfl
  rw [guard_iff G A ae t] at k1 k2
  refine ⟨fun C => ?_, fun C => by rw [ht, k1 C]⟩
  obtain ⟨t1, t2, e1⟩ := k2 C
  have C' := (guard_iff G A ae t).2 C
  have D := Diamond.mk' w G.simple ae t1 t2
  have W := Wings.mk' w G.simple D (by have := C'.d2; omega)
  have c := collapseCommit_ok w D W ((w.fb_false ae).2 C'.b0) ((w.fb_false D.ar).2 C'.b1)
  obtain ⟨x, hx, -⟩ := A _ (w.src_alive _ D.ar)
  obtain ⟨m', h1, R⟩ := c.1 (by rw [hx, Vec3.X_veq, Vec3.R_veq])
  exact ⟨m', by rw [ht, e1, h1], collapse_done G C' D W R⟩

/-- the faces of a ring moved to another place -/
theorem movedSign_sum (w : m.WF) {k q : Nat} (aq : m.vAlive q = true) (t : m.TriRing q) :
    ((m.outs q).map (m.movedSign p k)).sum = inner ℝ (m.starArea p q) (m.starArea p q) := by
  have key : ∀ c : E3, ((m.outs q).map fun h => triNormal c (p (m.hSrc (m.hNext h))) (p (m.hSrc (m.hNext (m.hNext h))))).sum =
      ((m.outs q).map fun h => triNormal 0 (p (m.hSrc (m.hNext h))) (p (m.hSrc (m.hNext (m.hNext h))))).sum := by
    intro c
    have e : ∀ x y : E3, triNormal c x y = triNormal 0 x y + (triNormal 0 c x - triNormal 0 c y) := by
      intro x y
      obtain ⟨c, rfl⟩ := Vec3.E_surj c
      obtain ⟨x, rfl⟩ := Vec3.E_surj x
      obtain ⟨y, rfl⟩ := Vec3.E_surj y
      rw [← E_zero, triNormal_E, triNormal_E, triNormal_E, triNormal_E, ← Vec3.E_sub, ← Vec3.E_add]
      congr 1
      apply Vec3.ext' <;> simp only [Vec3.cross_def, Vec3.sub_def, Vec3.add_def, Vec3.zero_def] <;> ring
    have e2 : ((m.outs q).map fun h => triNormal c (p (m.hSrc (m.hNext h))) (p (m.hSrc (m.hNext (m.hNext h))))) =
        (m.outs q).map fun h => triNormal 0 (p (m.hSrc (m.hNext h))) (p (m.hSrc (m.hNext (m.hNext h)))) +
          (triNormal 0 c (p (m.hSrc (m.hNext h))) - triNormal 0 c (p (m.hSrc (m.hNext (m.hNext h))))) :=
      List.map_congr_left fun h _ => e _ _
    rw [e2, List.sum_map_add]
    have z : ((m.outs q).map fun h => triNormal 0 c (p (m.hSrc (m.hNext h))) - triNormal 0 c (p (m.hSrc (m.hNext (m.hNext h))))).sum = 0 := by
      rw [w.outs_sum aq, ← w.ring_shift aq fun h => triNormal 0 c (p (m.hSrc (m.hNext h))) - triNormal 0 c (p (m.hSrc (m.hNext (m.hNext h))))]
      have e3 : ((orbit m.sig (m.vHe q)).map fun y => triNormal 0 c (p (m.hSrc (m.hNext (m.sig y)))) -
          triNormal 0 c (p (m.hSrc (m.hNext (m.hNext (m.sig y)))))) =
          (orbit m.sig (m.vHe q)).map fun y => triNormal 0 c (p (m.hSrc (m.hNext (m.sig y)))) + -triNormal 0 c (p (m.hSrc (m.hNext y))) := by
        apply List.map_congr_left
        intro y hy
        obtain ⟨ay, sy⟩ := (w.mem_ring aq).1 hy
        rw [w.tri_sig ay (t _ (w.sig_alive ay) (by rw [w.sig_src ay, sy])), sub_eq_add_neg]
      rw [e3, List.sum_map_add, sum_map_neg_list, w.ring_shift aq fun y => triNormal 0 c (p (m.hSrc (m.hNext y))), add_neg_cancel]
    rw [z, add_zero]
  have e1 : m.starArea p q = ((m.outs q).map fun h => triNormal (p k) (p (m.hSrc (m.hNext h))) (p (m.hSrc (m.hNext (m.hNext h))))).sum := by
    rw [key (p k), ← key (p q)]
    rfl
  conv_rhs => rw [e1]
  rw [real_inner_comm, inner_sum_list]
  congr 1
  apply List.map_congr_left
  intro h hh
  have sh : m.hSrc h = q := ((w.mem_ring aq).1 ((w.ring_perm aq).mem_iff.2 hh)).2
  rw [Mesh.movedSign, sh, real_inner_comm, e1]

/-- the end points of the ring: the two faces at the edge to `k` collapse -/
theorem movedSign_zero {k h : Nat} (hk : m.hSrc (m.hNext h) = k ∨ m.hSrc (m.hNext (m.hNext h)) = k) : m.movedSign p k h = 0 := by
  unfold Mesh.movedSign
  have : ∀ x : E3, triNormal (p k) (p k) x = 0 ∧ triNormal (p k) x (p k) = 0 := by
    intro x
    obtain ⟨c, hc⟩ := Vec3.E_surj (p k)
    obtain ⟨x, rfl⟩ := Vec3.E_surj x
    rw [← hc, triNormal_E, triNormal_E, ← E_zero, Vec3.E_inj, Vec3.E_inj]
    constructor <;> (apply Vec3.ext' <;> simp only [Vec3.cross_def, Vec3.sub_def, Vec3.zero_def] <;> ring)
  rcases hk with hk | hk
  · rw [hk, (this _).1, inner_zero_right]
  · rw [hk, (this _).2, inner_zero_right]

/-- no face is turned over if none becomes degenerate and the first half-edge is next to the edge -/
theorem no_turn (w : m.WF) (S : m.Simple) {e : Nat} (ae : m.hAlive e = true) (t : m.TriRing (m.hSrc (m.hRev e))) (C : m.MayCollapse p e)
    (h0 : m.hSrc e = m.hSrc (m.hNext (m.vHe (m.hSrc (m.hRev e)))) ∨ m.hSrc e = m.hSrc (m.hNext (m.hNext (m.vHe (m.hSrc (m.hRev e))))) ∨
      m.hSrc e = m.hSrc (m.hNext (m.sig (m.vHe (m.hSrc (m.hRev e))))))
    (nz : ∀ y, m.hAlive y = true → m.hSrc y = m.hSrc (m.hRev e) → m.hSrc (m.hNext y) ≠ m.hSrc e → m.hSrc (m.hNext (m.hNext y)) ≠ m.hSrc e →
      m.movedSign p (m.hSrc e) y ≠ 0) :
    ∀ y, m.hAlive y = true → m.hSrc y = m.hSrc (m.hRev e) → m.hSrc (m.hNext y) ≠ m.hSrc e → m.hSrc (m.hNext (m.hNext y)) ≠ m.hSrc e →
      0 < m.movedSign p (m.hSrc e) y := by
  have ar := w.rev_alive _ ae
  have aq := w.src_alive _ ar
  have hv := w.vHe_ok _ aq
  have hper := w.permSig.period_spec ar
  -- the ring from the edge on
  have hx : ∀ j, m.hAlive (m.sig^[j] (m.hRev e)) = true ∧ m.hSrc (m.sig^[j] (m.hRev e)) = m.hSrc (m.hRev e) := fun j =>
    ⟨w.permSig.iter ar j, w.sig_iter_src ar j⟩
  have hall : ∀ y, m.hAlive y = true → m.hSrc y = m.hSrc (m.hRev e) → ∃ i, i < period m.sig (m.hRev e) ∧ m.sig^[i] (m.hRev e) = y := by
    intro y ay sy
    have h1 := (w.permSig.mem_orbit hv.1).1 ((w.mem_ring aq).2 ⟨ay, sy⟩)
    have h2 := (w.permSig.mem_orbit hv.1).1 ((w.mem_ring aq).2 ⟨ar, rfl⟩)
    obtain ⟨i, rfl⟩ := h1
    obtain ⟨j, hj⟩ := h2
    obtain ⟨k, hk⟩ := w.permSig.back hv.1 j
    rw [hj] at hk
    have : m.sig^[i + k] (m.hRev e) = m.sig^[i] (m.vHe (m.hSrc (m.hRev e))) := by rw [Function.iterate_add_apply, hk]
    refine ⟨(i + k) % period m.sig (m.hRev e), Nat.mod_lt _ hper.1, ?_⟩
    rw [← w.permSig.iter_mod ar, this]
  have ek : m.hSrc (m.hNext (m.hRev e)) = m.hSrc e := by
    rw [← w.src_rev _ ar, w.rev_rev _ ae]
  have nxt : ∀ y, m.hAlive y = true → m.hSrc y = m.hSrc (m.hRev e) → m.hSrc (m.hNext (m.hNext (m.sig y))) = m.hSrc (m.hNext y) := fun y ay sy =>
    w.tri_sig ay (t _ (w.sig_alive ay) (by rw [w.sig_src ay, sy]))
  -- the half-edge to `k` is the only one
  have uniq : ∀ y, m.hAlive y = true → m.hSrc y = m.hSrc (m.hRev e) → m.hSrc (m.hNext y) = m.hSrc e → y = m.hRev e := fun y ay sy dy =>
    S.no_dup _ _ ay ar sy (by rw [dy, ek])
  have touch : ∀ i, 2 ≤ i → i < period m.sig (m.hRev e) → m.hSrc (m.hNext (m.sig^[i] (m.hRev e))) ≠ m.hSrc e ∧
      m.hSrc (m.hNext (m.hNext (m.sig^[i] (m.hRev e)))) ≠ m.hSrc e := by
    intro i h2 hi
    constructor
    · intro h
      exact hper.2.2 i (by omega) hi (uniq _ (hx i).1 (hx i).2 h)
    · obtain ⟨j, rfl⟩ : ∃ j, i = j + 1 := ⟨i - 1, by omega⟩
      rw [Function.iterate_succ_apply', nxt _ (hx j).1 (hx j).2]
      intro h
      exact hper.2.2 j (by omega) (by omega) (uniq _ (hx j).1 (hx j).2 h)
  have zero : ∀ y, m.hAlive y = true → m.hSrc y = m.hSrc (m.hRev e) → (¬ (m.hSrc (m.hNext y) ≠ m.hSrc e ∧ m.hSrc (m.hNext (m.hNext y)) ≠ m.hSrc e)) →
      m.movedSign p (m.hSrc e) y = 0 := by
    intro y _ _ h
    apply movedSign_zero
    by_contra hc
    push Not at hc
    exact h hc
  -- consecutive faces have the same sign
  have step : ∀ i, 2 ≤ i → i + 1 < period m.sig (m.hRev e) →
      0 < m.movedSign p (m.hSrc e) (m.sig^[i] (m.hRev e)) * m.movedSign p (m.hSrc e) (m.sig^[i + 1] (m.hRev e)) := by
    intro i h2 hi
    have hne : m.sig^[i] (m.hRev e) ≠ m.vHe (m.hSrc (m.hRev e)) := by
      intro h
      rw [← h] at h0
      rcases h0 with h0 | h0 | h0
      · exact (touch i h2 (by omega)).1 h0.symm
      · exact (touch i h2 (by omega)).2 h0.symm
      · rw [← Function.iterate_succ_apply' m.sig] at h0
        exact (touch (i + 1) (by omega) hi).1 h0.symm
    have h1 := C.signs _ (hx i).1 (hx i).2 hne
    change 0 ≤ _ * m.movedSign p (m.hSrc e) (m.sig (m.sig^[i] (m.hRev e))) at h1
    rw [← Function.iterate_succ_apply' m.sig] at h1
    obtain ⟨a1, a2⟩ := touch i h2 (by omega)
    obtain ⟨b1, b2⟩ := touch (i + 1) (by omega) hi
    exact lt_of_le_of_ne h1 (mul_ne_zero (nz _ (hx i).1 (hx i).2 a1 a2) (nz _ (hx (i + 1)).1 (hx (i + 1)).2 b1 b2)).symm
  have same : ∀ i, 2 ≤ i → i < period m.sig (m.hRev e) →
      0 < m.movedSign p (m.hSrc e) (m.sig^[2] (m.hRev e)) * m.movedSign p (m.hSrc e) (m.sig^[i] (m.hRev e)) := by
    intro i h2
    induction i, h2 using Nat.le_induction with
    | base =>
      intro hi
      obtain ⟨a1, a2⟩ := touch 2 le_rfl hi
      exact mul_self_pos.2 (nz _ (hx 2).1 (hx 2).2 a1 a2)
    | succ i h2 ih =>
      intro hi
      have i1 := ih (by omega)
      have i2 := step i h2 hi
      have : 0 < (m.movedSign p (m.hSrc e) (m.sig^[2] (m.hRev e)) * m.movedSign p (m.hSrc e) (m.sig^[i + 1] (m.hRev e))) *
          (m.movedSign p (m.hSrc e) (m.sig^[i] (m.hRev e))) ^ 2 := by
        have := mul_pos i1 i2
        linarith
      exact pos_of_mul_pos_left this (sq_nonneg _)
  have tot : 0 < ((m.outs (m.hSrc (m.hRev e))).map (m.movedSign p (m.hSrc e))).sum := by
    rw [movedSign_sum w aq t, real_inner_self_eq_norm_sq]
    have := norm_pos_iff.2 C.area
    positivity
  have pos2 : ∀ i, 2 ≤ i → i < period m.sig (m.hRev e) → 0 < m.movedSign p (m.hSrc e) (m.sig^[i] (m.hRev e)) := by
    intro i h2 hi
    by_contra hc
    have s1 := same i h2 hi
    have s2 : m.movedSign p (m.hSrc e) (m.sig^[2] (m.hRev e)) < 0 := by
      by_contra h'
      have := mul_nonpos_of_nonneg_of_nonpos (not_lt.1 h') (not_lt.1 hc)
      linarith
    have : ((m.outs (m.hSrc (m.hRev e))).map (m.movedSign p (m.hSrc e))).sum ≤ 0 := by
      apply sum_nonpos_list
      intro x hx'
      obtain ⟨y, hy, rfl⟩ := List.mem_map.1 hx'
      obtain ⟨ay, sy⟩ := (w.mem_ring aq).1 ((w.ring_perm aq).mem_iff.2 hy)
      by_cases hz : m.hSrc (m.hNext y) ≠ m.hSrc e ∧ m.hSrc (m.hNext (m.hNext y)) ≠ m.hSrc e
      · obtain ⟨j, hj, rfl⟩ := hall y ay sy
        have j2 : 2 ≤ j := by
          rcases j with _ | _ | j
          · exact absurd ek hz.1
          · exfalso
            apply hz.2
            change m.hSrc (m.hNext (m.hNext (m.sig (m.hRev e)))) = _
            rw [nxt _ ar rfl, ek]
          · omega
        have s3 := same j j2 hj
        by_contra h'
        have := mul_neg_of_neg_of_pos s2 (not_le.1 h')
        linarith
      · exact (zero y ay sy hz).le
    linarith
  intro y ay sy y1 y2
  obtain ⟨j, hj, rfl⟩ := hall y ay sy
  apply pos2 j _ hj
  rcases j with _ | _ | j
  · exact absurd ek y1
  · exfalso
    apply y2
    change m.hSrc (m.hNext (m.hNext (m.sig (m.hRev e)))) = _
    rw [nxt _ ar rfl, ek]
  · omega

end
end TinyMesh
