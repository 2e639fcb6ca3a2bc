import Verif.Proof.OperB
import Verif.Spec.Fairing
import Mathlib.LinearAlgebra.Matrix.ToLinearEquiv
/-
Implicit fairing: the system that is solved, and the maximum principle.
-/
namespace TinyMesh
open Orbit

section
variable {F : Type} [Scalar F] {m : Mesh F}

theorem posRows_ok (w : m.WF) : ∀ is : List Nat, (∀ i ∈ is, i < m.vs.length) →
    posRows is m = .ok (is.map fun i => m.vPos (m.vs.getD i 0)) m
  | [], _ => rfl
  | i :: is, h => by
    have hv : m.vs[i]? = some _ := List.getElem?_eq_getElem (h i (by simp))
    unfold posRows
    rw [bind_apply, vertexAt_ok hv]; dsimp only
    rw [bind_apply, getPos_ok (w.vDense.alive_at hv)]; dsimp only
    rw [bind_apply, posRows_ok w is fun x hx => h x (by simp [hx])]
    simp [List.getD_eq_getElem?_getD, hv]

omit [Scalar F] in
theorem setPos_run {v : Nat} (a : m.vAlive v = true) (x : Vec3 F) : setPos v x m = .ok () { m with vPos := upd m.vPos v x } := by
  simp [setPos, a]

theorem putRows_ok (x : Nat → Vec3 F) : ∀ (is : List Nat) {m : Mesh F}, m.WF → is.Nodup → (∀ i ∈ is, i < m.vs.length) →
    ∃ m', putRows x is m = .ok () m' ∧ m.SameButPos m' ∧ (∀ i ∈ is, ∀ v, m.vs[i]? = some v → m'.vPos v = x i) ∧
      ∀ v, (∀ i ∈ is, m.vs[i]? ≠ some v) → m'.vPos v = m.vPos v
  | [], m, _, _, _ => ⟨m, rfl, rfl, by simp, fun _ _ => rfl⟩
  | i :: is, m, w, nd, h => by
    have hl := h i (by simp)
    have hv : m.vs[i]? = some m.vs[i] := List.getElem?_eq_getElem hl
    have a := w.vDense.alive_at hv
    obtain ⟨m', r, s, e1, e2⟩ := putRows_ok x is (m := { m with vPos := upd m.vPos m.vs[i] (x i) }) (w.setPos _) (List.nodup_cons.1 nd).2
      fun j hj => h j (by simp [hj])
    have ni : ∀ j ∈ is, m.vs[j]? ≠ some m.vs[i] := by
      intro j hj e
      obtain ⟨h1, h2⟩ := List.getElem?_eq_some_iff.1 e
      have := (List.Nodup.getElem_inj_iff w.vDense.nodup).1 h2
      subst this
      exact (List.nodup_cons.1 nd).1 hj
    refine ⟨m', ?_, s, ?_, ?_⟩
    · unfold putRows
      rw [bind_apply, vertexAt_ok hv]; dsimp only
      rw [bind_apply, setPos_run a]
      exact r
    · intro j hj v hjv
      rcases List.mem_cons.1 hj with rfl | hj
      · rw [hv] at hjv
        cases hjv
        rw [e2 _ ni]
        exact upd_same _ _ _
      · exact e1 j hj v hjv
    · intro v hn
      rw [e2 v fun j hj => hn j (by simp [hj])]
      exact upd_ne _ _ fun e : v = m.vs[i] => hn i (by simp) (by rw [hv, e])

end

section
variable {F : Type} {m : Mesh F} {p : Nat → E3}

/-- the sum of the cotangent weights is positive -/
theorem Mesh.Weighted.out (h : m.Weighted p) (w : m.WF) {v : Nat} (a : m.vAlive v = true) : 0 < m.weightOut (m.cotOf p) v := by
  obtain ⟨x, ax, sx, px⟩ := h.pos v a
  unfold Mesh.weightOut
  have hn : ∀ y ∈ (m.hes.filter fun h => m.hSrc h == v).map (m.cotOf p), 0 ≤ y := by
    intro y hy
    obtain ⟨z, hz, rfl⟩ := List.mem_map.1 hy
    exact h.nonneg z ((w.hDense.mem z).1 (List.mem_filter.1 hz).1)
  refine lt_of_lt_of_le px (List.single_le_sum hn _ (List.mem_map_of_mem (List.mem_filter.2 ⟨(w.hDense.mem x).2 ax, ?_⟩)))
  rw [beq_iff_eq]; exact sx

theorem Mesh.Weighted.share_nonneg (h : m.Weighted p) (w : m.WF) {x : Nat} (a : m.hAlive x = true) : 0 ≤ m.share p x :=
  div_nonneg (h.nonneg x a) (h.out w (w.src_alive x a)).le

theorem share_sum (w : m.WF) {v : Nat} (ne : m.weightOut (m.cotOf p) v ≠ 0) :
    ((m.hes.filter fun h => m.hSrc h == v).map (m.share p)).sum = 1 := by
  have : ((m.hes.filter fun h => m.hSrc h == v).map (m.share p)) =
      ((m.hes.filter fun h => m.hSrc h == v).map fun h => m.cotOf p h / m.weightOut (m.cotOf p) v) := by
    refine List.map_congr_left fun x hx => ?_
    have := (List.mem_filter.1 hx).2
    rw [beq_iff_eq] at this
    unfold Mesh.share
    rw [this]
  rw [this]
  have e : ∀ (l : List Nat) (c : ℝ), (l.map fun h => m.cotOf p h / c).sum = (l.map (m.cotOf p)).sum / c := by
    intro l c
    induction l with
    | nil => simp
    | cons x l ih => rw [List.map_cons, List.sum_cons, ih, List.map_cons, List.sum_cons, add_div]
  rw [e]
  exact div_self ne

theorem wsum_le (l : List Nat) (s x : Nat → ℝ) (c : ℝ) (h0 : ∀ h ∈ l, 0 ≤ s h) (hx : ∀ h ∈ l, x h ≤ c) :
    (l.map fun h => s h * x h).sum ≤ (l.map s).sum * c := by
  induction l with
  | nil => simp
  | cons a l ih =>
    have := ih (fun h hh => h0 h (by simp [hh])) (fun h hh => hx h (by simp [hh]))
    have h1 := mul_le_mul_of_nonneg_left (hx a (by simp)) (h0 a (by simp))
    simp only [List.map_cons, List.sum_cons, add_mul]
    linarith

/-- maximum principle: a solution is nowhere larger than a bound of the right-hand side -/
theorem max_principle (W : m.Weighted p) (w : m.WF) {eps : ℝ} (he : 0 ≤ eps) {x b : Nat → ℝ} {c : ℝ}
    (hs : ∀ v, m.vAlive v = true → x v - b v =
      eps * (((m.hes.filter fun h => m.hSrc h == v).map fun h => m.share p h * x (m.hSrc (m.hNext h))).sum - x v))
    (hb : ∀ v, m.vAlive v = true → b v ≤ c) : ∀ v, m.vAlive v = true → x v ≤ c := by
  intro v0 a0
  have hne : m.vs ≠ [] := List.ne_nil_of_mem ((w.vDense.mem v0).2 a0)
  obtain ⟨v, hv, hm⟩ : ∃ v ∈ m.vs, ∀ u ∈ m.vs, x u ≤ x v := by
    obtain ⟨v, hv⟩ : ∃ v, v ∈ List.argmax x m.vs := by
      cases h : List.argmax x m.vs with
      | none => exact absurd (List.argmax_eq_none.1 h) hne
      | some v => exact ⟨v, rfl⟩
    exact ⟨v, List.argmax_mem hv, fun u hu => List.le_of_mem_argmax hu hv⟩
  have av := (w.vDense.mem v).1 hv
  have h1 := wsum_le (m.hes.filter fun h => m.hSrc h == v) (m.share p) (fun h => x (m.hSrc (m.hNext h))) (x v)
    (fun h hh => W.share_nonneg w ((w.hDense.mem h).1 (List.mem_filter.1 hh).1))
    (fun h hh => hm _ ((w.vDense.mem _).2 (w.src_alive _ (w.next_alive _ ((w.hDense.mem h).1 (List.mem_filter.1 hh).1)))))
  rw [share_sum w (W.out w av).ne', one_mul] at h1
  have h2 := hs v av
  have h3 := hb v av
  have h4 := mul_nonneg he (sub_nonneg.2 h1)
  have h5 := hm v0 ((w.vDense.mem v0).2 a0)
  have : eps * (((m.hes.filter fun h => m.hSrc h == v).map fun h => m.share p h * x (m.hSrc (m.hNext h))).sum - x v) ≤ 0 := by
    rw [← neg_nonneg, ← mul_neg, neg_sub]; exact h4
  linarith

/-- the real matrix of the system -/
noncomputable def Mesh.fairMat (m : Mesh F) (eps : ℝ) (p : Nat → E3) : Matrix (Fin m.vs.length) (Fin m.vs.length) ℝ :=
  fun i j => (if i = j then 1 else 0) - eps * m.lapMat (fun h => -(m.share p h)) i j

theorem fairMat_apply (w : m.WF) (eps : ℝ) (x : Nat → ℝ) (i : Fin m.vs.length) (ne : m.weightOut (m.cotOf p) m.vs[i] ≠ 0) :
    (m.fairMat eps p).mulVec (fun j => x m.vs[j]) i = x m.vs[i] -
      eps * (((m.hes.filter fun h => m.hSrc h == m.vs[i]).map fun h => m.share p h * x (m.hSrc (m.hNext h))).sum - x m.vs[i]) := by
  have h1 := lapMat_apply w (fun h => -(m.share p h)) x i
  have h2 := share_sum (p := p) w ne
  unfold Mesh.fairMat
  change ∑ j : Fin m.vs.length, _ * x m.vs[j] = _
  simp only [sub_mul, Finset.sum_sub_distrib, ite_mul, one_mul, zero_mul, Finset.sum_ite_eq, Finset.mem_univ, if_true, mul_assoc]
  rw [← Finset.mul_sum, h1]
  congr 2
  have e : ∀ l : List Nat, (l.map fun h => -(m.share p h) * (x m.vs[i] - x (m.hSrc (m.hNext h)))).sum =
      (l.map fun h => m.share p h * x (m.hSrc (m.hNext h))).sum - (l.map (m.share p)).sum * x m.vs[i] := by
    intro l
    induction l with
    | nil => simp
    | cons a l ih => simp only [List.map_cons, List.sum_cons, ih]; ring
  rw [e, h2, one_mul]

theorem exists_fun (w : m.WF) (x : Fin m.vs.length → ℝ) : ∃ y : Nat → ℝ, ∀ i : Fin m.vs.length, y m.vs[i] = x i := by
  refine ⟨fun v => if h : (m.vIdx v).toNat < m.vs.length then x ⟨(m.vIdx v).toNat, h⟩ else 0, fun i => ?_⟩
  have hv : m.vs[(i : Nat)]? = some m.vs[i] := List.getElem?_eq_getElem i.2
  have := w.vDense.idx_of hv
  dsimp only
  rw [this]
  simp

theorem fairMat_det (W : m.Weighted p) (w : m.WF) {eps : ℝ} (he : 0 ≤ eps) : (m.fairMat eps p).det ≠ 0 := by
  intro h
  obtain ⟨x, hx, h0⟩ := Matrix.exists_mulVec_eq_zero_iff.2 h
  obtain ⟨y, hy⟩ := exists_fun w x
  have ex : (fun j : Fin m.vs.length => y m.vs[j]) = x := funext hy
  have key : ∀ v, m.vAlive v = true → y v - 0 =
      eps * (((m.hes.filter fun h => m.hSrc h == v).map fun h => m.share p h * y (m.hSrc (m.hNext h))).sum - y v) := by
    intro v a
    obtain ⟨i, hi, rfl⟩ := List.mem_iff_getElem.1 ((w.vDense.mem v).2 a)
    have h1 := fairMat_apply (p := p) w eps y ⟨i, hi⟩ (W.out w a).ne'
    rw [ex, h0] at h1
    have h1 : (0 : ℝ) = _ := h1
    have h1 := sub_eq_zero.1 h1.symm
    rw [sub_zero]
    exact h1
  have up := max_principle W w he (x := y) (b := fun _ => 0) (c := 0) key (fun _ _ => le_refl _)
  have dn := max_principle W w he (x := fun v => -(y v)) (b := fun _ => 0) (c := 0) (fun v a => by
    have := key v a
    have e : ∀ l : List Nat, (l.map fun h => m.share p h * -(y (m.hSrc (m.hNext h)))).sum =
        -(l.map fun h => m.share p h * y (m.hSrc (m.hNext h))).sum := by
      intro l
      induction l with
      | nil => simp
      | cons a l ih => simp only [List.map_cons, List.sum_cons, ih]; ring
    rw [e]
    rw [sub_zero] at this ⊢
    linarith) (fun _ _ => le_refl _)
  refine hx (funext fun i => ?_)
  have a := w.vDense.alive_at (List.getElem?_eq_getElem i.2)
  rw [← hy i]
  have h1 := up _ a
  have h2 := dn _ a
  exact le_antisymm h1 (by simpa using h2)

end

section
variable {m : Mesh XR} {p : Nat → E3}

theorem fairLoop_ok (wf : m.WF) (A : m.AtE p) : ∀ (hs : List Nat) (s : ℝ), (∀ h ∈ hs, m.hAlive h = true) →
    fairLoop hs (XR.fin s) m = .ok ((hs.map fun h => (m.vIdx (m.hSrc (m.hNext h)), XR.fin (m.cotOf p h))),
      XR.fin (s + (hs.map (m.cotOf p)).sum)) m
  | [], s, _ => by simp [fairLoop]
  | h :: hs, s, ha => by
    have a := ha h (by simp)
    have a1 := wf.next_alive h a
    unfold fairLoop
    rw [bind_apply, cotWeight_exact wf A a]; dsimp only
    rw [bind_apply, getDst_ok a a1]; dsimp only
    rw [bind_apply, getVIdx_ok (wf.src_alive _ a1)]; dsimp only
    rw [X_add, bind_apply, fairLoop_ok wf A hs _ fun x hx => ha x (by simp [hx])]
    simp [add_assoc]

theorem fairRow_ok (wf : m.WF) (A : m.AtE p) {i v : Nat} (hi : m.vs[i]? = some v) (ne : m.weightOut (m.cotOf p) v ≠ 0) :
    fairRow i m = .ok ((rowT m (fun h => -(m.share p h)) i v).map finT) m := by
  have a := wf.vDense.alive_at hi
  have hl : (Scalar.lit 0 1 : XR) = XR.fin 0 := by rw [X_lit, R_lit0]
  unfold fairRow
  rw [bind_apply, vertexAt_ok hi]; dsimp only
  rw [bind_apply, wf.ringList_ok a]; dsimp only
  rw [bind_apply, hl, fairLoop_ok wf A _ _ fun h hh => ((wf.mem_ring a).1 hh).1]; dsimp only
  rw [bind_apply, getPos_ok a]
  dsimp only
  rw [pure_apply]
  rw [zero_add, ← wf.weightOut_ring a]
  congr 1
  unfold rowT
  rw [List.map_append, List.map_map, List.map_map]
  congr 1
  · refine List.map_congr_left fun x hx => ?_
    simp only [Function.comp, finT, neg_neg]
    rw [X_div (h := ne), Mesh.share, ((wf.mem_ring a).1 hx).2]
  · have := share_sum (p := p) wf ne
    have e : ((orbit m.sig (m.vHe v)).map fun h => -(m.share p h)).sum = -1 := by
      rw [← wf.weightOut_ring a, ← this]
      unfold Mesh.weightOut
      generalize m.hes.filter _ = l
      induction l with
      | nil => simp
      | cons x l ih => simp only [List.map_cons, List.sum_cons, ih]; ring
    rw [e]
    simp [finT, R_lit]

theorem fairMatrix_ok (wf : m.WF) (A : m.AtE p) (eps : ℝ) (ne : ∀ v, m.vAlive v = true → m.weightOut (m.cotOf p) v ≠ 0) :
    ∃ L, fairMatrix (XR.fin eps) m = .ok L m ∧ m.HasMatrix L (m.fairMat eps p) := by
  obtain ⟨ts, K, h1, h2, h3⟩ := laplacian_of wf (w := fun h => -(m.share p h)) (row := fairRow)
    (fun i v hi => fairRow_ok wf A hi (ne v (wf.vDense.alive_at hi)))
  refine ⟨fun i j => (if i = j then Scalar.lit 1 1 else Scalar.lit 0 1) - XR.fin eps * K i j, ?_, ?_⟩
  · unfold fairMatrix
    rw [bind_apply, read_apply]
    dsimp only
    rw [bind_apply, h1]
    dsimp only
    rw [bind_apply, h2]
    rfl
  · intro i j
    dsimp only
    rw [h3.hasMatrix i j]
    unfold Mesh.fairMat
    by_cases c : i = j
    · rw [if_pos (by rw [c]), if_pos c]
      simp [R_lit]
    · rw [if_neg (fun e => c (Fin.ext e)), if_neg c]
      simp [R_lit]

end
end TinyMesh

namespace TinyMesh
variable {m : Mesh XR} {p : Nat → E3}

theorem Vec3.Is.coords {a : Vec3 XR} {x : E3} (h : a.Is x) : a = ⟨XR.fin (x 0), XR.fin (x 1), XR.fin (x 2)⟩ := by
  obtain ⟨w, rfl, rfl⟩ := h
  simp [Vec3.fin, Vec3.E]

theorem Vec3.Is.of (x y z : ℝ) : (⟨XR.fin x, XR.fin y, XR.fin z⟩ : Vec3 XR).Is !₂[x, y, z] := ⟨⟨x, y, z⟩, rfl, rfl⟩

theorem fairStep_exact (W : m.Weighted p) (wf : m.WF) (A : m.AtE p) {eps : ℝ} (he : 0 ≤ eps) {solve : LinSolve XR} (hS : solve.Exact) :
    ∃ m' q, fairStep solve (XR.fin eps) m = .ok () m' ∧ m.SameButPos m' ∧ m'.AtE q ∧ m.Faired eps p q := by
  obtain ⟨L, hL, hM⟩ := fairMatrix_ok wf A eps fun v a => (W.out wf a).ne'
  have hps := posRows_ok wf (List.range m.vs.length) (by simp)
  -- one coordinate
  have key : ∀ (c : Vec3 XR → XR) (k : Fin 3), (∀ v, m.vAlive v = true → c (m.vPos v) = XR.fin (p v k)) →
      ∃ y : Nat → ℝ, (∀ i v, m.vs[i]? = some v →
          solve m.vs.length L (fun i => ((((List.range m.vs.length).map fun i => m.vPos (m.vs.getD i 0))[i]?).map c).getD (Scalar.lit 0 1)) i =
            XR.fin (y v)) ∧
        ∀ v, m.vAlive v = true → y v - p v k =
          eps * (((m.hes.filter fun h => m.hSrc h == v).map fun h => m.share p h * y (m.hSrc (m.hNext h))).sum - y v) := by
    intro c k hc
    obtain ⟨x, h1, h2⟩ := hS m.vs.length (m.fairMat eps p) (fun i => p m.vs[i] k) L
      (fun i => ((((List.range m.vs.length).map fun i => m.vPos (m.vs.getD i 0))[i]?).map c).getD (Scalar.lit 0 1))
      (fairMat_det W wf he) hM (by
        intro i
        have hv : m.vs[(i : Nat)]? = some m.vs[i] := List.getElem?_eq_getElem i.2
        dsimp only
        rw [List.getElem?_map, List.getElem?_range i.2, Option.map_some, Option.map_some, Option.getD_some,
          List.getD_eq_getElem?_getD, hv, Option.getD_some, hc _ (wf.vDense.alive_at hv)])
    obtain ⟨y, hy⟩ := exists_fun wf x
    refine ⟨y, ?_, ?_⟩
    · intro i v hv
      obtain ⟨hi, rfl⟩ := List.getElem?_eq_some_iff.1 hv
      rw [h2 ⟨i, hi⟩, ← hy ⟨i, hi⟩]
      rfl
    · intro v a
      obtain ⟨i, hi, rfl⟩ := List.mem_iff_getElem.1 ((wf.vDense.mem v).2 a)
      have e := fairMat_apply (p := p) wf eps y ⟨i, hi⟩ (W.out wf a).ne'
      rw [show (fun j : Fin m.vs.length => y m.vs[j]) = x from funext hy, h1] at e
      have e : p m.vs[i] k = y m.vs[i] - _ := e
      rw [e]
      simp only [sub_sub_cancel]
      rfl
  have co : ∀ v, m.vAlive v = true → m.vPos v = ⟨XR.fin (p v 0), XR.fin (p v 1), XR.fin (p v 2)⟩ := fun v a => (A v a).coords
  obtain ⟨y0, s0, f0⟩ := key Vec3.x 0 (fun v a => by rw [co v a])
  obtain ⟨y1, s1, f1⟩ := key Vec3.y 1 (fun v a => by rw [co v a])
  obtain ⟨y2, s2, f2⟩ := key Vec3.z 2 (fun v a => by rw [co v a])
  obtain ⟨m', r, s, e, -⟩ := putRows_ok (solveRows solve m.vs.length L ((List.range m.vs.length).map fun i => m.vPos (m.vs.getD i 0)))
    (List.range m.vs.length) wf List.nodup_range (by simp)
  refine ⟨m', fun v => !₂[y0 v, y1 v, y2 v], ?_, s, ?_, ?_⟩
  · unfold fairStep
    rw [bind_apply, read_apply]
    dsimp only
    rw [bind_apply, hL]
    dsimp only
    rw [bind_apply, hps]
    exact r
  · intro v a
    have a' : m.vAlive v = true := by rw [s] at a; exact a
    obtain ⟨i, hv⟩ := List.mem_iff_getElem?.1 ((wf.vDense.mem v).2 a')
    rw [e i (by simpa using (List.getElem?_eq_some_iff.1 hv).1) v hv]
    unfold solveRows
    dsimp only
    rw [s0 i v hv, s1 i v hv, s2 i v hv]
    exact Vec3.Is.of _ _ _
  · intro v a
    have e : ∀ (l : List Nat) (k : Fin 3), ((l.map fun h => m.share p h •
        (!₂[y0 (m.hSrc (m.hNext h)), y1 (m.hSrc (m.hNext h)), y2 (m.hSrc (m.hNext h))] : E3)).sum) k =
        (l.map fun h => m.share p h * (!₂[y0 (m.hSrc (m.hNext h)), y1 (m.hSrc (m.hNext h)), y2 (m.hSrc (m.hNext h))] : E3) k).sum := by
      intro l k
      induction l with
      | nil => simp
      | cons x l ih => simp only [List.map_cons, List.sum_cons, PiLp.add_apply, ih, PiLp.smul_apply, smul_eq_mul]
    ext k
    simp only [PiLp.sub_apply, PiLp.smul_apply, smul_eq_mul, e]
    fin_cases k
    · exact f0 v a
    · exact f1 v a
    · exact f2 v a

section
variable {F : Type} {m : Mesh F} {p : Nat → E3}

theorem map_wsum (l : E3 →L[ℝ] ℝ) (s : Nat → ℝ) (q : Nat → E3) (hs : List Nat) :
    l ((hs.map fun h => s h • q h).sum) = (hs.map fun h => s h * l (q h)).sum := by
  induction hs with
  | nil => simp
  | cons a hs ih => simp only [List.map_cons, List.sum_cons, map_add, map_smul, smul_eq_mul, ih]

theorem Mesh.Faired.map {eps : ℝ} {q : Nat → E3} (h : m.Faired eps p q) (l : E3 →L[ℝ] ℝ) {v : Nat} (a : m.vAlive v = true) :
    l (q v) - l (p v) =
      eps * (((m.hes.filter fun h => m.hSrc h == v).map fun h => m.share p h * l (q (m.hSrc (m.hNext h)))).sum - l (q v)) := by
  have := congrArg l (h v a)
  rw [map_sub, map_smul, map_sub, smul_eq_mul] at this
  rw [this]
  congr 2
  exact map_wsum l (m.share p) (fun h => q (m.hSrc (m.hNext h))) _

theorem Mesh.Faired.le {eps : ℝ} {q : Nat → E3} (h : m.Faired eps p q) (W : m.Weighted p) (wf : m.WF) (he : 0 ≤ eps) (l : E3 →L[ℝ] ℝ) {c : ℝ}
    (hp : ∀ v, m.vAlive v = true → l (p v) ≤ c) : ∀ v, m.vAlive v = true → l (q v) ≤ c :=
  max_principle W wf he (x := fun v => l (q v)) (b := fun v => l (p v)) (fun _ a => h.map l a) hp

theorem Mesh.Faired.unique {eps : ℝ} {q q' : Nat → E3} (h : m.Faired eps p q) (h' : m.Faired eps p q') (W : m.Weighted p) (wf : m.WF)
    (he : 0 ≤ eps) : ∀ v, m.vAlive v = true → q v = q' v := by
  have half : ∀ q q' : Nat → E3, m.Faired eps p q → m.Faired eps p q' → ∀ (l : E3 →L[ℝ] ℝ) v, m.vAlive v = true → l (q v) - l (q' v) ≤ 0 := by
    intro q q' h h' l
    refine max_principle W wf he (x := fun v => l (q v) - l (q' v)) (b := fun _ => 0) (fun v a => ?_) (fun _ _ => le_refl _)
    have h1 := h.map l a
    have h2 := h'.map l a
    have e : ∀ hs : List Nat, (hs.map fun h => m.share p h * (l (q (m.hSrc (m.hNext h))) - l (q' (m.hSrc (m.hNext h))))).sum =
        (hs.map fun h => m.share p h * l (q (m.hSrc (m.hNext h)))).sum - (hs.map fun h => m.share p h * l (q' (m.hSrc (m.hNext h)))).sum := by
      intro hs
      induction hs with
      | nil => simp
      | cons a hs ih => simp only [List.map_cons, List.sum_cons, ih]; ring
    rw [e]
    linear_combination h1 - h2
  intro v a
  ext k
  have h1 := half q q' h h' (EuclideanSpace.proj k) v a
  have h2 := half q' q h' h (EuclideanSpace.proj k) v a
  change q v k - q' v k ≤ 0 at h1
  change q' v k - q v k ≤ 0 at h2
  linarith

end
end TinyMesh
