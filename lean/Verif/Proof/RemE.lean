import Verif.Proof.RemD
import Verif.Proof.LinesA
import Verif.Spec.Decide
/-
What the bodies of the remeshing loops decide.
-/
namespace TinyMesh
open Orbit

section
variable {F : Type} {m m' : Mesh F}

theorem Mesh.WF.loose_iff (w : m.WF) {h : Nat} (a : m.hAlive h = true) : m.Loose h ↔
    (orbit m.hNext (m.fHe (m.hFace h))).any (fun x => m.vLock (m.hSrc x)) = false ∧
    (orbit m.hNext (m.fHe (m.hFace (m.hRev h)))).any (fun x => m.vLock (m.hSrc x)) = false := by
  simp only [List.any_eq_false, w.mem_loop (w.face_alive _ a), w.mem_loop (w.face_alive _ (w.rev_alive _ a)), Bool.not_eq_true]
  exact ⟨fun h => ⟨fun x hx => h x hx.1 (Or.inl hx.2), fun x hx => h x hx.1 (Or.inr hx.2)⟩,
    fun h x ax hx => hx.elim (fun e => h.1 x ⟨ax, e⟩) (fun e => h.2 x ⟨ax, e⟩)⟩

theorem Mesh.WF.inner_iff (w : m.WF) {h : Nat} (a : m.hAlive h = true) : m.Inner h ↔
    (orbit m.hNext (m.fHe (m.hFace h))).any m.hBd = false ∧ (orbit m.hNext (m.fHe (m.hFace (m.hRev h)))).any m.hBd = false := by
  simp only [List.any_eq_false, w.mem_loop (w.face_alive _ a), w.mem_loop (w.face_alive _ (w.rev_alive _ a)), Bool.not_eq_true]
  exact ⟨fun h => ⟨fun x hx => h x hx.1 (Or.inl hx.2), fun x hx => h x hx.1 (Or.inr hx.2)⟩,
    fun h x ax hx => hx.elim (fun e => h.1 x ⟨ax, e⟩) (fun e => h.2 x ⟨ax, e⟩)⟩

theorem Mesh.Loose.ends (w : m.WF) {h : Nat} (a : m.hAlive h = true) (l : m.Loose h) :
    m.vLock (m.hSrc h) = false ∧ m.vLock (m.hSrc (m.hNext h)) = false :=
  ⟨l h a (Or.inl rfl), l _ (w.next_alive _ a) (Or.inl (w.face_next _ a))⟩

theorem Mesh.WF.idealDeg_eq [Scalar F] (w : m.WF) {v : Nat} (a : m.vAlive v = true) : valence v m = .ok (m.idealDeg v) m := by
  have : (orbit m.sig (m.vHe v)).any m.hBd = (m.outs v).any m.hBd := by
    rw [Bool.eq_iff_iff, List.any_eq_true, List.any_eq_true]
    refine exists_congr fun x => and_congr_left fun _ => ?_
    rw [w.mem_ring a, Mesh.outs, List.mem_filter, w.hDense.mem, beq_iff_eq]
  unfold valence Mesh.idealDeg
  simp [w.vIsBoundary_ok a, this]

/-- sums that differ at four places only -/
theorem sum_four {l : List Nat} (nd : l.Nodup) {f g : Nat → Nat} {p q r s : Nat} (hp : p ∈ l) (hq : q ∈ l) (hr : r ∈ l) (hs : s ∈ l)
    (D : p ≠ q ∧ p ≠ r ∧ p ≠ s ∧ q ≠ r ∧ q ≠ s ∧ r ≠ s)
    (h : ∀ v, v ≠ p → v ≠ q → v ≠ r → v ≠ s → f v = g v) :
    (l.map f).sum + (g p + g q + g r + g s) = (l.map g).sum + (f p + f q + f r + f s) := by
  obtain ⟨d1, d2, d3, d4, d5, d6⟩ := D
  rw [← List.sum_toFinset f nd, ← List.sum_toFinset g nd]
  have sub : ({p, q, r, s} : Finset Nat) ⊆ l.toFinset := by
    intro x hx
    simp only [Finset.mem_insert, Finset.mem_singleton] at hx
    rw [List.mem_toFinset]
    rcases hx with rfl | rfl | rfl | rfl <;> assumption
  have e : ∀ f : Nat → Nat, ∑ x ∈ ({p, q, r, s} : Finset Nat), f x = f p + f q + f r + f s := by
    intro f
    rw [Finset.sum_insert (by simp [d1, d2, d3]), Finset.sum_insert (by simp [d4, d5]), Finset.sum_insert (by simp [d6]),
      Finset.sum_singleton]
    ring
  rw [← Finset.sum_sdiff sub, ← Finset.sum_sdiff (f := g) sub, e f, e g]
  have : ∑ x ∈ l.toFinset \ {p, q, r, s}, f x = ∑ x ∈ l.toFinset \ {p, q, r, s}, g x := by
    refine Finset.sum_congr rfl fun x hx => ?_
    simp only [Finset.mem_sdiff, Finset.mem_insert, Finset.mem_singleton, not_or] at hx
    exact h x hx.2.1 hx.2.2.1 hx.2.2.2.1 hx.2.2.2.2
  omega

/-- the deviation after a flip -/
theorem FlipDone.devSum (w : m.WF) {p q r s : Nat} (d : FlipDone m m' p q r s) (src : ∀ x, m.hBd x = true → m'.hSrc x = m.hSrc x)
    (ap : m.vAlive p = true) (aq : m.vAlive q = true) (ar : m.vAlive r = true) (as : m.vAlive s = true) :
    m'.devSum < m.devSum ↔ valenceScore (m.outDeg p - 1) (m.outDeg q - 1) (m.outDeg r + 1) (m.outDeg s + 1) (m.idealDeg p) (m.idealDeg q)
      (m.idealDeg r) (m.idealDeg s) < valenceScore (m.outDeg p) (m.outDeg q) (m.outDeg r) (m.outDeg s) (m.idealDeg p) (m.idealDeg q)
      (m.idealDeg r) (m.idealDeg s) := by
  have T : ∀ v, m'.idealDeg v = m.idealDeg v := by
    intro v
    have : (m'.outs v).any m'.hBd = (m.outs v).any m.hBd := by
      rw [Bool.eq_iff_iff, List.any_eq_true, List.any_eq_true, d.bd]
      refine exists_congr fun x => and_congr_left fun hx => ?_
      rw [Mesh.outs, Mesh.outs, List.mem_filter, List.mem_filter, d.hes, src x hx]
    unfold Mesh.idealDeg
    rw [this]
  have S := sum_four w.vDense.nodup (f := m'.degDev) (g := m.degDev) ((w.vDense.mem p).2 ap) ((w.vDense.mem q).2 aq)
    ((w.vDense.mem r).2 ar) ((w.vDense.mem s).2 as) d.distinct (fun v h1 h2 h3 h4 => by
      unfold Mesh.degDev
      rw [T, d.degO v h1 h2 h3 h4])
  have e1 := d.degP; have e2 := d.degQ; have e3 := d.degR; have e4 := d.degS
  unfold Mesh.devSum
  rw [d.vs]
  unfold Mesh.degDev at S
  simp only [T] at S
  unfold valenceScore Mesh.degDev at *
  simp only [T] at *
  omega

end

section
variable {F : Type} [Scalar F] {m m' : Mesh F}

/-- the body of the loop of flips -/
theorem flipOne_iff (g : m.Good) {i h : Nat} (hi : m.hes[i]? = some h) :
    (∃ m', m.Loose h ∧ m.Inner h ∧ flipHE h m = .ok true m' ∧ m'.devSum < m.devSum ∧ m'.Good ∧ m'.hes = m.hes ∧ flipOne i m = .ok () m') ∨
    (¬ (m.Loose h ∧ m.Inner h ∧ ∃ m', flipHE h m = .ok true m' ∧ m'.devSum < m.devSum) ∧ flipOne i m = .ok () m) := by
  have w := g.wf
  obtain ⟨c, rfl⟩ := List.getElem?_eq_some_iff.1 hi
  have a := hes_alive w c
  have ar := w.rev_alive _ a
  have an := w.next_alive _ a
  have v0 := w.src_alive _ a
  have v1 := w.src_alive _ an
  have arn := w.next_alive _ ar
  have v2 := w.src_alive _ (w.next_alive _ an)
  have v3 := w.src_alive _ (w.next_alive _ arn)
  have L := w.loose_iff a
  have I := w.inner_iff a
  unfold flipOne
  simp only [bind_apply, halfedgeAt_ok c, getFace_ok a, w.fIsBoundary_ok (w.face_alive _ a)]
  split
  · next b => exact Or.inr ⟨fun h => (by rw [(I.1 h.2.1).1] at b; cases b), rfl⟩
  next b1 =>
  simp only [bind_apply, getRev_ok a, getFace_ok ar, w.fIsBoundary_ok (w.face_alive _ ar)]
  split
  · next b => exact Or.inr ⟨fun h => (by rw [(I.1 h.2.1).2] at b; cases b), rfl⟩
  next b2 =>
  simp only [bind_apply, w.fIsLocked_ok (w.face_alive _ a)]
  split
  · next b => exact Or.inr ⟨fun h => (by rw [(L.1 h.1).1] at b; cases b), rfl⟩
  next l1 =>
  simp only [bind_apply, w.fIsLocked_ok (w.face_alive _ ar)]
  split
  · next b => exact Or.inr ⟨fun h => (by rw [(L.1 h.1).2] at b; cases b), rfl⟩
  next l2 =>
  have loose : m.Loose m.hes[i] := L.2 ⟨by simpa using l1, by simpa using l2⟩
  have inner : m.Inner m.hes[i] := I.2 ⟨by simpa using b1, by simpa using b2⟩
  obtain ⟨e1, e2⟩ := loose.ends w a
  simp only [bind_apply, getSrc_ok a, getDst_ok a an, getNext_ok a, getDst_ok an (w.next_alive _ an), getNext_ok ar,
    getDst_ok arn (w.next_alive _ arn), getLock_ok v0, getLock_ok v1, e1, e2, w.degree_ok v0, w.degree_ok v1, w.degree_ok v2,
    w.degree_ok v3, w.idealDeg_eq v0, w.idealDeg_eq v1, w.idealDeg_eq v2, w.idealDeg_eq v3, Bool.false_eq_true, if_false]
  have n1 : ¬ m.hBd m.hes[i] = true := by rw [inner _ a (Or.inl rfl)]; simp
  have n2 : ¬ m.hBd (m.hRev m.hes[i]) = true := by rw [inner _ ar (Or.inr rfl)]; simp
  rcases flipHE_cases g a (g.onTri a (I.1 inner).1) (g.onTri ar (I.1 inner).2) with e | ⟨m', e, hm, d⟩
  · refine Or.inr ⟨fun h => ?_, ?_⟩
    · obtain ⟨m', e', -⟩ := h.2.2
      rw [e] at e'; cases e'
    · split
      · simp [e]
      · rfl
  · have src : ∀ x, m.hBd x = true → m'.hSrc x = m.hSrc x := fun x bx => by
      have c1 : x ≠ m.hes[i] := by rintro rfl; exact n1 bx
      have c2 : x ≠ m.hRev m.hes[i] := by rintro rfl; exact n2 bx
      rw [hm]
      simp [flipState, upd, c1, c2]
    have D := d.devSum w src v0 (w.src_alive _ ar) v2 v3
    rw [w.src_rev _ a] at D
    split
    · next c' =>
      refine Or.inl ⟨m', loose, inner, e, D.2 c', d.good, d.hes, ?_⟩
      simp [e]
    · next c' =>
      refine Or.inr ⟨fun h => ?_, rfl⟩
      obtain ⟨m'', e', h'⟩ := h.2.2
      rw [e] at e'; cases e'
      exact c' (D.1 h')

/-- which end of an edge is moved onto the other one -/
theorem collapseHE_side (g : m.Good) {h e : Nat} (a : m.hAlive h = true)
    (he : e = if m.outDeg (m.hSrc (m.hRev h)) < m.outDeg (m.hSrc h) then m.hRev h else h)
    (run : collapseHE h m = .ok true m') : CollapseDone m m' (m.hSrc e) (m.hSrc (m.hRev e)) := by
  have w := g.wf
  have key : ∀ he rev, m.hAlive he = true → m.hRev he = rev → collapseHE h m = collapseTail he rev m →
      CollapseDone m m' (m.hSrc he) (m.hSrc rev) := by
    intro he rev ah hr he1
    obtain ⟨k1, k2⟩ := collapseTail_ok g ah hr
    rw [he1] at run
    by_cases G : CollapseGuard m he rev
    · obtain ⟨t, t', e⟩ := k2 G
      have D := Diamond.mk' w g.simple ah t (hr ▸ t')
      rw [hr] at D
      have W := Wings.mk' w g.simple D (by have := G.d2; omega)
      have c := collapseCommit_ok w D W ((w.fb_false ah).2 G.b0) ((w.fb_false D.ar).2 G.b1)
      rw [e] at run
      by_cases hp : (m.vPos (m.hSrc rev)).eq (m.vPos (m.hSrc rev)) = true
      · obtain ⟨m2, e2, R⟩ := c.1 hp
        rw [e2] at run
        cases run
        have := collapse_done g G D W R
        rw [← W.s, ← W.sr] at this
        exact this
      · rw [c.2 hp] at run; cases run
    · rw [k1 G] at run; cases run
  have e := collapseHE_tail w a
  by_cases c : m.outDeg (m.hSrc (m.hRev h)) < m.outDeg (m.hSrc h)
  · rw [if_pos c] at e he
    rw [he, w.rev_rev _ a]
    exact key _ _ (w.rev_alive _ a) (w.rev_rev _ a) e
  · rw [if_neg c] at e he
    rw [he]
    exact key _ _ a rfl e

/-- the loop of flips -/
theorem flips_dev (g : m.Good) : ∃ m', forHalfedges flipOne m = .ok () m' ∧ m'.Good ∧ m'.devSum ≤ m.devSum := by
  have run : ∀ (i : Nat) (m : Mesh F), m.Good → i < m.hes.length →
      (∃ a m', flipOne i m = .ok a m' ∧ (m'.Good ∧ m'.devSum ≤ m.devSum) ∧ m'.hes.length = m.hes.length) ∨
        ∃ e, False ∧ flipOne i m = .err e := by
    intro i m g c
    rcases flipOne_iff g (List.getElem?_eq_getElem c) with ⟨m', -, -, -, h1, h2, h3, e⟩ | ⟨-, e⟩
    · exact Or.inl ⟨_, _, e, ⟨h2, h1.le⟩, by rw [h3]⟩
    · exact Or.inl ⟨_, _, e, ⟨g, le_rfl⟩, rfl⟩
  rcases Runs.forHalfedges (I := Mesh.Good) (E := fun _ => False) (R := fun m m' : Mesh F => m'.devSum ≤ m.devSum)
    ⟨fun _ => le_rfl, fun h h' => h'.trans h⟩ run m g with ⟨u, m', e, i, r⟩ | ⟨e, h, -⟩
  · exact ⟨m', e, i, r⟩
  · exact h.elim

end

section
variable {m m' : Mesh XR} {p : Nat → E3}

theorem lenOf_le (w : m.WF) (A : m.AtE p) {h : Nat} (a : m.hAlive h = true) :
    Vec3.length ((m.vPos (m.hSrc h)).sub (m.vPos (m.hSrc (m.hNext h)))) = XR.fin (m.lenOf p h) :=
  ((A _ (w.src_alive _ a)).sub (A _ (w.src_alive _ (w.next_alive _ a)))).length

/-- the body of the loop of splits -/
theorem splitOne_eq (g : m.Good) (A : m.AtE p) (lim : ℝ) {i h : Nat} (hi : m.hes[i]? = some h) :
    splitOne (XR.fin lim) i m = if lim ≤ m.lenOf p h then (splitHE h >>= fun _ => pure ()) m else .ok () m := by
  have w := g.wf
  obtain ⟨c, rfl⟩ := List.getElem?_eq_some_iff.1 hi
  have a := hes_alive w c
  unfold splitOne
  simp only [bind_apply, read_apply]
  rw [if_pos c]
  simp only [bind_apply, halfedgeAt_ok c, getSrc_ok a, getPos_ok (w.src_alive _ a), getDst_ok a (w.next_alive _ a),
    getPos_ok (w.src_alive _ (w.next_alive _ a)), lenOf_le w A a, X_le_iff, decide_eq_true_eq]
  split <;> rfl

theorem noLongEdge_iff (w : m.WF) (A : m.AtE p) {a b : Nat} (ha : m.vAlive a = true) (hb : m.vAlive b = true) (lim : ℝ) :
    ∃ r, noLongEdge a b (XR.fin lim) m = .ok r m ∧ (r = true ↔ ∀ u, m.Joined b u → ‖p a - p u‖ < lim) := by
  unfold noLongEdge
  simp only [bind_apply, getVHe_ok hb]
  refine ⟨_, w.circ_ring hb (fun x _ => (Scalar.le (XR.fin lim) (Vec3.length ((m.vPos a).sub (m.vPos (m.hSrc (m.hNext x))))),
    !Scalar.le (XR.fin lim) (Vec3.length ((m.vPos a).sub (m.vPos (m.hSrc (m.hNext x))))))) (fun x hx c => ?_) _, ?_⟩
  · simp [getPos_ok ha, getDst_ok hx (w.next_alive _ hx), getPos_ok (w.src_alive _ (w.next_alive _ hx))]
  · have := foldPure_all (fun x => !Scalar.le (XR.fin lim) (Vec3.length ((m.vPos a).sub (m.vPos (m.hSrc (m.hNext x))))))
      (orbit m.sig (m.vHe b))
    simp only [Bool.not_not] at this
    rw [this, List.all_eq_true]
    constructor
    · rintro H u ⟨x, ax, rfl, rfl⟩
      have := H x ((w.mem_ring hb).2 ⟨ax, rfl⟩)
      rw [((A _ ha).sub (A _ (w.src_alive _ (w.next_alive _ ax)))).length, X_le_iff] at this
      simpa using this
    · intro H x hx
      obtain ⟨ax, rfl⟩ := (w.mem_ring hb).1 hx
      have := H _ ⟨x, ax, rfl, rfl⟩
      rw [((A _ ha).sub (A _ (w.src_alive _ (w.next_alive _ ax)))).length, X_le_iff]
      simpa using this

/-- the body of the loop of collapses -/
theorem collapseOne_eq (g : m.Good) (A : m.AtE p) (lo lim : ℝ) {i h : Nat} (hi : m.hes[i]? = some h) :
    ((m.Loose h ∧ m.lenOf p h ≤ lo ∧ ∀ u, m.Joined (m.hSrc (m.hNext h)) u → ‖p (m.hSrc h) - p u‖ < lim) ∧
      collapseOne (XR.fin lo) (XR.fin lim) i m = (collapseHE h >>= fun _ => pure ()) m) ∨
    (¬ (m.Loose h ∧ m.lenOf p h ≤ lo ∧ ∀ u, m.Joined (m.hSrc (m.hNext h)) u → ‖p (m.hSrc h) - p u‖ < lim) ∧
      collapseOne (XR.fin lo) (XR.fin lim) i m = .ok () m) := by
  have w := g.wf
  obtain ⟨c, rfl⟩ := List.getElem?_eq_some_iff.1 hi
  have a := hes_alive w c
  have ar := w.rev_alive _ a
  have an := w.next_alive _ a
  have v1 := w.src_alive _ a
  have v2 := w.src_alive _ an
  have L := w.loose_iff a
  unfold collapseOne
  simp only [bind_apply, read_apply]
  rw [if_pos c]
  simp only [bind_apply, halfedgeAt_ok c, getFace_ok a, w.fIsLocked_ok (w.face_alive _ a)]
  split
  · next b => exact Or.inr ⟨fun h => (by rw [(L.1 h.1).1] at b; cases b), rfl⟩
  next l1 =>
  simp only [bind_apply, getRev_ok a, getFace_ok ar, w.fIsLocked_ok (w.face_alive _ ar)]
  split
  · next b => exact Or.inr ⟨fun h => (by rw [(L.1 h.1).2] at b; cases b), rfl⟩
  next l2 =>
  have loose : m.Loose m.hes[i] := L.2 ⟨by simpa using l1, by simpa using l2⟩
  obtain ⟨e1, e2⟩ := loose.ends w a
  obtain ⟨r, hr, hr'⟩ := noLongEdge_iff w A v1 v2 lim
  simp only [bind_apply, getSrc_ok a, getDst_ok a an, getLock_ok v1, getLock_ok v2, e1, e2, Bool.false_eq_true, if_false,
    getPos_ok v1, getPos_ok v2, lenOf_le w A a, X_le_iff, decide_eq_true_eq]
  split
  · next h1 =>
    simp only [bind_apply, hr]
    split
    · next h2 => exact Or.inl ⟨⟨loose, h1, hr'.1 h2⟩, rfl⟩
    · next h2 => exact Or.inr ⟨fun h => h2 (hr'.2 h.2.2), rfl⟩
  · next h1 => exact Or.inr ⟨fun h => h1 h.2.1, rfl⟩

theorem forAll_idle {F : Type} [Scalar F] {m : Mesh F} {body : Nat → M F Unit} (h : ∀ i, body i m = .ok () m) :
    ∀ l, forAll body l m = .ok () m
  | [] => rfl
  | i :: l => by rw [forAll, bind_apply, h i]; exact forAll_idle h l

theorem forIdx_idle {F : Type} [Scalar F] {m : Mesh F} {body : Nat → M F Unit} (h : ∀ i, i < m.hes.length → body i m = .ok () m) :
    ∀ fuel i, m.hes.length + 1 ≤ fuel + i → 0 < fuel → forIdx body fuel i m = .ok () m
  | 0, _, _, h0 => by omega
  | fuel + 1, i, hl, _ => by
    rw [forIdx, bind_apply, read_apply]
    dsimp only
    by_cases c : i < m.hes.length
    · rw [if_pos c, bind_apply, h i c]
      exact forIdx_idle h fuel (i + 1) (by omega) (by omega)
    · rw [if_neg c]; rfl

/-- the average length -/
theorem avgLength_exact (w : m.WF) (A : m.AtE p) (ne : m.hes ≠ []) :
    avgLength m = .ok (XR.fin ((m.hes.map (m.lenOf p)).sum / m.hes.length)) m := by
  have hn : (m.hes.length : ℝ) ≠ 0 := by
    have : 0 < m.hes.length := List.length_pos_iff.2 ne
    positivity
  have key : ∀ (l : List Nat) (s : ℝ), (∀ h ∈ l, m.hAlive h = true) →
      l.foldl (fun s h => s + Vec3.length ((m.vPos (m.hSrc h)).sub (m.vPos (m.hSrc (m.hNext h))))) (XR.fin s) =
        XR.fin (s + (l.map (m.lenOf p)).sum) := by
    intro l
    induction l with
    | nil => intro s _; simp
    | cons h l ih =>
      intro s hl
      rw [List.foldl_cons, lenOf_le w A (hl h (by simp)), X_add, ih _ fun x hx => hl x (by simp [hx])]
      simp [add_assoc]
  unfold avgLength
  rw [bind_apply, read_apply]
  dsimp only
  rw [bind_apply, lengthSum_ok w m.hes _ (fun h hh => (w.hDense.mem h).1 hh), X_lit, key _ _ fun h hh => (w.hDense.mem h).1 hh]
  dsimp only
  rw [X_lit, X_div _ (by rw [R_lit]; simpa using hn), R_lit, R_lit]
  simp

end

end TinyMesh
