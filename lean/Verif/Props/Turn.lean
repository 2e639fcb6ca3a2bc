import Verif.Proof.TurnB
import Verif.Props.Edit
import Verif.Spec.Over
/-
C65: faces turned over by an edge collapse.
-/
set_option maxRecDepth 100000
namespace TinyMesh
open Sample Orbit
attribute [local instance] Sample.ratScalar

section
variable {m : Mesh XR} {p : Nat → E3}

/-- C65: in exact arithmetic `collapseHE` accepts an edge of a consistent mesh, whose removed end has only triangles around it, if and only
if it may be collapsed; then the end point of `e`, which starts at the end that stays, is moved onto its start. A rejected edge leaves the
mesh as it is. -/
theorem c65_accept (G : m.Good) (A : m.AtE p) {h e : Nat} (a : m.hAlive h = true)
    (he : e = if m.outDeg (m.hSrc (m.hRev h)) < m.outDeg (m.hSrc h) then m.hRev h else h) (t : m.TriRing (m.hSrc (m.hRev e))) :
    (m.MayCollapse p e ∧ ∃ m', collapseHE h m = .ok true m' ∧ CollapseDone m m' (m.hSrc e) (m.hSrc (m.hRev e))) ∨
      (¬ m.MayCollapse p e ∧ collapseHE h m = .ok false m) := by
  obtain ⟨h1, h2⟩ := collapseHE_accept G A a he t
  by_cases c : m.MayCollapse p e
  · exact Or.inl ⟨c, h1 c⟩
  · exact Or.inr ⟨c, h2 c⟩

/-- C65: the test for turned faces refuses no edge whose collapse turns none: an edge with the other properties is collapsed if the ring
of the removed end has a vector area and no face of it is turned against this area. -/
theorem c65_complete (G : m.Good) (A : m.AtE p) {h e : Nat} (a : m.hAlive h = true)
    (he : e = if m.outDeg (m.hSrc (m.hRev h)) < m.outDeg (m.hSrc h) then m.hRev h else h) (t : m.TriRing (m.hSrc (m.hRev e)))
    (flags : ∀ x, m.hAlive x = true → m.hFace x = m.hFace e ∨ m.hFace x = m.hFace (m.hRev e) → m.hBd x = false)
    (ends : 3 < m.outDeg (m.hSrc e) ∧ 3 < m.outDeg (m.hSrc (m.hRev e)))
    (sides : 4 < m.outDeg (m.hSrc (m.hNext (m.hNext e))) ∧ 4 < m.outDeg (m.hSrc (m.hNext (m.hNext (m.hRev e)))))
    (link : (m.outs (m.hSrc e)).countP (fun x => (m.outs (m.hSrc (m.hRev e))).any fun y => m.hSrc (m.hNext y) == m.hSrc (m.hNext x)) = 2)
    (area : m.starArea p (m.hSrc (m.hRev e)) ≠ 0)
    (signs : ∀ y, m.hAlive y = true → m.hSrc y = m.hSrc (m.hRev e) → 0 ≤ m.movedSign p (m.hSrc e) y) :
    ∃ m', collapseHE h m = .ok true m' := by
  obtain ⟨m', run, -⟩ := (collapseHE_accept G A a he t).1
    ⟨flags, ends, sides, link, area, fun y ay sy _ => mul_nonneg (signs y ay sy) (signs _ (G.wf.sig_alive ay) (by
      rw [← sy]; exact G.wf.sig_src ay))⟩
  exact ⟨m', run⟩

/-- C65, as far as it holds: if an edge is collapsed, no face that the removed vertex `q` had is turned against the vector area of the
ring of `q`, provided that none becomes perpendicular to it, and that the first half-edge of `q` is a side of one of the two faces of
the edge. -/
theorem c65_noflip_partial (G : m.Good) (A : m.AtE p) {h e k q : Nat} {m' : Mesh XR} (a : m.hAlive h = true)
    (he : e = if m.outDeg (m.hSrc (m.hRev h)) < m.outDeg (m.hSrc h) then m.hRev h else h) (hk : m.hSrc e = k) (hq : m.hSrc (m.hRev e) = q)
    (t : m.TriRing q) (run : collapseHE h m = .ok true m')
    (first : k = m.hSrc (m.hNext (m.vHe q)) ∨ k = m.hSrc (m.hNext (m.hNext (m.vHe q))) ∨ k = m.hSrc (m.hNext (m.hNext (m.hRev (m.vHe q)))))
    (nz : ∀ y, m'.hAlive y = true → m.hSrc y = q →
      inner ℝ (m.starArea p q) (triNormal (p (m'.hSrc y)) (p (m'.hSrc (m'.hNext y))) (p (m'.hSrc (m'.hNext (m'.hNext y))))) ≠ 0) :
    m'.hAlive e = false ∧ ∀ y, m'.hAlive y = true → m.hSrc y = q → m'.hSrc y = k ∧
      0 < inner ℝ (m.starArea p q) (triNormal (p (m'.hSrc y)) (p (m'.hSrc (m'.hNext y))) (p (m'.hSrc (m'.hNext (m'.hNext y))))) := by
  subst hk hq
  have w := G.wf
  have ae : m.hAlive e = true := by rw [he]; split; exacts [w.rev_alive _ a, a]
  have C : m.MayCollapse p e := by
    by_contra c
    rw [(collapseHE_accept G A a he t).2 c] at run
    cases run
  obtain ⟨m'', run', d⟩ := (collapseHE_accept G A a he t).1 C
  rw [run] at run'
  cases run'
  have w' := d.good.wf
  have kq : m.hSrc e ≠ m.hSrc (m.hRev e) := by rw [w.src_rev _ ae]; exact G.simple.no_loop _ ae
  have edge : ∀ x, m.hAlive x = true → SamePair (m.hSrc x) (m.hSrc (m.hNext x)) (m.hSrc e) (m.hSrc (m.hRev e)) →
      ∀ y, m'.hAlive y = true → m.hFace y ≠ m.hFace x := fun x ax sp y ay hf =>
    ((d.faces _).1 ((d.kept y).1 ay).2).2 x ax hf.symm sp
  have corner : ∀ y, m'.hAlive y = true → m.hSrc y = m.hSrc (m.hRev e) → m.hSrc (m.hNext y) ≠ m.hSrc e ∧ m.hSrc (m.hNext (m.hNext y)) ≠ m.hSrc e ∧
      m.movedSign p (m.hSrc e) y =
        inner ℝ (m.starArea p (m.hSrc (m.hRev e))) (triNormal (p (m'.hSrc y)) (p (m'.hSrc (m'.hNext y))) (p (m'.hSrc (m'.hNext (m'.hNext y))))) := by
    intro y ay sy
    have oy := d.hOld y ay
    have ty : m.hNext (m.hNext (m.hNext y)) = y := t y oy sy
    have n1 := w.next_alive _ oy
    have n2 := w.next_alive _ n1
    obtain ⟨x1, -, x3⟩ := d.same y ay
    have ay1 : m'.hAlive (m.hNext y) = true := by rw [← x1]; exact w'.next_alive _ ay
    obtain ⟨y1, -, y3⟩ := d.same _ ay1
    have ay2 : m'.hAlive (m.hNext (m.hNext y)) = true := by rw [← y1]; exact w'.next_alive _ ay1
    obtain ⟨-, -, z3⟩ := d.same _ ay2
    have q1 : m.hSrc (m.hNext y) ≠ m.hSrc (m.hRev e) := by
      have := G.simple.no_loop _ oy
      rw [sy] at this
      exact this.symm
    have q2 : m.hSrc (m.hNext (m.hNext y)) ≠ m.hSrc (m.hRev e) := by
      have := G.simple.no_loop _ n2
      rw [ty, sy] at this
      exact this
    refine ⟨fun h => edge y oy (Or.inr ⟨sy, h⟩) y ay rfl, fun h => edge _ n2 (Or.inl ⟨h, by rw [ty, sy]⟩) y ay ?_, ?_⟩
    · rw [w.face_next _ n1, w.face_next _ oy]
    · rw [x1, y1, x3, y3, z3, if_pos sy, if_neg q1, if_neg q2, Mesh.movedSign, sy]
  have main := no_turn w G.simple ae t C first fun y ay sy y1 y2 => ?_
  · refine ⟨?_, fun y ay sy => ?_⟩
    · cases h : m'.hAlive e
      · rfl
      · exact absurd rfl (edge e ae (Or.inl ⟨rfl, (w.src_rev _ ae).symm⟩) e h)
    · obtain ⟨c1, c2, c3⟩ := corner y ay sy
      refine ⟨by rw [(d.same y ay).2.2, if_pos sy], ?_⟩
      rw [← c3]
      exact main y (d.hOld y ay) sy c1 c2
  · -- a face without the edge stays
    have ay' : m'.hAlive y = true := by
      refine (d.kept y).2 ⟨ay, (d.faces _).2 ⟨w.face_alive _ ay, fun x ax hx sp => ?_⟩⟩
      have ty : m.hNext (m.hNext (m.hNext y)) = y := t y ay sy
      rcases w.tri_face ay ty ax hx with rfl | rfl | rfl
      · rcases sp with ⟨e1, e2⟩ | ⟨e1, e2⟩
        · exact kq (e1.symm.trans sy)
        · exact y1 e2
      · rcases sp with ⟨e1, e2⟩ | ⟨e1, e2⟩
        · exact y1 e1
        · exact y2 e2
      · rcases sp with ⟨e1, e2⟩ | ⟨e1, e2⟩
        · exact y2 e1
        · rw [ty, sy] at e2
          exact kq e2.symm
    rw [(corner y ay' sy).2.2]
    exact nz y ay' sy

end

/-! ### The test misses turned faces -/

/-- incidences of the icosahedron around the vertex 2 -/
structure IcoFacts {F : Type} (m : Mesh F) : Prop where
  hes : ∀ h ∈ m.hes, m.hBd h = false ∧ m.hNext (m.hNext (m.hNext h)) = h
  outs : m.outs 2 = [2, 6, 16, 19, 22]
  one : m.outs 1 = [1, 4, 7, 10, 13]
  seven : m.outs 7 = [17, 21, 29, 46, 49]
  ends : m.hSrc 1 = 1 ∧ m.hRev 1 = 6 ∧ m.hSrc 6 = 2 ∧ m.vHe 2 = 6 ∧ m.hAlive 1 = true
  deg : ∀ v ∈ m.vs, m.outDeg v = 5
  dst : (m.outs 2).map (fun y => m.hSrc (m.hNext y)) = [3, 1, 7, 8, 4]
  far : (m.outs 2).map (fun y => m.hSrc (m.hNext (m.hNext y))) = [1, 4, 3, 7, 8]
  sig : (m.outs 2).map (fun y => m.hNext (m.hRev y)) = [16, 2, 19, 22, 6]
  dst1 : (m.outs 1).map (fun y => m.hSrc (m.hNext y)) = [2, 4, 3, 5, 6]
  dst7 : (m.outs 7).map (fun y => m.hSrc (m.hNext y)) = [3, 2, 9, 8, 12]

theorem ico_tables : ∃ m : Mesh Rat, m.Good ∧ IcoFacts m := by
  obtain ⟨u, m, l, m1, h1, h2, h3⟩ := thenSt_iff (o := construct icoV icoI fresh) (f := fun m => .ok () m) (p := fun m l m' =>
    decide ((∀ h ∈ m.hes, m.hBd h = false ∧ m.hNext (m.hNext (m.hNext h)) = h) ∧ m.outs 2 = [2, 6, 16, 19, 22] ∧ m.outs 1 = [1, 4, 7, 10, 13] ∧
      m.outs 7 = [17, 21, 29, 46, 49] ∧
      (m.hSrc 1 = 1 ∧ m.hRev 1 = 6 ∧ m.hSrc 6 = 2 ∧ m.vHe 2 = 6 ∧ m.hAlive 1 = true) ∧ (∀ v ∈ m.vs, m.outDeg v = 5) ∧
      (m.outs 2).map (fun y => m.hSrc (m.hNext y)) = [3, 1, 7, 8, 4] ∧
      (m.outs 2).map (fun y => m.hSrc (m.hNext (m.hNext y))) = [1, 4, 3, 7, 8] ∧
      (m.outs 2).map (fun y => m.hNext (m.hRev y)) = [16, 2, 19, 22, 6] ∧
      (m.outs 1).map (fun y => m.hSrc (m.hNext y)) = [2, 4, 3, 5, 6] ∧
      (m.outs 7).map (fun y => m.hSrc (m.hNext y)) = [3, 2, 9, 8, 12])) (by decide +kernel)
  cases u
  obtain ⟨a, b, c, d, e, f, g, h, i, j, k⟩ := of_decide_eq_true h3
  exact ⟨m, c01_construct_consistent (Owned.empty _) h1, a, b, c, d, e, f, g, h, i, j, k⟩

/-- a place for the vertices of the icosahedron with a flat ring around the vertex 2 -/
def turnAt (v : Nat) : Vec3 ℝ :=
  if v = 1 then ⟨0, -15, 0⟩ else if v = 2 then ⟨0, 0, 0⟩ else if v = 3 then ⟨5, -1, 0⟩ else if v = 7 then ⟨15, 0, 0⟩ else
    if v = 8 then ⟨0, 15, 0⟩ else if v = 4 then ⟨-15, 0, 0⟩ else ⟨v, 0, -20⟩

/-- C65 is false: an edge is collapsed although this turns a face over. The faces around the removed vertex have the same normal before;
after the collapse one of them has the opposite one. The side of the last face, which is remembered, is forgotten at the two faces of the
edge, and the last face is never compared with the first. -/
theorem c65_counterexample : ∃ (m m' : Mesh XR) (p : Nat → E3) (h q : Nat), m.Good ∧ m.AtE p ∧ m.hAlive h = true ∧ m.TriRing q ∧
    collapseHE h m = .ok true m' ∧ m.vAlive q = true ∧ m'.vAlive q = false ∧
    (∀ y, m.hAlive y = true → m.hSrc y = q → ∃ c : ℝ, 0 < c ∧
      triNormal (p q) (p (m.hSrc (m.hNext y))) (p (m.hSrc (m.hNext (m.hNext y)))) = c • (⟨0, 0, -1⟩ : Vec3 ℝ).E) ∧
    ∃ y, m'.hAlive y = true ∧ m.hSrc y = q ∧ ∃ c : ℝ, c < 0 ∧
      triNormal (p (m'.hSrc y)) (p (m'.hSrc (m'.hNext y))) (p (m'.hSrc (m'.hNext (m'.hNext y)))) = c • (⟨0, 0, -1⟩ : Vec3 ℝ).E := by
  obtain ⟨m, G, I⟩ := ico_tables
  obtain ⟨hes, outs, one, seven, ⟨-, -, -, v2, -⟩, deg, dst, far, sig, dst1, dst7⟩ := I
  have W := G.wf
  rw [outs] at dst far sig
  rw [seven] at dst7
  simp only [List.map_cons, List.map_nil, List.cons.injEq, and_true] at dst far sig dst7
  have A : (m.overR turnAt).AtE fun v => (turnAt v).E := fun v _ => ⟨turnAt v, rfl, rfl⟩
  have g : (m.overR turnAt).Good := G.over _
  have mem : ∀ y, m.hAlive y = true → m.hSrc y = 2 → y = 2 ∨ y = 6 ∨ y = 16 ∨ y = 19 ∨ y = 22 := by
    intro y ay sy
    have : y ∈ m.outs 2 := List.mem_filter.2 ⟨(W.hDense.mem y).2 ay, by rw [sy, beq_self_eq_true]⟩
    rw [outs] at this
    simpa using this
  have out : ∀ y, y = 2 ∨ y = 6 ∨ y = 16 ∨ y = 19 ∨ y = 22 → m.hAlive y = true ∧ m.hSrc y = 2 := by
    intro y hy
    have : y ∈ m.outs 2 := by rw [outs]; simpa using hy
    obtain ⟨h1, h2⟩ := List.mem_filter.1 this
    exact ⟨(W.hDense.mem y).1 h1, beq_iff_eq.1 h2⟩
  have dg : ∀ y, m.hAlive y = true → m.outDeg (m.hSrc y) = 5 := fun y ay => deg _ ((W.vDense.mem _).2 (W.src_alive _ ay))
  have a16 := (out 16 (by simp)).1
  have r16 : m.hRev (m.hRev 16) = 16 := W.rev_rev _ a16
  have k : m.hSrc (m.hRev 16) = 7 := by rw [W.src_rev _ a16, dst.2.2.1]
  have t : (m.overR turnAt).TriRing 2 := fun y ay _ => (hes y ((W.hDense.mem y).2 ay)).2
  have star : (m.overR turnAt).starArea (fun v => (turnAt v).E) 2 = (⟨0, 0, -765⟩ : Vec3 ℝ).E := by
    change ((m.outs 2).map fun h => triNormal (turnAt 2).E (turnAt (m.hSrc (m.hNext h))).E (turnAt (m.hSrc (m.hNext (m.hNext h)))).E).sum = _
    rw [outs]
    simp only [List.map_cons, List.map_nil, List.sum_cons, List.sum_nil, dst, far, triNormal_E, ← E_zero, ← Vec3.E_add]
    congr 1
    norm_num [turnAt, Vec3.cross_def, Vec3.sub_def, Vec3.add_def, Vec3.zero_def]
  have val : ∀ y, (y = 2 ∨ y = 6 ∨ y = 16 ∨ y = 19 ∨ y = 22) → (m.overR turnAt).movedSign (fun v => (turnAt v).E) 7 y =
      inner ℝ (⟨0, 0, -765⟩ : Vec3 ℝ).E (triNormal (turnAt 7).E (turnAt (m.hSrc (m.hNext y))).E (turnAt (m.hSrc (m.hNext (m.hNext y)))).E) := by
    intro y hy
    unfold Mesh.movedSign
    change inner ℝ ((m.overR turnAt).starArea (fun v => (turnAt v).E) (m.hSrc y)) _ = _
    rw [(out y hy).2, star]
    rfl
  have x16 : (m.overR turnAt).movedSign (fun v => (turnAt v).E) 7 16 = 0 := by
    rw [val 16 (by simp), triNormal_E, Vec3.E_inner]
    norm_num [dst, far, turnAt, Vec3.cross_def, Vec3.sub_def, Vec3.dot_def]
  have x19 : (m.overR turnAt).movedSign (fun v => (turnAt v).E) 7 19 = 0 := by
    rw [val 19 (by simp), triNormal_E, Vec3.E_inner]
    norm_num [dst, far, turnAt, Vec3.cross_def, Vec3.sub_def, Vec3.dot_def]
  have x22 : 0 ≤ (m.overR turnAt).movedSign (fun v => (turnAt v).E) 7 22 := by
    rw [val 22 (by simp), triNormal_E, Vec3.E_inner]
    norm_num [dst, far, turnAt, Vec3.cross_def, Vec3.sub_def, Vec3.dot_def]
  have x6 : 0 ≤ (m.overR turnAt).movedSign (fun v => (turnAt v).E) 7 6 := by
    rw [val 6 (by simp), triNormal_E, Vec3.E_inner]
    norm_num [dst, far, turnAt, Vec3.cross_def, Vec3.sub_def, Vec3.dot_def]
  have aR : (m.overR turnAt).hAlive (m.hRev 16) = true := W.rev_alive _ a16
  have q : (m.overR turnAt).hSrc ((m.overR turnAt).hRev (m.hRev 16)) = 2 := by
    change m.hSrc (m.hRev (m.hRev 16)) = 2
    rw [r16]
    exact (out 16 (by simp)).2
  have k' : (m.overR turnAt).hSrc (m.hRev 16) = 7 := k
  have may : (m.overR turnAt).MayCollapse (fun v => (turnAt v).E) (m.hRev 16) := by
    refine ⟨fun x ax _ => (hes x ((W.hDense.mem x).2 ax)).1, ?_, ?_, ?_, ?_, ?_⟩
    · change 3 < m.outDeg (m.hSrc (m.hRev 16)) ∧ 3 < m.outDeg (m.hSrc (m.hRev (m.hRev 16)))
      rw [dg _ aR, r16, dg _ a16]
      decide
    · change 4 < m.outDeg (m.hSrc (m.hNext (m.hNext (m.hRev 16)))) ∧ 4 < m.outDeg (m.hSrc (m.hNext (m.hNext (m.hRev (m.hRev 16)))))
      rw [r16, dg _ (W.next_alive _ (W.next_alive _ aR)), dg _ (W.next_alive _ (W.next_alive _ a16))]
      decide
    · rw [q, k']
      change (m.outs 7).countP (fun x => (m.outs 2).any fun y => m.hSrc (m.hNext y) == m.hSrc (m.hNext x)) = 2
      rw [outs, seven]
      simp [dst, dst7]
    · rw [q, star, ← E_zero, Ne, Vec3.E_inj]
      simp [Vec3.zero_def]
    · intro y ay sy hy
      rw [q] at sy hy
      rw [k']
      change 0 ≤ _ * (m.overR turnAt).movedSign (fun v => (turnAt v).E) 7 (m.hNext (m.hRev y))
      rcases mem y ay sy with rfl | rfl | rfl | rfl | rfl
      · rw [sig.1, x16, mul_zero]
      · exact absurd (by change 6 = m.vHe 2; rw [v2]) hy
      · rw [x16, zero_mul]
      · rw [x19, zero_mul]
      · rw [sig.2.2.2.2]; exact mul_nonneg x22 x6
  obtain ⟨-, m', run, d⟩ | ⟨h, -⟩ := c65_accept g A (e := m.hRev 16) aR (by
    change _ = if m.outDeg (m.hSrc (m.hRev (m.hRev 16))) < m.outDeg (m.hSrc (m.hRev 16)) then _ else _
    rw [dg _ aR, r16, dg _ a16, if_neg (lt_irrefl _)]) (by rw [q]; exact t)
  swap
  · exact absurd may h
  rw [q, k'] at d
  have w' := d.good.wf
  have edge2 : m'.hAlive 2 = true := by
    refine (d.kept 2).2 ⟨(out 2 (by simp)).1, (d.faces _).2 ⟨W.face_alive _ (out 2 (by simp)).1, fun x ax hx sp => ?_⟩⟩
    have a2 := (out 2 (by simp)).1
    have t2 := (hes 2 ((W.hDense.mem 2).2 a2)).2
    have s2 := (out 2 (by simp)).2
    change SamePair (m.hSrc x) (m.hSrc (m.hNext x)) 7 2 at sp
    rcases W.tri_face a2 t2 ax hx with rfl | rfl | rfl
    · rw [s2, dst.1] at sp
      rcases sp with h | h <;> omega
    · rw [dst.1, far.1] at sp
      rcases sp with h | h <;> omega
    · rw [far.1, t2, s2] at sp
      rcases sp with h | h <;> omega
  obtain ⟨n0, -, s0⟩ := d.same 2 edge2
  have a3' : m'.hAlive (m.hNext 2) = true := by
    have := w'.next_alive _ edge2
    rw [n0] at this
    exact this
  obtain ⟨n1, -, s1⟩ := d.same _ a3'
  have a4' : m'.hAlive (m.hNext (m.hNext 2)) = true := by
    have := w'.next_alive _ a3'
    rw [n1] at this
    exact this
  obtain ⟨-, -, s2⟩ := d.same _ a4'
  change m'.hSrc 2 = if m.hSrc 2 = 2 then 7 else m.hSrc 2 at s0
  change m'.hSrc (m.hNext 2) = if m.hSrc (m.hNext 2) = 2 then 7 else m.hSrc (m.hNext 2) at s1
  change m'.hSrc (m.hNext (m.hNext 2)) = if m.hSrc (m.hNext (m.hNext 2)) = 2 then 7 else m.hSrc (m.hNext (m.hNext 2)) at s2
  change m'.hNext 2 = m.hNext 2 at n0
  change m'.hNext (m.hNext 2) = m.hNext (m.hNext 2) at n1
  rw [(out 2 (by simp)).2, if_pos rfl] at s0
  rw [dst.1, if_neg (by decide)] at s1
  rw [far.1, if_neg (by decide)] at s2
  have q2 : m.vAlive 2 = true := by
    rw [← (out 2 (by simp)).2]
    exact W.src_alive _ (out 2 (by simp)).1
  refine ⟨m.overR turnAt, m', fun v => (turnAt v).E, m.hRev 16, 2, g, A, aR, t, run, q2, ?_, ?_, 2, edge2, (out 2 (by simp)).2, -135, by norm_num, ?_⟩
  · cases h : m'.vAlive 2
    · rfl
    · exact absurd rfl ((d.alive 2).1 h).2
  · intro y ay sy
    change ∃ c : ℝ, 0 < c ∧ triNormal (turnAt 2).E (turnAt (m.hSrc (m.hNext y))).E (turnAt (m.hSrc (m.hNext (m.hNext y)))).E = c • (⟨0, 0, -1⟩ : Vec3 ℝ).E
    rcases mem y ay sy with rfl | rfl | rfl | rfl | rfl
    · refine ⟨75, by norm_num, ?_⟩
      rw [dst.1, far.1, triNormal_E, ← E_smul]
      congr 1
      norm_num [turnAt, Vec3.cross_def, Vec3.sub_def, Vec3.smul_def]
    · refine ⟨225, by norm_num, ?_⟩
      rw [dst.2.1, far.2.1, triNormal_E, ← E_smul]
      congr 1
      norm_num [turnAt, Vec3.cross_def, Vec3.sub_def, Vec3.smul_def]
    · refine ⟨15, by norm_num, ?_⟩
      rw [dst.2.2.1, far.2.2.1, triNormal_E, ← E_smul]
      congr 1
      norm_num [turnAt, Vec3.cross_def, Vec3.sub_def, Vec3.smul_def]
    · refine ⟨225, by norm_num, ?_⟩
      rw [dst.2.2.2.1, far.2.2.2.1, triNormal_E, ← E_smul]
      congr 1
      norm_num [turnAt, Vec3.cross_def, Vec3.sub_def, Vec3.smul_def]
    · refine ⟨225, by norm_num, ?_⟩
      rw [dst.2.2.2.2, far.2.2.2.2, triNormal_E, ← E_smul]
      congr 1
      norm_num [turnAt, Vec3.cross_def, Vec3.sub_def, Vec3.smul_def]
  · dsimp only
    rw [n0, n1, s0, s1, s2, triNormal_E, ← E_smul]
    congr 1
    norm_num [turnAt, Vec3.cross_def, Vec3.sub_def, Vec3.smul_def]

/-! ### Example -/

/-- a flat convex pentagon around the vertex 2 -/
def pentAt (v : Nat) : Vec3 ℝ :=
  if v = 1 then ⟨3, 0, 0⟩ else if v = 2 then ⟨0, 0, 0⟩ else if v = 3 then ⟨1, 3, 0⟩ else if v = 7 then ⟨-2, 2, 0⟩ else
    if v = 8 then ⟨-2, -2, 0⟩ else if v = 4 then ⟨1, -3, 0⟩ else ⟨v, 0, -20⟩

/-- the edge from the vertex 1 to the centre of the pentagon is collapsed, and turns no face -/
example : ∃ (m : Mesh XR) (p : Nat → E3) (m' : Mesh XR), m.Good ∧ m.AtE p ∧ m.hAlive 1 = true ∧ m.TriRing (m.hSrc (m.hRev 1)) ∧
    m.hSrc 1 = m.hSrc (m.hNext (m.vHe (m.hSrc (m.hRev 1)))) ∧ collapseHE 1 m = .ok true m' ∧ 0 < m.movedSign p (m.hSrc 1) 16 ∧ 0 < m.movedSign p (m.hSrc 1) 19 ∧ 0 < m.movedSign p (m.hSrc 1) 22 := by
  obtain ⟨m, G, I⟩ := ico_tables
  obtain ⟨hes, outs, one, -, ⟨s1, r1, s6, v2, a1⟩, deg, dst, far, -, dst1, -⟩ := I
  have W := G.wf
  rw [outs] at dst far
  rw [one] at dst1
  simp only [List.map_cons, List.map_nil, List.cons.injEq, and_true] at dst far dst1
  have A : (m.overR pentAt).AtE fun v => (pentAt v).E := fun v _ => ⟨pentAt v, rfl, rfl⟩
  have g : (m.overR pentAt).Good := G.over _
  have mem : ∀ y, m.hAlive y = true → m.hSrc y = 2 → y = 2 ∨ y = 6 ∨ y = 16 ∨ y = 19 ∨ y = 22 := by
    intro y ay sy
    have : y ∈ m.outs 2 := List.mem_filter.2 ⟨(W.hDense.mem y).2 ay, by rw [sy, beq_self_eq_true]⟩
    rw [outs] at this
    simpa using this
  have src : ∀ y, y = 2 ∨ y = 6 ∨ y = 16 ∨ y = 19 ∨ y = 22 → m.hSrc y = 2 := by
    intro y hy
    have : y ∈ m.outs 2 := by rw [outs]; simpa using hy
    exact beq_iff_eq.1 (List.mem_filter.1 this).2
  have dg : ∀ y, m.hAlive y = true → m.outDeg (m.hSrc y) = 5 := fun y ay => deg _ ((W.vDense.mem _).2 (W.src_alive _ ay))
  have a6 : m.hAlive 6 = true := by rw [← r1]; exact W.rev_alive _ a1
  have t : (m.overR pentAt).TriRing 2 := fun y ay _ => (hes y ((W.hDense.mem y).2 ay)).2
  have star : (m.overR pentAt).starArea (fun v => (pentAt v).E) 2 = (⟨0, 0, -42⟩ : Vec3 ℝ).E := by
    change ((m.outs 2).map fun h => triNormal (pentAt 2).E (pentAt (m.hSrc (m.hNext h))).E (pentAt (m.hSrc (m.hNext (m.hNext h)))).E).sum = _
    rw [outs]
    simp only [List.map_cons, List.map_nil, List.sum_cons, List.sum_nil, dst, far, triNormal_E, ← E_zero, ← Vec3.E_add]
    congr 1
    norm_num [pentAt, Vec3.cross_def, Vec3.sub_def, Vec3.add_def, Vec3.zero_def]
  have val : ∀ y, (y = 2 ∨ y = 6 ∨ y = 16 ∨ y = 19 ∨ y = 22) → (m.overR pentAt).movedSign (fun v => (pentAt v).E) 1 y =
      inner ℝ (⟨0, 0, -42⟩ : Vec3 ℝ).E (triNormal (pentAt 1).E (pentAt (m.hSrc (m.hNext y))).E (pentAt (m.hSrc (m.hNext (m.hNext y)))).E) := by
    intro y hy
    unfold Mesh.movedSign
    change inner ℝ ((m.overR pentAt).starArea (fun v => (pentAt v).E) (m.hSrc y)) _ = _
    rw [src y hy, star]
    rfl
  have x2 : (m.overR pentAt).movedSign (fun v => (pentAt v).E) 1 2 = 0 := by
    rw [val 2 (by simp), triNormal_E, Vec3.E_inner]
    norm_num [dst, far, pentAt, Vec3.cross_def, Vec3.sub_def, Vec3.dot_def]
  have x6 : (m.overR pentAt).movedSign (fun v => (pentAt v).E) 1 6 = 0 := by
    rw [val 6 (by simp), triNormal_E, Vec3.E_inner]
    norm_num [dst, far, pentAt, Vec3.cross_def, Vec3.sub_def, Vec3.dot_def]
  have x16 : 0 < (m.overR pentAt).movedSign (fun v => (pentAt v).E) 1 16 := by
    rw [val 16 (by simp), triNormal_E, Vec3.E_inner]
    norm_num [dst, far, pentAt, Vec3.cross_def, Vec3.sub_def, Vec3.dot_def]
  have x19 : 0 < (m.overR pentAt).movedSign (fun v => (pentAt v).E) 1 19 := by
    rw [val 19 (by simp), triNormal_E, Vec3.E_inner]
    norm_num [dst, far, pentAt, Vec3.cross_def, Vec3.sub_def, Vec3.dot_def]
  have x22 : 0 < (m.overR pentAt).movedSign (fun v => (pentAt v).E) 1 22 := by
    rw [val 22 (by simp), triNormal_E, Vec3.E_inner]
    norm_num [dst, far, pentAt, Vec3.cross_def, Vec3.sub_def, Vec3.dot_def]
  have q : (m.overR pentAt).hSrc ((m.overR pentAt).hRev 1) = 2 := by
    change m.hSrc (m.hRev 1) = 2
    rw [r1, s6]
  have k : (m.overR pentAt).hSrc 1 = 1 := s1
  obtain ⟨m', run⟩ : ∃ m', collapseHE 1 (m.overR pentAt) = .ok true m' := by
    refine c65_complete (p := fun v => (pentAt v).E) (e := 1) g A a1 ?_ (by rw [q]; exact t) ?_ ?_ ?_ ?_ ?_ ?_
    · rw [q, k, if_neg]
      change ¬ m.outDeg 2 < m.outDeg 1
      rw [← s6, dg 6 a6, ← s1, dg 1 a1]
      decide
    · intro x ax _
      exact (hes x ((W.hDense.mem x).2 ax)).1
    · change 3 < m.outDeg (m.hSrc 1) ∧ 3 < m.outDeg (m.hSrc (m.hRev 1))
      rw [dg _ a1, dg _ (W.rev_alive _ a1)]
      decide
    · change 4 < m.outDeg (m.hSrc (m.hNext (m.hNext 1))) ∧ 4 < m.outDeg (m.hSrc (m.hNext (m.hNext (m.hRev 1))))
      rw [dg _ (W.next_alive _ (W.next_alive _ a1)), dg _ (W.next_alive _ (W.next_alive _ (W.rev_alive _ a1)))]
      decide
    · rw [q, k]
      change (m.outs 1).countP (fun x => (m.outs 2).any fun y => m.hSrc (m.hNext y) == m.hSrc (m.hNext x)) = 2
      rw [outs, one]
      simp [dst, dst1]
    · rw [q, star, ← E_zero, Ne, Vec3.E_inj]
      simp [Vec3.zero_def]
    · intro y ay sy
      rw [q] at sy
      rw [k]
      rcases mem y ay sy with rfl | rfl | rfl | rfl | rfl
      · exact x2.ge
      · exact x6.ge
      · exact x16.le
      · exact x19.le
      · exact x22.le
  refine ⟨m.overR pentAt, fun v => (pentAt v).E, m', g, A, a1, by rw [q]; exact t, ?_, run, ?_⟩
  · rw [q, k]
    change 1 = m.hSrc (m.hNext (m.vHe 2))
    rw [v2, dst.2.1]
  rw [k]
  exact ⟨x16, x19, x22⟩

end TinyMesh
