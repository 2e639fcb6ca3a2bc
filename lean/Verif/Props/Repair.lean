import Verif.Proof.CtxH
import Verif.Props.Turn
import Mathlib.Geometry.Euclidean.Angle.Unoriented.RightAngle
import Mathlib.Analysis.SpecialFunctions.Trigonometric.Bounds
/-
C87: the repair of the mesh after an iteration of context coherent completion.
-/
set_option maxRecDepth 100000
namespace TinyMesh
open Sample Orbit
attribute [local instance] Sample.ratScalar

section
variable {m : Mesh XR} {p : Nat → E3}

/-- C87: on a mesh of triangles without flags in which every vertex has three neighbours the first loop ends and splits all edges at the
given vertices that are longer than the limit. The old vertices stay, with their indices; the new ones are not locked and lie between the
old ones. The result tells whether there was something to split. -/
theorem c87_split (s : m.Shut) (d : m.Deg3) (A : m.AtE p) {lim : ℝ} (hl : 0 < lim) (ts : List Nat) :
    ∃ N b m' p', (∀ fuel, N ≤ fuel → repairAll (splitLong (XR.fin lim)) fuel ts m = .ok b m') ∧ m'.Shut ∧ m'.Deg3 ∧ m'.AtE p' ∧
      (∀ v, m.vAlive v = true → p' v = p v) ∧ KeepsVerts m m' ∧ (∃ l, m'.vs = m.vs ++ l) ∧
      (∀ v, m'.vAlive v = true → m.vAlive v = false → m'.vLock v = false ∧ p' v ∈ convexHull ℝ {x | ∃ u, m.vAlive u = true ∧ p u = x}) ∧
      (∀ t ∈ ts, ∀ v, m.vs[t]? = some v → m'.ShortAt p' lim v) ∧ (b = false ↔ m' = m) := by
  obtain ⟨N, b, m', h1, h2, h3, h4, h6, h5⟩ := splitAll_ends (m := m) ⟨s, d, A.placed⟩ hl ts
  obtain ⟨l, el, c⟩ := h3.vs
  have old : ∀ v, m.vAlive v = true → m'.placed v = p v := fun v a => by rw [h3.keeps.placed a, A.placed_eq a]
  have set : {x | ∃ u, m.vAlive u = true ∧ m.placed u = x} = {x | ∃ u, m.vAlive u = true ∧ p u = x} := by
    ext x
    refine exists_congr fun u => and_congr_right fun a => ?_
    rw [A.placed_eq a]
  refine ⟨N, b, m', m'.placed, h1, h2.shut, h2.deg, h2.at_, old, h3.keeps, ⟨l, el⟩, fun v a n => ⟨?_, ?_⟩, h5, h4, fun e => ?_⟩
  · rcases h3.fresh v a with h | h
    · rw [n] at h; cases h
    · exact h
  · rw [← set]; exact h3.hull v a
  · cases b with
    | false => rfl
    | true => have := h6 rfl; rw [e] at this; omega

/-- C87: one round of the second loop flips an edge at the vertex whose opposite angles sum up to more than two right angles; if it does
nothing, no such edge can be flipped. -/
theorem c87_flip_step (s : m.Shut) (A : m.AtE p) {v : Nat} (av : m.vAlive v = true) :
    (flipWide v m = .ok false m ∧ ∀ x, m.hAlive x = true → m.hSrc x = v → m.Wide p x → flipHE x m = .ok false m) ∨
    ∃ x m', m.hAlive x = true ∧ m.hSrc x = v ∧ m.Wide p x ∧ flipHE x m = .ok true m' ∧ flipWide v m = .ok true m' := by
  rcases flipWide_cases s A av with h | ⟨x, m', h1, h2, h3, h4, h5, -⟩
  · exact Or.inl h
  · exact Or.inr ⟨x, m', h1, h2, h3, h4, h5⟩

/-- C87: the second loop ends. It leaves the vertices as they are, and no edge at the vertex that has wide angles and can be flipped. -/
theorem c87_flip (s : m.Shut) (A : m.AtE p) (t : Nat) :
    ∃ N b m', (∀ fuel, N ≤ fuel → repairLoop flipWide t fuel m = .ok b m') ∧ m'.Shut ∧ m'.AtE p ∧ m'.vs = m.vs ∧ m'.vAlive = m.vAlive ∧
      m'.vPos = m.vPos ∧ m'.vLock = m.vLock ∧ (b = false → m' = m) ∧
      ∀ v, m.vs[t]? = some v → ∀ x, m'.hAlive x = true → m'.hSrc x = v → m'.Wide p x → flipHE x m' = .ok false m' := by
  obtain ⟨N, b, m', h1, h2, h3, h4, h5⟩ := flipLoop_ends ⟨s, A.placed⟩ t
  have A' : m'.AtE p := fun v a => by rw [h3.pos]; rw [h3.alive] at a; exact A v a
  refine ⟨N, b, m', h1, h2.shut, A', h3.vs, h3.alive, h3.pos, h3.lock, h5, fun v hv x ax sx W => ?_⟩
  rw [← h3.vs] at hv
  refine h4 v hv x ax sx ?_
  have w := h2.shut.good.wf
  have n1 := w.next_alive _ ax
  have r := w.rev_alive _ ax
  have r1 := w.next_alive _ r
  unfold Mesh.Wide Mesh.facing
  rw [A'.placed_eq (w.src_alive _ ax), A'.placed_eq (w.src_alive _ n1), A'.placed_eq (w.src_alive _ (w.next_alive _ n1)),
    A'.placed_eq (w.src_alive _ r), A'.placed_eq (w.src_alive _ r1), A'.placed_eq (w.src_alive _ (w.next_alive _ r1))]
  exact W

/-- C87: one round of the third loop collapses an edge at the vertex one of whose opposite angles is below 18 degrees; if it does nothing,
no such edge can be collapsed. -/
theorem c87_thin_step (s : m.Shut) (A : m.AtE p) {v : Nat} (av : m.vAlive v = true) :
    (collapseThin v m = .ok false m ∧ ∀ x, m.hAlive x = true → m.hSrc x = v → m.Thin p x → collapseHE x m = .ok false m) ∨
    ∃ x m', m.hAlive x = true ∧ m.hSrc x = v ∧ m.Thin p x ∧ collapseHE x m = .ok true m' ∧ collapseThin v m = .ok true m' :=
  collapseThin_cases s A av

/-- C87: the third loop ends. The vertices that are left are where they were; at the vertex with the index `t` no edge is left that has a
thin angle and can be collapsed. -/
theorem c87_thin (s : m.Shut) (A : m.AtE p) (t : Nat) :
    ∃ N b m', (∀ fuel, N ≤ fuel → repairLoop collapseThin t fuel m = .ok b m') ∧ m'.Shut ∧ m'.AtE p ∧
      (∀ v, m'.vAlive v = true → m.vAlive v = true ∧ m'.vPos v = m.vPos v ∧ m'.vLock v = m.vLock v) ∧ (b = false ↔ m' = m) ∧
      ∀ v, m'.vs[t]? = some v → ∀ x, m'.hAlive x = true → m'.hSrc x = v → m'.Thin p x → collapseHE x m' = .ok false m' := by
  obtain ⟨N, b, m', h1, h2, h3, h4, h5, h6⟩ := thinLoop_ends ⟨s, A.placed⟩ t
  have A' : m'.AtE p := fun v a => by rw [(h3.old v a).2.1]; exact A v (h3.old v a).1
  refine ⟨N, b, m', h1, h2.shut, A', h3.old, ⟨h5, fun e => ?_⟩, fun v hv x ax sx W => ?_⟩
  · cases b with
    | false => rfl
    | true => have := h6 rfl; rw [e] at this; omega
  refine h4 v hv x ax sx ?_
  have w := h2.shut.good.wf
  have n1 := w.next_alive _ ax
  have r := w.rev_alive _ ax
  have r1 := w.next_alive _ r
  unfold Mesh.Thin Mesh.facing
  rw [A'.placed_eq (w.src_alive _ ax), A'.placed_eq (w.src_alive _ n1), A'.placed_eq (w.src_alive _ (w.next_alive _ n1)),
    A'.placed_eq (w.src_alive _ r), A'.placed_eq (w.src_alive _ r1), A'.placed_eq (w.src_alive _ (w.next_alive _ r1))]
  exact W

/-- C87: one round of the last loop collapses a face at the vertex whose area is below the limit; if it does nothing, no such face can be
collapsed. It is undefined if one of the two edges of such a face can be collapsed and the other cannot: the circulator then goes on from a
half-edge that has been freed. -/
theorem c87_small_step (s : m.Shut) (A : m.AtE p) {v : Nat} (av : m.vAlive v = true) (lim : ℝ) :
    (collapseSmall (XR.fin lim) v m = .ok false m ∧
      ∀ x, m.hAlive x = true → m.hSrc x = v → m.areaOf p (m.fHe (m.hFace x)) < lim → collapseFace (m.hFace x) m = .ok false m) ∨
    (∃ x m', m.hAlive x = true ∧ m.hSrc x = v ∧ m.areaOf p (m.fHe (m.hFace x)) < lim ∧ collapseFace (m.hFace x) m = .ok true m' ∧
      collapseSmall (XR.fin lim) v m = .ok true m') ∨
    (∃ x m', m.hAlive x = true ∧ m.hSrc x = v ∧ m.areaOf p (m.fHe (m.hFace x)) < lim ∧ collapseFace (m.hFace x) m = .ok false m' ∧ m' ≠ m ∧
      collapseSmall (XR.fin lim) v m = .err .ub) :=
  collapseSmall_cases s A av lim

/-- C87, as far as it holds: the whole repair ends. It leaves a mesh of triangles without flags in which the vertices that are left are
where they were, and the new ones are not locked and lie between the old ones; if it reports no change there was none. It is undefined
if at some time a face with an area below the limit is found of which one edge can be collapsed and the other cannot. -/
theorem c87_repair_partial (s : m.Shut) (d : m.Deg3) (A : m.AtE p) {al : ℝ} (hl : 0 < al) (aa : ℝ) (ts : List Nat) :
    ∃ N m' p', m'.Shut ∧ m'.AtE p' ∧
      (∀ v, m.vAlive v = true → m'.vAlive v = true → p' v = p v ∧ m'.vPos v = m.vPos v ∧ m'.vLock v = m.vLock v) ∧
      (∀ v, m'.vAlive v = true → m.vAlive v = false → m'.vLock v = false ∧ p' v ∈ convexHull ℝ {x | ∃ u, m.vAlive u = true ∧ p u = x}) ∧
      ((∃ b, (∀ fuel, N ≤ fuel → repair (XR.fin al) (XR.fin aa) fuel ts m = .ok b m') ∧ (b = false → m' = m)) ∨
        (∀ fuel, N ≤ fuel → repair (XR.fin al) (XR.fin aa) fuel ts m = .err .ub) ∧
        ∃ x m2, m'.hAlive x = true ∧ m'.areaOf p' (m'.fHe (m'.hFace x)) < aa / 100 ∧ collapseFace (m'.hFace x) m' = .ok false m2 ∧ m2 ≠ m') := by
  have set : {x | ∃ u, m.vAlive u = true ∧ m.placed u = x} = {x | ∃ u, m.vAlive u = true ∧ p u = x} := by
    ext x
    refine exists_congr fun u => and_congr_right fun a => ?_
    rw [A.placed_eq a]
  have old : ∀ {m' : Mesh XR}, m.Repaired m' → ∀ v, m.vAlive v = true → m'.vAlive v = true →
      m'.placed v = p v ∧ m'.vPos v = m.vPos v ∧ m'.vLock v = m.vLock v := fun {m'} r v a a' => by
    refine ⟨?_, r.old v a a'⟩
    rw [← A.placed_eq a]
    unfold Mesh.placed
    rw [(r.old v a a').1]
  have new : ∀ {m' : Mesh XR}, m.Repaired m' → ∀ v, m'.vAlive v = true → m.vAlive v = false →
      m'.vLock v = false ∧ m'.placed v ∈ convexHull ℝ {x | ∃ u, m.vAlive u = true ∧ p u = x} := fun {m'} r v a n => by
    refine ⟨?_, by rw [← set]; exact r.hull v a⟩
    rcases r.fresh v a with h | h
    · rw [n] at h; cases h
    · exact h
  rcases repair_ends (m := m) ⟨s, d, A.placed⟩ hl aa ts with ⟨N, b, m', h1, h2, h3, h4⟩ | ⟨N, m', h1, h2, h3, x, m2, h4, h5, h6, h7⟩
  · exact ⟨N, m', m'.placed, h2.shut, h2.at_, old h3, new h3, Or.inl ⟨b, h1, h4⟩⟩
  · exact ⟨N, m', m'.placed, h2.shut, h2.at_, old h3, new h3, Or.inr ⟨h1, x, m2, h4, by rw [div_eq_inv_mul, ← one_div]; exact h5, h6, h7⟩⟩

end

/-! ### A vertex with four neighbours -/

/-- incidences of the icosahedron with a split edge; the new vertex is 13 -/
structure RingFacts {F : Type} (m : Mesh F) : Prop where
  hes : ∀ h ∈ m.hes, m.hBd h = false ∧ m.hNext (m.hNext (m.hNext h)) = h
  outs : m.outs 13 = [1, 64, 63, 65] ∧ m.outs 3 = [3, 8, 18, 25, 28, 62] ∧ m.outs 1 = [4, 7, 10, 13, 61] ∧ m.outs 2 = [2, 6, 16, 19, 22]
  dst13 : (m.outs 13).map (fun y => m.hSrc (m.hNext y)) = [2, 1, 3, 4]
  far13 : (m.outs 13).map (fun y => m.hSrc (m.hNext (m.hNext y))) = [3, 4, 1, 2]
  rfar13 : (m.outs 13).map (fun y => m.hSrc (m.hNext (m.hNext (m.hRev y)))) = [4, 3, 2, 1]
  dst3 : (m.outs 3).map (fun y => m.hSrc (m.hNext y)) = [1, 5, 2, 9, 7, 13]
  far3 : (m.outs 3).map (fun y => m.hSrc (m.hNext (m.hNext y))) = [13, 1, 7, 5, 9, 2]
  dst1 : (m.outs 1).map (fun y => m.hSrc (m.hNext y)) = [4, 3, 5, 6, 13]
  far1 : (m.outs 1).map (fun y => m.hSrc (m.hNext (m.hNext y))) = [13, 5, 6, 4, 3]
  dst2 : (m.outs 2).map (fun y => m.hSrc (m.hNext y)) = [3, 13, 7, 8, 4]
  far2 : (m.outs 2).map (fun y => m.hSrc (m.hNext (m.hNext y))) = [13, 4, 3, 7, 8]
  deg : m.outDeg 13 = 4 ∧ ∀ v ∈ m.vs, v ≠ 13 → 4 < m.outDeg v
  revs : m.hRev 62 = 63 ∧ m.hRev 61 = 64 ∧ m.hRev 6 = 1 ∧ m.hRev (m.hNext 61) = 62 ∧ m.hRev 63 = 62 ∧ m.hRev 64 = 61 ∧ m.hRev 1 = 6
  srcs : m.hSrc 62 = 3 ∧ m.hSrc 61 = 1 ∧ m.hSrc 6 = 2 ∧ m.hAlive 61 = true ∧ m.hAlive 62 = true ∧ m.hAlive 6 = true
  faces : (m.outs 13).map (fun y => m.fHe (m.hFace y)) = [1, 64, 61, 6]
  idx : m.vs[12]? = some 13

theorem ring_tables : ∃ m : Mesh Rat, m.Good ∧ RingFacts m := by
  obtain ⟨u, m0, b, m, h1, h2, h3⟩ := thenSt_iff (o := construct icoV icoI fresh) (f := splitHE 1) (p := fun m0 b m =>
    decide (m0.hAlive 1 = true ∧ b = true ∧
      (∀ h ∈ m.hes, m.hBd h = false ∧ m.hNext (m.hNext (m.hNext h)) = h) ∧
      (m.outs 13 = [1, 64, 63, 65] ∧ m.outs 3 = [3, 8, 18, 25, 28, 62] ∧ m.outs 1 = [4, 7, 10, 13, 61] ∧ m.outs 2 = [2, 6, 16, 19, 22]) ∧
      (m.outs 13).map (fun y => m.hSrc (m.hNext y)) = [2, 1, 3, 4] ∧
      (m.outs 13).map (fun y => m.hSrc (m.hNext (m.hNext y))) = [3, 4, 1, 2] ∧
      (m.outs 13).map (fun y => m.hSrc (m.hNext (m.hNext (m.hRev y)))) = [4, 3, 2, 1] ∧
      (m.outs 3).map (fun y => m.hSrc (m.hNext y)) = [1, 5, 2, 9, 7, 13] ∧
      (m.outs 3).map (fun y => m.hSrc (m.hNext (m.hNext y))) = [13, 1, 7, 5, 9, 2] ∧
      (m.outs 1).map (fun y => m.hSrc (m.hNext y)) = [4, 3, 5, 6, 13] ∧
      (m.outs 1).map (fun y => m.hSrc (m.hNext (m.hNext y))) = [13, 5, 6, 4, 3] ∧
      (m.outs 2).map (fun y => m.hSrc (m.hNext y)) = [3, 13, 7, 8, 4] ∧
      (m.outs 2).map (fun y => m.hSrc (m.hNext (m.hNext y))) = [13, 4, 3, 7, 8] ∧
      (m.outDeg 13 = 4 ∧ ∀ v ∈ m.vs, v ≠ 13 → 4 < m.outDeg v) ∧
      (m.hRev 62 = 63 ∧ m.hRev 61 = 64 ∧ m.hRev 6 = 1 ∧ m.hRev (m.hNext 61) = 62 ∧ m.hRev 63 = 62 ∧ m.hRev 64 = 61 ∧ m.hRev 1 = 6) ∧
      (m.hSrc 62 = 3 ∧ m.hSrc 61 = 1 ∧ m.hSrc 6 = 2 ∧ m.hAlive 61 = true ∧ m.hAlive 62 = true ∧ m.hAlive 6 = true) ∧
      (m.outs 13).map (fun y => m.fHe (m.hFace y)) = [1, 64, 61, 6] ∧ m.vs[12]? = some 13)) (by decide +kernel)
  cases u
  obtain ⟨a1, rfl, x1, x2, x3, x4, x5, x6, x7, x8, x9, x10, x11, x12, x13, x14, x15, x16⟩ := of_decide_eq_true h3
  have g0 := c01_construct_consistent (Owned.empty _) h1
  refine ⟨m, ?_, x1, x2, x3, x4, x5, x6, x7, x8, x9, x10, x11, x12, x13, x14, x15, x16⟩
  rcases c12_split g0 1 a1 with e | ⟨m2, _, _, _, _, _, e, -, -, -, d⟩
  · rw [h2] at e; cases e
  · rw [h2] at e; cases e; exact d.good

/-- the new vertex in the middle of a rhombus -/
noncomputable def ringAt (s : ℝ) (v : Nat) : Vec3 ℝ :=
  if v = 13 then ⟨0, 0, 0⟩ else if v = 2 then ⟨1, 0, 0⟩ else if v = 3 then ⟨0, s, 0⟩ else if v = 1 then ⟨-1, 0, 0⟩ else if v = 4 then ⟨0, -1, 0⟩ else
    if v = 7 then ⟨20, 30, 0⟩ else if v = 9 then ⟨0, 40, 0⟩ else if v = 5 then ⟨-20, 30, 0⟩ else if v = 6 then ⟨-20, 32, 0⟩ else
      if v = 8 then ⟨20, 32, 0⟩ else ⟨v, 0, -20⟩

/-- in a right-angled triangle -/
theorem seen_right {a b : E3} (h : inner ℝ a b = 0) (ha : a ≠ 0) : seen 0 a b = Real.arctan (‖b‖ / ‖a‖) := by
  have n1 : ¬ ((0 : E3) = a ∨ b = a) := by
    rintro (e | rfl)
    · exact ha e.symm
    · exact ha (inner_self_eq_zero.1 h)
  unfold seen
  rw [if_neg n1]
  unfold EuclideanGeometry.angle
  have e1 : (0 : E3) -ᵥ a = -a := by simp
  have e2 : b -ᵥ a = -a + b := by rw [vsub_eq_sub, sub_eq_neg_add]
  rw [e1, e2, InnerProductGeometry.angle_add_eq_arctan_of_inner_eq_zero (by rw [inner_neg_left, h, neg_zero]) (neg_ne_zero.2 ha), norm_neg]

/-- the mesh: every vertex but the new one is locked -/
noncomputable def ringMesh (m : Mesh Rat) (s : ℝ) : Mesh XR := { m.overR (ringAt s) with vLock := fun v => decide (v ≠ 13) }

section
variable {m : Mesh Rat} {s : ℝ}

theorem ring_at (m : Mesh Rat) (s : ℝ) : (ringMesh m s).AtE fun v => (ringAt s v).E := fun v _ => ⟨ringAt s v, rfl, rfl⟩

theorem ring_shut (G : m.Good) (I : RingFacts m) : (ringMesh m s).Shut :=
  Mesh.Shut.of ((G.over _).setLocks _) fun h a => (I.hes h ((G.wf.hDense.mem h).2 a)).1

theorem ring_alive (G : m.Good) (I : RingFacts m) : m.vAlive 13 = true := (G.wf.vDense.mem 13).1 (List.mem_of_getElem? I.idx)

theorem ring_deg (G : m.Good) (I : RingFacts m) : (ringMesh m s).Deg3 := fun v a => by
  change 3 ≤ m.outDeg v
  by_cases h : v = 13
  · rw [h, I.deg.1]; decide
  · have := I.deg.2 v ((G.wf.vDense.mem v).2 a) h; omega

theorem ring_mem {v : Nat} (G : m.Good) {y : Nat} : (m.hAlive y = true ∧ m.hSrc y = v) ↔ y ∈ m.outs v := by
  unfold Mesh.outs
  rw [List.mem_filter, G.wf.hDense.mem, beq_iff_eq]

/-- an edge to the new vertex is collapsed onto it -/
theorem ring_side (G : m.Good) (I : RingFacts m) {x h : Nat} (ax : m.hAlive x = true) (sx : m.hSrc x = 13) (hh : h = x ∨ h = m.hRev x) :
    x = if m.outDeg (m.hSrc (m.hRev h)) < m.outDeg (m.hSrc h) then m.hRev h else h := by
  have w := G.wf
  have ne : m.hSrc (m.hRev x) ≠ 13 := by
    rw [w.src_rev _ ax]
    exact fun e => G.simple.no_loop x ax (by rw [sx, e])
  have := I.deg.2 _ ((w.vDense.mem _).2 (w.src_alive _ (w.rev_alive _ ax))) ne
  rcases hh with rfl | rfl
  · rw [if_neg (by rw [sx, I.deg.1]; omega)]
  · rw [w.rev_rev _ ax, if_pos (by rw [sx, I.deg.1]; exact this)]

theorem ring_star3 (I : RingFacts m) : (ringMesh m s).starArea (fun v => (ringAt s v).E) 3 = (⟨0, 0, 1660⟩ : Vec3 ℝ).E := by
  obtain ⟨-, ⟨-, o3, -⟩, -, -, -, dst, far, -⟩ := I
  rw [o3] at dst far
  simp only [List.map_cons, List.map_nil, List.cons.injEq, and_true] at dst far
  change ((m.outs 3).map fun h => triNormal (ringAt s 3).E (ringAt s (m.hSrc (m.hNext h))).E (ringAt s (m.hSrc (m.hNext (m.hNext h)))).E).sum = _
  rw [o3]
  simp only [List.map_cons, List.map_nil, List.sum_cons, List.sum_nil, dst, far, triNormal_E, ← E_zero, ← Vec3.E_add]
  congr 1
  norm_num [ringAt, Vec3.cross_def, Vec3.sub_def, Vec3.add_def, Vec3.zero_def]
  ring

theorem ring_star1 (I : RingFacts m) : (ringMesh m 1).starArea (fun v => (ringAt 1 v).E) 1 = 0 := by
  obtain ⟨-, ⟨-, -, o1, -⟩, -, -, -, -, -, dst, far, -⟩ := I
  rw [o1] at dst far
  simp only [List.map_cons, List.map_nil, List.cons.injEq, and_true] at dst far
  change ((m.outs 1).map fun h => triNormal (ringAt 1 1).E (ringAt 1 (m.hSrc (m.hNext h))).E (ringAt 1 (m.hSrc (m.hNext (m.hNext h)))).E).sum = _
  rw [o1]
  simp only [List.map_cons, List.map_nil, List.sum_cons, List.sum_nil, dst, far, triNormal_E, ← E_zero, ← Vec3.E_add]
  congr 1
  norm_num [ringAt, Vec3.cross_def, Vec3.sub_def, Vec3.add_def, Vec3.zero_def]

theorem ring_star2 (I : RingFacts m) : (ringMesh m 1).starArea (fun v => (ringAt 1 v).E) 2 = 0 := by
  obtain ⟨-, ⟨-, -, -, o2⟩, -, -, -, -, -, -, -, dst, far, -⟩ := I
  rw [o2] at dst far
  simp only [List.map_cons, List.map_nil, List.cons.injEq, and_true] at dst far
  change ((m.outs 2).map fun h => triNormal (ringAt 1 2).E (ringAt 1 (m.hSrc (m.hNext h))).E (ringAt 1 (m.hSrc (m.hNext (m.hNext h)))).E).sum = _
  rw [o2]
  simp only [List.map_cons, List.map_nil, List.sum_cons, List.sum_nil, dst, far, triNormal_E, ← E_zero, ← Vec3.E_add]
  congr 1
  norm_num [ringAt, Vec3.cross_def, Vec3.sub_def, Vec3.add_def, Vec3.zero_def]

/-- the edge from the new vertex to the vertex 3 is collapsed -/
theorem ring_collapse (G : m.Good) (I : RingFacts m) {h : Nat} (hh : h = 63 ∨ h = 62) : ∃ m', collapseHE h (ringMesh m s) = .ok true m' := by
  have w := G.wf
  have st := ring_star3 (s := s) I
  have I' := I
  obtain ⟨hes, ⟨o13, o3, -⟩, d13, f13, rf13, d3, f3, -, -, -, -, deg, revs, srcs, -, -⟩ := I'
  rw [o13] at d13 f13 rf13
  rw [o3] at d3 f3
  simp only [List.map_cons, List.map_nil, List.cons.injEq, and_true] at d13 f13 rf13 d3 f3
  obtain ⟨a63, s63⟩ := (ring_mem (v := 13) G (y := 63)).2 (by rw [o13]; simp)
  have a62 : m.hAlive 62 = true := srcs.2.2.2.2.1
  have ah : m.hAlive h = true := by rcases hh with rfl | rfl <;> assumption
  have q : (ringMesh m s).hSrc ((ringMesh m s).hRev 63) = 3 := by
    change m.hSrc (m.hRev 63) = 3
    rw [revs.2.2.2.2.1, srcs.1]
  have k : (ringMesh m s).hSrc 63 = 13 := s63
  have big : ∀ v, m.vAlive v = true → v ≠ 13 → 4 < m.outDeg v := fun v a n => deg.2 v ((w.vDense.mem v).2 a) n
  have far : ∀ x y, m.hAlive x = true → m.hSrc (m.hNext (m.hNext x)) = y → y ≠ 13 → 4 < m.outDeg (m.hSrc (m.hNext (m.hNext x))) :=
    fun x y ax e n => big _ (w.src_alive _ (w.next_alive _ (w.next_alive _ ax))) (by rw [e]; exact n)
  have sg : ∀ y, y ∈ m.outs 3 → 0 ≤ (ringMesh m s).movedSign (fun v => (ringAt s v).E) 13 y := by
    intro y hy
    have sy := ((ring_mem (v := 3) G).2 hy).2
    unfold Mesh.movedSign
    change 0 ≤ inner ℝ ((ringMesh m s).starArea (fun v => (ringAt s v).E) (m.hSrc y))
      (triNormal (ringAt s 13).E (ringAt s (m.hSrc (m.hNext y))).E (ringAt s (m.hSrc (m.hNext (m.hNext y)))).E)
    rw [sy, st, triNormal_E, Vec3.E_inner]
    rw [o3] at hy
    simp only [List.mem_cons, List.not_mem_nil, or_false] at hy
    rcases hy with rfl | rfl | rfl | rfl | rfl | rfl <;> norm_num [d3, f3, ringAt, Vec3.cross_def, Vec3.sub_def, Vec3.dot_def]
  refine c65_complete (p := fun v => (ringAt s v).E) (e := 63) (ring_shut G I).good (ring_at m s) ah ?_ ?_ ?_ ?_ ?_ ?_ ?_ ?_
  · exact ring_side G I a63 s63 (hh.imp id fun e => by rw [e, revs.2.2.2.2.1])
  · exact fun y ay _ => (hes y ((w.hDense.mem y).2 ay)).2
  · exact fun x ax _ => (hes x ((w.hDense.mem x).2 ax)).1
  · rw [q, k]
    change 3 < m.outDeg 13 ∧ 3 < m.outDeg 3
    rw [deg.1]
    have := big 3 (by rw [← srcs.1]; exact w.src_alive _ a62) (by decide)
    omega
  · change 4 < m.outDeg (m.hSrc (m.hNext (m.hNext 63))) ∧ 4 < m.outDeg (m.hSrc (m.hNext (m.hNext (m.hRev 63))))
    exact ⟨far 63 _ a63 f13.2.2.1 (by decide), far _ _ (w.rev_alive _ a63) rf13.2.2.1 (by decide)⟩
  · rw [q, k]
    change (m.outs 13).countP (fun x => (m.outs 3).any fun y => m.hSrc (m.hNext y) == m.hSrc (m.hNext x)) = 2
    rw [o13, o3]
    simp [d13, d3]
  · rw [q, st, ← E_zero, Ne, Vec3.E_inj]
    simp [Vec3.zero_def]
  · intro y ay sy
    rw [q] at sy
    rw [k]
    exact sg y ((ring_mem G).1 ⟨ay, sy⟩)

/-- the two angles opposite to an edge of the new vertex -/
theorem ring_facing (G : m.Good) (I : RingFacts m) (hs : 0 < s) {x : Nat} (ax : m.hAlive x = true) (sx : m.hSrc x = 13) :
    ((ringMesh m s).facing (fun v => (ringAt s v).E) x = Real.arctan s ∨ (ringMesh m s).facing (fun v => (ringAt s v).E) x = Real.arctan s⁻¹ ∨
      (ringMesh m s).facing (fun v => (ringAt s v).E) x = Real.arctan 1) ∧
    ((ringMesh m s).facing (fun v => (ringAt s v).E) (m.hRev x) = Real.arctan s ∨
      (ringMesh m s).facing (fun v => (ringAt s v).E) (m.hRev x) = Real.arctan s⁻¹ ∨
      (ringMesh m s).facing (fun v => (ringAt s v).E) (m.hRev x) = Real.arctan 1) ∧
    (x = 63 → (ringMesh m s).facing (fun v => (ringAt s v).E) x = Real.arctan s) := by
  have w := G.wf
  have hx := (ring_mem G).1 ⟨ax, sx⟩
  have e1 : (ringMesh m s).facing (fun v => (ringAt s v).E) x =
      seen (ringAt s (m.hSrc x)).E (ringAt s (m.hSrc (m.hNext (m.hNext x)))).E (ringAt s (m.hSrc (m.hNext x))).E := rfl
  have e2 : (ringMesh m s).facing (fun v => (ringAt s v).E) (m.hRev x) =
      seen (ringAt s (m.hSrc (m.hRev x))).E (ringAt s (m.hSrc (m.hNext (m.hNext (m.hRev x))))).E (ringAt s (m.hSrc (m.hNext (m.hRev x)))).E := rfl
  have sr : m.hSrc (m.hNext (m.hRev x)) = 13 := by rw [← w.src_rev _ (w.rev_alive _ ax), w.rev_rev _ ax, sx]
  rw [sx] at e1
  rw [sr, w.src_rev _ ax, seen_comm] at e2
  have z : (ringAt s 13).E = 0 := by rw [← E_zero]; simp [ringAt, Vec3.zero_def]
  rw [z] at e1 e2
  obtain ⟨-, ⟨o13, -⟩, d13, f13, rf13, -⟩ := I
  rw [o13] at hx d13 f13 rf13
  simp only [List.map_cons, List.map_nil, List.cons.injEq, and_true] at d13 f13 rf13
  simp only [List.mem_cons, List.not_mem_nil, or_false] at hx
  have at2 : ringAt s 2 = ⟨1, 0, 0⟩ := rfl
  have at3 : ringAt s 3 = ⟨0, s, 0⟩ := rfl
  have at1 : ringAt s 1 = ⟨-1, 0, 0⟩ := rfl
  have at4 : ringAt s 4 = ⟨0, -1, 0⟩ := rfl
  have n1 : ‖(⟨1, 0, 0⟩ : Vec3 ℝ).E‖ = 1 := by rw [Vec3.E_norm, Vec3.length_def]; norm_num [Vec3.dot_def]
  have n2 : ‖(⟨-1, 0, 0⟩ : Vec3 ℝ).E‖ = 1 := by rw [Vec3.E_norm, Vec3.length_def]; norm_num [Vec3.dot_def]
  have n3 : ‖(⟨0, -1, 0⟩ : Vec3 ℝ).E‖ = 1 := by rw [Vec3.E_norm, Vec3.length_def]; norm_num [Vec3.dot_def]
  have n4 : ‖(⟨0, s, 0⟩ : Vec3 ℝ).E‖ = s := by rw [Vec3.E_norm, Vec3.length_def]; norm_num [Vec3.dot_def]; exact Real.sqrt_mul_self hs.le
  have ne : ∀ v : Vec3 ℝ, ‖v.E‖ ≠ 0 → v.E ≠ 0 := fun v h e => h (by rw [e, norm_zero])
  have key : ∀ a b : Vec3 ℝ, a.dot b = 0 → ‖a.E‖ ≠ 0 → seen 0 a.E b.E = Real.arctan (‖b.E‖ / ‖a.E‖) := fun a b h h' =>
    seen_right (by rw [Vec3.E_inner, h]) (ne a h')
  rw [e1, e2]
  rcases hx with rfl | rfl | rfl | rfl
  · rw [d13.1, f13.1, rf13.1, at2, at3, at4, key _ _ (by simp [Vec3.dot_def]) (by rw [n4]; exact hs.ne'), key _ _ (by simp [Vec3.dot_def]) (by rw [n3]; norm_num),
      n1, n3, n4, div_one, one_div]
    exact ⟨Or.inr (Or.inl rfl), Or.inr (Or.inr rfl), fun h => by omega⟩
  · rw [d13.2.1, f13.2.1, rf13.2.1, at1, at3, at4, key _ _ (by simp [Vec3.dot_def]) (by rw [n3]; norm_num), key _ _ (by simp [Vec3.dot_def]) (by rw [n4]; exact hs.ne'),
      n2, n3, n4, div_one, one_div]
    exact ⟨Or.inr (Or.inr rfl), Or.inr (Or.inl rfl), fun h => by omega⟩
  · rw [d13.2.2.1, f13.2.2.1, rf13.2.2.1, at1, at3, at2, key _ _ (by simp [Vec3.dot_def]) (by rw [n2]; norm_num), key _ _ (by simp [Vec3.dot_def]) (by rw [n1]; norm_num),
      n1, n2, n4, div_one]
    exact ⟨Or.inl rfl, Or.inl rfl, fun _ => rfl⟩
  · rw [d13.2.2.2, f13.2.2.2, rf13.2.2.2, at1, at4, at2, key _ _ (by simp [Vec3.dot_def]) (by rw [n1]; norm_num), key _ _ (by simp [Vec3.dot_def]) (by rw [n2]; norm_num),
      n1, n2, n3, div_one]
    exact ⟨Or.inr (Or.inr rfl), Or.inr (Or.inr rfl), fun h => by omega⟩

theorem loop_none {step : Nat → M XR Bool} {M : Mesh XR} {t v : Nat} (h : M.vs[t]? = some v) (e : step v M = .ok false M) (k : Nat) :
    repairAll step (k + 1) [t] M = .ok false M := by
  simp only [repairAll, bind_apply, repairLoop_in h, e]
  rfl

/-- there is nothing to split and to flip at the new vertex -/
theorem ring_first (G : m.Good) (I : RingFacts m) (h0 : 0 < s) (h1 : s ≤ 1) (k : Nat) :
    repairAll (splitLong (Scalar.lit 3 2 * XR.fin 20)) (k + 1) [12] (ringMesh m s) = .ok false (ringMesh m s) ∧
    repairAll flipWide (k + 1) [12] (ringMesh m s) = .ok false (ringMesh m s) := by
  have w := G.wf
  have av : (ringMesh m s).vAlive 13 = true := ring_alive G I
  have ix : (ringMesh m s).vs[12]? = some 13 := I.idx
  have S := ring_shut (s := s) G I
  refine ⟨loop_none ix ?_ k, loop_none ix ?_ k⟩
  · rcases splitLong_cases S.good av (Scalar.lit 3 2 * XR.fin 20) with h | ⟨x, m', he, ax, sx, lt, -, -⟩
    · exact h.1
    exfalso
    have hx := (ring_mem G).1 ⟨ax, sx⟩
    have len := ((ring_at m s _ (S.good.wf.src_alive _ ax)).sub (ring_at m s _ (S.good.wf.src_alive _ (S.good.wf.next_alive _ ax)))).length
    rw [len, sx] at lt
    have lim : (Scalar.lit 3 2 * XR.fin 20 : XR) = XR.fin 30 := by
      rw [X_lit, X_mul, R_lit]; norm_num
    rw [lim, X_lt_iff] at lt
    simp only [decide_eq_true_eq] at lt
    have e : (ringMesh m s).hSrc ((ringMesh m s).hNext x) = m.hSrc (m.hNext x) := rfl
    rw [e, ← Vec3.E_sub, Vec3.E_norm, Vec3.length_def] at lt
    obtain ⟨-, ⟨o13, -⟩, d13, -⟩ := I
    rw [o13] at hx d13
    simp only [List.map_cons, List.map_nil, List.cons.injEq, and_true] at d13
    simp only [List.mem_cons, List.not_mem_nil, or_false] at hx
    have le : (((ringAt s 13).sub (ringAt s (m.hSrc (m.hNext x)))).dot ((ringAt s 13).sub (ringAt s (m.hSrc (m.hNext x))))) ≤ 30 * 30 := by
      rcases hx with rfl | rfl | rfl | rfl
      · rw [d13.1]; norm_num [ringAt, Vec3.sub_def, Vec3.dot_def]
      · rw [d13.2.1]; norm_num [ringAt, Vec3.sub_def, Vec3.dot_def]
      · rw [d13.2.2.1]; norm_num [ringAt, Vec3.sub_def, Vec3.dot_def]; nlinarith
      · rw [d13.2.2.2]; norm_num [ringAt, Vec3.sub_def, Vec3.dot_def]
    have := Real.sqrt_le_sqrt le
    rw [Real.sqrt_mul_self (by norm_num)] at this
    linarith
  · rcases flipWide_cases S (ring_at m s) av with h | ⟨x, m', ax, sx, W, -⟩
    · exact h.1
    exfalso
    obtain ⟨f1, f2, -⟩ := ring_facing G I h0 ax sx
    have lt : ∀ {r : ℝ}, r = Real.arctan s ∨ r = Real.arctan s⁻¹ ∨ r = Real.arctan 1 → r < Real.pi / 2 := by
      rintro r (rfl | rfl | rfl) <;> exact Real.arctan_lt_pi_div_two _
    have l1 := lt f1
    have l2 := lt f2
    have W' : Real.pi < (ringMesh m s).facing (fun v => (ringAt s v).E) x + (ringMesh m s).facing (fun v => (ringAt s v).E) (m.hRev x) := W
    linarith

end

/-- a mesh with a thin angle, a long edge and a small face at the vertex with the index 12 -/
example : ∃ (m : Mesh XR) (p : Nat → E3), m.Shut ∧ m.Deg3 ∧ m.AtE p ∧ m.vs[12]? = some 13 ∧ m.vAlive 13 = true ∧ ¬ m.ShortAt p (1 / 2) 13 ∧
    ∃ x, m.hAlive x = true ∧ m.hSrc x = 13 ∧ m.Thin p x ∧ m.areaOf p (m.fHe (m.hFace x)) < 1 / 10 := by
  obtain ⟨m, G, I⟩ := ring_tables
  have w := G.wf
  have I' := I
  obtain ⟨hes, ⟨o13, o3, o1, o2⟩, d13, f13, rf13, d3, f3, d1, f1, d2, f2, deg, revs, srcs, faces, -⟩ := I'
  rw [o13] at faces d13
  rw [o1] at d1 f1
  simp only [List.map_cons, List.map_nil, List.cons.injEq, and_true] at faces d1 f1 d13
  obtain ⟨a63, s63⟩ := (ring_mem (v := 13) G (y := 63)).2 (by rw [o13]; simp)
  obtain ⟨a1, s1⟩ := (ring_mem (v := 13) G (y := 1)).2 (by rw [o13]; simp)
  refine ⟨ringMesh m (1 / 10), fun v => (ringAt (1 / 10) v).E, ring_shut G I, ring_deg G I, ring_at m _, I.idx, ring_alive G I, fun h => ?_,
    63, a63, s63, Or.inl ?_, ?_⟩
  · have := h 2 ⟨1, a1, s1, d13.1⟩
    change ‖(ringAt (1 / 10) 13).E - (ringAt (1 / 10) 2).E‖ ≤ 1 / 2 at this
    rw [← Vec3.E_sub, Vec3.E_norm, Vec3.length_def] at this
    norm_num [ringAt, Vec3.sub_def, Vec3.dot_def] at this
  · rw [(ring_facing (s := 1 / 10) G I (by norm_num) a63 s63).2.2 rfl]
    have p0 : (0 : ℝ) < Real.arctan (1 / 10) := Real.arctan_pos.2 (by norm_num)
    have := Real.lt_tan p0 (Real.arctan_lt_pi_div_two _)
    rw [Real.tan_arctan] at this
    have := Real.pi_gt_three
    linarith
  · change triArea (ringAt (1 / 10) (m.hSrc (m.fHe (m.hFace 63)))).E (ringAt (1 / 10) (m.hSrc (m.hNext (m.fHe (m.hFace 63))))).E
      (ringAt (1 / 10) (m.hSrc (m.hNext (m.hNext (m.fHe (m.hFace 63)))))).E < 1 / 10
    rw [faces.2.2.1, srcs.2.1, d1.2.2.2.2, f1.2.2.2.2, triArea_E, Vec3.length_def]
    norm_num [ringAt, Vec3.cross_def, Vec3.sub_def, Vec3.dot_def]
    rw [show (100 : ℝ) = 10 ^ 2 by norm_num, Real.sqrt_sq (by norm_num)]
    norm_num

/-- C87 is false: the repair can be undefined. All edges of the first face are too short to be split, no angle is wide or thin. Its area is
below the limit; of the two edges that `collapseFace` collapses the first cannot be collapsed, and the second one can. -/
theorem c87_ub_counterexample : ∃ (m : Mesh XR) (p : Nat → E3), m.Shut ∧ m.Deg3 ∧ m.AtE p ∧
    ∀ fuel, 1 ≤ fuel → repair (XR.fin 20) (XR.fin 100) fuel [12] m = .err .ub := by
  obtain ⟨m, G, I⟩ := ring_tables
  have w := G.wf
  have S := ring_shut (s := 1) G I
  have A := ring_at m 1
  have av : (ringMesh m 1).vAlive 13 = true := ring_alive G I
  have ix : (ringMesh m 1).vs[12]? = some 13 := I.idx
  refine ⟨ringMesh m 1, fun v => (ringAt 1 v).E, S, ring_deg G I, A, fun fuel hf => ?_⟩
  obtain ⟨k, rfl⟩ : ∃ k, fuel = k + 1 := ⟨fuel - 1, by omega⟩
  obtain ⟨r1, r2⟩ := ring_first (s := 1) G I (by norm_num) le_rfl k
  have pi := Real.pi_pos
  have thin : repairAll collapseThin (k + 1) [12] (ringMesh m 1) = .ok false (ringMesh m 1) := by
    refine loop_none ix ?_ k
    rcases collapseThin_cases S A av with h | ⟨x, m', ax, sx, T, -⟩
    · exact h.1
    exfalso
    obtain ⟨f1, f2, -⟩ := ring_facing (s := 1) G I (by norm_num) ax sx
    have eq : ∀ {r : ℝ}, r = Real.arctan 1 ∨ r = Real.arctan (1 : ℝ)⁻¹ ∨ r = Real.arctan 1 → r = Real.pi / 4 := by
      rintro r (rfl | rfl | rfl)
      · exact Real.arctan_one
      · rw [inv_one]; exact Real.arctan_one
      · exact Real.arctan_one
    rcases T with T | T
    · rw [eq f1] at T; linarith
    · change (ringMesh m 1).facing (fun v => (ringAt 1 v).E) (m.hRev x) < _ at T
      rw [eq f2] at T; linarith
  have lim : (Scalar.lit 1 100 * XR.fin 100 : XR) = XR.fin 1 := by
    rw [X_lit, X_mul, R_lit]; norm_num
  have K : (ringMesh m 1).Kept := ⟨S, A.placed⟩
  have I' := I
  obtain ⟨hes, ⟨o13, o3, o1, o2⟩, d13, f13, rf13, d3, f3, d1, f1, d2, f2, deg, revs, srcs, faces, -⟩ := I'
  rw [o13] at faces d13
  rw [o1] at d1 f1
  simp only [List.map_cons, List.map_nil, List.cons.injEq, and_true] at faces d1 f1 d13
  obtain ⟨a1, s1⟩ := (ring_mem (v := 13) G (y := 1)).2 (by rw [o13]; simp)
  obtain ⟨a64, s64⟩ := (ring_mem (v := 13) G (y := 64)).2 (by rw [o13]; simp)
  obtain ⟨a63, s63⟩ := (ring_mem (v := 13) G (y := 63)).2 (by rw [o13]; simp)
  have ring : ∀ v, (ringMesh m 1).TriRing v := fun v y ay _ => (hes y ((w.hDense.mem y).2 ay)).2
  have no : ∀ x h, m.hAlive x = true → m.hSrc x = 13 → h = x ∨ h = m.hRev x → (ringMesh m 1).starArea (fun v => (ringAt 1 v).E) (m.hSrc (m.hRev x)) = 0 →
      collapseHE h (ringMesh m 1) = .ok false (ringMesh m 1) := by
    intro x h ax sx hh z
    have ah : m.hAlive h = true := by
      rcases hh with rfl | rfl
      · exact ax
      · exact w.rev_alive _ ax
    rcases c65_accept (p := fun v => (ringAt 1 v).E) S.good A ah (ring_side G I ax sx hh) (ring _) with ⟨c, -⟩ | ⟨-, e⟩
    · exact absurd z c.area
    · exact e
  have z1 : (ringMesh m 1).starArea (fun v => (ringAt 1 v).E) (m.hSrc (m.hRev 1)) = 0 := by
    rw [revs.2.2.2.2.2.2, srcs.2.2.1]; exact ring_star2 I
  have z64 : (ringMesh m 1).starArea (fun v => (ringAt 1 v).E) (m.hSrc (m.hRev 64)) = 0 := by
    rw [revs.2.2.2.2.2.1, srcs.2.1]; exact ring_star1 I
  have first : ∀ x, x ∈ m.outs 13 → collapseHE (m.fHe (m.hFace x)) (ringMesh m 1) = .ok false (ringMesh m 1) := by
    intro x hx
    rw [o13] at hx
    simp only [List.mem_cons, List.not_mem_nil, or_false] at hx
    rcases hx with rfl | rfl | rfl | rfl
    · rw [faces.1]; exact no 1 _ a1 s1 (Or.inl rfl) z1
    · rw [faces.2.1]; exact no 64 _ a64 s64 (Or.inl rfl) z64
    · rw [faces.2.2.1]; exact no 64 _ a64 s64 (Or.inr revs.2.2.2.2.2.1.symm) z64
    · rw [faces.2.2.2]; exact no 1 _ a1 s1 (Or.inr revs.2.2.2.2.2.2.symm) z1
  have small : collapseSmall (XR.fin 1) 13 (ringMesh m 1) = .err .ub := by
    rcases collapseSmall_cases S A av 1 with ⟨-, h⟩ | ⟨x, m', ax, sx, -, h, -⟩ | ⟨-, -, -, -, -, -, -, h⟩
    · exfalso
      obtain ⟨m2, e2⟩ := ring_collapse (s := 1) G I (h := 62) (Or.inr rfl)
      have e1 := first 63 (by rw [o13]; simp)
      have run := collapseFace_run K (f := m.hFace 63) (w.face_alive _ a63) (b1 := false) (b2 := true) (m1 := ringMesh m 1) (m2 := m2) e1 (by
        change collapseHE (m.hRev (m.hNext (m.fHe (m.hFace 63)))) _ = _
        rw [faces.2.2.1, revs.2.2.2.1]; exact e2)
      have area : (ringMesh m 1).areaOf (fun v => (ringAt 1 v).E) (m.fHe (m.hFace 63)) < 1 := by
        change triArea (ringAt 1 (m.hSrc (m.fHe (m.hFace 63)))).E (ringAt 1 (m.hSrc (m.hNext (m.fHe (m.hFace 63))))).E
          (ringAt 1 (m.hSrc (m.hNext (m.hNext (m.fHe (m.hFace 63)))))).E < 1
        rw [faces.2.2.1, srcs.2.1, d1.2.2.2.2, f1.2.2.2.2, triArea_E, Vec3.length_def]
        norm_num [ringAt, Vec3.cross_def, Vec3.sub_def, Vec3.dot_def]
      have := h 63 a63 s63 area
      change collapseFace (m.hFace 63) (ringMesh m 1) = _ at this
      rw [run] at this
      have D := collapseHE_side S.good (srcs.2.2.2.2.1 : (ringMesh m 1).hAlive 62 = true) (ring_side G I a63 s63 (Or.inr revs.2.2.2.2.1.symm)) e2
      have n := D.nv
      cases this
      omega
    · exfalso
      obtain ⟨b2, m2, e2, -⟩ := collapsedIf_ok S.good A.refl_eq (h := m.hRev (m.hNext (m.fHe (m.hFace x))))
        (w.rev_alive _ (w.next_alive _ (w.fHe_ok _ (w.face_alive _ ax)).1))
      have run := collapseFace_run K (f := m.hFace x) (w.face_alive _ ax) (first x ((ring_mem G).1 ⟨ax, sx⟩)) e2
      change collapseFace (m.hFace x) (ringMesh m 1) = _ at h
      rw [run] at h
      cases h
    · exact h
  have last : repairAll (collapseSmall (XR.fin 1)) (k + 1) [12] (ringMesh m 1) = .err .ub := by
    simp only [repairAll, bind_apply, repairLoop_in ix, small]
  unfold repair
  simp only [bind_apply, r1, r2, thin, lim, last]

/-- C87 is false: the repair removes vertices that are locked. The mesh has one vertex that is not, and an angle at it is thin; it has fewer
neighbours than those around it, so the edge is collapsed onto it. -/
theorem c87_locked_counterexample : ∃ (m m' : Mesh XR) (p : Nat → E3) (N q : Nat) (b : Bool), m.Shut ∧ m.Deg3 ∧ m.AtE p ∧ m.vs[12]? = some 13 ∧
    m.vAlive q = true ∧ m.vLock q = true ∧ m'.vAlive q = false ∧
    ∀ fuel, N ≤ fuel → repair (XR.fin 20) (XR.fin 0) fuel [12] m = .ok b m' := by
  obtain ⟨m, G, I⟩ := ring_tables
  have w := G.wf
  have S := ring_shut (s := 1 / 10) G I
  have A := ring_at m (1 / 10)
  have av : (ringMesh m (1 / 10)).vAlive 13 = true := ring_alive G I
  have ix : (ringMesh m (1 / 10)).vs[12]? = some 13 := I.idx
  have K : (ringMesh m (1 / 10)).Kept := ⟨S, A.placed⟩
  obtain ⟨a63, s63⟩ := (ring_mem (v := 13) G (y := 63)).2 (by rw [I.outs.1]; simp)
  obtain ⟨x, m1, ax, sx, run, st⟩ : ∃ x m1, m.hAlive x = true ∧ m.hSrc x = 13 ∧ collapseHE x (ringMesh m (1 / 10)) = .ok true m1 ∧
      collapseThin 13 (ringMesh m (1 / 10)) = .ok true m1 := by
    rcases collapseThin_cases S A av with ⟨-, h⟩ | ⟨x, m', ax, sx, -, h, h'⟩
    · exfalso
      obtain ⟨m2, e2⟩ := ring_collapse (s := 1 / 10) G I (h := 63) (Or.inl rfl)
      have := h 63 a63 s63 (Or.inl (by
        rw [(ring_facing (s := 1 / 10) G I (by norm_num) a63 s63).2.2 rfl]
        have p0 : (0 : ℝ) < Real.arctan (1 / 10) := Real.arctan_pos.2 (by norm_num)
        have := Real.lt_tan p0 (Real.arctan_lt_pi_div_two _)
        rw [Real.tan_arctan] at this
        have := Real.pi_gt_three
        linarith))
      rw [e2] at this
      cases this
    · exact ⟨x, m', ax, sx, h, h'⟩
  have D := collapseHE_side S.good (ax : (ringMesh m (1 / 10)).hAlive x = true) (ring_side G I ax sx (Or.inl rfl)) run
  have K1 : m1.Kept := (collapse_kept K ax run).1
  have q13 : m.hSrc (m.hRev x) ≠ 13 := by
    rw [w.src_rev _ ax]
    exact fun e => G.simple.no_loop x ax (by rw [sx, e])
  obtain ⟨N, b, m2, h1, h2, h3, -⟩ := thinLoop_ends K1 12
  obtain ⟨N', c, m3, k1, k2, k3⟩ : ∃ N c m3, (∀ k, N ≤ k → repairAll (collapseSmall (XR.fin 0)) k [12] m2 = .ok c m3) ∧ m3.Kept ∧ m2.Shrinks m3 := by
    rcases smallAll_ends h2 0 [12] with ⟨N, b, m', h1, h2, h3, -⟩ | ⟨N, e, m', -, -, -, -, y, _, -, l, -⟩
    · exact ⟨N, b, m', h1, h2, h3⟩
    · exfalso
      have : 0 ≤ m'.areaOf m'.placed (m'.fHe (m'.hFace y)) := div_nonneg (norm_nonneg _) (by norm_num)
      linarith
  refine ⟨ringMesh m (1 / 10), m3, fun v => (ringAt (1 / 10) v).E, N + N' + 1, m.hSrc (m.hRev x), true, S, ring_deg G I, A, ix,
    w.src_alive _ (w.rev_alive _ ax), decide_eq_true q13, ?_, ?_⟩
  · cases h : m3.vAlive (m.hSrc (m.hRev x)) with
    | false => rfl
    | true => exact absurd rfl ((D.alive _).1 (h3.old _ (k3.old _ h).1).1).2
  · intro fuel hf
    obtain ⟨k, rfl⟩ : ∃ k, fuel = k + 1 := ⟨fuel - 1, by omega⟩
    obtain ⟨r1, r2⟩ := ring_first (s := 1 / 10) G I (by norm_num) (by norm_num) k
    have lim : (Scalar.lit 1 100 * XR.fin 0 : XR) = XR.fin 0 := by
      rw [X_lit, X_mul, R_lit]; norm_num
    have t1 : repairAll collapseThin (k + 1) [12] (ringMesh m (1 / 10)) = .ok true m2 := by
      simp only [repairAll, bind_apply, repairLoop_in ix, st, h1 k (by omega)]
      rfl
    unfold repair
    simp only [bind_apply, r1, r2, t1, lim, k1 (k + 1) (by omega)]
    rfl

end TinyMesh
