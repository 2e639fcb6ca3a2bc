import Verif.Proof.RemE
import Verif.Props.Turn
/-
C86: which edges remeshing splits, collapses and flips.
-/
set_option maxRecDepth 100000
namespace TinyMesh
open Sample Orbit
attribute [local instance] Sample.ratScalar

section
variable {m m' : Mesh XR} {p : Nat → E3}

/-- C86: the split loop splits exactly the visited edges that are at least as long as the limit and that can be split; the new vertex is
the midpoint. -/
theorem c86_split (g : m.Good) (A : m.AtE p) (lim : ℝ) {i h : Nat} (hi : m.hes[i]? = some h) :
    (lim ≤ m.lenOf p h → 3 ≤ m.outDeg (m.hSrc h) → 3 ≤ m.outDeg (m.hSrc (m.hNext h)) → m.hBd h = false → m.hBd (m.hRev h) = false →
      ∃ m' a b r s n, splitOne (XR.fin lim) i m = .ok () m' ∧ SamePair a b (m.hSrc h) (m.hSrc (m.hNext h)) ∧ m.HasTri a b r ∧ m.HasTri b a s ∧
        SplitDone (fun x y => Vec3.smul (Scalar.lit 1 2) (Vec3.add x y)) m m' a b r s n ∧
        m'.AtE (Function.update p n (midpoint ℝ (p (m.hSrc h)) (p (m.hSrc (m.hNext h)))))) ∧
    (¬ (lim ≤ m.lenOf p h ∧ 3 ≤ m.outDeg (m.hSrc h) ∧ 3 ≤ m.outDeg (m.hSrc (m.hNext h)) ∧ m.hBd h = false ∧ m.hBd (m.hRev h) = false) →
      splitOne (XR.fin lim) i m = .ok () m) := by
  have w := g.wf
  have a : m.hAlive h = true := (w.hDense.mem h).1 (List.mem_of_getElem? hi)
  have e := splitOne_eq g A lim hi
  constructor
  · intro h1 h2 h3 h4 h5
    obtain ⟨m', run⟩ := (c12_split_iff g h a).2 ⟨h2, h3, h4, h5⟩
    rcases c12_split g h a with e' | ⟨m'', x, y, r, s, n, e', sp, t1, t2, d⟩
    · rw [run] at e'; cases e'
    rw [run] at e'; cases e'
    refine ⟨m', x, y, r, s, n, by rw [e, if_pos h1, bind_apply, run]; rfl, sp, t1, t2, d, fun v av => ?_⟩
    by_cases hn : v = n
    · subst hn
      rw [Function.update_self, d.pos]
      have ax : m.vAlive x = true ∧ m.vAlive y = true := by
        rcases sp with ⟨rfl, rfl⟩ | ⟨rfl, rfl⟩
        · exact ⟨w.src_alive _ a, w.src_alive _ (w.next_alive _ a)⟩
        · exact ⟨w.src_alive _ (w.next_alive _ a), w.src_alive _ a⟩
      have k := ((A x ax.1).add (A y ax.2)).smul (Scalar.lit 1 2 : ℝ)
      have hm : midpoint ℝ (p (m.hSrc h)) (p (m.hSrc (m.hNext h))) = (Scalar.lit 1 2 : ℝ) • (p x + p y) := by
        rw [midpoint_eq_smul_add, R_lit]
        have : (⅟2 : ℝ) = ((1 : Int) : ℝ) / ((2 : Nat) : ℝ) := by norm_num
        rw [this]
        rcases sp with ⟨rfl, rfl⟩ | ⟨rfl, rfl⟩
        · rfl
        · rw [add_comm (p (m.hSrc h))]
      rw [hm]
      exact k
    · rw [Function.update_of_ne hn]
      rcases d.only v av with h' | h'
      · rw [(d.keeps v h').2.1]; exact A v h'
      · exact absurd h' hn
  · intro h'
    rw [e]
    split
    · next hl =>
      rcases c12_split g h a with e' | ⟨m', x, y, r, s, n, e', -⟩
      · rw [bind_apply, e']; rfl
      · exact absurd ⟨hl, (c12_split_iff g h a).1 ⟨m', e'⟩⟩ h'
    · rfl

/-- C86: the collapse loop treats exactly the visited edges that are not longer than the lower limit, that have no locked corner in their
two faces and for which all neighbours of the second end are nearer to the first end than the upper limit; for these edges it does what
`collapseHE` does (C15, C65), other edges are left alone. -/
theorem c86_collapse (g : m.Good) (A : m.AtE p) (lo lim : ℝ) {i h : Nat} (hi : m.hes[i]? = some h) :
    (m.Loose h → m.lenOf p h ≤ lo → (∀ u, m.Joined (m.hSrc (m.hNext h)) u → ‖p (m.hSrc h) - p u‖ < lim) →
      ∃ b m', collapseHE h m = .ok b m' ∧ collapseOne (XR.fin lo) (XR.fin lim) i m = .ok () m') ∧
    (¬ (m.Loose h ∧ m.lenOf p h ≤ lo ∧ ∀ u, m.Joined (m.hSrc (m.hNext h)) u → ‖p (m.hSrc h) - p u‖ < lim) →
      collapseOne (XR.fin lo) (XR.fin lim) i m = .ok () m) := by
  have a : m.hAlive h = true := (g.wf.hDense.mem h).1 (List.mem_of_getElem? hi)
  rcases collapseOne_eq g A lo lim hi with ⟨c, e⟩ | ⟨c, e⟩
  · refine ⟨fun _ _ _ => ?_, fun h' => absurd c h'⟩
    have nan : ∀ v, m.vAlive v = true → (m.vPos v).eq (m.vPos v) = true := by
      rcases caps_exact.nan with h | h
      · exact h.elim
      · exact h m ⟨p, A⟩
    rcases c15_collapse g nan h a with e' | ⟨m', x, y, e', -⟩
    · exact ⟨_, _, e', by rw [e, bind_apply, e']; rfl⟩
    · exact ⟨_, _, e', by rw [e, bind_apply, e']; rfl⟩
  · exact ⟨fun h1 h2 h3 => absurd ⟨h1, h2, h3⟩ c, fun _ => e⟩

/-- C86, as far as it holds: a collapse makes no edge of the upper limit or more, if the first end of the edge is the one that stays. (The
end with the smaller degree stays; if this is the second end, the wrong distances have been tested, see `c86_long_counterexample`.) -/
theorem c86_no_long_partial (g : m.Good) (A : m.AtE p) (lo lim : ℝ) {i h : Nat} (hi : m.hes[i]? = some h)
    (deg : m.outDeg (m.hSrc h) ≤ m.outDeg (m.hSrc (m.hNext h)))
    (run : collapseOne (XR.fin lo) (XR.fin lim) i m = .ok () m') :
    m'.AtE p ∧ ∀ a b, m'.Joined a b → m.Joined a b ∨ ‖p a - p b‖ < lim := by
  have w := g.wf
  have a : m.hAlive h = true := (w.hDense.mem h).1 (List.mem_of_getElem? hi)
  have ne : m.hSrc h ≠ m.hSrc (m.hNext h) := g.simple.no_loop _ a
  rcases collapseOne_eq g A lo lim hi with ⟨⟨-, -, c⟩, e⟩ | ⟨-, e⟩
  · rw [run, bind_apply] at e
    cases e' : collapseHE h m with
    | err x => rw [e'] at e; cases e
    | ok b m2 =>
      rw [e'] at e
      cases e
      cases b with
      | false =>
        rcases collapseHE_outcome g a with h1 | ⟨m2, x, y, h1, -⟩ | ⟨h1, -⟩ <;> rw [h1] at e' <;> cases e'
        exact ⟨A, fun a b h => Or.inl h⟩
      | true =>
        have d := collapseHE_side g a (e := h) (by rw [if_neg]; rw [w.src_rev _ a]; omega) e'
        rw [w.src_rev _ a] at d
        refine ⟨fun v av => by rw [(d.keeps v av).1]; exact A v ((d.alive v).1 av).1, fun x y hj => ?_⟩
        obtain ⟨xy, x', y', j, hx, hy⟩ := (d.edges x y).1 hj
        by_cases cx : x' = m.hSrc (m.hNext h)
        · rw [if_pos cx] at hx
          subst hx
          rw [cx] at j
          by_cases cy : y' = m.hSrc (m.hNext h)
          · rw [if_pos cy] at hy; exact absurd hy xy
          · rw [if_neg cy] at hy
            subst hy
            exact Or.inr (c _ j)
        · rw [if_neg cx] at hx
          subst hx
          by_cases cy : y' = m.hSrc (m.hNext h)
          · rw [if_pos cy] at hy
            subst hy
            rw [cy] at j
            obtain ⟨z, az, z1, z2⟩ := j
            right
            rw [norm_sub_rev]
            refine c _ ⟨m.hRev z, w.rev_alive _ az, by rw [w.src_rev _ az, z2], ?_⟩
            rw [← w.src_rev _ (w.rev_alive _ az), w.rev_rev _ az, z1]
          · rw [if_neg cy] at hy
            subst hy
            exact Or.inl j
  · rw [run] at e
    cases e
    exact ⟨A, fun a b h => Or.inl h⟩

/-- C86: the limits are the given multiples of the average length of the edges of the input: if all edges lie strictly between the two
limits and no flip brings the degrees nearer to their ideal, a round of remeshing does nothing but lock the feature vertices and smooth. -/
theorem c86_limits (g : m.Good) (A : m.AtE p) (ne : m.hes ≠ []) (sh : Nat → Bool → Nat → List Nat) (short long : ℝ) (keep : XR) {avg : ℝ}
    (havg : avg = (m.hes.map (m.lenOf p)).sum / m.hes.length)
    (hl : ∀ h, m.hAlive h = true → avg * short < m.lenOf p h ∧ m.lenOf p h < avg * long)
    {m1 : Mesh XR} (h1 : lockFeatures keep m = .ok () m1)
    (hf : ∀ h, m1.hAlive h = true → ∀ m', flipHE h m1 = .ok true m' → m1.devSum ≤ m'.devSum) :
    remesh sh (XR.fin short) (XR.fin long) keep 1 m = smoothTaubinDefault m1 := by
  have w := g.wf
  have e1 := h1
  rw [lockFeatures_ok w keep] at e1
  obtain ⟨l, rfl⟩ : ∃ l, m1 = { m with vLock := l } := by cases e1; exact ⟨_, rfl⟩
  have g1 := g.setLocks l
  have A1 : ({ m with vLock := l } : Mesh XR).AtE p := A
  have fin : (m.vs.all fun v => (m.vPos v).finite) = true := List.all_eq_true.2 fun v hv => by
    obtain ⟨w, hw, -⟩ := A v ((g.wf.vDense.mem v).1 hv)
    rw [hw]
    simp [Vec3.finite, Vec3.fin]
  have e2 : M.assert true m = .ok () m := by simp [M.assert]
  unfold remesh
  rw [bind_apply, w.verify_ok, fin]
  dsimp only
  rw [bind_apply, e2]
  dsimp only
  rw [bind_apply, avgLength_exact w A ne, ← havg]
  dsimp only
  rw [bind_apply, h1]
  dsimp only
  rw [X_mul, X_mul]
  unfold remeshLoop remeshRound
  have s1 : ∀ i, splitOne (XR.fin (avg * long)) i { m with vLock := l } = .ok () { m with vLock := l } := by
    intro i
    by_cases c : i < m.hes.length
    · exact (c86_split g1 A1 _ (List.getElem?_eq_getElem c)).2 fun h => absurd h.1 (not_le.2 (hl _ (hes_alive w c)).2)
    · unfold splitOne
      rw [bind_apply, read_apply]
      exact congrFun (if_neg c) _
  have s2 : ∀ i, collapseOne (XR.fin (avg * short)) (XR.fin (avg * long)) i { m with vLock := l } = .ok () { m with vLock := l } := by
    intro i
    by_cases c : i < m.hes.length
    · exact (c86_collapse g1 A1 _ _ (List.getElem?_eq_getElem c)).2 fun h => absurd h.2.1 (not_le.2 (hl _ (hes_alive w c)).1)
    · unfold collapseOne
      rw [bind_apply, read_apply]
      exact congrFun (if_neg c) _
  have s3 : forHalfedges flipOne ({ m with vLock := l } : Mesh XR) = .ok () { m with vLock := l } := by
    unfold forHalfedges
    rw [bind_apply, read_apply]
    refine forIdx_idle (fun i c => ?_) _ _ (by omega) (by omega)
    rcases flipOne_iff g1 (List.getElem?_eq_getElem c) with ⟨m', -, -, h3, h4, -⟩ | h'
    · exact absurd h4 (not_lt.2 (hf _ (hes_alive g1.wf c) m' h3))
    · exact h'.2
  simp only [bind_apply, read_apply, forAll_idle s1, forAll_idle s2, s3, g1.wf.verify_ok]
  cases smoothTaubinDefault ({ m with vLock := l } : Mesh XR) <;> rfl

end

section
variable {F : Type} [Scalar F] {m : Mesh F}

/-- C86: the flip loop flips exactly the visited edges that have neither a locked corner nor a flagged half-edge in their two faces, that
can be flipped (C13) and whose flip brings the degrees of the mesh nearer to six, or four on the boundary; other edges are left
alone. -/
theorem c86_flip (g : m.Good) {i h : Nat} (hi : m.hes[i]? = some h) :
    (∃ m', m.Loose h ∧ m.Inner h ∧ flipHE h m = .ok true m' ∧ m'.devSum < m.devSum ∧ flipOne i m = .ok () m') ∨
    (¬ (m.Loose h ∧ m.Inner h ∧ ∃ m', flipHE h m = .ok true m' ∧ m'.devSum < m.devSum) ∧ flipOne i m = .ok () m) := by
  rcases flipOne_iff g hi with ⟨m', h1, h2, h3, h4, -, -, h5⟩ | h'
  · exact Or.inl ⟨m', h1, h2, h3, h4, h5⟩
  · exact Or.inr h'

/-- C86: the whole flip loop ends, and the degrees are then not farther from six, or four on the boundary, than before. -/
theorem c86_flips (g : m.Good) : ∃ m', forHalfedges flipOne m = .ok () m' ∧ m'.Good ∧ m'.devSum ≤ m.devSum := flips_dev g

end

/-! ### A collapse that makes a long edge -/

/-- incidences of the icosahedron with one edge flipped, around the vertices 3, with six neighbours, and 9 -/
structure HexFacts {F : Type} (m : Mesh F) : Prop where
  hes : ∀ h ∈ m.hes, m.hBd h = false ∧ m.hNext (m.hNext (m.hNext h)) = h ∧ m.vLock (m.hSrc h) = false
  three : m.outs 3 = [3, 6, 8, 18, 25, 28]
  nine : m.outs 9 = [26, 30, 41, 51, 56]
  edge : m.hes[24]? = some 25 ∧ m.hRev 25 = 30 ∧ m.hRev 30 = 25 ∧ m.hSrc 25 = 3 ∧ m.hSrc 30 = 9
  deg : m.outDeg 3 = 6 ∧ m.outDeg 9 = 5 ∧ m.outDeg 5 = 5 ∧ m.outDeg 7 = 5
  opp : m.hSrc (m.hNext (m.hNext 30)) = 7 ∧ m.hSrc (m.hNext (m.hNext 25)) = 5
  dst : (m.outs 3).map (fun y => m.hSrc (m.hNext y)) = [1, 4, 5, 2, 9, 7]
  far : (m.outs 3).map (fun y => m.hSrc (m.hNext (m.hNext y))) = [4, 2, 1, 7, 5, 9]
  dst9 : (m.outs 9).map (fun y => m.hSrc (m.hNext y)) = [5, 3, 11, 7, 12]

theorem hex_tables : ∃ m : Mesh Rat, m.Good ∧ HexFacts m := by
  obtain ⟨u, m, b, m', h1, h2, h3⟩ := thenSt_iff (o := construct icoV icoI fresh) (f := flipHE 1) (p := fun m b m' =>
    (m.hAlive 1 && b && decide (m.hNext (m.hNext (m.hNext 1)) = 1) && decide (m.hNext (m.hNext (m.hNext (m.hRev 1))) = m.hRev 1)) &&
    decide ((∀ h ∈ m'.hes, m'.hBd h = false ∧ m'.hNext (m'.hNext (m'.hNext h)) = h ∧ m'.vLock (m'.hSrc h) = false) ∧
      m'.outs 3 = [3, 6, 8, 18, 25, 28] ∧ m'.outs 9 = [26, 30, 41, 51, 56] ∧
      (m'.hes[24]? = some 25 ∧ m'.hRev 25 = 30 ∧ m'.hRev 30 = 25 ∧ m'.hSrc 25 = 3 ∧ m'.hSrc 30 = 9) ∧
      (m'.outDeg 3 = 6 ∧ m'.outDeg 9 = 5 ∧ m'.outDeg 5 = 5 ∧ m'.outDeg 7 = 5) ∧
      (m'.hSrc (m'.hNext (m'.hNext 30)) = 7 ∧ m'.hSrc (m'.hNext (m'.hNext 25)) = 5) ∧
      (m'.outs 3).map (fun y => m'.hSrc (m'.hNext y)) = [1, 4, 5, 2, 9, 7] ∧
      (m'.outs 3).map (fun y => m'.hSrc (m'.hNext (m'.hNext y))) = [4, 2, 1, 7, 5, 9] ∧
      (m'.outs 9).map (fun y => m'.hSrc (m'.hNext y)) = [5, 3, 11, 7, 12])) (by decide +kernel)
  simp only [Bool.and_eq_true, decide_eq_true_eq] at h3
  obtain ⟨⟨⟨⟨ha, rfl⟩, t⟩, t'⟩, a, b, c, d, e, f, g, h, i⟩ := h3
  rcases c13_flip (c01_construct_consistent (Owned.empty dbl) h1) 1 ha t t' with e' | ⟨m2, x, y, r, s, e', -, -, -, -, k⟩
  · rw [h2] at e'; cases e'
  · rw [h2] at e'; cases e'
    exact ⟨m', k.good, a, b, c, d, e, f, g, h, i⟩

/-- a flat convex hexagon around the vertex 3 -/
def hexAt (v : Nat) : Vec3 ℝ :=
  if v = 9 then ⟨10, 0, 0⟩ else if v = 5 then ⟨6, 8, 0⟩ else if v = 1 then ⟨-6, 8, 0⟩ else if v = 4 then ⟨-10, 0, 0⟩ else
    if v = 2 then ⟨-6, -8, 0⟩ else if v = 7 then ⟨6, -8, 0⟩ else if v = 3 then ⟨0, 0, 0⟩ else ⟨v, 0, -5⟩

/-- C86 is false for the test of the collapse loop: it makes an edge of the upper limit. The distances from the first end of the edge to
the neighbours of the second one are tested, but the first end has the larger degree and is the one that is removed. -/
theorem c86_long_counterexample : ∃ (m m' : Mesh XR) (p : Nat → E3) (lo lim : ℝ) (i a b : Nat), m.Good ∧ m.AtE p ∧ lo < lim ∧
    collapseOne (XR.fin lo) (XR.fin lim) i m = .ok () m' ∧ m'.AtE p ∧ ¬ m.Joined a b ∧ m'.Joined a b ∧ lim ≤ ‖p a - p b‖ := by
  obtain ⟨m, G, I⟩ := hex_tables
  obtain ⟨hes, outs, nine, ⟨hi, r25, r30, s25, s30⟩, ⟨d3, d9, d5, d7⟩, ⟨o1, o2⟩, dst, far, dst9⟩ := I
  have W := G.wf
  rw [outs] at dst far
  have dst9' := dst9
  rw [nine] at dst9
  simp only [List.map_cons, List.map_nil, List.cons.injEq, and_true] at dst far dst9
  have A : (m.overR hexAt).AtE fun v => (hexAt v).E := fun v _ => ⟨hexAt v, rfl, rfl⟩
  have g : (m.overR hexAt).Good := G.over _
  have mem : ∀ y, m.hAlive y = true → m.hSrc y = 3 → y = 3 ∨ y = 6 ∨ y = 8 ∨ y = 18 ∨ y = 25 ∨ y = 28 := by
    intro y ay sy
    have : y ∈ m.outs 3 := List.mem_filter.2 ⟨(W.hDense.mem y).2 ay, by rw [sy, beq_self_eq_true]⟩
    rw [outs] at this
    simpa using this
  have mem9 : ∀ y, m.hAlive y = true → m.hSrc y = 9 → y = 26 ∨ y = 30 ∨ y = 41 ∨ y = 51 ∨ y = 56 := by
    intro y ay sy
    have : y ∈ m.outs 9 := List.mem_filter.2 ⟨(W.hDense.mem y).2 ay, by rw [sy, beq_self_eq_true]⟩
    rw [nine] at this
    simpa using this
  have src : ∀ y, y = 3 ∨ y = 6 ∨ y = 8 ∨ y = 18 ∨ y = 25 ∨ y = 28 → m.hAlive y = true ∧ m.hSrc y = 3 := by
    intro y hy
    have : y ∈ m.outs 3 := by rw [outs]; simpa using hy
    obtain ⟨h1, h2⟩ := List.mem_filter.1 this
    exact ⟨(W.hDense.mem y).1 h1, beq_iff_eq.1 h2⟩
  have a25 : m.hAlive 25 = true := (src 25 (by simp)).1
  have n25 : m.hSrc (m.hNext 25) = 9 := by rw [← W.src_rev _ a25, r25, s30]
  have t : (m.overR hexAt).TriRing 3 := fun y ay _ => (hes y ((W.hDense.mem y).2 ay)).2.1
  have star : (m.overR hexAt).starArea (fun v => (hexAt v).E) 3 = (⟨0, 0, 512⟩ : Vec3 ℝ).E := by
    change ((m.outs 3).map fun h => triNormal (hexAt 3).E (hexAt (m.hSrc (m.hNext h))).E (hexAt (m.hSrc (m.hNext (m.hNext h)))).E).sum = _
    rw [outs]
    simp only [List.map_cons, List.map_nil, List.sum_cons, List.sum_nil, dst, far, triNormal_E, ← E_zero, ← Vec3.E_add]
    congr 1
    norm_num [hexAt, Vec3.cross_def, Vec3.sub_def, Vec3.add_def, Vec3.zero_def]
  have val : ∀ y, (y = 3 ∨ y = 6 ∨ y = 8 ∨ y = 18 ∨ y = 25 ∨ y = 28) → (m.overR hexAt).movedSign (fun v => (hexAt v).E) 9 y =
      inner ℝ (⟨0, 0, 512⟩ : Vec3 ℝ).E (triNormal (hexAt 9).E (hexAt (m.hSrc (m.hNext y))).E (hexAt (m.hSrc (m.hNext (m.hNext y)))).E) := by
    intro y hy
    unfold Mesh.movedSign
    change inner ℝ ((m.overR hexAt).starArea (fun v => (hexAt v).E) (m.hSrc y)) _ = _
    rw [(src y hy).2, star]
    rfl
  have q : (m.overR hexAt).hSrc ((m.overR hexAt).hRev 30) = 3 := by
    change m.hSrc (m.hRev 30) = 3
    rw [r30, s25]
  have k : (m.overR hexAt).hSrc 30 = 9 := s30
  have he : 30 = if (m.overR hexAt).outDeg ((m.overR hexAt).hSrc ((m.overR hexAt).hRev 25)) <
      (m.overR hexAt).outDeg ((m.overR hexAt).hSrc 25) then (m.overR hexAt).hRev 25 else 25 := by
    change 30 = if m.outDeg (m.hSrc (m.hRev 25)) < m.outDeg (m.hSrc 25) then m.hRev 25 else 25
    rw [r25, s30, s25, d9, d3]
    rfl
  obtain ⟨m', run⟩ : ∃ m', collapseHE 25 (m.overR hexAt) = .ok true m' := by
    refine c65_complete (p := fun v => (hexAt v).E) (e := 30) g A a25 he (by rw [q]; exact t) ?_ ?_ ?_ ?_ ?_ ?_
    · intro x ax _
      exact (hes x ((W.hDense.mem x).2 ax)).1
    · rw [q, k]
      change 3 < m.outDeg 9 ∧ 3 < m.outDeg 3
      rw [d9, d3]
      decide
    · change 4 < m.outDeg (m.hSrc (m.hNext (m.hNext 30))) ∧ 4 < m.outDeg (m.hSrc (m.hNext (m.hNext (m.hRev 30))))
      rw [r30, o1, o2, d7, d5]
      decide
    · rw [q, k]
      change (m.outs 9).countP (fun x => (m.outs 3).any fun y => m.hSrc (m.hNext y) == m.hSrc (m.hNext x)) = 2
      rw [outs, nine]
      simp [dst, dst9]
    · rw [q, star, ← E_zero, Ne, Vec3.E_inj]
      simp [Vec3.zero_def]
    · intro y ay sy
      rw [q] at sy
      rw [k]
      rcases mem y ay sy with rfl | rfl | rfl | rfl | rfl | rfl
      all_goals
        rw [val _ (by simp), triNormal_E, Vec3.E_inner]
        norm_num [dst, far, hexAt, Vec3.cross_def, Vec3.sub_def, Vec3.dot_def]
  have d := collapseHE_side g a25 he run
  rw [q, k] at d
  have near : ∀ u, (u = 5 ∨ u = 3 ∨ u = 11 ∨ u = 7 ∨ u = 12) → ‖(hexAt 3).E - (hexAt u).E‖ < 20 := by
    intro u hu
    rw [← Vec3.E_sub, Vec3.E_norm, Vec3.length_def, Vec3.dot_def]
    refine (Real.sqrt_lt' (by norm_num)).2 ?_
    rcases hu with rfl | rfl | rfl | rfl | rfl <;> norm_num [hexAt, Vec3.sub_def]
  have c : ∃ b m2, collapseHE 25 (m.overR hexAt) = .ok b m2 ∧ collapseOne (XR.fin 10) (XR.fin 20) 24 (m.overR hexAt) = .ok () m2 := by
    refine (c86_collapse g A 10 20 (i := 24) (h := 25) hi).1 (fun x ax _ => (hes x ((W.hDense.mem x).2 ax)).2.2) ?_ ?_
    · change ‖(hexAt (m.hSrc 25)).E - (hexAt (m.hSrc (m.hNext 25))).E‖ ≤ 10
      rw [s25, n25, ← Vec3.E_sub, Vec3.E_norm, Vec3.length_def, Vec3.dot_def]
      refine (Real.sqrt_le_left (by norm_num)).2 ?_
      norm_num [hexAt, Vec3.sub_def]
    · rintro u ⟨y, ay, y1, rfl⟩
      change m.hSrc y = m.hSrc (m.hNext 25) at y1
      rw [n25] at y1
      change ‖(hexAt (m.hSrc 25)).E - (hexAt (m.hSrc (m.hNext y))).E‖ < 20
      rw [s25]
      rcases mem9 y ay y1 with rfl | rfl | rfl | rfl | rfl
      · rw [dst9.1]; exact near 5 (by simp)
      · rw [dst9.2.1]; exact near 3 (by simp)
      · rw [dst9.2.2.1]; exact near 11 (by simp)
      · rw [dst9.2.2.2.1]; exact near 7 (by simp)
      · rw [dst9.2.2.2.2]; exact near 12 (by simp)
  obtain ⟨b, m2, e1, e2⟩ := c
  rw [run] at e1
  cases e1
  refine ⟨m.overR hexAt, m', fun v => (hexAt v).E, 10, 20, 24, 9, 4, g, A, by norm_num, e2, fun v av => ?_, ?_, ?_, ?_⟩
  · rw [(d.keeps v av).1]
    exact ⟨hexAt v, rfl, rfl⟩
  · rintro ⟨y, ay, y1, y2⟩
    change m.hSrc (m.hNext y) = 4 at y2
    rcases mem9 y ay y1 with rfl | rfl | rfl | rfl | rfl <;> simp [dst9] at y2
  · refine (d.edges 9 4).2 ⟨by decide, 3, 4, ⟨6, (src 6 (by simp)).1, (src 6 (by simp)).2, dst.2.1⟩, by simp, by simp⟩
  · dsimp only
    rw [← Vec3.E_sub, Vec3.E_norm, Vec3.length_def, Vec3.dot_def]
    refine Real.le_sqrt_of_sq_le ?_
    norm_num [hexAt, Vec3.sub_def]

/-! ### Examples -/

/-- an edge of length 10 is split if the limit is 5 -/
example : ∃ (m m' : Mesh XR) (p : Nat → E3) (h : Nat), m.Good ∧ m.AtE p ∧ m.hes[24]? = some h ∧ 5 ≤ m.lenOf p h ∧
    splitOne (XR.fin 5) 24 m = .ok () m' ∧ m'.vs.length = m.vs.length + 1 := by
  obtain ⟨m, G, I⟩ := hex_tables
  obtain ⟨hes, -, -, ⟨hi, r25, r30, s25, s30⟩, ⟨d3, d9, -, -⟩, -, -, -, -⟩ := I
  have W := G.wf
  have A : (m.overR hexAt).AtE fun v => (hexAt v).E := fun v _ => ⟨hexAt v, rfl, rfl⟩
  have g : (m.overR hexAt).Good := G.over _
  have a25 : m.hAlive 25 = true := (W.hDense.mem 25).1 (List.mem_of_getElem? hi)
  have n25 : m.hSrc (m.hNext 25) = 9 := by rw [← W.src_rev _ a25, r25, s30]
  have l : 5 ≤ (m.overR hexAt).lenOf (fun v => (hexAt v).E) 25 := by
    change 5 ≤ ‖(hexAt (m.hSrc 25)).E - (hexAt (m.hSrc (m.hNext 25))).E‖
    rw [s25, n25, ← Vec3.E_sub, Vec3.E_norm, Vec3.length_def, Vec3.dot_def]
    refine Real.le_sqrt_of_sq_le ?_
    norm_num [hexAt, Vec3.sub_def]
  have hb : ∀ x, m.hAlive x = true → m.hBd x = false := fun x ax => (hes x ((W.hDense.mem x).2 ax)).1
  obtain ⟨m', _, _, _, _, _, e, -, -, -, d, -⟩ := (c86_split g A 5 (i := 24) (h := 25) hi).1 l
    (by change 3 ≤ m.outDeg (m.hSrc 25); rw [s25, d3]; decide) (by change 3 ≤ m.outDeg (m.hSrc (m.hNext 25)); rw [n25, d9]; decide)
    (hb 25 a25) (hb _ (W.rev_alive _ a25))
  exact ⟨_, m', _, 25, g, A, hi, l, e, d.nv⟩

/-- a mesh of 12 vertices with a flip that improves the degrees -/
def sevenI : List Nat := [3, 2, 0, 2, 3, 1, 4, 0, 2, 5, 0, 4, 3, 0, 5, 2, 1, 6, 6, 1, 7, 7, 1, 3, 10, 2, 8, 8, 2, 6, 9, 3, 5, 7, 3, 9,
  5, 4, 10, 2, 10, 4, 9, 5, 10, 11, 6, 7, 8, 6, 11, 11, 7, 9, 11, 10, 8, 9, 10, 11]

example : ∃ m m' : Mesh Rat, m.Good ∧ flipOne 0 m = .ok () m' ∧ m'.devSum < m.devSum := by
  obtain ⟨_, m, b, m', h1, h2, h3⟩ := thenSt_iff (o := construct icoV sevenI fresh) (f := flipOne 0)
    (p := fun m _ m' => decide (m'.devSum < m.devSum)) (by decide +kernel)
  exact ⟨m, m', c01_construct_consistent (Owned.empty dbl) h1, h2, of_decide_eq_true h3⟩

/-- places for the vertices of the tetrahedron -/
def unitAt (v : Nat) : Vec3 ℝ :=
  if v = 1 then ⟨0, 0, 0⟩ else if v = 2 then ⟨1, 0, 0⟩ else if v = 3 then ⟨0, 1, 0⟩ else ⟨0, 0, 1⟩

/-- the tetrahedron with the corners at the origin and on the axes has edges between half and twice the average -/
example (sh : Nat → Bool → Nat → List Nat) (keep : XR) : ∃ (m m1 : Mesh XR), m.Good ∧ m.hes.length = 12 ∧ lockFeatures keep m = .ok () m1 ∧
    remesh sh (XR.fin (1 / 2)) (XR.fin 2) keep 1 m = smoothTaubinDefault m1 := by
  obtain ⟨m, G, hf, hn⟩ : ∃ m : Mesh Rat, m.Good ∧ (∀ h ∈ m.hes, m.outDeg (m.hSrc h) = 3 ∧ m.hNext (m.hNext (m.hNext h)) = h ∧
      m.hSrc h ∈ [1, 2, 3, 4] ∧ m.hSrc (m.hNext h) ∈ [1, 2, 3, 4] ∧ m.hSrc h ≠ m.hSrc (m.hNext h)) ∧ m.hes.length = 12 := by
    obtain ⟨u, m, l, m1, h1, h2, h3⟩ := thenSt_iff (o := construct tetV tetI fresh) (f := fun m => .ok () m) (p := fun m l m' =>
      decide ((∀ h ∈ m.hes, m.outDeg (m.hSrc h) = 3 ∧ m.hNext (m.hNext (m.hNext h)) = h ∧
        m.hSrc h ∈ [1, 2, 3, 4] ∧ m.hSrc (m.hNext h) ∈ [1, 2, 3, 4] ∧ m.hSrc h ≠ m.hSrc (m.hNext h)) ∧ m.hes.length = 12)) (by decide +kernel)
    exact ⟨m, c01_construct_consistent (Owned.empty dbl) h1, of_decide_eq_true h3⟩
  have W := G.wf
  have A : (m.overR unitAt).AtE fun v => (unitAt v).E := fun v _ => ⟨unitAt v, rfl, rfl⟩
  have g : (m.overR unitAt).Good := G.over _
  have len : ∀ h, m.hAlive h = true → 1 ≤ (m.overR unitAt).lenOf (fun v => (unitAt v).E) h ∧
      (m.overR unitAt).lenOf (fun v => (unitAt v).E) h ≤ 3 / 2 := by
    intro h ah
    obtain ⟨-, -, h1, h2, h3⟩ := hf h ((W.hDense.mem h).2 ah)
    change 1 ≤ ‖(unitAt (m.hSrc h)).E - (unitAt (m.hSrc (m.hNext h))).E‖ ∧ ‖(unitAt (m.hSrc h)).E - (unitAt (m.hSrc (m.hNext h))).E‖ ≤ 3 / 2
    generalize m.hSrc h = a at *
    generalize m.hSrc (m.hNext h) = b at *
    rw [← Vec3.E_sub, Vec3.E_norm, Vec3.length_def, Vec3.dot_def]
    simp only [List.mem_cons, List.not_mem_nil, or_false] at h1 h2
    constructor
    · refine Real.le_sqrt_of_sq_le ?_
      rcases h1 with rfl | rfl | rfl | rfl <;> rcases h2 with rfl | rfl | rfl | rfl <;>
        first | exact absurd rfl h3 | norm_num [unitAt, Vec3.sub_def]
    · refine (Real.sqrt_le_left (by norm_num)).2 ?_
      rcases h1 with rfl | rfl | rfl | rfl <;> rcases h2 with rfl | rfl | rfl | rfl <;>
        first | exact absurd rfl h3 | norm_num [unitAt, Vec3.sub_def]
  have sum : ∀ l : List Nat, (∀ h ∈ l, m.hAlive h = true) →
      (l.length : ℝ) ≤ (l.map ((m.overR unitAt).lenOf fun v => (unitAt v).E)).sum ∧
      (l.map ((m.overR unitAt).lenOf fun v => (unitAt v).E)).sum ≤ 3 / 2 * l.length := by
    intro l
    induction l with
    | nil => intro _; simp
    | cons x l ih =>
      intro hl
      have h1 := len x (hl x (by simp))
      have h2 := ih fun y hy => hl y (by simp [hy])
      rw [List.map_cons, List.sum_cons, List.length_cons]
      push_cast
      constructor <;> linarith [h1.1, h1.2, h2.1, h2.2]
  have s := sum m.hes fun h hh => (W.hDense.mem h).1 hh
  rw [hn] at s
  push_cast at s
  refine ⟨_, _, g, hn, lockFeatures_ok g.wf keep, ?_⟩
  refine c86_limits g A (fun e => ?_) sh (1 / 2) 2 keep rfl (fun h ah => ?_) (lockFeatures_ok g.wf keep) (fun h ah m' run => ?_)
  · have : m.hes = [] := e
    rw [this] at hn
    cases hn
  · have hl := len h ah
    change (m.hes.map _).sum / (m.hes.length : ℝ) * (1 / 2) < _ ∧ _ < (m.hes.map _).sum / (m.hes.length : ℝ) * 2
    rw [hn]
    push_cast
    constructor
    · refine lt_of_lt_of_le ?_ hl.1
      rw [div_mul_eq_mul_div, div_lt_iff₀ (by norm_num)]
      linarith [s.2]
    · refine lt_of_le_of_lt hl.2 ?_
      rw [div_mul_eq_mul_div, lt_div_iff₀ (by norm_num)]
      linarith [s.1]
  · have ah' : m.hAlive h = true := ah
    have t : ∀ x, m.hAlive x = true → m.hNext (m.hNext (m.hNext x)) = x := fun x ax => (hf x ((W.hDense.mem x).2 ax)).2.1
    have k := (c13_flip_iff (g.setLocks _) h ah (t h ah') (t _ (W.rev_alive _ ah'))).1 ⟨m', run⟩
    have k1 : 5 ≤ m.outDeg (m.hSrc h) := k.1
    rw [(hf h ((W.hDense.mem h).2 ah')).1] at k1
    omega

end TinyMesh
