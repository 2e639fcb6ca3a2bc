import Verif.Proof.SimE
import Verif.Props.Decide
import Verif.Props.Simplify
/-
C90: which edges simplification contracts, where to, and which edges it flips.
-/
set_option maxRecDepth 100000
namespace TinyMesh
open Sample Orbit
attribute [local instance] Sample.ratScalar

section
variable {m m' : Mesh XR} {p : Nat → E3}

/-- C90: the tests before a contraction hold exactly if both ends have not been treated before, lie inside, have at least four neighbours,
if neither of the two faces of the edge is turned over when its first end is moved to the new place, and if all common neighbours of the
ends have at least four neighbours. They change nothing. -/
theorem c90_allowed (g : m.Good) (A : m.AtE p) {nv : Nat} (hn : m.vs.length ≤ nv) (ck : Nat → Bool) {h : Nat} (a : m.hAlive h = true)
    {v : Vec3 XR} {x : E3} (hv : v.Is x) : ∃ b, qemAllowed nv ck h v m = .ok b m ∧
      (b = true ↔ m.Contractible p (fun u => ck (m.vIdx u).toNat = true) h x) := qemAllowed_exact g A hn ck a hv

/-- C90: what happens to a candidate of the queue. An edge that passes the tests has its start moved to the new place. Then the edge is
collapsed; the end with the smaller degree stays (the start if the degrees are equal), and two faces are counted as removed. If the
collapse is refused, the start stays at its new place. In both cases the six half-edges of the two faces are not considered again, nor
is the start. An edge that does not pass the tests is left alone. -/
theorem c90_step (g : m.Good) (A : m.AtE p) {nv : Nat} (hn : m.vs.length ≤ nv) {target nr : Int} (lt : nr < target)
    {q : List (Nat × Vec3 XR)} {rm : List Nat} {ck : Nat → Bool} {h : Nat} {v : Vec3 XR} {x : E3} (a : m.hAlive h = true) (nr' : h ∉ rm)
    (hv : v.Is x) {e : Nat} (he : e = if m.outDeg (m.hSrc (m.hRev h)) < m.outDeg (m.hSrc h) then m.hRev h else h)
    {m1 : Mesh XR} (hm1 : m1 = { m with vPos := upd m.vPos (m.hSrc h) v }) {six : List Nat}
    (hs : six = [h, m.hNext h, m.hNext (m.hNext h), m.hRev h, m.hNext (m.hRev h), m.hNext (m.hNext (m.hRev h))]) :
    (m.Contractible p (fun u => ck (m.vIdx u).toNat = true) h x →
      (collapseHE h m1 = .ok false m1 ∧
        qemPass nv target ((h, v) :: q) rm ck nr m = qemPass nv target q (six ++ rm) (upd ck (m.vIdx (m.hSrc h)).toNat true) nr m1) ∨
      ∃ m', collapseHE h m1 = .ok true m' ∧ CollapseDone m1 m' (m.hSrc e) (m.hSrc (m.hRev e)) ∧
        qemPass nv target ((h, v) :: q) rm ck nr m =
          qemPass nv target q (six ++ rm) (upd ck (m.vIdx (m.hSrc h)).toNat true) (nr + 2) m') ∧
    (¬ m.Contractible p (fun u => ck (m.vIdx u).toNat = true) h x →
      qemPass nv target ((h, v) :: q) rm ck nr m = qemPass nv target q rm ck nr m) :=
  qemPass_step g A hn lt a nr' hv he hm1 hs

/-- C90: the pass ends as soon as enough faces have been removed, and half-edges of removed faces are passed over. -/
theorem c90_skip (nv : Nat) (target nr : Int) (q : List (Nat × Vec3 XR)) (rm : List Nat) (ck : Nat → Bool) (h : Nat) (v : Vec3 XR) :
    (target ≤ nr → qemPass nv target q rm ck nr m = .ok nr m) ∧
    (h ∈ rm → nr < target → qemPass nv target ((h, v) :: q) rm ck nr m = qemPass nv target q rm ck nr m) := by
  constructor
  · intro le
    cases q with
    | nil => rfl
    | cons c q =>
      rw [qemPass, if_neg (by omega)]
      rfl
  · intro hm lt
    rw [qemPass, if_pos lt, if_pos hm]

/-- C90, as far as it holds: after the contraction of an edge the remaining end is at the new place, if the start of the half-edge has no
more neighbours than its end. (If it has more, the moved end is the one that is removed, see `c90_lost_counterexample`.) -/
theorem c90_place_partial (g : m.Good) (A : m.AtE p) {h : Nat} {v : Vec3 XR} {x : E3} (a : m.hAlive h = true) (hv : v.Is x)
    (deg : m.outDeg (m.hSrc h) ≤ m.outDeg (m.hSrc (m.hNext h)))
    (run : collapseHE h { m with vPos := upd m.vPos (m.hSrc h) v } = .ok true m') :
    m'.AtE (Function.update p (m.hSrc h) x) ∧ m'.vAlive (m.hSrc h) = true ∧ m'.vAlive (m.hSrc (m.hNext h)) = false := by
  have w := g.wf
  have g1 : ({ m with vPos := upd m.vPos (m.hSrc h) v } : Mesh XR).Good := Mesh.SameButPos.good (m := m) rfl g
  have d := collapseHE_side g1 (h := h) (e := h) a (by
    rw [if_neg]
    change ¬ m.outDeg (m.hSrc (m.hRev h)) < m.outDeg (m.hSrc h)
    rw [w.src_rev _ a]
    omega) run
  have k : ({ m with vPos := upd m.vPos (m.hSrc h) v } : Mesh XR).hSrc (({ m with vPos := upd m.vPos (m.hSrc h) v } : Mesh XR).hRev h) =
    m.hSrc (m.hNext h) := w.src_rev _ a
  rw [k] at d
  refine ⟨fun u au => ?_, (d.alive _).2 ⟨w.src_alive _ a, g.simple.no_loop _ a⟩, ?_⟩
  · rw [(d.keeps u au).1]
    exact A.move hv u ((d.alive u).1 au).1
  · cases c : m'.vAlive (m.hSrc (m.hNext h)) with
    | false => rfl
    | true => exact absurd rfl ((d.alive _).1 c).2

end

section
variable {F : Type} [Scalar F] {m : Mesh F}

/-- C90: simplification flips exactly the visited inner edges for which `flipHE` accepts and the flip brings the degrees nearer to six. -/
theorem c90_flip (g : m.Good) {i h : Nat} (hi : m.hes[i]? = some h) :
    (∃ m', m.Inner h ∧ flipHE h m = .ok true m' ∧ m'.sixSum < m.sixSum ∧ m'.Good ∧ m'.hes = m.hes ∧ qemFlipOne i m = .ok () m') ∨
    (¬ (m.Inner h ∧ ∃ m', flipHE h m = .ok true m' ∧ m'.sixSum < m.sixSum) ∧ qemFlipOne i m = .ok () m) := qemFlipOne_iff g hi

/-- C90: the flips never bring the degrees further away from six. -/
theorem c90_flips (g : m.Good) : ∃ m', forHalfedges qemFlipOne m = .ok () m' ∧ m'.Good ∧ m'.sixSum ≤ m.sixSum := qemFlips_six g

end

/-! ### Contractions that go wrong -/

/-- more incidences of the icosahedron with one edge flipped -/
structure HexMore {F : Type} (m : Mesh F) : Prop where
  deg : ∀ h ∈ m.hes, 4 ≤ m.outDeg (m.hSrc h)
  far9 : (m.outs 9).map (fun y => m.hSrc (m.hNext (m.hNext y))) = [3, 7, 5, 12, 11]
  faces : m.hFace 25 = 9 ∧ m.hFace 30 = 10 ∧ m.fHe 9 = 27 ∧ m.fHe 10 = 30 ∧ m.fHe 14 = 42
  nine : m.hSrc 27 = 5 ∧ m.hSrc (m.hNext 27) = 3 ∧ m.hSrc (m.hNext (m.hNext 27)) = 9
  four : m.hSrc 42 = 11 ∧ m.hSrc (m.hNext 42) = 5 ∧ m.hSrc (m.hNext (m.hNext 42)) = 9
  other : ∀ h ∈ m.hes, m.hFace h = 14 → m.hSrc h ≠ 3
  alive : m.fAlive 14 = true

theorem hex_more : ∃ m : Mesh Rat, m.Good ∧ HexFacts m ∧ HexMore m := by
  obtain ⟨u, m, b, m', h1, h2, h3⟩ := thenSt_iff (o := construct icoV icoI fresh) (f := flipHE 1) (p := fun m b m' =>
    (m.hAlive 1 && b && decide (m.hNext (m.hNext (m.hNext 1)) = 1) && decide (m.hNext (m.hNext (m.hNext (m.hRev 1))) = m.hRev 1)) &&
    decide ((∀ h ∈ m'.hes, m'.hBd h = false ∧ m'.hNext (m'.hNext (m'.hNext h)) = h ∧ m'.vLock (m'.hSrc h) = false) ∧
      m'.outs 3 = [3, 6, 8, 18, 25, 28] ∧ m'.outs 9 = [26, 30, 41, 51, 56] ∧
      (m'.hes[24]? = some 25 ∧ m'.hRev 25 = 30 ∧ m'.hRev 30 = 25 ∧ m'.hSrc 25 = 3 ∧ m'.hSrc 30 = 9) ∧
      (m'.outDeg 3 = 6 ∧ m'.outDeg 9 = 5 ∧ m'.outDeg 5 = 5 ∧ m'.outDeg 7 = 5) ∧
      (m'.hSrc (m'.hNext (m'.hNext 30)) = 7 ∧ m'.hSrc (m'.hNext (m'.hNext 25)) = 5) ∧
      (m'.outs 3).map (fun y => m'.hSrc (m'.hNext y)) = [1, 4, 5, 2, 9, 7] ∧
      (m'.outs 3).map (fun y => m'.hSrc (m'.hNext (m'.hNext y))) = [4, 2, 1, 7, 5, 9] ∧
      (m'.outs 9).map (fun y => m'.hSrc (m'.hNext y)) = [5, 3, 11, 7, 12]) &&
    decide ((∀ h ∈ m'.hes, 4 ≤ m'.outDeg (m'.hSrc h)) ∧
      (m'.outs 9).map (fun y => m'.hSrc (m'.hNext (m'.hNext y))) = [3, 7, 5, 12, 11] ∧
      (m'.hFace 25 = 9 ∧ m'.hFace 30 = 10 ∧ m'.fHe 9 = 27 ∧ m'.fHe 10 = 30 ∧ m'.fHe 14 = 42) ∧
      (m'.hSrc 27 = 5 ∧ m'.hSrc (m'.hNext 27) = 3 ∧ m'.hSrc (m'.hNext (m'.hNext 27)) = 9) ∧
      (m'.hSrc 42 = 11 ∧ m'.hSrc (m'.hNext 42) = 5 ∧ m'.hSrc (m'.hNext (m'.hNext 42)) = 9) ∧
      (∀ h ∈ m'.hes, m'.hFace h = 14 → m'.hSrc h ≠ 3) ∧ m'.fAlive 14 = true)) (by decide +kernel)
  simp only [Bool.and_eq_true, decide_eq_true_eq] at h3
  obtain ⟨⟨⟨⟨⟨ha, rfl⟩, t⟩, t'⟩, a, b, c, d, e, f, g, h, i⟩, a', b', c', d', e', f', g'⟩ := h3
  rcases c13_flip (c01_construct_consistent (Owned.empty dbl) h1) 1 ha t t' with e'' | ⟨m2, x, y, r, s, e'', -, -, -, -, k⟩
  · rw [h2] at e''; cases e''
  · rw [h2] at e''; cases e''
    exact ⟨m', k.good, ⟨a, b, c, d, e, f, g, h, i⟩, ⟨a', b', c', d', e', f', g'⟩⟩

/-- a flat part of a mesh around the vertices 3 and 9 -/
noncomputable def hexPlane (v : Nat) : Vec3 ℝ :=
  if v = 9 then ⟨10, 0, 0⟩ else if v = 5 then ⟨6, 8, 0⟩ else if v = 1 then ⟨-6, 8, 0⟩ else if v = 4 then ⟨-10, 0, 0⟩ else
    if v = 2 then ⟨-6, -8, 0⟩ else if v = 7 then ⟨6, -8, 0⟩ else if v = 3 then ⟨0, 0, 0⟩ else if v = 11 then ⟨11 / 2, 12, 0⟩ else
    if v = 12 then ⟨20, 0, 0⟩ else ⟨v, 0, -5⟩

/-- the collapse of the edge between 3 and 9 is accepted, for two pairs of places of its ends -/
theorem flat_collapse {m : Mesh XR} (g : m.Good) (I : HexFacts m) {q : Nat → Vec3 ℝ} (A : m.AtE fun v => (q v).E)
    (hq : q 1 = ⟨-6, 8, 0⟩ ∧ q 2 = ⟨-6, -8, 0⟩ ∧ q 4 = ⟨-10, 0, 0⟩ ∧ q 5 = ⟨6, 8, 0⟩ ∧ q 7 = ⟨6, -8, 0⟩)
    (h39 : q 3 = ⟨5, 0, 0⟩ ∧ q 9 = ⟨10, 0, 0⟩ ∨ q 3 = ⟨0, 0, 0⟩ ∧ q 9 = ⟨5, 0, 0⟩) {h : Nat} (hh : h = 25 ∨ h = 30) :
    ∃ m', collapseHE h m = .ok true m' := by
  obtain ⟨hes, outs, nine, ⟨hi, r25, r30, s25, s30⟩, ⟨d3, d9, d5, d7⟩, ⟨o1, o2⟩, dst, far, dst9⟩ := I
  have W := g.wf
  obtain ⟨q1, q2, q4, q5, q7⟩ := hq
  rw [outs] at dst far
  rw [nine] at dst9
  simp only [List.map_cons, List.map_nil, List.cons.injEq, and_true] at dst far dst9
  have mem : ∀ y, m.hAlive y = true → m.hSrc y = 3 → y = 3 ∨ y = 6 ∨ y = 8 ∨ y = 18 ∨ y = 25 ∨ y = 28 := by
    intro y ay sy
    have : y ∈ m.outs 3 := List.mem_filter.2 ⟨(W.hDense.mem y).2 ay, by rw [sy, beq_self_eq_true]⟩
    rw [outs] at this
    simpa using this
  have src : ∀ y, y = 3 ∨ y = 6 ∨ y = 8 ∨ y = 18 ∨ y = 25 ∨ y = 28 → m.hAlive y = true ∧ m.hSrc y = 3 := by
    intro y hy
    have : y ∈ m.outs 3 := by rw [outs]; simpa using hy
    obtain ⟨h1, h2⟩ := List.mem_filter.1 this
    exact ⟨(W.hDense.mem y).1 h1, beq_iff_eq.1 h2⟩
  have a25 : m.hAlive 25 = true := (src 25 (by simp)).1
  have a30 : m.hAlive 30 = true := by rw [← r25]; exact W.rev_alive _ a25
  have ah : m.hAlive h = true := by rcases hh with rfl | rfl <;> assumption
  have he : 30 = if m.outDeg (m.hSrc (m.hRev h)) < m.outDeg (m.hSrc h) then m.hRev h else h := by
    rcases hh with rfl | rfl
    · rw [r25, s30, s25, d9, d3]; rfl
    · rw [r30, s30, s25, d9, d3]; rfl
  have t : m.TriRing 3 := fun y ay _ => (hes y ((W.hDense.mem y).2 ay)).2.1
  obtain ⟨c, c0, star⟩ : ∃ c : ℝ, 0 < c ∧ m.starArea (fun v => (q v).E) 3 = (⟨0, 0, c⟩ : Vec3 ℝ).E := by
    have : m.starArea (fun v => (q v).E) 3 = ((m.outs 3).map fun h =>
      triNormal (q 3).E (q (m.hSrc (m.hNext h))).E (q (m.hSrc (m.hNext (m.hNext h)))).E).sum := rfl
    rw [outs] at this
    simp only [List.map_cons, List.map_nil, List.sum_cons, List.sum_nil, dst, far, triNormal_E, ← E_zero, ← Vec3.E_add] at this
    rcases h39 with ⟨q3, q9⟩ | ⟨q3, q9⟩
    · refine ⟨512, by norm_num, this.trans ?_⟩
      congr 1
      norm_num [q1, q2, q3, q4, q5, q7, q9, Vec3.cross_def, Vec3.sub_def, Vec3.add_def, Vec3.zero_def]
    · refine ⟨432, by norm_num, this.trans ?_⟩
      congr 1
      norm_num [q1, q2, q3, q4, q5, q7, q9, Vec3.cross_def, Vec3.sub_def, Vec3.add_def, Vec3.zero_def]
  have qq : m.hSrc (m.hRev 30) = 3 := by rw [r30, s25]
  refine c65_complete (p := fun v => (q v).E) (e := 30) g A ah he (by rw [qq]; exact t) ?_ ?_ ?_ ?_ ?_ ?_
  · intro x ax _
    exact (hes x ((W.hDense.mem x).2 ax)).1
  · rw [qq, s30, d9, d3]
    decide
  · rw [r30, o1, o2, d7, d5]
    decide
  · rw [qq, s30, outs, nine]
    simp [dst, dst9]
  · rw [qq, star, ← E_zero, Ne, Vec3.E_inj]
    simp [Vec3.zero_def, c0.ne']
  · intro y ay sy
    rw [qq] at sy
    rw [s30]
    have hy := mem y ay sy
    unfold Mesh.movedSign
    rw [sy, star]
    rcases hy with rfl | rfl | rfl | rfl | rfl | rfl
    all_goals
      simp only [dst, far]
      rw [triNormal_E, Vec3.E_inner]
      rcases h39 with ⟨q3, q9⟩ | ⟨q3, q9⟩ <;>
        norm_num [q1, q2, q3, q4, q5, q7, q9, Vec3.cross_def, Vec3.sub_def, Vec3.dot_def, c0.le]

/-- the edge between 3 and 9 passes the tests -/
theorem flat_allowed {m : Mesh XR} (g : m.Good) (I : HexFacts m) (J : HexMore m) {h : Nat} (hh : h = 25 ∨ h = 30) :
    m.Contractible (fun v => (hexPlane v).E) (fun _ => False) h (⟨5, 0, 0⟩ : Vec3 ℝ).E := by
  obtain ⟨hes, outs, nine, ⟨hi, r25, r30, s25, s30⟩, ⟨d3, d9, d5, d7⟩, ⟨o1, o2⟩, dst, far, dst9⟩ := I
  obtain ⟨deg, -, ⟨f25, f30, e9, e10, -⟩, ⟨n1, n2, n3⟩, -, -, -⟩ := J
  have W := g.wf
  have a25 : m.hAlive 25 = true := (W.hDense.mem 25).1 (List.mem_of_getElem? hi)
  have a30 : m.hAlive 30 = true := by rw [← r25]; exact W.rev_alive _ a25
  have t25 : m.hSrc (m.hNext 25) = 9 := by rw [← W.src_rev _ a25, r25, s30]
  have t30 : m.hSrc (m.hNext 30) = 3 := by rw [← W.src_rev _ a30, r30, s25]
  have inside : ∀ v, ¬ m.AtBoundary v := by
    rintro v ⟨x, ax, -, bx⟩
    rw [(hes x ((W.hDense.mem x).2 ax)).1] at bx
    cases bx
  have old : ∀ v, v = 9 ∨ v = 3 ∨ v = 5 ∨ v = 7 → hexPlane v = if v = 9 then ⟨10, 0, 0⟩ else if v = 3 then ⟨0, 0, 0⟩ else
      if v = 5 then ⟨6, 8, 0⟩ else ⟨6, -8, 0⟩ := by
    rintro v (rfl | rfl | rfl | rfl) <;> simp [hexPlane]
  have up : ∀ k, Function.update (fun v => (hexPlane v).E) k (⟨5, 0, 0⟩ : Vec3 ℝ).E = fun v => (Function.update hexPlane k ⟨5, 0, 0⟩ v).E := by
    intro k
    funext v
    by_cases c : v = k
    · subst c; simp
    · simp [c]
  have small : ¬ (3200 : ℝ) ≤ 1 / 1000000000000 * (√6400 * √1600) := by
    rw [show (6400 : ℝ) = 80 ^ 2 by norm_num, show (1600 : ℝ) = 40 ^ 2 by norm_num, Real.sqrt_sq (by norm_num), Real.sqrt_sq (by norm_num)]
    norm_num
  have turn9 : ∀ a b, (a = 3 ∧ b = 9 ∨ a = 9 ∧ b = 3) → ¬ m.TurnsOver (fun v => (hexPlane v).E) a b (⟨5, 0, 0⟩ : Vec3 ℝ).E 9 := by
    intro a b hab
    have fe : m.firstEnd a b 9 = 3 := by
      unfold Mesh.firstEnd
      rw [e9, n1, n2]
      rcases hab with ⟨rfl, rfl⟩ | ⟨rfl, rfl⟩ <;> rfl
    rintro ⟨-, -, le⟩
    rw [fe, up] at le
    unfold Mesh.areaVec at le
    rw [e9, n1, n2, n3, triNormal_E, triNormal_E, Vec3.E_inner, Vec3.E_norm, Vec3.E_norm, Vec3.length_def, Vec3.length_def] at le
    norm_num [hexPlane, Vec3.cross_def, Vec3.sub_def, Vec3.dot_def, Function.update] at le
    exact small le
  have turn10 : ∀ a b, (a = 3 ∧ b = 9 ∨ a = 9 ∧ b = 3) → ¬ m.TurnsOver (fun v => (hexPlane v).E) a b (⟨5, 0, 0⟩ : Vec3 ℝ).E 10 := by
    intro a b hab
    have fe : m.firstEnd a b 10 = 9 := by
      unfold Mesh.firstEnd
      rw [e10, s30]
      rcases hab with ⟨rfl, rfl⟩ | ⟨rfl, rfl⟩ <;> rfl
    rintro ⟨-, -, le⟩
    rw [fe, up] at le
    unfold Mesh.areaVec at le
    rw [e10, s30, t30, o1, triNormal_E, triNormal_E, Vec3.E_inner, Vec3.E_norm, Vec3.E_norm, Vec3.length_def, Vec3.length_def] at le
    norm_num [hexPlane, Vec3.cross_def, Vec3.sub_def, Vec3.dot_def, Function.update] at le
    exact small le
  have thin : ∀ v u, m.Joined v u → 4 ≤ m.outDeg u := by
    rintro v u ⟨x, ax, -, rfl⟩
    exact deg _ ((W.hDense.mem _).2 (W.next_alive _ ax))
  rcases hh with rfl | rfl
  · refine ⟨by simp, ⟨inside _, inside _⟩, by rw [s25, t25, d3, d9]; decide, ?_, fun u h _ => thin _ _ h⟩
    rw [s25, t25, r25, f25, f30]
    rintro f (rfl | rfl)
    · exact turn9 _ _ (Or.inl ⟨rfl, rfl⟩)
    · exact turn10 _ _ (Or.inl ⟨rfl, rfl⟩)
  · refine ⟨by simp, ⟨inside _, inside _⟩, by rw [s30, t30, d3, d9]; decide, ?_, fun u h _ => thin _ _ h⟩
    rw [s30, t30, r30, f25, f30]
    rintro f (rfl | rfl)
    · exact turn10 _ _ (Or.inr ⟨rfl, rfl⟩)
    · exact turn9 _ _ (Or.inr ⟨rfl, rfl⟩)

/-- all planes around the edge are the same -/
theorem flat_det {m : Mesh XR} (g : m.Good) (I : HexFacts m) (J : HexMore m) :
    (m.hessAt (fun v => (hexPlane v).E) 3 + m.hessAt (fun v => (hexPlane v).E) 9).det = 0 := by
  obtain ⟨hes, outs, nine, -, -, -, dst, far, dst9⟩ := I
  have far9 := J.far9
  have W := g.wf
  rw [outs] at dst far
  rw [nine] at dst9 far9
  simp only [List.map_cons, List.map_nil, List.cons.injEq, and_true] at dst far dst9 far9
  have flat : ∀ y, m.hAlive y = true → (m.hSrc y = 3 ∨ m.hSrc y = 9) →
      (hexPlane (m.hSrc y)).z = 0 ∧ (hexPlane (m.hSrc (m.hNext y))).z = 0 ∧ (hexPlane (m.hSrc (m.hNext (m.hNext y)))).z = 0 := by
    intro y ay sy
    rcases sy with sy | sy
    · have : y ∈ m.outs 3 := List.mem_filter.2 ⟨(W.hDense.mem y).2 ay, by rw [sy, beq_self_eq_true]⟩
      rw [outs] at this
      simp only [List.mem_cons, List.not_mem_nil, or_false] at this
      rw [sy]
      rcases this with rfl | rfl | rfl | rfl | rfl | rfl <;> simp only [dst, far] <;> simp [hexPlane]
    · have : y ∈ m.outs 9 := List.mem_filter.2 ⟨(W.hDense.mem y).2 ay, by rw [sy, beq_self_eq_true]⟩
      rw [nine] at this
      simp only [List.mem_cons, List.not_mem_nil, or_false] at this
      rw [sy]
      rcases this with rfl | rfl | rfl | rfl | rfl <;> simp only [dst9, far9] <;> simp [hexPlane]
  have zero : ∀ v, v = 3 ∨ v = 9 → ∀ j, m.hessAt (fun v => (hexPlane v).E) v 0 j = 0 := by
    intro v hv j
    unfold Mesh.hessAt
    have key : ∀ l : List Nat, (∀ h ∈ l, h ∈ m.innerAt v) → (l.map fun h =>
        let n := planeNormal (hexPlane (m.hSrc h)).E (hexPlane (m.hSrc (m.hNext h))).E (hexPlane (m.hSrc (m.hNext (m.hNext h)))).E
        Matrix.of fun (i j : Fin 3) => n i * n j).sum 0 j = 0 := by
      intro l
      induction l with
      | nil => intro _; rfl
      | cons h l ih =>
        intro hl
        rw [List.map_cons, List.sum_cons, Matrix.add_apply, ih (fun x hx => hl x (List.mem_cons_of_mem _ hx)), add_zero]
        have hm := hl h (by simp)
        classical
        unfold Mesh.innerAt at hm
        rw [List.mem_filter] at hm
        obtain ⟨hf, hd⟩ := hm
        obtain ⟨f, hf', rfl⟩ := List.mem_map.1 hf
        obtain ⟨-, y, ay, fy, sy⟩ := of_decide_eq_true hd
        obtain ⟨ah, hfa⟩ := W.fHe_ok _ ((W.fDense.mem f).1 hf')
        have t : m.hNext (m.hNext (m.hNext y)) = y := (hes y ((W.hDense.mem y).2 ay)).2.1
        obtain ⟨-, hy⟩ := g.onTri_first ay t
        rw [fy, hfa] at hy
        obtain ⟨z1, z2, z3⟩ := flat y ay (by rw [sy]; exact hv)
        have z : (hexPlane (m.hSrc (m.fHe f))).z = 0 ∧ (hexPlane (m.hSrc (m.hNext (m.fHe f)))).z = 0 ∧
            (hexPlane (m.hSrc (m.hNext (m.hNext (m.fHe f))))).z = 0 := by
          rcases hy with e | e | e <;> rw [e]
          · exact ⟨z1, z2, z3⟩
          · rw [t]; exact ⟨z2, z3, z1⟩
          · rw [t]; exact ⟨z3, z1, z2⟩
        obtain ⟨z1, z2, z3⟩ := z
        have n0 : planeNormal (hexPlane (m.hSrc (m.fHe f))).E (hexPlane (m.hSrc (m.hNext (m.fHe f)))).E
            (hexPlane (m.hSrc (m.hNext (m.hNext (m.fHe f))))).E 0 = 0 := by
          unfold planeNormal
          rw [triNormal_E]
          simp [Vec3.E, Vec3.cross_def, Vec3.sub_def, z1, z2, z3]
        dsimp only
        rw [Matrix.of_apply, n0, zero_mul]
    exact key _ fun h hh => hh
  refine Matrix.det_eq_zero_of_row_eq_zero 0 fun j => ?_
  rw [Matrix.add_apply, zero 3 (Or.inl rfl), zero 9 (Or.inr rfl), add_zero]

theorem HexFacts.over {m : Mesh Rat} (I : HexFacts m) (q : Nat → Vec3 ℝ) : HexFacts (m.overR q) :=
  ⟨I.hes, I.three, I.nine, I.edge, I.deg, I.opp, I.dst, I.far, I.dst9⟩

theorem HexMore.over {m : Mesh Rat} (I : HexMore m) (q : Nat → Vec3 ℝ) : HexMore (m.overR q) :=
  ⟨I.deg, I.far9, I.faces, I.nine, I.four, I.other, I.alive⟩

/-- what happens to the edge between 3 and 9, as 25 and as 30 -/
theorem flat_run : ∃ m : Mesh XR, m.Good ∧ m.AtE (fun v => (hexPlane v).E) ∧ HexFacts m ∧ HexMore m ∧ ∀ h, h = 25 ∨ h = 30 →
    ∃ m', qemPass m.vs.length 2 [(h, (⟨5, 0, 0⟩ : Vec3 ℝ).fin)] [] (fun _ => false) 0 m = .ok 2 m' ∧
      CollapseDone { m with vPos := upd m.vPos (m.hSrc h) (⟨5, 0, 0⟩ : Vec3 ℝ).fin } m' 9 3 := by
  obtain ⟨m, G, I, J⟩ := hex_more
  have A : (m.overR hexPlane).AtE fun v => (hexPlane v).E := fun v _ => ⟨hexPlane v, rfl, rfl⟩
  have g : (m.overR hexPlane).Good := G.over _
  have I' := I.over hexPlane
  have J' := J.over hexPlane
  refine ⟨m.overR hexPlane, g, A, I', J', fun h hh => ?_⟩
  set M := m.overR hexPlane with hM
  have W := g.wf
  obtain ⟨hi, r25, r30, s25, s30⟩ := I'.edge
  obtain ⟨d3, d9, -, -⟩ := I'.deg
  have a25 : M.hAlive 25 = true := (W.hDense.mem 25).1 (List.mem_of_getElem? hi)
  have a30 : M.hAlive 30 = true := by rw [← r25]; exact W.rev_alive _ a25
  have ah : M.hAlive h = true := by rcases hh with rfl | rfl <;> assumption
  have he : 30 = if M.outDeg (M.hSrc (M.hRev h)) < M.outDeg (M.hSrc h) then M.hRev h else h := by
    rcases hh with rfl | rfl
    · rw [r25, s30, s25, d9, d3]; rfl
    · rw [r30, s30, s25, d9, d3]; rfl
  have hv : (⟨5, 0, 0⟩ : Vec3 ℝ).fin.Is (⟨5, 0, 0⟩ : Vec3 ℝ).E := ⟨_, rfl, rfl⟩
  have g1 : ({ M with vPos := upd M.vPos (M.hSrc h) (⟨5, 0, 0⟩ : Vec3 ℝ).fin } : Mesh XR).Good := Mesh.SameButPos.good (m := M) rfl g
  have A1 : ({ M with vPos := upd M.vPos (M.hSrc h) (⟨5, 0, 0⟩ : Vec3 ℝ).fin } : Mesh XR).AtE
      fun v => (upd hexPlane (M.hSrc h) ⟨5, 0, 0⟩ v).E := by
    intro y ay
    refine ⟨upd hexPlane (M.hSrc h) ⟨5, 0, 0⟩ y, ?_, rfl⟩
    by_cases c : y = M.hSrc h
    · simp [upd, c]
    · simp only [upd, c, if_false]
      rfl
  have I1 : HexFacts ({ M with vPos := upd M.vPos (M.hSrc h) (⟨5, 0, 0⟩ : Vec3 ℝ).fin } : Mesh XR) :=
    ⟨I'.hes, I'.three, I'.nine, I'.edge, I'.deg, I'.opp, I'.dst, I'.far, I'.dst9⟩
  obtain ⟨m2, run⟩ := flat_collapse g1 I1 A1 (by
    rcases hh with rfl | rfl
    · rw [s25]; simp [upd, hexPlane]
    · rw [s30]; simp [upd, hexPlane]) (by
    rcases hh with rfl | rfl
    · rw [s25]; simp [upd, hexPlane]
    · rw [s30]; simp [upd, hexPlane]) hh
  rcases (c90_step (q := []) (rm := []) (ck := fun _ => false) (target := 2) (nr := 0) g A (Nat.le_refl _) (by decide) ah (by simp) hv he rfl rfl).1
    (by simpa using flat_allowed g I' J' hh) with ⟨e, -⟩ | ⟨m', e, d, r⟩
  · rw [run] at e; cases e
  · rw [r30, s25, s30] at d
    exact ⟨m', r, d⟩

/-- C90 is false in general: the contraction forgets the new place. The start of the half-edge is moved there, but it has the larger
degree and is the end that is removed. All vertices that remain are where they were. -/
theorem c90_lost_counterexample : ∃ (m m' : Mesh XR) (p : Nat → E3) (h : Nat) (v : Vec3 XR) (x : E3), m.Good ∧ m.AtE p ∧ m.hAlive h = true ∧ v.Is x ∧
    (m.hessAt p (m.hSrc h) + m.hessAt p (m.hSrc (m.hNext h))).det < 1 / 10 ^ 8 ∧ x = (1 / 2 : ℝ) • (p (m.hSrc h) + p (m.hSrc (m.hNext h))) ∧
    qemPass m.vs.length 2 [(h, v)] [] (fun _ => false) 0 m = .ok 2 m' ∧ m'.AtE p ∧ ∀ u, p u ≠ x := by
  obtain ⟨m, g, A, I, J, run⟩ := flat_run
  have W := g.wf
  obtain ⟨hi, r25, r30, s25, s30⟩ := I.edge
  have a25 : m.hAlive 25 = true := (W.hDense.mem 25).1 (List.mem_of_getElem? hi)
  have t25 : m.hSrc (m.hNext 25) = 9 := by rw [← W.src_rev _ a25, r25, s30]
  obtain ⟨m', r, d⟩ := run 25 (Or.inl rfl)
  refine ⟨m, m', _, 25, _, (⟨5, 0, 0⟩ : Vec3 ℝ).E, g, A, a25, ⟨_, rfl, rfl⟩, ?_, ?_, r, ?_, ?_⟩
  · rw [s25, t25, flat_det g I J]
    positivity
  · rw [s25, t25, ← Vec3.E_add, ← Vec3.E_smul]
    congr 1
    norm_num [hexPlane, Vec3.add_def, Vec3.smul_def]
  · intro u au
    obtain ⟨h1, h2⟩ := (d.alive u).1 au
    rw [(d.keeps u au).1]
    change (upd m.vPos (m.hSrc 25) _ u).Is _
    rw [s25]
    simpa [upd, h2] using A u h1
  · intro u
    rw [Ne, Vec3.E_inj]
    unfold hexPlane
    split_ifs <;> norm_num

/-- C90 is false in general: a triangle that stays is turned over. The test looks at the two faces that vanish, not at the others. -/
theorem c90_flipped_counterexample : ∃ (m m' : Mesh XR) (p : Nat → E3) (h : Nat) (v : Vec3 XR) (x : E3) (y : Nat), m.Good ∧ m.AtE p ∧
    m.hAlive h = true ∧ v.Is x ∧ (m.hessAt p (m.hSrc h) + m.hessAt p (m.hSrc (m.hNext h))).det < 1 / 10 ^ 8 ∧
    x = (1 / 2 : ℝ) • (p (m.hSrc h) + p (m.hSrc (m.hNext h))) ∧
    qemPass m.vs.length 2 [(h, v)] [] (fun _ => false) 0 m = .ok 2 m' ∧ m'.AtE (Function.update p (m.hSrc h) x) ∧
    m'.hAlive y = true ∧ m.OnTri y ∧ m'.OnTri y ∧
    inner ℝ (triNormal (p (m.hSrc y)) (p (m.hSrc (m.hNext y))) (p (m.hSrc (m.hNext (m.hNext y)))))
      (triNormal (Function.update p (m.hSrc h) x (m'.hSrc y)) (Function.update p (m.hSrc h) x (m'.hSrc (m'.hNext y)))
        (Function.update p (m.hSrc h) x (m'.hSrc (m'.hNext (m'.hNext y))))) < 0 := by
  obtain ⟨m, g, A, I, J, run⟩ := flat_run
  have W := g.wf
  obtain ⟨hi, r25, r30, s25, s30⟩ := I.edge
  obtain ⟨f1, f2, f3⟩ := J.four
  have a25 : m.hAlive 25 = true := (W.hDense.mem 25).1 (List.mem_of_getElem? hi)
  have a30 : m.hAlive 30 = true := by rw [← r25]; exact W.rev_alive _ a25
  have t30 : m.hSrc (m.hNext 30) = 3 := by rw [← W.src_rev _ a30, r30, s25]
  obtain ⟨m', r, d⟩ := run 30 (Or.inr rfl)
  obtain ⟨a42, fa⟩ := W.fHe_ok 14 J.alive
  rw [J.faces.2.2.2.2] at a42 fa
  have tri : m.hNext (m.hNext (m.hNext 42)) = 42 := (I.hes 42 ((W.hDense.mem 42).2 a42)).2.1
  have nsrc : ∀ x, m.hAlive x = true → m.hFace x = 14 → m.hSrc x ≠ 3 := fun x ax fx => J.other x ((W.hDense.mem x).2 ax) fx
  have al' : m'.fAlive 14 = true := (d.faces 14).2 ⟨J.alive, by
    intro x ax fx
    change m.hAlive x = true at ax
    change m.hFace x = 14 at fx
    rintro (⟨-, k⟩ | ⟨k, -⟩)
    · exact nsrc _ (W.next_alive _ ax) (by rw [W.face_next _ ax]; exact fx) k
    · exact nsrc _ ax fx k⟩
  have al : ∀ x, m.hAlive x = true → m.hFace x = 14 → m'.hAlive x = true ∧ m'.hNext x = m.hNext x ∧ m'.hSrc x = m.hSrc x := by
    intro x ax fx
    have a' := (d.kept x).2 ⟨ax, by change m'.fAlive (m.hFace x) = true; rw [fx]; exact al'⟩
    obtain ⟨h1, -, h3⟩ := d.same x a'
    refine ⟨a', h1, h3.trans (if_neg (nsrc x ax fx))⟩
  have an := W.next_alive _ a42
  have ann := W.next_alive _ an
  have fn : m.hFace (m.hNext 42) = 14 := by rw [W.face_next _ a42]; exact fa
  have fnn : m.hFace (m.hNext (m.hNext 42)) = 14 := by rw [W.face_next _ an]; exact fn
  obtain ⟨b1, b2, b3⟩ := al 42 a42 fa
  obtain ⟨c1, c2, c3⟩ := al _ an fn
  obtain ⟨d1, d2, d3⟩ := al _ ann fnn
  refine ⟨m, m', _, 30, _, (⟨5, 0, 0⟩ : Vec3 ℝ).E, 42, g, A, a30, ⟨_, rfl, rfl⟩, ?_, ?_, r, ?_, b1, tri, ?_, ?_⟩
  · rw [s30, t30, add_comm, flat_det g I J]
    positivity
  · rw [s30, t30, ← Vec3.E_add, ← Vec3.E_smul]
    congr 1
    norm_num [hexPlane, Vec3.add_def, Vec3.smul_def]
  · intro u au
    rw [(d.keeps u au).1]
    exact A.move ⟨_, rfl, rfl⟩ u ((d.alive u).1 au).1
  · change m'.hNext (m'.hNext (m'.hNext 42)) = 42
    rw [b2, c2, d2, tri]
  · rw [b2, c2, b3, c3, d3, f1, f2, f3, s30]
    simp only [Function.update, show (11 : Nat) ≠ 9 by decide, show (5 : Nat) ≠ 9 by decide, dif_neg, not_false_eq_true, dite_true]
    rw [triNormal_E, triNormal_E, Vec3.E_inner]
    norm_num [hexPlane, Vec3.cross_def, Vec3.sub_def, Vec3.dot_def]

/-! ### Examples -/

/-- an edge that passes the tests and whose start has the smaller degree -/
example : ∃ (m m' : Mesh XR) (p : Nat → E3) (h : Nat), m.Good ∧ m.AtE p ∧ m.hAlive h = true ∧
    m.Contractible p (fun _ => False) h (⟨5, 0, 0⟩ : Vec3 ℝ).E ∧ m.outDeg (m.hSrc h) ≤ m.outDeg (m.hSrc (m.hNext h)) ∧
    qemPass m.vs.length 2 [(h, (⟨5, 0, 0⟩ : Vec3 ℝ).fin)] [] (fun _ => false) 0 m = .ok 2 m' ∧ m'.vs.length + 1 = m.vs.length := by
  obtain ⟨m, g, A, I, J, run⟩ := flat_run
  obtain ⟨hi, r25, r30, s25, s30⟩ := I.edge
  obtain ⟨d3, d9, -, -⟩ := I.deg
  have W := g.wf
  have a30 : m.hAlive 30 = true := by rw [← r25]; exact W.rev_alive _ ((W.hDense.mem 25).1 (List.mem_of_getElem? hi))
  obtain ⟨m', r, d⟩ := run 30 (Or.inr rfl)
  exact ⟨m, m', _, 30, g, A, a30, flat_allowed g I J (Or.inr rfl), by rw [← W.src_rev _ a30, r30, s25, s30, d3, d9]; decide, r, d.nv⟩

/-- an edge that does not pass them: its start has been treated before -/
example : ∃ (m : Mesh XR) (p : Nat → E3) (h : Nat), m.Good ∧ m.AtE p ∧ m.hAlive h = true ∧
    ¬ m.Contractible p (fun u => u = 9) h (⟨5, 0, 0⟩ : Vec3 ℝ).E := by
  obtain ⟨m, g, A, I, J, run⟩ := flat_run
  obtain ⟨hi, r25, r30, s25, s30⟩ := I.edge
  have W := g.wf
  have a30 : m.hAlive 30 = true := by rw [← r25]; exact W.rev_alive _ ((W.hDense.mem 25).1 (List.mem_of_getElem? hi))
  exact ⟨m, _, 30, g, A, a30, fun c => c.fresh.1 s30⟩

/-- a flip that brings the degrees nearer to six -/
example : ∃ m m' : Mesh Rat, m.Good ∧ qemFlipOne 0 m = .ok () m' ∧ m'.sixSum < m.sixSum := by
  obtain ⟨_, m, b, m', h1, h2, h3⟩ := thenSt_iff (o := construct icoV sevenI fresh) (f := qemFlipOne 0)
    (p := fun m _ m' => decide (m'.sixSum < m.sixSum)) (by decide +kernel)
  exact ⟨m, m', c01_construct_consistent (Owned.empty dbl) h1, h2, of_decide_eq_true h3⟩

end TinyMesh
