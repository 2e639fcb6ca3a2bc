import Verif.Proof.FrontR
import Verif.Proof.OperA
import Verif.Props.Denoise
import Verif.Spec.SampleF
/-
Closing a hole by an advancing front (C75, C76, C77, C78).
-/
set_option maxRecDepth 100000
namespace TinyMesh
open Orbit Sample EuclideanGeometry
variable {F : Type} [Scalar F] {m m' : Mesh F} {f : Nat}

/-- C75: whenever the front returns, the hole is closed with triangles and the rest of the mesh is as before. Nothing is assumed about the
arithmetic. -/
theorem c75_filled_partial (w : m.WF) (H : m.SimpleHole f) {fuel : Nat} (e : advancingFront fuel f m = .ok () m') : m.Filled m' f := by
  rcases advancingFront_out w H (P := fun _ => True) trivial (fun _ _ _ _ _ _ _ => trivial) fuel with ⟨m1, I, -, n3, k⟩ | ⟨avg, e', m1, _, _, _, k, _⟩
  · rw [k] at e
    injection e with _ e
    rw [← e]
    exact I.filled w H n3
  · rw [k] at e; exact absurd e (by simp)

/-- C75: with finite positions the front never runs into undefined behaviour and no assertion fails: it returns, it throws an exception, or it
goes on for more than `fuel` rounds. -/
theorem c75_outcome {m : Mesh XR} (w : m.WF) (H : m.SimpleHole f) {p : Nat → E3} (A : m.AtE p) (fuel : Nat) :
    (∃ m', advancingFront fuel f m = .ok () m' ∧ m.Filled m' f) ∨ advancingFront fuel f m = .err .throw ∨ advancingFront fuel f m = .err .diverge := by
  rcases advancingFront_out w H (P := fun m => ∃ p, m.AtE p) ⟨p, A⟩ (fun avg m1 m2 h I _ s => FrontStep.finite h I.wf I.af s) fuel with
    ⟨m1, I, -, n3, k⟩ | ⟨avg, e', m1, _, I, A1, k, d⟩
  · exact .inl ⟨_, k, I.filled w H n3⟩
  · right
    rw [k]
    rcases d with rfl | ⟨n4, s⟩
    · exact .inr rfl
    · exact .inl (by rw [FrontStep.throw A1 I.wf I.af n4 s])

/-- C75: a hole with three sides is closed at once. -/
theorem c75_triangle (w : m.WF) (H : m.SimpleHole f) (s : m.sides f = 3) (fuel : Nat) : ∃ m', advancingFront (fuel + 1) f m = .ok () m' ∧ m'.hes = m.hes ∧
    m'.fs = m.fs ∧ m'.vs = m.vs ∧ m'.vPos = m.vPos := by
  obtain ⟨avg, _, e⟩ := advancingFront_eq w H.alive (fuel + 1)
  obtain ⟨S, lk⟩ := lockHole_start w H
  have n3 : (orbit (m.lockHole f).hNext ((m.lockHole f).fHe f)).length = 3 := (w.loop_length H.alive).trans s
  refine ⟨(m.lockHole f).lastMesh f, ?_, rfl, rfl, rfl, rfl⟩
  rw [e]
  unfold frontLoop
  rw [bind_apply, frontRound_last S.inv n3]
  rfl

/-- every returned run is a sequence of rounds, the last one with three sides left -/
theorem c76_run (w : m.WF) (H : m.SimpleHole f) {fuel : Nat} (e : advancingFront fuel f m = .ok () m') :
    ∃ avg m1 m2, meanEdgeLength m = .ok avg m ∧ frontLock f m = .ok () m1 ∧ FrontReached f avg m1 m2 ∧ m2.sides f = 3 ∧
      frontRound f avg m2 = .ok true m' := by
  obtain ⟨avg, ea, e'⟩ := advancingFront_eq w H.alive fuel
  obtain ⟨S, lk⟩ := lockHole_start w H
  refine ⟨avg, m.lockHole f, ?_⟩
  rw [e'] at e
  have key : ∀ fuel m1, FrontReached f avg (m.lockHole f) m1 → frontLoop f avg fuel m1 = .ok () m' →
      ∃ m2, FrontReached f avg (m.lockHole f) m2 ∧ m2.sides f = 3 ∧ frontRound f avg m2 = .ok true m' := by
    intro fuel
    induction fuel with
    | zero => intro m1 _ e; exact absurd e (by unfold frontLoop; simp [M.fail])
    | succ n ih =>
      intro m1 r e
      have I := r.inv S lk
      unfold frontLoop at e
      rw [bind_apply] at e
      cases h : frontRound f avg m1 with
      | err e1 => rw [h] at e; exact absurd e (by simp)
      | ok b m2 =>
        rw [h] at e
        cases b with
        | false => exact ih m2 (.round r h) e
        | true =>
          have e : m2 = m' := by injection e
          subst e
          refine ⟨m1, r, ?_, h⟩
          by_contra n
          have n3 : (orbit m1.hNext (m1.fHe f)).length ≠ 3 := by rw [I.wf.loop_length I.af]; exact n
          have n4 : 4 ≤ (orbit m1.hNext (m1.fHe f)).length := by have := I.n3; omega
          have s := frontRound_step I.wf I.af n4 (fun C ul => I.behind S lk C ul) avg
          rw [h] at s
          exact absurd (s.inv S lk I n4).2 (by simp)
  obtain ⟨m2, h1, h2, h3⟩ := key fuel _ .start e
  exact ⟨m2, ea, frontLock_ok w H.alive, h1, h2, h3⟩

/-- C76: every round of a run with at least four sides left merges two close vertices of the front; or it finds the smallest angle of the front and
puts one, two or three triangles there, according to the size of the angle; or it throws an exception since a triangle behind the front has no
area, since the normals of two such triangles are opposite, or since the corner is straight and one of its sides twice as long as the other. -/
theorem c76_round {m m1 m2 : Mesh XR} (w : m.WF) (H : m.SimpleHole f) {p0 : Nat → E3} (A0 : m.AtE p0)
    (t3 : ∀ h, m.hAlive h = true → m.hFace h ≠ f → m.CornerOf f (m.hSrc h) → m.CornerOf f (m.hSrc (m.hNext h)) → m.sides (m.hFace h) = 3) {L : ℝ}
    (l : frontLock f m = .ok () m1) (r : FrontReached f (.fin L) m1 m2) (n4 : 4 ≤ m2.sides f) :
    (∃ p, m2.AtE p) ∧ ∀ p, m2.AtE p →
    (∃ m3, frontRound f (.fin L) m2 = .ok false m3 ∧ m2.FrontRound m3 p f L) ∨
    (frontRound f (.fin L) m2 = .err .throw ∧ ∃ a, m2.hAlive a = true ∧ m2.hFace a = f ∧
      (m2.areaVec p (m2.hFace (m2.hRev a)) = 0 ∨
       unitOf (m2.areaVec p (m2.hFace (m2.hRev a))) + unitOf (m2.areaVec p (m2.hFace (m2.hRev (m2.hNext a)))) = 0 ∨
       ((2 : ℝ) • (p (m2.hSrc a) - p (m2.hSrc (m2.hNext a))) + (p (m2.hSrc (m2.hNext (m2.hNext a))) - p (m2.hSrc (m2.hNext a))) = 0 ∨
        (p (m2.hSrc a) - p (m2.hSrc (m2.hNext a))) + (2 : ℝ) • (p (m2.hSrc (m2.hNext (m2.hNext a))) - p (m2.hSrc (m2.hNext a))) = 0))) := by
  have e1 : m1 = m.lockHole f := by
    rw [frontLock_ok w H.alive] at l
    injection l with _ l
    exact l.symm
  subst e1
  obtain ⟨S, lk⟩ := lockHole_start w H
  have I := r.inv S lk
  have n4' : 4 ≤ (orbit m2.hNext (m2.fHe f)).length := by rw [I.wf.loop_length I.af]; exact n4
  have beh : ∀ {hs : List Nat} {pp prev i next qq p a b q : Nat}, Corner m2 f hs pp prev i next qq p a b q → m2.vLock (m2.hSrc b) = false →
      Behind m2 f a b q (m2.hRev b) (m2.hNext (m2.hRev b)) (m2.hNext (m2.hNext (m2.hRev b))) (m2.hFace (m2.hRev b)) := fun C ul => I.behind S lk C ul
  have T := I.triBehind S t3
  refine ⟨FrontReached.finite S lk ⟨p0, A0⟩ r, fun p A => ?_⟩
  have s := frontRound_step I.wf I.af n4' beh (.fin L)
  cases h : frontRound f (.fin L) m2 with
  | ok b m3 =>
    rw [h] at s
    have hb := (s.inv S lk I n4').2
    subst hb
    exact .inl ⟨m3, rfl, s.round A I.wf I.af T beh⟩
  | err e =>
    rw [h] at s
    obtain ⟨k1, k2⟩ := s.fails A I.wf I.af T n4'
    subst k1
    exact .inr ⟨rfl, k2⟩

/-! ### Samples -/

/-- `SimpleHole`, decided -/
def simpleHoleB {F : Type} (m : Mesh F) (f : Nat) : Bool :=
  decide (f ∈ m.fs) && decide (3 ≤ m.sides f) &&
    m.hes.all fun h => m.hes.all fun h' => !(m.hFace h == f && m.hFace h' == f && m.hSrc h == m.hSrc h') || h == h'

theorem simpleHoleB_iff {F : Type} {m : Mesh F} (w : m.WF) {f : Nat} (c : simpleHoleB m f = true) : m.SimpleHole f := by
  unfold simpleHoleB at c
  simp only [Bool.and_eq_true, decide_eq_true_eq, List.all_eq_true] at c
  obtain ⟨⟨c1, c2⟩, c3⟩ := c
  refine ⟨(w.fDense.mem f).1 c1, c2, ?_⟩
  intro h h' a a' e e' s
  have := c3 h ((w.hDense.mem h).2 a) h' ((w.hDense.mem h').2 a')
  rw [e, e', s] at this
  simpa using this

/-- the faces with a side along the hole are triangles, decided -/
def triHoleB {F : Type} (m : Mesh F) (f : Nat) : Bool :=
  m.hes.all fun h => m.hFace h == f || m.sides (m.hFace h) == 3 || !(m.hes.any fun x => m.hFace x == f && m.hSrc x == m.hSrc h)

theorem triHoleB_iff {F : Type} {m : Mesh F} (w : m.WF) {f : Nat} (c : triHoleB m f = true) :
    ∀ h, m.hAlive h = true → m.hFace h ≠ f → m.CornerOf f (m.hSrc h) → m.CornerOf f (m.hSrc (m.hNext h)) → m.sides (m.hFace h) = 3 := by
  unfold triHoleB at c
  rw [List.all_eq_true] at c
  rintro h a n ⟨x, ax, fx, sx⟩ -
  have := c h ((w.hDense.mem h).2 a)
  simp only [Bool.or_eq_true, beq_iff_eq] at this
  rcases this with (k | k) | k
  · exact absurd k n
  · exact k
  · exfalso
    rw [Bool.not_eq_true', Bool.eq_false_iff] at k
    apply k
    rw [List.any_eq_true]
    exact ⟨x, (w.hDense.mem x).2 ax, by rw [fx, sx]; simp⟩

section
attribute [local instance] Sample.nearScalar

/-- the inner hole of the frame is closed, in more than one round -/
example : ∃ (m m' : Mesh Rat), m.WF ∧ m.SimpleHole 9 ∧ m.sides 9 = 4 ∧ advancingFront 10 9 m = .ok () m' ∧ m.Filled m' 9 := by
  obtain ⟨u, m, l, m1, h1, h2, h3⟩ := thenSt_iff (o := construct frameV frameI fresh) (f := advancingFront 10 9) (p := fun m _ _ =>
    decide (m.sides 9 = 4) && simpleHoleB m 9) (by decide +kernel)
  cases u
  cases l
  have w := (c01_construct_consistent (@Owned.empty Rat Sample.ratScalar _) h1).wf
  rw [Bool.and_eq_true, decide_eq_true_eq] at h3
  have H := simpleHoleB_iff w h3.2
  exact ⟨m, m1, w, H, h3.1, h2, c75_filled_partial w H h2⟩

/-- C77 is false: a corner of the hole moves though it is locked, and a half-edge between two triangles is still marked as a boundary. -/
theorem c77_moves_and_marks : ∃ (m m' : Mesh Rat), m.WF ∧ m.SimpleHole 9 ∧ advancingFront 10 9 m = .ok () m' ∧
    (∃ v, m.CornerOf 9 v ∧ m'.vAlive v = true ∧ m'.vLock v = true ∧ m'.vPos v ≠ m.vPos v) ∧
    ∃ h, m'.hAlive h = true ∧ m'.hBd h = true ∧ m'.hBd (m'.hRev h) = false ∧ m'.sides (m'.hFace h) = 3 ∧ m'.sides (m'.hFace (m'.hRev h)) = 3 := by
  obtain ⟨u, m, l, m1, h1, h2, h3⟩ := thenSt_iff (o := construct frameV frameI fresh) (f := advancingFront 10 9) (p := fun m _ m' =>
    simpleHoleB m 9 && decide (m.hFace 28 = 9 ∧ m.hSrc 28 = 1 ∧ 28 ∈ m.hes ∧ m'.vAlive 1 = true ∧ m'.vLock 1 = true ∧ (m'.vPos 1).x ≠ (m.vPos 1).x ∧
      m'.hAlive 1 = true ∧ m'.hBd 1 = true ∧ m'.hBd (m'.hRev 1) = false ∧ m'.sides (m'.hFace 1) = 3 ∧ m'.sides (m'.hFace (m'.hRev 1)) = 3)) (by decide +kernel)
  cases u
  cases l
  have w := (c01_construct_consistent (@Owned.empty Rat Sample.ratScalar _) h1).wf
  rw [Bool.and_eq_true, decide_eq_true_eq] at h3
  have H := simpleHoleB_iff w h3.1
  obtain ⟨a, b, c, d, e, g, k1, k2, k3, k4, k5⟩ := h3.2
  refine ⟨m, m1, w, H, h2, ⟨1, ⟨28, (w.hDense.mem 28).1 c, a, b⟩, d, e, fun q => g (by rw [q])⟩, 1, k1, k2, k3, k4, k5⟩

end

/-- C77: what is true of it. Vertices that are not corners of the hole do not move, all corners of the hole stay in the mesh and become locked, new
vertices are not locked, and the half-edges of the last triangle and their partners are not marked as boundary. -/
theorem c77_still_partial (w : m.WF) (H : m.SimpleHole f) {fuel : Nat} (e : advancingFront fuel f m = .ok () m') :
    (∀ v, m.vAlive v = true → ¬ m.CornerOf f v → m'.vPos v = m.vPos v) ∧
    (∀ v, m.CornerOf f v → m'.vAlive v = true ∧ m'.vLock v = true) ∧
    (∀ v, m'.vAlive v = true → m.vAlive v = false → m'.vLock v = false) ∧
    ∀ h, m'.hAlive h = true → m'.hFace h = f → m'.hBd h = false ∧ m'.hBd (m'.hRev h) = false := by
  have R := c75_filled_partial w H e
  have al : ∀ v, m.CornerOf f v → m.vAlive v = true := fun v ⟨h, a, _, s⟩ => s ▸ w.src_alive _ a
  refine ⟨R.still, fun v c => ⟨R.vert v (al v c), (R.lock v (R.vert v (al v c))).2 ⟨al v c, .inr c⟩⟩, fun v a d => ?_, R.flag⟩
  rw [Bool.eq_false_iff]
  intro k
  have := ((R.lock v a).1 k).1
  rw [d] at this
  exact absurd this (by simp)

/-! ### The square patch -/

attribute [local instance] Sample.ratScalar

/-- incidences of the square with its centre; face 5 is the outside -/
structure PatchFacts {F : Type} (m : Mesh F) : Prop where
  vs : m.vs = [1, 2, 3, 4, 5]
  fs : m.fs = [1, 2, 3, 4, 5]
  hes : m.hes = [1, 2, 3, 4, 5, 6, 7, 8, 9, 10, 11, 12, 13, 14, 15, 16]
  fHe : m.fs.map m.fHe = [3, 6, 9, 12, 13]
  src : m.hes.map m.hSrc = [1, 2, 3, 1, 3, 4, 1, 4, 5, 1, 5, 2, 3, 4, 5, 2]
  next : m.hes.map m.hNext = [2, 3, 1, 5, 6, 4, 8, 9, 7, 11, 12, 10, 16, 13, 14, 15]
  rev : m.hes.map m.hRev = [12, 13, 4, 3, 14, 7, 6, 15, 10, 9, 16, 1, 2, 5, 8, 11]
  face : m.hes.map m.hFace = [1, 1, 1, 2, 2, 2, 3, 3, 3, 4, 4, 4, 5, 5, 5, 5]

theorem patch_tables : ∃ m : Mesh Rat, m.Good ∧ PatchFacts m ∧ simpleHoleB m 5 = true ∧ triHoleB m 5 = true ∧ m.sides 5 = 4 := by
  obtain ⟨u, m, l, m1, h1, h2, h3⟩ := thenSt_iff (o := construct patchV patchI fresh) (f := fun m => .ok () m) (p := fun m l m' =>
    decide (m.vs = [1, 2, 3, 4, 5] ∧ m.fs = [1, 2, 3, 4, 5] ∧ m.hes = [1, 2, 3, 4, 5, 6, 7, 8, 9, 10, 11, 12, 13, 14, 15, 16] ∧
    m.fs.map m.fHe = [3, 6, 9, 12, 13] ∧
    m.hes.map m.hSrc = [1, 2, 3, 1, 3, 4, 1, 4, 5, 1, 5, 2, 3, 4, 5, 2] ∧
    m.hes.map m.hNext = [2, 3, 1, 5, 6, 4, 8, 9, 7, 11, 12, 10, 16, 13, 14, 15] ∧
    m.hes.map m.hRev = [12, 13, 4, 3, 14, 7, 6, 15, 10, 9, 16, 1, 2, 5, 8, 11] ∧
    m.hes.map m.hFace = [1, 1, 1, 2, 2, 2, 3, 3, 3, 4, 4, 4, 5, 5, 5, 5] ∧ simpleHoleB m 5 = true ∧ triHoleB m 5 = true ∧ m.sides 5 = 4)) (by decide +kernel)
  cases u
  obtain ⟨a, b, c, d, e, f, g, h, i, j, k⟩ := of_decide_eq_true h3
  exact ⟨m, c01_construct_consistent (Owned.empty _) h1, ⟨a, b, c, d, e, f, g, h⟩, i, j, k⟩

/-- the corners of the square -/
def patchAt (v : Nat) : Vec3 ℝ :=
  if v = 1 then ⟨0, 0, 0⟩ else if v = 2 then ⟨1, 1, 0⟩ else if v = 3 then ⟨-1, 1, 0⟩ else if v = 4 then ⟨-1, -1, 0⟩ else ⟨1, -1, 0⟩

theorem PatchFacts.areaVec {F : Type} {m : Mesh F} (C : PatchFacts m) :
    m.areaVec (fun v => (patchAt v).E) 1 = (⟨0, 0, 2⟩ : Vec3 ℝ).E ∧ m.areaVec (fun v => (patchAt v).E) 2 = (⟨0, 0, 2⟩ : Vec3 ℝ).E ∧
    m.areaVec (fun v => (patchAt v).E) 3 = (⟨0, 0, 2⟩ : Vec3 ℝ).E ∧ m.areaVec (fun v => (patchAt v).E) 4 = (⟨0, 0, 2⟩ : Vec3 ℝ).E := by
  obtain ⟨a, b, c, d, e, f, g, h⟩ := C
  rw [c] at e f g h
  rw [b] at d
  simp only [List.map_cons, List.map_nil, List.cons.injEq, and_true] at d e f g h
  simp only [Mesh.areaVec, triNormal_E, d, e, f, patchAt]
  norm_num [Vec3.cross, Vec3.sub_def]

theorem unitOf_up : unitOf (⟨0, 0, 2⟩ : Vec3 ℝ).E = (⟨0, 0, 1⟩ : Vec3 ℝ).E := by
  unfold unitOf
  rw [Vec3.E_norm, ← Vec3.E_smul]
  have : Vec3.length (⟨0, 0, 2⟩ : Vec3 ℝ) = 2 := by
    rw [Vec3.length_def, Vec3.dot_def]; norm_num
    rw [show (4 : ℝ) = 2 ^ 2 by norm_num, Real.sqrt_sq (by norm_num)]
  rw [this]
  congr 1
  apply Vec3.ext' <;> norm_num [Vec3.smul]

/-- all four angles of the outside are 270 degrees -/
theorem PatchFacts.open {F : Type} {m : Mesh F} (C : PatchFacts m) {a : Nat} (ha : a = 13 ∨ a = 14 ∨ a = 15 ∨ a = 16) :
    m.openAngle (fun v => (patchAt v).E) a = 2 * Real.pi - Real.pi / 2 := by
  obtain ⟨a1, a2, a3, a4⟩ := C.areaVec
  obtain ⟨-, b, c, d, e, f, g, h⟩ := C
  rw [c] at e f g h
  simp only [List.map_cons, List.map_nil, List.cons.injEq, and_true] at d e f g h
  have ang : ∀ x y z : Vec3 ℝ, (x.sub y).dot (z.sub y) = 0 → EuclideanGeometry.angle x.E y.E z.E = Real.pi / 2 := by
    intro x y z k
    unfold EuclideanGeometry.angle
    rw [vsub_eq_sub, vsub_eq_sub, ← InnerProductGeometry.inner_eq_zero_iff_angle_eq_pi_div_two, ← Vec3.E_sub, ← Vec3.E_sub, Vec3.E_inner]
    exact k
  have neg : ∀ x y z : Vec3 ℝ, (x.sub y).dot (z.sub y) = 0 → ((z.sub y).cross (x.sub y)).z < 0 →
      (if 0 ≤ inner ℝ (triNormal y.E z.E x.E) ((⟨0, 0, 1⟩ : Vec3 ℝ).E + (⟨0, 0, 1⟩ : Vec3 ℝ).E) then EuclideanGeometry.angle x.E y.E z.E
        else 2 * Real.pi - EuclideanGeometry.angle x.E y.E z.E) = 2 * Real.pi - Real.pi / 2 := by
    intro x y z k1 k2
    rw [ang x y z k1, if_neg]
    rw [triNormal_E, ← Vec3.E_add, Vec3.E_inner, Vec3.dot_def]
    simp only [Vec3.add_def, not_le]
    linarith
  unfold Mesh.openAngle
  dsimp only
  rcases ha with rfl | rfl | rfl | rfl
  · simp only [f, e, g, h, a1, a2, a3, a4, unitOf_up]
    apply neg <;> norm_num [patchAt, Vec3.sub_def, Vec3.dot_def, Vec3.cross_def]
  · simp only [f, e, g, h, a1, a2, a3, a4, unitOf_up]
    apply neg <;> norm_num [patchAt, Vec3.sub_def, Vec3.dot_def, Vec3.cross_def]
  · simp only [f, e, g, h, a1, a2, a3, a4, unitOf_up]
    apply neg <;> norm_num [patchAt, Vec3.sub_def, Vec3.dot_def, Vec3.cross_def]
  · simp only [f, e, g, h, a1, a2, a3, a4, unitOf_up]
    apply neg <;> norm_num [patchAt, Vec3.sub_def, Vec3.dot_def, Vec3.cross_def]

/-- the hypotheses of `c75_outcome` and `c76_round` hold for the outside of the square -/
example : ∃ (m m1 : Mesh XR) (p : Nat → E3), m.WF ∧ m.SimpleHole 5 ∧ m.AtE p ∧
    (∀ h, m.hAlive h = true → m.hFace h ≠ 5 → m.CornerOf 5 (m.hSrc h) → m.CornerOf 5 (m.hSrc (m.hNext h)) → m.sides (m.hFace h) = 3) ∧
    (∃ h, m.hAlive h = true ∧ m.hFace h ≠ 5 ∧ m.CornerOf 5 (m.hSrc h) ∧ m.CornerOf 5 (m.hSrc (m.hNext h))) ∧
    frontLock 5 m = .ok () m1 ∧ FrontReached 5 (.fin (m.meanLen p)) m1 m1 ∧ 4 ≤ m1.sides 5 := by
  obtain ⟨m0, G0, C0, c1, c2, c3⟩ := patch_tables
  have w : (m0.overR patchAt).WF := (G0.over _).wf
  have H := simpleHoleB_iff w (f := 5) (m := m0.overR patchAt) c1
  refine ⟨m0.overR patchAt, _, fun v => (patchAt v).E, w, H, fun v _ => ⟨_, rfl, rfl⟩, triHoleB_iff w c2, ?_, frontLock_ok w H.alive, .start, c3.ge⟩
  obtain ⟨-, b, c, d, e, f, g, h⟩ := C0
  have al : ∀ x, x ∈ m0.hes → (m0.overR patchAt).hAlive x = true := fun x hx => (w.hDense.mem x).1 hx
  rw [c] at al
  rw [c] at e f g h
  simp only [List.map_cons, List.map_nil, List.cons.injEq, and_true] at d e f g h
  have al2 := al 2 (by simp)
  have al13 := al 13 (by simp)
  have al16 := al 16 (by simp)
  refine ⟨2, al2, ?_, ⟨16, al16, ?_, ?_⟩, 13, al13, ?_, ?_⟩ <;> dsimp only [Mesh.overR, Mesh.over] <;> simp only [e, f, g, h] <;> omega

section
/-- a triangle with its centre; face 4 is the outside -/
example : ∃ m : Mesh Rat, m.WF ∧ m.SimpleHole 4 ∧ m.sides 4 = 3 := by
  obtain ⟨u, m, l, m1, h1, h2, h3⟩ := thenSt_iff (o := construct [pt 0 0 0, pt 2 0 0, pt (-1) 2 0, pt (-1) (-2) 0] [0, 1, 2, 0, 2, 3, 0, 3, 1] fresh)
    (f := fun m => .ok () m) (p := fun m _ _ => simpleHoleB m 4 && decide (m.sides 4 = 3)) (by decide +kernel)
  cases u
  have w := (c01_construct_consistent (Owned.empty _) h1).wf
  rw [Bool.and_eq_true, decide_eq_true_eq] at h3
  exact ⟨m, w, simpleHoleB_iff w h3.1, h3.2⟩
end

/-- with two perpendicular sides of length two -/
theorem third_square (x y z : Vec3 ℝ) (k : (x.sub y).dot (z.sub y) = 0) (kx : (x.sub y).dot (x.sub y) = 4) (kz : (z.sub y).dot (z.sub y) = 4) :
    ∃ s : ℝ, 2 / 5 < s ∧ s < 1 / 2 ∧ thirdPlace x.E y.E z.E = (y.add (((x.sub y).smul 2 |>.add (z.sub y)).smul s)).E := by
  have two : Real.sqrt 4 = 2 := by rw [show (4 : ℝ) = 2 ^ 2 by norm_num, Real.sqrt_sq (by norm_num)]
  have hx : dist x.E y.E = 2 := by rw [Vec3.E_dist, Vec3.length_def, kx, two]
  have hz : dist z.E y.E = 2 := by rw [Vec3.E_dist, Vec3.length_def, kz, two]
  have q : 0 < Real.sqrt 20 := Real.sqrt_pos.2 (by norm_num)
  refine ⟨2 / Real.sqrt 20, ?_, ?_, ?_⟩
  · rw [div_lt_div_iff₀ (by norm_num) q]
    have : Real.sqrt 20 < 5 := by rw [Real.sqrt_lt' (by norm_num)]; norm_num
    linarith
  · rw [div_lt_div_iff₀ q (by norm_num)]
    have : 4 < Real.sqrt 20 := by rw [Real.lt_sqrt (by norm_num)]; norm_num
    linarith
  · unfold thirdPlace unitOf
    have n : ‖(2 : ℝ) • (x.E - y.E) + (z.E - y.E)‖ = Real.sqrt 20 := by
      rw [← Vec3.E_sub, ← Vec3.E_sub, ← Vec3.E_smul, ← Vec3.E_add, Vec3.E_norm, Vec3.length_def]
      congr 1
      simp only [Vec3.dot_def, Vec3.add_def, Vec3.smul] at k kx kz ⊢
      linarith
    rw [n, hx, hz, ← Vec3.E_sub, ← Vec3.E_sub, ← Vec3.E_smul, ← Vec3.E_add, smul_smul, ← Vec3.E_smul, ← Vec3.E_add, div_eq_mul_inv 2]
    norm_num

/-- C78 is false: the outside of a flat square is a simple hole with four angles of 270 degrees. The first round puts both new vertices inside the
square, over the triangles that are there. -/
theorem c78_wrong_side : ∃ (m m1 m2 : Mesh XR) (L : ℝ), m.Good ∧ m.SimpleHole 5 ∧ m.AtE (fun v => (patchAt v).E) ∧ meanEdgeLength m = .ok (.fin L) m ∧
    frontLock 5 m = .ok () m1 ∧ frontRound 5 (.fin L) m1 = .ok false m2 ∧ (∀ a, m.hAlive a = true → m.hFace a = 5 → m.openAngle (fun v => (patchAt v).E) a = 2 * Real.pi - Real.pi / 2) ∧
    ∃ v w, v ≠ w ∧ m.vAlive v = false ∧ m.vAlive w = false ∧ m2.vAlive v = true ∧ m2.vAlive w = true ∧ ∀ u, u = v ∨ u = w → ∃ a b : ℝ, |a| < 1 ∧ |b| < 1 ∧
      (m2.vPos u).Is (⟨a, b, 0⟩ : Vec3 ℝ).E := by
  obtain ⟨m0, G0, C0, c1, c2, c3⟩ := patch_tables
  have G : (m0.overR patchAt).Good := G0.over _
  have C : PatchFacts (m0.overR patchAt) := ⟨C0.1, C0.2, C0.3, C0.4, C0.5, C0.6, C0.7, C0.8⟩
  have H : (m0.overR patchAt).SimpleHole 5 := simpleHoleB_iff G.wf c1
  have T := triHoleB_iff G.wf (f := 5) (m := m0.overR patchAt) c2
  have n4 : (m0.overR patchAt).sides 5 = 4 := c3
  have A : (m0.overR patchAt).AtE (fun v => (patchAt v).E) := fun v _ => ⟨_, rfl, rfl⟩
  generalize m0.overR patchAt = m at G C H T n4 A
  have loops : ∀ a, m.hAlive a = true → m.hFace a = 5 → a = 13 ∨ a = 14 ∨ a = 15 ∨ a = 16 := by
    intro a aa fa
    have := (G.wf.hDense.mem a).2 aa
    obtain ⟨-, b, c, d, e, f, g, h⟩ := C
    rw [c] at this h
    simp only [List.map_cons, List.map_nil, List.cons.injEq, and_true] at h
    simp only [List.mem_cons, List.not_mem_nil, or_false] at this
    rcases this with rfl | rfl | rfl | rfl | rfl | rfl | rfl | rfl | rfl | rfl | rfl | rfl | rfl | rfl | rfl | rfl <;> omega
  have opn : ∀ a, m.hAlive a = true → m.hFace a = 5 → m.openAngle (fun v => (patchAt v).E) a = 2 * Real.pi - Real.pi / 2 :=
    fun a aa fa => C.open (loops a aa fa)
  have lk : frontLock 5 m = .ok () (m.lockHole 5) := frontLock_ok G.wf H.alive
  obtain ⟨S, locked⟩ := lockHole_start G.wf H
  obtain ⟨-, R⟩ := c76_round (L := m.meanLen (fun v => (patchAt v).E)) G.wf H A T lk .start (by exact n4.ge)
  have ne : m.hes ≠ [] := by rw [C.hes]; simp
  have av := C.areaVec
  have up : (⟨0, 0, 2⟩ : Vec3 ℝ).E ≠ 0 := fun h => by
    have := congrArg (fun x : E3 => x 2) h
    simp at this
  rcases R (fun v => (patchAt v).E) A with ⟨m3, e3, R⟩ | ⟨e3, a, aa, fa, bad⟩
  · refine ⟨m, _, m3, _, G, H, A, meanEdgeLength_exact G.wf A ne, lk, e3, opn, ?_⟩
    rcases R with ⟨b, x, ab, fb, nb, -⟩ | ⟨-, a, aa, fa, mn, R⟩
    · exact absurd (locked b ab fb) (by rw [nb.1]; simp)
    have oa : (m.lockHole 5).openAngle (fun v => (patchAt v).E) a = 2 * Real.pi - Real.pi / 2 := opn a aa fa
    have pp := Real.pi_pos
    rcases R with ⟨l, -⟩ | ⟨-, l, -⟩ | ⟨-, v, w, t, pv, pw⟩
    · rw [oa] at l; linarith
    · rw [oa] at l; linarith
    refine ⟨v, w, t.vert.1, t.vert.2.1, t.vert.2.2.1, (t.vert.2.2.2 v).2 (.inl rfl), (t.vert.2.2.2 w).2 (.inr (.inl rfl)), ?_⟩
    have key : ∀ x y z : Vec3 ℝ, (x.sub y).dot (z.sub y) = 0 → (x.sub y).dot (x.sub y) = 4 → (z.sub y).dot (z.sub y) = 4 → y.z = 0 → x.z = 0 → z.z = 0 →
        (∀ s : ℝ, 2 / 5 < s → s < 1 / 2 → |y.x + s * (2 * (x.x - y.x) + (z.x - y.x))| < 1 ∧ |y.y + s * (2 * (x.y - y.y) + (z.y - y.y))| < 1) →
        ∃ a b : ℝ, |a| < 1 ∧ |b| < 1 ∧ thirdPlace x.E y.E z.E = (⟨a, b, 0⟩ : Vec3 ℝ).E := by
      intro x y z k1 k2 k3 z1 z2 z3 cs
      obtain ⟨s, l1, l2, e⟩ := third_square x y z k1 k2 k3
      refine ⟨_, _, (cs s l1 l2).1, (cs s l1 l2).2, e.trans (congrArg _ (Vec3.ext' ?_ ?_ ?_))⟩ <;> simp only [Vec3.add_def, Vec3.smul, Vec3.sub_def, z1, z2, z3] <;> ring
    have fin : ∀ x y z : Vec3 ℝ, x = (patchAt (m.hSrc a)) → y = patchAt (m.hSrc (m.hNext a)) → z = patchAt (m.hSrc (m.hNext (m.hNext a))) →
        (∃ a b : ℝ, |a| < 1 ∧ |b| < 1 ∧ thirdPlace x.E y.E z.E = (⟨a, b, 0⟩ : Vec3 ℝ).E) ∧ ∃ a b : ℝ, |a| < 1 ∧ |b| < 1 ∧ thirdPlace z.E y.E x.E = (⟨a, b, 0⟩ : Vec3 ℝ).E := by
      have la := loops a aa fa
      obtain ⟨-, b, c, d, e, f, g, h⟩ := C
      rw [c] at e f g h
      simp only [List.map_cons, List.map_nil, List.cons.injEq, and_true] at d e f g h
      rcases la with rfl | rfl | rfl | rfl <;> simp only [f, e] <;> rintro _ _ _ rfl rfl rfl <;> constructor <;> apply key <;>
        norm_num [patchAt, Vec3.sub_def, Vec3.dot_def, abs_lt] <;> intro s _ _ <;> refine ⟨⟨?_, ?_⟩, ?_, ?_⟩ <;> linarith
    obtain ⟨⟨a1, b1, l1, l2, e1⟩, a2, b2, l3, l4, e2⟩ := fin _ _ _ rfl rfl rfl
    rintro u (rfl | rfl)
    · exact ⟨a1, b1, l1, l2, e1 ▸ pv⟩
    · exact ⟨a2, b2, l3, l4, e2 ▸ pw⟩
  · exfalso
    have la := loops a aa fa
    have bad : m.areaVec (fun v => (patchAt v).E) (m.hFace (m.hRev a)) = 0 ∨ unitOf (m.areaVec (fun v => (patchAt v).E) (m.hFace (m.hRev a))) + unitOf (m.areaVec (fun v => (patchAt v).E) (m.hFace (m.hRev (m.hNext a)))) = 0 ∨
       ((2 : ℝ) • ((patchAt (m.hSrc a)).E - (patchAt (m.hSrc (m.hNext a))).E) + ((patchAt (m.hSrc (m.hNext (m.hNext a)))).E - (patchAt (m.hSrc (m.hNext a))).E) = 0 ∨
        ((patchAt (m.hSrc a)).E - (patchAt (m.hSrc (m.hNext a))).E) + (2 : ℝ) • ((patchAt (m.hSrc (m.hNext (m.hNext a)))).E - (patchAt (m.hSrc (m.hNext a))).E) = 0) := bad
    obtain ⟨-, b, c, d, e, f, g, h⟩ := C
    rw [c] at e f g h
    simp only [List.map_cons, List.map_nil, List.cons.injEq, and_true] at d e f g h
    have nz : ∀ x : Vec3 ℝ, (x.x ≠ 0 ∨ x.z ≠ 0) → x.E ≠ 0 := fun x k q => by
      have q0 := congrArg (fun x : E3 => x 0) q
      have q2 := congrArg (fun x : E3 => x 2) q
      simp at q0 q2
      rcases k with k | k
      · exact k q0
      · exact k q2
    obtain ⟨a1, a2, a3, a4⟩ := av
    rcases la with rfl | rfl | rfl | rfl <;> simp only [f, e, g, h, a1, a2, a3, a4, unitOf_up, ← Vec3.E_add, ← Vec3.E_sub, ← Vec3.E_smul] at bad <;>
      rcases bad with bad | bad | bad | bad <;> revert bad <;> refine nz _ ?_ <;> norm_num [patchAt, Vec3.sub_def, Vec3.add_def, Vec3.smul]

/-- C78: the distance of a new vertex from the corner is the mean of the lengths of the sides. -/
theorem c78_distance {x y z : E3} : ((x - y) + (z - y) ≠ 0 → dist (midPlace x y z) y = (dist x y + dist z y) / 2) ∧
    ((2 : ℝ) • (x - y) + (z - y) ≠ 0 → dist (thirdPlace x y z) y = (2 * dist x y + dist z y) / 3) := by
  constructor <;> intro h
  · rw [midPlace, dist_eq_norm, add_sub_cancel_left, norm_smul, unit_norm h, mul_one, Real.norm_of_nonneg (by positivity)]
  · rw [thirdPlace, dist_eq_norm, add_sub_cancel_left, norm_smul, unit_norm h, mul_one, Real.norm_of_nonneg (by positivity)]

/-- C78: if the two sides have the same length, one new vertex lies on the line that halves the angle. -/
theorem c78_bisector_partial {x y z : E3} (e : dist x y = dist z y) (xy : x ≠ y) (h : (x - y) + (z - y) ≠ 0) :
    ∠ x y (midPlace x y z) = ∠ z y (midPlace x y z) := by
  have d : 0 < (dist x y + dist z y) / 2 := by have := dist_pos.2 xy; rw [← e]; linarith
  have n : 0 < ‖(x - y) + (z - y)‖⁻¹ := inv_pos.2 (norm_pos_iff.2 h)
  unfold EuclideanGeometry.angle midPlace unitOf
  simp only [vsub_eq_sub, add_sub_cancel_left]
  rw [InnerProductGeometry.angle_smul_right_of_pos _ _ d, InnerProductGeometry.angle_smul_right_of_pos _ _ d,
    InnerProductGeometry.angle_smul_right_of_pos _ _ n, InnerProductGeometry.angle_smul_right_of_pos _ _ n]
  have e' : ‖x - y‖ = ‖z - y‖ := by rw [← dist_eq_norm, ← dist_eq_norm, e]
  unfold InnerProductGeometry.angle
  rw [inner_add_right, inner_add_right, real_inner_self_eq_norm_sq, real_inner_self_eq_norm_sq, e', real_inner_comm (x - y)]
  rw [add_comm]

/-- C78: if one side is twice as long as the other, the new vertex is not on the line that halves the angle. -/
theorem c78_not_bisector : ∃ x y z : E3, x ≠ y ∧ z ≠ y ∧ ∠ x y z = Real.pi / 2 ∧ ∠ x y (midPlace x y z) < ∠ z y (midPlace x y z) := by
  have q : 0 < Real.sqrt 5 := Real.sqrt_pos.2 (by norm_num)
  have q5 : Real.sqrt 5 * Real.sqrt 5 = 5 := Real.mul_self_sqrt (by norm_num)
  have q1 : 1 < Real.sqrt 5 := by rw [Real.lt_sqrt (by norm_num)]; norm_num
  have q2 : 2 < Real.sqrt 5 := by rw [Real.lt_sqrt (by norm_num)]; norm_num
  have nx : ‖(⟨2, 0, 0⟩ : Vec3 ℝ).E - 0‖ = 2 := by
    rw [sub_zero, Vec3.E_norm, Vec3.length_def, Vec3.dot_def, show (2 * 2 + 0 * 0 + 0 * 0 : ℝ) = 2 ^ 2 by norm_num, Real.sqrt_sq (by norm_num)]
  have nz : ‖(⟨0, 1, 0⟩ : Vec3 ℝ).E - 0‖ = 1 := by
    rw [sub_zero, Vec3.E_norm, Vec3.length_def, Vec3.dot_def, show (0 * 0 + 1 * 1 + 0 * 0 : ℝ) = 1 by norm_num, Real.sqrt_one]
  have ns : ‖((⟨2, 0, 0⟩ : Vec3 ℝ).E - 0) + ((⟨0, 1, 0⟩ : Vec3 ℝ).E - 0)‖ = Real.sqrt 5 := by
    rw [sub_zero, sub_zero, ← Vec3.E_add, Vec3.E_norm, Vec3.length_def]
    congr 1
    norm_num [Vec3.dot_def, Vec3.add_def]
  have i0 : inner ℝ ((⟨2, 0, 0⟩ : Vec3 ℝ).E - 0) ((⟨0, 1, 0⟩ : Vec3 ℝ).E - 0) = 0 := by
    rw [sub_zero, sub_zero, Vec3.E_inner, Vec3.dot_def]; norm_num
  refine ⟨(⟨2, 0, 0⟩ : Vec3 ℝ).E, 0, (⟨0, 1, 0⟩ : Vec3 ℝ).E, ?_, ?_, ?_, ?_⟩
  · intro h; rw [h] at nx; norm_num at nx
  · intro h; rw [h] at nz; norm_num at nz
  · exact InnerProductGeometry.inner_eq_zero_iff_angle_eq_pi_div_two _ _ |>.1 i0
  have d : 0 < (dist (⟨2, 0, 0⟩ : Vec3 ℝ).E 0 + dist (⟨0, 1, 0⟩ : Vec3 ℝ).E 0) / 2 := by
    rw [dist_eq_norm, dist_eq_norm, nx, nz]; norm_num
  have n : 0 < ‖((⟨2, 0, 0⟩ : Vec3 ℝ).E - 0) + ((⟨0, 1, 0⟩ : Vec3 ℝ).E - 0)‖⁻¹ := by rw [ns]; exact inv_pos.2 q
  unfold EuclideanGeometry.angle midPlace unitOf
  simp only [vsub_eq_sub, add_sub_cancel_left]
  rw [InnerProductGeometry.angle_smul_right_of_pos _ _ d, InnerProductGeometry.angle_smul_right_of_pos _ _ d,
    InnerProductGeometry.angle_smul_right_of_pos _ _ n, InnerProductGeometry.angle_smul_right_of_pos _ _ n]
  unfold InnerProductGeometry.angle
  rw [inner_add_right, inner_add_right, real_inner_self_eq_norm_sq, real_inner_self_eq_norm_sq, i0, real_inner_comm, i0, nx, nz, ns]
  apply Real.strictAntiOn_arccos
  · constructor
    · have : 0 ≤ (0 + 1 ^ 2) / (1 * Real.sqrt 5) := by positivity
      linarith
    · rw [div_le_one (by linarith)]; linarith
  · constructor
    · have : 0 ≤ (2 ^ 2 + 0) / (2 * Real.sqrt 5) := by positivity
      linarith
    · rw [div_le_one (by linarith)]; linarith
  · rw [div_lt_div_iff₀ (by linarith) (by linarith)]; linarith

/-- sides of equal length with a right angle -/
example : ∃ x y z : E3, dist x y = dist z y ∧ x ≠ y ∧ (x - y) + (z - y) ≠ 0 ∧ (2 : ℝ) • (x - y) + (z - y) ≠ 0 := by
  have ne : ∀ x : Vec3 ℝ, x.y ≠ 0 → x.E ≠ 0 := fun x k q => by
    have q0 := congrArg (fun x : E3 => x 1) q
    simp at q0
    exact k q0
  refine ⟨(⟨1, 0, 0⟩ : Vec3 ℝ).E, (⟨0, 0, 0⟩ : Vec3 ℝ).E, (⟨0, 1, 0⟩ : Vec3 ℝ).E, ?_, ?_, ?_, ?_⟩
  · norm_num [Vec3.E_dist, Vec3.length_def, Vec3.dot_def, Vec3.sub_def]
  · intro h
    have := congrArg (fun x : E3 => x 0) h
    simp at this
  · rw [← Vec3.E_sub, ← Vec3.E_sub, ← Vec3.E_add]
    exact ne _ (by norm_num [Vec3.sub_def, Vec3.add_def])
  · rw [← Vec3.E_sub, ← Vec3.E_sub, ← Vec3.E_smul, ← Vec3.E_add]
    exact ne _ (by norm_num [Vec3.sub_def, Vec3.add_def, Vec3.smul])

end TinyMesh
