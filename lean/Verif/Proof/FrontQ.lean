import Verif.Proof.FrontP
/-
One round over the reals.
-/
namespace TinyMesh
open Orbit EuclideanGeometry
variable {m0 m m' : Mesh XR} {f : Nat} {p : Nat → E3}

theorem triNormal_zero (x y z : E3) : triNormal 0 (z - y) (x - y) = triNormal y z x := by
  unfold triNormal; rw [sub_zero, sub_zero]

theorem orbit_three {k : Nat → Nat} {h : Nat} (e : (orbit k h).length = 3) : orbit k h = [h, k h, k (k h)] := by
  rw [length_orbit] at e
  unfold orbit
  rw [e]
  rfl

/-- the normal of a triangle -/
theorem frontNormal_exact (A : m.AtE p) (w : m.WF) {g : Nat} (ag : m.fAlive g = true) (s : m.sides g = 3) :
    (m.areaVec p g = 0 → m.frontNormal? g = none) ∧
    (m.areaVec p g ≠ 0 → ∃ n, m.frontNormal? g = some n ∧ n.Is (unitOf (m.areaVec p g))) := by
  obtain ⟨a0, e0⟩ := w.fHe_ok g ag
  have a1 := w.next_alive _ a0
  have a2 := w.next_alive _ a1
  have o := orbit_three ((w.loop_length ag).trans s)
  have h0 := A _ (w.src_alive _ a0)
  have h1 := A _ (w.src_alive _ a1)
  have h2 := A _ (w.src_alive _ a2)
  have z : (Vec3.zero : Vec3 XR).Is 0 := by
    refine ⟨Vec3.zero, ?_, ?_⟩
    · simp [Vec3.zero, Vec3.fin, X_lit, R_lit0]
    · ext i; fin_cases i <;> simp [Vec3.zero, Vec3.E, R_lit0]
  set P0 := p (m.hSrc (m.fHe g)) with hP0
  set P1 := p (m.hSrc (m.hNext (m.fHe g))) with hP1
  set P2 := p (m.hSrc (m.hNext (m.hNext (m.fHe g)))) with hP2
  have key : (normalSum (((orbit m.hNext (m.fHe g)).map m.hSrc).map m.vPos) (List.range (((orbit m.hNext (m.fHe g)).map m.hSrc).map m.vPos).length)
      Vec3.zero).Is ((3 : ℝ) • m.areaVec p g) := by
    rw [o]
    have r : List.range (([m.fHe g, m.hNext (m.fHe g), m.hNext (m.hNext (m.fHe g))].map m.hSrc).map m.vPos).length = [0, 1, 2] := rfl
    rw [r]
    have c := ((z.add ((h1.sub h0).cross (h2.sub h0))).add ((h2.sub h1).cross (h0.sub h1))).add ((h0.sub h2).cross (h1.sub h2))
    have e : (3 : ℝ) • m.areaVec p g = 0 + triNormal 0 (P1 - P0) (P2 - P0) + triNormal 0 (P2 - P1) (P0 - P1) + triNormal 0 (P0 - P2) (P1 - P2) := by
      rw [triNormal_zero, triNormal_zero, triNormal_zero, ← triNormal_rot P0 P1 P2, ← triNormal_rot P2 P0 P1, triNormal_rot P0 P1 P2]
      show (3 : ℝ) • triNormal P0 P1 P2 = _
      rw [← triNormal_rot P0 P1 P2]
      module
    rw [e]
    simp only [normalSum, List.map_cons, List.map_nil, List.length_cons, List.length_nil]
    exact c
  unfold Mesh.frontNormal?
  dsimp only
  constructor
  · intro e
    rw [e, smul_zero] at key
    exact Vec3.Is.normalize_zero key
  · intro e
    obtain ⟨n, k1, k2⟩ := key.normalize (smul_ne_zero (by norm_num) e)
    rw [unitOf_smul (by norm_num)] at k2
    exact ⟨n, k1, k2⟩

/-- two corners of a triangle with positive area are different -/
theorem corners_ne (w : m.WF) {h : Nat} (a : m.hAlive h = true) (s : m.sides (m.hFace h) = 3) (z : m.areaVec p (m.hFace h) ≠ 0) :
    p (m.hSrc h) ≠ p (m.hSrc (m.hNext h)) := by
  have ag := w.face_alive _ a
  obtain ⟨a0, e0⟩ := w.fHe_ok _ ag
  have o := orbit_three ((w.loop_length ag).trans s)
  have mem : h ∈ orbit m.hNext (m.fHe (m.hFace h)) := ((w.faceLoop ag).mem h).2 ⟨a, rfl⟩
  have cyc : m.hNext (m.hNext (m.hNext (m.fHe (m.hFace h)))) = m.fHe (m.hFace h) := by
    have ps := (w.permNext.period_spec a0).2.1
    have : period m.hNext (m.fHe (m.hFace h)) = 3 := by rw [← length_orbit]; exact (w.loop_length ag).trans s
    rw [this] at ps
    exact ps
  rw [o] at mem
  intro e
  apply z
  unfold Mesh.areaVec
  have d1 : ∀ x y : E3, triNormal x x y = 0 := by intro x y; unfold triNormal; simp
  have d2 : ∀ x y : E3, triNormal x y y = 0 := by intro x y; unfold triNormal; simp
  have d3 : ∀ x y : E3, triNormal x y x = 0 := by intro x y; unfold triNormal; simp
  rcases (by simpa using mem : h = m.fHe (m.hFace h) ∨ h = m.hNext (m.fHe (m.hFace h)) ∨ h = m.hNext (m.hNext (m.fHe (m.hFace h)))) with k | k | k
  · have e' : p (m.hSrc (m.fHe (m.hFace h))) = p (m.hSrc (m.hNext (m.fHe (m.hFace h)))) := by rw [← k]; exact e
    rw [e', d1]
  · have e' : p (m.hSrc (m.hNext (m.fHe (m.hFace h)))) = p (m.hSrc (m.hNext (m.hNext (m.fHe (m.hFace h))))) := by rw [← k]; exact e
    rw [e', d2]
  · have e' : p (m.hSrc (m.hNext (m.hNext (m.fHe (m.hFace h))))) = p (m.hSrc (m.fHe (m.hFace h))) := by rw [← k, e, k, cyc, ← k]
    rw [e', d3]

/-- all faces behind the front are triangles -/
def Mesh.TriBehind (m : Mesh XR) (f : Nat) : Prop :=
  ∀ h, m.hAlive h = true → m.hFace h = f → m.hFace (m.hRev h) ≠ f ∧ m.sides (m.hFace (m.hRev h)) = 3

theorem frontAngle_exact (A : m.AtE p) (w : m.WF) {hs : List Nat} {pp prev i next qq p1 a b q : Nat} (C : Corner m f hs pp prev i next qq p1 a b q)
    (T : m.TriBehind f) {t : XR} (e : m.frontAngle? a b q = some t) : t = .fin (m.openAngle p a) := by
  have ra := w.rev_alive _ C.aa
  have rb := w.rev_alive _ C.ab
  obtain ⟨na0, na1⟩ := frontNormal_exact A w (w.face_alive _ ra) (T a C.aa C.fa).2
  obtain ⟨nb0, nb1⟩ := frontNormal_exact A w (w.face_alive _ rb) (T b C.ab C.fb).2
  unfold Mesh.frontAngle? at e
  by_cases za : m.areaVec p (m.hFace (m.hRev a)) = 0
  · rw [na0 za] at e; exact absurd e (by simp)
  by_cases zb : m.areaVec p (m.hFace (m.hRev b)) = 0
  · rw [nb0 zb] at e
    revert e
    cases m.frontNormal? (m.hFace (m.hRev a)) <;> simp
  obtain ⟨n1, k1, k2⟩ := na1 za
  obtain ⟨n2, l1, l2⟩ := nb1 zb
  rw [k1, l1] at e
  dsimp only at e
  rw [Option.map_eq_some_iff] at e
  obtain ⟨n, e1, e2⟩ := e
  have hsum := k2.add l2
  by_cases zs : unitOf (m.areaVec p (m.hFace (m.hRev a))) + unitOf (m.areaVec p (m.hFace (m.hRev b))) = 0
  · rw [zs] at hsum
    rw [Vec3.Is.normalize_zero hsum] at e1
    exact absurd e1 (by simp)
  obtain ⟨n', e3, hn⟩ := hsum.normalize zs
  rw [e3] at e1
  have := Option.some.inj e1
  subst this
  have sra : m.hSrc (m.hRev a) = m.hSrc b := by rw [w.src_rev _ C.aa, C.na]
  have nra : m.hSrc (m.hNext (m.hRev a)) = m.hSrc a := by rw [← w.src_rev _ ra, w.rev_rev _ C.aa]
  have srb : m.hSrc (m.hRev b) = m.hSrc q := by rw [w.src_rev _ C.ab, C.nb]
  have nrb : m.hSrc (m.hNext (m.hRev b)) = m.hSrc b := by rw [← w.src_rev _ rb, w.rev_rev _ C.ab]
  have h1 : p (m.hSrc a) ≠ p (m.hSrc b) := by
    have := corners_ne (p := p) w ra (T a C.aa C.fa).2 za
    rw [sra, nra] at this
    exact this.symm
  have h2 : p (m.hSrc q) ≠ p (m.hSrc b) := by
    have := corners_ne (p := p) w rb (T b C.ab C.fb).2 zb
    rw [srb, nrb] at this
    exact this
  rw [← e2, theta_exact hn (A _ (w.src_alive _ C.aa)) (A _ (w.src_alive _ C.ab)) (A _ (w.src_alive _ C.aq)) h1 h2]
  unfold Mesh.openAngle
  dsimp only
  rw [C.na, C.nb, triNormal_zero]
  congr 1
  have pos : 0 < ‖unitOf (m.areaVec p (m.hFace (m.hRev a))) + unitOf (m.areaVec p (m.hFace (m.hRev b)))‖⁻¹ := inv_pos.2 (norm_pos_iff.2 zs)
  have iff : (0 ≤ inner ℝ (triNormal (p (m.hSrc b)) (p (m.hSrc q)) (p (m.hSrc a)))
      (unitOf (unitOf (m.areaVec p (m.hFace (m.hRev a))) + unitOf (m.areaVec p (m.hFace (m.hRev b)))))) ↔
      0 ≤ inner ℝ (triNormal (p (m.hSrc b)) (p (m.hSrc q)) (p (m.hSrc a)))
        (unitOf (m.areaVec p (m.hFace (m.hRev a))) + unitOf (m.areaVec p (m.hFace (m.hRev b)))) := by
    rw [unitOf, inner_smul_right]
    exact mul_nonneg_iff_of_pos_left pos
  by_cases c : 0 ≤ inner ℝ (triNormal (p (m.hSrc b)) (p (m.hSrc q)) (p (m.hSrc a)))
      (unitOf (m.areaVec p (m.hFace (m.hRev a))) + unitOf (m.areaVec p (m.hFace (m.hRev b))))
  · rw [if_pos (iff.2 c), if_pos c]
  · rw [if_neg (fun h => c (iff.1 h)), if_neg c]

/-- the angle chosen is the smallest -/
theorem pick_open (A : m.AtE p) (w : m.WF) (af : m.fAlive f = true) (T : m.TriBehind f) {hs : List Nat} (hl : FaceLoop m f hs) {pp prev i next qq p1 a b q : Nat}
    (C : Corner m f hs pp prev i next qq p1 a b q) {t : XR}
    (e : pickAngle (m.angleAt hs) (List.range hs.length) (Scalar.lit (10 ^ 20) 1, none) = some (t, some i)) :
    t = .fin (m.openAngle p a) ∧ ∀ a', m.hAlive a' = true → m.hFace a' = f → m.openAngle p a ≤ m.openAngle p a' := by
  obtain ⟨k1, k2⟩ := pickAngle_some e
  rcases k1 with k1 | ⟨j, hj, e1, e2, _⟩
  · exact absurd k1 (by simp)
  have := Option.some.inj e2
  subst this
  have e1 : m.angleAt hs i = some t := e1
  have e1' := e1
  rw [C.angle hl.nodup] at e1
  have ht := frontAngle_exact A w C T e1
  refine ⟨ht, ?_⟩
  intro a' aa' fa'
  -- the position of the side after `a'`
  have b1 := w.next_alive _ aa'
  have mem : m.hNext a' ∈ hs := (hl.mem _).2 ⟨b1, by rw [w.face_next _ aa', fa']⟩
  obtain ⟨j, hj, ej⟩ := List.getElem_of_mem mem
  obtain ⟨pp', prev', next', qq', p', a2, b2, q2, C'⟩ := w.corner af hl C.n4 hj
  have eb : b2 = m.hNext a' := by
    have := (C'.at hl.nodup).2.1
    rw [List.getElem?_eq_getElem hj, ej] at this
    exact (Option.some.inj this).symm
  have ea : a2 = a' := w.next_inj _ _ C'.aa aa' (by rw [C'.na, eb])
  obtain ⟨s, hs'⟩ := k2 j (List.mem_range.2 hj)
  have hs2 := hs'
  rw [C'.angle hl.nodup] at hs'
  have hs3 := frontAngle_exact A w C' T hs'
  rw [ea] at hs3
  -- restrict the angles to the positions of the front
  have pb : 2 * Real.pi < 10 ^ 20 := by have := Real.pi_lt_d2; norm_num at this ⊢; linarith
  have big : (Scalar.lit (10 ^ 20) 1 : XR) = .fin (10 ^ 20) := by rw [X_lit, R_lit]; norm_num
  rw [big] at e
  have e' := pick_restrict (fun i hi => List.mem_range.1 hi) e
  obtain ⟨r1, q1, _, q3, _⟩ := pick_min (by
    intro i t hi
    split at hi
    · next l =>
      obtain ⟨r, h1, _, h3⟩ := angleAt_fin A w af hl C.n4 l hi
      exact ⟨r, h1, by linarith⟩
    · exact absurd hi (by simp)) e'
  have := q3 j (List.mem_range.2 hj) (m.openAngle p a') (by rw [if_pos hj, hs2, hs3])
  have q1 : t = .fin r1 := q1
  rw [ht] at q1
  have := XR.fin_inj.1 q1
  linarith

section
variable {hs : List Nat} {pp prev i next qq p1 a b q : Nat} {x y : Vec3 XR}

theorem earMesh_cut (w : m.WF) (af : m.fAlive f = true) (C : Corner m f hs pp prev i next qq p1 a b q) : m.EarCut (m.earMesh f p1 a b q) f a := by
  have G := earMesh_grow w af C
  have fr := earMesh_front w af C
  have R := earMesh_ear w af C
  have l := w.faceLoop af
  have l' := G.wf.faceLoop (G.fal _ af)
  have hp := w.heap af
  have na : (m.earMesh f p1 a b q).hNext a = b := (R.nxo C.aa C.pa.symm C.pq.2.2).trans C.na
  have fa : (m.earMesh f p1 a b q).hFace a = m.fFresh := R.fca
  have nb : (m.earMesh f p1 a b q).hNext b = m.hFresh + 1 := R.nxb
  have nB : (m.earMesh f p1 a b q).hNext (m.hFresh + 1) = a := R.nxB
  refine ⟨?_, ⟨⟨?_, ?_, ?_, ?_⟩, ?_⟩, R.va, ⟨?_, ?_⟩, fun v _ => rfl⟩
  · have := loop_length (ns := [m.hFresh]) (a := a) (b := b) l.nodup l'.nodup l.mem l'.mem ⟨C.aa, C.fa⟩ ⟨C.ab, C.fb⟩ C.pq.2.2 (by simp)
      (by
        intro h hh
        have : h = m.hFresh := by simpa using hh
        rintro ⟨a1, _⟩
        have := (w.hBound _ a1).2
        omega)
      (by intro h; rw [fr h]; simp; tauto)
    rw [w.loop_length af, G.wf.loop_length (G.fal _ af)] at this
    simp only [List.length_cons, List.length_nil] at this
    omega
  · unfold Mesh.OnTri
    rw [na, nb, nB]
  · exact (G.hal _ C.aa).2
  · rw [na, C.na]; exact (G.hal _ C.ab).2
  · rw [na, nb, C.na, C.nb]; exact R.srB
  · rw [na, C.na]
  · rw [fa]; exact hp.fdead (Nat.le_refl _)
  · intro g; rw [fa]; exact R.fa g

theorem midMesh_one (w : m.WF) (af : m.fAlive f = true) (C : Corner m f hs pp prev i next qq p1 a b q) :
    m.OneNew (m.midMesh f p1 a b q x) f a m.vFresh ∧ (m.midMesh f p1 a b q x).vPos m.vFresh = x := by
  have G := midMesh_grow (x := x) w af C
  have fr := midMesh_front (x := x) w af C
  have T := midMesh_tab (x := x) w af C
  have l := w.faceLoop af
  have l' := G.wf.faceLoop (G.fal _ af)
  have hp := w.heap af
  have na : (m.midMesh f p1 a b q x).hNext a = m.hFresh + 2 := T.nxa
  have n2 : (m.midMesh f p1 a b q x).hNext (m.hFresh + 2) = m.hFresh + 3 := T.nx2
  have n3 : (m.midMesh f p1 a b q x).hNext (m.hFresh + 3) = a := T.nx3
  have nb : (m.midMesh f p1 a b q x).hNext b = m.hFresh + 5 := T.nxb
  have n5 : (m.midMesh f p1 a b q x).hNext (m.hFresh + 5) = m.hFresh + 4 := T.nx5
  have n4 : (m.midMesh f p1 a b q x).hNext (m.hFresh + 4) = b := T.nx4
  refine ⟨⟨?_, ⟨?_, ?_, ?_, ?_⟩, ⟨?_, ?_, ?_, ?_⟩, ⟨hp.vdead (Nat.le_refl _), T.va⟩, fun u hu => (G.val u hu).2.1⟩, ?_⟩
  · have := loop_length (ns := [m.hFresh, m.hFresh + 1]) (a := a) (b := b) l.nodup l'.nodup l.mem l'.mem ⟨C.aa, C.fa⟩ ⟨C.ab, C.fb⟩ C.pq.2.2 (by simp)
      (by
        intro h hh
        have : h = m.hFresh ∨ h = m.hFresh + 1 := by simpa using hh
        rintro ⟨a1, _⟩
        have := (w.hBound _ a1).2
        omega)
      (by intro h; rw [fr h]; simp; tauto)
    rw [w.loop_length af, G.wf.loop_length (G.fal _ af)] at this
    simp only [List.length_cons, List.length_nil] at this
    omega
  · unfold Mesh.OnTri
    rw [na, n2, n3]
  · exact (G.hal _ C.aa).2
  · rw [na, C.na]; exact T.sr2
  · rw [na, n2]; exact T.sr3
  · unfold Mesh.OnTri
    rw [C.na, nb, n5, n4]
  · rw [C.na]; exact (G.hal _ C.ab).2
  · rw [C.na, nb, C.nb]; exact T.sr5
  · rw [C.na, nb, n5]; exact T.sr4
  · simp [Mesh.midMesh, Mesh.midTwo, upd]

theorem wideMesh_two (w : m.WF) (af : m.fAlive f = true) (C : Corner m f hs pp prev i next qq p1 a b q) :
    m.TwoNew (m.wideMesh f p1 a b q x y) f a m.vFresh (m.vFresh + 1) ∧ (m.wideMesh f p1 a b q x y).vPos m.vFresh = x ∧
      (m.wideMesh f p1 a b q x y).vPos (m.vFresh + 1) = y := by
  have G := wideMesh_grow (x := x) (y := y) w af C
  have fr := wideMesh_front (x := x) (y := y) w af C
  have T := wideMesh_tab (x := x) (y := y) w af C
  have l := w.faceLoop af
  have l' := G.wf.faceLoop (G.fal _ af)
  have hp := w.heap af
  have na : (m.wideMesh f p1 a b q x y).hNext a = m.hFresh + 3 := T.nxa
  have n3 : (m.wideMesh f p1 a b q x y).hNext (m.hFresh + 3) = m.hFresh + 4 := T.nx3
  have n4 : (m.wideMesh f p1 a b q x y).hNext (m.hFresh + 4) = a := T.nx4
  have nb : (m.wideMesh f p1 a b q x y).hNext b = m.hFresh + 9 := T.nxb
  have n9 : (m.wideMesh f p1 a b q x y).hNext (m.hFresh + 9) = m.hFresh + 8 := T.nx9
  have n8 : (m.wideMesh f p1 a b q x y).hNext (m.hFresh + 8) = b := T.nx8
  have n5 : (m.wideMesh f p1 a b q x y).hNext (m.hFresh + 5) = m.hFresh + 6 := T.nx5
  have n6 : (m.wideMesh f p1 a b q x y).hNext (m.hFresh + 6) = m.hFresh + 7 := T.nx6
  have n7 : (m.wideMesh f p1 a b q x y).hNext (m.hFresh + 7) = m.hFresh + 5 := T.nx7
  refine ⟨⟨?_, ⟨?_, ?_, ?_, ?_⟩, ⟨?_, ?_, ?_, ?_⟩, ⟨m.hFresh + 5, (T.al _).2 (by simp), ?_, ?_, ?_, ?_⟩,
    ⟨by omega, hp.vdead (Nat.le_refl _), hp.vdead (by omega), ?_⟩, fun u hu => (G.val u hu).2.1⟩, ?_, ?_⟩
  · have := loop_length (ns := [m.hFresh, m.hFresh + 1, m.hFresh + 2]) (a := a) (b := b) l.nodup l'.nodup l.mem l'.mem ⟨C.aa, C.fa⟩ ⟨C.ab, C.fb⟩ C.pq.2.2 (by simp)
      (by
        intro h hh
        have : h = m.hFresh ∨ h = m.hFresh + 1 ∨ h = m.hFresh + 2 := by simpa using hh
        rintro ⟨a1, _⟩
        have := (w.hBound _ a1).2
        omega)
      (by intro h; rw [fr h]; simp; tauto)
    rw [w.loop_length af, G.wf.loop_length (G.fal _ af)] at this
    simp only [List.length_cons, List.length_nil] at this
    omega
  · unfold Mesh.OnTri
    rw [na, n3, n4]
  · exact (G.hal _ C.aa).2
  · rw [na, C.na]; exact T.sr3
  · rw [na, n3]; exact T.sr4
  · unfold Mesh.OnTri
    rw [C.na, nb, n9, n8]
  · rw [C.na]; exact (G.hal _ C.ab).2
  · rw [C.na, nb, C.nb]; exact T.sr9
  · rw [C.na, nb, n9]; exact T.sr8
  · unfold Mesh.OnTri
    rw [n5, n6, n7]
  · exact T.sr5
  · rw [n5, C.na]; exact T.sr6
  · rw [n5, n6]; exact T.sr7
  · intro u
    rw [show ((m.wideMesh f p1 a b q x y).vAlive u = true ↔ u = m.vFresh + 1 ∨ u = m.vFresh ∨ m.vAlive u = true) from T.va u]
    tauto
  · simp [Mesh.wideMesh, Mesh.wideTwo, upd]
  · simp [Mesh.wideMesh, Mesh.wideTwo, upd]

end
end TinyMesh
