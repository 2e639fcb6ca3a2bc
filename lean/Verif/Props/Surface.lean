import Verif.Proof.SurfB
import Verif.Props.Edit
import Verif.Props.Fill
/-
The triangles, the points, the area and the volume of a mesh under edits (C101, C102).
-/
set_option maxRecDepth 100000
namespace TinyMesh
open Sample
attribute [local instance] Sample.ratScalar

section
variable {F : Type} [Scalar F] {m m' : Mesh F}

/-- C101: splitting an edge returns false and changes nothing, or cuts the two triangles of the edge in two. All other triangles stay:
whatever is collected from the corners of the triangles, in any order, differs in these triangles only. -/
theorem c101_split (g : m.Good) (h : Nat) (a : m.hAlive h = true) :
    splitHE h m = .ok false m ∨ ∃ m' p q r s n, splitHE h m = .ok true m' ∧ SamePair p q (m.hSrc h) (m.hSrc (m.hNext h)) ∧
      m.HasTri p q r ∧ m.HasTri q p s ∧ m.vAlive n = false ∧ ∀ (A : Type) (φ : Nat → Nat → Nat → A), Cyclic φ →
        ∃ R : Multiset A, m.triVals φ = {φ p q r, φ q p s} + R ∧ m'.triVals φ = {φ n q r, φ q n s, φ p n r, φ n p s} + R := by
  have w := g.wf
  rcases splitHE_cases g a with e | ⟨m', he, S⟩
  · exact Or.inl e
  · have ar := w.rev_alive _ S.a
    have d := S.done g
    refine Or.inr ⟨m', m.hSrc he, m.hSrc (m.hRev he), _, _, m.vFresh, S.run, ?_, ⟨he, S.a, g.tri.onTri S.a S.b0, rfl, (w.src_rev _ S.a).symm, rfl⟩,
      ⟨m.hRev he, ar, g.tri.onTri ar S.b1, rfl, ?_, rfl⟩, d.fresh, fun A φ cy => S.triVals g cy⟩
    · rcases S.side with rfl | rfl
      · exact Or.inl ⟨rfl, w.src_rev _ a⟩
      · exact Or.inr ⟨w.src_rev _ a, by rw [w.rev_rev _ a]⟩
    · have := w.src_rev _ ar
      rw [w.rev_rev _ S.a] at this
      exact this.symm

/-- C101: flipping an edge of which neither half-edge is flagged returns false and changes nothing, or replaces the two triangles of the
edge by those at the other diagonal; all other triangles stay. -/
theorem c101_flip (g : m.Good) (h : Nat) (a : m.hAlive h = true) (n1 : m.hBd h = false) (n2 : m.hBd (m.hRev h) = false) :
    flipHE h m = .ok false m ∨ ∃ m' p q r s, flipHE h m = .ok true m' ∧ p = m.hSrc h ∧ q = m.hSrc (m.hNext h) ∧
      m.HasTri p q r ∧ m.HasTri q p s ∧ ∀ (A : Type) (φ : Nat → Nat → Nat → A), Cyclic φ →
        ∃ R : Multiset A, m.triVals φ = {φ p q r, φ q p s} + R ∧ m'.triVals φ = {φ s r p, φ r s q} + R := by
  have w := g.wf
  have ar := w.rev_alive _ a
  have t := g.tri.onTri a n1
  have t' := g.tri.onTri ar n2
  rcases flipHE_cases g a t t' with e | ⟨m', e, rfl, d⟩
  · exact Or.inl e
  · have := w.src_rev _ ar
    rw [w.rev_rev _ a] at this
    exact Or.inr ⟨_, m.hSrc h, m.hSrc (m.hRev h), _, _, e, rfl, w.src_rev _ a, ⟨h, a, t, rfl, (w.src_rev _ a).symm, rfl⟩,
      ⟨m.hRev h, ar, t', rfl, this.symm, rfl⟩, fun A φ cy => flipState_triVals g a n1 n2 d.good.wf cy⟩

/-- C101: if an edge is collapsed, its two triangles are removed, and the others are as before with the one end replaced by the other. -/
theorem c101_collapse (g : m.Good) (h : Nat) (a : m.hAlive h = true) (run : collapseHE h m = .ok true m') :
    ∃ p q r s, SamePair p q (m.hSrc h) (m.hSrc (m.hNext h)) ∧ m.HasTri p q r ∧ m.HasTri q p s ∧
      ∀ (A : Type) (φ : Nat → Nat → Nat → A), Cyclic φ →
        m.triVals (fun a b c => φ (renamed p q a) (renamed p q b) (renamed p q c)) = {φ p p r, φ p p s} + m'.triVals φ := by
  rcases collapse_step g a with e | ⟨m1, p, q, e, S⟩ | ⟨e, -⟩ <;> rw [run] at e <;> cases e
  obtain ⟨r, s, t1, t2, k⟩ := S.triVals g a
  refine ⟨p, q, r, s, ?_, t1, t2, fun A φ cy => k cy⟩
  have := S.ends
  rwa [g.wf.src_rev _ a] at this

/-- C102: a flip adds to the volume that of the tetrahedron with the four corners, for vertices anywhere. -/
theorem c102_flip_volume (g : m.Good) (h : Nat) (a : m.hAlive h = true) (n1 : m.hBd h = false) (n2 : m.hBd (m.hRev h) = false)
    (run : flipHE h m = .ok true m') (o : E3) (p : Nat → E3) :
    m'.volume o p = m.volume o p + tetVol6 (p (m.hSrc h)) (p (m.hSrc (m.hNext h))) (p (m.hSrc (m.hNext (m.hNext h))))
      (p (m.hSrc (m.hNext (m.hNext (m.hRev h))))) / 6 := by
  have w := g.wf
  rcases flipHE_cases g a (g.tri.onTri a n1) (g.tri.onTri (w.rev_alive _ a) n2) with e | ⟨m1, e, hm, d⟩ <;> rw [run] at e <;> cases e
  subst hm
  rw [flipState_volume g a n1 n2 d.good.wf, w.src_rev _ a]

/-- C102: a flip in a flat convex quadrilateral, that is if the two diagonals meet, leaves the surface as it is. -/
theorem c102_flip_flat (g : m.Good) (h : Nat) (a : m.hAlive h = true) (n1 : m.hBd h = false) (n2 : m.hBd (m.hRev h) = false)
    (run : flipHE h m = .ok true m') (p : Nat → E3) (x : E3) (h1 : x ∈ segment ℝ (p (m.hSrc h)) (p (m.hSrc (m.hNext h))))
    (h2 : x ∈ segment ℝ (p (m.hSrc (m.hNext (m.hNext h)))) (p (m.hSrc (m.hNext (m.hNext (m.hRev h)))))) : SameSurface m p m' p := by
  have w := g.wf
  rcases flipHE_cases g a (g.tri.onTri a n1) (g.tri.onTri (w.rev_alive _ a) n2) with e | ⟨m1, e, hm, d⟩ <;> rw [run] at e <;> cases e
  subst hm
  exact flipState_sameSurface g a n1 n2 d.good.wf (by rwa [w.src_rev _ a]) h2

/-- C102: a collapse moves the one end of the edge to the other. Area and volume are those of the old mesh with the end moved, and so are
the points, up to two sides of removed triangles. -/
theorem c102_collapse (g : m.Good) (h : Nat) (a : m.hAlive h = true) (run : collapseHE h m = .ok true m') :
    ∃ p q r s, SamePair p q (m.hSrc h) (m.hSrc (m.hNext h)) ∧ m.HasTri p q r ∧ m.HasTri q p s ∧ ∀ P : Nat → E3,
      m'.surfArea P = m.surfArea (fun v => P (renamed p q v)) ∧ (∀ o, m'.volume o P = m.volume o fun v => P (renamed p q v)) ∧
      m.points (fun v => P (renamed p q v)) = m'.points P ∪ segment ℝ (P p) (P r) ∪ segment ℝ (P p) (P s) := by
  rcases collapse_step g a with e | ⟨m1, p, q, e, S⟩ | ⟨e, -⟩ <;> rw [run] at e <;> cases e
  obtain ⟨r, s, t1, t2, k⟩ := S.triVals g a
  refine ⟨p, q, r, s, ?_, t1, t2, fun P => ⟨S.area g a P, fun o => S.vol g a o P, ?_⟩⟩
  · have := S.ends
    rwa [g.wf.src_rev _ a] at this
  · obtain ⟨r', s', t1', t2', e⟩ := S.points g a P
    have u : ∀ {a b c c'}, m.HasTri a b c → m.HasTri a b c' → c = c' := by
      rintro a b c c' ⟨x, ax, -, x1, x2, x3⟩ ⟨y, ay, -, y1, y2, y3⟩
      have := g.simple.no_dup _ _ ax ay (x1.trans y1.symm) (x2.trans y2.symm)
      subst this
      exact x3.symm.trans y3
    rw [u t1 t1', u t2 t2']
    exact e

end

section
variable {m m' : Mesh XR} {p : Nat → E3}

/-- C102: a split leaves the surface as it is: the points of it, its area, and the volume inside. Vertices stay where they were. -/
theorem c102_split (g : m.Good) (A : m.AtE p) (h : Nat) (a : m.hAlive h = true) (b : Bool) (run : splitHE h m = .ok b m') :
    ∃ p', m'.AtE p' ∧ (∀ v, m.vAlive v = true → m'.vAlive v = true ∧ p' v = p v) ∧ SameSurface m p m' p' := by
  rcases splitHE_cases g a with e | ⟨m1, he, S⟩
  · rw [run] at e; cases e
    exact ⟨p, A, fun v av => ⟨av, rfl⟩, SameSurface.refl _ _⟩
  · have := S.run
    rw [run] at this; cases this
    exact S.same g A

/-- C102: so does the whole split loop of remeshing, for every order of the edges and every limit. -/
theorem c102_split_loop (g : m.Good) (A : m.AtE p) (lim : XR) (l : List Nat) (run : forAll (splitOne lim) l m = .ok () m') :
    ∃ p', m'.AtE p' ∧ (∀ v, m.vAlive v = true → m'.vAlive v = true ∧ p' v = p v) ∧ SameSurface m p m' p' :=
  splits_same lim l g A run

end

/-! ### Examples -/

/-- the first edge of an icosahedron is split: four triangles instead of two -/
example : ∃ m m' : Mesh Rat, construct icoV icoI fresh = .ok () m ∧ m.Good ∧ m.hAlive 1 = true ∧ splitHE 1 m = .ok true m' ∧
    (m'.triVals fun _ _ _ => ()).card = (m.triVals fun _ _ _ => ()).card + 2 := by
  obtain ⟨_, m, b, m', h1, h2, h3⟩ := thenSt_iff (o := construct icoV icoI fresh) (f := splitHE 1)
    (p := fun m b m' => m.hAlive 1 && b) (by decide +kernel)
  simp only [Bool.and_eq_true] at h3
  obtain ⟨ha, rfl⟩ := h3
  have g := c01_construct_consistent (Owned.empty dbl) h1
  refine ⟨m, m', h1, g, ha, h2, ?_⟩
  rcases c101_split g 1 ha with e | ⟨m2, p, q, r, s, n, e, -, -, -, -, k⟩
  · rw [h2] at e; cases e
  · rw [h2] at e; cases e
    obtain ⟨R, e1, e2⟩ := k Unit (fun _ _ _ => ()) (fun _ _ _ => rfl)
    rw [e1, e2]
    simp only [Multiset.card_add, Multiset.insert_eq_cons, Multiset.card_cons, Multiset.card_singleton]
    omega

/-- the corners of a square, and all other vertices above and below its centre -/
noncomputable def quadAt (p q r s v : Nat) : E3 :=
  if v = p then (⟨-1, 0, 0⟩ : Vec3 ℝ).E else if v = q then (⟨1, 0, 0⟩ : Vec3 ℝ).E else if v = r then (⟨0, 1, 0⟩ : Vec3 ℝ).E else
    if v = s then (⟨0, -1, 0⟩ : Vec3 ℝ).E else (⟨0, 0, v⟩ : Vec3 ℝ).E

theorem quadAt_meet {p q r s : Nat} (d1 : p ≠ q) (d2 : p ≠ r) (d3 : p ≠ s) (d4 : q ≠ r) (d5 : q ≠ s) (d6 : r ≠ s) :
    (⟨0, 0, 0⟩ : Vec3 ℝ).E ∈ segment ℝ (quadAt p q r s p) (quadAt p q r s q) ∧
    (⟨0, 0, 0⟩ : Vec3 ℝ).E ∈ segment ℝ (quadAt p q r s r) (quadAt p q r s s) := by
  have e1 : quadAt p q r s p = (⟨-1, 0, 0⟩ : Vec3 ℝ).E := if_pos rfl
  have e2 : quadAt p q r s q = (⟨1, 0, 0⟩ : Vec3 ℝ).E := by rw [quadAt, if_neg d1.symm, if_pos rfl]
  have e3 : quadAt p q r s r = (⟨0, 1, 0⟩ : Vec3 ℝ).E := by rw [quadAt, if_neg d2.symm, if_neg d4.symm, if_pos rfl]
  have e4 : quadAt p q r s s = (⟨0, -1, 0⟩ : Vec3 ℝ).E := by rw [quadAt, if_neg d3.symm, if_neg d5.symm, if_neg d6.symm, if_pos rfl]
  rw [e1, e2, e3, e4]
  refine ⟨⟨1 / 2, 1 / 2, by norm_num, by norm_num, by norm_num, ?_⟩, ⟨1 / 2, 1 / 2, by norm_num, by norm_num, by norm_num, ?_⟩⟩
  all_goals
    rw [← Vec3.E_smul, ← Vec3.E_smul, ← Vec3.E_add]
    congr 1
    norm_num [Vec3.smul_def, Vec3.add_def]

/-- the first edge of an icosahedron is flipped, with its two triangles flattened to a square -/
example : ∃ m m' : Mesh Rat, construct icoV icoI fresh = .ok () m ∧ m.Good ∧ m.hAlive 1 = true ∧ m.hBd 1 = false ∧
    m.hBd (m.hRev 1) = false ∧ flipHE 1 m = .ok true m' ∧ (∃ p, SameSurface m p m' p) := by
  obtain ⟨_, m, b, m', h1, h2, h3⟩ := thenSt_iff (o := construct icoV icoI fresh) (f := flipHE 1)
    (p := fun m b m' => (m.hAlive 1 && b && !m.hBd 1 && !m.hBd (m.hRev 1)) && (decide (m.hSrc 1 ≠ m.hSrc (m.hNext 1)) &&
      decide (m.hSrc 1 ≠ m.hSrc (m.hNext (m.hNext 1))) && decide (m.hSrc 1 ≠ m.hSrc (m.hNext (m.hNext (m.hRev 1)))) &&
      decide (m.hSrc (m.hNext 1) ≠ m.hSrc (m.hNext (m.hNext 1))) && decide (m.hSrc (m.hNext 1) ≠ m.hSrc (m.hNext (m.hNext (m.hRev 1)))) &&
      decide (m.hSrc (m.hNext (m.hNext 1)) ≠ m.hSrc (m.hNext (m.hNext (m.hRev 1)))))) (by decide +kernel)
  simp only [Bool.and_eq_true, Bool.not_eq_true', decide_eq_true_eq] at h3
  obtain ⟨⟨⟨⟨ha, rfl⟩, n1⟩, n2⟩, ⟨⟨⟨⟨d1, d2⟩, d3⟩, d4⟩, d5⟩, d6⟩ := h3
  have g := c01_construct_consistent (Owned.empty dbl) h1
  refine ⟨m, m', h1, g, ha, n1, n2, h2, ⟨quadAt (m.hSrc 1) (m.hSrc (m.hNext 1)) (m.hSrc (m.hNext (m.hNext 1)))
    (m.hSrc (m.hNext (m.hNext (m.hRev 1)))), c102_flip_flat g 1 ha n1 n2 h2 _ (⟨0, 0, 0⟩ : Vec3 ℝ).E
    (quadAt_meet d1 d2 d3 d4 d5 d6).1 (quadAt_meet d1 d2 d3 d4 d5 d6).2⟩⟩

/-- the first edge of an icosahedron is collapsed: two triangles fewer, and the area is that of the old mesh with one vertex moved -/
example : ∃ m m' : Mesh Rat, construct icoV icoI fresh = .ok () m ∧ m.Good ∧ m.hAlive 1 = true ∧ collapseHE 1 m = .ok true m' ∧
    (m.triVals fun _ _ _ => ()).card = (m'.triVals fun _ _ _ => ()).card + 2 ∧
    ∃ p q, p ≠ q ∧ ∀ P, m'.surfArea P = m.surfArea (fun v => P (renamed p q v)) := by
  obtain ⟨_, m, b, m', h1, h2, h3⟩ := thenSt_iff (o := construct icoV icoI fresh) (f := collapseHE 1)
    (p := fun m b m' => m.hAlive 1 && b) (by decide +kernel)
  simp only [Bool.and_eq_true] at h3
  obtain ⟨ha, rfl⟩ := h3
  have g := c01_construct_consistent (Owned.empty dbl) h1
  obtain ⟨p, q, r, s, -, -, -, k⟩ := c101_collapse g 1 ha h2
  obtain ⟨p', q', r', s', sp, -, -, k'⟩ := c102_collapse g 1 ha h2
  refine ⟨m, m', h1, g, ha, h2, ?_, p', q', ?_, fun P => (k' P).1⟩
  · have := congrArg Multiset.card (k Unit (fun _ _ _ => ()) (fun _ _ _ => rfl))
    rw [this]
    simp only [Multiset.card_add, Multiset.insert_eq_cons, Multiset.card_cons, Multiset.card_singleton]
    omega
  · have := g.simple.no_loop 1 ha
    rcases sp with ⟨rfl, rfl⟩ | ⟨rfl, rfl⟩
    · exact this
    · exact this.symm

/-- the first edge of an icosahedron with its vertices anywhere is split -/
example (P : Nat → Vec3 ℝ) : ∃ (m : Mesh Rat) (m' : Mesh XR), construct icoV icoI fresh = .ok () m ∧
    splitHE 1 (m.overR P) = .ok true m' ∧ ∃ p', m'.AtE p' ∧ SameSurface (m.overR P) (fun v => (P v).E) m' p' := by
  obtain ⟨_, m, b, m', h1, h2, h3⟩ := thenSt_iff (o := construct icoV icoI fresh) (f := splitHE 1)
    (p := fun m b m' => m.hAlive 1 && b) (by decide +kernel)
  simp only [Bool.and_eq_true] at h3
  obtain ⟨ha, rfl⟩ := h3
  have g := c01_construct_consistent (Owned.empty dbl) h1
  have g' : (m.overR P).Good := g.over _
  obtain ⟨m2, e⟩ := (c12_split_iff g' 1 ha).2 ((c12_split_iff g 1 ha).1 ⟨m', h2⟩)
  obtain ⟨p', A, -, k⟩ := c102_split g' (p := fun v => (P v).E) (fun v _ => ⟨P v, rfl, rfl⟩) 1 ha _ e
  exact ⟨m, m2, h1, e, p', A, k⟩

end TinyMesh
