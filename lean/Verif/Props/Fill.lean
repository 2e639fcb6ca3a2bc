import Verif.Proof.FillI
import Verif.Spec.Over
import Verif.Spec.Sample2
import Verif.Spec.SampleX
/-
Hole filling (C21, C22, C55).
-/
set_option maxRecDepth 100000
namespace TinyMesh
open Orbit Sample
attribute [local instance] Sample.ratScalar
variable {F : Type} [ScalarX F] {m m' : Mesh F}

omit [ScalarX F] in
theorem mem_holeFaces (w : m.WF) {f : Nat} :
    f ∈ m.holeFaces ↔ m.fAlive f = true ∧ ∀ h, m.hAlive h = true → m.hFace h = f → m.hBd h = true := by
  unfold Mesh.holeFaces
  rw [List.mem_filter, w.fDense.mem, List.all_eq_true]
  refine and_congr_right fun _ => forall_congr' fun h => ?_
  rw [w.hDense.mem]
  simp only [Bool.or_eq_true, bne_iff_ne, ne_eq]
  constructor
  · intro h1 h2 h3
    exact (h1 h2).resolve_left (fun x => x h3)
  · intro h1 h2
    by_cases e : m.hFace h = f
    · exact .inr (h1 h2 e)
    · exact .inl e

omit [ScalarX F] in
theorem holeFaces_eq (w : m.WF) : m.fs.filter (fun f => (orbit m.hNext (m.fHe f)).all m.hBd) = m.holeFaces := by
  refine List.filter_congr fun f hf => ?_
  have a := (w.fDense.mem f).1 hf
  rw [Bool.eq_iff_iff]
  have h1 : f ∈ m.holeFaces ↔ m.hes.all (fun h => m.hFace h != f || m.hBd h) = true := by
    unfold Mesh.holeFaces
    rw [List.mem_filter]
    exact and_iff_right hf
  rw [← h1, mem_holeFaces w, List.all_eq_true]
  simp only [w.mem_loop a, and_imp, a, true_and]

omit [ScalarX F] in
/-- old half-edges end where they ended if start points and opposite half-edges stay -/
theorem dst_kept (w : m.WF) (w' : m'.WF)
    (k : ∀ h, m.hAlive h = true → m'.hAlive h = true ∧ m'.hSrc h = m.hSrc h ∧ m'.hRev h = m.hRev h) {h : Nat}
    (a : m.hAlive h = true) : m'.hSrc (m'.hNext h) = m.hSrc (m.hNext h) := by
  obtain ⟨a', s, r⟩ := k h a
  obtain ⟨_, s2, _⟩ := k _ (w.rev_alive h a)
  rw [← w'.src_rev h a', r, s2, w.src_rev h a]

omit [ScalarX F] in
theorem FillInv.filled (w : m.WF) (I : FillInv m m.holeFaces [] m') : HolesFilled m m' := by
  refine ⟨I.wf, fun h a => I.tri h a (by simp), ?_, I.vs, I.vAlive, I.vPos, I.vLock, ?_, ?_, ?_, fun h a hf => (I.kept h a).2.2.2 hf⟩
  · rw [List.eq_nil_iff_forall_not_mem]
    intro f hf
    obtain ⟨af, hb⟩ := (mem_holeFaces I.wf).1 hf
    obtain ⟨h, a, e, b⟩ := I.flag f af (by simp)
    rw [hb h a e] at b
    cases b
  · simpa using I.fLen
  · simpa using I.hLen
  · intro h a
    obtain ⟨k1, k2, k3, _⟩ := I.kept h a
    exact ⟨k1, k2, dst_kept w I.wf (fun h a => ⟨(I.kept h a).1, (I.kept h a).2.1, (I.kept h a).2.2.1⟩) a, k3⟩

/-- C21: on a mesh of triangles and holes, `fillHoles` replaces every hole by triangles, keeps the mesh consistent, moves no vertex and
leaves every other face as it is. For an arbitrary floating point semantics the only other outcome is the undefined
behaviour that an unfilled entry of the table leads to. -/
theorem c21_fill (g : m.Good) : (∃ m', fillHoles m = .ok () m' ∧ HolesFilled m m') ∨ fillHoles m = .err .ub := by
  rcases fillHoles_ok g.wf (fun f a => g.three_sides a)
    (fun h a => (g.tri.holds h a).imp_right fun t h' a' e => (t h' a' e).1) (AngleCap.any m) with ⟨-, h⟩ | ⟨m', h, I⟩
  · exact .inr h
  · rw [holeFaces_eq g.wf] at I
    exact .inl ⟨m', h, I.filled g.wf⟩

/-- C21: in exact arithmetic, and with finite positions, the table is filled: every hole is closed. -/
theorem c21_fill_exact {m : Mesh XR} (g : m.Good) {p : Nat → Vec3 ℝ} (hp : m.At p) :
    ∃ m', fillHoles m = .ok () m' ∧ HolesFilled m m' := by
  have fp : FinPos m := ⟨fun v => (p v).E, fun v a => ⟨p v, hp v a, rfl⟩⟩
  rcases fillHoles_ok g.wf (fun f a => g.three_sides a)
    (fun h a => (g.tri.holds h a).imp_right fun t h' a' e => (t h' a' e).1) (AngleCap.exact fp) with ⟨e, -⟩ | ⟨m', h, I⟩
  · exact absurd trivial e
  · rw [holeFaces_eq g.wf] at I
    exact ⟨m', h, I.filled g.wf⟩

omit [ScalarX F] in
theorem Patched.filled {f : Nat} {tris : List Tri3} {He : Nat × Nat → Nat} (w : m.WF) (a : m.fAlive f = true)
    (p : Poly (orbit m.hNext (m.fHe f)).length tris) (P : Patched m m' f (orbit m.hNext (m.fHe f)) tris He) :
    FaceFilled m m' f (List.range' m.fFresh tris.length) := by
  have l := w.faceLoop a
  have w' := P.wf w p l
  have len := w.loop_length a
  have kept : ∀ h, m.hAlive h = true → m'.hAlive h = true ∧ m'.hSrc h = m.hSrc h ∧ m'.hRev h = m.hRev h := fun h a =>
    ⟨(P.hal h).2 (.inl a), P.src_old p l a, P.oldRev h a⟩
  refine ⟨w', ?_, ?_, List.nodup_range', ?_, ?_, P.vs, P.vAlive, P.vPos, P.vLock, ?_, ?_, ?_⟩
  · rw [List.length_range', ← len]; exact p.len
  · intro x
    rw [P.fD.mem, P.fal, w.fDense.mem, List.mem_range'_1]
    refine or_congr_right ?_
    constructor
    · rintro ⟨j, h1, h2⟩; omega
    · intro h; exact ⟨x - m.fFresh, by omega, by omega⟩
  · intro x hx hm
    have := (w.fBound x ((w.fDense.mem x).1 hm)).2
    rw [List.mem_range'_1] at hx
    omega
  · intro h ah hf
    rw [List.mem_range'_1] at hf
    rcases P.cases p l ah with ⟨e, he, rfl⟩ | ⟨a0, h0⟩
    · obtain ⟨c, c1, c2, c3⟩ := P.src_e p l he
      exact ⟨P.onTri he, P.bd e he, c, c2, ((l.mem c).1 (List.mem_of_getElem? c1)).2, c3.symm⟩
    · have := (w.fBound _ (w.face_alive h a0)).2
      rw [(P.out h a0 h0).2.1] at hf
      omega
  · rw [← len]; exact P.hLen
  · intro h ah
    obtain ⟨k1, k2, k3⟩ := kept h ah
    exact ⟨k1, k2, dst_kept w w' kept ah, k3⟩
  · intro h ah hf
    have o := P.out h ah hf
    exact ⟨o.1, o.2.1, o.2.2.1⟩

/-- C21 for one face, `holeFillMinDihedral` with any bound: a face with `n ≥ 3` sides, whether it is a hole or not, is replaced by
`n - 2` triangles. -/
theorem c21_face (w : m.WF) {f : Nat} (a : m.fAlive f = true) (h3 : 3 ≤ m.sides f) (bound : F) :
    (∃ m' new, holeFillMinDihedral f bound m = .ok () m' ∧ FaceFilled m m' f new) ∨ holeFillMinDihedral f bound m = .err .ub := by
  rcases holeFill_ok (bound := bound) w (AngleCap.any m) a (by rw [w.loop_length a]; exact h3) with ⟨-, h⟩ | ⟨m', tris, He, h, p, P⟩
  · exact .inr h
  · exact .inl ⟨m', _, h, P.filled w a p⟩

/-- C21 for one face in exact arithmetic. -/
theorem c21_face_exact {m : Mesh XR} (w : m.WF) {p : Nat → Vec3 ℝ} (hp : m.At p) {f : Nat} (a : m.fAlive f = true) (h3 : 3 ≤ m.sides f)
    (bound : XR) : ∃ m' new, holeFillMinDihedral f bound m = .ok () m' ∧ FaceFilled m m' f new := by
  have fp : FinPos m := ⟨fun v => (p v).E, fun v a => ⟨p v, hp v a, rfl⟩⟩
  rcases holeFill_ok (bound := bound) w (AngleCap.exact fp) a (by rw [w.loop_length a]; exact h3) with ⟨e, -⟩ | ⟨m', tris, He, h, p, P⟩
  · exact absurd trivial e
  · exact ⟨m', _, h, P.filled w a p⟩

/-- C22, partial: after `fillHoles` a vertex is reported on the boundary exactly if a half-edge that leaves it, carried the flag before,
and does not belong to a hole. Missing: such half-edges exist next to every hole, see `c22_stale`. -/
theorem c22_flags_partial (g : m.Good) (h : fillHoles m = .ok () m') {v : Nat} (av : m'.vAlive v = true) :
    ∃ b, vIsBoundary v m' = .ok b m' ∧
      (b = true ↔ ∃ x, m.hAlive x = true ∧ m.hSrc x = v ∧ m.hBd x = true ∧ m.hFace x ∉ m.holeFaces) := by
  rcases fillHoles_ok g.wf (fun f a => g.three_sides a)
    (fun h a => (g.tri.holds h a).imp_right fun t h' a' e => (t h' a' e).1) (AngleCap.any m) with ⟨-, h'⟩ | ⟨m1, h', I⟩
  · rw [h] at h'; cases h'
  · rw [h] at h'; cases h'
    rw [holeFaces_eq g.wf] at I
    refine ⟨_, I.wf.vIsBoundary_ok av, ?_⟩
    rw [List.any_eq_true]
    constructor
    · rintro ⟨x, hx, hb⟩
      obtain ⟨ax, sx⟩ := (I.wf.mem_ring av).1 hx
      obtain ⟨c1, c2, c3⟩ := I.clear x ax hb
      refine ⟨x, c1, by rw [← (I.kept x c1).2.1]; exact sx, c2, fun hH => ?_⟩
      obtain ⟨q, hq, _⟩ := c3 hH
      cases hq
    · rintro ⟨x, a, sx, bx, hf⟩
      obtain ⟨k1, k2, k3, k4⟩ := I.kept x a
      exact ⟨x, (I.wf.mem_ring av).2 ⟨k1, k2.trans sx⟩, by rw [(k4 hf).2.2]; exact bx⟩

/-- C22 is false: every vertex next to a hole is still reported on the boundary, if the hole is not a triangle and the
triangle on the other side of the edge is not isolated. -/
theorem c22_stale (g : m.Good) (h : fillHoles m = .ok () m') {x : Nat} (ax : m.hAlive x = true) (nt : ¬ m.OnTri x)
    (hx : m.hFace (m.hRev x) ∉ m.holeFaces) : vIsBoundary (m.hSrc (m.hNext x)) m' = .ok true m' := by
  obtain ⟨hb, hb', -⟩ := (g.tri.holds x ax).resolve_left nt x ax rfl
  have hv : m'.vAlive = m.vAlive := by
    rcases c21_fill g with ⟨m1, h', I⟩ | h'
    · rw [h] at h'; cases h'; exact I.vAlive
    · rw [h] at h'; cases h'
  obtain ⟨b, h1, h2⟩ := c22_flags_partial g h (v := m.hSrc (m.hNext x)) (by rw [hv]; exact g.wf.src_alive _ (g.wf.next_alive x ax))
  rw [h1, h2.2 ⟨m.hRev x, g.wf.rev_alive x ax, g.wf.src_rev x ax, hb', hx⟩]

/-- `fillHoles` does nothing on a mesh without holes; in particular a second call changes nothing. -/
theorem c21_again (w : m.WF) (h : m.holeFaces = []) (ht : ∀ x, m.hAlive x = true → m.OnTri x) : fillHoles m = .ok () m := by
  obtain ⟨rem, e1, e2, -⟩ := fillHoles_start w (fun x a => .inl (ht x a))
  rw [holeFaces_eq w, h, List.map_eq_nil_iff] at e2
  rw [e1, e2]
  rfl

/-- C55, partial: if the corners of every hole are different vertices, no edge joins two corners of a hole that are not neighbours on it,
and no pair of such corners belongs to two holes, then after `fillHoles` no two vertices are joined twice: the mesh is again
one on which the library works. Missing: the condition is necessary, see `c55_counterexample`. -/
theorem c55_simple_partial (g : m.Good) (c : m.Chordless m.holeFaces) (h : fillHoles m = .ok () m') : m'.Good := by
  have ht : ∀ x, m.hAlive x = true → m.OnTri x ∨ ∀ y, m.hAlive y = true → m.hFace y = m.hFace x → m.hBd y = true :=
    fun h a => (g.tri.holds h a).imp_right fun t h' a' e => (t h' a' e).1
  obtain ⟨rem, e1, e2, I⟩ := fillHoles_start g.wf ht
  rcases c21_fill g with ⟨m1, h', hf⟩ | h'
  · rw [h] at h'; cases h'
    refine ⟨hf.consistent, ⟨fun x a => .inl (hf.triangles x a)⟩, ?_⟩
    refine fillAt_simple (fun f hf => ?_) g.wf rem m I g.simple (by rw [e2, holeFaces_eq g.wf]; exact c) m' (by rw [← e1]; exact h)
    have a := (g.wf.fDense.mem f).1 (List.mem_filter.1 hf).1
    exact ⟨a, g.three_sides a⟩
  · rw [h] at h'; cases h'

/-! ### Examples -/

/-- a square made of two triangles; the hole is the rest of the sphere, a face with four sides -/
def squareMesh : Out Rat Unit := construct (stripV.take 4) [1, 2, 0, 2, 1, 3] (Mesh.empty fun n => n + 16)

/-- what the mesh of the square looks like: vertices 3, 1, 2, 4 at (0,0), (1,0), (0,1), (1,1), triangles on the half-edges 1-3 and 4-6, the
hole on 7-10 -/
structure SquareFacts (m : Mesh Rat) : Prop where
  good : m.Good
  hole : m.holeFaces = [3]
  loop : orbit m.hNext (m.fHe 3) = [7, 10, 9, 8]
  next : [7, 10, 9, 8].map m.hNext = [10, 9, 8, 7]
  src : [7, 10, 9, 8].map m.hSrc = [3, 2, 4, 1]
  opp : [7, 10, 9].map (fun h => m.hSrc (m.hNext (m.hNext (m.hRev h)))) = [1, 1, 2]
  rev : m.hFace (m.hRev 7) = 1
  diag : m.hAlive 4 = true ∧ m.hSrc 4 = 2 ∧ m.hSrc (m.hNext 4) = 1
  fresh : m.hFresh = 11
  fs : m.fs = [1, 2, 3]
  sides : m.sides 3 = 4
  alive : m.fAlive 3 = true

theorem squareMesh_ok : ∃ m, squareMesh = .ok () m ∧ SquareFacts m := by
  obtain ⟨u, m, l, m', h1, h2, h3⟩ := thenSt_iff (o := squareMesh) (f := faceList 3) (p := fun m l m' =>
    decide (m.holeFaces = [3] ∧ l = [7, 10, 9, 8] ∧ [7, 10, 9, 8].map m.hNext = [10, 9, 8, 7] ∧ [7, 10, 9, 8].map m.hSrc = [3, 2, 4, 1] ∧
    [7, 10, 9].map (fun h => m.hSrc (m.hNext (m.hNext (m.hRev h)))) = [1, 1, 2] ∧ m.hFace (m.hRev 7) = 1 ∧
    (m.hAlive 4 = true ∧ m.hSrc 4 = 2 ∧ m.hSrc (m.hNext 4) = 1) ∧ m.hFresh = 11 ∧ m.fs = [1, 2, 3] ∧ m.sides 3 = 4 ∧
    m.fAlive 3 = true)) (by decide +kernel)
  cases u
  have h3 := of_decide_eq_true h3
  obtain ⟨a, rfl, b, c, d, e, f, g, i, j, k⟩ := h3
  have G := c01_construct_consistent (Owned.empty _) h1
  have := G.wf.faceList_ok k
  rw [h2, Out.ok.injEq] at this
  exact ⟨m, h1, G, a, this.1.symm, b, c, d, e, f, g, i, j, k⟩

/-- the corners of the square -/
def squareAt (v : Nat) : Vec3 ℝ := if v = 1 then ⟨1, 0, 0⟩ else if v = 2 then ⟨0, 1, 0⟩ else if v = 4 then ⟨1, 1, 0⟩ else ⟨0, 0, 0⟩

/-- the hypotheses of `c21_fill_exact` hold for the square; the four-sided hole becomes two triangles -/
example : ∃ (m : Mesh Rat) (m' : Mesh XR), squareMesh = .ok () m ∧ fillHoles (m.overR squareAt) = .ok () m' ∧
    HolesFilled (m.overR squareAt) m' ∧ m'.fs.length = 4 := by
  obtain ⟨m, h, S⟩ := squareMesh_ok
  obtain ⟨m', h1, h2⟩ := c21_fill_exact (S.good.over _) (m.overR_at squareAt)
  refine ⟨m, m', h, h1, h2, ?_⟩
  have := h2.faces
  have e1 : (m.overR squareAt).holeFaces = [3] := S.hole
  have e2 : (m.overR squareAt).fs = [1, 2, 3] := S.fs
  have e3 : (m.overR squareAt).sides 3 = 4 := S.sides
  change m'.fs.length + 3 * (m.overR squareAt).holeFaces.length =
    (m.overR squareAt).fs.length + ((m.overR squareAt).holeFaces.map (m.overR squareAt).sides).sum at this
  rw [e1, e2] at this
  simp only [List.map_cons, List.map_nil, List.sum_cons, List.sum_nil, List.length_cons, List.length_nil, e3] at this
  omega

/-- the hypotheses of `c21_face` hold for the hole of the square -/
example : ∃ (m : Mesh Rat) (m' : Mesh XR) (new : List Nat), squareMesh = .ok () m ∧
    holeFillMinDihedral 3 Scalar.pi (m.overR squareAt) = .ok () m' ∧ FaceFilled (m.overR squareAt) m' 3 new ∧ new.length = 2 := by
  obtain ⟨m, h, S⟩ := squareMesh_ok
  have e3 : (m.overR squareAt).sides 3 = 4 := S.sides
  obtain ⟨m', new, h1, h2⟩ := c21_face_exact (S.good.wf.over _) (m.overR_at squareAt) (f := 3) S.alive (by
    change 3 ≤ (m.overR squareAt).sides 3
    omega) Scalar.pi
  refine ⟨m, m', new, h, h1, h2, ?_⟩
  have := h2.count
  change new.length + 2 = (m.overR squareAt).sides 3 at this
  omega

/-- C22 is false: after filling the hole of the square, a vertex is still reported on the boundary although every face is a triangle
and the mesh has no hole. -/
theorem c22_counterexample : ∃ (m : Mesh Rat) (m' : Mesh XR), squareMesh = .ok () m ∧ (m.overR squareAt).Good ∧
    fillHoles (m.overR squareAt) = .ok () m' ∧ HolesFilled (m.overR squareAt) m' ∧ vIsBoundary 2 m' = .ok true m' := by
  obtain ⟨m, h, S⟩ := squareMesh_ok
  have G : (m.overR squareAt).Good := S.good.over _
  obtain ⟨m', h1, h2⟩ := c21_fill_exact G (m.overR_at squareAt)
  refine ⟨m, m', h, G, h1, h2, ?_⟩
  have n := S.next
  have s := S.src
  simp only [List.map_cons, List.map_nil, List.cons.injEq, and_true] at n s
  have a7 : m.hAlive 7 = true := by
    have : (7 : Nat) ∈ orbit m.hNext (m.fHe 3) := by rw [S.loop]; simp
    exact ((S.good.wf.mem_loop S.alive).1 this).1
  have := c22_stale G h1 (x := 7) a7 (by
    change ¬ m.hNext (m.hNext (m.hNext 7)) = 7
    rw [n.1, n.2.1, n.2.2.1]
    decide) (by
    change m.hFace (m.hRev 7) ∉ m.holeFaces
    rw [S.rev, S.hole]
    decide)
  change vIsBoundary (m.hSrc (m.hNext 7)) m' = _ at this
  rwa [n.1, s.2.1] at this

/-- four triangles around a corner: a pyramid without its base -/
def pyramidMesh : Out Rat Unit :=
  construct [pt 1 0 0, pt 0 1 0, pt (-1) 0 0, pt 0 (-1) 0, pt 0 0 1] [0, 1, 4, 1, 2, 4, 2, 3, 4, 3, 0, 4] (Mesh.empty fun n => n + 16)

/-- the hypotheses of `c55_simple_partial` hold for the pyramid, whose hole has four corners -/
example : ∃ (m : Mesh Rat) (q : Nat → Vec3 ℝ) (m' : Mesh XR), pyramidMesh = .ok () m ∧ (m.overR q).Good ∧
    (m.overR q).Chordless (m.overR q).holeFaces ∧ (m.overR q).holeFaces.map (m.overR q).sides = [4] ∧
    fillHoles (m.overR q) = .ok () m' ∧ m'.Good := by
  obtain ⟨u, m, l, m1, h1, h2, h3⟩ := thenSt_iff (o := pyramidMesh) (f := fun m => .ok () m) (p := fun m l m' =>
    decide ((∀ f ∈ m.holeFaces, ∀ c ∈ m.hes, ∀ c' ∈ m.hes, m.hFace c = f → m.hFace c' = f → m.hSrc c = m.hSrc c' → c = c') ∧
    (∀ f ∈ m.holeFaces, ∀ c ∈ m.hes, m.hFace c = f → ∀ c' ∈ m.hes, m.hFace c' = f → c ≠ c' → m.hNext c ≠ c' → m.hNext c' ≠ c →
      ∀ h ∈ m.hes, m.hSrc h = m.hSrc c → m.hSrc (m.hNext h) ≠ m.hSrc c') ∧
    (∀ f ∈ m.holeFaces, ∀ f' ∈ m.holeFaces, f = f') ∧ m.holeFaces.map m.sides = [4])) (by decide +kernel)
  cases u
  obtain ⟨a, b, c, d⟩ := of_decide_eq_true h3
  have G := c01_construct_consistent (Owned.empty _) h1
  have al : ∀ h, m.hAlive h = true → h ∈ m.hes := fun h => (G.wf.hDense.mem h).2
  have ch : m.Chordless m.holeFaces :=
    ⟨fun f hf x x' ax ax' => a f hf x (al x ax) x' (al x' ax'),
     fun f hf x x' D h ah => b f hf x (al x D.1) D.2.1 x' (al x' D.2.2.1) D.2.2.2.1 D.2.2.2.2.1 D.2.2.2.2.2.1 D.2.2.2.2.2.2 h (al h ah),
     fun f hf f' hf' ne => absurd (c f hf f' hf') ne⟩
  have ch' : (m.overR fun v => (m.vPos v).toR).Chordless (m.overR fun v => (m.vPos v).toR).holeFaces := ⟨ch.1, ch.2, ch.3⟩
  obtain ⟨m', r, -⟩ := c21_fill_exact (G.over fun v => (m.vPos v).toR.fin) (m.overR_at fun v => (m.vPos v).toR)
  exact ⟨m, fun v => (m.vPos v).toR, m', h1, G.over _, ch', d, r, c55_simple_partial (G.over _) ch' r⟩

/-- the hypotheses of `c21_again` hold after the hole of the square has been filled -/
example : ∃ (m : Mesh Rat) (m' : Mesh XR), squareMesh = .ok () m ∧ fillHoles (m.overR squareAt) = .ok () m' ∧
    fillHoles m' = .ok () m' := by
  obtain ⟨m, h, S⟩ := squareMesh_ok
  obtain ⟨m', h1, h2⟩ := c21_fill_exact (S.good.over _) (m.overR_at squareAt)
  exact ⟨m, m', h, h1, c21_again h2.consistent h2.noHole h2.triangles⟩

theorem square_normals : triNormal (squareAt 3).E (squareAt 4).E (squareAt 1).E = triNormal (squareAt 2).E (squareAt 4).E (squareAt 1).E := by
  have e : ((squareAt 4).sub (squareAt 3)).cross ((squareAt 1).sub (squareAt 3)) =
      ((squareAt 4).sub (squareAt 2)).cross ((squareAt 1).sub (squareAt 2)) := by
    simp only [squareAt, Vec3.cross_def, Vec3.sub_def, Vec3.mk.injEq, if_true]
    norm_num
  rw [triNormal_E, triNormal_E, e]

/-- C55 is false: a square made of two triangles is filled along the diagonal that the triangles already have. The result has two edges
between the same two vertices. -/
theorem c55_counterexample : ∃ (m : Mesh Rat) (m' : Mesh XR), squareMesh = .ok () m ∧ (m.overR squareAt).Good ∧
    fillHoles (m.overR squareAt) = .ok () m' ∧ ¬ m'.Simple := by
  obtain ⟨m, h, S⟩ := squareMesh_ok
  have G : (m.overR squareAt).Good := S.good.over _
  refine ⟨m, ?_⟩
  have n := S.next
  have s := S.src
  have o := S.opp
  simp only [List.map_cons, List.map_nil, List.cons.injEq, and_true] at n s o
  obtain ⟨s0, s1, s2, s3⟩ := s
  obtain ⟨o0, o1, o2⟩ := o
  have on : ∀ x ∈ [7, 10, 9, 8], m.hAlive x = true := by
    intro x hx
    rw [← S.loop] at hx
    exact ((S.good.wf.mem_loop S.alive).1 hx).1
  have ev : ∀ v, (m.overR squareAt).vPos v = (squareAt v).fin := fun _ => rfl
  generalize hM : m.overR squareAt = M at G ev ⊢
  have eN : M.hNext = m.hNext := by rw [← hM]; rfl
  have eS : M.hSrc = m.hSrc := by rw [← hM]; rfl
  have eR : M.hRev = m.hRev := by rw [← hM]; rfl
  have eA : M.hAlive = m.hAlive := by rw [← hM]; rfl
  have eF : M.fAlive = m.fAlive := by rw [← hM]; rfl
  have eL : orbit M.hNext (M.fHe 3) = [7, 10, 9, 8] := by rw [← hM]; exact S.loop
  have eH : M.holeFaces = [3] := by rw [← hM]; exact S.hole
  have w := G.wf
  -- the corners and the opposite vertices
  have hv : ∀ i, i < 4 → boundaryPos ([7, 10, 9, 8].map M.hSrc) i M =
      .ok ((squareAt ([3, 2, 4, 1].getD i 0)).fin) M := by
    intro i hi
    have key : ∀ i x, [7, 10, 9, 8][i]? = some x → boundaryPos ([7, 10, 9, 8].map M.hSrc) i M = .ok ((squareAt (m.hSrc x)).fin) M := by
      intro i x hx
      unfold boundaryPos boundaryAt
      rw [List.getElem?_map, hx]
      have a : M.vAlive (M.hSrc x) = true := w.src_alive x (by rw [eA]; exact on x (List.mem_of_getElem? hx))
      refine (getPos_ok a).trans ?_
      rw [ev, eS]
    interval_cases i
    · exact (key 0 7 rfl).trans (by rw [s0]; rfl)
    · exact (key 1 10 rfl).trans (by rw [s1]; rfl)
    · exact (key 2 9 rfl).trans (by rw [s2]; rfl)
    · exact (key 3 8 rfl).trans (by rw [s3]; rfl)
  have hq : ∀ i, i < 3 → oppositePos ((startMaps [7, 10, 9, 8]).he i (i + 1)) M = .ok ((squareAt ([1, 1, 2].getD i 0)).fin) M := by
    intro i hi
    have key : ∀ x ∈ [7, 10, 9, 8], oppositePos x M = .ok ((squareAt (m.hSrc (m.hNext (m.hNext (m.hRev x))))).fin) M := by
      intro x hx
      rw [oppositePos_eq w (by rw [eA]; exact on x hx), ev, eS, eN, eR]
    interval_cases i
    · exact (key 7 (by simp)).trans (by rw [o0]; rfl)
    · exact (key 10 (by simp)).trans (by rw [o1]; rfl)
    · exact (key 9 (by simp)).trans (by rw [o2]; rfl)
  obtain ⟨t, ht, t1, t2⟩ := fillTable_four (bound := Scalar.pi) (v := fun i => (squareAt ([3, 2, 4, 1].getD i 0)).fin)
    (q := fun i => (squareAt ([1, 1, 2].getD i 0)).fin) (bs := [7, 10, 9, 8].map M.hSrc) (by simp) hv hq rfl rfl rfl rfl rfl
    (by
      obtain ⟨r, h1, h2, -⟩ := fillAngle_fin (squareAt 3) (squareAt 2) (squareAt 1) (squareAt 1) (squareAt 4)
      obtain ⟨r', h1', h2', -⟩ := fillAngle_fin (squareAt 2) (squareAt 4) (squareAt 1) (squareAt 1) (squareAt 2)
      simp only [List.getD_cons_zero, List.getD_cons_succ]
      rw [h1, h1', show (Scalar.lit 0 1 : XR) = .fin (Scalar.lit 0 1 : ℝ) from rfl,
        show (Scalar.lit (10 ^ 12) 1 : XR) = .fin (Scalar.lit (10 ^ 12) 1 : ℝ) from rfl, X_fmax, X_fmax, R_fmax, R_fmax, X_lt, R_lt, R_lit, R_lit]
      have := Real.pi_le_four
      refine max_lt (by norm_num; linarith) (max_lt (by norm_num) (by norm_num; linarith)))
    (by
      obtain ⟨r, h1, h2, -⟩ := fillAngle_fin (squareAt 3) (squareAt 2) (squareAt 1) (squareAt 1) (squareAt 4)
      obtain ⟨r', h1', h2', -⟩ := fillAngle_fin (squareAt 2) (squareAt 4) (squareAt 1) (squareAt 1) (squareAt 2)
      obtain ⟨x, k1, -, k2⟩ := fillAngle_fin (squareAt 3) (squareAt 4) (squareAt 1) (squareAt 2) (squareAt 2)
      obtain ⟨x', k1', -, -⟩ := fillAngle_fin (squareAt 3) (squareAt 2) (squareAt 4) (squareAt 1) (squareAt 1)
      have k2 := k2 square_normals
      simp only [List.getD_cons_zero, List.getD_cons_succ]
      rw [h1, h1', k1, k1', X_zero, X_fmax_max, X_fmax_max, X_fmax_max, X_fmax_max]
      exact X_lt_false (le_trans (max_le h2 (max_le Real.pi_pos.le h2')) (k2.trans (le_max_left _ _))))
    (by
      simp only [List.getD_cons_zero, List.getD_cons_succ]
      have e : ∀ a b c : Vec3 ℝ, ((b.sub a).cross (c.sub a)).dot ((b.sub a).cross (c.sub a)) = 1 → fillArea a.fin b.fin c.fin = .fin (Scalar.lit 1 2 : ℝ) :=
        fillArea_fin
      rw [e (squareAt 2) (squareAt 4) (squareAt 1) (by norm_num [squareAt, Vec3.cross_def, Vec3.sub_def, Vec3.dot_def]),
        e (squareAt 3) (squareAt 2) (squareAt 1) (by norm_num [squareAt, Vec3.cross_def, Vec3.sub_def, Vec3.dot_def]),
        e (squareAt 3) (squareAt 2) (squareAt 4) (by norm_num [squareAt, Vec3.cross_def, Vec3.sub_def, Vec3.dot_def]),
        e (squareAt 3) (squareAt 4) (squareAt 1) (by norm_num [squareAt, Vec3.cross_def, Vec3.sub_def, Vec3.dot_def]),
        X_zero, X_add, X_add, X_add, X_add]
      exact X_lt_false (by rw [zero_add, add_zero]))
  have p : Poly 4 [(0, 1, 3), (1, 2, 3)] :=
    Triangulation.poly (by decide) (.cut (.side 0) (.cut (.side 1) (.side 2))) (List.Perm.refl _)
  have af : M.fAlive 3 = true := by rw [eF]; exact S.alive
  obtain ⟨m', He, r, P⟩ := holeFill_of_table w af eL ht (tris := [(0, 1, 3), (1, 2, 3)]) (by simp [fillTris, t1, t2]) p
  obtain ⟨rem, f1, f2, I⟩ := fillHoles_start w (fun h a => (G.tri.holds h a).imp_right fun t h' a' e => (t h' a' e).1)
  rw [holeFaces_eq w, eH] at f2
  have hrun : fillHoles M = .ok () m' := by
    match rem, f2, f1, I with
    | [(i, g)], f2, f1, I =>
      simp only [List.map_cons, List.map_nil, List.cons.injEq, and_true] at f2
      subst f2
      rw [f1]
      simp only [List.map_cons, List.map_nil, fillAt]
      rw [bind_apply, faceAt_ok (I.slots (i, 3) (by simp))]
      dsimp only
      rw [bind_apply]
      unfold triangulate
      rw [r]
      rfl
  have l := w.faceLoop af
  rw [eL] at l
  refine ⟨m', h, G, hrun, fun sm => ?_⟩
  have he : ((1, 3) : Nat × Nat) ∈ allDirs [(0, 1, 3), (1, 2, 3)] := by decide
  have ns : ¬ IsSide [7, 10, 9, 8].length (1, 3) := by unfold IsSide; decide
  obtain ⟨c, c', c1, c2, -, d1, d2⟩ := P.diagonal p l he ns
  cases c1
  cases c2
  obtain ⟨b1, b2, b3⟩ := S.diag
  have b1' : M.hAlive 4 = true := by rw [eA]; exact b1
  have := sm.no_dup (He (1, 3)) 4 (P.alive_e l he) ((P.hal 4).2 (.inl b1'))
    (by rw [d1, P.src_old p l b1', eS]; exact s1.trans b2.symm)
    (by rw [d2, P.dst_old w p l b1', eS, eN]; exact s3.trans b3.symm)
  have hf := (P.hNew (1, 3) he ns).1
  have : M.hFresh = 11 := by rw [← hM]; exact S.fresh
  omega

end TinyMesh
