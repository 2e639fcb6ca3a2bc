import Verif.Proof.Tests
import Verif.Props.Examples
import Verif.Props.Operators
import Verif.Props.Built
import Verif.Props.Geom
import Verif.Props.Deriv
import Verif.Props.Repair
/-
The tests of the library (C112).
-/
set_option maxRecDepth 100000
namespace TinyMesh
open Orbit

section
variable {F : Type} [ScalarX F] {m m' : Mesh F}

/-- C112: on a consistent mesh, the test of loading passes if and only if all positions are finite and the mesh has a face. -/
theorem c112_load (w : m.WF) : ∃ b, checkLoaded m = .ok b m ∧ (b = true ↔ (∀ v ∈ m.vs, (m.vPos v).finite = true) ∧ m.fs ≠ []) := by
  obtain ⟨b, e, hb⟩ : ∃ b, verify m = .ok b m ∧ (b = true ↔ ∀ v ∈ m.vs, (m.vPos v).finite = true) := ⟨_, w.verify_ok, by simp⟩
  unfold checkLoaded
  rw [bind_apply, e]
  dsimp only
  cases b with
  | false =>
    refine ⟨false, rfl, ?_⟩
    simp only [Bool.false_eq_true, false_iff] at hb ⊢
    exact fun h => hb h.1
  | true =>
    obtain ⟨n, en, hn⟩ := w.numEdges_ok
    rw [if_pos rfl]
    simp only [bind_apply, read_apply, en, w.checkDegrees_ok _ fun i hi => List.mem_range.1 hi]
    refine ⟨_, rfl, ?_⟩
    obtain ⟨h1, h2⟩ := w.none_empty
    simp only [Bool.and_eq_true, decide_eq_true_eq, List.length_pos_iff]
    constructor
    · rintro ⟨⟨⟨⟨-, h⟩, -⟩, -⟩, -⟩
      exact ⟨hb.1 rfl, h⟩
    · rintro ⟨-, h⟩
      have hh := h1.1 h
      have := List.length_pos_iff.2 hh
      exact ⟨⟨⟨⟨h2.2 hh, h⟩, by omega⟩, hh⟩, trivial⟩

/-- C112: a mesh without faces, such as the one that is built from empty lists, passes neither the test of loading nor that of `BVH::distance`; the
latter dereferences the null pointer at the root of the tree. -/
theorem c112_empty (w : m.WF) (h : m.fs = []) (lib : Lib F) (q : Vec3 F) :
    checkLoaded m = .ok false m ∧ checkClosest lib q m = .err .ub := by
  refine ⟨?_, ?_⟩
  · obtain ⟨b, e, hb⟩ := c112_load w
    cases b with
    | false => exact e
    | true => exact absurd h (hb.1 rfl).2
  · have hh : m.hes = [] := by
      by_contra hne
      exact w.none_empty.1.2 hne h
    have e : fillHoles m = .ok () m := c21_again w (by unfold Mesh.holeFaces; rw [h]; rfl) fun x a => by
      have := (w.hDense.mem x).2 a
      rw [hh] at this
      cases this
    have ei : getVertexIndices m = .ok [] m := by
      simp only [getVertexIndices, bind_apply, M.read, h]
      rfl
    have es : soupOf m = .ok ⟨m.vs.map m.vPos, []⟩ := by
      unfold soupOf
      rw [w.getVertices_ok]
      simp only [ei]
      rfl
    unfold checkClosest
    rw [bind_apply, e]
    dsimp only
    rw [bind_apply, read_apply]
    dsimp only
    rw [h]
    have et : bvhOfMesh lib q m = .error .ub := by
      unfold bvhOfMesh
      rw [es]
      rfl
    change compareTree lib q _ m = _
    unfold compareTree
    rw [et]

/-- C112: a face with three corners is converted to the triangle of its corners, beginning with that of its half-edge; for other faces the
assertion fails. -/
theorem c112_triangle (w : m.WF) {f : Nat} (a : m.fAlive f = true) :
    (m.sides f = 3 → toTriangle f m = .ok ⟨m.vPos (m.hSrc (m.fHe f)), m.vPos (m.hSrc (m.hNext (m.fHe f))),
      m.vPos (m.hSrc (m.hNext (m.hNext (m.fHe f))))⟩ m) ∧ (m.sides f ≠ 3 → toTriangle f m = .err .abort) :=
  ⟨w.toTriangle_ok a, w.toTriangle_abort a⟩

/-- C112: a test that fills the holes and calls one function does not reach undefined behaviour after filling, on a consistent mesh whose holes have
no chords. -/
theorem c112_works (g : m.Good) (c : m.Chordless m.holeFaces) {k : Work F} (f : ∀ m1, HolesFilled m m1 → k.Fits m1) :
    (∃ m', testWork k m = .ok () m' ∧ m'.Good ∧ m'.euler2 = m.euler2 ∧ SamePieces m m') ∨
      (∃ e, (e = .abort ∨ e = .throw ∨ e = .diverge ∧ k.IsL0) ∧ testWork k m = .err e) ∨
      testWork k m = .err .ub ∧ fillHoles m = .err .ub := by
  rcases after_fill g c (rest := k.run) fun m1 H g1 => work_any g1 (f m1 H) with ⟨m', e, h1, h2, h3, -⟩ | h | ⟨h1, h2⟩
  · exact .inl ⟨m', e, h1, h2, h3⟩
  · exact .inr (.inl h)
  · exact .inr (.inr ⟨h2, h1⟩)

end

/-- C112: in exact arithmetic the tests of filters that do not divide by lengths or areas, and the test of remeshing, pass on every consistent
mesh with finite positions whose holes have no chords. -/
theorem c112_works_exact {m : Mesh XR} (g : m.Good) {p : Nat → E3} (A : m.AtE p) (c : m.Chordless m.holeFaces) :
    (∃ m', testWork (.call (.laplacian (Scalar.lit 1 1) false 3)) m = .ok () m' ∧ m'.Good) ∧
    (∃ m', testWork (.call (.taubin (Scalar.lit 1 2) (Scalar.lit 53 100) 3)) m = .ok () m' ∧ m'.Good) ∧
    (∀ solve, ∃ m', testWork (.fairing solve (Scalar.lit 1 1) 1) m = .ok () m' ∧ m'.Good) ∧
    (∀ sh, ∃ m', testWork (.call (.remesh sh (Scalar.lit 8 10) (Scalar.lit 1333 1000) (Scalar.lit 0 1) 5)) m = .ok () m' ∧ m'.Good) ∧
    (m.hes ≠ [] → ∀ (solve : LinSolve XR) (order : List Nat → List Nat), (∀ l, (order l).Perm l) →
      ∃ N m', (∀ fuel, N < fuel → testWork (.l0 solve order fuel (Scalar.lit 1 10) (Scalar.lit 1 1000)) m = .ok () m') ∧ m'.Good) := by
  obtain ⟨m1, r, H, A1⟩ := fill_atE g A
  have g1 := c55_simple_partial g c r
  have key : ∀ {c : Call XR}, c.Fits m1 → c.Sound m1 → ∃ m', testWork (.call c) m = .ok () m' ∧ m'.Good := by
    intro c f s
    obtain ⟨m', e', d, -⟩ := call_exact g1 ⟨p, A1⟩ f s
    exact ⟨m', by unfold testWork; rw [bind_apply, r]; exact e', d.good⟩
  refine ⟨key trivial ⟨⟨_, X_lit 1 1⟩, rfl⟩, key (by simp [Call.Fits]) ⟨⟨_, X_lit 1 2⟩, ⟨_, X_lit 53 100⟩⟩, fun solve => ?_,
    fun sh => key trivial trivial, fun hne solve order ho => ?_⟩
  · obtain ⟨m2, e, s⟩ := c109_fairing g1.wf solve (Scalar.lit 1 1) 1
    exact ⟨m2, by unfold testWork; rw [bind_apply, r]; exact e, (s.callDone g1).good⟩
  · obtain ⟨N, h⟩ := c110_l0_ends
    obtain ⟨m1', m', e, h', s⟩ := h g A hne solve ho
    rw [r] at e
    cases e
    exact ⟨N, m', h', (s.callDone g1).good⟩

/-- C112: the tests of the filters of normals can only be stopped by a division by zero. -/
theorem c112_normals {F : Type} [ScalarX F] {m : Mesh F} (g : m.Good) {k : Work F}
    (hk : k = .gaussian (Scalar.lit 2 10) 5 ∨ k = .bilateral (Scalar.lit 2 10) (Scalar.lit 1 10) 5) :
    (∃ m1 m', fillHoles m = .ok () m1 ∧ testWork k m = .ok () m' ∧ m1.SameButPos m') ∨ testWork k m = .err .throw ∨
      (testWork k m = .err .ub ∧ fillHoles m = .err .ub) := by
  unfold testWork
  rw [bind_apply]
  rcases c21_fill g with ⟨m1, h, H⟩ | h
  · rw [h]
    dsimp only
    have ho : (∃ sg n, k.run m1 = denoiseNormalGaussian sg n m1) ∨ ∃ sg sn n, k.run m1 = denoiseNormalBilateral sg sn n m1 := by
      rcases hk with rfl | rfl
      · exact .inl ⟨_, _, rfl⟩
      · exact .inr ⟨_, _, _, rfl⟩
    rcases c109_normals H.consistent ho with ⟨m', h', s⟩ | h' | ⟨-, f, a, n⟩
    · exact .inl ⟨m1, m', rfl, h', s⟩
    · exact .inr (.inl h')
    · exact absurd (H.three g a) n
  · rw [h]
    exact .inr (.inr ⟨rfl, rfl⟩)

/-- C112: in exact arithmetic the test of hole filling passes on every consistent mesh with finite positions. -/
theorem c112_filled {m : Mesh XR} (g : m.Good) {p : Nat → E3} (A : m.AtE p) : ∃ m', checkFilled m = .ok true m' ∧ HolesFilled m m' := by
  obtain ⟨m1, r, H, A1⟩ := fill_atE g A
  refine ⟨m1, ?_, H⟩
  unfold checkFilled
  rw [bind_apply, r]
  dsimp only
  rw [H.consistent.verify_ok, List.all_eq_true.2 fun v hv => ?_]
  obtain ⟨w, hw, -⟩ := A1 v ((H.consistent.vDense.mem v).1 hv)
  rw [hw]
  rfl

/-- C112: in exact arithmetic the tests of simplification pass if the part of the faces that is to remain, counted after filling and rounded down, is
not zero; otherwise the assertion of the library stops them. -/
theorem c112_simplify {m : Mesh XR} (g : m.Good) {p : Nat → E3} (A : m.AtE p) (S : Solver XR)
    (ord : Nat → List (Nat × Vec3 XR) → List (Nat × Vec3 XR)) (part : Nat) (hi : m.facesFilled ≤ 2147483647) :
    (m.facesFilled < part → testSimplify S ord part m = .err .abort) ∧
    (0 < part → part ≤ m.facesFilled → m.Chordless m.holeFaces → S.Exact → (∀ n l, ∀ c ∈ ord n l, c ∈ l) →
      ∃ m', testSimplify S ord part m = .ok () m' ∧ m'.Good ∧ m'.euler2 = m.euler2 ∧ SamePieces m m') := by
  obtain ⟨m1, r, H, A1⟩ := fill_atE g A
  have e := facesFilled_eq H
  unfold testSimplify
  rw [bind_apply, r]
  dsimp only
  rw [bind_apply, read_apply]
  dsimp only
  refine ⟨fun h => ?_, fun h0 h c hS ho => ?_⟩
  · rw [Nat.div_eq_of_lt (by omega)]
    exact c26_zero S ord 10 (by omega)
  · have g1 := c55_simple_partial g c r
    have pos : 0 < m1.fs.length / part := Nat.div_pos (by omega) h0
    obtain ⟨m', e', d, -⟩ := call_exact (c := .simplify S ord (m1.fs.length / part : Nat) 10) g1 ⟨p, A1⟩ ⟨by omega, ho⟩ ⟨hS, by omega⟩
    exact ⟨m', e', d.good, d.euler.trans H.euler, (c97_fill g r).after H.vAlive (d.pieces.pieces g1.wf)⟩

/-- C112: in exact arithmetic the test of the Laplacian matrices passes if some edge is not of length zero. -/
theorem c112_laplacian {m : Mesh XR} (g : m.Good) {p : Nat → E3} (A : m.AtE p) {h : Nat} (a : m.hAlive h = true)
    (hp : p (m.hSrc h) ≠ p (m.hSrc (m.hNext h))) : ∃ m', testLaplacian m = .ok () m' ∧ HolesFilled m m' := by
  obtain ⟨m1, r, H, A1⟩ := fill_atE g A
  obtain ⟨L1, -, e1, -⟩ := c30_adjacent H.consistent
  obtain ⟨L2, -, e2, -⟩ := c30_cotangent H.consistent A1
  obtain ⟨k1, k2, k3, -⟩ := H.kept h a
  obtain ⟨L3, -, e3, -⟩ := c30_belkin H.consistent A1 k1 (by rw [k2, k3]; exact hp)
  refine ⟨m1, ?_, H⟩
  unfold testLaplacian
  simp only [bind_apply, r, e1, e2, e3]
  rfl

/-- C112: the test of heat kernel signatures is stopped by an assertion on every mesh with at most 200 vertices, whatever the eigenvalue solver does:
the test asks for as many eigenvalues as there are vertices. In exact arithmetic it passes on every mesh with more vertices and finite positions if
the solver succeeds. -/
theorem c112_signatures {m : Mesh XR} (g : m.Good) {p : Nat → E3} (A : m.AtE p) (eig : Nat → (Nat → Nat → XR) → Nat → Option (Eigs XR)) :
    (m.vs.length ≤ 200 → testSignatures eig m = .err .abort) ∧
    (200 < m.vs.length → (∀ L, (eig m.vs.length L 200).isSome = true) → ∃ m', testSignatures eig m = .ok () m' ∧ HolesFilled m m') := by
  obtain ⟨m1, r, H, A1⟩ := fill_atE g A
  obtain ⟨L, -, e, -⟩ := c30_cotangent H.consistent A1
  have ev : m1.vs.length = m.vs.length := by rw [H.vs]
  unfold testSignatures
  simp only [bind_apply, r, e, read_apply, ev]
  refine ⟨fun h => ?_, fun h he => ⟨m1, ?_, H⟩⟩
  · rw [min_eq_left h, (c48_errors _ _ _ _).1 le_rfl]
    rfl
  · rw [min_eq_right h.le]
    obtain ⟨E, hE⟩ := Option.isSome_iff_exists.1 (he L)
    rw [hE]
    unfold hks
    rw [if_neg (by omega)]
    dsimp only
    rw [if_neg (by omega)]
    rfl

/-- C112: in exact arithmetic the tests of the curvatures pass if the mesh without holes has triangles of positive area and normals in general
position, and the solver solves regular systems. -/
theorem c112_curvatures {m m1 : Mesh XR} (g : m.Good) (c : m.Chordless m.holeFaces) {p : Nat → E3} (A : m.AtE p) (r : fillHoles m = .ok () m1)
    (C : m1.CurvProper p) (hne : m.hes ≠ []) {solve : LinSolve XR} (hS : solve.Exact) : testCurvatures solve m = .ok () m1 := by
  obtain ⟨m2, r2, H, A1⟩ := fill_atE g A
  rw [r] at r2
  cases r2
  have g1 := c55_simple_partial g c r
  have ne1 : m1.hes ≠ [] := by
    obtain ⟨x, hx⟩ := List.exists_mem_of_ne_nil _ hne
    exact List.ne_nil_of_mem ((g1.wf.hDense.mem x).2 (H.kept x ((g.wf.hDense.mem x).1 hx)).1)
  obtain ⟨T0, T, K, E, -, e2, e3, -⟩ := c91_derivatives_partial g1 hS A1 C ne1 false fun h => by cases h
  unfold testCurvatures
  simp only [bind_apply, r, e2, e3]
  rfl

open Classical in
/-- after filling, all faces are reported -/
theorem HolesFilled.tris {m m' : Mesh XR} (H : HolesFilled m m') (p : Nat → Vec3 ℝ) : m'.trisR p = m'.fs.map (m'.faceTri p) := by
  unfold Mesh.trisR
  rw [List.filter_eq_self.2]
  intro f hf
  rw [decide_eq_true_eq]
  intro h
  have := (mem_holeFaces H.consistent).2 ⟨(H.consistent.fDense.mem f).1 hf, h⟩
  rw [H.noHole] at this
  cases this

/-- C112: in exact arithmetic the test of `BVH::distance` passes on every consistent mesh with a face, positions and query of absolute value at most
1e19, for every standard library. -/
theorem c112_closest {lib : Lib XR} (std : lib.Std) {m : Mesh XR} (g : m.Good) {p : Nat → Vec3 ℝ} (hp : m.At p)
    (near : ∀ v, m.vAlive v = true → (p v).Near) (hne : m.fs ≠ []) {q : Vec3 ℝ} (hq : q.Near) :
    ∃ m', fillHoles m = .ok () m' ∧ checkClosest lib q.fin m = .ok true m' ∧ HolesFilled m m' := by
  obtain ⟨m1, r, H⟩ := c21_fill_exact g hp
  have w1 := H.consistent
  have hp1 : m1.At p := fun v hv => by rw [H.vPos]; exact hp v (by rwa [H.vAlive] at hv)
  have ne1 : m1.fs ≠ [] := by
    have := g.wf.none_empty.1.1 hne
    obtain ⟨x, hx⟩ := List.exists_mem_of_ne_nil _ this
    exact w1.none_empty.1.2 (List.ne_nil_of_mem ((w1.hDense.mem x).2 (H.kept x ((g.wf.hDense.mem x).1 hx)).1))
  obtain ⟨e, -⟩ := bvhOfMesh_ok std w1 ⟨fun h a => .inl (H.triangles h a)⟩ hp1 (fun v hv => near v (by rwa [H.vAlive] at hv))
    (by rw [H.tris]; simpa using ne1) hq
  have e2 := nearest_ok w1 (fun f a => H.three g a) hp1 q (List.range m1.fs.length) (10 ^ 20) fun i hi => List.mem_range.1 hi
  refine ⟨m1, r, ?_, H⟩
  unfold checkClosest
  rw [bind_apply, r]
  dsimp only
  rw [bind_apply, read_apply]
  dsimp only
  have l : (Scalar.lit (10 ^ 20) 1 : XR) = .fin (10 ^ 20) := by rw [X_lit, R_lit]; norm_num
  rw [bind_apply, l, e2]
  dsimp only [compareTree]
  rw [e]
  dsimp only
  have ev : List.foldl (fun r i => min r ((m1.faceTri p (m1.fs.getD i 0)).distance q)) (10 ^ 20) (List.range m1.fs.length) = minD (m1.trisR p) q := by
    rw [foldl_min (fun i => (m1.faceTri p (m1.fs.getD i 0)).distance q), H.tris]
    unfold minD
    congr 1
    rw [List.map_map]
    refine List.ext_getElem (by simp) fun i h1 h2 => ?_
    simp only [List.length_map, List.length_range] at h1
    simp [h1]
  rw [ev, expectNear_self]

/-- C112: passing says nothing about the distance to the surface, as both sides of the comparison use `Triangle::closestPoint` (C32). The tetrahedron of
C36 passes the test with the query (0, 0, 1), which is one of its vertices, and the distance that both sides compute is at least one. -/
theorem c112_blind : ∃ (m : Mesh XR) (p : Nat → Vec3 ℝ) (d : ℝ), construct (cornerV.map Vec3.toX) (ofTris cornerT)
    (Mesh.empty (fun n => 2 * n)) = .ok () m ∧ m.Good ∧ m.At p ∧ (∃ v, m.vAlive v = true ∧ p v = ⟨0, 0, 1⟩) ∧ 1 ≤ d ∧
    ∀ lib : Lib XR, lib.Std → bvhOfMesh lib (Vec3.fin ⟨0, 0, 1⟩) m = .ok (.fin d) ∧ checkClosest lib (Vec3.fin ⟨0, 0, 1⟩) m = .ok true m := by
  obtain ⟨m, h, G, hp, hi⟩ := closedX corner_valid corner_merged corner_manifold corner_closed (fun n => 2 * n)
  obtain ⟨p, pa, hR⟩ := exists_at G.wf hp
  have tr := trisX h hi pa hR
  have ek : ((keepTris [] cornerT).filter (fun t => !t.isolated (keepTris [] cornerT))) = cornerT := by decide +kernel
  rw [ek] at tr
  have tr' : m.trisR p = [⟨⟨1, 0, 0⟩, ⟨0, 0, 0⟩, ⟨0, 1, 0⟩⟩, ⟨⟨0, 0, 0⟩, ⟨1, 0, 0⟩, ⟨0, 0, 1⟩⟩,
      ⟨⟨1, 0, 0⟩, ⟨0, 1, 0⟩, ⟨0, 0, 1⟩⟩, ⟨⟨0, 1, 0⟩, ⟨0, 0, 0⟩, ⟨0, 0, 1⟩⟩] := by
    have := (Except.ok.inj tr).symm
    rw [this]
    simp [Vec3.toR, Sample.pt]
  have near : ∀ v, m.vAlive v = true → (p v).Near := by
    intro v hv i
    have : p v ∈ m.vs.map p := List.mem_map_of_mem ((G.wf.vDense.mem v).2 hv)
    rw [hR] at this
    simp only [cornerV, List.map_cons, List.map_nil, List.mem_cons, List.not_mem_nil, or_false] at this
    rcases this with h | h | h | h <;> rw [h] <;> fin_cases i <;> simp [Vec3.toR, Sample.pt] <;> norm_num
  have nq : (⟨0, 0, 1⟩ : Vec3 ℝ).Near := by
    intro i
    fin_cases i <;> simp <;> norm_num
  have hv : ∃ v, m.vAlive v = true ∧ p v = ⟨0, 0, 1⟩ := by
    have : (⟨0, 0, 1⟩ : Vec3 ℝ) ∈ m.vs.map p := by
      rw [hR]; simp [cornerV, Vec3.toR, Sample.pt]
    obtain ⟨v, hv, e⟩ := List.mem_map.1 this
    exact ⟨v, (G.wf.vDense.mem v).1 hv, e⟩
  have rim : ∀ a, ¬ OnRim (keepTris [] cornerT) a := by
    have ek' : keepTris [] cornerT = cornerT := by decide +kernel
    have sym : ∀ a b, EdgeOf cornerT a b → EdgeOf cornerT b a := by
      rintro a b ⟨t, ht, e⟩
      obtain ⟨s, hs, e'⟩ := corner_closed t ht _ e
      exact ⟨s, hs, e'⟩
    rintro a ⟨b, ⟨h1, h2⟩ | ⟨h1, h2⟩⟩ <;> rw [ek'] at h1 h2 <;> exact h2 (sym _ _ h1)
  have noBd : ∀ h, m.hAlive h = true → m.hBd h = false := by
    intro x ax
    have av := G.wf.src_alive x ax
    obtain ⟨i, hi', e⟩ := List.mem_iff_getElem.1 ((G.wf.vDense.mem _).2 av)
    obtain ⟨r, e1, e2⟩ := c103_boundary (Owned.empty _) h hi (a := i) (v := m.hSrc x) (by rw [List.getElem?_eq_getElem hi', e])
    obtain ⟨r', e1', e2'⟩ := (c10_flags G.wf).1 _ av
    rw [e1] at e1'
    cases e1'
    by_contra hb
    exact rim i (e2.1 (e2'.2 ⟨x, ax, rfl, by simpa using hb⟩))
  have noHole : ∀ f, m.fAlive f = true → ¬ m.HoleFace f := by
    intro f a hf
    obtain ⟨a0, e0⟩ := G.wf.fHe_ok f a
    have := hf _ a0 e0
    rw [noBd _ a0] at this
    cases this
  have hne : m.trisR p ≠ [] := by rw [tr']; simp
  have fs : m.fs ≠ [] := by
    intro e
    apply hne
    unfold Mesh.trisR
    rw [e]
    rfl
  have again : fillHoles m = .ok () m := by
    refine c21_again G.wf ?_ fun x ax => ?_
    · rw [List.eq_nil_iff_forall_not_mem]
      intro f hf
      obtain ⟨a, b⟩ := (mem_holeFaces G.wf).1 hf
      exact noHole f a b
    · rcases G.tri.holds x ax with h | h
      · exact h
      · have := (h x ax rfl).1
        rw [noBd _ ax] at this
        cases this
  have pos : ∀ t ∈ m.trisR p, 1 ≤ t.distance ⟨0, 0, 1⟩ := by
    have far : ∀ t : Triangle ℝ, t.closestPoint ⟨0, 0, 1⟩ = t.p1 → t.p1.z = 0 → 1 ≤ t.distance ⟨0, 0, 1⟩ := by
      intro t h1 h2
      unfold Triangle.distance
      rw [h1, Vec3.length_def, Real.le_sqrt' (by norm_num)]
      simp only [Vec3.dot_def, Vec3.sub_def, h2]
      nlinarith [mul_self_nonneg (0 - t.p1.x), mul_self_nonneg (0 - t.p1.y)]
    have far' : ∀ t : Triangle ℝ, t.p2 = ⟨0, 0, 1⟩ → t.p0 ≠ ⟨0, 0, 1⟩ → t.p1.z = 0 → 1 ≤ t.distance ⟨0, 0, 1⟩ := by
      intro t h2 h0 h1
      have := t.closest_third (by rw [h2]; exact h0.symm)
      rw [h2] at this
      exact far t this h1
    intro t ht
    rw [tr'] at ht
    simp only [List.mem_cons, List.not_mem_nil, or_false] at ht
    rcases ht with rfl | rfl | rfl | rfl
    · obtain ⟨-, c, -⟩ := (⟨⟨1, 0, 0⟩, ⟨0, 0, 0⟩, ⟨0, 1, 0⟩⟩ : Triangle ℝ).closest_eq ⟨0, 0, 1⟩
        (d1 := 1) (d2 := 1) (d3 := 0) (d4 := -1)
        (by norm_num [Vec3.dot_def, Vec3.sub_def]) (by norm_num [Vec3.dot_def, Vec3.sub_def])
        (by norm_num [Vec3.dot_def, Vec3.sub_def]) (by norm_num [Vec3.dot_def, Vec3.sub_def])
      exact far _ (c (by norm_num) (by norm_num)) rfl
    · exact far' _ rfl (by simp) rfl
    · exact far' _ rfl (by simp) rfl
    · exact far' _ rfl (by simp) rfl
  obtain ⟨-, t, ht, em, -⟩ := bvhOfMesh_ok idLib_std G.wf G.tri pa near hne nq
  refine ⟨m, p, _, h, G, pa, hv, by rw [em]; exact pos t ht, fun lib std => ⟨(bvhOfMesh_ok std G.wf G.tri pa near hne nq).1, ?_⟩⟩
  obtain ⟨m', r, e, -⟩ := c112_closest std G pa near fs nq
  rw [again] at r
  cases r
  exact e

/-! ### The hypotheses can be met -/

attribute [local instance] Sample.ratScalar in
/-- the empty lists are accepted -/
example : ∃ m : Mesh XR, construct [] [] (Mesh.empty (fun n => 2 * n)) = .ok () m ∧ m.WF ∧ m.fs = [] := by
  obtain ⟨m, h, G, hp, -⟩ := closedX (P := []) (ts := []) (validB_iff (by decide +kernel)) (mergedB_iff (by decide +kernel))
    (manifoldB_iff (fans := []) (by decide +kernel)) (by decide) (fun n => 2 * n)
  refine ⟨m, h, G.wf, ?_⟩
  by_contra hne
  have := G.wf.none_empty.2.2 (G.wf.none_empty.1.1 hne)
  simp at hp
  exact this hp

/-- the pyramid without its base meets the hypotheses: five faces, one of which is a hole, and six after filling, so that simplification to one half
passes and simplification to one tenth fails -/
example : ∃ m : Mesh XR, m.Good ∧ m.holeFaces ≠ [] ∧ (∃ m', checkFilled m = .ok true m') ∧ checkLoaded m = .ok true m ∧
    testSimplify exactSolver (fun _ => List.reverse) 10 m = .err .abort ∧
    (∃ m', testSimplify exactSolver (fun _ => List.reverse) 2 m = .ok () m') ∧
    ∃ m', testWork (.call (.taubin (Scalar.lit 1 2) (Scalar.lit 53 100) 3)) m = .ok () m' := by
  obtain ⟨m, p, g, A, c, f5, h4, h6, hne⟩ := pyramid_facts
  obtain ⟨m1, e1, -⟩ := c112_filled g A
  obtain ⟨b, e2, hb⟩ := c112_load g.wf
  have hb' : b = true := hb.2 ⟨fun v hv => by
    obtain ⟨w, hw, -⟩ := A v ((g.wf.vDense.mem v).1 hv)
    rw [hw]
    rfl, g.wf.none_empty.1.2 hne⟩
  rw [hb'] at e2
  obtain ⟨m2, e4, -⟩ := (c112_simplify g A exactSolver (fun _ => List.reverse) 2 (by omega)).2 (by omega) (by omega) c exactSolver_exact
    fun _ _ _ h => List.mem_reverse.1 h
  obtain ⟨-, ⟨m3, e5, -⟩, -⟩ := c112_works_exact g A c
  have hh : m.holeFaces ≠ [] := fun h => by rw [h] at h4; cases h4
  exact ⟨m, g, hh, ⟨m1, e1⟩, e2,
    (c112_simplify g A exactSolver (fun _ => List.reverse) 10 (by omega)).1 (by omega), ⟨m2, e4⟩, m3, e5⟩

/-- the tetrahedron in a sphere, without flags, meets the hypotheses of `c112_curvatures`, and the test of signatures fails on it -/
example : ∃ m : Mesh XR, m.Good ∧ testCurvatures exactSolve m = .ok () m ∧ ∀ eig, testSignatures eig m = .err .abort := by
  obtain ⟨m0, G0, vs, hne, A, I, hb, ha, h8⟩ := ball_inscribed
  have C := I.proper G0.wf hb
  let m : Mesh XR := { m0 with hBd := fun _ => false }
  have w0 := G0.wf
  have w : m.WF := ⟨w0.1, w0.2, w0.3, w0.4, w0.5, w0.6, w0.7, w0.8, w0.9, w0.10, w0.11, w0.12, w0.13, w0.14, w0.15, w0.16, w0.17, w0.18, w0.19⟩
  have G : m.Good := ⟨w, ⟨fun h a => .inl (I.tri h a)⟩, ⟨G0.simple.1, G0.simple.2⟩⟩
  have hh : m.holeFaces = [] := by
    rw [List.eq_nil_iff_forall_not_mem]
    intro f hf
    obtain ⟨a, b⟩ := (mem_holeFaces w).1 hf
    have := b _ (w.fHe_ok f a).1 (w.fHe_ok f a).2
    cases this
  have C' : m.CurvProper fun v => (ballAt v).E := ⟨C.1, C.2, C.3, C.4, C.5⟩
  refine ⟨m, G, c112_curvatures G ?_ A (c21_again w hh I.tri) C' hne exactSolve_exact, fun eig => (c112_signatures G A eig).1 (by
    change m0.vs.length ≤ _
    rw [vs]
    decide)⟩
  rw [hh]
  constructor <;> intro f hf <;> cases hf

/-- by splits, a closed mesh gets any number of vertices -/
theorem Mesh.Sound.grown {m : Mesh XR} (s : m.Sound) {x : Nat} (ax : m.hAlive x = true) (px : 0 < m.lenOf m.placed x) (n : Nat) :
    ∃ m' : Mesh XR, m'.Sound ∧ m'.vs.length = m.vs.length + n ∧ ∃ y, m'.hAlive y = true ∧ 0 < m'.lenOf m'.placed y := by
  induction n with
  | zero => exact ⟨m, s, rfl, x, ax, px⟩
  | succ n ih =>
    obtain ⟨m1, s1, e1, y, ay, py⟩ := ih
    have g := s1.shut.good
    have w := g.wf
    have ok := (c12_split_iff g y ay).2 ⟨s1.deg _ (w.src_alive _ ay), s1.deg _ (w.src_alive _ (w.next_alive _ ay)), s1.shut.noFlag _ ay,
      s1.shut.noFlag _ (w.rev_alive _ ay)⟩
    rcases splitHE_cases g ay with e | ⟨m2, he, S⟩
    · obtain ⟨m', e'⟩ := ok
      rw [e] at e'
      cases e'
    · have D := S.done g
      obtain ⟨s2, -, -⟩ := split_step s1 (lim := m1.lenOf m1.placed y / 2) (by linarith) ay S (by linarith)
      have ah := S.a
      have pA := w.src_alive _ ah
      have qA := w.src_alive _ (w.rev_alive _ ah)
      have pn : (m2.vPos m1.vFresh).Is (midpoint ℝ (m1.placed (m1.hSrc he)) (m1.placed (m1.hSrc (m1.hRev he)))) := by
        rw [D.pos]; exact midPoint_is (s1.at_ _ pA) (s1.at_ _ qA)
      have pe : m2.placed m1.vFresh = _ := (s2.at_ _ D.alive).unique pn
      obtain ⟨z, az, z1, z2⟩ := (D.edges m1.vFresh (m1.hSrc he)).2 (.inr (.inl ⟨rfl, .inl rfl⟩))
      refine ⟨m2, s2, by rw [D.nv, e1]; omega, z, az, ?_⟩
      unfold Mesh.lenOf at py ⊢
      rw [z1, z2, pe, D.keeps.placed pA, norm_pos_iff, sub_ne_zero]
      intro h
      have h2 : m1.placed (m1.hSrc he) = m1.placed (m1.hSrc (m1.hRev he)) := by
        rw [midpoint_eq_left_iff] at h
        exact h
      rw [norm_pos_iff, sub_ne_zero] at py
      rcases S.side with e | e
      · rw [e, w.src_rev _ ay] at h2
        exact py h2
      · rw [e, w.rev_rev _ ay, w.src_rev _ ay] at h2
        exact py h2.symm

/-- there are consistent meshes with more than 200 vertices, for which the test of signatures passes with a solver that succeeds -/
example : ∃ m : Mesh XR, m.Good ∧ 200 < m.vs.length ∧ ∃ m', testSignatures (fun _ _ _ => some ⟨fun _ _ => .fin 0, fun _ => .fin 1⟩) m = .ok () m' := by
  obtain ⟨m, G, I⟩ := ring_tables
  have I' := I
  obtain ⟨hes, ⟨o13, o3, o1, o2⟩, d13, f13, rf13, d3, f3, d1, f1, d2, f2, deg, revs, srcs, faces, -⟩ := I'
  rw [o13] at d13
  simp only [List.map_cons, List.map_nil, List.cons.injEq, and_true] at d13
  obtain ⟨a1, s1⟩ := (ring_mem (v := 13) G (y := 1)).2 (by rw [o13]; simp)
  have A := ring_at m 1
  have S : (ringMesh m 1).Sound := ⟨ring_shut G I, ring_deg G I, A.placed⟩
  obtain ⟨m', s', e, -⟩ := S.grown (x := 1) a1 (by
    unfold Mesh.lenOf
    have e1 : (ringMesh m 1).hSrc 1 = 13 := s1
    have e2 : (ringMesh m 1).hSrc ((ringMesh m 1).hNext 1) = 2 := d13.1
    rw [e1, e2, A.placed_eq (ring_alive G I), A.placed_eq (by rw [← e2]; exact (ring_shut G I).good.wf.src_alive _ ((ring_shut G I).good.wf.next_alive _ a1)),
      ← Vec3.E_sub, Vec3.E_norm, Vec3.length_def]
    norm_num [ringAt, Vec3.sub_def, Vec3.dot_def]) 201
  obtain ⟨m2, h, -⟩ := (c112_signatures s'.shut.good s'.at_ (fun _ _ _ => some ⟨fun _ _ => .fin 0, fun _ => .fin 1⟩)).2 (by omega) fun _ => rfl
  exact ⟨m', s'.shut.good, by omega, m2, h⟩

attribute [local instance] Sample.ratScalar in
open Sample in
/-- a mesh with a hole that meets the hypotheses of `c112_closest`, `c112_laplacian` and `c112_triangle` -/
example : ∃ (m : Mesh XR) (p : Nat → Vec3 ℝ), m.Good ∧ m.At p ∧ m.holeFaces ≠ [] ∧ m.fs ≠ [] ∧ (∀ v, m.vAlive v = true → (p v).Near) ∧
    (∃ h, m.hAlive h = true ∧ p (m.hSrc h) ≠ p (m.hSrc (m.hNext h))) ∧ (∃ f, m.fAlive f = true ∧ m.sides f = 3) ∧
    ∃ f, m.fAlive f = true ∧ m.sides f ≠ 3 := by
  obtain ⟨u, m, l, m1, h1, h2, h3⟩ := thenSt_iff (o := pyramidMesh) (f := fun m => .ok () m) (p := fun m l m' =>
    decide (m.holeFaces ≠ [] ∧ m.fs ≠ [] ∧ (∀ v ∈ m.vs, (|(m.vPos v).x| ≤ 10 ∧ |(m.vPos v).y| ≤ 10) ∧ |(m.vPos v).z| ≤ 10) ∧
    (∃ h ∈ m.hes, m.hAlive h = true ∧ (m.vPos (m.hSrc h)).x ≠ (m.vPos (m.hSrc (m.hNext h))).x) ∧ (∃ f ∈ m.fs, m.sides f = 3) ∧
    ∃ f ∈ m.fs, m.sides f ≠ 3))
    (by decide +kernel)
  cases u
  obtain ⟨a, b, c, ⟨h, -, ah, d⟩, ⟨f, hf, e⟩, f', hf', e'⟩ := of_decide_eq_true h3
  have G := c01_construct_consistent (Owned.empty _) h1
  refine ⟨m.overR fun v => (m.vPos v).toR, fun v => (m.vPos v).toR, G.over _, m.overR_at _, a, b, fun v hv i => ?_,
    ⟨h, ah, fun k => d ?_⟩, ⟨f, (G.wf.fDense.mem f).1 hf, e⟩, f', (G.wf.fDense.mem f').1 hf', e'⟩
  · obtain ⟨⟨c1, c2⟩, c3⟩ := c v ((G.wf.vDense.mem v).2 hv)
    have big : ∀ x : ℚ, |x| ≤ 10 → |(x : ℝ)| ≤ 10 ^ 19 := by
      intro x hx
      have : |(x : ℝ)| ≤ 10 := by exact_mod_cast hx
      linarith
    fin_cases i
    · exact big _ c1
    · exact big _ c2
    · exact big _ c3
  · simp only [Vec3.toR, Vec3.mk.injEq, Rat.cast_inj] at k
    exact k.1

end TinyMesh
