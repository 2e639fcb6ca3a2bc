import Verif.Proof.ConS
import Verif.Proof.ConP
import Verif.Proof.Count
import Verif.Proof.FrontO
import Verif.Props.Query
/-
C103: what the queries of a mesh that has just been built answer, in terms of the triangle list alone.
-/
namespace TinyMesh
open Sample
attribute [local instance] Sample.ratScalar
variable {F : Type} [Scalar F] {m m' : Mesh F}

/-- the mesh built from the triangles `ts` -/
theorem built_arcs (O : Owned m) {V : List (Vec3 F)} {I : List Nat} (h : construct V I m = .ok () m') {ts : List Tri}
    (e : m'.indices = ofTris ts) : m'.Good ∧ (∀ t ∈ keepTris [] ts, t.proper) ∧ ∃ arc, Arcs m' (keepTris [] ts) arc := by
  obtain ⟨mD, J, ts0, _, _, _, _, _, _, hnd, B, _⟩ := construct_ok O h
  have : ts = dropDegen ts0 := by
    have h3 := toTris_ofTris ts
    rw [← e, B.indices, toTris_ofTris] at h3
    cases h3; rfl
  subst this
  exact ⟨B.good, (B.manifold hnd).proper, B.arcs⟩

/-- C103: two vertices of a mesh that has been built are joined by an edge if and only if a triangle that was taken has an edge
between them, in one direction or the other. -/
theorem c103_edges (O : Owned m) {V : List (Vec3 F)} {I : List Nat} (h : construct V I m = .ok () m') {ts : List Tri}
    (e : m'.indices = ofTris ts) {a b u v : Nat} (ha : m'.vs[a]? = some u) (hb : m'.vs[b]? = some v) :
    m'.Joined u v ↔ EdgeOf (keepTris [] ts) a b ∨ EdgeOf (keepTris [] ts) b a := by
  obtain ⟨g, -, arc, A⟩ := built_arcs O h e
  exact A.joined g.wf ha hb

/-- C103: `Vertex::isBoundary` says whether the vertex is an end of an edge that belongs to one triangle only. -/
theorem c103_boundary (O : Owned m) {V : List (Vec3 F)} {I : List Nat} (h : construct V I m = .ok () m') {ts : List Tri}
    (e : m'.indices = ofTris ts) {a v : Nat} (ha : m'.vs[a]? = some v) :
    ∃ r, vIsBoundary v m' = .ok r m' ∧ (r = true ↔ OnRim (keepTris [] ts) a) := by
  obtain ⟨g, -, arc, A⟩ := built_arcs O h e
  obtain ⟨r, h1, h2⟩ := (c10_flags g.wf).1 v ((g.wf.vDense.mem v).1 (List.mem_of_getElem? ha))
  exact ⟨r, h1, h2.trans (A.rim g.wf ha)⟩

open Classical in
/-- C103: `Vertex::degree` is the number of vertices to which a triangle that was taken has an edge. -/
theorem c103_degree (O : Owned m) {V : List (Vec3 F)} {I : List Nat} (h : construct V I m = .ok () m') {ts : List Tri}
    (e : m'.indices = ofTris ts) {a v : Nat} (ha : m'.vs[a]? = some v) :
    degree v m' = .ok ((Finset.range m'.vs.length).filter
      fun b => EdgeOf (keepTris [] ts) a b ∨ EdgeOf (keepTris [] ts) b a).card m' := by
  obtain ⟨g, -, arc, A⟩ := built_arcs O h e
  rw [g.wf.degree_ok ((g.wf.vDense.mem v).1 (List.mem_of_getElem? ha)), A.degree g.wf g.simple ha]

/-- C103: face number `i` is triangle number `i` of those that were taken: it has three corners; `Face::isBoundary` says whether
some edge of it belongs to no other triangle, and `Face::isHole` says whether none of its edges does. All further faces are holes. -/
theorem c103_faces (O : Owned m) {V : List (Vec3 F)} {I : List Nat} (h : construct V I m = .ok () m') {ts : List Tri}
    (e : m'.indices = ofTris ts) :
    (∀ (i : Nat) t, (keepTris [] ts)[i]? = some t → ∃ f r s, m'.fs[i]? = some f ∧ numCorners f m' = .ok 3 m' ∧
      fIsBoundary f m' = .ok r m' ∧ (r = true ↔ ∃ e ∈ t.edges, ¬ EdgeOf (keepTris [] ts) e.2 e.1) ∧
      fIsHole f m' = .ok s m' ∧ (s = true ↔ ∀ e ∈ t.edges, ¬ EdgeOf (keepTris [] ts) e.2 e.1)) ∧
    ∀ (i f : Nat), (keepTris [] ts).length ≤ i → m'.fs[i]? = some f → fIsHole f m' = .ok true m' := by
  obtain ⟨g, pr, arc, A⟩ := built_arcs O h e
  have w := g.wf
  refine ⟨fun i t hi => ?_, fun i f hi hf => ?_⟩
  · have tm : t ∈ keepTris [] ts := List.mem_of_getElem? hi
    obtain ⟨f, hf, k0, k1, k2, k3⟩ := A.faces i t hi
    have af := (w.fDense.mem f).1 (List.mem_of_getElem? hf)
    have e1 : EdgeOf (keepTris [] ts) t.a t.b := ⟨t, tm, by simp [Tri.edges]⟩
    have e2 : EdgeOf (keepTris [] ts) t.b t.c := ⟨t, tm, by simp [Tri.edges]⟩
    have e3 : EdgeOf (keepTris [] ts) t.c t.a := ⟨t, tm, by simp [Tri.edges]⟩
    obtain ⟨a1, s1, -, b1⟩ := A.ok _ _ e1
    obtain ⟨a2, s2, -, b2⟩ := A.ok _ _ e2
    obtain ⟨a3, s3, -, b3⟩ := A.ok _ _ e3
    have f3 : m'.hFace (arc t.c t.a) = f := by rw [← k0]; exact (w.fHe_ok f af).2
    have f1 : m'.hFace (arc t.a t.b) = f := by rw [← k1, w.face_next _ a3, f3]
    have f2 : m'.hFace (arc t.b t.c) = f := by rw [← k2, w.face_next _ a1, f1]
    have loop : ∀ x, m'.hAlive x = true ∧ m'.hFace x = f ↔ x = arc t.a t.b ∨ x = arc t.b t.c ∨ x = arc t.c t.a := by
      intro x
      constructor
      · rintro ⟨ax, fx⟩
        obtain ⟨n, rfl⟩ := w.face_conn _ x a3 ax (f3.trans fx.symm)
        clear ax fx
        induction n with
        | zero => simp
        | succ n ih =>
          rw [Function.iterate_succ_apply']
          rcases ih with h | h | h <;> rw [h] <;> simp [k1, k2, k3]
      · rintro (rfl | rfl | rfl)
        · exact ⟨a1, f1⟩
        · exact ⟨a2, f2⟩
        · exact ⟨a3, f3⟩
    have tri : ∀ x, m'.hAlive x = true → m'.hFace x = f → m'.OnTri x ∧ m'.hNext x ≠ x := by
      intro x ax fx
      refine ⟨?_, fun hx => g.simple.no_loop x ax (by rw [hx])⟩
      rcases (loop x).1 ⟨ax, fx⟩ with rfl | rfl | rfl <;> simp [Mesh.OnTri, k1, k2, k3]
    obtain ⟨-, q1, q2, -⟩ := c10_flags w
    obtain ⟨s, hs, hs'⟩ := q1 f af
    obtain ⟨r, hr, hr'⟩ := q2 f af
    refine ⟨f, r, s, hf, by rw [w.numCorners_ok af, sides_three w af tri], hr, hr'.trans ?_, hs, hs'.trans ?_⟩
    · constructor
      · rintro ⟨x, ax, fx, bx⟩
        rcases (loop x).1 ⟨ax, fx⟩ with rfl | rfl | rfl
        · exact ⟨(t.a, t.b), by simp [Tri.edges], b1.1 bx⟩
        · exact ⟨(t.b, t.c), by simp [Tri.edges], b2.1 bx⟩
        · exact ⟨(t.c, t.a), by simp [Tri.edges], b3.1 bx⟩
      · rintro ⟨x, hx, nx⟩
        simp only [Tri.edges, List.mem_cons, List.not_mem_nil, or_false] at hx
        rcases hx with rfl | rfl | rfl
        · exact ⟨_, a1, f1, b1.2 nx⟩
        · exact ⟨_, a2, f2, b2.2 nx⟩
        · exact ⟨_, a3, f3, b3.2 nx⟩
    · constructor
      · intro k x hx
        simp only [Tri.edges, List.mem_cons, List.not_mem_nil, or_false] at hx
        rcases hx with rfl | rfl | rfl
        · exact b1.1 (k _ a1 f1)
        · exact b2.1 (k _ a2 f2)
        · exact b3.1 (k _ a3 f3)
      · intro k x ax fx
        rcases (loop x).1 ⟨ax, fx⟩ with rfl | rfl | rfl
        · exact b1.2 (k (t.a, t.b) (by simp [Tri.edges]))
        · exact b2.2 (k (t.b, t.c) (by simp [Tri.edges]))
        · exact b3.2 (k (t.c, t.a) (by simp [Tri.edges]))
  · have af := (w.fDense.mem f).1 (List.mem_of_getElem? hf)
    obtain ⟨-, q1, -, -⟩ := c10_flags w
    obtain ⟨s, hs, hs'⟩ := q1 f af
    rw [hs, hs'.2 (A.holes i f hi hf)]

/-- C103: there are three half-edges for each triangle that was taken and one more for each edge of only one triangle; `numEdges` is
half of that. -/
theorem c103_counts (O : Owned m) {V : List (Vec3 F)} {I : List Nat} (h : construct V I m = .ok () m') {ts : List Tri}
    (e : m'.indices = ofTris ts) : m'.hes.length = 3 * (keepTris [] ts).length + boundaryCount (keepTris [] ts) ∧
    ∃ n, numEdges m' = .ok n m' ∧ 2 * n = 3 * (keepTris [] ts).length + boundaryCount (keepTris [] ts) := by
  obtain ⟨g, -, arc, A⟩ := built_arcs O h e
  refine ⟨A.hlen, ?_⟩
  rw [← A.hlen]
  exact g.wf.numEdges_ok

/-- C103: two vertices of a mesh that has been built are in the same piece if and only if a chain of edges of triangles that were taken
leads from one to the other. -/
theorem c103_pieces (O : Owned m) {V : List (Vec3 F)} {I : List Nat} (h : construct V I m = .ok () m') {ts : List Tri}
    (e : m'.indices = ofTris ts) {a b u v : Nat} (ha : m'.vs[a]? = some u) (hb : m'.vs[b]? = some v) :
    m'.Together u v ↔ Relation.EqvGen (EdgeOf (keepTris [] ts)) a b := by
  obtain ⟨g, -, arc, A⟩ := built_arcs O h e
  exact A.together g.wf ha hb

/-- C103: for a manifold triangle list, the triangles that are taken are those of the list. -/
theorem c103_manifold (L : EqLaw F) (O : Owned m) (hi : m.indices = []) {V : List (Vec3 F)} {I : List Nat}
    (hv : ValidInput V I) {P : List (Vec3 F)} {ts : List Tri} (D : Merged V I P (ofTris ts)) (M : Manifold ts)
    (hf : Fits m.grow m.hCap ts) :
    ∃ m', construct V I m = .ok () m' ∧ m'.indices = ofTris ts ∧ keepTris [] ts = ts ∧ m'.vs.map m'.vPos = P := by
  obtain ⟨mD, m', h1, h2, _, B⟩ := construct_manifold L O hi hv D M hf
  exact ⟨m', h1, B.indices, by simpa using keepTris_id ts [] (by simpa using M.edges), h2⟩

/-- a strip of three triangles: corners 0 and 1 are joined, 0 and 3 are not but are in one piece; all vertices are on the rim; corner 2
has degree 4; there are 14 half-edges; the middle triangle has a free edge but is not a hole; the fourth face is a hole -/
example : ∃ m', construct stripV stripI fresh = .ok () m' ∧ ∃ u v x y f f', m'.vs[0]? = some u ∧ m'.vs[1]? = some v ∧ m'.vs[2]? = some x ∧
    m'.vs[3]? = some y ∧ m'.fs[1]? = some f ∧ m'.fs[3]? = some f' ∧ m'.Joined u v ∧ ¬ m'.Joined u y ∧ m'.Together u y ∧
    vIsBoundary u m' = .ok true m' ∧ degree x m' = .ok 4 m' ∧ m'.hes.length = 14 ∧ fIsBoundary f m' = .ok true m' ∧
    fIsHole f m' = .ok false m' ∧ fIsHole f' m' = .ok true m' := by
  obtain ⟨m', h, e, ke, P⟩ := c103_manifold law (Owned.empty dbl) rfl strip_valid strip_merged strip_manifold strip_fits
  have h : construct stripV stripI fresh = .ok () m' := h
  have hl : m'.vs.length = 5 := by have := congrArg List.length P; rw [List.length_map] at this; exact this
  have O := Owned.empty (F := Rat) dbl
  have hv : ∀ i, i < 5 → ∃ u, m'.vs[i]? = some u := fun i hi => ⟨_, List.getElem?_eq_getElem (by omega)⟩
  obtain ⟨u, hu⟩ := hv 0 (by omega)
  obtain ⟨v, hv'⟩ := hv 1 (by omega)
  obtain ⟨x, hx⟩ := hv 2 (by omega)
  obtain ⟨y, hy⟩ := hv 3 (by omega)
  have h4 : okSt (fun m : Mesh Rat => decide (3 < m.fs.length)) (construct stripV stripI fresh) = true := by decide +kernel
  rw [h] at h4
  have h4 : 3 < m'.fs.length := by simpa [okSt] using h4
  obtain ⟨F1, F2⟩ := c103_faces O h e
  rw [ke] at F1 F2
  obtain ⟨f, r, s, hf, -, hr, hr', hs, hs'⟩ := F1 1 ⟨2, 1, 3⟩ rfl
  obtain ⟨b, hb, hb'⟩ := c103_boundary O h e hu
  have hd := c103_degree O h e hx
  have hc := (c103_counts O h e).1
  have j1 := c103_edges O h e hu hv'
  have j2 := c103_edges O h e hu hy
  have j3 := c103_pieces O h e hu hy
  rw [ke] at hb' hd hc j1 j2 j3
  refine ⟨m', h, u, v, x, y, f, _, hu, hv', hx, hy, hf, List.getElem?_eq_getElem h4, j1.2 (by decide), fun k => ?_, j3.2 ?_, ?_, ?_, hc, ?_, ?_,
    F2 3 _ (by decide) (List.getElem?_eq_getElem h4)⟩
  · exact absurd (j2.1 k) (by decide)
  · exact .trans _ 1 _ (.rel _ _ (by decide)) (.rel _ _ (by decide))
  · rw [hb, hb'.2 ⟨1, Or.inl (by decide)⟩]
  · rw [hd, hl]
    congr 1
  · rw [hr, hr'.2 (by decide)]
  · rw [hs]
    have : s ≠ true := fun k => absurd (hs'.1 k) (by decide)
    simpa using this

end TinyMesh
