import Verif.Proof.Ready
import Verif.Props.ExWhole
import Verif.Props.Examples
import Verif.Spec.SampleX
/-
A mesh that has been built is ready for completion (C120).
-/
set_option maxRecDepth 100000
namespace TinyMesh
section
variable {F : Type} [Scalar F] {m m' : Mesh F}

theorem built_manifold (O : Owned m) {V : List (Vec3 F)} {I : List Nat} (h : construct V I m = .ok () m') {ts : List Tri}
    (e : m'.indices = ofTris ts) : Manifold (keepTris [] ts) := by
  obtain ⟨mD, J, ts0, _, _, _, _, _, _, hnd, B, _⟩ := construct_ok O h
  have : ts = dropDegen ts0 := by
    have h3 := toTris_ofTris ts
    rw [← e, B.indices, toTris_ofTris] at h3
    cases h3; rfl
  subst this
  exact B.manifold hnd

omit [Scalar F] in
/-- a half-edge that belongs to no triangle -/
theorem Arcs.outer {K : List Tri} {arc : Nat → Nat → Nat} (A : Arcs m K arc) (g : m.Good) {h : Nat} (a : m.hAlive h = true)
    (n : ∀ x y, EdgeOf K x y → m.hFace (arc x y) ≠ m.hFace h) : ∃ x y, EdgeOf K x y ∧ ¬EdgeOf K y x ∧ m.hRev h = arc x y ∧ m.vs[y]? = some (m.hSrc h) := by
  rcases A.all h a with ⟨x, y, exy, rfl⟩ | ⟨-, x, y, exy, nyx, r⟩
  · exact absurd rfl (n x y exy)
  · refine ⟨x, y, exy, nyx, r, ?_⟩
    obtain ⟨a1, -, s2, -⟩ := A.ok x y exy
    rw [s2, ← g.wf.src_rev _ a1, ← r, g.wf.rev_rev _ a]

omit [Scalar F] in
theorem Arcs.outer_unique {K : List Tri} {arc : Nat → Nat → Nat} (A : Arcs m K arc) (g : m.Good) (M : Manifold K) {h h' : Nat} (a : m.hAlive h = true) (a' : m.hAlive h' = true)
    (n : ∀ x y, EdgeOf K x y → m.hFace (arc x y) ≠ m.hFace h) (n' : ∀ x y, EdgeOf K x y → m.hFace (arc x y) ≠ m.hFace h') (s : m.hSrc h = m.hSrc h') : h = h' := by
  obtain ⟨x, y, e1, e2, e3, e4⟩ := A.outer g a n
  obtain ⟨x', y', f1, f2, f3, f4⟩ := A.outer g a' n'
  rw [← s, ← e4] at f4
  have : y' = y := by
    obtain ⟨p, -⟩ := List.getElem?_eq_some_iff.1 e4
    obtain ⟨p', -⟩ := List.getElem?_eq_some_iff.1 (f4.trans e4)
    rw [List.getElem?_eq_getElem p, List.getElem?_eq_getElem p'] at f4
    exact g.wf.vDense.nodup.getElem_inj_iff.1 (by injection f4)
  subst this
  cases M.rim_unique e1 e2 f1 f2
  rw [← g.wf.rev_rev _ a, ← g.wf.rev_rev _ a', e3, f3]

/-- C120: in a mesh that has been built every vertex is a corner of at most one of the faces that were added for the boundary, and it is
passed once. -/
theorem c120_rim (O : Owned m) {V : List (Vec3 F)} {I : List Nat} (h : construct V I m = .ok () m') {ts : List Tri} (e : m'.indices = ofTris ts)
    {i j f k : Nat} (hi : (keepTris [] ts).length ≤ i) (hf : m'.fs[i]? = some f) (hj : (keepTris [] ts).length ≤ j) (hk : m'.fs[j]? = some k)
    {x y : Nat} (ax : m'.hAlive x = true) (ay : m'.hAlive y = true) (fx : m'.hFace x = f) (fy : m'.hFace y = k) (s : m'.hSrc x = m'.hSrc y) : x = y := by
  obtain ⟨g, -, arc, A⟩ := built_arcs O h e
  have out : ∀ {i f : Nat}, (keepTris [] ts).length ≤ i → m'.fs[i]? = some f → ∀ a b, EdgeOf (keepTris [] ts) a b → m'.hFace (arc a b) ≠ f := by
    intro i f hi hf
    rcases A.kind g ((g.wf.fDense.mem f).1 (List.mem_of_getElem? hf)) with ⟨l, t, hl, hl'⟩ | ⟨-, n⟩
    · obtain ⟨p, q⟩ := List.getElem?_eq_some_iff.1 hf
      obtain ⟨p', q'⟩ := List.getElem?_eq_some_iff.1 hl'
      have := g.wf.fDense.nodup.getElem_inj_iff.1 (q.trans q'.symm)
      have := (List.getElem?_eq_some_iff.1 hl).1
      omega
    · exact n
  exact A.outer_unique g (built_manifold O h e) ax ay (fx ▸ out hi hf) (fy ▸ out hj hk) s

/-- C120: a mesh that has been built can be completed if and only if no triangle that was taken is without neighbours. -/
theorem c120_ready (O : Owned m) {V : List (Vec3 F)} {I : List Nat} (h : construct V I m = .ok () m') {ts : List Tri} (e : m'.indices = ofTris ts) :
    m'.Holed ↔ ∀ t ∈ keepTris [] ts, t.isolated (keepTris [] ts) = false := by
  obtain ⟨g, -, arc, A⟩ := built_arcs O h e
  have M := built_manifold O h e
  have w := g.wf
  constructor
  · intro H t ht
    by_contra c
    rw [Bool.not_eq_false] at c
    obtain ⟨i, hi, ei⟩ := List.mem_iff_getElem.1 ht
    have hi' : (keepTris [] ts)[i]? = some t := by rw [List.getElem?_eq_getElem hi, ei]
    obtain ⟨f, hf, -⟩ := A.faces i t hi'
    have HF := (A.hole_iff g hi' hf).2 c
    have eab : EdgeOf (keepTris [] ts) t.a t.b := ⟨t, ht, by simp [Tri.edges]⟩
    obtain ⟨a1, s1, s2, -⟩ := A.ok _ _ eab
    have f1 : m'.hFace (arc t.a t.b) = f := ((A.loop g hi' hf _).2 (.inl rfl)).2
    refine H.apart _ a1 (by rw [f1]; exact HF) ?_
    have ar := w.rev_alive _ a1
    rcases A.kind g (w.face_alive _ ar) with ⟨j, t', hj, hj'⟩ | ⟨k, -⟩
    · refine (A.hole_iff g hj hj').2 ?_
      exfalso
      have : ∃ x y, EdgeOf (keepTris [] ts) x y ∧ m'.hRev (arc t.a t.b) = arc x y := by
        have tm := List.mem_of_getElem? hj
        rcases (A.loop g hj hj' _).1 ⟨ar, rfl⟩ with q | q | q
        · exact ⟨_, _, ⟨t', tm, by simp [Tri.edges]⟩, q⟩
        · exact ⟨_, _, ⟨t', tm, by simp [Tri.edges]⟩, q⟩
        · exact ⟨_, _, ⟨t', tm, by simp [Tri.edges]⟩, q⟩
      obtain ⟨x, y, exy, q⟩ := this
      obtain ⟨a2, r1, r2, -⟩ := A.ok _ _ exy
      have inj : ∀ {p q : Nat}, m'.vs[p]? = m'.vs[q]? → (∃ v, m'.vs[p]? = some v) → p = q := by
        rintro p q hpq ⟨v, hv⟩
        obtain ⟨b, -⟩ := List.getElem?_eq_some_iff.1 hv
        obtain ⟨b', -⟩ := List.getElem?_eq_some_iff.1 (hpq ▸ hv)
        rw [List.getElem?_eq_getElem b, List.getElem?_eq_getElem b'] at hpq
        exact w.vDense.nodup.getElem_inj_iff.1 (by injection hpq)
      have hx : x = t.b := inj (by rw [r1, s2, ← q, w.src_rev _ a1]) ⟨_, r1⟩
      have hy : y = t.a := inj (by rw [r2, s1, ← w.src_rev _ a2, ← q, w.rev_rev _ a1]) ⟨_, r2⟩
      subst hx; subst hy
      exact isolated_iff.1 c (t.a, t.b) (by simp [Tri.edges]) exy
    · exact k
  · intro N
    have hole : ∀ {f}, m'.fAlive f = true → m'.HoleFace f → ∀ a b, EdgeOf (keepTris [] ts) a b → m'.hFace (arc a b) ≠ f := by
      intro f af H
      rcases A.kind g af with ⟨i, t, hi, hf⟩ | ⟨-, k⟩
      · have := (A.hole_iff g hi hf).1 H
        rw [N t (List.mem_of_getElem? hi)] at this
        cases this
      · exact k
    refine ⟨w, fun f af nh => ?_, fun f af H => ⟨af, g.three_sides af, fun x y ax ay fx fy s => ?_⟩, fun x ax H H' => ?_⟩
    · refine sides_three w af fun x ax fx => ⟨?_, fun q => g.simple.no_loop x ax (by rw [q])⟩
      rcases g.tri.holds x ax with t | t
      · exact t
      · exact absurd (fun y ay fy => (t y ay (fy.trans fx.symm)).1) nh
    · exact A.outer_unique g M ax ay (fx ▸ hole af H) (fy ▸ hole af H) s
    · obtain ⟨a, b, eab, -, r, -⟩ := A.outer g ax (hole (w.face_alive _ ax) H)
      exact hole (w.face_alive _ (w.rev_alive _ ax)) H' a b eab (by rw [r])

/-- C120: if no edge between two triangles joins two vertices on the boundary, the holes of a mesh that has been built have no chords, so that
`fillHoles` (C55) and the example programs (C110) keep the mesh consistent. -/
theorem c120_chords (O : Owned m) {V : List (Vec3 F)} {I : List Nat} (h : construct V I m = .ok () m') {ts : List Tri} (e : m'.indices = ofTris ts)
    (N : ∀ a b, EdgeOf (keepTris [] ts) a b → EdgeOf (keepTris [] ts) b a → OnRim (keepTris [] ts) a → ¬OnRim (keepTris [] ts) b) :
    m'.Chordless m'.holeFaces := by
  obtain ⟨g, -, arc, A⟩ := built_arcs O h e
  have M := built_manifold O h e
  have w := g.wf
  have near : ∀ {i f : Nat} {t : Tri}, (keepTris [] ts)[i]? = some t → m'.fs[i]? = some f → ∀ c c', m'.hAlive c = true → m'.hAlive c' = true → m'.hFace c = f → m'.hFace c' = f →
      c = c' ∨ m'.hNext c = c' ∨ m'.hNext c' = c := by
    intro i f t hi hf c c' ac ac' fc fc'
    obtain ⟨-, -, -, k1, k2, k3⟩ := A.faces i t hi
    rcases (A.loop g hi hf c).1 ⟨ac, fc⟩ with rfl | rfl | rfl <;> rcases (A.loop g hi hf c').1 ⟨ac', fc'⟩ with rfl | rfl | rfl <;> simp [k1, k2, k3]
  have kind : ∀ f ∈ m'.holeFaces, (∃ (i : Nat) (t : Tri), (keepTris [] ts)[i]? = some t ∧ m'.fs[i]? = some f) ∨
      ∀ a b, EdgeOf (keepTris [] ts) a b → m'.hFace (arc a b) ≠ f := fun f hf =>
    (A.kind g ((mem_holeFaces w).1 hf).1).imp_right fun k => k.2
  have inj : ∀ {p q v : Nat}, m'.vs[p]? = some v → m'.vs[q]? = some v → p = q := by
    intro p q v hp hq
    obtain ⟨b, eb⟩ := List.getElem?_eq_some_iff.1 hp
    obtain ⟨b', eb'⟩ := List.getElem?_eq_some_iff.1 hq
    exact w.vDense.nodup.getElem_inj_iff.1 (eb.trans eb'.symm)
  -- the half-edge behind a free edge belongs to no triangle
  have free : ∀ {a b : Nat}, m'.hAlive (arc a b) = true → EdgeOf (keepTris [] ts) a b → ¬EdgeOf (keepTris [] ts) b a →
      ∀ x y, EdgeOf (keepTris [] ts) x y → m'.hFace (arc x y) ≠ m'.hFace (m'.hRev (arc a b)) := by
    intro a b ax eab nba x y exy k
    have ar := w.rev_alive _ ax
    rcases A.kind g (w.face_alive _ ar) with ⟨i, t, hi, hi'⟩ | ⟨-, n⟩
    · have : ∃ x y, EdgeOf (keepTris [] ts) x y ∧ m'.hRev (arc a b) = arc x y := by
        have tm := List.mem_of_getElem? hi
        rcases (A.loop g hi hi' _).1 ⟨ar, rfl⟩ with q | q | q
        · exact ⟨_, _, ⟨t, tm, by simp [Tri.edges]⟩, q⟩
        · exact ⟨_, _, ⟨t, tm, by simp [Tri.edges]⟩, q⟩
        · exact ⟨_, _, ⟨t, tm, by simp [Tri.edges]⟩, q⟩
      obtain ⟨x', y', e1, q⟩ := this
      obtain ⟨-, s1, s2, -⟩ := A.ok _ _ eab
      obtain ⟨a2, r1, r2, -⟩ := A.ok _ _ e1
      cases inj r1 (by rw [s2, ← q, w.src_rev _ ax])
      cases inj r2 (by rw [s1, ← w.src_rev _ a2, ← q, w.rev_rev _ ax])
      exact nba e1
    · exact n x y exy k
  -- a half-edge that belongs to no triangle is followed by the one that leaves its end
  have next : ∀ {x c c' : Nat}, m'.hAlive x = true → m'.hSrc x = m'.hSrc c → m'.hAlive c = true → m'.hAlive c' = true →
      (∀ a b, EdgeOf (keepTris [] ts) a b → m'.hFace (arc a b) ≠ m'.hFace c) → m'.hFace c' = m'.hFace c → m'.hSrc (m'.hNext x) = m'.hSrc c' →
      (∀ a b, EdgeOf (keepTris [] ts) a b → m'.hFace (arc a b) ≠ m'.hFace x) → m'.hNext c = c' := by
    intro x c c' ax sx ac ac' n fc nx n'
    cases A.outer_unique g M ax ac n' n sx
    exact A.outer_unique g M (w.next_alive _ ax) ac' (by rw [w.face_next _ ax]; exact n) (by rw [fc]; exact n) nx
  refine ⟨fun f hf c c' ac ac' fc fc' s => ?_, fun f hf c c' D x ax sx nx => ?_, fun f hf f' hf' ne c c' d d' D D' s _ => ?_⟩
  · rcases kind f hf with ⟨i, t, hi, hi'⟩ | n
    · rcases near hi hi' c c' ac ac' fc fc' with q | q | q
      · exact q
      · exact absurd (by rw [q, s]) (g.simple.no_loop c ac)
      · exact absurd (by rw [q, s]) (g.simple.no_loop c' ac')
    · exact A.outer_unique g M ac ac' (fc ▸ n) (fc' ▸ n) s
  · obtain ⟨ac, fc, ac', fc', d1, d2, d3⟩ := D
    rcases kind f hf with ⟨i, t, hi, hi'⟩ | n
    · rcases near hi hi' c c' ac ac' fc fc' with q | q | q
      · exact d1 q
      · exact d2 q
      · exact d3 q
    · obtain ⟨p, a, pa, npa, -, va⟩ := A.outer g ac (fc ▸ n)
      obtain ⟨q, b, qb, nqb, -, vb⟩ := A.outer g ac' (fc' ▸ n)
      have ra : OnRim (keepTris [] ts) a := ⟨p, .inr ⟨pa, npa⟩⟩
      have rb : OnRim (keepTris [] ts) b := ⟨q, .inr ⟨qb, nqb⟩⟩
      rcases A.all x ax with ⟨a', b', eab, rfl⟩ | ⟨-, b', a', eba, nab, r⟩
      · obtain ⟨-, s1, s2, -⟩ := A.ok a' b' eab
        cases inj (sx ▸ s1) va
        cases inj (nx ▸ s2) vb
        by_cases eba : EdgeOf (keepTris [] ts) b a
        · exact N a b eab eba ra rb
        · have ar := w.rev_alive _ ax
          refine d3 (next (x := m'.hRev (arc a b)) ar ?_ ac' ac (fc' ▸ n) (by rw [fc, fc']) ?_ ?_)
          · rw [w.src_rev _ ax, nx]
          · rw [← w.src_rev _ ar, w.rev_rev _ ax, sx]
          · exact free ax eab eba
      · have ar := w.rev_alive _ ax
        refine d2 (next ax ?_ ac ac' (fc ▸ n) (by rw [fc, fc']) ?_ ?_)
        · exact sx
        · exact nx
        · have := free (r ▸ ar) eba nab
          rwa [← r, w.rev_rev _ ax] at this
  · obtain ⟨ac, fc, ac', fc', d1, d2, d3⟩ := D
    obtain ⟨bd, gd, bd', gd', e1, e2, e3⟩ := D'
    rcases kind f hf with ⟨i, t, hi, hi'⟩ | n
    · rcases near hi hi' c c' ac ac' fc fc' with q | q | q
      · exact d1 q
      · exact d2 q
      · exact d3 q
    rcases kind f' hf' with ⟨i, t, hi, hi'⟩ | n'
    · rcases near hi hi' d d' bd bd' gd gd' with q | q | q
      · exact e1 q
      · exact e2 q
      · exact e3 q
    cases A.outer_unique g M ac bd (fc ▸ n) (gd ▸ n') s
    exact ne (fc.symm.trans gd)

end

/-- C120: what C118 says for a mesh that has been built from a triangle list: vertices that are not ends of a free edge are in the end exactly where
they were, if they are left. -/
theorem c120_complete {F : Type} [ScalarX F] {m m1 m' : Mesh F} (O : Owned m) {V : List (Vec3 F)} {I : List Nat} (h : construct V I m = .ok () m1) {ts : List Tri}
    (e : m1.indices = ofTris ts) (N : ∀ t ∈ keepTris [] ts, t.isolated (keepTris [] ts) = false) {L : CohLib F} (ho : ∀ l, (L.ordV l).Perm l) (hh : OnlyReads L.heat)
    {fuel iters : Nat} (simple : ∀ l a m2, cohStart L.ordV L.solve fuel m1 = .ok (l, a) m2 → m2.Simple) (r : contextCoherent L fuel iters m1 = .ok () m') :
    m'.Shut ∧ (∀ v, m'.vAlive v = true → (m'.vLock v = true ↔ m1.vAlive v = true)) ∧
      ∀ a v, m1.vs[a]? = some v → ¬OnRim (keepTris [] ts) a → m'.vAlive v = true → m'.vPos v = m1.vPos v := by
  obtain ⟨l, a, m2, -, -, R, k1, k2⟩ := c118_whole ((c120_ready O h e).2 N) ho hh simple r
  refine ⟨R.shut, k1, fun a v hv nr av => k2 v ?_ av fun f af H => ?_⟩
  · exact ((c01_construct_consistent O h).wf.vDense.mem v).1 (List.mem_of_getElem? hv)
  · rintro ⟨x, ax, fx, sx⟩
    obtain ⟨g, -, arc, A⟩ := built_arcs O h e
    have out : ∀ a b, EdgeOf (keepTris [] ts) a b → m1.hFace (arc a b) ≠ m1.hFace x := by
      rw [fx]
      rcases A.kind g af with ⟨i, t, hi, hf⟩ | ⟨-, k⟩
      · have := (A.hole_iff g hi hf).1 H
        rw [N t (List.mem_of_getElem? hi)] at this
        cases this
      · exact k
    obtain ⟨y, z, e1, e2, -, e4⟩ := A.outer g ax out
    rw [sx, ← hv] at e4
    have : z = a := by
      obtain ⟨p, -⟩ := List.getElem?_eq_some_iff.1 hv
      obtain ⟨p', -⟩ := List.getElem?_eq_some_iff.1 (e4.trans hv)
      rw [List.getElem?_eq_getElem p, List.getElem?_eq_getElem p'] at e4
      exact g.wf.vDense.nodup.getElem_inj_iff.1 (by injection e4)
    subst this
    exact nr ⟨y, .inr ⟨e1, e2⟩⟩

/-- C120: the example programs (C110) on a mesh that has been built from a triangle list in which no edge between two triangles joins two vertices on
the boundary. -/
theorem c120_programs {F : Type} [ScalarX F] {m m1 : Mesh F} (O : Owned m) {V : List (Vec3 F)} {I : List Nat} (h : construct V I m = .ok () m1) {ts : List Tri}
    (e : m1.indices = ofTris ts) (N : ∀ a b, EdgeOf (keepTris [] ts) a b → EdgeOf (keepTris [] ts) b a → OnRim (keepTris [] ts) a → ¬OnRim (keepTris [] ts) b)
    {ex : Example F} (f : ex.Fits m1) :
    (∃ m', ex.run m1 = .ok () m' ∧ m'.Good ∧ m'.euler2 = m1.euler2 ∧ SamePieces m1 m') ∨ ex.run m1 = .err .abort ∨ ex.run m1 = .err .throw ∨
      (ex.run m1 = .err .diverge ∧ ex.IsL0) ∨ (ex.run m1 = .err .ub ∧ fillHoles m1 = .err .ub) :=
  c110_safe (c01_construct_consistent O h) (c120_chords O h e N) f

/-- C120: building and an example program together, in exact arithmetic, in terms of the lists that are given: finite positions, indices in range, a
manifold triangle list after merging equal positions, and no edge between two triangles that joins two vertices on the boundary. -/
theorem c120_exact {g : Nat → Nat} {V : List (Vec3 ℝ)} {I : List Nat} (hr : ∀ i ∈ I, i < V.length) {P : List (Vec3 XR)} {ts : List Tri}
    (D : Merged (V.map Vec3.fin) I P (ofTris ts)) (M : Manifold ts) (hf : Fits g 0 ts)
    (N : ∀ a b, EdgeOf ts a b → EdgeOf ts b a → OnRim ts a → ¬OnRim ts b) {ex : Example XR}
    (f : ∀ m1, construct (V.map Vec3.fin) I (Mesh.empty g) = .ok () m1 → ex.Fits m1)
    (s : ∀ m1, construct (V.map Vec3.fin) I (Mesh.empty g) = .ok () m1 → ex.Sound m1) :
    ∃ m1 m', construct (V.map Vec3.fin) I (Mesh.empty g) = .ok () m1 ∧ m1.vs.map m1.vPos = P ∧ ex.run m1 = .ok () m' ∧ m'.Good ∧ m'.euler2 = m1.euler2 ∧
      SamePieces m1 m' := by
  have va : ValidInput (V.map Vec3.fin) I := by
    intro i hi
    refine ⟨(V[i]'(hr i hi)).fin, by rw [List.getElem?_map, List.getElem?_eq_getElem (hr i hi)]; rfl, ?_⟩
    rw [Vec3.X_veq, Vec3.R_veq]
  obtain ⟨m1, h, e, k, hP⟩ := c103_manifold lawX (Owned.empty g) rfl va D M hf
  have G := c01_construct_consistent (Owned.empty g) h
  have fin : ∀ v, m1.vAlive v = true → ∃ w : Vec3 ℝ, m1.vPos v = w.fin := by
    intro v av
    obtain ⟨i, hi, ei⟩ := List.mem_iff_getElem.1 ((G.wf.vDense.mem v).2 av)
    have : P[i]? = some (m1.vPos v) := by rw [← hP, List.getElem?_map, List.getElem?_eq_getElem hi, ei]; rfl
    obtain ⟨-, c, -, h2, -⟩ := D.first i _ this
    rw [List.getElem?_map, Option.map_eq_some_iff] at h2
    obtain ⟨w, -, q⟩ := h2
    exact ⟨w, q.symm⟩
  have A : m1.AtE fun v => if a : m1.vAlive v = true then (fin v a).choose.E else 0 := by
    intro v av
    exact ⟨_, (fin v av).choose_spec, by dsimp only; rw [dif_pos av]⟩
  obtain ⟨m', r⟩ := c110_exact G A (c120_chords (Owned.empty g) h e (by rw [k]; exact N)) (f m1 h) (s m1 h)
  exact ⟨m1, m', h, hP, r⟩

/-- three triangles around a vertex -/
def tentI : List Nat := [0, 1, 2, 0, 2, 3, 0, 3, 1]
def tentT : List Tri := [⟨0, 1, 2⟩, ⟨0, 2, 3⟩, ⟨0, 3, 1⟩]

theorem tent_top : ¬OnRim (keepTris [] tentT) 0 := by
  have r : keepTris [] tentT = tentT := by decide
  rw [r]
  rintro ⟨b, hb⟩
  by_cases hb' : b < 4
  · have : ∀ b < 4, ¬((EdgeOf tentT 0 b ∧ ¬EdgeOf tentT b 0) ∨ (EdgeOf tentT b 0 ∧ ¬EdgeOf tentT 0 b)) := by decide
    exact this b hb' hb
  · have n1 : ¬EdgeOf tentT 0 b := by
      rintro ⟨t, ht, hm⟩
      simp only [tentT, List.mem_cons, List.not_mem_nil, or_false] at ht
      rcases ht with rfl | rfl | rfl <;> simp [Tri.edges] at hm <;> omega
    have n2 : ¬EdgeOf tentT b 0 := by
      rintro ⟨t, ht, hm⟩
      simp only [tentT, List.mem_cons, List.not_mem_nil, or_false] at ht
      rcases ht with rfl | rfl | rfl <;> simp [Tri.edges] at hm <;> omega
    simp [n1, n2] at hb

theorem tent_inner (a b : Nat) (h : EdgeOf (keepTris [] tentT) a b) (h' : EdgeOf (keepTris [] tentT) b a) (ra : OnRim (keepTris [] tentT) a) :
    ¬OnRim (keepTris [] tentT) b := by
  intro rb
  have n0 := tent_top
  have r : keepTris [] tentT = tentT := by decide
  rw [r] at h h' ra rb n0
  obtain ⟨t, ht, hm⟩ := h
  simp only [tentT, List.mem_cons, List.not_mem_nil, or_false] at ht
  rcases ht with rfl | rfl | rfl <;> simp only [Tri.edges, List.mem_cons, List.not_mem_nil, or_false, Prod.mk.injEq] at hm <;>
    rcases hm with ⟨rfl, rfl⟩ | ⟨rfl, rfl⟩ | ⟨rfl, rfl⟩ <;> first | exact n0 ra | exact n0 rb | exact absurd h' (by decide)

namespace Fixed
open Sample

theorem lawF : EqLaw Fix := by
  intro a b c h1 h2
  have h1 : a.val = c.val := of_decide_eq_true h1
  have h2 : b.val = c.val := of_decide_eq_true h2
  exact decide_eq_true (h1.trans h2.symm)

theorem cup_indices {m : Mesh Fix} (h : construct cupV cupI blank = .ok () m) : m.indices = ofTris tentT := by
  have va : ValidInput cupV cupI := validB_iff (by decide +kernel)
  obtain ⟨J, hJ, hJ'⟩ := c06_positions_merged (Owned.empty _) rfl va h
  have e := (Merged.unique lawF va hJ (mergedB_iff (by decide +kernel) : Merged cupV cupI [pt 0 0 0, pt 1 0 0, pt 0 0 1, pt 0 1 0] (ofTris tentT))).2
  rw [hJ' ⟨tentT, e, by decide⟩, e]

/-- C120: the whole function on a tetrahedron without one face; the vertex opposite to the hole stays in its place -/
example : ∃ m m' : Mesh Fix, construct cupV cupI blank = .ok () m ∧ m.indices = ofTris tentT ∧
    (∀ t ∈ keepTris [] tentT, t.isolated (keepTris [] tentT) = false) ∧ contextCoherent lib 30 1 m = .ok () m' ∧
    (∀ l a m1, cohStart lib.ordV lib.solve 30 m = .ok (l, a) m1 → m1.Simple) ∧ m'.Shut ∧ ¬OnRim (keepTris [] tentT) 0 ∧
    ∀ v, m.vs[0]? = some v → m'.vAlive v = true ∧ m'.vPos v = m.vPos v := by
  obtain ⟨m, m3, h1, e, h3, -, both⟩ := cup_run
  have G := c01_construct_consistent (Owned.empty _) h1
  have i := cup_indices h1
  have N : ∀ t ∈ keepTris [] tentT, t.isolated (keepTris [] tentT) = false := by decide
  have H := (c120_ready (Owned.empty _) h1 i).2 N
  have S : ∀ l a m1, cohStart lib.ordV lib.solve 30 m = .ok (l, a) m1 → m1.Simple := fun l a m1 k =>
    simpleB_holds (c89_closed H (fun l => .refl l) k).wf (both l a m1 k).1
  have none : ∀ l a m1, cohStart lib.ordV lib.solve 30 m = .ok (l, a) m1 → ∀ v, m1.vAlive v = true → m.vAlive v = true := fun l a m1 k v av =>
    (G.wf.vDense.mem v).1 ((both l a m1 k).2 ▸ ((c89_closed H (fun l => .refl l) k).wf.vDense.mem v).2 av)
  have C := (c118_idle H (fun l => .refl l) heat_reads none e).1
  have R := c120_complete (Owned.empty _) h1 i N (fun l => .refl l) heat_reads S e
  refine ⟨m, m3, h1, i, N, e, S, R.1, tent_top, fun v hv => ?_⟩
  have av := C.vert v ((G.wf.vDense.mem v).1 (List.mem_of_getElem? hv))
  exact ⟨av, R.2.2 0 v hv tent_top av⟩

/-- C120: the program that smooths, on the same mesh -/
example : ∃ m : Mesh Fix, construct cupV cupI blank = .ok () m ∧ (Example.taubin : Example Fix).Fits m ∧
    ((∃ m', (Example.taubin : Example Fix).run m = .ok () m' ∧ m'.Good ∧ m'.euler2 = m.euler2 ∧ SamePieces m m') ∨
      (Example.taubin : Example Fix).run m = .err .abort ∨ (Example.taubin : Example Fix).run m = .err .throw ∨
      ((Example.taubin : Example Fix).run m = .err .diverge ∧ (Example.taubin : Example Fix).IsL0) ∨
      ((Example.taubin : Example Fix).run m = .err .ub ∧ fillHoles m = .err .ub)) := by
  obtain ⟨m, -, h1, -⟩ := cup_run
  exact ⟨m, h1, trivial, c120_programs (Owned.empty _) h1 (cup_indices h1) tent_inner trivial⟩

end Fixed

section
open Sample
attribute [local instance] Sample.ratScalar

/-- C120: a strip of three triangles -/
example : ∃ m : Mesh Rat, construct stripV stripI fresh = .ok () m ∧ m.indices = ofTris stripT ∧ m.Holed := by
  obtain ⟨_, m, h⟩ := isOk_iff (o := construct stripV stripI fresh) (by decide +kernel)
  obtain ⟨J, hJ, hJ'⟩ := c06_positions_merged (Owned.empty dbl) rfl strip_valid h
  have e := (Merged.unique law strip_valid hJ strip_merged).2
  have e' : m.indices = ofTris stripT := by rw [hJ' ⟨stripT, e, strip_manifold.proper⟩, e]
  exact ⟨m, h, e', (c120_ready (Owned.empty dbl) h e').2 (by decide)⟩

/-- C120: no chord in a tetrahedron without one face -/
example : ∃ m : Mesh Rat, construct tetV tentI fresh = .ok () m ∧ m.indices = ofTris tentT ∧ m.Chordless m.holeFaces := by
  obtain ⟨_, m, h⟩ := isOk_iff (o := construct tetV tentI fresh) (by decide +kernel)
  have va : ValidInput tetV tentI := validB_iff (by decide +kernel)
  obtain ⟨J, hJ, hJ'⟩ := c06_positions_merged (Owned.empty dbl) rfl va h
  have e := (Merged.unique law va hJ (mergedB_iff (by decide +kernel) : Merged tetV tentI tetV (ofTris tentT))).2
  have e' : m.indices = ofTris tentT := by rw [hJ' ⟨tentT, e, by decide⟩, e]
  exact ⟨m, h, e', c120_chords (Owned.empty dbl) h e' tent_inner⟩

/-- C120: smoothing a tetrahedron without one face -/
example : ∃ m1 m' : Mesh XR, construct ((tetV.map Vec3.toR).map Vec3.fin) tentI (Mesh.empty dbl) = .ok () m1 ∧ m1.vs.map m1.vPos = tetV.map Vec3.toX ∧
    (Example.taubin : Example XR).run m1 = .ok () m' ∧ m'.Good ∧ m'.euler2 = m1.euler2 ∧ SamePieces m1 m' := by
  have D := mergedX (mergedB_iff (by decide +kernel) : Merged tetV tentI tetV (ofTris tentT))
  have q : tetV.map Vec3.toX = (tetV.map Vec3.toR).map Vec3.fin := by rw [List.map_map]; rfl
  have r : keepTris [] tentT = tentT := by decide
  refine c120_exact (ts := tentT) (by rw [List.length_map]; decide) (q ▸ D) ?_ (by decide) (r ▸ tent_inner) (fun _ _ => trivial) (fun _ _ => trivial)
  exact manifoldB_iff (fans := [[⟨0, 1, 2⟩, ⟨0, 2, 3⟩, ⟨0, 3, 1⟩], [⟨0, 3, 1⟩, ⟨0, 1, 2⟩], [⟨0, 1, 2⟩, ⟨0, 2, 3⟩], [⟨0, 2, 3⟩, ⟨0, 3, 1⟩]]) (by decide +kernel)

/-- C120: a square and a triangle apart from it are no mesh for completion -/
example : ∃ m : Mesh Rat, construct apartV apartI fresh = .ok () m ∧ ¬m.Holed := by
  obtain ⟨m, h, e, -⟩ := c07_counterexample
  have e' : m.indices = ofTris (toTris apartI).get! := by rw [e]; decide
  refine ⟨m, h, fun H => ?_⟩
  have := (c120_ready (Owned.empty dbl) h e').1 H
  revert this
  decide

end
end TinyMesh
