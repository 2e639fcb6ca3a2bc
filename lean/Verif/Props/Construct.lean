import Verif.Proof.ConP
import Verif.Model.Exact
import Verif.Spec.Sample
/-
C01 - C09, C45: building a mesh from a vertex list and an index list, `clone`, `load` and `save`.
-/
set_option maxRecDepth 100000
namespace TinyMesh
open Sample
attribute [local instance] Sample.ratScalar
variable {F : Type} [Scalar F] {m m' : Mesh F}

/-- C01: whenever building a mesh returns normally, the mesh is consistent. The object may have been used before. -/
theorem c01_construct_consistent (O : Owned m) {V : List (Vec3 F)} {I : List Nat} (h : construct V I m = .ok () m') :
    m'.Good := by
  obtain ⟨_, _, _, _, _, _, _, _, _, _, B, _⟩ := construct_ok O h
  exact B.good

/-- a closed mesh and a mesh with boundary -/
example : (∃ m', construct tetV tetI fresh = .ok () m' ∧ m'.Good) ∧ ∃ m', construct stripV stripI fresh = .ok () m' ∧ m'.Good := by
  obtain ⟨_, m1, h1⟩ := isOk_iff (o := construct tetV tetI fresh) (by decide +kernel)
  obtain ⟨_, m2, h2⟩ := isOk_iff (o := construct stripV stripI fresh) (by decide +kernel)
  exact ⟨⟨m1, h1, c01_construct_consistent (Owned.empty dbl) h1⟩, ⟨m2, h2, c01_construct_consistent (Owned.empty dbl) h2⟩⟩

/-- C02: triangle lists that are manifold after merging equal positions are accepted, provided the half-edge vector does
not have to grow while boundary half-edges are appended. -/
theorem c02_manifold_accepted (L : EqLaw F) (O : Owned m) (hi : m.indices = []) {V : List (Vec3 F)} {I : List Nat}
    (hv : ValidInput V I) {P : List (Vec3 F)} {ts : List Tri} (D : Merged V I P (ofTris ts)) (M : Manifold ts)
    (hf : Fits m.grow m.hCap ts) : ∃ m', construct V I m = .ok () m' ∧ m'.Good ∧ m'.vs.map m'.vPos = P := by
  obtain ⟨mD, m', h1, h2, _, B⟩ := construct_manifold L O hi hv D M hf
  exact ⟨m', h1, B.good, h2⟩

example : ∃ m', construct stripV stripI fresh = .ok () m' ∧ m'.Good ∧ m'.vs.map m'.vPos = stripV :=
  c02_manifold_accepted law (Owned.empty dbl) rfl strip_valid strip_merged strip_manifold strip_fits

/-- C02 for closed meshes: every directed edge has an opposite one. No condition on the vector is needed. -/
theorem c02_closed_accepted (L : EqLaw F) (O : Owned m) (hi : m.indices = []) {V : List (Vec3 F)} {I : List Nat}
    (hv : ValidInput V I) {P : List (Vec3 F)} {ts : List Tri} (D : Merged V I P (ofTris ts)) (M : Manifold ts)
    (hc : ∀ t ∈ ts, ∀ e ∈ t.edges, ∃ s ∈ ts, (e.2, e.1) ∈ s.edges) :
    ∃ m', construct V I m = .ok () m' ∧ m'.Good ∧ m'.vs.map m'.vPos = P :=
  c02_manifold_accepted L O hi hv D M (fits_closed hc _ _)

example : ∃ m', construct tetV tetI fresh = .ok () m' ∧ m'.Good ∧ m'.vs.map m'.vPos = tetP :=
  c02_closed_accepted law (Owned.empty dbl) rfl tet_valid tet_merged tet_manifold tet_closed

/-- C02: if building returns normally and every edge of the accepted triangles has a partner, then every face of the mesh is one of
these triangles, and no half-edge is a boundary one. -/
theorem c02_closed_no_holes (O : Owned m) {V : List (Vec3 F)} {I : List Nat} (h : construct V I m = .ok () m') :
    ∃ ts, m'.indices = ofTris ts ∧ ((∀ t ∈ keepTris [] ts, ∀ e ∈ t.edges, ∃ s ∈ keepTris [] ts, (e.2, e.1) ∈ s.edges) →
      m'.fs.length = (keepTris [] ts).length ∧ m'.hes.length = 3 * (keepTris [] ts).length ∧
      ∀ h, m'.hAlive h = true → m'.OnTri h ∧ m'.hBd h = false) := by
  obtain ⟨mD, J, ts0, _, _, _, _, _, _, hnd, B, _⟩ := construct_ok O h
  refine ⟨dropDegen ts0, B.indices, fun hc => ?_⟩
  obtain ⟨mA, pd, V0, g, mC, V, I, hvs, C, rfl⟩ := B.phases
  have nb : ∀ h, mA.HA h → mA.hRev h ≠ 0 := by
    intro h a
    obtain ⟨x, y, e1, e2⟩ := I.pair_all h a
    have h0 : pd.pair x y ≠ 0 := by rw [e1]; have := (I.hB h a).1; omega
    obtain ⟨t, ht, hxy⟩ := (I.pair_iff x y).1 h0
    obtain ⟨s, hs, hyx⟩ := hc t ht (x, y) ((t.mem_edges x y).2 hxy)
    rw [e2]
    exact (I.pair_iff y x).2 ⟨s, hs, (s.mem_edges y x).1 hyx⟩
  have nn : ¬ ∃ b, mA.hFresh ≤ b ∧ b < mC.hFresh := by
    rintro ⟨b, h1, h2⟩
    have := (C.holeRev b h1 h2).1
    exact nb _ this.1 this.2
  have hf : mC.hFresh = mA.hFresh := by
    have h1 : mA.hFresh ≤ mC.hFresh := C.hFresh
    by_contra hne
    exact nn ⟨mA.hFresh, le_rfl, by omega⟩
  have hff : mC.fFresh = mA.fFresh := by
    have h1 : mA.fFresh ≤ mC.fFresh := C.fFresh
    by_contra hne
    have := C.fNew mA.fFresh le_rfl (by omega)
    exact nn ⟨_, this.1, this.2.1⟩
  refine ⟨?_, ?_, ?_⟩
  · have e : mC.fs = mA.fs ++ List.range' mA.fFresh (mC.fFresh - mA.fFresh) := C.fs
    show mC.fs.length = _
    rw [e, hff, ← I.len]; simp
  · have e : mC.hes = mA.hes ++ List.range' mA.hFresh (mC.hFresh - mA.hFresh) := C.hes
    show mC.hes.length = _
    rw [e, hf, ← I.hlen]; simp
  · intro h a
    have a : mC.HA h := a
    rcases (C.hal h).1 a with h1 | h1
    · have h1 : mA.HA h := h1
      have n1 := I.next_alive h h1
      have n2 := I.next_alive _ n1
      refine ⟨?_, (C.rT h h1 (nb h h1)).2⟩
      show mC.hNext (mC.hNext (mC.hNext h)) = h
      rw [C.nT h h1]
      show mC.hNext (mC.hNext (mA.hNext h)) = h
      rw [C.nT _ n1]
      show mC.hNext (mA.hNext (mA.hNext h)) = h
      rw [C.nT _ n2]
      exact I.tri h h1
    · exact absurd ⟨h, h1⟩ nn

example : ∃ m', construct tetV tetI fresh = .ok () m' ∧ m'.fs.length = 4 ∧ ∀ h, m'.hAlive h = true → m'.OnTri h ∧ m'.hBd h = false := by
  obtain ⟨_, m', h, hb⟩ := okSt_iff (o := construct tetV tetI fresh) (p := fun m => m.indices == ofTris tetT) (by decide +kernel)
  obtain ⟨ts, e, hc⟩ := c02_closed_no_holes (Owned.empty dbl) h
  rw [beq_iff_eq.1 hb] at e
  have e : ts = tetT := by
    have h3 := toTris_ofTris ts
    rw [← e, toTris_ofTris] at h3
    cases h3; rfl
  subst e
  obtain ⟨h1, -, h2⟩ := hc (by decide +kernel)
  exact ⟨m', h, h1, h2⟩

/-- C03: if building returns normally, the accepted triangles form a single fan at every vertex, and all half-edges leaving
a vertex are reached by turning around it from its own half-edge. -/
theorem c03_single_fan (O : Owned m) {V : List (Vec3 F)} {I : List Nat} (h : construct V I m = .ok () m') :
    (∃ ts, m'.indices = ofTris ts ∧ ∀ a, SingleFan (keepTris [] ts) a) ∧
    ∀ v e, m'.vAlive v = true → m'.hAlive e = true → m'.hSrc e = v →
      ∃ n, (fun x => m'.hNext (m'.hRev x))^[n] (m'.vHe v) = e := by
  obtain ⟨mD, J, ts0, _, _, _, _, _, _, hnd, B, _⟩ := construct_ok O h
  refine ⟨⟨dropDegen ts0, B.indices, (B.manifold hnd).fan⟩, ?_⟩
  intro v e av ae hs
  obtain ⟨a1, a2⟩ := B.good.wf.vHe_ok v av
  exact B.good.wf.ring_conn _ _ a1 ae (by rw [a2, hs])

example : ∃ m', construct stripV stripI fresh = .ok () m' ∧ ∃ ts, m'.indices = ofTris ts ∧ ∀ a, SingleFan (keepTris [] ts) a := by
  obtain ⟨_, m2, h2⟩ := isOk_iff (o := construct stripV stripI fresh) (by decide +kernel)
  exact ⟨m2, h2, (c03_single_fan (Owned.empty dbl) h2).1⟩

/-- C03: a vertex at which the accepted triangles do not form a single fan leads to a reported error (unless undefined
behaviour comes first, see C04: an unused vertex or reallocation). -/
theorem c03_bowtie_reported (L : EqLaw F) (O : Owned m) (hi : m.indices = []) {V : List (Vec3 F)} {I : List Nat}
    (hv : ValidInput V I) {P : List (Vec3 F)} {ts : List Tri} (D : Merged V I P (ofTris ts)) (hp : ∀ t ∈ ts, t.proper)
    (hb : ∃ a, ¬ SingleFan (keepTris [] ts) a) (hu : ∀ a, a < P.length → ∃ t ∈ keepTris [] ts, t.has a)
    (hf : Fits m.grow m.hCap (keepTris [] ts)) : construct V I m = .err .abort := by
  have hnd : ∀ t ∈ ts, t.degen = false := fun t ht => (t.proper_iff).1 (hp t ht)
  have := construct_cases L O hi hv D (by rw [dropDegen_id ts hnd]; exact hnd)
  rw [dropDegen_id ts hnd] at this
  rcases this with ⟨mD, m', _, _, _, _, _, B⟩ | ⟨_, ⟨a, ha, h⟩ | h⟩ | ⟨h, _⟩
  · obtain ⟨a, ha⟩ := hb
    exact absurd ((B.manifold hnd).fan a) ha
  · obtain ⟨t, ht, hta⟩ := hu a ha
    exact absurd hta (h t ht)
  · exact absurd hf h
  · exact h

/-- two tetrahedra that touch in a vertex are reported -/
example : construct bowV (ofTris bowT) fresh = .err .abort :=
  c03_bowtie_reported law (Owned.empty dbl) rfl bow_valid bow_merged bow_proper ⟨0, bow_split⟩ bow_used bow_fits

/-- C04: the exact condition for undefined behaviour. For in-range indices whose length is a multiple of three, and whose
degenerate triangles are all dropped, building a mesh runs into undefined behaviour if and only if some vertex belongs to no
accepted triangle or the half-edge vector reallocates while boundary half-edges are appended; otherwise it succeeds or
reports an error. -/
theorem c04_undefined_iff (L : EqLaw F) (O : Owned m) (hi : m.indices = []) {V : List (Vec3 F)} {I : List Nat}
    (hv : ValidInput V I) {P : List (Vec3 F)} {ts : List Tri} (D : Merged V I P (ofTris ts)) (hp : ∀ t ∈ ts, t.proper) :
    (construct V I m = .err .ub ↔
      ((∃ a, a < P.length ∧ ∀ t ∈ keepTris [] ts, ¬ t.has a) ∨ ¬ Fits m.grow m.hCap (keepTris [] ts))) ∧
    (construct V I m ≠ .err .ub → (∃ m', construct V I m = .ok () m' ∧ m'.Good) ∨ construct V I m = .err .abort) := by
  have hnd : ∀ t ∈ ts, t.degen = false := fun t ht => (t.proper_iff).1 (hp t ht)
  have := construct_cases L O hi hv D (by rw [dropDegen_id ts hnd]; exact hnd)
  rw [dropDegen_id ts hnd] at this
  rcases this with ⟨mD, m', h, _, hl, hg, hcp, B⟩ | ⟨h, h'⟩ | ⟨h, _, hu, hf⟩
  · rw [h]
    refine ⟨⟨(fun h => nomatch h), ?_⟩, fun _ => Or.inl ⟨m', rfl, B.good⟩⟩
    rintro (⟨a, ha, h'⟩ | h')
    · obtain ⟨t, ht, hta⟩ := B.used a (by omega)
      exact absurd hta (h' t ht)
    · exact absurd (by unfold Fits; rw [← hg, ← hcp]; exact B.cap) h'
  · rw [h]
    exact ⟨⟨fun _ => h', fun _ => rfl⟩, fun h => absurd rfl h⟩
  · rw [h]
    refine ⟨⟨(fun h => nomatch h), ?_⟩, fun _ => Or.inr rfl⟩
    rintro (⟨a, ha, h'⟩ | h')
    · obtain ⟨t, ht, hta⟩ := hu a ha
      exact absurd hta (h' t ht)
    · exact absurd hf h'

example : construct tetV tetI fresh ≠ .err .ub :=
  (not_congr (c04_undefined_iff law (Owned.empty dbl) rfl tet_valid tet_merged tet_manifold.proper).1).2 (by decide +kernel)

/-- C04 is false: a single triangle. The three boundary half-edges do not fit into the capacity that three insertions leave
behind, so the reference of mesh.cpp:303 dangles. -/
theorem c04_counterexample_triangle : construct stripV [0, 1, 2] fresh = .err .ub :=
  isErr_iff (by decide +kernel)

/-- C04 is false: a tetrahedron and a degenerate triangle with a vertex of its own. The triangle is dropped, the vertex has no
half-edge, and mesh.cpp:290 dereferences null. -/
theorem c04_counterexample_unused : construct (tetV ++ [pt 5 5 5]) ([4, 4, 0] ++ tetI) fresh = .err .ub :=
  isErr_iff (by decide +kernel)

/-- the hypotheses of C04 hold in both counterexamples -/
example : ValidInput stripV [0, 1, 2] ∧ ValidInput (tetV ++ [pt 5 5 5]) ([4, 4, 0] ++ tetI) :=
  ⟨validB_iff (by decide +kernel), validB_iff (by decide +kernel)⟩

/-- C04, what remains true: without an unused vertex and without reallocation there is no undefined behaviour, and the
call ends. Missing: both exceptions happen for valid triangle lists (`c04_counterexample_*`). -/
theorem c04_defined_partial (L : EqLaw F) (O : Owned m) (hi : m.indices = []) {V : List (Vec3 F)} {I : List Nat}
    (hv : ValidInput V I) {P : List (Vec3 F)} {ts : List Tri} (D : Merged V I P (ofTris ts))
    (hu : ∀ a, a < P.length → ∃ t ∈ keepTris [] (dropDegen ts), t.has a)
    (hf : Fits m.grow m.hCap (keepTris [] (dropDegen ts))) :
    (∃ m', construct V I m = .ok () m' ∧ m'.Good) ∨ construct V I m = .err .abort := by
  by_cases hnd : ∀ t ∈ dropDegen ts, t.degen = false
  · rcases construct_cases L O hi hv D hnd with ⟨mD, m', h, _, _, _, _, B⟩ | ⟨_, ⟨a, ha, h⟩ | h⟩ | ⟨h, _⟩
    · exact Or.inl ⟨m', h, B.good⟩
    · obtain ⟨t, ht, hta⟩ := hu a ha
      exact absurd hta (h t ht)
    · exact absurd hf h
    · exact Or.inr h
  · right
    have hI : ∀ i ∈ I, i < V.length := by
      intro i hii
      obtain ⟨p, hp, _⟩ := hv i hii
      exact (List.getElem?_eq_some_iff.1 hp).1
    obtain ⟨mD, J, e, R, _, _, hJ, _, _, hM⟩ := construct_reduce O hI
    obtain ⟨_, hJJ⟩ := Merged.unique L hv (hM hv) D
    rw [e]
    have : ∃ t ∈ dropDegen ts, t.degen = true := by
      by_contra hn
      exact hnd (fun t ht => by
        rw [← Bool.not_eq_true]; intro hd; exact hn ⟨t, ht, hd⟩)
    exact construct0_degen R (by rw [hJ, hi, List.nil_append, hJJ]; exact toTris_ofTris ts) this

example : construct bowV (ofTris bowT) fresh ≠ .err .ub := by
  intro hc
  rcases c04_defined_partial law (Owned.empty dbl) rfl bow_valid bow_merged (by decide +kernel) (by decide +kernel) with ⟨m', h, _⟩ | h
  · exact nomatch h.symm.trans hc
  · exact nomatch h.symm.trans hc

/-- C05, what holds for every successful build: no degenerate triangle is left, and the proper triangles are all there. -/
theorem c05_no_degenerate_left (O : Owned m) (hi : m.indices = []) {V : List (Vec3 F)} {I : List Nat} (hv : ValidInput V I)
    (h : construct V I m = .ok () m') :
    ∃ P ts0 ts, Merged V I P (ofTris ts0) ∧ m'.indices = ofTris ts ∧ (∀ t ∈ ts, t.proper) ∧
      ts.Perm (ts0.filter (fun t => decide t.proper)) := by
  obtain ⟨mD, J, ts0, _, _, _, _, _, hJ, hnd, B, hM⟩ := construct_ok O h
  rw [hi, List.nil_append] at hJ
  have hpr : ∀ t ∈ dropDegen ts0, t.proper := fun t ht => (t.proper_iff).2 (hnd t ht)
  refine ⟨_, ts0, dropDegen ts0, hJ ▸ hM hv, B.indices, hpr, ?_⟩
  have e : ∀ t : Tri, (!t.degen) = decide t.proper := by
    intro t
    rw [Bool.eq_iff_iff]
    simp [t.proper_iff]
  have := dropDegen_perm _ ts0 rfl
  simp only [e] at this
  rwa [List.filter_eq_self.2 (by simpa using hpr)] at this

example : ∃ m', construct tetV ([0, 0, 1] ++ tetI) fresh = .ok () m' ∧ ∃ ts, m'.indices = ofTris ts ∧ ∀ t ∈ ts, t.proper := by
  obtain ⟨_, m2, h2⟩ := isOk_iff (o := construct tetV ([0, 0, 1] ++ tetI) fresh) (by decide +kernel)
  obtain ⟨_, _, ts, _, h, h', _⟩ := c05_no_degenerate_left (Owned.empty dbl) rfl (validB_iff (by decide +kernel)) h2
  exact ⟨m2, h2, ts, h, h'⟩

/-- C05 is false: two degenerate triangles at the end of the list make construction fail. The second one is swapped into the
slot of the first one and is not examined again. -/
theorem c05_counterexample : construct tetV (tetI ++ [0, 0, 1, 1, 1, 0]) fresh = .err .abort :=
  isErr_iff (by decide +kernel)

/-- C05, partial: degenerate triangles are dropped and do no harm if there is at most one of them, or if enough proper
triangles follow behind them. Missing: with two or more degenerate triangles near the end of the list the swapped-in
triangle is not examined again (`c05_counterexample`). -/
theorem c05_degenerate_dropped_partial (L : EqLaw F) (O : Owned m) (hi : m.indices = []) {V : List (Vec3 F)} {I : List Nat}
    (hv : ValidInput V I) {P : List (Vec3 F)} {ts : List Tri} (D : Merged V I P (ofTris ts))
    (hfew : ts.countP (fun t => !decide t.proper) ≤ 1 ∨
      ∃ A G, ts = A ++ G ∧ (∀ t ∈ G, t.proper) ∧ A.countP (fun t => !decide t.proper) ≤ G.length)
    (M : Manifold (ts.filter (fun t => decide t.proper)))
    (hu : ∀ a, a < P.length → ∃ t ∈ ts, t.proper ∧ t.has a)
    (hf : Fits m.grow m.hCap (ts.filter (fun t => decide t.proper))) :
    ∃ m' ts', construct V I m = .ok () m' ∧ m'.Good ∧ m'.indices = ofTris ts' ∧
      ts'.Perm (ts.filter (fun t => decide t.proper)) := by
  have e : ∀ t : Tri, (!decide t.proper) = t.degen := by
    intro t
    rw [Bool.eq_iff_iff]
    simp [t.proper_iff]
  have e' : ∀ t : Tri, (!t.degen) = decide t.proper := by
    intro t; rw [← e t, Bool.not_not]
  simp only [e] at hfew
  have hnd : ∀ t ∈ dropDegen ts, t.degen = false := by
    rcases hfew with h | ⟨A, G, rfl, hG, h⟩
    · exact dropDegen_one _ ts rfl h
    · exact dropDegen_good _ A G rfl (fun t ht => (t.proper_iff).1 (hG t ht)) h
  have hpr : ∀ t ∈ dropDegen ts, t.proper := fun t ht => (t.proper_iff).2 (hnd t ht)
  have hperm : (dropDegen ts).Perm (ts.filter (fun t => decide t.proper)) := by
    have := dropDegen_perm _ ts rfl
    simp only [e'] at this
    rwa [List.filter_eq_self.2 (by simpa using hpr)] at this
  have hk : keepTris [] (dropDegen ts) = dropDegen ts := by
    have := keepTris_id (dropDegen ts) [] (by
      rw [List.nil_append, (hperm.flatMap_right Tri.edges).nodup_iff]; exact M.edges)
    simpa using this
  have := construct_cases L O hi hv D hnd
  rw [hk] at this
  rcases this with ⟨mD, m', h, _, _, _, _, B⟩ | ⟨_, ⟨a, ha, h⟩ | h⟩ | ⟨_, ⟨a, _, h⟩, _⟩
  · exact ⟨m', _, h, B.good, B.indices, hperm⟩
  · obtain ⟨t, ht, h1, h2⟩ := hu a ha
    exact absurd h2 (h t (hperm.mem_iff.2 (by simp [ht, h1])))
  · exfalso
    apply h
    unfold Fits at hf ⊢
    rwa [boundaryCount_perm hperm, hperm.length_eq]
  · exact absurd ((SingleFan.congr (fun t => hperm.mem_iff) a).2 (M.fan a)) h

/-- two degenerate triangles before a tetrahedron -/
example : ∃ m' ts', construct tetP (ofTris ([⟨0, 0, 1⟩, ⟨1, 1, 0⟩] ++ tetT)) fresh = .ok () m' ∧
    m'.Good ∧ m'.indices = ofTris ts' ∧ ts'.Perm tetT := by
  have D : Merged tetP (ofTris ([⟨0, 0, 1⟩, ⟨1, 1, 0⟩] ++ tetT)) tetP (ofTris ([⟨0, 0, 1⟩, ⟨1, 1, 0⟩] ++ tetT)) :=
    mergedB_iff (by decide +kernel)
  have e : (([⟨0, 0, 1⟩, ⟨1, 1, 0⟩] : List Tri) ++ tetT).filter (fun t => decide t.proper) = tetT := by decide +kernel
  have := c05_degenerate_dropped_partial law (Owned.empty dbl) rfl (validB_iff (by decide +kernel)) D
    (Or.inr ⟨[⟨0, 0, 1⟩, ⟨1, 1, 0⟩], tetT, rfl, tet_manifold.proper, by decide +kernel⟩) (by rw [e]; exact tet_manifold)
    (by decide +kernel) (by decide +kernel)
  rw [e] at this
  exact this

/-- C06: after building on a fresh object, vertices are the different positions in the order of first use, and the recorded
corners refer to them. If no triangle is degenerate, the recorded corners are exactly those of the input. -/
theorem c06_positions_merged (O : Owned m) (hi : m.indices = []) {V : List (Vec3 F)} {I : List Nat} (hv : ValidInput V I)
    (h : construct V I m = .ok () m') :
    ∃ J, Merged V I (m'.vs.map m'.vPos) J ∧
      ((∃ ts, J = ofTris ts ∧ ∀ t ∈ ts, t.proper) → m'.indices = J) := by
  obtain ⟨mD, J, ts0, _, _, _, _, _, hJ, hnd, B, hM⟩ := construct_ok O h
  rw [hi, List.nil_append] at hJ
  refine ⟨J, hM hv, ?_⟩
  rintro ⟨ts, rfl, hp⟩
  have : ts0 = ts := by
    have h1 := toTris_ofTris ts
    have h2 := toTris_ofTris ts0
    rw [hJ, h2] at h1
    cases h1; rfl
  subst this
  rw [B.indices, dropDegen_id ts0 (fun t ht => (t.proper_iff).1 (hp t ht))]

/-- an input with a repeated position -/
example : ∃ m', construct (tetV ++ [pt 0 0 0]) [0, 2, 1, 4, 1, 3, 1, 2, 3, 2, 4, 3] fresh = .ok () m' ∧
    ∃ J, Merged (tetV ++ [pt 0 0 0]) [0, 2, 1, 4, 1, 3, 1, 2, 3, 2, 4, 3] (m'.vs.map m'.vPos) J := by
  obtain ⟨_, m2, h2⟩ := isOk_iff (o := construct (tetV ++ [pt 0 0 0]) [0, 2, 1, 4, 1, 3, 1, 2, 3, 2, 4, 3] fresh) (by decide +kernel)
  obtain ⟨J, h, _⟩ := c06_positions_merged (Owned.empty dbl) rfl (validB_iff (by decide +kernel)) h2
  exact ⟨m2, h2, J, h⟩

/-- C07, partial: `getVertexIndices` lists the accepted triangles in input order, rotated by one corner. Missing: a triangle
that shares no edge with another accepted triangle is left out, because all its edges are flagged as boundary
(`c07_counterexample`). -/
theorem c07_report_partial (O : Owned m) {V : List (Vec3 F)} {I : List Nat} (h : construct V I m = .ok () m') :
    ∃ ts, m'.indices = ofTris ts ∧ getVertexIndices m' = .ok
      (((keepTris [] ts).filter (fun t => !t.isolated (keepTris [] ts))).map
        (fun t => ((t.c : Int), (t.a : Int), (t.b : Int)))) m' := by
  obtain ⟨mD, J, ts0, _, _, _, _, _, _, hnd, B, _⟩ := construct_ok O h
  refine ⟨dropDegen ts0, B.indices, ?_⟩
  rw [B.report]
  congr 1
  generalize keepTris [] (dropDegen ts0) = K
  have : ∀ l : List Tri, l.filterMap (Tri.report K) = (l.filter (fun t => !t.isolated K)).map
      (fun t => ((t.c : Int), (t.a : Int), (t.b : Int))) := by
    intro l
    induction l with
    | nil => rfl
    | cons t l ih =>
      cases hi : t.isolated K <;> simp [Tri.report, hi, ih]
  exact this K

example : ∃ m', construct stripV stripI fresh = .ok () m' ∧
    getVertexIndices m' = .ok [(2, 0, 1), (3, 2, 1), (4, 2, 3)] m' := by
  obtain ⟨_, m2, h2⟩ := isOk_iff (o := construct stripV stripI fresh) (by decide +kernel)
  obtain ⟨ts, h, h'⟩ := c07_report_partial (Owned.empty dbl) h2
  obtain ⟨J, hJ, hJ'⟩ := c06_positions_merged (Owned.empty dbl) rfl strip_valid h2
  have e := (Merged.unique law strip_valid hJ strip_merged).2
  have : ts = stripT := by
    have h1 := toTris_ofTris ts
    rw [← h, hJ' ⟨stripT, e, strip_manifold.proper⟩, e, toTris_ofTris] at h1
    cases h1; rfl
  subst this
  have e2 : ((keepTris [] stripT).filter (fun t => !t.isolated (keepTris [] stripT))).map
      (fun t => ((t.c : Int), (t.a : Int), (t.b : Int))) = [(2, 0, 1), (3, 2, 1), (4, 2, 3)] := by decide +kernel
  rw [e2] at h'
  exact ⟨m2, h2, h'⟩

/-- C07 is false: of a square and a triangle apart from it only the two triangles of the square are reported. -/
theorem c07_counterexample : ∃ m', construct apartV apartI fresh = .ok () m' ∧ m'.indices = apartI ∧
    ∃ r, getVertexIndices m' = .ok r m' ∧ r.length = 2 := by
  obtain ⟨_, m2, h2⟩ := isOk_iff (o := construct apartV apartI fresh) (by decide +kernel)
  obtain ⟨ts, h, h'⟩ := c07_report_partial (Owned.empty dbl) h2
  have hv : ValidInput apartV apartI := validB_iff (by decide +kernel)
  obtain ⟨J, hJ, hJ'⟩ := c06_positions_merged (Owned.empty dbl) rfl hv h2
  have D : Merged apartV apartI apartV (ofTris [⟨0, 1, 2⟩, ⟨2, 1, 3⟩, ⟨4, 5, 6⟩]) := mergedB_iff (by decide +kernel)
  have e := (Merged.unique law hv hJ D).2
  have hi := hJ' ⟨_, e, by decide⟩
  have : ts = [⟨0, 1, 2⟩, ⟨2, 1, 3⟩, ⟨4, 5, 6⟩] := by
    have h1 := toTris_ofTris ts
    rw [← h, hi, e, toTris_ofTris] at h1
    cases h1; rfl
  subst this
  exact ⟨m2, h2, h, _, h', by decide +kernel⟩

/-- the facts about a mesh built on a fresh object that `clone` and `save` need -/
theorem fresh_sound {g : Nat → Nat} {V : List (Vec3 F)} {I : List Nat} (hv : ValidInput V I) {ts : List Tri}
    (h : construct V I (Mesh.empty g) = .ok () m') (hts : m'.indices = ofTris ts)
    (hiso : ∀ t ∈ keepTris [] ts, t.isolated (keepTris [] ts) = false) :
    Sound (m'.vs.map m'.vPos) (keepTris [] ts) ∧ Distinct (m'.vs.map m'.vPos) ∧ Fits g 0 (keepTris [] ts) ∧ m'.WF ∧
      getVertexIndices m' = .ok ((keepTris [] ts).map (fun t => ((t.c : Int), (t.a : Int), (t.b : Int)))) m' := by
  obtain ⟨mD, J, ts0, _, hcap, hgrow, _, _, _, hnd, B, hM⟩ := construct_ok (Owned.empty g) h
  have : ts = dropDegen ts0 := by
    have h1 := toTris_ofTris ts
    rw [← hts, B.indices, toTris_ofTris] at h1
    cases h1; rfl
  subst this
  have hl : (m'.vs.map m'.vPos).length = mD.vs.length := by rw [List.length_map, B.vs]
  refine ⟨⟨B.manifold hnd, ?_, ?_, hiso⟩, (hM hv).distinct hv, ?_, B.good.wf, ?_⟩
  · intro t ht; rw [hl]; exact B.inRange t ht
  · intro a ha; exact B.used a (by omega)
  · have := B.cap
    rw [hgrow, hcap] at this
    exact this
  · rw [B.report, report_all hiso]

/-- C08, partial: `clone` of a constructed mesh succeeds and gives the same positions and the same faces, as oriented
triangles over positions, in the same order. Missing: meshes with a triangle that shares no edge with another one, which
`clone` loses or on which it runs into undefined behaviour (`c08_counterexample`). -/
theorem c08_clone_partial (L : EqLaw F) {g : Nat → Nat} {V : List (Vec3 F)} {I : List Nat} (hv : ValidInput V I) {ts : List Tri}
    (h : construct V I (Mesh.empty g) = .ok () m') (hts : m'.indices = ofTris ts)
    (hiso : ∀ t ∈ keepTris [] ts, t.isolated (keepTris [] ts) = false) :
    ∃ m2 r1 r2, clone g m' = .ok () m2 ∧ m2.Good ∧ (m2.vs.map m2.vPos).Perm (m'.vs.map m'.vPos) ∧
      getVertexIndices m' = .ok r1 m' ∧ getVertexIndices m2 = .ok r2 m2 ∧
      SameFaces (m'.vs.map m'.vPos) r1 (m2.vs.map m2.vPos) r2 := by
  obtain ⟨S, DP, hf, w, hr⟩ := fresh_sound hv h hts hiso
  obtain ⟨m2, r2, e, G, hp, hr2, hs⟩ := S.rebuild L rfl DP (Owned.empty g) rfl hf
  refine ⟨m2, _, r2, ?_, G, hp, hr, hr2, hs⟩
  unfold clone
  rw [w.getVertices_ok]
  simp only [hr]
  rw [flatIdx_map]
  exact e

example : ∃ m' m2, construct stripV stripI fresh = .ok () m' ∧ clone dbl m' = .ok () m2 ∧ m2.Good := by
  obtain ⟨_, m', h⟩ := isOk_iff (o := construct stripV stripI fresh) (by decide +kernel)
  obtain ⟨J, hJ, hJ'⟩ := c06_positions_merged (Owned.empty dbl) rfl strip_valid h
  have e := (Merged.unique law strip_valid hJ strip_merged).2
  obtain ⟨m2, _, _, h2, G, _⟩ := c08_clone_partial law strip_valid h (ts := stripT)
    (by rw [hJ' ⟨stripT, e, strip_manifold.proper⟩, e]) (by decide)
  exact ⟨m', m2, h, h2, G⟩

/-- C08 is false: cloning a square and a triangle apart from it runs into undefined behaviour. -/
theorem c08_counterexample : ∃ m', construct apartV apartI fresh = .ok () m' ∧ clone dbl m' = .err .ub := by
  obtain ⟨_, m', h⟩ := isOk_iff (o := construct apartV apartI fresh) (by decide +kernel)
  refine ⟨m', h, isErr_iff ?_⟩
  have : thenIsErr (clone dbl) .ub (construct apartV apartI fresh) = true := by decide +kernel
  rw [h] at this
  exact this

/-- C45, partial: a mesh built from valid input, saved (with any rounding that keeps different positions different) and
loaded into a new object gives the same faces over the rounded positions. Missing: the text and binary formats themselves,
and meshes with isolated triangles (as in C08). -/
theorem c45_save_load_partial (L : EqLaw F) {g : Nat → Nat} {V : List (Vec3 F)} {I : List Nat} (hv : ValidInput V I)
    {ts : List Tri} (h : construct V I (Mesh.empty g) = .ok () m') (hts : m'.indices = ofTris ts)
    (hiso : ∀ t ∈ keepTris [] ts, t.isolated (keepTris [] ts) = false) (round : Vec3 F → Vec3 F)
    (hround : Distinct ((m'.vs.map m'.vPos).map round)) :
    ∃ f m2 r1 r2, savePLY round m' = .ok f m' ∧ saveOBJ round m' = .ok f m' ∧ loadPLY f (Mesh.empty g) = .ok () m2 ∧
      loadOBJ f (Mesh.empty g) = .ok () m2 ∧ m2.Good ∧ (m2.vs.map m2.vPos).Perm ((m'.vs.map m'.vPos).map round) ∧
      getVertexIndices m' = .ok r1 m' ∧ getVertexIndices m2 = .ok r2 m2 ∧
      SameFaces ((m'.vs.map m'.vPos).map round) r1 (m2.vs.map m2.vPos) r2 := by
  obtain ⟨S, DP, hf, w, hr⟩ := fresh_sound hv h hts hiso
  obtain ⟨m2, r2, e, G, hp, hr2, hs⟩ := S.rebuild L (by simp) hround (Owned.empty g) rfl hf
  refine ⟨⟨(m'.vs.map m'.vPos).map round, ofTris ((keepTris [] ts).map Tri.rot)⟩, m2, _, r2, ?_, ?_, e, ?_, G, hp, hr, hr2, hs⟩
  · simp only [savePLY, bind_apply, w.getVertices_ok, hr, pure_apply, flatIdx_map]
  · have : ((keepTris [] ts).map (fun t => ((t.c : Int), (t.a : Int), (t.b : Int)))).filter (inFile m'.vs.length) =
        (keepTris [] ts).map (fun t => ((t.c : Int), (t.a : Int), (t.b : Int))) := by
      rw [List.filter_eq_self]
      intro x hx
      obtain ⟨t, ht, rfl⟩ := List.mem_map.1 hx
      have := S.range t ht
      simp only [Tri.inRange, List.length_map] at this
      simp [inFile, this]
    simp only [saveOBJ, bind_apply, w.getVertices_ok, hr, M.read, this, pure_apply, flatIdx_map]
  · exact (loadOBJ_of_construct (m := Mesh.empty g) (Owned.empty g)) e

/-- rounding to thirds -/
example : ∃ m' f m2, construct tetV tetI fresh = .ok () m' ∧ saveOBJ (fun p => ⟨mkRat (p.x * 3).floor 3, p.y, p.z⟩) m' = .ok f m' ∧
    loadOBJ f fresh = .ok () m2 ∧ m2.Good := by
  obtain ⟨_, m', h⟩ := isOk_iff (o := construct tetV tetI fresh) (by decide +kernel)
  obtain ⟨J, hJ, hJ'⟩ := c06_positions_merged (Owned.empty dbl) rfl tet_valid h
  obtain ⟨eP, e⟩ := Merged.unique law tet_valid hJ tet_merged
  have hD : Distinct (tetP.map (fun p => (⟨mkRat (p.x * 3).floor 3, p.y, p.z⟩ : Vec3 Rat))) := distinctB_iff (by decide +kernel)
  obtain ⟨f, m2, _, _, _, h2, _, h3, G, _⟩ := c45_save_load_partial law tet_valid h (ts := tetT)
    (by rw [hJ' ⟨tetT, e, tet_manifold.proper⟩, e]) (by decide) _ (by rw [eP]; exact hD)
  exact ⟨m', f, m2, h, h2, h3, G⟩

/-- C09, partial: loading an OBJ file into a used object gives the same vertices and the same reported triangles as loading it
into a new one, provided the half-edge vector does not have to grow while boundary half-edges are appended. Missing:
`construct(vertices, indices)` and PLY files, which keep the old `indices_` (`c09_counterexample`). -/
theorem c09_obj_partial (L : EqLaw F) (O : Owned m) {g : Nat → Nat} {f : MeshFile F} (hv : ValidInput f.pos f.idx) {m1 : Mesh F}
    (h : loadOBJ f (Mesh.empty g) = .ok () m1) {ts : List Tri} (hts : m1.indices = ofTris ts)
    (hf : Fits m.grow m.hCap (keepTris [] ts)) :
    ∃ m2, loadOBJ f m = .ok () m2 ∧ m2.Good ∧ m2.vs.map m2.vPos = m1.vs.map m1.vPos ∧ m2.indices = m1.indices ∧
      ∃ r, getVertexIndices m1 = .ok r m1 ∧ getVertexIndices m2 = .ok r m2 := by
  have h1 := loadOBJ_ok (Owned.empty g) h
  obtain ⟨mD, J, ts0, _, _, _, _, _, hJ, hnd, B, hM⟩ := construct_ok (m := { Mesh.empty g with indices := [] }) (Owned.empty g) h1
  have hJ : J = ofTris ts0 := by simpa using hJ
  have : ts = dropDegen ts0 := by
    have h1 := toTris_ofTris ts
    rw [← hts, B.indices, toTris_ofTris] at h1
    cases h1; rfl
  subst this
  have D := hM hv
  rw [hJ] at D
  have O' : Owned { m with indices := [] } := ⟨O.h, O.v, O.f, O.h0, O.v0, O.f0⟩
  have hl : (m1.vs.map m1.vPos).length = mD.vs.length := by rw [List.length_map, B.vs]
  rcases construct_cases L O' rfl hv D hnd with ⟨mE, m2, h2, hP, _, _, _, B2⟩ | ⟨_, ⟨a, ha, h⟩ | h⟩ | ⟨_, ⟨a, _, h⟩, _⟩
  · exact ⟨m2, loadOBJ_of_construct O h2, B2.good, hP, by rw [B2.indices, B.indices], _, B.report, B2.report⟩
  · obtain ⟨t, ht, hta⟩ := B.used a (by omega)
    exact absurd hta (h t ht)
  · exact absurd hf h
  · exact absurd ((B.manifold hnd).fan a) h

/-- a tetrahedron file loaded over a strip -/
example : ∃ m m2, construct stripV stripI fresh = .ok () m ∧ loadOBJ ⟨tetV, tetI⟩ m = .ok () m2 ∧ m2.Good := by
  obtain ⟨_, m, h⟩ := isOk_iff (o := construct stripV stripI fresh) (by decide +kernel)
  obtain ⟨_, m1, h1⟩ := isOk_iff (o := loadOBJ ⟨tetV, tetI⟩ fresh) (by decide +kernel)
  have h1' : construct tetV tetI fresh = .ok () m1 := loadOBJ_ok (m := fresh) (f := ⟨tetV, tetI⟩) (Owned.empty dbl) h1
  obtain ⟨J, hJ, hJ'⟩ := c06_positions_merged (Owned.empty dbl) rfl tet_valid h1'
  obtain ⟨eP, e⟩ := Merged.unique law tet_valid hJ tet_merged
  have h0 := construct_owned (Owned.empty dbl) h
  obtain ⟨m2, h2, G, _⟩ := c09_obj_partial law h0 (f := ⟨tetV, tetI⟩) (g := dbl) tet_valid h1 (ts := tetT)
    (by rw [hJ' ⟨tetT, e, tet_manifold.proper⟩, e]) (fits_closed tet_closed _ _)
  exact ⟨m, m2, h, h2, G⟩

/-- C09 is false: building a tetrahedron in an object that holds a strip uses the old indices as well and runs into undefined
behaviour, although it succeeds in a fresh object. -/
theorem c09_counterexample : ∃ m, construct stripV stripI fresh = .ok () m ∧ construct tetV tetI m = .err .ub ∧
    ∃ m1, construct tetV tetI fresh = .ok () m1 := by
  obtain ⟨_, m, h⟩ := isOk_iff (o := construct stripV stripI fresh) (by decide +kernel)
  obtain ⟨_, m1, h1⟩ := isOk_iff (o := construct tetV tetI fresh) (by decide +kernel)
  refine ⟨m, h, isErr_iff ?_, m1, h1⟩
  have : thenIsErr (construct tetV tetI) .ub (construct stripV stripI fresh) = true := by decide +kernel
  rw [h] at this
  exact this

end TinyMesh
