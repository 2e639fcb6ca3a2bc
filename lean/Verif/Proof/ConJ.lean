import Verif.Proof.ConI
/-
`construct()`: all loops together.
-/
set_option linter.unusedSimpArgs false
namespace TinyMesh
open Orbit
variable {F : Type} {m m' m0 : Mesh F}

/-- a mesh object that has vertices but no half-edges and faces yet -/
structure Ready (m : Mesh F) : Prop where
  hes : m.hes = []
  fs : m.fs = []
  hal : ∀ h, m.hAlive h = false
  fal : ∀ f, m.fAlive f = false
  nodup : m.vs.Nodup
  mem : ∀ v, v ∈ m.vs ↔ m.vAlive v = true
  vB : ∀ v, m.vAlive v = true → 0 < v ∧ v < m.vFresh
  h0 : 0 < m.hFresh
  v0 : 0 < m.vFresh
  f0 : 0 < m.fFresh
  vHe : ∀ v, m.vAlive v = true → m.vHe v = 0

theorem setVertexIndices_ok : ∀ (l : List Nat) (i : Nat) (m : Mesh F), l.Nodup → (∀ v ∈ l, m.vAlive v = true) →
    ∃ W, setVertexIndices i l m = .ok () { m with vIdx := W } ∧
      (∀ j (h : j < l.length), W l[j] = ((i + j : Nat) : Int)) ∧ (∀ v, v ∉ l → W v = m.vIdx v) := by
  intro l
  induction l with
  | nil => intro i m _ _; exact ⟨m.vIdx, rfl, by simp, fun _ _ => rfl⟩
  | cons v l ih =>
    intro i m nd al
    have av := al v (by simp)
    rw [List.nodup_cons] at nd
    obtain ⟨W, e, h1, h2⟩ := ih (i + 1) { m with vIdx := upd m.vIdx v i } nd.2 (fun u hu => al u (by simp [hu]))
    refine ⟨W, ?_, ?_, ?_⟩
    · simp only [setVertexIndices, bind_apply, setVIdx, av, if_true]
      exact e
    · intro j hj
      cases j with
      | zero =>
        have : W v = _ := h2 v nd.1
        simp only [upd_same] at this
        simpa using this
      | succ j =>
        have := h1 j (by simpa using hj)
        simp only [List.getElem_cons_succ]
        rw [this]; congr 1; omega
    · intro u hu
      simp only [List.mem_cons, not_or] at hu
      rw [h2 u hu.2]
      simp only [upd_ne _ _ hu.1]

theorem Ready.invA {W : Nat → Int} (R : Ready m) (hW : ∀ j (h : j < m.vs.length), W m.vs[j] = (j : Int)) (ix : List Nat) :
    InvA { m with vIdx := W, indices := ix } PD.empty [] := by
  have no : ∀ {h : Nat} {P : Prop}, m.hAlive h = true → P := by
    intro h P a; rw [R.hal h] at a; cases a
  have nof : ∀ {h : Nat} {P : Prop}, m.fAlive h = true → P := by
    intro h P a; rw [R.fal h] at a; cases a
  refine {
    hd := ⟨by simp [R.hes], by intro p; simp [R.hes, R.hal], by intro i hi; simp [R.hes] at hi⟩
    vd := ⟨R.nodup, R.mem, hW⟩
    fd := ⟨by simp [R.fs], by intro p; simp [R.fs, R.fal], by intro i hi; simp [R.fs] at hi⟩
    hB := fun h a => no a
    vB := R.vB
    fB := fun h a => nof a
    h0 := R.h0
    f0 := R.f0
    next_alive := fun h a => no a
    src_alive := fun h a => no a
    face_alive := fun h a => no a
    tri := fun h a => no a
    face_next := fun h a => no a
    face_tri := fun h h' a => no a
    fHe_ok := fun f a => nof a
    bd := fun h a => no a
    pair_ok := fun a b h => absurd rfl h
    pair_all := fun h a => no a
    pair_iff := by intro a b; simp [PD.empty]
    deg := by intro a v _; simp [PD.empty, Mesh.outDeg, R.hes]
    vhe := fun v a => Or.inl ⟨R.vHe v a, fun h a => no a⟩
    len := by simp [R.fs]
    hlen := by simp [R.hes]
    faces := by intro i hi; simp [R.fs] at hi
    nondeg := by simp }

theorem edges_length (K : List Tri) : (K.flatMap Tri.edges).length = 3 * K.length := by
  induction K with
  | nil => rfl
  | cons t K ih => simp only [List.flatMap_cons, List.length_append, ih, List.length_cons, Tri.edges, List.length_nil]; omega

/-- boundary half-edges are the directed edges without counterpart -/
theorem InvA.nBnd_eq {pd : PD} {acc : List Tri} (I : InvA m pd acc) : m.nBnd = boundaryCount acc := by
  have hsub : m.hes ⊆ (acc.flatMap Tri.edges).map (fun e => pd.pair e.1 e.2) := by
    intro h hh
    have ah := (I.hd.mem h).1 hh
    obtain ⟨a, b, e, _⟩ := I.pair_all h ah
    have h0 : pd.pair a b ≠ 0 := by have := (I.hB h ah).1; omega
    obtain ⟨t, ht, hte⟩ := (I.pair_iff a b).1 h0
    rw [List.mem_map]
    exact ⟨(a, b), List.mem_flatMap.2 ⟨t, ht, (Tri.mem_edges _ _ _).2 hte⟩, e⟩
  have hperm : m.hes.Perm ((acc.flatMap Tri.edges).map (fun e => pd.pair e.1 e.2)) := by
    refine (List.subperm_of_subset I.hd.nodup hsub).perm_of_length_le ?_
    rw [List.length_map, edges_length, I.hlen]
  unfold Mesh.nBnd boundaryCount
  rw [hperm.countP_eq, List.countP_map]
  apply List.countP_congr
  rintro ⟨a, b⟩ he
  obtain ⟨t, ht, hte⟩ := List.mem_flatMap.1 he
  rw [Tri.mem_edges] at hte
  have := I.pair_edge ht hte
  simp only [Function.comp, I.rev_pair this]
  have key : pd.pair b a ≠ 0 ↔ (acc.any fun s => s.edges.contains (b, a)) = true := by
    rw [I.pair_iff]
    simp [← Tri.mem_edges]
  cases hc : (acc.any fun s => s.edges.contains (b, a)) with
  | false =>
    have : pd.pair b a = 0 := by
      by_contra h
      rw [key.1 h] at hc; cases hc
    simp [this]
  | true =>
    have := key.2 hc
    simp [this]

theorem le_capAfter (grow : Nat → Nat) : ∀ k n cap, n ≤ cap → n + k ≤ capAfter grow n cap k := by
  intro k
  induction k with
  | zero => intro n cap h; exact h
  | succ k ih =>
    intro n cap h
    have := ih (n + 1) (if n < cap then cap else max (grow n) (n + 1)) (by split <;> omega)
    simp only [capAfter]; omega

/-- as many half-edges are added as there are boundary half-edges -/
theorem Closed.nBnd_le {g : Nat → Nat} (C : Closed m0 g m) : m0.nBnd ≤ m.hFresh - m0.hFresh := by
  have hn : ((m0.hes.filter (fun h => m0.hRev h == 0)).map m.hRev).Nodup := by
    refine (List.nodup_map_iff_inj_on (C.T.hd.nodup.filter _)).2 ?_
    intro x hx y hy e
    rw [List.mem_filter, C.T.hd.mem] at hx hy
    have h1 := (C.bnd_rev ⟨hx.1, by simpa using hx.2⟩).2.2.1
    have h2 := (C.bnd_rev ⟨hy.1, by simpa using hy.2⟩).2.2.1
    rw [← h1, e, h2]
  have hs : ((m0.hes.filter (fun h => m0.hRev h == 0)).map m.hRev) ⊆ List.range' m0.hFresh (m.hFresh - m0.hFresh) := by
    intro b hb
    obtain ⟨x, hx, rfl⟩ := List.mem_map.1 hb
    rw [List.mem_filter, C.T.hd.mem] at hx
    obtain ⟨h1, h2, _⟩ := C.bnd_rev ⟨hx.1, by simpa using hx.2⟩
    rw [List.mem_range'_1]; omega
  have := (List.subperm_of_subset hn hs).length_le
  rw [List.length_map, List.length_range'] at this
  unfold Mesh.nBnd
  rw [List.countP_eq_length_filter]
  exact this

/-- what a successful construction from the accepted triangles `K` gives -/
structure Built (m : Mesh F) (ts K : List Tri) (m' : Mesh F) : Prop where
  good : m'.Good
  vs : m'.vs = m.vs
  vAlive : m'.vAlive = m.vAlive
  vPos : m'.vPos = m.vPos
  vLock : m'.vLock = m.vLock
  vFresh : m'.vFresh = m.vFresh
  indices : m'.indices = ofTris ts
  inRange : ∀ t ∈ K, t.inRange m.vs.length
  used : ∀ a, a < m.vs.length → ∃ t ∈ K, t.has a
  fan : ∀ a, a < m.vs.length → SingleFan K a
  cap : 3 * K.length + boundaryCount K ≤ capAfter m.grow 0 m.hCap (3 * K.length)
  phases : ∃ mA pd V0 g mC V, InvA mA pd K ∧ mA.vs = m.vs ∧ Closed { mA with vHe := V0 } g mC ∧ m' = { mC with vHe := V }

theorem construct0_spec (R : Ready m) {ts0 : List Tri} (ht : toTris m.indices = some ts0)
    (hnd : ∀ t ∈ dropDegen ts0, t.degen = false) :
    (∃ m', construct0 m = .ok () m' ∧ Built m (dropDegen ts0) (keepTris [] (dropDegen ts0)) m') ∨
    (construct0 m = .err .ub ∧ ((∃ t ∈ keepTris [] (dropDegen ts0), ¬ t.inRange m.vs.length) ∨
      (∃ a, a < m.vs.length ∧ ∀ t ∈ keepTris [] (dropDegen ts0), ¬ t.has a) ∨
      capAfter m.grow 0 m.hCap (3 * (keepTris [] (dropDegen ts0)).length) <
        3 * (keepTris [] (dropDegen ts0)).length + boundaryCount (keepTris [] (dropDegen ts0)))) ∨
    (construct0 m = .err .abort ∧ (∃ a, a < m.vs.length ∧ ¬ SingleFan (keepTris [] (dropDegen ts0)) a) ∧
      (∀ t ∈ keepTris [] (dropDegen ts0), t.inRange m.vs.length) ∧
      (∀ a, a < m.vs.length → ∃ t ∈ keepTris [] (dropDegen ts0), t.has a) ∧
      3 * (keepTris [] (dropDegen ts0)).length + boundaryCount (keepTris [] (dropDegen ts0)) ≤
        capAfter m.grow 0 m.hCap (3 * (keepTris [] (dropDegen ts0)).length)) := by
  obtain ⟨ts, hts⟩ : ∃ ts, dropDegen ts0 = ts := ⟨_, rfl⟩
  rw [hts] at hnd ⊢
  obtain ⟨K, hK⟩ : ∃ K, keepTris [] ts = K := ⟨_, rfl⟩
  obtain ⟨W, eW, hW1, _⟩ := setVertexIndices_ok m.vs 0 { m with indices := ofTris ts } R.nodup
    (fun v hv => (R.mem v).1 hv)
  have I0 := R.invA (W := W) (fun j h => by rw [hW1 j h]; congr 1; omega) (ofTris ts)
  have hall : (ts.all fun t => !t.degen) = true := by
    rw [List.all_eq_true]; intro t h; rw [hnd t h]; rfl
  have e0 : construct0 m = (match addTris ts PD.empty { m with vIdx := W, indices := ofTris ts } with
      | .ok pd mA => (do advanceVs m.vs; let hs ← M.read (fun m => m.hes); closeAll hs; stepBack m.vs
                         checkManifold pd.deg m.vs : M F Unit) mA
      | .err e => .err e) := by
    unfold construct0
    simp only [bind_apply, read_apply, ht, hts, setIndices, eW, assert_true hall]
    cases addTris ts PD.empty ({ m with vIdx := W, indices := ofTris ts } : Mesh F) <;> rfl
  rw [e0, hK]
  rcases addTris_spec ts _ PD.empty [] I0 hnd with ⟨mA, pd, eA, I, k, fr⟩ | ⟨eA, t, h1, h2⟩
  · rw [eA]
    rw [hK] at I
    have hvs : mA.vs = m.vs := fr.vs
    have inRange : ∀ t ∈ K, t.inRange m.vs.length := by
      intro t ht
      have e1 := (I.pair_ok _ _ (I.pair_edge ht (Or.inl ⟨rfl, rfl⟩)))
      have e2 := (I.pair_ok _ _ (I.pair_edge ht (Or.inr (Or.inr ⟨rfl, rfl⟩))))
      rw [hvs] at e1 e2
      exact ⟨(List.getElem?_eq_some_iff.1 e1.2.1).1, (List.getElem?_eq_some_iff.1 e1.2.2.1).1,
        (List.getElem?_eq_some_iff.1 e2.2.1).1⟩
    have hcapA : mA.hCap = capAfter m.grow 0 m.hCap (3 * K.length) := by
      have e3 := fr.hCap
      have e4 := fr.hlen
      simp only [R.hes, List.length_nil, Nat.zero_add] at e3 e4
      rw [I.hlen] at e4
      rw [← e4] at e3
      exact e3
    simp only [bind_apply, read_apply]
    rcases advanceVs_spec m.vs mA I.triMesh (fun v hv => by rw [← hvs] at hv; exact (I.vd.mem v).1 hv)
      (fun v a => (I.vhe v a).imp (fun h => h.1) id) with ⟨V0, eV, hne, hV0⟩ | ⟨eV, v, hv, h0⟩
    · rw [eV]
      simp only
      have used : ∀ a, a < m.vs.length → ∃ t ∈ K, t.has a := by
        intro a ha
        have hv : mA.vs[a]? = some m.vs[a] := by rw [hvs]; exact List.getElem?_eq_getElem ha
        have hal := (I.vd.mem _).1 (List.mem_of_getElem? hv)
        rcases I.vhe _ hal with h | h
        · exact absurd h.1 (hne _ (List.getElem_mem ha))
        · obtain ⟨t, ht, u, hu, _⟩ := I.exists_tri h.1 hv h.2
          exact ⟨t, ht, (Tri.edge_has hu).1⟩
      have hVall : ∀ v, mA.vAlive v = true → mA.HA (V0 v) ∧ mA.hSrc (V0 v) = v := by
        intro v a
        refine hV0 v a (hne v ?_)
        rw [← hvs]; exact (I.vd.mem v).2 a
      have T : TriMesh { mA with vHe := V0 } := I.triMesh.setVHe V0
      obtain ⟨g, S⟩ := T.exists_succ
      rcases closeAll_spec T S mA.hes { mA with vHe := V0 } (CI.refl T g)
        (fun h hh => (I.hd.mem h).1 hh) with ⟨mC, eC, C0, hrev, _⟩ | ⟨eC, hcap⟩
      · rw [eC]
        simp only
        have C : Closed { mA with vHe := V0 } g mC := { C0 with T := T, S := S, all := fun h a => hrev h ((I.hd.mem h).2 a) }
        have hvC : ∀ v, mC.vAlive v = true → mC.HA (V0 v) ∧ mC.hSrc (V0 v) = v := by
          intro v a
          rw [C.vAlive] at a
          obtain ⟨q1, q2⟩ := hVall v a
          exact ⟨C.alT q1, by rw [C.sT _ q1]; exact q2⟩
        have hmem : ∀ v ∈ m.vs, mC.vAlive v = true := by
          intro v hv
          rw [C.vAlive]; rw [← hvs] at hv; exact (I.vd.mem v).1 hv
        obtain ⟨V, eB, hV⟩ := stepBack_spec C m.vs V0 hmem hvC
        have hself : ({ mC with vHe := V0 } : Mesh F) = mC := by
          have := C.vHe
          cases mC
          simp only at this
          subst this
          rfl
        rw [hself] at eB
        rw [eB]
        simp only
        have hdeg : ∀ v, mC.vAlive v = true → pd.deg (mC.vIdx v).toNat = mA.outDeg v := by
          intro v a
          rw [C.vAlive] at a
          rw [C.vIdx]
          obtain ⟨i, hi, e⟩ := List.getElem_of_mem ((I.vd.mem v).2 a)
          have h1 := I.vd.idx i hi
          rw [e] at h1
          show pd.deg (mA.vIdx v).toNat = _
          rw [h1]
          exact I.deg i v (by rw [List.getElem?_eq_getElem hi, e])
        have fan : ∀ v, mC.vAlive v = true → ∀ a, mA.vs[a]? = some v →
            ((∀ h, mA.HA h → mA.hSrc h = v → h ∈ orbit mC.sig (V v)) ↔ SingleFan K a) :=
          fun v av a hv => fan_iff I C hv (hV v av).1 (hV v av).2
        have cap : 3 * K.length + boundaryCount K ≤ capAfter m.grow 0 m.hCap (3 * K.length) := by
          have h1 := C.cap (by
            show mA.hes.length ≤ mA.hCap
            rw [hcapA, I.hlen]
            have := le_capAfter m.grow (3 * K.length) 0 m.hCap (Nat.zero_le _)
            omega)
          rw [C.hCap, C.hes, List.length_append, List.length_range'] at h1
          have h1 : mA.hes.length + (mC.hFresh - mA.hFresh) ≤ mA.hCap := h1
          have h2 : mA.nBnd ≤ mC.hFresh - mA.hFresh := C.nBnd_le
          rw [I.nBnd_eq] at h2
          rw [← hcapA, ← I.hlen]
          omega
        rcases checkManifold_spec C V pd.deg hdeg hV m.vs hmem with ⟨eM, hr⟩ | ⟨eM, v, hv, hr⟩
        · left
          rw [eM]
          refine ⟨_, rfl, ?_⟩
          refine {
            good := C.good hV (fun v a => hr v (by rw [← hvs]; rw [C.vAlive] at a; exact (I.vd.mem v).2 a))
            vs := C.vs.trans hvs
            vAlive := C.vAlive.trans fr.vAlive
            vPos := C.vPos.trans fr.vPos
            vLock := C.vLock.trans fr.vLock
            vFresh := C.vFresh.trans fr.vFresh
            indices := C.indices.trans fr.indices
            inRange := inRange
            used := used
            fan := ?_
            cap := cap
            phases := ⟨mA, pd, V0, g, mC, V, I, hvs, C, rfl⟩ }
          intro a ha
          have hv : mA.vs[a]? = some m.vs[a] := by rw [hvs]; exact List.getElem?_eq_getElem ha
          exact (fan _ (hmem _ (List.getElem_mem ha)) a hv).1 (hr _ (List.getElem_mem ha))
        · right; right
          rw [eM]
          refine ⟨rfl, ?_, inRange, used, cap⟩
          obtain ⟨a, ha, e⟩ := List.getElem_of_mem hv
          refine ⟨a, ha, fun hf => hr ?_⟩
          exact (fan v (hmem v hv) a (by rw [hvs, List.getElem?_eq_getElem ha, e])).2 hf
      · right; left
        rw [eC]
        refine ⟨rfl, Or.inr (Or.inr ?_)⟩
        have e1 : mA.hes.length = 3 * K.length := I.hlen
        have e2 : mA.nBnd = boundaryCount K := I.nBnd_eq
        have hcap : mA.hCap < mA.hes.length + mA.nBnd := hcap
        rw [e1, e2, hcapA] at hcap
        exact hcap
    · right; left
      rw [eV]
      refine ⟨rfl, Or.inr (Or.inl ?_)⟩
      obtain ⟨a, ha, e⟩ := List.getElem_of_mem hv
      refine ⟨a, ha, ?_⟩
      intro t ht hta
      obtain ⟨u, hu⟩ := Tri.edge_out a hta
      have hp := I.pair_edge ht hu
      have hva : mA.vs[a]? = some v := by rw [hvs, List.getElem?_eq_getElem ha, e]
      have hs := I.src_pair hp hva
      have hal := (I.pair_ok _ _ hp).1
      rcases I.vhe v ((I.vd.mem v).1 (List.mem_of_getElem? hva)) with h | h
      · exact h.2 _ hal hs
      · have := (I.hB _ h.1).1; omega
  · rw [eA]
    rw [hK] at h1
    right; left
    exact ⟨rfl, Or.inl ⟨t, h1, h2⟩⟩

end TinyMesh
