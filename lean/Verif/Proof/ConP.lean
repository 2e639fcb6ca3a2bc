import Verif.Proof.ConO
import Verif.Model.IO
/-
Building again from what a constructed mesh reports: `clone`, and loading of a saved mesh.
-/
set_option linter.unusedSimpArgs false
namespace TinyMesh
variable {F : Type} {m m' m0 : Mesh F}

theorem Tri.edges_nodup {t : Tri} (h : t.proper) : t.edges.Nodup := by
  obtain ⟨h1, h2, h3⟩ := h
  simp only [Tri.edges, List.nodup_cons, List.mem_cons, Prod.mk.injEq, List.not_mem_nil, or_false, not_false_eq_true,
    List.nodup_nil, and_true]
  constructor
  · rintro (h | h)
    · exact h1 h.1
    · exact h3 h.1.symm
  · intro h; exact h2 h.1

theorem keepTris_nodup : ∀ (ts acc : List Tri), (∀ t ∈ ts, t.proper) → (acc.flatMap Tri.edges).Nodup →
    ((keepTris acc ts).flatMap Tri.edges).Nodup := by
  intro ts
  induction ts with
  | nil => intro acc _ h; exact h
  | cons t ts ih =>
    intro acc hp h
    have hp' : ∀ s ∈ ts, s.proper := fun s hs => hp s (by simp [hs])
    simp only [keepTris]
    split
    · exact ih acc hp' h
    · next hc =>
      refine ih _ hp' ?_
      rw [List.flatMap_append, List.nodup_append]
      refine ⟨h, by simpa using Tri.edges_nodup (hp t (by simp)), ?_⟩
      rintro e he e' he' rfl
      apply hc
      obtain ⟨s, hs, hse⟩ := List.mem_flatMap.1 he
      simp only [List.any_eq_true, List.contains_iff_mem]
      exact ⟨e, by simpa using he', s, hs, hse⟩

/-- the triangles of a constructed mesh are manifold -/
theorem Built.manifold {ts : List Tri} (B : Built m ts (keepTris [] ts) m') (hnd : ∀ t ∈ ts, t.degen = false) :
    Manifold (keepTris [] ts) := by
  refine ⟨?_, ?_, ?_⟩
  · intro t ht
    exact (t.proper_iff).2 (hnd t ((keepTris_mem _ _ _ ht).resolve_left (by simp)))
  · exact keepTris_nodup ts [] (fun t ht => (t.proper_iff).2 (hnd t ht)) (by simp)
  · intro a
    by_cases h : a < m.vs.length
    · exact B.fan a h
    · intro t s ht _ hta _
      obtain ⟨h1, h2, h3⟩ := B.inRange t ht
      rcases hta with h' | h' | h' <;> omega

theorem report_all {K : List Tri} (h : ∀ t ∈ K, t.isolated K = false) :
    K.filterMap (Tri.report K) = K.map (fun t => ((t.c : Int), (t.a : Int), (t.b : Int))) := by
  have : ∀ l : List Tri, (∀ t ∈ l, t ∈ K) →
      l.filterMap (Tri.report K) = l.map (fun t => ((t.c : Int), (t.a : Int), (t.b : Int))) := by
    intro l
    induction l with
    | nil => intro _; rfl
    | cons t l ih =>
      intro hl
      have ht : Tri.report K t = some ((t.c : Int), (t.a : Int), (t.b : Int)) := by
        simp [Tri.report, h t (hl t (by simp))]
      rw [List.filterMap_cons, ht, ih (fun x hx => hl x (by simp [hx])), List.map_cons]
  exact this K (fun _ h => h)

theorem flatIdx_map : ∀ K : List Tri, flatIdx (K.map (fun t => ((t.c : Int), (t.a : Int), (t.b : Int)))) = ofTris (K.map Tri.rot)
  | [] => rfl
  | t :: K => by simp [flatIdx, ofTris, Tri.rot, flatIdx_map K]

section
variable [Scalar F]

theorem construct_manifold (L : EqLaw F) (O : Owned m) (hi : m.indices = []) {V : List (Vec3 F)} {I : List Nat}
    (hv : ValidInput V I) {P : List (Vec3 F)} {ts : List Tri} (D : Merged V I P (ofTris ts)) (M : Manifold ts)
    (hf : Fits m.grow m.hCap ts) :
    ∃ mD m', construct V I m = .ok () m' ∧ m'.vs.map m'.vPos = P ∧ mD.vs.length = P.length ∧ Built mD ts ts m' := by
  have hnd : ∀ t ∈ ts, t.degen = false := fun t ht => (t.proper_iff).1 (M.proper t ht)
  have e1 : dropDegen ts = ts := dropDegen_id ts hnd
  have e2 : keepTris [] ts = ts := by
    have := keepTris_id ts [] (by simpa using M.edges)
    simpa using this
  have := construct_cases L O hi hv D (by rw [e1]; exact hnd)
  rw [e1, e2] at this
  rcases this with ⟨mD, m', h1, h2, h3, _, _, h4⟩ | ⟨_, ⟨a, ha, h⟩ | h⟩ | ⟨_, ⟨a, ha, h⟩, _⟩
  · exact ⟨mD, m', h1, h2, h3, h4⟩
  · exfalso
    obtain ⟨k, c, _, _, hJ, _⟩ := D.first a _ (List.getElem?_eq_getElem ha)
    obtain ⟨t, ht, hta⟩ := (mem_ofTris ts).1 (List.mem_of_getElem? hJ)
    exact h t ht hta
  · exact absurd hf h
  · exact absurd (M.fan a) h

/-- a list of distinct positions, all used by a manifold triangle list in which no triangle is isolated -/
structure Sound (P : List (Vec3 F)) (K : List Tri) : Prop where
  manifold : Manifold K
  range : ∀ t ∈ K, t.inRange P.length
  used : ∀ a, a < P.length → ∃ t ∈ K, t.has a
  noIso : ∀ t ∈ K, t.isolated K = false

theorem Sound.rebuild (L : EqLaw F) {P V : List (Vec3 F)} {K : List Tri} (S : Sound P K) (hl : V.length = P.length)
    (DV : Distinct V) (O : Owned m) (hi : m.indices = []) (hf : Fits m.grow m.hCap K) :
    ∃ m2 r2, construct V (ofTris (K.map Tri.rot)) m = .ok () m2 ∧ m2.Good ∧ (m2.vs.map m2.vPos).Perm V ∧
      getVertexIndices m2 = .ok r2 m2 ∧
      SameFaces V (K.map (fun t => ((t.c : Int), (t.a : Int), (t.b : Int)))) (m2.vs.map m2.vPos) r2 := by
  have hmem : ∀ i, i ∈ ofTris (K.map Tri.rot) ↔ ∃ t ∈ K, t.has i := by
    intro i
    rw [mem_ofTris]
    constructor
    · rintro ⟨t', ht', h⟩
      obtain ⟨t, ht, rfl⟩ := List.mem_map.1 ht'
      refine ⟨t, ht, ?_⟩
      rcases h with h | h | h
      · exact Or.inr (Or.inr h)
      · exact Or.inl h
      · exact Or.inr (Or.inl h)
    · rintro ⟨t, ht, h⟩
      refine ⟨_, List.mem_map_of_mem ht, ?_⟩
      rcases h with h | h | h
      · exact Or.inr (Or.inl h)
      · exact Or.inr (Or.inr h)
      · exact Or.inl h
  have hr : ∀ i ∈ ofTris (K.map Tri.rot), i < V.length := by
    intro i h
    obtain ⟨t, ht, h⟩ := (hmem i).1 h
    obtain ⟨h1, h2, h3⟩ := S.range t ht
    rcases h with h | h | h <;> omega
  have hv : ValidInput V (ofTris (K.map Tri.rot)) := by
    intro i h
    have := List.getElem?_eq_getElem (hr i h)
    exact ⟨_, this, DV.self _ (List.mem_of_getElem? this)⟩
  obtain ⟨mD, J, _, _, _, _, _, _, _, hM⟩ := construct_reduce O hr
  have D := hM hv
  obtain ⟨φ, rfl, hφ, hinj⟩ := D.renumber L DV
  rw [ofTris_map] at D
  have R1 := Rename.of_rot K
  have M1 := R1.manifold S.manifold
  have R2 : Rename (K.map Tri.rot) φ (Tri.ren φ) := Rename.of_ren (by
    intro t ht s hs x y hx hy e
    exact hinj x ((mem_ofTris _).2 ⟨t, ht, hx⟩) y ((mem_ofTris _).2 ⟨s, hs, hy⟩) e)
  have M2 := R2.manifold M1
  obtain ⟨mE, m2, e2, hP, _, B⟩ := construct_manifold L O hi hv D M2 (by
    have := hf
    unfold Fits at this ⊢
    rw [R2.boundaryCount, R1.boundaryCount]
    simpa using this)
  have iso : ∀ t ∈ (K.map Tri.rot).map (Tri.ren φ), t.isolated ((K.map Tri.rot).map (Tri.ren φ)) = false := by
    intro t ht
    obtain ⟨s, hs, rfl⟩ := List.mem_map.1 ht
    obtain ⟨u, hu, rfl⟩ := List.mem_map.1 hs
    rw [R2.isolated hs, R1.isolated hu]
    exact S.noIso u hu
  refine ⟨m2, _, e2, B.good, ?_, B.report, ?_⟩
  · rw [hP]
    refine D.perm L DV ?_ hr
    intro i h
    exact (hmem i).2 (S.used i (by omega))
  · rw [report_all iso, hP]
    unfold SameFaces
    simp only [List.map_map]
    rw [List.forall₂_map_left_iff, List.forall₂_map_right_iff, List.forall₂_same]
    intro t ht
    have key : ∀ x, t.has x → (mD.vs.map mD.vPos)[φ x]? = V[x]? := fun x hx => (hφ x ((hmem x).2 ⟨t, ht, hx⟩)).1
    have ka := key t.a (Or.inl rfl)
    have kb := key t.b (Or.inr (Or.inl rfl))
    have kc := key t.c (Or.inr (Or.inr rfl))
    refine Or.inr (Or.inl ?_)
    simp only [Function.comp, facePos, Tri.ren, Tri.rot, Int.toNat_natCast, ka, kb, kc]

theorem Mesh.WF.getVertices_ok (w : m.WF) : getVertices m = .ok (m.vs.map m.vPos) m := by
  simp only [getVertices, bind_apply, M.read]
  exact getPosList_ok _ (fun v hv => (w.vDense.mem v).1 hv)

/-- loading an OBJ file is building on an object without old indices -/
theorem loadOBJ_ok {f : MeshFile F} (O : Owned m) (h : loadOBJ f m = .ok () m') :
    construct f.pos f.idx { m with indices := [] } = .ok () m' := by
  simp only [loadOBJ, bind_apply, clearArrays_eq] at h
  simp only [construct, bind_apply, clearArrays_eq]
  have e : (clearIndices m.cleared : Out F Unit) = .ok () ({ m with indices := [] } : Mesh F).cleared := rfl
  rw [e] at h
  simp only at h
  cases hd : dedupLoop f.pos f.idx [] ({ m with indices := [] } : Mesh F).cleared with
  | err e => rw [hd] at h; cases h
  | ok a m1 =>
    rw [hd] at h
    simp only [M.read, M.assert] at h
    split at h
    · next m2 h2 =>
      split at h2
      · cases h2; exact h
      · cases h2
    · cases h

theorem loadOBJ_of_construct {f : MeshFile F} (O : Owned m)
    (h : construct f.pos f.idx { m with indices := [] } = .ok () m') : loadOBJ f m = .ok () m' := by
  simp only [construct, bind_apply, clearArrays_eq] at h
  simp only [loadOBJ, bind_apply, clearArrays_eq]
  have e : (clearIndices m.cleared : Out F Unit) = .ok () ({ m with indices := [] } : Mesh F).cleared := rfl
  rw [e]
  simp only
  cases hd : dedupLoop f.pos f.idx [] ({ m with indices := [] } : Mesh F).cleared with
  | err e => rw [hd] at h; cases h
  | ok a m1 =>
    rw [hd] at h
    simp only [M.read, M.assert] at h ⊢
    by_cases hl : m1.indices.length % 3 = 0
    · simp only [hl, beq_self_eq_true, if_true]
      exact h
    · rw [construct0_none hl] at h
      cases h

/-- decidable form of `Distinct` -/
def distinctB (P : List (Vec3 F)) : Bool :=
  P.all (fun p => p.eq p) && (List.range P.length).all (fun i => (List.range P.length).all (fun j =>
    !decide (i < j) || match P[i]?, P[j]? with
      | some p, some q => !p.eq q
      | _, _ => true))

theorem distinctB_iff {P : List (Vec3 F)} (h : distinctB P = true) : Distinct P := by
  simp only [distinctB, Bool.and_eq_true, List.all_eq_true, List.mem_range] at h
  refine ⟨h.1, ?_⟩
  intro i j p q hij hp hq
  have := h.2 i (List.getElem?_eq_some_iff.1 hp).1 j (List.getElem?_eq_some_iff.1 hq).1
  rw [hp, hq] at this
  simpa [hij] using this

/-- a constructed object can be used again -/
theorem construct_owned (O : Owned m) {V : List (Vec3 F)} {I : List Nat} (h : construct V I m = .ok () m') : Owned m' := by
  obtain ⟨mD, J, ts0, R, _, _, _, _, _, _, B, _⟩ := construct_ok O h
  refine B.good.wf.owned ?_ (by rw [B.vFresh]; exact R.v0) ?_
  all_goals
    obtain ⟨mA, pd, V0, g, mC, V, _, _, C, rfl⟩ := B.phases
    have h1 := C.T.h0
    have h2 := C.T.f0
    have h3 := C.hFresh
    have h4 := C.fFresh
    simp only at h1 h2 h3 h4 ⊢
    omega

end
end TinyMesh
