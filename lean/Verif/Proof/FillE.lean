import Verif.Proof.FillD
import Verif.Proof.FeatB
import Verif.Proof.RemC
/-
The tables of `holeFillMinDihedral_`, and the whole function.
-/
set_option linter.unusedSimpArgs false
namespace TinyMesh
open Orbit
variable {F : Type}

/-! ### Adding the triangles of a triangulation and removing the face -/

/-- the maps after the first loop -/
def startMaps (hs : List Nat) : HeMaps := collectPairs hs.length 0 hs ⟨[], []⟩

theorem startMaps_ok {hs : List Nat} (nd : hs.Nodup) :
    (∀ e h, (startMaps hs).pair2he.lookup e = some h ↔ e.2 = (e.1 + 1) % hs.length ∧ hs[e.1]? = some h) ∧
    (∀ e h, (startMaps hs).he2pair.lookup h = some e ↔ (startMaps hs).pair2he.lookup e = some h) :=
  collectPairs_ok hs nd hs [] ⟨[], []⟩ rfl (by simp) (by simp)

theorem startMaps_side {hs : List Nat} (nd : hs.Nodup) {e : Nat × Nat} (s : IsSide hs.length e) :
    (startMaps hs).pair2he.lookup e = hs[e.1]? := by
  rw [List.getElem?_eq_getElem s.1, (startMaps_ok nd).1]
  exact ⟨s.2, List.getElem?_eq_getElem s.1⟩

theorem startMaps_keys {hs : List Nat} (nd : hs.Nodup) {e : Nat × Nat} {h : Nat} (hl : (startMaps hs).pair2he.lookup e = some h) :
    IsSide hs.length e := by
  obtain ⟨h1, h2⟩ := ((startMaps_ok nd).1 e h).1 hl
  exact ⟨(List.getElem?_eq_some_iff.1 h2).1, h1⟩

/-- completion.cpp:199-227: adding the triangles, connecting them, removing the face -/
theorem patch_ok {m : Mesh F} (w : m.WF) {f : Nat} (af : m.fAlive f = true) {tris : List Tri3}
    (p : Poly (orbit m.hNext (m.fHe f)).length tris) :
    ∃ m' He, (do
      let (fs, s) ← addTriangles ((orbit m.hNext (m.fHe f)).map m.hSrc) tris [] (startMaps (orbit m.hNext (m.fHe f)))
      linkFaces s fs
      removeFace f : M F Unit) m = .ok () m' ∧ Patched m m' f (orbit m.hNext (m.fHe f)) tris He := by
  have l := w.faceLoop af
  revert p l
  generalize orbit m.hNext (m.fHe f) = hs
  intro p l
  have ha : ∀ h ∈ hs, m.hAlive h = true := fun h hh => ((l.mem h).1 hh).1
  have I0 : MapInv m hs (startMaps hs) m := by
    refine ⟨w.hDense, ?_, Nat.le_refl _, (startMaps_ok l.nodup).2, fun e s => startMaps_side l.nodup s,
      fun e h hl ns => absurd (startMaps_keys l.nodup hl) ns, ?_, ?_, fun _ _ => rfl, rfl, ⟨rfl, rfl, rfl, rfl, rfl, rfl, rfl⟩⟩
    · intro h; constructor
      · exact .inl
      · rintro (h | h)
        · exact h
        · omega
    · intro h h1 h2; omega
    · intro h h1 h2; omega
  have L0 : LinkInv m hs [] (startMaps hs) m := by
    refine ⟨?_, w.fDense, ?_, rfl, by simp, fun _ _ => rfl, by simp, fun _ _ _ => ⟨rfl, rfl, rfl, rfl⟩⟩
    · intro e
      constructor
      · intro h
        obtain ⟨x, hx⟩ := Option.isSome_iff_exists.1 h
        exact .inl (startMaps_keys l.nodup hx)
      · rintro (h | h)
        · rw [startMaps_side l.nodup h, List.getElem?_eq_getElem h.1]; rfl
        · simp [allDirs] at h
    · intro g; constructor
      · exact .inl
      · rintro (h | h)
        · exact h
        · omega
  have rg : ∀ t ∈ tris, t.1 < hs.length ∧ t.2.1 < hs.length ∧ t.2.2 < hs.length := by
    intro t ht
    have h1 := p.bound (t.1, t.2.1) (mem_allDirs.2 ⟨t, ht, by simp [dirs]⟩)
    have h2 := p.bound (t.2.1, t.2.2) (mem_allDirs.2 ⟨t, ht, by simp [dirs]⟩)
    exact ⟨h1.1, h1.2, h2.2⟩
  obtain ⟨s, m1, r1, I, L⟩ := addTriangles_ok w.hBound (fun g a => (w.fBound g a).2) ha tris [] (startMaps hs) m [] I0 L0 rg
    (by simpa using p.nodup) (by simp)
  rw [List.nil_append] at r1 L
  have R0 : RevInv m hs s m1.hRev := by
    refine ⟨fun e h hl ns => .inl ?_, I.rev⟩
    obtain ⟨h1, h2⟩ := I.new e h hl ns
    exact I.rev0 h h1 h2
  obtain ⟨r, r2, R, _, nz⟩ := linkFaces_ok w ha I L p (List.range tris.length) (fun j hj => List.mem_range.1 hj) m1.hRev R0
  have er : (List.range tris.length).map (fun j => m.fFresh + j) = List.range' m.fFresh tris.length := by
    rw [List.range'_eq_map_range]
  rw [er] at r2
  have rne : ∀ e ∈ allDirs tris, ∀ h, s.pair2he.lookup e = some h → r h ≠ 0 := by
    intro e he h hl
    obtain ⟨t, ht, he⟩ := mem_allDirs.1 he
    obtain ⟨j, hj⟩ := List.getElem?_of_mem ht
    exact nz j (List.mem_range.2 (List.getElem?_eq_some_iff.1 hj).1) t hj e he h hl
  have tl : 0 < tris.length := by have := p.len; have := p.three; omega
  have flt := (w.fBound f af).2
  obtain ⟨m', r3, d3, X, fl, sl⟩ := rmF_slots (m := { m1 with hRev := r }) (f := f) (z := m.fFresh + (tris.length - 1)) L.fD
    ((L.fal f).2 (.inl af)) (by
      show m1.fs.getLast? = _
      obtain ⟨k, hk⟩ : ∃ k, tris.length = k + 1 := ⟨tris.length - 1, by omega⟩
      rw [L.fs, hk, List.range'_concat]
      simp) (by omega)
  have lenF : m1.fs.length = m.fs.length + tris.length := by rw [L.fs]; simp
  let He : Nat × Nat → Nat := fun e => (s.pair2he.lookup e).getD 0
  have hHe : ∀ e ∈ allDirs tris, s.pair2he.lookup e = some (He e) := by
    intro e he
    obtain ⟨x, hx⟩ := L.get he
    simp only [He, hx, Option.getD_some]
  have inj : ∀ e ∈ allDirs tris, ∀ e' ∈ allDirs tris, He e = He e' → e = e' := by
    intro e he e' he' h
    exact I.inj (hHe e he) (h ▸ hHe e' he')
  have newKey : ∀ e h, s.pair2he.lookup e = some h → e ∈ allDirs tris := by
    intro e h hl
    rcases (L.keys e).1 (by rw [hl]; rfl) with h | h
    · exact p.side e h
    · exact h
  have heD : ∀ h ∈ hs, ∃ e ∈ allDirs tris, He e = h := by
    intro h hh
    obtain ⟨i, hi⟩ := List.getElem?_of_mem hh
    have sd : IsSide hs.length (i, (i + 1) % hs.length) := ⟨(List.getElem?_eq_some_iff.1 hi).1, rfl⟩
    refine ⟨_, p.side _ sd, ?_⟩
    have := hHe _ (p.side _ sd)
    rw [I.side _ sd, hi] at this
    exact (Option.some.inj this).symm
  refine ⟨m', He, ?_, ?_⟩
  · rw [bind_apply, r1]
    dsimp only
    rw [bind_apply]
    have : linkFaces s (List.range' m.fFresh tris.length) m1 = .ok () { m1 with hRev := r } := r2
    rw [this]
    exact r3
  · refine ⟨?_, d3, ?_, ?_, ?_, ?_, inj, ?_, ?_, ?_, ?_, ?_, ?_, ?_, ?_, ?_, ?_, ?_, ?_, ?_, ?_, ?_, ?_, ?_, ?_, ?_⟩
    · rw [X.hAlive, X.hIdx, X.hes]; exact I.hD
    · intro h
      rw [X.hAlive]
      show m1.hAlive h = true ↔ _
      rw [I.hal]
      refine or_congr_right ?_
      constructor
      · rintro ⟨h1, h2⟩
        obtain ⟨e, ns, he⟩ := I.surj h h1 h2
        have hd := newKey e h he
        have := hHe e hd
        rw [he] at this
        exact ⟨e, hd, ns, (Option.some.inj this).symm⟩
      · rintro ⟨e, hd, ns, rfl⟩
        exact I.new e _ (hHe e hd) ns
    · intro e hd ns
      rw [X.hFresh]
      exact I.new e _ (hHe e hd) ns
    · rw [X.hFresh]; exact I.hFr
    · intro i hi
      have sd : IsSide hs.length (i, (i + 1) % hs.length) := ⟨hi, rfl⟩
      have := hHe _ (p.side _ sd)
      rw [I.side _ sd] at this
      exact this
    · intro j t ht
      obtain ⟨a, b, c, d⟩ := L.tri j t ht
      have mem := List.mem_of_getElem? ht
      have ea : He (t.1, t.2.1) = a := by simp only [He, d.la, Option.getD_some]
      have eb : He (t.2.1, t.2.2) = b := by simp only [He, d.lb, Option.getD_some]
      have ec : He (t.2.2, t.1) = c := by simp only [He, d.lc, Option.getD_some]
      rw [X.nx, X.hFace, X.fHe, ea, eb, ec]
      refine ⟨d.na, d.nb, d.nc, ?_, d.fh⟩
      intro e he
      rw [mem_dirs] at he
      rcases he with rfl | rfl | rfl
      · rw [ea]; exact d.fa
      · rw [eb]; exact d.fb
      · rw [ec]; exact d.fc
    · intro e he h hh
      obtain ⟨t, ht, hd⟩ := mem_allDirs.1 he
      obtain ⟨j, hj⟩ := List.getElem?_of_mem ht
      obtain ⟨a, b, c, d⟩ := L.tri j t hj
      rw [X.hSrc]
      have sa := d.sa
      have sb := d.sb
      have sc := d.sc
      rw [mem_dirs] at hd
      rcases hd with rfl | rfl | rfl
      · dsimp only at hh
        rw [hh] at sa
        simp only [He, d.la, Option.getD_some]
        exact (Option.some.inj sa).symm
      · dsimp only at hh
        rw [hh] at sb
        simp only [He, d.lb, Option.getD_some]
        exact (Option.some.inj sb).symm
      · dsimp only at hh
        rw [hh] at sc
        simp only [He, d.lc, Option.getD_some]
        exact (Option.some.inj sc).symm
    · intro e he
      rw [X.hBd]
      exact L.bd_false he (hHe e he)
    · intro e he ns
      rw [X.hRev]
      show r (He e) = _
      rcases R.new e _ (hHe e he) ns with h | h
      · exact absurd h (rne e he _ (hHe e he))
      · rw [hHe _ (p.swap e he ns).1] at h
        exact (Option.some.inj h).symm
    · intro h a hf
      rw [X.nx, X.hFace, X.hBd, X.hSrc]
      obtain ⟨p1, p2, p3, p4⟩ := L.old h (w.hBound h a).2 (by
        intro e he hl
        by_cases sd : IsSide hs.length e
        · rw [I.side e sd] at hl
          exact hf ((l.mem h).1 (List.mem_of_getElem? hl)).2
        · have := (I.new e h hl sd).1
          have := (w.hBound h a).2
          omega)
      exact ⟨p2, p3, p4, p1⟩
    · intro h a
      rw [X.hRev]
      exact R.old h (w.hBound h a).2
    · intro g
      rw [X.al]
      have := L.fFr
      by_cases e : g = f
      · subst e
        rw [upd_same]
        constructor
        · intro h; exact absurd h (by simp)
        · rintro (h | ⟨j, _, h⟩)
          · exact absurd rfl h.2
          · omega
      · rw [upd_ne _ _ e]
        show m1.fAlive g = true ↔ _
        rw [L.fal]
        constructor
        · rintro (h | h)
          · exact .inl ⟨h, e⟩
          · exact .inr ⟨g - m.fFresh, by omega, by omega⟩
        · rintro (h | ⟨j, h1, h2⟩)
          · exact .inl h.1
          · right; omega
    · rw [X.fFresh]; exact L.fFr
    · intro g a
      rw [X.fHe]
      exact L.fHe g (w.fBound g a).2
    · rw [X.vAlive]; exact I.v.vAlive
    · rw [X.vPos]; exact I.v.vPos
    · rw [X.vHe]; exact I.v.vHe
    · rw [X.vIdx]; exact I.v.vIdx
    · rw [X.vLock]; exact I.v.vLock
    · rw [X.vs]; exact I.v.vs
    · rw [X.vFresh]; exact I.v.vFr
    · intro i g hi hg
      have hlt := (List.getElem?_eq_some_iff.1 hi).1
      refine sl i g ?_ hg ?_
      · show m1.fs[i]? = _
        rw [L.fs, List.getElem?_append_left hlt, hi]
      · show i + 1 < m1.fs.length
        omega
    · rw [X.hes]
      show m1.hes.length + 6 = _
      have e1 := I.len
      have e2 := I.hFr
      have nd1 : ((allDirs tris).map He).Nodup := p.nodup.map_on inj
      have nd2 : (hs ++ List.range' m.hFresh (m1.hFresh - m.hFresh)).Nodup := by
        rw [List.nodup_append]
        refine ⟨l.nodup, List.nodup_range', ?_⟩
        intro a ha' b hb' e
        subst e
        have := (w.hBound a (ha a ha')).2
        rw [List.mem_range'_1] at hb'
        omega
      have pm : ((allDirs tris).map He).Perm (hs ++ List.range' m.hFresh (m1.hFresh - m.hFresh)) := by
        rw [List.perm_ext_iff_of_nodup nd1 nd2]
        intro x
        rw [List.mem_map, List.mem_append, List.mem_range'_1]
        constructor
        · rintro ⟨e, he, rfl⟩
          by_cases sd : IsSide hs.length e
          · left
            have := hHe e he
            rw [I.side e sd] at this
            exact List.mem_of_getElem? this
          · right
            have := I.new e _ (hHe e he) sd
            omega
        · rintro (h | h)
          · exact heD x h
          · obtain ⟨e, ns, he⟩ := I.surj x h.1 (by omega)
            have hd := newKey e x he
            have := hHe e hd
            rw [he] at this
            exact ⟨e, hd, (Option.some.inj this).symm⟩
      have := pm.length_eq
      rw [List.length_map, List.length_append, List.length_range'] at this
      have e3 : (allDirs tris).length = 3 * tris.length := by
        unfold allDirs
        rw [List.length_flatMap]
        simp [dirs]
        omega
      have := p.len
      have := p.three
      omega
    · have := p.len
      have : m'.fs.length + 1 = m1.fs.length := fl
      omega

end TinyMesh
