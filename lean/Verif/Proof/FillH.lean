import Verif.Proof.FillG
/-
Filling holes without chords does not join two vertices twice.
-/
set_option linter.unusedSimpArgs false
namespace TinyMesh
open Orbit
variable {F : Type} {m m' : Mesh F}

/-- the ends of a half-edge of the new triangles that is not a side are corners that are not neighbours -/
theorem Patched.diagonal {f : Nat} {hs : List Nat} {tris : List Tri3} {He : Nat × Nat → Nat} (P : Patched m m' f hs tris He)
    (p : Poly hs.length tris) (l : FaceLoop m f hs) {e : Nat × Nat} (he : e ∈ allDirs tris)
    (ns : ¬ IsSide hs.length e) : ∃ c c', hs[e.1]? = some c ∧ hs[e.2]? = some c' ∧ m.Diagonal f c c' ∧ m'.hSrc (He e) = m.hSrc c ∧
      m'.hSrc (m'.hNext (He e)) = m.hSrc c' := by
  have hb := p.bound e he
  have sw := p.swap e he ns
  have c1 := List.getElem?_eq_getElem hb.1
  have c2 := List.getElem?_eq_getElem hb.2
  have m1 := (l.mem _).1 (List.getElem_mem hb.1)
  have m2 := (l.mem _).1 (List.getElem_mem hb.2)
  have inj : ∀ i j : Nat, i < hs.length → hs[i]? = hs[j]? → i = j := fun i j hi h => (List.getElem?_inj hi l.nodup).1 h
  refine ⟨hs[e.1], hs[e.2], c1, c2, ⟨m1.1, m1.2, m2.1, m2.2, ?_, ?_, ?_⟩, ?_, ?_⟩
  · intro h
    exact p.ne e he (inj _ _ hb.1 (by rw [c1, c2, h]))
  · intro h
    apply ns
    refine ⟨hb.1, inj _ _ hb.2 ?_⟩
    rw [l.next e.1 _ c1, c2, h]
  · intro h
    apply sw.2
    refine ⟨hb.2, inj _ _ hb.1 ?_⟩
    rw [l.next e.2 _ c2, c1, h]
  · exact P.src e he _ c1
  · obtain ⟨e', hf⟩ := exists_foll he
    rw [P.next hf]
    have h2 := hf.mem
    exact P.src e' h2.2.1 _ (by rw [h2.2.2]; exact c2)

/-- sides of the face keep their ends -/
theorem Patched.dst_old {f : Nat} {hs : List Nat} {tris : List Tri3} {He : Nat × Nat → Nat} (w : m.WF) (P : Patched m m' f hs tris He)
    (p : Poly hs.length tris) (l : FaceLoop m f hs) {h : Nat} (a : m.hAlive h = true) :
    m'.hSrc (m'.hNext h) = m.hSrc (m.hNext h) := by
  have w' := P.wf w p l
  have a' := (P.hal h).2 (.inl a)
  rw [← w'.src_rev h a', P.oldRev h a, P.src_old p l (w.rev_alive h a), w.src_rev h a]

theorem Patched.simple {g : Nat} {hs : List Nat} {tris : List Tri3} {He : Nat × Nat → Nat} (w : m.WF) (P : Patched m m' g hs tris He)
    (p : Poly hs.length tris) (l : FaceLoop m g hs) {rem : List Nat} (nd : g ∉ rem) (ra : ∀ f ∈ rem, m.fAlive f = true)
    (sm : m.Simple) (ch : m.Chordless (g :: rem)) :
    m'.Simple ∧ m'.Chordless rem := by
  have cases : ∀ h, m'.hAlive h = true → m.hAlive h = true ∨ ∃ e ∈ allDirs tris, ¬ IsSide hs.length e ∧ He e = h := fun h a => (P.hal h).1 a
  have co := ch.corners g List.mem_cons_self
  have on : ∀ i c, hs[i]? = some c → m.hAlive c = true ∧ m.hFace c = g := fun i c h => (l.mem c).1 (List.mem_of_getElem? h)
  have inj : ∀ i j : Nat, i < hs.length → hs[i]? = hs[j]? → i = j := fun i j hi h => (List.getElem?_inj hi l.nodup).1 h
  -- other faces keep their half-edges
  have back : ∀ f ∈ rem, ∀ h, m'.hAlive h = true → m'.hFace h = f → m.hAlive h = true ∧ m.hFace h = f ∧ m'.hNext h = m.hNext h := by
    intro f hf h a e
    rcases P.cases p l a with ⟨x, hx, rfl⟩ | ⟨a0, h0⟩
    · obtain ⟨j, t, _, _, hj⟩ := P.face_e hx
      have := (w.fBound f (ra f hf)).2
      omega
    · have o := P.out h a0 h0
      exact ⟨a0, o.2.1.symm.trans e, o.1⟩
  have diag : ∀ f ∈ rem, ∀ c c', m'.Diagonal f c c' → m.Diagonal f c c' ∧ m'.hSrc c = m.hSrc c ∧ m'.hSrc c' = m.hSrc c' := by
    rintro f hf c c' ⟨d1, d2, d3, d4, d5, d6, d7⟩
    obtain ⟨b1, b2, b3⟩ := back f hf c d1 d2
    obtain ⟨e1, e2, e3⟩ := back f hf c' d3 d4
    rw [b3] at d6
    rw [e3] at d7
    exact ⟨⟨b1, b2, e1, e2, d5, d6, d7⟩, P.src_old p l b1, P.src_old p l e1⟩
  refine ⟨⟨?_, ?_⟩, ⟨?_, ?_, ?_⟩⟩
  · intro h a
    rcases cases h a with a0 | ⟨e, he, ns, rfl⟩
    · rw [P.src_old p l a0, P.dst_old w p l a0]
      exact sm.no_loop h a0
    · obtain ⟨c, c', h1, h2, d, s1, s2⟩ := P.diagonal p l he ns
      rw [s1, s2]
      intro e'
      have := co c c' d.1 d.2.2.1 d.2.1 d.2.2.2.1 e'
      exact d.2.2.2.2.1 this
  · intro h h' a a' es ed
    rcases cases h a with a0 | ⟨e, he, ns, rfl⟩ <;> rcases cases h' a' with a0' | ⟨e', he', ns', rfl⟩
    · rw [P.src_old p l a0, P.src_old p l a0'] at es
      rw [P.dst_old w p l a0, P.dst_old w p l a0'] at ed
      exact sm.no_dup h h' a0 a0' es ed
    · obtain ⟨c, c', h1, h2, d, s1, s2⟩ := P.diagonal p l he' ns'
      rw [s1, P.src_old p l a0] at es
      rw [s2, P.dst_old w p l a0] at ed
      exact absurd ed (ch.chord g List.mem_cons_self c c' d h a0 es)
    · obtain ⟨c, c', h1, h2, d, s1, s2⟩ := P.diagonal p l he ns
      rw [s1, P.src_old p l a0'] at es
      rw [s2, P.dst_old w p l a0'] at ed
      exact absurd ed.symm (ch.chord g List.mem_cons_self c c' d h' a0' es.symm)
    · obtain ⟨c, c', h1, h2, d, s1, s2⟩ := P.diagonal p l he ns
      obtain ⟨k, k', i1, i2, d', t1, t2⟩ := P.diagonal p l he' ns'
      rw [s1, t1] at es
      rw [s2, t2] at ed
      have e1 := co _ _ d.1 d'.1 d.2.1 d'.2.1 es
      have e2 := co _ _ d.2.2.1 d'.2.2.1 d.2.2.2.1 d'.2.2.2.1 ed
      have q1 := inj e.1 e'.1 (p.bound e he).1 (by rw [h1, i1, e1])
      have q2 := inj e.2 e'.2 (p.bound e he).2 (by rw [h2, i2, e2])
      rw [Prod.ext q1 q2]
  · intro f hf c c' a a' hc hc' es
    obtain ⟨b1, b2, b3⟩ := back f hf c a hc
    obtain ⟨e1, e2, e3⟩ := back f hf c' a' hc'
    rw [P.src_old p l b1, P.src_old p l e1] at es
    exact ch.corners f (List.mem_cons_of_mem _ hf) c c' b1 e1 b2 e2 es
  · intro f hf c c' d h a es ed
    obtain ⟨d, s1, s2⟩ := diag f hf c c' d
    rw [s1] at es
    rw [s2] at ed
    rcases cases h a with a0 | ⟨e, he, ns, rfl⟩
    · rw [P.src_old p l a0] at es
      rw [P.dst_old w p l a0] at ed
      exact ch.chord f (List.mem_cons_of_mem _ hf) c c' d h a0 es ed
    · obtain ⟨k, k', _, _, d', t1, t2⟩ := P.diagonal p l he ns
      exact ch.shared g List.mem_cons_self f (List.mem_cons_of_mem _ hf) (by rintro rfl; exact nd hf) k k' c c' d' d
        (t1.symm.trans es) (t2.symm.trans ed)
  · intro f hf f' hf' ne c c' d d' x y es ed
    obtain ⟨x, s1, s2⟩ := diag f hf c c' x
    obtain ⟨y, t1, t2⟩ := diag f' hf' d d' y
    rw [s1, t1] at es
    rw [s2, t2] at ed
    exact ch.shared f (List.mem_cons_of_mem _ hf) f' (List.mem_cons_of_mem _ hf') ne c c' d d' x y es ed

/-- the loop over the holes keeps the mesh simple -/
theorem fillAt_simple [ScalarX F] {m0 : Mesh F} {H : List Nat} (h3 : ∀ g ∈ H, m0.fAlive g = true ∧ 3 ≤ m0.sides g)
    (w0 : m0.WF) : ∀ (rem : List (Nat × Nat)) (m : Mesh F), FillInv m0 H rem m → m.Simple → m.Chordless (rem.map Prod.snd) →
    ∀ m', fillAt (rem.map Prod.fst) m = .ok () m' → m'.Simple := by
  intro rem
  induction rem with
  | nil =>
    intro m I sm _ m' h
    cases h
    exact sm
  | cons q rem ih =>
    intro m I sm ch m' h
    obtain ⟨i, g⟩ := q
    have hi := I.slots (i, g) List.mem_cons_self
    have ag := I.wf.fDense.alive_at hi
    have gH : g ∈ H := I.hole (i, g) List.mem_cons_self
    have sd : (orbit m.hNext (m.fHe g)).length = m0.sides g := by
      rw [← w0.loop_length (h3 g gH).1]
      have l1 := I.wf.faceLoop ag
      have l0 := w0.faceLoop (h3 g gH).1
      refine List.Perm.length_eq ((List.perm_ext_iff_of_nodup l1.nodup l0.nodup).2 fun h => ?_)
      rw [l1.mem, l0.mem]
      exact I.same (i, g) List.mem_cons_self h
    simp only [List.map_cons, fillAt] at h
    rw [bind_apply, faceAt_ok hi] at h
    dsimp only at h
    rw [bind_apply] at h
    unfold triangulate at h
    rcases holeFill_ok (bound := Scalar.pi) I.wf (AngleCap.any m) ag (by rw [sd]; exact (h3 g gH).2) with
      ⟨-, e⟩ | ⟨m1, tris, He, e, p, P⟩
    · rw [e] at h; cases h
    · rw [e] at h
      dsimp only at h
      have nd := I.nodup
      rw [List.map_cons, List.nodup_cons] at nd
      obtain ⟨s1, c1⟩ := P.simple I.wf p (I.wf.faceLoop ag) nd.1 (by
        intro f hf
        obtain ⟨q, hq, rfl⟩ := List.mem_map.1 hf
        exact I.wf.fDense.alive_at (I.slots q (List.mem_cons_of_mem _ hq))) sm ch
      exact ih m1 (I.step ag sd p P) s1 c1 m' h

end TinyMesh
