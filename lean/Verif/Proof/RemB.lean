import Verif.Proof.RemA
/-
The bodies of the remeshing loops on a mesh on which the library works.
-/
namespace TinyMesh
open Orbit
variable {F : Type} [Scalar F] {m m' : Mesh F}

theorem splitOne_cases (g : m.Good) (lim : F) (i : Nat) :
    splitOne lim i m = .ok () m ∨ ∃ m' h he, splitOne lim i m = .ok () m' ∧ SplitStep m m' h he := by
  have w := g.wf
  unfold splitOne
  simp only [bind_apply, read_apply]
  by_cases c : i < m.hes.length
  · have a := hes_alive w c
    rw [if_pos c]
    simp only [bind_apply, halfedgeAt_ok c, getSrc_ok a, getPos_ok (w.src_alive _ a), getDst_ok a (w.next_alive _ a),
      getPos_ok (w.src_alive _ (w.next_alive _ a))]
    split
    · rcases splitHE_cases g a with e | ⟨m', he, S⟩
      · left; simp [e]
      · right; exact ⟨m', _, he, by simp [S.run], S⟩
    · exact Or.inl rfl
  · rw [if_neg c]; exact Or.inl rfl

theorem noLongEdge_ok (w : m.WF) {a b : Nat} (ha : m.vAlive a = true) (hb : m.vAlive b = true) (lim : F) :
    ∃ r, noLongEdge a b lim m = .ok r m := by
  unfold noLongEdge
  simp only [bind_apply, getVHe_ok hb]
  refine ⟨_, w.circ_ring hb (fun x _ => (Scalar.le lim (Vec3.length ((m.vPos a).sub (m.vPos (m.hSrc (m.hNext x))))),
    !Scalar.le lim (Vec3.length ((m.vPos a).sub (m.vPos (m.hSrc (m.hNext x))))))) (fun x hx c => ?_) _⟩
  simp [getPos_ok ha, getDst_ok hx (w.next_alive _ hx), getPos_ok (w.src_alive _ (w.next_alive _ hx))]

/-- what is left of `m` after a collapse -/
structure Collapsed (m m' : Mesh F) (h p q : Nat) : Prop where
  done : CollapseDone m m' p q
  ends : SamePair p q (m.hSrc h) (m.hSrc (m.hRev h))
  /-- nothing but the half-edges of the two triangles is removed -/
  gone : ∀ x, m.hAlive x = true → x ∉ [h, m.hNext h, m.hNext (m.hNext h), m.hRev h, m.hNext (m.hRev h), m.hNext (m.hNext (m.hRev h))] →
    m'.hAlive x = true
  /-- flagged half-edges stay, with their flag -/
  flag : ∀ x, m.hAlive x = true → m.hBd x = true → m'.hAlive x = true
  bd : m'.hBd = m.hBd
  src : ∀ x, m.hAlive x = true → m'.hSrc x = if m.hSrc x = q then p else m.hSrc x
  hF : m'.hFresh = m.hFresh
  vF : m'.vFresh = m.vFresh
  fF : m'.fFresh = m.fFresh

theorem Collapsed.noReuse {h p q : Nat} (S : Collapsed m m' h p q) : NoReuse m m' :=
  ⟨fun x a _ => S.done.hOld x a, fun x a _ => ((S.done.alive x).1 a).1, fun x a _ => S.done.fOld x a, by rw [S.hF], by rw [S.vF],
    by rw [S.fF]⟩

theorem collapse_step (g : m.Good) {h : Nat} (a : m.hAlive h = true) :
    collapseHE h m = .ok false m ∨
    (∃ m' p q, collapseHE h m = .ok true m' ∧ Collapsed m m' h p q) ∨
    (collapseHE h m = .err .abort ∧ ∃ v, m.vAlive v = true ∧ ¬ (m.vPos v).eq (m.vPos v) = true) := by
  rcases collapseHE_cases g a with h1 | ⟨he, rev, hs, hdeg, G, a', b', c', d', o0, o1, o2, o3, v0, v1, v2, v3, D, W, h2⟩
  · exact Or.inl h1
  · have e0 := W.s
    have e2 := W.sr
    rcases h2 with ⟨hp, m', e, R⟩ | ⟨hp, e⟩
    · refine Or.inr (Or.inl ⟨m', v0, v2, e, collapse_done g G D W R, ?_, ?_, ?_, R.bd, R.src, R.hfr, R.vfr, R.ffr⟩)
      · rcases hs with ⟨rfl, rfl⟩ | ⟨rfl, rfl⟩
        · exact Or.inl ⟨e0.symm, e2.symm⟩
        · exact Or.inr ⟨e0.symm, e2.symm⟩
      · intro x ax nx
        refine (R.hal x).2 ⟨ax, ?_⟩
        have i1 := D.n; have i2 := D.n0; have i3 := D.nr; have i4 := D.n2; have i5 := D.hrev; have i6 := D.hrev'
        simp only [List.mem_cons, List.not_mem_nil, or_false, not_or] at nx
        rcases hs with ⟨rfl, hr⟩ | ⟨hr, rfl⟩
        · rw [← hr, i1, i2, i3, i4] at nx; tauto
        · rw [← hr, i1, i2, i3, i4] at nx; tauto
      · intro x ax bx
        refine (R.hal x).2 ⟨ax, ?_⟩
        have w := g.wf
        have k0 : ∀ y, m.hAlive y = true → m.hFace y = m.hFace he → x ≠ y := by
          rintro y ay fy rfl; rw [G.b0 x ay fy] at bx; cases bx
        have k1 : ∀ y, m.hAlive y = true → m.hFace y = m.hFace rev → x ≠ y := by
          rintro y ay fy rfl; rw [G.b1 x ay fy] at bx; cases bx
        have f1 : m.hFace a' = m.hFace he := by rw [← D.n]; exact w.face_next _ D.a
        have f2 : m.hFace b' = m.hFace he := by rw [← D.n0, w.face_next _ D.a0]; exact f1
        have f3 : m.hFace c' = m.hFace rev := by rw [← D.nr]; exact w.face_next _ D.ar
        have f4 : m.hFace d' = m.hFace rev := by rw [← D.n2, w.face_next _ D.a2]; exact f3
        exact ⟨k0 _ D.a rfl, k1 _ D.ar rfl, k0 _ D.a0 f1, k0 _ D.a1 f2, k1 _ D.a2 f3, k1 _ D.a3 f4⟩
    · refine Or.inr (Or.inr ⟨e, v2, ?_, hp⟩)
      have := g.wf.src_alive _ D.ar; rw [W.sr] at this; exact this

theorem collapseOne_cases (g : m.Good) (lo lim : F) (i : Nat) :
    collapseOne lo lim i m = .ok () m ∨
    (∃ m' h p q, collapseOne lo lim i m = .ok () m' ∧ Collapsed m m' h p q ∧ m.vLock q = false) ∨
    (collapseOne lo lim i m = .err .abort ∧ ∃ v, m.vAlive v = true ∧ ¬ (m.vPos v).eq (m.vPos v) = true) := by
  have w := g.wf
  unfold collapseOne
  simp only [bind_apply, read_apply]
  by_cases c : i < m.hes.length
  · have a := hes_alive w c
    rw [if_pos c]
    have ar := w.rev_alive _ a
    have an := w.next_alive _ a
    have v1 := w.src_alive _ a
    have v2 := w.src_alive _ an
    simp only [bind_apply, halfedgeAt_ok c, getFace_ok a, w.fIsLocked_ok (w.face_alive _ a)]
    split
    · exact Or.inl rfl
    simp only [bind_apply, getRev_ok a, getFace_ok ar, w.fIsLocked_ok (w.face_alive _ ar)]
    split
    · exact Or.inl rfl
    simp only [bind_apply, getSrc_ok a, getLock_ok v1]
    split
    · exact Or.inl rfl
    next l1 =>
    simp only [bind_apply, getDst_ok a an, getLock_ok v2]
    split
    · exact Or.inl rfl
    next l2 =>
    simp only [bind_apply, getPos_ok v1, getPos_ok v2]
    split
    · obtain ⟨r, hr⟩ := noLongEdge_ok w v1 v2 lim
      simp only [bind_apply, hr]
      split
      · rcases collapse_step g a with e | ⟨m', p, q, e, S⟩ | ⟨e, hv⟩
        · left; simp [e]
        · right; left
          refine ⟨m', _, p, q, by simp [e], S, ?_⟩
          have hs := S.ends
          rw [w.src_rev _ a] at hs
          rcases hs with ⟨-, h⟩ | ⟨-, h⟩
          · rw [h]; simpa using l2
          · rw [h]; simpa using l1
        · right; right; exact ⟨by simp [e], hv⟩
      · exact Or.inl rfl
    · exact Or.inl rfl
  · rw [if_neg c]; exact Or.inl rfl

theorem valence_ok (w : m.WF) {v : Nat} (a : m.vAlive v = true) : ∃ t, valence v m = .ok t m := by
  unfold valence
  simp [w.vIsBoundary_ok a]

/-- what is left of `m` after a flip -/
structure Flipped (m m' : Mesh F) (p q r s : Nat) : Prop where
  done : FlipDone m m' p q r s
  /-- flagged half-edges start where they did -/
  src : ∀ x, m.hBd x = true → m'.hSrc x = m.hSrc x
  hF : m'.hFresh = m.hFresh
  vF : m'.vFresh = m.vFresh
  fF : m'.fFresh = m.fFresh
  tris : m.HasTri p q r ∧ m.HasTri q p s
  holes : KeepsHoles m m'

theorem Flipped.noReuse {p q r s : Nat} (S : Flipped m m' p q r s) : NoReuse m m' :=
  ⟨fun x a _ => by rw [← S.done.hAlive]; exact a, fun x a _ => by rw [← S.done.vAlive]; exact a,
    fun x a _ => by rw [← S.done.fAlive]; exact a, by rw [S.hF], by rw [S.vF], by rw [S.fF]⟩

theorem flip_step (g : m.Good) {h : Nat} (a : m.hAlive h = true)
    (b1 : (orbit m.hNext (m.fHe (m.hFace h))).any m.hBd = false)
    (b2 : (orbit m.hNext (m.fHe (m.hFace (m.hRev h)))).any m.hBd = false) :
    flipHE h m = .ok false m ∨ ∃ m' p q r s, flipHE h m = .ok true m' ∧ Flipped m m' p q r s := by
  have w := g.wf
  have ar := w.rev_alive _ a
  have n1 : ¬ m.hBd h = true := List.any_eq_false.1 b1 h ((w.mem_loop (w.face_alive _ a)).2 ⟨a, rfl⟩)
  have n2 : ¬ m.hBd (m.hRev h) = true := List.any_eq_false.1 b2 _ ((w.mem_loop (w.face_alive _ ar)).2 ⟨ar, rfl⟩)
  rcases flipHE_cases g a (g.onTri a b1) (g.onTri ar b2) with e | ⟨m', e, hm, d⟩
  · exact Or.inl e
  · refine Or.inr ⟨m', _, _, _, _, e, d, fun x bx => ?_, by rw [hm]; rfl, by rw [hm]; rfl, by rw [hm]; rfl,
      ⟨⟨h, a, g.onTri a b1, rfl, (w.src_rev _ a).symm, rfl⟩, ⟨_, ar, g.onTri ar b2, rfl, by rw [← w.src_rev _ ar, w.rev_rev _ a], rfl⟩⟩,
      by rw [hm]; exact flipState_keepsHoles g a (g.onTri a b1) (g.onTri ar b2) (by simpa using n1) (by simpa using n2)⟩
    have c1 : x ≠ h := by rintro rfl; exact n1 bx
    have c2 : x ≠ m.hRev h := by rintro rfl; exact n2 bx
    rw [hm]
    simp [flipState, upd, c1, c2]

theorem flipOne_cases (g : m.Good) {i : Nat} (c : i < m.hes.length) :
    flipOne i m = .ok () m ∨ ∃ m' p q r s, flipOne i m = .ok () m' ∧ Flipped m m' p q r s := by
  have w := g.wf
  have a := hes_alive w c
  have ar := w.rev_alive _ a
  have an := w.next_alive _ a
  have v0 := w.src_alive _ a
  have v1 := w.src_alive _ an
  have arn := w.next_alive _ ar
  have v2 := w.src_alive _ (w.next_alive _ an)
  have v3 := w.src_alive _ (w.next_alive _ arn)
  unfold flipOne
  simp only [bind_apply, halfedgeAt_ok c, getFace_ok a, w.fIsBoundary_ok (w.face_alive _ a)]
  split
  · exact Or.inl rfl
  next b1 =>
  simp only [bind_apply, getRev_ok a, getFace_ok ar, w.fIsBoundary_ok (w.face_alive _ ar)]
  split
  · exact Or.inl rfl
  next b2 =>
  simp only [bind_apply, w.fIsLocked_ok (w.face_alive _ a)]
  split
  · exact Or.inl rfl
  simp only [bind_apply, w.fIsLocked_ok (w.face_alive _ ar)]
  split
  · exact Or.inl rfl
  simp only [bind_apply, getSrc_ok a, getDst_ok a an, getNext_ok a, getDst_ok an (w.next_alive _ an), getNext_ok ar,
    getDst_ok arn (w.next_alive _ arn), getLock_ok v0]
  split
  · exact Or.inl rfl
  simp only [bind_apply, getLock_ok v1]
  split
  · exact Or.inl rfl
  obtain ⟨t0, h0⟩ := valence_ok w v0
  obtain ⟨t1, h1⟩ := valence_ok w v1
  obtain ⟨t2, h2⟩ := valence_ok w v2
  obtain ⟨t3, h3⟩ := valence_ok w v3
  simp only [bind_apply, w.degree_ok v0, w.degree_ok v1, w.degree_ok v2, w.degree_ok v3, h0, h1, h2, h3]
  split
  · rcases flip_step g a (by simpa using b1) (by simpa using b2) with e | ⟨m', p, q, r, s, e, S⟩
    · left; simp [e]
    · right
      exact ⟨m', _, _, _, _, by simp [e], S⟩
  · exact Or.inl rfl

end TinyMesh
