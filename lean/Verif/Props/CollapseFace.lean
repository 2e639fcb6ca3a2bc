import Verif.Props.Edit
/-
C66: collapsing a face.
-/
set_option maxRecDepth 100000
namespace TinyMesh
open Sample Orbit
attribute [local instance] Sample.ratScalar

/-- the edge of `h` was left alone, or collapsed -/
def CollapsedIf {F : Type} (b : Bool) (m m' : Mesh F) (h : Nat) : Prop :=
  (b = false ∧ m' = m) ∨ (b = true ∧ ∃ p q, SamePair p q (m.hSrc h) (m.hSrc (m.hNext h)) ∧ CollapseDone m m' p q)

section
variable {F : Type} {m m' : Mesh F} [Scalar F]

theorem collapsedIf_ok (g : m.Good) (hn : ∀ v, m.vAlive v = true → (m.vPos v).eq (m.vPos v) = true) {h : Nat} (a : m.hAlive h = true) :
    ∃ b m', collapseHE h m = .ok b m' ∧ CollapsedIf b m m' h ∧ m'.Good ∧ (∀ v, m'.vAlive v = true → (m'.vPos v).eq (m'.vPos v) = true) ∧
      m'.hAlive (m.hRev (m.hNext h)) = true := by
  rcases collapseHE_cases g a with h1 | ⟨he, rev, hs, hdeg, G, a', b', c', d', o0, o1, o2, o3, v0, v1, v2, v3, D, W, h2⟩
  · exact ⟨false, m, h1, Or.inl ⟨rfl, rfl⟩, g, hn, g.wf.rev_alive _ (g.wf.next_alive _ a)⟩
  · have e0 := W.s
    have e2 := W.sr
    have w := g.wf
    rcases h2 with ⟨hp, m', e, R⟩ | ⟨hp, e⟩
    · have d := collapse_done g G D W R
      refine ⟨true, m', e, Or.inr ⟨rfl, v0, v2, ?_, d⟩, d.good, fun v av => ?_, ?_⟩
      · rw [← w.src_rev _ a]
        rcases hs with ⟨rfl, rfl⟩ | ⟨rfl, rfl⟩
        · exact Or.inl ⟨e0.symm, e2.symm⟩
        · exact Or.inr ⟨e0.symm, e2.symm⟩
      · rw [(d.keeps v av).1]
        exact hn v ((d.alive v).1 av).1
      · rcases hs with ⟨rfl, rfl⟩ | ⟨rfl, rfl⟩
        · rw [D.n, W.r1]
          exact (R.hal _).2 ⟨W.a1, W.q1⟩
        · rw [D.nr, W.r3]
          exact (R.hal _).2 ⟨W.a3, W.q3⟩
    · have := w.src_alive _ D.ar
      rw [e2] at this
      exact absurd (hn v2 this) hp

/-- C66: collapsing a face of a consistent mesh without NaN coordinates ends the program if the face is no triangle. Otherwise it tries to
collapse the first edge of the face and then, in the new mesh, the next edge, and tells whether both were collapsed. -/
theorem c66_collapse_face (g : m.Good) (hn : ∀ v, m.vAlive v = true → (m.vPos v).eq (m.vPos v) = true) {f : Nat} (a : m.fAlive f = true) :
    (m.sides f ≠ 3 ∧ collapseFace f m = .err .abort) ∨
    (m.sides f = 3 ∧ ∃ b1 b2 m1 m', CollapsedIf b1 m m1 (m.fHe f) ∧ m1.Good ∧ m1.hAlive (m.hRev (m.hNext (m.fHe f))) = true ∧
      CollapsedIf b2 m1 m' (m.hRev (m.hNext (m.fHe f))) ∧ m'.Good ∧ collapseFace f m = .ok (b1 && b2) m') := by
  have w := g.wf
  obtain ⟨ah, fh⟩ := w.fHe_ok f a
  have hl : (orbit m.hNext (m.fHe f)).length = m.sides f := by
    rw [(w.loop_perm a).length_eq, ← List.countP_eq_length_filter]; rfl
  have n1 := w.next_alive _ ah
  have r1 := w.rev_alive _ n1
  by_cases hs : m.sides f = 3
  · right
    have hd : (orbit m.hNext (m.fHe f)).headD 0 = m.fHe f := by rw [List.headD_eq_head?_getD, w.permNext.orbit_head ah]; rfl
    obtain ⟨b1, m1, e1, c1, g1, hn1, a1⟩ := collapsedIf_ok g hn ah
    obtain ⟨b2, m2, e2, c2, g2, -, -⟩ := collapsedIf_ok g1 hn1 a1
    refine ⟨hs, b1, b2, m1, m2, c1, g1, a1, c2, g2, ?_⟩
    obtain ⟨i1, i2⟩ := g1.wf.hDense.idx_lt a1
    have ix : (decide (0 ≤ m1.hIdx (m.hRev (m.hNext (m.fHe f)))) && decide (m1.hIdx (m.hRev (m.hNext (m.fHe f))) < (m1.hes.length : Int))) = true := by
      simp [i1, i2]
    unfold collapseFace
    simp only [bind_apply, w.faceList_ok a, hl, hs, hd, getNext_ok ah, getRev_ok n1, e1, getHIdx_ok a1, read_apply,
      assert_true (p := ((3 : Nat) == 3)) rfl, assert_true ix, e2]
    rfl
  · left
    refine ⟨hs, ?_⟩
    unfold collapseFace
    simp only [bind_apply, w.faceList_ok a, hl]
    simp [M.assert, hs]


/-- C66: if `collapseFace` returns true the mesh has lost two vertices, twelve half-edges and four faces; if it returns false it is as
before or has lost one vertex, six half-edges and two faces. -/
theorem c66_counts (g : m.Good) (hn : ∀ v, m.vAlive v = true → (m.vPos v).eq (m.vPos v) = true) {f : Nat} (a : m.fAlive f = true) {b : Bool}
    (run : collapseFace f m = .ok b m') : m'.Good ∧
    (b = true → m'.vs.length + 2 = m.vs.length ∧ m'.hes.length + 12 = m.hes.length ∧ m'.fs.length + 4 = m.fs.length) ∧
    (b = false → m' = m ∨ (m'.vs.length + 1 = m.vs.length ∧ m'.hes.length + 6 = m.hes.length ∧ m'.fs.length + 2 = m.fs.length)) := by
  rcases c66_collapse_face g hn a with ⟨-, e⟩ | ⟨-, b1, b2, m1, m2, c1, -, -, c2, g2, e⟩
  · rw [run] at e; cases e
  rw [run] at e
  cases e
  refine ⟨g2, ?_⟩
  rcases c1 with ⟨rfl, rfl⟩ | ⟨rfl, p, q, -, d1⟩ <;> rcases c2 with ⟨rfl, rfl⟩ | ⟨rfl, p', q', -, d2⟩
  · exact ⟨fun h => by simp at h, fun _ => Or.inl rfl⟩
  · exact ⟨fun h => by simp at h, fun _ => Or.inr ⟨d2.nv, d2.nh, d2.nf⟩⟩
  · exact ⟨fun h => by simp at h, fun _ => Or.inr ⟨d1.nv, d1.nh, d1.nf⟩⟩
  · have := d1.nv; have := d1.nh; have := d1.nf; have := d2.nv; have := d2.nh; have := d2.nf
    exact ⟨fun _ => ⟨by omega, by omega, by omega⟩, fun h => by simp at h⟩

end

/-- both edges of a face of the icosahedron are collapsed -/
example : ∃ m m' : Mesh Rat, construct icoV icoI fresh = .ok () m ∧ m.Good ∧ m.fAlive 1 = true ∧ m.sides 1 = 3 ∧
    (∀ v, m.vAlive v = true → (m.vPos v).eq (m.vPos v) = true) ∧ collapseFace 1 m = .ok true m' ∧ m'.vs.length = 10 := by
  obtain ⟨_, m, b, m', h1, h2, h3⟩ := thenSt_iff (o := construct icoV icoI fresh) (f := collapseFace 1)
    (p := fun m b m' => m.fAlive 1 && decide (m.sides 1 = 3) && b && decide (m'.vs.length = 10)) (by decide +kernel)
  simp only [Bool.and_eq_true, decide_eq_true_eq] at h3
  obtain ⟨⟨⟨ha, hs⟩, rfl⟩, h4⟩ := h3
  exact ⟨m, m', h1, c01_construct_consistent (Owned.empty dbl) h1, ha, hs, fun v _ => rat_eq _, h2, h4⟩

/-- the hole of a strip is no triangle -/
example : ∃ m : Mesh Rat, construct stripV stripI fresh = .ok () m ∧ m.Good ∧ ∃ f, m.fAlive f = true ∧ m.sides f ≠ 3 := by
  obtain ⟨_, m, b, m', h1, h2, h3⟩ := thenSt_iff (o := construct stripV stripI fresh) (f := fun m => .ok () m)
    (p := fun m _ _ => m.fs.any fun f => m.fAlive f && decide (m.sides f ≠ 3)) (by decide +kernel)
  obtain ⟨f, -, hf⟩ := List.any_eq_true.1 h3
  simp only [Bool.and_eq_true, decide_eq_true_eq] at hf
  exact ⟨m, h1, c01_construct_consistent (Owned.empty dbl) h1, f, hf⟩

end TinyMesh
