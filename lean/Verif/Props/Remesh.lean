import Verif.Proof.RemD
/-
Triangular remeshing (C23, C24).
-/
set_option maxRecDepth 100000
namespace TinyMesh
open Sample
attribute [local instance] Sample.ratScalar

section
variable {F : Type} [Scalar F] {m m' : Mesh F}

/-- C23: on a consistent mesh `remeshTriangular` ends with a consistent mesh, whatever the orders in which the loops visit the
half-edges, whatever the thresholds and the number of iterations, and whatever the floating point semantics; elements are
never confused with freed ones, and the Euler characteristic is that of the input. The only other outcomes are the failed assertion
(invalid input, or a position that is not a number when two vertices are merged) and the exception for a division by zero in the
smoothing. In particular no freed element is ever accessed (that would be `ub`) and the loops end. -/
theorem c23_remesh (g : m.Good) (sh : Nat → Bool → Nat → List Nat) (short long keep : F) (n : Nat) :
    (∃ m', remesh sh short long keep n m = .ok () m' ∧ m'.Good ∧ m'.euler2 = m.euler2 ∧ NoReuse m m') ∨
    remesh sh short long keep n m = .err .abort ∨ remesh sh short long keep n m = .err .throw := by
  rcases remesh_outcome caps_any g trivial sh short long keep n with ⟨e, -⟩ | ⟨m1, -, ⟨m', e, i, r, -⟩ | ⟨x, rfl | rfl, e⟩⟩
  · exact Or.inr (Or.inl e)
  · exact Or.inl ⟨m', e, i.1, r.euler, r.reuse⟩
  · exact Or.inr (Or.inl e)
  · exact Or.inr (Or.inr e)

/-- C23: a mesh with a position that is not finite is rejected. -/
theorem c23_reject (g : m.Good) {v : Nat} (a : m.vAlive v = true) (h : (m.vPos v).finite = false)
    (sh : Nat → Bool → Nat → List Nat) (short long keep : F) (n : Nat) : remesh sh short long keep n m = .err .abort := by
  have c : (m.vs.all fun v => (m.vPos v).finite) = false :=
    List.all_eq_false.2 ⟨v, (g.wf.vDense.mem v).2 a, by simp [h]⟩
  unfold remesh
  rw [bind_apply, g.wf.verify_ok, c]; rfl

/-- C24: a vertex that is locked when `remeshTriangular` is called is still in the mesh when it ends, still locked and in exactly the
same place. -/
theorem c24_locked (g : m.Good) (sh : Nat → Bool → Nat → List Nat) (short long keep : F) (n : Nat)
    (h : remesh sh short long keep n m = .ok () m') : KeepsLocked m m' := by
  rcases remesh_outcome caps_any g trivial sh short long keep n with ⟨e, -⟩ | ⟨m1, -, ⟨m2, e, i, r, -⟩ | ⟨x, -, e⟩⟩
  · rw [h] at e; cases e
  · rw [h] at e; cases e; exact r.locked
  · rw [h] at e; cases e

/-- C24: the same for the vertices that `remeshTriangular` itself locks before it starts. -/
theorem c24_feature (g : m.Good) (sh : Nat → Bool → Nat → List Nat) (short long keep : F) (n : Nat)
    (h : remesh sh short long keep n m = .ok () m') :
    ∃ m1, lockFeatures keep m = .ok () m1 ∧ m1 = { m with vLock := m1.vLock } ∧ (∀ v, m.vLock v = true → m1.vLock v = true) ∧
      KeepsLocked m1 m' := by
  rcases remesh_outcome caps_any g trivial sh short long keep n with ⟨e, -⟩ | ⟨m1, e1, ⟨m2, e, i, -, r⟩ | ⟨x, -, e⟩⟩
  · rw [h] at e; cases e
  · rw [h] at e; cases e
    refine ⟨m1, e1, ?_, ?_, r.locked⟩ <;> rw [lockFeatures_ok g.wf keep] at e1 <;> cases e1
    · rfl
    · intro v hv; simp [hv]
  · rw [h] at e; cases e

end

/-- C23: in exact arithmetic remeshing a consistent mesh with finite positions always succeeds, and the result is again such a mesh:
consistent, with finite positions, so that `verify` accepts it. -/
theorem c23_exact {m : Mesh XR} (g : m.Good) {p : Nat → E3} (A : m.AtE p) (sh : Nat → Bool → Nat → List Nat) (short long keep : XR)
    (n : Nat) : ∃ m', remesh sh short long keep n m = .ok () m' ∧ m'.Good ∧ (∃ p', m'.AtE p') ∧ verify m' = .ok true m' := by
  have fin : ∀ {m : Mesh XR} {p : Nat → E3}, m.AtE p → ∀ v, m.vAlive v = true → (m.vPos v).finite = true := by
    intro m p A v a
    obtain ⟨w, hw, -⟩ := A v a
    rw [hw]
    simp [Vec3.finite, Vec3.fin]
  rcases remesh_outcome caps_exact g ⟨p, A⟩ sh short long keep n with ⟨-, v, a, h⟩ | ⟨m1, -, ⟨m', e, i, r, -⟩ | ⟨x, h, -⟩⟩
  · rw [fin A v a] at h; cases h
  · obtain ⟨p', A'⟩ := i.2
    refine ⟨m', e, i.1, ⟨p', A'⟩, ?_⟩
    rw [i.1.wf.verify_ok, List.all_eq_true.2 fun v hv => fin A' v ((i.1.wf.vDense.mem v).1 hv)]
  · exact h.elim

/-- C24: which vertices are locked first, in exact arithmetic: those that were locked before, and among the vertices with triangles all
around those with an edge at which the normals of the two triangles form an angle below the threshold. (A threshold
above `π` locks everything.) Note that the normals are those of the triangles taken with the common edge in the same direction, so
that the angle is zero for a fold and `π` for a flat edge. -/
theorem c24_feature_iff {m : Mesh XR} (g : m.Good) {p : Nat → E3} (A : m.AtE p) (keep : ℝ) :
    ∃ m1, lockFeatures (XR.fin keep) m = .ok () m1 ∧ m1 = { m with vLock := m1.vLock } ∧
      ∀ v, m.vAlive v = true → (∀ h, m.hAlive h = true → m.hSrc h = v → m.OnTri h) →
        (m1.vLock v = true ↔ m.vLock v = true ∨ Real.pi < keep ∨
          ∃ h, m.hAlive h = true ∧ m.hSrc h = v ∧ m.angleOf p h < keep) := by
  refine ⟨_, lockFeatures_ok g.wf _, rfl, fun v a t => ?_⟩
  rw [← ringAngle_exact g.wf A a t keep]
  simp [a]

/-- the loops do something: splitting all edges of an octahedron that are not shorter than 1, and collapsing short edges of an
icosahedron -/
example : ∃ m m' : Mesh Rat, construct octV octI fresh = .ok () m ∧ m.Good ∧ forAll (splitOne 1) [3, 0, 200] m = .ok () m' ∧
    m.vs.length < m'.vs.length := by
  obtain ⟨_, m, b, m', h1, h2, h3⟩ := thenSt_iff (o := construct octV octI fresh) (f := forAll (splitOne 1) [3, 0, 200])
    (p := fun m _ m' => decide (m.vs.length < m'.vs.length)) (by decide +kernel)
  exact ⟨m, m', h1, c01_construct_consistent (Owned.empty dbl) h1, h2, of_decide_eq_true h3⟩

example : ∃ m m' : Mesh Rat, construct icoV icoI fresh = .ok () m ∧ m.Good ∧ forAll (collapseOne 1000 1000) [3, 1, 500] m = .ok () m' ∧
    m'.vs.length < m.vs.length := by
  obtain ⟨_, m, b, m', h1, h2, h3⟩ := thenSt_iff (o := construct icoV icoI fresh) (f := forAll (collapseOne 1000 1000) [3, 1, 500])
    (p := fun m _ m' => decide (m'.vs.length < m.vs.length)) (by decide +kernel)
  exact ⟨m, m', h1, c01_construct_consistent (Owned.empty dbl) h1, h2, of_decide_eq_true h3⟩

/-- a whole run: the corner tetrahedron with a locked vertex, any thresholds, any number of rounds -/
example (sh : Nat → Bool → Nat → List Nat) (short long keep : XR) (n : Nat) : ∃ (m m' : Mesh XR) (v : Nat), m.Good ∧
    remesh sh short long keep n m = .ok () m' ∧ m'.Good ∧ m.vAlive v = true ∧ m.vLock v = true ∧ m'.vAlive v = true ∧
    m'.vPos v = m.vPos v := by
  obtain ⟨m0, -, G, hv, -⟩ := closedX corner_valid corner_merged corner_manifold corner_closed dbl
  obtain ⟨p, A, hp⟩ := exists_at G.wf hv
  have hl : m0.vs.length = 4 := by
    have := congrArg List.length hv
    simpa [cornerV] using this
  obtain ⟨v, hv⟩ : ∃ v, v ∈ m0.vs := ⟨m0.vs[0], List.getElem_mem (by omega)⟩
  have av := (G.wf.vDense.mem v).1 hv
  have G' := G.setLocks (upd m0.vLock v true)
  obtain ⟨m', e, g', -⟩ := c23_exact G' (p := fun v => (p v).E) (fun v a => ⟨p v, A v a, rfl⟩) sh short long keep n
  have lk : ({ m0 with vLock := upd m0.vLock v true } : Mesh XR).vLock v = true := upd_same _ _ _
  have k := c24_locked G' sh short long keep n e v av lk
  exact ⟨_, m', v, G', e, g', av, lk, k.1, k.2.2⟩

end TinyMesh
