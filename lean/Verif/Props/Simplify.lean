import Verif.Proof.SimC
import Verif.Props.Edit
/-
Simplification with quadric error metrics (C25, C26, C52, C53, C54).
-/
set_option maxRecDepth 100000
namespace TinyMesh
open Sample
attribute [local instance] Sample.ratScalar

section
variable {F : Type} [Scalar F] {m m' : Mesh F}

/-- C25: with a positive target, for every consistent mesh, number of trials, order of the queue and floating point semantics: the
result is what `k` edge contractions leave (two faces each, so the number of faces never grows), and if any face was
removed at least `target - 1` are left. (`numRemoved`, compared with the number of faces to be removed, advances by two.) -/
theorem c25_faces (g : m.Good) (S : Solver F) {ord : Nat → List (Nat × Vec3 F) → List (Nat × Vec3 F)}
    (ho : ∀ n l, ∀ c ∈ ord n l, c ∈ l) {target : Int} (ht : 0 < target) (hi : m.fs.length ≤ 2147483647) (maxTrials : Int)
    (h : simplifyQEM S ord target maxTrials m = .ok () m') :
    (∃ k, Contracted k m m') ∧ (min (m.fs.length : Int) (target - 1) ≤ m'.fs.length) ∧ m'.fs.length ≤ m.fs.length ∧
      ((m.fs.length : Int) ≤ target → m' = m) := by
  rcases simplifyQEM_outcome (simCaps_any S) ho g trivial (by omega : target ≠ 0) maxTrials (by omega) with
    ⟨k, m2, e, -, d, l, hn⟩ | ⟨e, -, h2⟩
  · rw [h] at e; cases e
    have := d.num.fs
    refine ⟨⟨k, d.num⟩, ?_, by omega, hn⟩
    rcases l with rfl | l <;> omega
  · rw [h] at h2; cases h2

/-- C26: on a consistent mesh `simplifyQEM` ends for every number of trials, although progress resets the counter, and it never touches
an element that has been removed (that would be `ub`): the result is a consistent mesh without reuse of freed elements, and
the only other outcomes are the failed assertion when positions that are not numbers are merged, and the exception of a
division by zero. The queue may yield the half-edges in any order, even with repetitions and omissions. -/
theorem c26_terminates (g : m.Good) (S : Solver F) {ord : Nat → List (Nat × Vec3 F) → List (Nat × Vec3 F)}
    (ho : ∀ n l, ∀ c ∈ ord n l, c ∈ l) {target : Int} (ht : target ≠ 0) (maxTrials : Int)
    (hi : (m.fs.length : Int) - target ≤ 2147483647) :
    (∃ m', simplifyQEM S ord target maxTrials m = .ok () m' ∧ m'.Good ∧ NoReuse m m') ∨
    simplifyQEM S ord target maxTrials m = .err .abort ∨ simplifyQEM S ord target maxTrials m = .err .throw := by
  rcases simplifyQEM_outcome (simCaps_any S) ho g trivial ht maxTrials hi with ⟨k, m2, e, i, d, -⟩ | ⟨e, rfl | rfl, h2⟩
  · exact Or.inl ⟨m2, e, i.1, d.reuse⟩
  · exact Or.inr (Or.inl h2)
  · exact Or.inr (Or.inr h2)

/-- C26: the remaining arguments: a target of zero is rejected by the assertion, but a negative one is not, and the subtraction of one
that is large enough overflows. -/
theorem c26_zero (S : Solver F) (ord : Nat → List (Nat × Vec3 F) → List (Nat × Vec3 F)) (maxTrials : Int)
    (hi : m.fs.length ≤ 2147483647) : simplifyQEM S ord 0 maxTrials m = .err .abort := by
  unfold simplifyQEM
  simp only [bind_apply, read_apply]
  rw [if_neg (by omega), if_pos trivial]; rfl

theorem c26_overflow (S : Solver F) (ord : Nat → List (Nat × Vec3 F) → List (Nat × Vec3 F)) (maxTrials : Int)
    {target : Int} (h : 2147483647 < (m.fs.length : Int) - target) : simplifyQEM S ord target maxTrials m = .err .ub := by
  unfold simplifyQEM
  simp only [bind_apply, read_apply]
  rw [if_pos h]; rfl

/-- C52: every vertex at the boundary survives simplification, stays at the boundary and in its place. -/
theorem c52_boundary (g : m.Good) (S : Solver F) {ord : Nat → List (Nat × Vec3 F) → List (Nat × Vec3 F)}
    (ho : ∀ n l, ∀ c ∈ ord n l, c ∈ l) (target maxTrials : Int) (h : simplifyQEM S ord target maxTrials m = .ok () m') :
    KeepsBoundary m m' := by
  by_cases h0 : target = 0
  · unfold simplifyQEM at h
    simp only [bind_apply, read_apply, h0] at h
    split at h
    · cases h
    · rw [if_pos trivial] at h; cases h
  · by_cases h1 : 2147483647 < (m.fs.length : Int) - target
    · rw [c26_overflow S ord maxTrials h1] at h; cases h
    · rcases simplifyQEM_outcome (simCaps_any S) ho g trivial h0 maxTrials (by omega) with ⟨k, m2, e, -, d, -⟩ | ⟨e, -, h2⟩
      · rw [h] at e; cases e; exact d.keeps
      · rw [h] at h2; cases h2

end

/-- C26: in exact arithmetic, with finite positions and an exact linear solver, simplification always succeeds. -/
theorem c26_exact {m : Mesh XR} (g : m.Good) {p : Nat → E3} (A : m.AtE p) {S : Solver XR} (hS : S.Exact)
    {ord : Nat → List (Nat × Vec3 XR) → List (Nat × Vec3 XR)} (ho : ∀ n l, ∀ c ∈ ord n l, c ∈ l) {target : Int}
    (ht : target ≠ 0) (maxTrials : Int) (hi : (m.fs.length : Int) - target ≤ 2147483647) :
    ∃ m', simplifyQEM S ord target maxTrials m = .ok () m' ∧ m'.Good ∧ ∃ p', m'.AtE p' := by
  rcases simplifyQEM_outcome (simCaps_exact hS) ho g ⟨p, A⟩ ht maxTrials hi with ⟨k, m2, e, i, -⟩ | ⟨e, h, -⟩
  · exact ⟨m2, e, i.1, i.2⟩
  · exact h.elim

/-- C53: the position that a half-edge is to be contracted to, in exact arithmetic: if the determinant of the quadratic part is
at least `1e-8`, the point with the least sum of squared distances to the planes of the inner faces around the two ends (faces around
both ends count twice); otherwise the midpoint of the edge. -/
theorem c53_candidates {m : Mesh XR} (g : m.Good) {p : Nat → E3} (A : m.AtE p) {S : Solver XR} (hS : S.Exact) :
    ∃ qs cs, quadrics m.vs.length m.fs (fun _ => Mat4.zero) m = .ok (some qs) m ∧ candidates S m.vs.length qs m.hes m = .ok cs m ∧
      cs.map Prod.fst = m.hes ∧ ∀ c ∈ cs, ∃ x : E3, c.2.Is x ∧
        let a := m.hSrc c.1
        let b := m.hSrc (m.hNext c.1)
        ((m.hessAt p a + m.hessAt p b).det < 1 / 10 ^ 8 → x = (1 / 2 : ℝ) • (p a + p b)) ∧
        (1 / 10 ^ 8 ≤ (m.hessAt p a + m.hessAt p b).det →
          ∀ y, m.errAt p a x + m.errAt p b x ≤ m.errAt p a y + m.errAt p b y) := by
  have w := g.wf
  obtain ⟨qs, e, hq⟩ := quadrics_exact g A (Nat.le_refl _) m.fs (fun _ => Mat4.zero) (fun _ _ => 0) (fun _ => 0)
    (fun f hf => (w.fDense.mem f).1 hf) (fun _ _ => ⟨_, Quad.zero⟩)
  have ah : ∀ h ∈ m.hes, m.hAlive h = true := fun h hh => (w.hDense.mem h).1 hh
  refine ⟨qs, _, e, candidates_ok g S (Nat.le_refl _) qs m.hes ah, ?_, fun c hc => ?_⟩
  · rw [List.map_map]; exact List.map_id _
  · obtain ⟨h, hh, rfl⟩ := List.mem_map.1 hc
    have a1 := w.src_alive _ (ah h hh)
    have a2 := w.src_alive _ (w.next_alive _ (ah h hh))
    obtain ⟨B1, h1⟩ := hq _ a1
    obtain ⟨B2, h2⟩ := hq _ a2
    simp only [zero_add] at h1 h2
    exact qemPos_exact hS h1 h2 (A _ a1) (A _ a2)

/-- there is an exact solver -/
noncomputable def exactSolver : Solver XR where
  det A := XR.fin (Matrix.det fun i j => match A i j with | .fin r => r | _ => 0)
  solve A :=
    let x := (Matrix.of fun i j => match A i j with | .fin r => r | _ => 0)⁻¹.mulVec ![(0 : ℝ), 0, 0, 1]
    ⟨XR.fin (x 0), XR.fin (x 1), XR.fin (x 2)⟩

theorem exactSolver_exact : exactSolver.Exact where
  det A := rfl
  solve A h := by
    refine ⟨A⁻¹.mulVec ![0, 0, 0, 1], ?_, rfl⟩
    rw [Matrix.mulVec_mulVec, Matrix.mul_nonsing_inv _ (isUnit_iff_ne_zero.2 h), Matrix.one_mulVec]

/-- three planes at right angles: the determinant is (nearly) one and the contraction goes to their common point -/
example : ∃ A e H B, Quad A e H B ∧ 1 / 10 ^ 8 ≤ H.det ∧ e 0 = 0 := by
  obtain ⟨K1, B1, -, h1⟩ := Quad.ofTri (a := (Vec3.mk 0 0 0 : Vec3 ℝ).fin) (b := (Vec3.mk 1 0 0 : Vec3 ℝ).fin)
    (c := (Vec3.mk 0 1 0 : Vec3 ℝ).fin) ⟨_, rfl, rfl⟩ ⟨_, rfl, rfl⟩ ⟨_, rfl, rfl⟩
  obtain ⟨K2, B2, -, h2⟩ := Quad.ofTri (a := (Vec3.mk 0 0 0 : Vec3 ℝ).fin) (b := (Vec3.mk 0 1 0 : Vec3 ℝ).fin)
    (c := (Vec3.mk 0 0 1 : Vec3 ℝ).fin) ⟨_, rfl, rfl⟩ ⟨_, rfl, rfl⟩ ⟨_, rfl, rfl⟩
  obtain ⟨K3, B3, -, h3⟩ := Quad.ofTri (a := (Vec3.mk 0 0 0 : Vec3 ℝ).fin) (b := (Vec3.mk 0 0 1 : Vec3 ℝ).fin)
    (c := (Vec3.mk 1 0 0 : Vec3 ℝ).fin) ⟨_, rfl, rfl⟩ ⟨_, rfl, rfl⟩ ⟨_, rfl, rfl⟩
  refine ⟨_, _, _, _, (h1.add h2).add h3, ?_, ?_⟩
  · have n1 : planeNormal (Vec3.mk 0 0 0 : Vec3 ℝ).E (Vec3.mk 1 0 0 : Vec3 ℝ).E (Vec3.mk 0 1 0 : Vec3 ℝ).E =
        (Vec3.mk 0 0 (1 + 1 / 10 ^ 12)⁻¹ : Vec3 ℝ).E := by
      unfold planeNormal
      rw [triNormal_E, Vec3.E_norm]
      apply Vec3.E_ext <;> simp [Vec3.cross_def, Vec3.sub_def, Vec3.length_def, Vec3.dot_def]
    have n2 : planeNormal (Vec3.mk 0 0 0 : Vec3 ℝ).E (Vec3.mk 0 1 0 : Vec3 ℝ).E (Vec3.mk 0 0 1 : Vec3 ℝ).E =
        (Vec3.mk (1 + 1 / 10 ^ 12)⁻¹ 0 0 : Vec3 ℝ).E := by
      unfold planeNormal
      rw [triNormal_E, Vec3.E_norm]
      apply Vec3.E_ext <;> simp [Vec3.cross_def, Vec3.sub_def, Vec3.length_def, Vec3.dot_def]
    have n3 : planeNormal (Vec3.mk 0 0 0 : Vec3 ℝ).E (Vec3.mk 0 0 1 : Vec3 ℝ).E (Vec3.mk 1 0 0 : Vec3 ℝ).E =
        (Vec3.mk 0 (1 + 1 / 10 ^ 12)⁻¹ 0 : Vec3 ℝ).E := by
      unfold planeNormal
      rw [triNormal_E, Vec3.E_norm]
      apply Vec3.E_ext <;> simp [Vec3.cross_def, Vec3.sub_def, Vec3.length_def, Vec3.dot_def]
    rw [n1, n2, n3, Matrix.det_fin_three]
    simp
    norm_num
  · have z : (Vec3.mk 0 0 0 : Vec3 ℝ).E = 0 := by apply Vec3.E_ext <;> simp [Vec3.E]
    simp [planeErr, z]

/-- a solver whose determinant makes the code fall back to the midpoint -/
def midSolver : Solver Rat := ⟨fun _ => 0, fun _ => Vec3.zero⟩

/-- C54: simplification does not respect locks. All vertices of an icosahedron are locked; with the target 17, two edges are
contracted all the same (which also shows that `target - 1` is reached). -/
theorem c54_counterexample : ∃ (m m' : Mesh Rat), m.Good ∧ (∀ v, m.vLock v = true) ∧
    simplifyQEM midSolver (fun _ => id) 17 1 m = .ok () m' ∧ ¬ KeepsLocked m m' ∧ m.fs.length = 20 ∧ m'.fs.length = 16 := by
  obtain ⟨_, m, b, m', h1, h2, h3⟩ := thenSt_iff (o := construct icoV icoI fresh)
    (f := fun m => simplifyQEM midSolver (fun _ => id) 17 1 { m with vLock := fun _ => true })
    (p := fun m _ m' => decide (m'.fs.length = 16 ∧ m.fs.length = 20 ∧ ∃ v ∈ m.vs, m'.vAlive v = false)) (by decide +kernel)
  obtain ⟨n1, n2, v, hv, hd⟩ := of_decide_eq_true h3
  have g := c01_construct_consistent (Owned.empty dbl) h1
  refine ⟨_, m', g.setLocks (fun _ => true), fun _ => rfl, h2, fun k => ?_, n2, n1⟩
  have := (k v ((g.wf.vDense.mem v).1 hv) rfl).1
  rw [hd] at this; cases this

/-- C54, partial: a locked vertex at the boundary is still there and in its place. Missing: locked vertices inside, which are not protected
(`c54_counterexample`). -/
theorem c54_locked_partial {F : Type} [Scalar F] {m m' : Mesh F} (g : m.Good) (S : Solver F) {ord : Nat → List (Nat × Vec3 F) → List (Nat × Vec3 F)}
    (ho : ∀ n l, ∀ c ∈ ord n l, c ∈ l) (target maxTrials : Int) (h : simplifyQEM S ord target maxTrials m = .ok () m') {v : Nat}
    (a : m.vAlive v = true) (_ : m.vLock v = true) (b : m.AtBoundary v) : m'.vAlive v = true ∧ m'.vPos v = m.vPos v :=
  have k := c52_boundary g S ho target maxTrials h v a b
  ⟨k.1, k.2.2⟩

/-- the hypotheses of the theorems above are met by that run, and by every run in exact arithmetic on a tetrahedron -/
example : ∃ (m m' : Mesh Rat), m.Good ∧ (∀ n l, ∀ c ∈ (fun (_ : Nat) (l : List (Nat × Vec3 Rat)) => l) n l, c ∈ l) ∧
    simplifyQEM midSolver (fun _ => id) 17 1 m = .ok () m' ∧ m'.fs.length < m.fs.length := by
  obtain ⟨m, m', g, -, e, -, h1, h2⟩ := c54_counterexample
  exact ⟨m, m', g, fun _ _ _ h => h, e, by omega⟩

example (maxTrials : Int) : ∃ (m m' : Mesh XR) (target : Int), m.Good ∧ target < m.fs.length ∧
    simplifyQEM exactSolver (fun _ => List.reverse) target maxTrials m = .ok () m' ∧ m'.Good := by
  obtain ⟨m, -, G, hv, -⟩ := closedX corner_valid corner_merged corner_manifold corner_closed dbl
  obtain ⟨p, A, -⟩ := exists_at G.wf hv
  obtain ⟨t, t0, tl, ti⟩ : ∃ t : Int, t ≠ 0 ∧ t < m.fs.length ∧ (m.fs.length : Int) - t ≤ 2147483647 := by
    by_cases h : m.fs.length = 1
    · exact ⟨-1, by omega, by omega, by omega⟩
    · exact ⟨m.fs.length - 1, by omega, by omega, by omega⟩
  obtain ⟨m', e, g, -⟩ := c26_exact G (p := fun v => (p v).E) (fun v a => ⟨p v, A v a, rfl⟩) exactSolver_exact
    (ord := fun _ => List.reverse) (fun _ _ _ h => List.mem_reverse.1 h) t0 maxTrials ti
  exact ⟨m, m', t, G, tl, e, g⟩

end TinyMesh
