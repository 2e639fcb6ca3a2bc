import Verif.Proof.Session
/-
Programs that work on a mesh with edits, filters, remeshing and simplification in any order (C108).
-/
set_option maxRecDepth 100000
namespace TinyMesh
open Sample
attribute [local instance] Sample.ratScalar

section
variable {F : Type} [Scalar F]

theorem runCalls_any : ∀ (cs : List (Call F)) {m : Mesh F}, m.Good → Permitted m cs →
    (∃ m', runCalls cs m = .ok () m' ∧ CallDone m m') ∨ runCalls cs m = .err .abort ∨ runCalls cs m = .err .throw
  | [], m, g, _ => .inl ⟨m, rfl, .refl g⟩
  | c :: cs, m, g, ok => by
    rcases call_any g ok.1 with ⟨m1, e, d, -⟩ | ⟨e, he, h⟩
    · rcases runCalls_any cs d.good (ok.2 m1 e) with ⟨m2, e2, d2⟩ | h
      · exact .inl ⟨m2, by rw [runCalls, bind_apply, e]; exact e2, d.trans d2⟩
      · exact .inr (by rw [runCalls, bind_apply, e]; exact h)
    · right
      rw [runCalls, bind_apply, h]
      rcases he with rfl | rfl
      · exact .inl rfl
      · exact .inr rfl

/-- C108: a program that makes edits, moves, locks and unlocks vertices, smooths, remeshes and simplifies, in any order, with any arguments
(indices out of range, thresholds and positions that are not numbers), any arithmetic, any shuffles, any order of the queues and any linear solver,
never reaches undefined behaviour and never loops for ever: it ends with a consistent mesh, or an assertion or the exception for a division by zero
stops it. A mesh that it ends with has the Euler characteristic and the connected pieces of the first one, and no element of it lies
where an element had been freed. -/
theorem c108_safe {m : Mesh F} (g : m.Good) {cs : List (Call F)} (ok : Permitted m cs) :
    (∃ m', runCalls cs m = .ok () m' ∧ m'.Good ∧ m'.euler2 = m.euler2 ∧ SamePieces m m' ∧ NoReuse m m') ∨
      runCalls cs m = .err .abort ∨ runCalls cs m = .err .throw :=
  (runCalls_any cs g ok).imp_left fun ⟨m', e, d⟩ => ⟨m', e, d.good, d.euler, d.pieces.pieces g.wf, d.reuse⟩

/-- C108: the same for a program that first builds the mesh from a list of triangles that the library accepts. -/
theorem c108_built {m0 m : Mesh F} (O : Owned m0) {V : List (Vec3 F)} {I : List Nat} (hc : construct V I m0 = .ok () m) {cs : List (Call F)}
    (ok : Permitted m cs) : (∃ m', (construct V I >>= fun _ => runCalls cs) m0 = .ok () m' ∧ m'.Good ∧ SamePieces m m') ∨
      (construct V I >>= fun _ => runCalls cs) m0 = .err .abort ∨ (construct V I >>= fun _ => runCalls cs) m0 = .err .throw := by
  rw [bind_apply, hc]
  exact (c108_safe (c01_construct_consistent O hc) ok).imp_left fun ⟨m', e, g, _, s, _⟩ => ⟨m', e, g, s⟩

end

theorem runCalls_exact : ∀ (cs : List (Call XR)) {m : Mesh XR}, m.Good → FinPos m → Careful m cs →
    ∃ m', runCalls cs m = .ok () m' ∧ CallDone m m' ∧ FinPos m'
  | [], m, g, j, _ => ⟨m, rfl, .refl g, j⟩
  | c :: cs, m, g, j, ok => by
    obtain ⟨m1, e, d, j1⟩ := call_exact g j ok.1.1 ok.1.2
    obtain ⟨m2, e2, d2, j2⟩ := runCalls_exact cs d.good j1 (ok.2 m1 e)
    exact ⟨m2, by rw [runCalls, bind_apply, e]; exact e2, d.trans d2, j2⟩

/-- C108: in exact arithmetic, with finite positions, indices in range, uniform weights, an exact solver and targets other than zero, such a
program always succeeds, and `verify` accepts the result. -/
theorem c108_exact {m : Mesh XR} (g : m.Good) {p : Nat → E3} (A : m.AtE p) {cs : List (Call XR)} (ok : Careful m cs) :
    ∃ m' p', runCalls cs m = .ok () m' ∧ m'.Good ∧ m'.AtE p' ∧ verify m' = .ok true m' ∧ m'.euler2 = m.euler2 ∧ SamePieces m m' := by
  obtain ⟨m', e, d, p', A'⟩ := runCalls_exact cs g ⟨p, A⟩ ok
  refine ⟨m', p', e, d.good, A', ?_, d.euler, d.pieces.pieces g.wf⟩
  rw [d.good.wf.verify_ok, List.all_eq_true.2 fun v hv => ?_]
  obtain ⟨w, hw, -⟩ := A' v ((d.good.wf.vDense.mem v).1 hv)
  rw [hw]
  simp [Vec3.finite, Vec3.fin]

/-- C108: closing the holes at the end also succeeds: the result consists of triangles, has no hole, and `verify` accepts it. -/
theorem c108_close {m : Mesh XR} (g : m.Good) {p : Nat → E3} (A : m.AtE p) {cs : List (Call XR)} (ok : Careful m cs) :
    ∃ m1 m', runCalls cs m = .ok () m1 ∧ fillHoles m1 = .ok () m' ∧ HolesFilled m1 m' ∧ verify m' = .ok true m' ∧ SamePieces m1 m' := by
  obtain ⟨m1, p1, e, g1, A1, v1, -, s⟩ := c108_exact g A ok
  have h1 : ∀ v, m1.vAlive v = true → ∃ w : Vec3 ℝ, m1.vPos v = w.fin := fun v a => by
    obtain ⟨w, hw, -⟩ := A1 v a
    exact ⟨w, hw⟩
  haveI : Nonempty (Vec3 ℝ) := ⟨Vec3.zero⟩
  choose! q hq using h1
  obtain ⟨m', e', H⟩ := c21_fill_exact g1 (p := q) hq
  refine ⟨m1, m', e, e', H, ?_, c97_fill g1 e'⟩
  rw [H.consistent.verify_ok, H.vs, H.vPos]
  rw [g1.wf.verify_ok] at v1
  injection v1 with v1 _
  rw [v1]

/-- C108 needs the condition on flips: without it the program may go on with a mesh that is no longer consistent. -/
theorem c108_flip_needed : ∃ (m m' : Mesh Rat) (i : Int), construct wingV wingI fresh = .ok () m ∧ m.Good ∧ 0 ≤ i ∧ i < m.hes.length ∧
    runCalls [.flip i] m = .ok () m' ∧ ¬ m'.WF := by
  obtain ⟨m, m', h1, g, a, e, n⟩ := c14_counterexample
  obtain ⟨k, hk, e'⟩ := List.getElem_of_mem ((g.wf.hDense.mem 1).2 a)
  refine ⟨m, m', (k : Int), h1, g, by omega, by omega, ?_, n⟩
  simp only [runCalls, Call.run]
  rw [bind_apply, bind_apply, halfedgeAt_ok hk, e']
  dsimp only
  rw [bind_apply, e]
  rfl

/-- a program on a patch: a vertex is locked, smoothing, a split, a vertex is moved, a collapse; with an index that is out of range the program
is stopped -/
example : ∃ (m m' : Mesh Rat) (cs : List (Call Rat)), construct patV patI fresh = .ok () m ∧ m.Good ∧ Permitted m cs ∧ cs.length = 5 ∧
    runCalls cs m = .ok () m' ∧ m.vs.length = 13 ∧ m'.vs.length = 14 ∧ runCalls [.lock 0 true, .split 1000] m = .err .abort := by
  obtain ⟨_, m, b, m', h1, h2, h3⟩ := thenSt_iff (o := construct patV patI fresh)
    (f := runCalls [.lock 0 true, .laplacian (1 / 2) false 1, .split 0, .place 3 ⟨1, 2, 3⟩, .collapse 8])
    (p := fun m _ m' => decide (m.vs.length = 13 ∧ m'.vs.length = 14 ∧ m.hes.length ≤ 1000)) (by decide +kernel)
  obtain ⟨n1, n2, n3⟩ := of_decide_eq_true h3
  have g := c01_construct_consistent (Owned.empty dbl) h1
  refine ⟨m, m', _, h1, g, ?_, rfl, h2, n1, n2, ?_⟩
  · simp [Permitted, Call.Fits]
  · obtain ⟨v, e, a⟩ := (vertexAt_cases m 0).resolve_left fun h => h.2 ⟨by omega, by omega⟩
    have e1 : (Call.lock 0 true).run m = .ok () { m with vLock := upd m.vLock v true } := by
      simp only [Call.run]
      rw [bind_apply, e]
      simp [setLock, (g.wf.vDense.mem v).1 a]
    rw [runCalls, bind_apply, e1]
    dsimp only
    rcases halfedgeAt_cases { m with vLock := upd m.vLock v true } 1000 with ⟨h, -⟩ | ⟨h, -, -, -, h4⟩
    · rw [runCalls, bind_apply]
      simp only [Call.run]
      rw [bind_apply, h]
    · rw [List.getElem?_eq_none (by simpa using n3)] at h4; cases h4

/-- a program in exact arithmetic: smoothing, simplification, remeshing and locking -/
example : ∃ (m m' : Mesh XR) (p : Nat → E3) (cs : List (Call XR)), m.Good ∧ m.AtE p ∧ Careful m cs ∧ cs.length = 4 ∧ runCalls cs m = .ok () m' := by
  obtain ⟨m, -, G, hv, -⟩ := closedX corner_valid corner_merged corner_manifold corner_closed dbl
  obtain ⟨p, A, -⟩ := exists_at G.wf hv
  have A' : m.AtE fun v => (p v).E := fun v a => ⟨p v, A v a, rfl⟩
  obtain ⟨t, t0, ti⟩ : ∃ t : Int, t ≠ 0 ∧ (m.fs.length : Int) - t ≤ 2147483647 := by
    by_cases h : m.fs.length = 1
    · exact ⟨-1, by omega, by omega⟩
    · exact ⟨m.fs.length - 1, by omega, by omega⟩
  have c : Careful m [.laplacian (XR.fin (1 / 2)) false 2, .simplify exactSolver (fun _ => List.reverse) t 5,
      .remesh (fun _ _ n => List.range n) (XR.fin (4 / 5)) (XR.fin (4 / 3)) (XR.fin 1) 3, .taubin (XR.fin (1 / 2)) (XR.fin (53 / 100)) 3] := by
    refine ⟨⟨trivial, ⟨_, rfl⟩, rfl⟩, fun m1 e1 => ⟨⟨⟨?_, fun _ _ _ h => List.mem_reverse.1 h⟩, exactSolver_exact, t0⟩, fun m2 _ =>
      ⟨⟨trivial, trivial⟩, fun m3 _ => ⟨⟨by simp [Call.Fits], ⟨_, rfl⟩, _, rfl⟩, fun _ _ => trivial⟩⟩⟩⟩
    obtain ⟨m1', e, s, -⟩ := c29_laplacian_formula G.wf A' (1 / 2) 2
    have : m1' = m1 := by
      have := e1.symm.trans (show (Call.laplacian (XR.fin (1 / 2)) false 2).run m = _ from e)
      cases this; rfl
    rw [← this, s]
    exact ti
  obtain ⟨m', _, e, -⟩ := c108_exact G A' c
  exact ⟨m, m', _, _, G, A', c, rfl, e⟩

end TinyMesh
