import Verif.Proof.Works
import Verif.Props.Session
/-
The filters of the library, alone and in programs, with any arithmetic and any solver (C109).
-/
set_option maxRecDepth 100000
namespace TinyMesh
open Sample

section
variable {F : Type} [Scalar F] {m : Mesh F}

/-- C109: on a consistent mesh `implicitFairing` always returns normally and changes only positions, for any arithmetic, any step and
whatever the solver returns. -/
theorem c109_fairing (w : m.WF) (solve : LinSolve F) (eps : F) (n : Nat) :
    ∃ m', implicitFairing solve eps n m = .ok () m' ∧ m.SameButPos m' :=
  implicitFairing_any solve eps n w

/-- C109: on a consistent mesh `denoiseL0Smooth` returns normally and changes only positions, or the exception for a division by zero stops it,
or its loop has not ended after `fuel` tests. The assertion that counts the edges never fails. -/
theorem c109_l0 (w : m.WF) (solve : LinSolve F) {order : List Nat → List Nat} (ho : ∀ l, (order l).Perm l) (fuel : Nat) (alpha beta : F) :
    (∃ m', denoiseL0Smooth solve order fuel alpha beta m = .ok () m' ∧ m.SameButPos m') ∨
      denoiseL0Smooth solve order fuel alpha beta m = .err .throw ∨ denoiseL0Smooth solve order fuel alpha beta m = .err .diverge :=
  denoiseL0_any w solve ho fuel alpha beta

end

theorem l0Loop_ends {m : Mesh XR} (wf : m.WF) {S : List Nat} (hS : ∀ h ∈ S, m.hAlive h = true) (solve : LinSolve XR) (R : Nat → Nat → XR)
    (x0 : Nat → Vec3 XR) (lambda : XR) {bmax : ℝ} : ∀ (N : Nat) (alpha : XR) (beta : ℝ) (x : Nat → Vec3 XR), bmax ≤ beta * Real.sqrt 2 ^ N →
    ∃ x', ∀ fuel, N < fuel → l0Loop solve S.length m.vs.length S R x0 lambda (XR.fin bmax) fuel alpha (XR.fin beta) x m = .ok x' m := by
  intro N
  induction N with
  | zero =>
    intro alpha beta x h2
    refine ⟨x, fun fuel hf => ?_⟩
    obtain ⟨n, rfl⟩ : ∃ n, fuel = n + 1 := ⟨fuel - 1, by omega⟩
    unfold l0Loop
    rw [pow_zero, mul_one] at h2
    rw [if_neg (by rw [X_lt, R_lt]; simpa using h2)]
    rfl
  | succ N ih =>
    intro alpha beta x h2
    by_cases c : beta < bmax
    · obtain ⟨x1, e1⟩ := l0Round_any wf hS solve R x0 x lambda alpha (XR.fin beta)
      obtain ⟨x', e2⟩ := ih (alpha * Scalar.lit 1 2) (beta * Real.sqrt 2) x1 (by rwa [pow_succ', ← mul_assoc] at h2)
      refine ⟨x', fun fuel hf => ?_⟩
      obtain ⟨n, rfl⟩ : ∃ n, fuel = n + 1 := ⟨fuel - 1, by omega⟩
      unfold l0Loop
      rw [if_pos (by rw [X_lt, R_lt]; simpa using c), bind_apply, e1]
      dsimp only
      rw [X_sqrt2, X_mul]
      exact e2 n (by omega)
    · refine ⟨x, fun fuel hf => ?_⟩
      obtain ⟨n, rfl⟩ : ∃ n, fuel = n + 1 := ⟨fuel - 1, by omega⟩
      unfold l0Loop
      rw [if_neg (by rw [X_lt, R_lt]; simpa using c)]
      rfl

/-- C109: in exact arithmetic, with finite positions and a positive `beta`, `denoiseL0Smooth` ends whatever the solver returns, and the number
of rounds depends on `beta` only. -/
theorem c109_l0_ends {beta : ℝ} (hb : 0 < beta) : ∃ N, ∀ {m : Mesh XR} {p : Nat → E3}, m.WF → m.AtE p → m.hes ≠ [] →
    ∀ (solve : LinSolve XR) {order : List Nat → List Nat}, (∀ l, (order l).Perm l) → ∀ alpha : ℝ,
      ∃ m', (∀ fuel, N < fuel → denoiseL0Smooth solve order fuel (XR.fin alpha) (XR.fin beta) m = .ok () m') ∧ m.SameButPos m' := by
  obtain ⟨N, -, h2⟩ := c58_rounds hb
  refine ⟨N, fun {m p} wf A hne solve order ho alpha => ?_⟩
  obtain ⟨S, R, x0, o, -, -, -, run⟩ := l0_start wf A hne ho
  obtain ⟨m1, e1, s1, -⟩ := taubinDefault_exact wf A
  have vs1 : m1.vs = m.vs := by rw [s1]
  have hS : ∀ h ∈ S, m1.hAlive h = true := by rw [s1]; exact o.alive
  have hl : 0 ≤ m.meanLen p := by
    unfold Mesh.meanLen
    refine div_nonneg (List.sum_nonneg fun y hy => ?_) (Nat.cast_nonneg _)
    obtain ⟨h, -, rfl⟩ := List.mem_map.1 hy
    exact dist_nonneg
  obtain ⟨x, e2⟩ := l0Loop_ends (s1.wf wf) hS solve R x0 (XR.fin (2 / 100 * m.meanLen p * m.meanLen p * m.meanAngle p))
    (bmax := 1000 * m.meanLen p) N (XR.fin (alpha * m.meanLen p)) (beta * m.meanLen p) x0 (by
      have := mul_le_mul_of_nonneg_right h2 hl
      linarith [mul_right_comm beta (m.meanLen p) (Real.sqrt 2 ^ N)])
  obtain ⟨m2, e3, s2, -⟩ := putRows_ok x (List.range m1.vs.length) (s1.wf wf) List.nodup_range (by simp)
  refine ⟨m2, fun fuel hf => ?_, s1.trans s2⟩
  rw [run, bind_apply, e1]; dsimp only
  rw [bind_apply, ← vs1, e2 fuel hf]; dsimp only
  exact e3

section
variable {F : Type} [ScalarX F] {m : Mesh F}

/-- C109: on a consistent mesh the two filters of normals return normally and change only positions, or the exception for a division by
zero stops them, or the assertion that every face is a triangle; the latter only if some face is not a triangle. -/
theorem c109_normals (w : m.WF) {o : Out F Unit}
    (ho : (∃ sg n, o = denoiseNormalGaussian sg n m) ∨ ∃ sg sn n, o = denoiseNormalBilateral sg sn n m) :
    (∃ m', o = .ok () m' ∧ m.SameButPos m') ∨ o = .err .throw ∨ o = .err .abort ∧ ∃ f, m.fAlive f = true ∧ m.sides f ≠ 3 := by
  rcases ho with ⟨sg, n, rfl⟩ | ⟨sg, sn, n, rfl⟩
  · exact gaussian_any w sg n
  · exact bilateral_any w sg sn n

/-- C109: if some face is not a triangle, the first iteration ends with the assertion or the exception, never with undefined behaviour. -/
theorem c109_hole (w : m.WF) {f : Nat} (a : m.fAlive f = true) (hf : m.sides f ≠ 3) {o : Out F Unit}
    (ho : (∃ sg n, o = denoiseNormalGaussian sg (n + 1) m) ∨ ∃ sg sn n, o = denoiseNormalBilateral sg sn (n + 1) m) :
    o = .err .throw ∨ o = .err .abort := by
  have key : ∀ m', o ≠ .ok () m' := by
    intro m'
    rcases ho with ⟨sg, n, rfl⟩ | ⟨sg, sn, n, rfl⟩
    · exact (c57_abort w a hf n m').1 sg
    · exact (c57_abort w a hf n m').2 sg sn
  rcases c109_normals w (o := o) (ho.imp (fun ⟨sg, n, h⟩ => ⟨sg, n + 1, h⟩) fun ⟨sg, sn, n, h⟩ => ⟨sg, sn, n + 1, h⟩) with ⟨m', e, -⟩ | e | ⟨e, -⟩
  · exact absurd e (key m')
  · exact .inl e
  · exact .inr e

theorem runWorks_any : ∀ (cs : List (Work F)) {m : Mesh F}, m.Good → WorkPermitted m cs →
    (∃ m', runWorks cs m = .ok () m' ∧ CallDone m m') ∨ runWorks cs m = .err .abort ∨ runWorks cs m = .err .throw ∨
      runWorks cs m = .err .diverge ∧ ∃ c ∈ cs, c.IsL0
  | [], m, g, _ => .inl ⟨m, rfl, .refl g⟩
  | c :: cs, m, g, ok => by
    rcases work_any g ok.1 with ⟨m1, e, d, -⟩ | ⟨e, he, h⟩
    · have k : runWorks (c :: cs) m = runWorks cs m1 := by rw [runWorks, bind_apply, e]
      rw [k]
      rcases runWorks_any cs d.good (ok.2 m1 e) with ⟨m2, e2, d2⟩ | h | h | ⟨h, x, hx, l⟩
      · exact .inl ⟨m2, e2, d.trans d2⟩
      · exact .inr (.inl h)
      · exact .inr (.inr (.inl h))
      · exact .inr (.inr (.inr ⟨h, x, by simp [hx], l⟩))
    · right
      rw [runWorks, bind_apply, h]
      rcases he with rfl | rfl | ⟨rfl, l⟩
      · exact .inl rfl
      · exact .inr (.inl rfl)
      · exact .inr (.inr ⟨rfl, c, by simp, l⟩)

/-- C109: a program that uses all the filters besides the edits, remeshing and simplification, in any order and with any arguments, never
reaches undefined behaviour: it ends with a consistent mesh, or an assertion or the exception for a division by zero stops it, or it is in the
loop of `denoiseL0Smooth`. The mesh that it ends with has the Euler characteristic and the connected pieces of the first one. -/
theorem c109_safe (g : m.Good) {cs : List (Work F)} (ok : WorkPermitted m cs) :
    (∃ m', runWorks cs m = .ok () m' ∧ m'.Good ∧ m'.euler2 = m.euler2 ∧ SamePieces m m' ∧ NoReuse m m') ∨
      runWorks cs m = .err .abort ∨ runWorks cs m = .err .throw ∨ runWorks cs m = .err .diverge ∧ ∃ c ∈ cs, c.IsL0 :=
  (runWorks_any cs g ok).imp_left fun ⟨m', e, d⟩ => ⟨m', e, d.good, d.euler, d.pieces.pieces g.wf, d.reuse⟩

end

/-- a program on the corner tetrahedron that denoises with a solver that returns no numbers and then fairs, which succeeds; and a longer one that
goes on with edits, remeshing and the filters of normals, which meets the hypotheses of `c109_safe` -/
example : ∃ (m m' : Mesh XR) (fuel : Nat) (cs : List (Work XR)), m.Good ∧ m.vs.length = 4 ∧
    runWorks [.l0 (fun _ _ _ _ => .nan) id fuel (.fin 1) (.fin (1 / 1000)), .fairing (fun _ _ _ _ => .nan) .nan 5] m = .ok () m' ∧ cs.length = 6 ∧
    WorkPermitted m cs := by
  obtain ⟨m0, G0, C0⟩ := corner_tables
  have A : (m0.overR cornerAt).AtE fun v => (cornerAt v).E := fun v _ => ⟨cornerAt v, rfl, rfl⟩
  have G : (m0.overR cornerAt).Good := G0.over _
  obtain ⟨N, hN⟩ := c109_l0_ends (beta := 1 / 1000) (by norm_num)
  obtain ⟨m1, e1, s1⟩ := hN G.wf A (by change m0.hes ≠ []; rw [C0.hes]; simp) (fun _ _ _ _ => .nan) (order := id) (fun _ => List.Perm.refl _) 1
  obtain ⟨m2, e2, -⟩ := c109_fairing (s1.wf G.wf) (fun _ _ _ _ => .nan) .nan 5
  refine ⟨m0.overR cornerAt, m2, N + 1, [.l0 (fun _ _ _ _ => .nan) id 1000 .nan (.fin 1), .call (.collapse 5), .gaussian (.fin 1) 2,
    .call (.remesh (fun _ _ n => List.range n) .pinf .nan .nan 3), .bilateral .nan (.fin 0) 1, .fairing exactSolve (.fin 2) 4], G, ?_, ?_, rfl, ?_⟩
  · change m0.vs.length = 4
    rw [C0.vs]; rfl
  · simp only [runWorks, Work.run]
    rw [bind_apply, e1 _ (by omega)]; dsimp only
    rw [bind_apply, e2]; rfl
  · simp [WorkPermitted, Work.Fits, Call.Fits]

/-- a square with a hole of four sides meets the hypotheses of `c109_hole` -/
example : ∃ (m : Mesh XR) (o : Out XR Unit), m.Good ∧ o = denoiseNormalGaussian (.fin 1) 3 m ∧ (o = .err .throw ∨ o = .err .abort) := by
  obtain ⟨m, h, S⟩ := squareMesh_ok
  have G : (m.overR squareAt).Good := S.good.over _
  exact ⟨m.overR squareAt, _, G, rfl, c109_hole G.wf (f := 3) S.alive
    (by change m.sides 3 ≠ 3; rw [S.sides]; omega) (.inl ⟨_, 2, rfl⟩)⟩

end TinyMesh
