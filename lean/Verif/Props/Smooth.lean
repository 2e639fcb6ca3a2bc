import Verif.Proof.SmoothC
import Verif.Proof.SmoothD
import Verif.Props.Construct
import Verif.Spec.Sample2
import Verif.Spec.SampleX
/-
Smoothing (C27, C28, C29).
-/
set_option maxRecDepth 100000
namespace TinyMesh
open Sample
attribute [local instance] Sample.ratScalar

section
variable {F : Type} [Scalar F]

/-- what C27 asks of the outcome of a filter: it throws (division by zero), or it ends normally, and then it has changed nothing but
positions, and no position of a boundary or locked vertex -/
def KeepsPinned (m : Mesh F) (o : Out F Unit) : Prop :=
  o = .err .throw ∨ ∃ m', o = .ok () m' ∧ m.SameButPos m' ∧ ∀ v, m.Pinned v → m'.vPos v = m.vPos v

theorem moved_pinned {m : Mesh F} (w : m.WF) (eps : F) (c : Nat → Vec3 F) {v : Nat} (h : m.Pinned v) : moved m eps c v = m.vPos v := by
  unfold moved
  split
  · next h' =>
    have := (pinB_iff w h'.1).2 h
    rw [h'.2] at this; cases this
  · rfl

theorem KeepsPinned.ok {m m' : Mesh F} {o : Out F Unit} (h : KeepsPinned m o) (ho : o = .ok () m') :
    ∀ v, m.Pinned v → m'.vPos v = m.vPos v := by
  subst ho
  rcases h with h | ⟨m2, h, -, hp⟩
  · cases h
  · cases h; exact hp

theorem KeepsPinned.pure {m : Mesh F} : KeepsPinned m ((Pure.pure () : M F Unit) m) :=
  Or.inr ⟨m, rfl, rfl, fun _ _ => rfl⟩

theorem KeepsPinned.bind {m : Mesh F} {x y : M F Unit} (hx : KeepsPinned m (x m))
    (hy : ∀ m', m.SameButPos m' → KeepsPinned m' (y m')) : KeepsPinned m ((x >>= fun _ => y) m) := by
  rw [bind_apply]
  rcases hx with h | ⟨m1, h, s, hp⟩
  · rw [h]; exact Or.inl rfl
  · rw [h]
    rcases hy m1 s with h' | ⟨m2, h', s', hp'⟩
    · exact Or.inl h'
    · exact Or.inr ⟨m2, h', s.trans s', fun v hv => (hp' v ((s.pinned v).2 hv)).trans (hp v hv)⟩

theorem lapSweep_keeps {m : Mesh F} (w : m.WF) (eps : F) (cotan : Bool) : KeepsPinned m (lapSweep eps cotan m) := by
  rcases lapSweep_run w eps cotan with ⟨c, -, h⟩ | ⟨-, h⟩
  · exact Or.inr ⟨_, h, rfl, fun v hv => moved_pinned w eps c hv⟩
  · exact Or.inl h

theorem tauSweep_keeps {m : Mesh F} (w : m.WF) (eps : F) : KeepsPinned m (tauSweep eps m) := by
  rcases tauSweep_run w eps with ⟨c, -, h⟩ | ⟨-, h⟩
  · exact Or.inr ⟨_, h, rfl, fun v hv => moved_pinned w eps c hv⟩
  · exact Or.inl h

theorem tauLoop_keeps (a b : F) : ∀ (n it : Nat) {m : Mesh F}, m.WF → KeepsPinned m (tauLoop a b it n m)
  | 0, _, _, _ => .pure
  | n + 1, it, _, w => KeepsPinned.bind (tauSweep_keeps w _) fun _ s => tauLoop_keeps a b n (it + 1) (s.wf w)

/-- C27: on a consistent mesh `smoothLaplacian` changes nothing but positions and leaves boundary and locked vertices exactly where
they are, whatever the step size, the weights, the number of iterations and the floating point semantics. The only other
outcome is the exception for a division by a zero sum of weights. -/
theorem c27_laplacian (eps : F) (cotan : Bool) : ∀ (n : Nat) {m : Mesh F}, m.WF →
    KeepsPinned m (smoothLaplacian eps cotan n m)
  | 0, _, _ => .pure
  | n + 1, _, w => KeepsPinned.bind (lapSweep_keeps w eps cotan) fun _ s => c27_laplacian eps cotan n (s.wf w)

/-- C27: the same for `smoothTaubin`, as long as twice the number of iterations fits into `int`. -/
theorem c27_taubin (shrink inflate : F) {n : Nat} (hn : 2 * n ≤ 2147483647) {m : Mesh F} (w : m.WF) :
    KeepsPinned m (smoothTaubin shrink inflate n m) := by
  unfold smoothTaubin
  rw [if_pos hn]
  exact tauLoop_keeps _ _ _ _ w

/-- C27: for larger iteration counts `iterations * 2` overflows. -/
theorem c27_taubin_overflow (shrink inflate : F) {n : Nat} (hn : 2147483647 < 2 * n) (m : Mesh F) :
    smoothTaubin shrink inflate n m = .err .ub := by
  unfold smoothTaubin
  rw [if_neg (by omega)]; rfl

end

/-- a patch with two inner vertices, one of them locked: smoothing moves the other one, and nothing else -/
example : ∃ m0 m m' : Mesh Rat, construct patV patI fresh = .ok () m0 ∧ m = { m0 with vLock := upd m0.vLock 4 true } ∧ m.WF ∧
    smoothLaplacian (1 / 2) false 1 m = .ok () m' ∧ m'.vPos 3 ≠ m.vPos 3 ∧ m.Pinned 4 ∧ m'.vPos 4 = m.vPos 4 ∧
    m.AtBoundary 1 ∧ m'.vPos 1 = m.vPos 1 := by
  obtain ⟨_, m0, b, m', h1, h2, h3⟩ := thenSt_iff (o := construct patV patI fresh)
    (f := fun m => smoothLaplacian (1 / 2) false 1 { m with vLock := upd m.vLock 4 true })
    (p := fun m _ m' => !(m'.vPos 3).eq (m.vPos 3) && m.hes.any fun h => m.hSrc h == 1 && m.hBd h) (by decide +kernel)
  have w := (c01_construct_consistent (Owned.empty dbl) h1).wf
  have w' : ({ m0 with vLock := upd m0.vLock 4 true } : Mesh Rat).WF :=
    ⟨w.hDense, w.vDense, w.fDense, w.hBound, w.vBound, w.fBound, w.next_alive, w.rev_alive, w.src_alive, w.face_alive,
      w.rev_rev, w.rev_ne, w.src_rev, w.next_inj, w.face_next, w.fHe_ok, w.vHe_ok, w.face_conn, w.ring_conn⟩
  simp only [Bool.and_eq_true, Bool.not_eq_true', List.any_eq_true, beq_iff_eq] at h3
  obtain ⟨h3, x, hx, hs, hb⟩ := h3
  have hp := (c27_laplacian (1 / 2 : Rat) false 1 w').ok h2
  have hb : ({ m0 with vLock := upd m0.vLock 4 true } : Mesh Rat).AtBoundary 1 := ⟨x, (w.hDense.mem x).1 hx, hs, hb⟩
  have hl : ({ m0 with vLock := upd m0.vLock 4 true } : Mesh Rat).Pinned 4 := Or.inr (upd_same m0.vLock 4 true)
  refine ⟨m0, { m0 with vLock := upd m0.vLock 4 true }, m', h1, rfl, w', h2, ?_, hl, hp 4 hl, hb, hp 1 (Or.inl hb)⟩
  intro h
  have h : m'.vPos 3 = m0.vPos 3 := h
  rw [h, rat_eq] at h3; cases h3

/-! ### C28 -/

section
variable {F : Type}

/-- C28: the parallel loops of one iteration of `smoothLaplacian` have no data race, and every execution of them, with any choice of
the next memory access at any time, ends after boundedly many accesses with the outcome of the sequential loops. -/
theorem c28_laplacian_loops [Scalar F] {m : Mesh F} (w : m.WF) (eps : F) (cotan : Bool) (s : Loc → F) :
    LoopsDeterministic (lapLoops eps cotan m) s := (lapLoops_free w eps cotan).deterministic s

/-- C28: the same for `smoothTaubin`. -/
theorem c28_taubin_loops [Scalar F] {m : Mesh F} (w : m.WF) (eps : F) (s : Loc → F) : LoopsDeterministic (tauLoops eps m) s :=
  (tauLoops_free w eps).deterministic s

/-- C28: the same for the two denoising filters. -/
theorem c28_denoise_loops [ScalarX F] {m : Mesh F} (w : m.WF) (bil : Bool) (sg sn : F) (s : Loc → F) :
    LoopsDeterministic (dnLoops bil sg sn m) s := (dnLoops_free w bil sg sn).deterministic s

/-- C28: the meshes that parallel executions of `smoothLaplacian` can end with are exactly the result of the sequential program. -/
theorem c28_laplacian [Scalar F] {m : Mesh F} (w : m.WF) (eps : F) (cotan : Bool) (n : Nat) (m' : Mesh F) :
    ParRuns (lapRuns eps cotan n) m m' ↔ smoothLaplacian eps cotan n m = .ok () m' := parLaps_iff eps cotan m' n w

/-- C28: the same for `smoothTaubin`. -/
theorem c28_taubin [Scalar F] {m : Mesh F} (w : m.WF) (shrink inflate : F) {n : Nat} (hn : 2 * n ≤ 2147483647) (m' : Mesh F) :
    ParRuns (tauRuns shrink inflate 0 (2 * n)) m m' ↔ smoothTaubin shrink inflate n m = .ok () m' := by
  rw [parTaus_iff _ _ _ _ _ w, smoothTaubin, if_pos hn]

/-- C28: the same for `denoiseNormalGaussian` and `denoiseNormalBilateral`; `avg` is the mean edge length they compute first. -/
theorem c28_denoise [ScalarX F] {m : Mesh F} (w : m.WF) (sg sn : F) (n : Nat) (m' : Mesh F) :
    ∃ avg, meanEdgeLength m = .ok avg m ∧
      (ParRuns (dnRuns false (sg * avg) sg n) m m' ↔ denoiseNormalGaussian sg n m = .ok () m') ∧
      (ParRuns (dnRuns true (sg * avg) sn n) m m' ↔ denoiseNormalBilateral sg sn n m = .ok () m') := by
  obtain ⟨avg, ha⟩ := meanEdgeLength_ok w
  refine ⟨avg, ha, ?_, ?_⟩
  · rw [parDns_iff _ _ _ _ _ w, denoiseNormalGaussian, bind_apply, ha]
  · rw [parDns_iff _ _ _ _ _ w, denoiseNormalBilateral, bind_apply, ha]

end

/-- a schedule that differs from the sequential one: two iterations that take turns -/
example : ∃ (body : Nat → Prog Nat Int Unit) (q : Pool Nat Int), Deterministic 2 body (fun _ => 0) ∧
    Pool.Steps 2 4 ⟨fun _ => 0, body⟩ q ∧ q.Done 2 ∧ q.mem 0 = 7 ∧ q.mem 1 = 7 := by
  let body : Nat → Prog Nat Int Unit := fun i => .rd 5 fun x => .wr i (x + 7) (.ret ())
  have r : RaceFree 2 body (fun _ l => l = 5) (fun i l => l = i) :=
    ⟨fun i _ => ⟨rfl, fun _ => ⟨rfl, trivial⟩⟩, by intro i hi j hj hij l hl h; omega⟩
  refine ⟨body, _, r.deterministic _, .tail (.tail (.tail (.tail (.refl _) (.load (i := 0) (by omega) rfl))
    (.load (i := 1) (by omega) rfl)) (.store (i := 1) (by omega) rfl)) (.store (i := 0) (by omega) rfl), ?_, rfl, rfl⟩
  intro i hi
  have : i = 0 ∨ i = 1 := by omega
  rcases this with rfl | rfl <;> rfl

/-! ### C29 -/

/-- C29: what uniform smoothing computes in exact arithmetic: each iteration moves every vertex that is neither at the boundary nor
locked the fraction `eps` of the way to the mean of its neighbours, all at once. It never throws. -/
theorem c29_laplacian_formula {m : Mesh XR} (w : m.WF) {p : Nat → E3} (A : m.AtE p) (eps : ℝ) (n : Nat) :
    ∃ m', smoothLaplacian (XR.fin eps) false n m = .ok () m' ∧ m.SameButPos m' ∧ m'.AtE ((m.average eps)^[n] p) :=
  smoothLaplacian_exact eps n w A

/-- C29: the same for `smoothTaubin`: two steps per iteration, one with `shrink` and one with `-inflate`. -/
theorem c29_taubin_formula {m : Mesh XR} (w : m.WF) {p : Nat → E3} (A : m.AtE p) (shrink inflate : ℝ) {n : Nat}
    (hn : 2 * n ≤ 2147483647) :
    ∃ m', smoothTaubin (XR.fin shrink) (XR.fin inflate) n m = .ok () m' ∧ m.SameButPos m' ∧
      m'.AtE (m.taubin shrink inflate 0 (2 * n) p) := by
  unfold smoothTaubin
  rw [if_pos hn]
  exact tauLoop_exact shrink inflate _ _ w A

/-- C29: uniform smoothing with a step size in [0, 1] never leaves a convex set that contains all vertices. -/
theorem c29_convex {m : Mesh XR} (w : m.WF) {p : Nat → E3} (A : m.AtE p) {eps : ℝ} (h0 : 0 ≤ eps) (h1 : eps ≤ 1) (n : Nat)
    {C : Set E3} (hC : Convex ℝ C) (hp : ∀ v, m.vAlive v = true → p v ∈ C) :
    ∃ m' p', smoothLaplacian (XR.fin eps) false n m = .ok () m' ∧ m'.AtE p' ∧ ∀ v, m'.vAlive v = true → p' v ∈ C := by
  obtain ⟨m', h, s, A'⟩ := smoothLaplacian_exact eps n w A
  refine ⟨m', _, h, A', fun v a => average_iter_convex w hC h0 h1 n p hp v ?_⟩
  rw [s] at a; exact a

/-- C29: uniform smoothing with a step size in [0, 1] never leaves the bounding box. -/
theorem c29_box {m : Mesh XR} (w : m.WF) {p : Nat → E3} (A : m.AtE p) {eps : ℝ} (h0 : 0 ≤ eps) (h1 : eps ≤ 1) (n : Nat) {lo hi : E3}
    (hp : ∀ v, m.vAlive v = true → ∀ i, lo i ≤ p v i ∧ p v i ≤ hi i) :
    ∃ m' p', smoothLaplacian (XR.fin eps) false n m = .ok () m' ∧ m'.AtE p' ∧
      ∀ v, m'.vAlive v = true → ∀ i, lo i ≤ p' v i ∧ p' v i ≤ hi i := by
  refine c29_convex w A h0 h1 n (C := {x : E3 | ∀ i, lo i ≤ x i ∧ x i ≤ hi i}) ?_ hp
  intro x hx y hy a b ha hb hab i
  have h1 := hx i
  have h2 := hy i
  have hb' : b = 1 - a := by linarith
  subst hb'
  simp only [PiLp.add_apply, PiLp.smul_apply, smul_eq_mul]
  constructor <;> nlinarith

/-- C29: uniform smoothing commutes with every affine map, in particular with translations: if the positions of `m2` are the images
of those of `m1`, the same holds for the results. -/
theorem c29_affine {m1 m2 : Mesh XR} (w : m1.WF) (s : m1.SameButPos m2) {p : Nat → E3} (f : E3 →ᵃ[ℝ] E3) (A1 : m1.AtE p)
    (A2 : m2.AtE fun v => f (p v)) (eps : ℝ) (n : Nat) :
    ∃ m1' m2' p', smoothLaplacian (XR.fin eps) false n m1 = .ok () m1' ∧ smoothLaplacian (XR.fin eps) false n m2 = .ok () m2' ∧
      m1'.AtE p' ∧ m2'.AtE fun v => f (p' v) := by
  obtain ⟨m1', h1, s1, B1⟩ := smoothLaplacian_exact eps n w A1
  obtain ⟨m2', h2, s2, B2⟩ := smoothLaplacian_exact eps n (s.wf w) A2
  refine ⟨m1', m2', _, h1, h2, B1, fun v a => ?_⟩
  have a1 : m1.vAlive v = true := by rw [s.trans s2] at a; exact a
  dsimp only
  rw [← average_iter_affine w f eps n p (fun v => f (p v)) (fun _ _ => rfl) v a1]
  have : m2.average eps = m1.average eps := funext fun q => s.average eps q
  have h := B2 v a
  rwa [this] at h

/-- C29: Taubin smoothing commutes with every affine map. -/
theorem c29_taubin_affine {m1 m2 : Mesh XR} (w : m1.WF) (s : m1.SameButPos m2) {p : Nat → E3} (f : E3 →ᵃ[ℝ] E3) (A1 : m1.AtE p)
    (A2 : m2.AtE fun v => f (p v)) (shrink inflate : ℝ) {n : Nat} (hn : 2 * n ≤ 2147483647) :
    ∃ m1' m2' p', smoothTaubin (XR.fin shrink) (XR.fin inflate) n m1 = .ok () m1' ∧
      smoothTaubin (XR.fin shrink) (XR.fin inflate) n m2 = .ok () m2' ∧ m1'.AtE p' ∧ m2'.AtE fun v => f (p' v) := by
  obtain ⟨m1', h1, s1, B1⟩ := c29_taubin_formula w A1 shrink inflate hn
  obtain ⟨m2', h2, s2, B2⟩ := c29_taubin_formula (s.wf w) A2 shrink inflate hn
  refine ⟨m1', m2', _, h1, h2, B1, fun v a => ?_⟩
  have a1 : m1.vAlive v = true := by rw [s.trans s2] at a; exact a
  dsimp only
  rw [← taubin_affine w f shrink inflate _ _ p (fun v => f (p v)) (fun _ _ => rfl) v a1]
  have h := B2 v a
  rwa [s.taubin] at h

/-- C29: the translation of a mesh, as an affine map -/
example {m1 m2 : Mesh XR} (w : m1.WF) (s : m1.SameButPos m2) {p : Nat → E3} (t : E3) (A1 : m1.AtE p)
    (A2 : m2.AtE fun v => p v + t) (eps : ℝ) (n : Nat) :
    ∃ m1' m2' p', smoothLaplacian (XR.fin eps) false n m1 = .ok () m1' ∧ smoothLaplacian (XR.fin eps) false n m2 = .ok () m2' ∧
      m1'.AtE p' ∧ m2'.AtE fun v => p' v + t := by
  have := c29_affine w s ((AffineEquiv.constVAdd ℝ E3 t).toAffineMap) A1 (fun v a => by simpa [add_comm] using A2 v a) eps n
  obtain ⟨m1', m2', p', h1, h2, h3, h4⟩ := this
  exact ⟨m1', m2', p', h1, h2, h3, fun v a => by simpa [add_comm] using h4 v a⟩

/-- C29: without the bound on the step size the box is left: one step of size 2 on a tetrahedron with coordinates in [0, 1] -/
theorem c29_step_needed : ∃ m m' : Mesh Rat, construct tetV tetI fresh = .ok () m ∧ m.Good ∧
    (∀ v, m.vAlive v = true → 0 ≤ (m.vPos v).z) ∧ smoothLaplacian 2 false 1 m = .ok () m' ∧
    ∃ v, m'.vAlive v = true ∧ (m'.vPos v).z < 0 := by
  obtain ⟨_, m, b, m', h1, h2, h3⟩ := thenSt_iff (o := construct tetV tetI fresh) (f := smoothLaplacian 2 false 1)
    (p := fun m _ m' => (m.vs.all fun v => decide (0 ≤ (m.vPos v).z)) && (m'.vAlive 4 && decide ((m'.vPos 4).z < 0)))
    (by decide +kernel)
  simp only [Bool.and_eq_true, decide_eq_true_eq, List.all_eq_true] at h3
  have G := c01_construct_consistent (Owned.empty dbl) h1
  exact ⟨m, m', h1, G, fun v a => h3.1 v ((G.wf.vDense.mem v).2 a), h2, 4, h3.2.1, h3.2.2⟩

/-- a closed mesh with exact coordinates: the corner tetrahedron -/
example : ∃ (m : Mesh XR) (p : Nat → E3), m.WF ∧ m.AtE p ∧ m.vs.length = 4 ∧
    ∀ v, m.vAlive v = true → ∀ i, 0 ≤ p v i ∧ p v i ≤ 1 := by
  obtain ⟨m, -, G, hv, -⟩ := closedX corner_valid corner_merged corner_manifold corner_closed dbl
  obtain ⟨p, A, hp⟩ := exists_at G.wf hv
  refine ⟨m, fun v => (p v).E, G.wf, fun v a => ⟨p v, A v a, rfl⟩, ?_, ?_⟩
  · have := congrArg List.length hv
    simpa [cornerV] using this
  · intro v a i
    dsimp only
    have : p v ∈ cornerV.map Vec3.toR := by rw [← hp]; exact List.mem_map_of_mem ((G.wf.vDense.mem v).2 a)
    simp only [cornerV, List.map_cons, List.map_nil, List.mem_cons, List.not_mem_nil, or_false] at this
    rcases this with h | h | h | h <;> rw [h] <;> fin_cases i <;> simp [Vec3.toR, Vec3.E, pt]

end TinyMesh
