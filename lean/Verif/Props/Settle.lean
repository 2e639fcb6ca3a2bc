import Verif.Proof.SettleI
import Verif.Props.Front
import Verif.Props.Lines
/-
Moving the new vertices after the front (C79, C80, C81, C82).
-/
set_option maxRecDepth 100000
namespace TinyMesh
open Orbit
open Sample

/-! ### C79: what is moved -/

/-- C79: the vertices that are moved are those that can be reached from the last triangle through vertices that are not locked. -/
theorem c79_inside {F : Type} [ScalarX F] {m : Mesh F} (w : m.WF) {f : Nat} (a : m.fAlive f = true) (s3 : m.sides f = 3) :
    ∃ l, settleInside f m = .ok l m ∧ l.Nodup ∧ ∀ v, v ∈ l ↔ m.Inside f v := settleInside_ok w a s3

/-- C79: whenever the function returns, the hole is closed with triangles, and after the front only vertices inside have moved; all of them are new.
Nothing is assumed about the arithmetic, the solver, or the order in which sets are visited. -/
theorem c79_filled {F : Type} [ScalarX F] {m m' : Mesh F} {f : Nat} (w : m.WF) (H : m.SimpleHole f) {ord : List Nat → List Nat} (ho : ∀ l, (ord l).Perm l)
    {solve : LinSolve F} {fuel : Nat} (e : holeFillFront ord solve fuel f m = .ok () m') :
    m.Filled m' f ∧ ∃ m1, advancingFront fuel f m = .ok () m1 ∧ m.Filled m1 f ∧ m' = { m1 with vPos := m'.vPos } ∧
      (∀ v, ¬ m1.Inside f v → m'.vPos v = m1.vPos v) ∧ ∀ v, m1.Inside f v → m.vAlive v = false := by
  unfold holeFillFront at e
  rw [bind_apply] at e
  cases k : advancingFront fuel f m with
  | err x => rw [k] at e; cases e
  | ok u m1 =>
    cases u
    rw [k] at e
    have R := c75_filled_partial w H k
    obtain ⟨l, e0, h1, h2⟩ := settle_frame e
    obtain ⟨l', e1, -, hl⟩ := settleInside_ok R.wf R.last.1 R.last.2
    rw [e0] at e1
    injection e1 with e1 _
    subst e1
    have still : ∀ v, ¬ m1.Inside f v → m'.vPos v = m1.vPos v := fun v hv => h2 v fun c => hv ((hl v).1 ((ho l).mem_iff.1 c))
    have new : ∀ v, m1.Inside f v → m.vAlive v = false := fun v i => R.inside_new w i
    refine ⟨?_, m1, rfl, R, h1, still, new⟩
    rw [h1]
    refine R.move _ fun v a => still v fun i => ?_
    rw [new v i] at a
    cases a

/-- C79: with finite positions the function never runs into undefined behaviour and no assertion fails, whatever the solver returns: it returns, it
throws an exception, or the front goes on for more than `fuel` rounds. -/
theorem c79_outcome {m : Mesh XR} {f : Nat} (w : m.WF) (H : m.SimpleHole f) {p : Nat → E3} (A : m.AtE p) {ord : List Nat → List Nat} (ho : ∀ l, (ord l).Perm l)
    (solve : LinSolve XR) (fuel : Nat) :
    (∃ m', holeFillFront ord solve fuel f m = .ok () m' ∧ m.Filled m' f) ∨ holeFillFront ord solve fuel f m = .err .throw ∨
      holeFillFront ord solve fuel f m = .err .diverge := by
  rcases advancingFront_out w H (P := fun m => ∃ p, m.AtE p) ⟨p, A⟩ (fun avg m1 m2 h I _ s => FrontStep.finite h I.wf I.af s) fuel with
    ⟨m1, I, ⟨q, Q⟩, n3, k⟩ | ⟨avg, e', m1, _, I, A1, k, d⟩
  · have R := c75_filled_partial w H k
    have A2 : (m1.lastMesh f).AtE q := Q
    obtain ⟨vs, -, -, out⟩ := settle_exact R.wf A2 R.last.1 R.last.2 (fun h a i => R.inside_tri w i a) ho
    obtain ⟨o1, o2, -⟩ := out solve
    have run : holeFillFront ord solve fuel f m = settle ord solve f (m1.lastMesh f) := by
      unfold holeFillFront
      rw [bind_apply, k]
    by_cases c : (m1.lastMesh f).SettleFails q vs
    · exact .inr (.inl (run.trans (o1 c)))
    · obtain ⟨m', e⟩ := o2 c
      exact .inl ⟨m', run.trans e, (c79_filled w H ho (run.trans e)).1⟩
  · right
    have run : holeFillFront ord solve fuel f m = .err e' := by
      unfold holeFillFront
      rw [bind_apply, k]
    rw [run]
    rcases d with rfl | ⟨n4, s⟩
    · exact .inr rfl
    · exact .inl (by rw [FrontStep.throw A1 I.wf I.af n4 s])

/-- C79: a hole with three sides is closed at once; nothing moves. -/
theorem c79_triangle {m : Mesh XR} {f : Nat} (w : m.WF) (H : m.SimpleHole f) {p : Nat → E3} (A : m.AtE p) (s : m.sides f = 3) {ord : List Nat → List Nat}
    (ho : ∀ l, (ord l).Perm l) (solve : LinSolve XR) (fuel : Nat) :
    ∃ m', holeFillFront ord solve (fuel + 1) f m = .ok () m' ∧ m.Filled m' f ∧ m'.vs = m.vs ∧ m'.fs = m.fs ∧ m'.hes = m.hes ∧ m'.vPos = m.vPos := by
  obtain ⟨m1, k, k1, k2, k3, k4⟩ := c75_triangle w H s fuel
  have R := c75_filled_partial w H k
  have run : holeFillFront ord solve (fuel + 1) f m = settle ord solve f m1 := by
    unfold holeFillFront
    rw [bind_apply, k]
  have va : ∀ v, m1.vAlive v = true → m.vAlive v = true := fun v a => by
    rw [← w.vDense.mem, ← k3, R.wf.vDense.mem]
    exact a
  have none : ∀ v, ¬ m1.Inside f v := fun v i => by
    have := va v (i.alive R.wf)
    rw [R.inside_new w i] at this
    cases this
  have A1 : m1.AtE p := fun v a => by
    rw [k4]
    exact A v (va v a)
  obtain ⟨vs, nd, mem, out⟩ := settle_exact R.wf A1 R.last.1 R.last.2 (fun h a i => absurd i (none _)) ho
  have e : vs = [] := List.eq_nil_iff_forall_not_mem.2 fun v hv => none v ((mem v).1 hv)
  subst e
  obtain ⟨m', e⟩ := (out solve).2.1 (by
    rintro (⟨v, hv, -⟩ | ⟨i, -, q⟩ | ⟨x, -, sx, -⟩)
    · cases hv
    · exact q
    · cases sx)
  obtain ⟨F1, m2, g1, -, g2, g3, -⟩ := c79_filled w H ho (run.trans e)
  rw [k] at g1
  injection g1 with _ g1
  subst g1
  refine ⟨m', run.trans e, F1, ?_, ?_, ?_, funext fun v => (g3 v (none v)).trans (by rw [k4])⟩ <;> rw [g2]
  exacts [k3, k2, k1]

/-! ### C80: the normals -/

/-- C80: the normals after `k` rounds. They are replaced one after the other in the order of `vs`; an exception is thrown exactly if a normal or a
weighted mean is not defined. The vectors of all other vertices are zero. -/
theorem c80_normals_partial {m : Mesh XR} {p : Nat → E3} (w : m.WF) (A : m.AtE p) {vs : List Nat} (a : ∀ v ∈ vs, m.vAlive v = true) (k : Nat) :
    let bad := (∃ v ∈ vs, m.NoNormal p v) ∨ ∃ i < k, m.BlendFails p vs ((m.blendAll p vs)^[i] (m.startNormals p vs))
    (bad → (firstNormals vs >>= smoothNormals vs k) m = .err .throw) ∧
    (¬ bad → ∃ n, (firstNormals vs >>= smoothNormals vs k) m = .ok n m ∧ (∀ u, (n u).Is ((m.blendAll p vs)^[k] (m.startNormals p vs) u)) ∧
      ∀ u, u ∉ vs → (n u).Is 0) := by
  intro bad
  obtain ⟨f1, f2⟩ := firstNormals_exact w A a
  by_cases c1 : ∃ v ∈ vs, m.NoNormal p v
  · refine ⟨fun _ => ?_, fun h => absurd (.inl c1) h⟩
    rw [bind_apply, f2 c1]
  · obtain ⟨n0, e1, hn0⟩ := f1 fun v hv h => c1 ⟨v, hv, h⟩
    obtain ⟨g1, g2⟩ := smoothNormals_exact w A a k hn0
    rw [bind_apply, e1]
    constructor
    · rintro (h | h)
      · exact absurd h c1
      · exact g2 h
    · intro h
      obtain ⟨n, e, hn⟩ := g1 fun i hi q => h (.inr ⟨i, hi, q⟩)
      refine ⟨n, e, hn, fun u hu => ?_⟩
      have := hn u
      rw [blendAll_iter_out hu, Mesh.startNormals, if_neg hu] at this
      exact this

/-- C80 is false of the rim: its normals have no influence. A vertex all of whose neighbours are on the rim keeps its first normal, however the
surface around the hole is bent. -/
theorem c80_rim_ignored {m : Mesh XR} {p : Nat → E3} (w : m.WF) {vs : List Nat} {v : Nat} (hv : v ∈ vs) (ne : m.maxSum p v ≠ 0)
    (lone : ∀ h, m.hAlive h = true → m.hSrc h = v → m.hSrc (m.hNext h) ∉ vs) (k : Nat) :
    (m.blendAll p vs)^[k] (m.startNormals p vs) v = unitOf (m.maxSum p v) := by
  have s : m.startNormals p vs v = unitOf (m.maxSum p v) := if_pos hv
  rw [lone_rounds w lone k (m.startNormals p vs) (fun u hu => if_neg hu) (by rw [s]; exact unit_norm ne), s]

/-! ### C81: the rotations -/

/-- C81: the matrix of a face. It is defined unless the face has no area or the normals at its corners cancel. -/
theorem c81_turn_partial {m : Mesh XR} {p N : Nat → E3} (w : m.WF) (A : m.AtE p) {n : Nat → Vec3 XR} (hn : ∀ u, (n u).Is (N u)) {f : Nat} (a : m.fAlive f = true)
    (s : m.sides f = 3) :
    (m.areaVec p f = 0 ∨ m.cornerSum N f = 0 → turnOf n f m = .err .throw) ∧
    (m.areaVec p f ≠ 0 → m.cornerSum N f ≠ 0 → ∃ B, turnOf n f m = .ok B m ∧ ∀ c x, Vec3.Is c x → (B.apply c).Is (m.faceTilt p N f x)) :=
  ⟨(turnOf_exact w A hn a s).2, (turnOf_exact w A hn a s).1⟩

/-- C81: it takes the normal of the face to the normal it is made for only if they agree or are perpendicular; and the image has length one only then
or if they are opposite. -/
theorem c81_only_if {a b : E3} (ha : ‖a‖ = 1) (hb : ‖b‖ = 1) :
    (tilt a b a = b ↔ a = b ∨ inner ℝ a b = 0) ∧ ‖tilt a b a‖ ^ 2 = 1 - (1 - inner ℝ a b ^ 2) * inner ℝ a b ^ 2 * (1 - inner ℝ a b) ^ 2 :=
  ⟨tilt_goes ha hb, tilt_length ha hb⟩

/-! ### C82: the positions -/

/-- C82: what happens after the front, for a solver that solves symmetric systems exactly. Weights at the vertices inside are not negative, and edges of
positive weight connect them with the rim. The function throws an exception exactly if a normal or a rotation is not defined. Otherwise the vertices inside
go to the only places at which the Laplacian with the weights of the old positions is the mean of the turned vectors; all other vertices stay. -/
theorem c82_positions_partial {m : Mesh XR} {p : Nat → E3} (w : m.WF) (A : m.AtE p) {f : Nat} (a : m.fAlive f = true) (s3 : m.sides f = 3)
    (tri : ∀ h, m.hAlive h = true → m.Inside f (m.hSrc h) → m.sides (m.hFace h) = 3) (P : m.Anchored p (m.Inside f)) {ord : List Nat → List Nat}
    (ho : ∀ l, (ord l).Perm l) {solve : LinSolve XR} (hE : solve.ExactSym) :
    ∃ vs : List Nat, vs.Nodup ∧ (∀ v, v ∈ vs ↔ m.Inside f v) ∧ (m.SettleFails p vs → settle ord solve f m = .err .throw) ∧
      (¬ m.SettleFails p vs → ∃ m' x, settle ord solve f m = .ok () m' ∧ m' = { m with vPos := m'.vPos } ∧ m'.AtE x ∧
        (∀ v, ¬ m.Inside f v → x v = p v ∧ m'.vPos v = m.vPos v) ∧
        (∀ v, m.Inside f v → m.lap p x v = m.meanAway p (m.faceTilt p (m.endNormals p vs)) v) ∧
        ∀ y, (∀ v, ¬ m.Inside f v → y v = p v) → (∀ v, m.Inside f v → m.lap p y v = m.meanAway p (m.faceTilt p (m.endNormals p vs)) v) →
          ∀ v, m.vAlive v = true → y v = x v) := by
  obtain ⟨vs, nd, mem, out⟩ := settle_exact w A a s3 tri ho
  obtain ⟨o1, -, o3⟩ := out solve
  refine ⟨vs, nd, mem, o1, fun c => ?_⟩
  have e : (fun v => v ∈ vs) = m.Inside f := funext fun v => propext (mem v)
  obtain ⟨m', x, h1, h2, h3, h4, h5⟩ := o3 c hE (by rw [e]; exact P)
  refine ⟨m', x, h1, h2, h3, fun v hv => h4 v fun k => hv ((mem v).1 k), fun v hv => h5 v ((mem v).2 hv), fun y y1 y2 v av => ?_⟩
  refine lap_unique w P (fun u hu => ?_) (fun u _ hu => ?_) av
  · rw [y1 u hu, (h4 u fun k => hu ((mem u).1 k)).1]
  · rw [y2 u hu, h5 u ((mem u).2 hu)]

/-- C82: flat regions stay as they are. -/
theorem c82_flat {m : Mesh XR} {p : Nat → E3} (w : m.WF) (A : m.AtE p) {f : Nat} (a : m.fAlive f = true) (s3 : m.sides f = 3)
    (tri : ∀ h, m.hAlive h = true → m.Inside f (m.hSrc h) → m.sides (m.hFace h) = 3) (P : m.Anchored p (m.Inside f)) {n : E3} (hn : ‖n‖ = 1)
    (flat : ∀ h, m.hAlive h = true → m.Inside f (m.hSrc h) → unitOf (m.areaVec p (m.hFace h)) = n ∧ 1 / 10 ^ 6 ≤ ‖m.areaVec p (m.hFace h)‖)
    {ord : List Nat → List Nat} (ho : ∀ l, (ord l).Perm l) {solve : LinSolve XR} (hE : solve.ExactSym) :
    ∃ m', settle ord solve f m = .ok () m' ∧ m' = { m with vPos := m'.vPos } ∧ m'.AtE p := by
  obtain ⟨vs, nd, mem, o1, o2⟩ := c82_positions_partial w A a s3 tri P ho hE
  have e : (fun v => v ∈ vs) = m.Inside f := funext fun v => propext (mem v)
  have tri' : ∀ h, m.hAlive h = true → m.hSrc h ∈ vs → m.sides (m.hFace h) = 3 := fun h ah sh => tri h ah ((mem _).1 sh)
  have FA : FlatAt m p vs n := ⟨hn, fun v hv => ((mem v).1 hv).alive w, fun h ah sh => (w.three_cyc (w.face_alive _ ah) (tri' h ah sh) ah rfl).1,
    fun h ah sh => (flat h ah ((mem _).1 sh)).1⟩
  obtain ⟨c, hs⟩ := FA.settles w (by rw [e]; exact P) tri' fun h ah sh => (flat h ah ((mem _).1 sh)).2
  obtain ⟨m', x, h1, h2, h3, h4, h5, h6⟩ := o2 c
  refine ⟨m', h1, h2, fun v av => ?_⟩
  have av' : m.vAlive v = true := by rw [h2] at av; exact av
  rw [h6 p (fun _ _ => rfl) (fun u hu => (hs u ((mem u).2 hu)).symm) v av']
  exact h3 v av

/-- the identity -/
noncomputable def oneMat : Mat3 XR := Mat3.one

/-- C82 is false without rotations: the surface does not stay as it is. The right-hand side has the wrong sign and is divided by the number of
neighbours, so the Laplacian of the new positions is a negative multiple of the Laplacian of the old ones; the vertices stay only where this is zero. -/
theorem c82_wrong_sign {m : Mesh XR} {p : Nat → E3} (w : m.WF) (A : m.AtE p) {vs : List Nat} (nd : vs.Nodup) (al : ∀ v ∈ vs, m.vAlive v = true)
    (t : ∀ v ∈ vs, m.TriRing v) (fat : ∀ h, m.hAlive h = true → m.hSrc h ∈ vs → 1 / 10 ^ 6 ≤ ‖m.areaVec p (m.hFace h)‖) (P : m.Anchored p (· ∈ vs))
    {solve : LinSolve XR} (hE : solve.ExactSym) :
    ∃ g m' x, gradients (fun _ => some oneMat) vs m = .ok g m ∧ poisson solve vs g m = .ok () m' ∧ m' = { m with vPos := m'.vPos } ∧ m'.AtE x ∧
      (∀ v, v ∉ vs → x v = p v) ∧
      (∀ v ∈ vs, m.lap p x v = -(((m.outs v).length : ℝ)⁻¹ • m.lap p p v)) ∧
      ((∀ v ∈ vs, x v = p v) ↔ ∀ v ∈ vs, m.lap p p v = 0) := by
  have one : ∀ c z, Vec3.Is c z → (oneMat.apply c).Is z := by
    rintro c z ⟨u, rfl, rfl⟩
    have h1 : ∀ i j, oneMat i j = XR.fin ((Mat3.one : Mat3 ℝ) i j) := by
      intro i j
      unfold oneMat Mat3.one
      split <;> simp [X_lit_fin, R_lit]
    rw [X_apply _ _ h1]
    refine ⟨_, rfl, ?_⟩
    congr 1
    apply Vec3.ext' <;> simp [Mat3.apply, Mat3.one, R_lit0, R_lit1]
  obtain ⟨g, e1, hg⟩ := gradients_exact w A (R := fun _ => some oneMat) (Q := fun _ x => x) (vs := vs) fun v hv => ⟨al v hv, fun h ah sh =>
    ⟨t v hv h ah sh, fun z => by
      have := fat h ah (by rw [sh]; exact hv)
      rw [z, norm_zero] at this
      norm_num at this, oneMat, rfl, one⟩⟩
  obtain ⟨m', x, h1, h2, h3, h4, h5⟩ := poisson_exact w A nd al P hE hg
  have key : ∀ v ∈ vs, m.lap p x v = -(((m.outs v).length : ℝ)⁻¹ • m.lap p p v) := fun v hv => by
    rw [h5 v hv]
    exact meanAway_id w (al v hv) (t v hv) (fun h ah sh => fat h ah (by rw [sh]; exact hv)) fun _ _ _ _ => rfl
  refine ⟨g, m', x, e1, h1, h2, h3, fun v hv => (h4 v hv).1, key, fun h v hv => ?_, fun h v hv => ?_⟩
  · have e : x = p := funext fun u => by
      by_cases hu : u ∈ vs
      · exact h u hu
      · exact (h4 u hu).1
    have k := key v hv
    rw [e] at k
    obtain ⟨y, hy, -⟩ := ring_nonempty w (al v hv)
    have pos : (0 : ℝ) < (m.outs v).length := by exact_mod_cast List.length_pos_iff.2 (List.ne_nil_of_mem hy)
    have k2 : (1 + ((m.outs v).length : ℝ)⁻¹) • m.lap p p v = 0 := by
      rw [add_smul, one_smul]
      nth_rewrite 1 [k]
      exact neg_add_cancel _
    rcases smul_eq_zero.1 k2 with z | z
    · have : (0 : ℝ) < 1 + ((m.outs v).length : ℝ)⁻¹ := by positivity
      exact absurd z this.ne'
    · exact z
  · refine lap_unique w P (fun u hu => (h4 u hu).1) (fun u _ hu => ?_) (al v hv)
    rw [key u hu, h u hu, smul_zero, neg_zero]

/-! ### Sample: a square and a vertex above its centre -/

attribute [local instance] ratScalar

/-- the corners of the square and a vertex at height `z` above the centre -/
def tentAt (z : ℝ) (v : Nat) : Vec3 ℝ := if v = 1 then ⟨0, 0, z⟩ else patchAt v

theorem tent_tables : ∃ m : Mesh Rat, m.Good ∧ PatchFacts m ∧ m.vs.map m.vLock = [false, false, false, false, false] ∧
    [m.sides 1, m.sides 2, m.sides 3, m.sides 4] = [3, 3, 3, 3] := by
  obtain ⟨u, m, l, m1, h1, h2, h3⟩ := thenSt_iff (o := construct patchV patchI fresh) (f := fun m => .ok () m) (p := fun m l m' =>
    decide (m.vs = [1, 2, 3, 4, 5] ∧ m.fs = [1, 2, 3, 4, 5] ∧ m.hes = [1, 2, 3, 4, 5, 6, 7, 8, 9, 10, 11, 12, 13, 14, 15, 16] ∧
    m.fs.map m.fHe = [3, 6, 9, 12, 13] ∧
    m.hes.map m.hSrc = [1, 2, 3, 1, 3, 4, 1, 4, 5, 1, 5, 2, 3, 4, 5, 2] ∧
    m.hes.map m.hNext = [2, 3, 1, 5, 6, 4, 8, 9, 7, 11, 12, 10, 16, 13, 14, 15] ∧
    m.hes.map m.hRev = [12, 13, 4, 3, 14, 7, 6, 15, 10, 9, 16, 1, 2, 5, 8, 11] ∧
    m.hes.map m.hFace = [1, 1, 1, 2, 2, 2, 3, 3, 3, 4, 4, 4, 5, 5, 5, 5] ∧ m.vs.map m.vLock = [false, false, false, false, false] ∧
    [m.sides 1, m.sides 2, m.sides 3, m.sides 4] = [3, 3, 3, 3])) (by decide +kernel)
  cases u
  obtain ⟨a, b, c, d, e, f, g, h, i, j⟩ := of_decide_eq_true h3
  exact ⟨m, c01_construct_consistent (Owned.empty _) h1, ⟨a, b, c, d, e, f, g, h⟩, i, j⟩

/-- the mesh of the sample: the corners of the square are locked -/
structure Tent (z : ℝ) (m : Mesh XR) : Prop where
  wf : m.WF
  tab : PatchFacts m
  lock : ∀ v, m.vAlive v = true → (m.vLock v = false ↔ v = 1)
  at' : ∀ v, m.vPos v = (tentAt z v).fin
  tri : ∀ f, f = 1 ∨ f = 2 ∨ f = 3 ∨ f = 4 → m.sides f = 3

theorem tent_exists (z : ℝ) : ∃ m, Tent z m := by
  obtain ⟨m0, G0, C0, l0, s0⟩ := tent_tables
  have w0 : (m0.overR (tentAt z)).WF := (G0.over _).wf
  have w : ((m0.overR (tentAt z)).lockAll [2, 3, 4, 5]).WF := w0.lockAll _
  have av : ∀ v, m0.vAlive v = true → v = 1 ∨ v = 2 ∨ v = 3 ∨ v = 4 ∨ v = 5 := by
    intro v a
    have : v ∈ m0.vs := (w.vDense.mem v).2 a
    rw [C0.vs] at this
    simpa using this
  rw [C0.vs] at l0
  simp only [List.map_cons, List.map_nil, List.cons.injEq, and_true] at l0 s0
  refine ⟨_, w, ⟨C0.1, C0.2, C0.3, C0.4, C0.5, C0.6, C0.7, C0.8⟩, fun v a => ?_, fun v => rfl, ?_⟩
  · show (if v ∈ [2, 3, 4, 5] then true else m0.vLock v) = false ↔ v = 1
    rcases av v a with rfl | rfl | rfl | rfl | rfl <;> simp [l0]
  · rintro f (rfl | rfl | rfl | rfl)
    exacts [s0.1, s0.2.1, s0.2.2.1, s0.2.2.2]

namespace Tent
variable {z : ℝ} {m : Mesh XR} (T : Tent z m)
include T

theorem pos : m.AtE (fun v => (tentAt z v).E) := fun v _ => ⟨_, T.at' v, rfl⟩

theorem tables : (m.hSrc 1 = 1 ∧ m.hSrc 2 = 2 ∧ m.hSrc 3 = 3 ∧ m.hSrc 4 = 1 ∧ m.hSrc 5 = 3 ∧ m.hSrc 6 = 4 ∧ m.hSrc 7 = 1 ∧ m.hSrc 8 = 4 ∧ m.hSrc 9 = 5 ∧
    m.hSrc 10 = 1 ∧ m.hSrc 11 = 5 ∧ m.hSrc 12 = 2 ∧ m.hSrc 13 = 3 ∧ m.hSrc 14 = 4 ∧ m.hSrc 15 = 5 ∧ m.hSrc 16 = 2) ∧
    (m.hNext 1 = 2 ∧ m.hNext 2 = 3 ∧ m.hNext 3 = 1 ∧ m.hNext 4 = 5 ∧ m.hNext 5 = 6 ∧ m.hNext 6 = 4 ∧ m.hNext 7 = 8 ∧ m.hNext 8 = 9 ∧ m.hNext 9 = 7 ∧
    m.hNext 10 = 11 ∧ m.hNext 11 = 12 ∧ m.hNext 12 = 10) ∧
    (m.hRev 1 = 12 ∧ m.hRev 4 = 3 ∧ m.hRev 7 = 6 ∧ m.hRev 10 = 9) ∧
    (m.hFace 1 = 1 ∧ m.hFace 2 = 1 ∧ m.hFace 3 = 1 ∧ m.hFace 4 = 2 ∧ m.hFace 7 = 3 ∧ m.hFace 10 = 4) ∧
    (m.fHe 1 = 3 ∧ m.fHe 2 = 6 ∧ m.fHe 3 = 9 ∧ m.fHe 4 = 12) ∧
    m.outs 1 = [1, 4, 7, 10] ∧ (∀ h, m.hAlive h = true → m.hSrc h = 1 → h = 1 ∨ h = 4 ∨ h = 7 ∨ h = 10) ∧
    (∀ h, m.hAlive h = true ↔ 1 ≤ h ∧ h ≤ 16) ∧ (∀ v, m.vAlive v = true ↔ 1 ≤ v ∧ v ≤ 5) ∧ ∀ v, m.fAlive v = true ↔ 1 ≤ v ∧ v ≤ 5 := by
  obtain ⟨a, b, c, d, e, f, g, h⟩ := T.tab
  have c' := c
  rw [c] at e f g h
  rw [b] at d
  simp only [List.map_cons, List.map_nil, List.cons.injEq, and_true] at d e f g h
  have al : ∀ x, m.hAlive x = true ↔ 1 ≤ x ∧ x ≤ 16 := by
    intro x
    rw [← T.wf.hDense.mem x, c']
    simp only [List.mem_cons, List.not_mem_nil, or_false]
    omega
  have o : m.outs 1 = [1, 4, 7, 10] := by
    unfold Mesh.outs
    rw [c']
    simp [List.filter, e]
  refine ⟨by simp only [e, and_self], by simp only [f, and_self], by simp only [g, and_self], by simp only [h, and_self], by simp only [d, and_self], o, ?_, al, ?_, ?_⟩
  · intro x hx sx
    have : x ∈ m.outs 1 := by
      unfold Mesh.outs
      rw [List.mem_filter]
      exact ⟨(T.wf.hDense.mem x).2 hx, by simp [sx]⟩
    rw [o] at this
    simpa using this
  · intro x
    rw [← T.wf.vDense.mem x, a]
    simp only [List.mem_cons, List.not_mem_nil, or_false]
    omega
  · intro x
    rw [← T.wf.fDense.mem x, b]
    simp only [List.mem_cons, List.not_mem_nil, or_false]
    omega

/-- only the vertex above the centre is inside -/
theorem inside (v : Nat) : m.Inside 1 v ↔ v = 1 := by
  obtain ⟨e, f, g, h, d, o, o', ha, va, fa⟩ := T.tables
  constructor
  · intro i
    exact (T.lock v (i.alive T.wf)).1 i.unlocked
  · rintro rfl
    exact ⟨1, ⟨1, (ha 1).2 (by omega), h.1, e.1⟩, (T.lock 1 ((va 1).2 (by omega))).2 rfl, .here⟩

theorem three : ∀ h, m.hAlive h = true → m.Inside 1 (m.hSrc h) → m.sides (m.hFace h) = 3 := by
  obtain ⟨e, f, g, h, d, o, o', ha, va, fa⟩ := T.tables
  intro x hx i
  rcases o' x hx ((T.inside _).1 i) with rfl | rfl | rfl | rfl <;> apply T.tri <;> simp [h]

/-- the normals of the four triangles -/
theorem areas : m.areaVec (fun v => (tentAt z v).E) 1 = (⟨0, 2 * z, 2⟩ : Vec3 ℝ).E ∧ m.areaVec (fun v => (tentAt z v).E) 2 = (⟨-(2 * z), 0, 2⟩ : Vec3 ℝ).E ∧
    m.areaVec (fun v => (tentAt z v).E) 3 = (⟨0, -(2 * z), 2⟩ : Vec3 ℝ).E ∧ m.areaVec (fun v => (tentAt z v).E) 4 = (⟨2 * z, 0, 2⟩ : Vec3 ℝ).E := by
  obtain ⟨e, f, g, h, d, -⟩ := T.tables
  simp only [Mesh.areaVec, triNormal_E, d, e, f, tentAt, patchAt]
  refine ⟨?_, ?_, ?_, ?_⟩ <;> rw [Vec3.E_inj] <;> apply Vec3.ext' <;> norm_num [Vec3.cross, Vec3.sub_def] <;> ring

theorem area_norm {r : ℝ} (hr : 0 < r) (h2 : r ^ 2 = 1 + z ^ 2) {h : Nat} (ah : m.hAlive h = true) (sh : m.hSrc h = 1) :
    ‖m.areaVec (fun v => (tentAt z v).E) (m.hFace h)‖ = 2 * r := by
  obtain ⟨e, f, g, k, d, o, o', ha, va, fa⟩ := T.tables
  obtain ⟨a1, a2, a3, a4⟩ := T.areas
  have L : ∀ v : Vec3 ℝ, v.dot v = 4 * (1 + z ^ 2) → ‖v.E‖ = 2 * r := fun v hv => by
    rw [Vec3.E_norm, Vec3.length_def, show Vec3.dot v v = (2 * r) ^ 2 by rw [hv, ← h2]; ring, Real.sqrt_sq (by positivity)]
  rcases o' h ah sh with rfl | rfl | rfl | rfl <;> simp only [k, a1, a2, a3, a4] <;> apply L <;> rw [Vec3.dot_def] <;> ring

/-- all weights at the vertex above the centre -/
theorem cots {r : ℝ} (hr : 1 / 2 ≤ r) (h2 : r ^ 2 = 1 + z ^ 2) {h : Nat} (ah : m.hAlive h = true) (sh : m.hSrc h = 1) :
    m.cotOf (fun v => (tentAt z v).E) h = 1 / r := by
  obtain ⟨e, f, g, k, d, o, o', ha, va, fa⟩ := T.tables
  have L : ∀ x y c : Vec3 ℝ, (x.sub c).dot (x.sub c) = 2 + z ^ 2 → (y.sub c).dot (y.sub c) = 4 → (x.sub c).dot (y.sub c) = 2 → cotAt x.E y.E c.E = 1 / r := by
    intro x y c h1 h3 h4
    unfold cotAt
    rw [← Vec3.E_sub, ← Vec3.E_sub, Vec3.E_norm, Vec3.E_norm, Vec3.E_inner, pow_two, pow_two, Vec3.length_sq, Vec3.length_sq, h1, h3, h4,
      show (2 + z ^ 2) * 4 - (2 : ℝ) ^ 2 = (2 * r) ^ 2 by rw [mul_pow, h2]; ring, Real.sqrt_sq (by linarith), max_eq_left (by norm_num; linarith)]
    field_simp
  unfold Mesh.cotOf
  rcases o' h ah sh with rfl | rfl | rfl | rfl <;> simp only [e, f, g] <;> rw [L, L] <;>
    first | ring1 | (norm_num [tentAt, patchAt, Vec3.sub_def, Vec3.dot_def]; done) | (norm_num [tentAt, patchAt, Vec3.sub_def, Vec3.dot_def]; ring1)

theorem anchored {r : ℝ} (hr : 1 / 2 ≤ r) (h2 : r ^ 2 = 1 + z ^ 2) : m.Anchored (fun v => (tentAt z v).E) (m.Inside 1) := by
  obtain ⟨e, f, g, k, d, o, o', ha, va, fa⟩ := T.tables
  have r0 : 0 < r := by linarith
  refine ⟨fun h ah i => by rw [T.cots hr h2 ah ((T.inside _).1 i)]; positivity, fun v av i => ?_⟩
  have : m.Linked (fun v => (tentAt z v).E) (fun u => ¬ m.Inside 1 u) (m.hSrc 1) := by
    refine .step ((ha 1).2 (by omega)) (by rw [T.cots hr h2 ((ha 1).2 (by omega)) e.1]; positivity) (.here ?_)
    rw [T.inside, f.1, e.2.1]
    norm_num
  rw [(T.inside v).1 i]
  rwa [e.1] at this

/-- the normal at the vertex above the centre points up -/
theorem up : unitOf (m.maxSum (fun v => (tentAt z v).E) 1) = (⟨0, 0, 1⟩ : Vec3 ℝ).E ∧ m.maxSum (fun v => (tentAt z v).E) 1 ≠ 0 := by
  obtain ⟨e, f, g, k, d, o, o', ha, va, fa⟩ := T.tables
  have L : ∀ x : Vec3 ℝ, x.dot x = 2 + z ^ 2 → ‖x.E‖ ^ 2 = 2 + z ^ 2 := fun x h => by rw [Vec3.E_norm, pow_two, Vec3.length_sq, h]
  have s : m.maxSum (fun v => (tentAt z v).E) 1 = (8 * ((2 + z ^ 2) * (2 + z ^ 2))⁻¹) • (⟨0, 0, 1⟩ : Vec3 ℝ).E := by
    unfold Mesh.maxSum
    rw [o]
    simp only [List.map_cons, List.map_nil, List.sum_cons, List.sum_nil, add_zero, e, f, triNormal_E, ← Vec3.E_sub]
    rw [L, L, L, L]
    on_goal 2 => norm_num [tentAt, patchAt, Vec3.sub_def, Vec3.dot_def]; ring
    on_goal 2 => norm_num [tentAt, patchAt, Vec3.sub_def, Vec3.dot_def]; ring
    on_goal 2 => norm_num [tentAt, patchAt, Vec3.sub_def, Vec3.dot_def]; ring
    on_goal 2 => norm_num [tentAt, patchAt, Vec3.sub_def, Vec3.dot_def]; ring
    generalize ((2 + z ^ 2) * (2 + z ^ 2))⁻¹ = c
    simp only [← Vec3.E_smul, ← Vec3.E_add]
    rw [Vec3.E_inj]
    apply Vec3.ext' <;> norm_num [tentAt, patchAt, Vec3.sub_def, Vec3.cross, Vec3.smul, Vec3.add] <;> ring
  have p0 : (0 : ℝ) < 8 * ((2 + z ^ 2) * (2 + z ^ 2))⁻¹ := by positivity
  have one : ‖(⟨0, 0, 1⟩ : Vec3 ℝ).E‖ = 1 := by rw [Vec3.E_norm, Vec3.length_def, Vec3.dot_def]; norm_num
  have ne : (⟨0, 0, 1⟩ : Vec3 ℝ).E ≠ 0 := fun h => by rw [h, norm_zero] at one; norm_num at one
  rw [s]
  refine ⟨?_, smul_ne_zero p0.ne' ne⟩
  rw [unitOf_smul p0]
  unfold unitOf
  rw [one, inv_one, one_smul]

theorem zero_out (k : Nat) {u : Nat} (hu : u ≠ 1) : (m.blendAll (fun v => (tentAt z v).E) [1])^[k] (m.startNormals (fun v => (tentAt z v).E) [1]) u = 0 := by
  have n : u ∉ [1] := by simpa using hu
  rw [blendAll_iter_out n]
  exact if_neg n

theorem rounds (k : Nat) : (m.blendAll (fun v => (tentAt z v).E) [1])^[k] (m.startNormals (fun v => (tentAt z v).E) [1]) 1 = (⟨0, 0, 1⟩ : Vec3 ℝ).E := by
  obtain ⟨e, f, g, h, d, o, o', ha, va, fa⟩ := T.tables
  rw [c80_rim_ignored T.wf (List.mem_singleton.2 rfl) T.up.2 _ k, T.up.1]
  intro x hx sx
  rcases o' x hx sx with rfl | rfl | rfl | rfl <;> simp [e, f]

theorem corners {f : Nat} (hf : f = 1 ∨ f = 2 ∨ f = 3 ∨ f = 4) : m.cornerSum (m.endNormals (fun v => (tentAt z v).E) [1]) f = (⟨0, 0, 1⟩ : Vec3 ℝ).E := by
  obtain ⟨e, n, g, h, d, o, o', ha, va, fa⟩ := T.tables
  have z1 : ∀ u, u ≠ 1 → m.endNormals (fun v => (tentAt z v).E) [1] u = 0 := fun u hu => T.zero_out 1000 hu
  have u1 : m.endNormals (fun v => (tentAt z v).E) [1] 1 = (⟨0, 0, 1⟩ : Vec3 ℝ).E := T.rounds 1000
  unfold Mesh.cornerSum
  rcases hf with rfl | rfl | rfl | rfl <;> simp only [d, e, n, u1, z1 2 (by norm_num), z1 3 (by norm_num), z1 4 (by norm_num), z1 5 (by norm_num)] <;> simp

theorem settles {r : ℝ} (hr : 1 / 2 ≤ r) (h2 : r ^ 2 = 1 + z ^ 2) : ¬ m.SettleFails (fun v => (tentAt z v).E) [1] := by
  obtain ⟨e, n, g, h, d, o, o', ha, va, fa⟩ := T.tables
  have r0 : 0 < r := by linarith
  have one : ‖(⟨0, 0, 1⟩ : Vec3 ℝ).E‖ = 1 := by rw [Vec3.E_norm, Vec3.length_def, Vec3.dot_def]; norm_num
  have ne : (⟨0, 0, 1⟩ : Vec3 ℝ).E ≠ 0 := fun h => by rw [h, norm_zero] at one; norm_num at one
  have far : ∀ u, u = 2 ∨ u = 3 ∨ u = 4 ∨ u = 5 → (tentAt z u).E ≠ (tentAt z 1).E := by
    rintro u (rfl | rfl | rfl | rfl) q <;> rw [Vec3.E_inj] at q <;> have := congrArg Vec3.x q <;> norm_num [tentAt, patchAt] at this
  rintro (⟨v, hv, q⟩ | ⟨i, -, q⟩ | ⟨x, hx, sx, q⟩)
  · rw [List.mem_singleton] at hv
    subst hv
    rcases q with ⟨x, hx, sx, q⟩ | q
    · rcases o' x hx sx with rfl | rfl | rfl | rfl <;> simp only [e, n] at q <;> rcases q with q | q <;> refine far _ ?_ q <;> norm_num
    · exact T.up.2 q
  · rcases q with q | q | q
    · have : m.weightOut (m.cotOf fun v => (tentAt z v).E) 1 = ((m.outs 1).map (m.cotOf fun v => (tentAt z v).E)).sum := rfl
      rw [this, o] at q
      simp only [List.map_cons, List.map_nil, List.sum_cons, List.sum_nil] at q
      rw [T.cots hr h2 ((ha 1).2 (by omega)) e.1, T.cots hr h2 ((ha 4).2 (by omega)) (by simp [e]), T.cots hr h2 ((ha 7).2 (by omega)) (by simp [e]),
        T.cots hr h2 ((ha 10).2 (by omega)) (by simp [e])] at q
      have : (0 : ℝ) < 1 / r + (1 / r + (1 / r + (1 / r + 0))) := by positivity
      exact this.ne' q
    · unfold Mesh.blend at q
      rw [o] at q
      simp only [List.map_cons, List.map_nil, List.sum_cons, List.sum_nil, n, e] at q
      rw [T.rounds, T.zero_out i (u := 2) (by norm_num), T.zero_out i (u := 3) (by norm_num), T.zero_out i (u := 4) (by norm_num),
        T.zero_out i (u := 5) (by norm_num)] at q
      simp only [smul_zero, add_zero] at q
      exact smul_ne_zero (by norm_num) ne q
    · exact q
  · rw [List.mem_singleton] at sx
    rcases q with q | q
    · have := T.area_norm r0 h2 hx sx
      rw [q, norm_zero] at this
      linarith
    · rw [T.corners] at q
      · exact ne q
      · rcases o' x hx sx with rfl | rfl | rfl | rfl <;> simp [h]

end Tent

/-- C82, sample: the vertex at the height 3/4 above the centre. All four triangles at it have slope 3/4, and the rotations should make them flat. -/
theorem tent_turned {m : Mesh XR} (T : Tent (3 / 4) m) :
    m.meanAway (fun v => (tentAt (3 / 4) v).E) (m.faceTilt (fun v => (tentAt (3 / 4) v).E) (m.endNormals (fun v => (tentAt (3 / 4) v).E) [1])) 1 =
      (⟨0, 0, -(168 / 625)⟩ : Vec3 ℝ).E := by
  obtain ⟨e, n, g, h, d, o, o', ha, va, fa⟩ := T.tables
  obtain ⟨a1, a2, a3, a4⟩ := T.areas
  have one : unitOf (⟨0, 0, 1⟩ : Vec3 ℝ).E = (⟨0, 0, 1⟩ : Vec3 ℝ).E := by
    have : ‖(⟨0, 0, 1⟩ : Vec3 ℝ).E‖ = 1 := by rw [Vec3.E_norm, Vec3.length_def, Vec3.dot_def]; norm_num
    unfold unitOf
    rw [this, inv_one, one_smul]
  have un : ∀ a : Vec3 ℝ, a.dot a = (5 / 2) ^ 2 → unitOf a.E = (Vec3.smul (2 / 5) a).E := fun a h => by
    unfold unitOf
    rw [Vec3.E_norm, Vec3.length_def, h, Real.sqrt_sq (by norm_num), ← Vec3.E_smul]
    norm_num
  have til : ∀ a b x y : Vec3 ℝ, (a.cross b).dot (a.cross b) = (3 / 5) ^ 2 → a.dot b = 4 / 5 →
      (x.add ((Vec3.smul (3 / 5) ((a.cross b).cross x)))).add (Vec3.smul (1 / 5) ((a.cross b).cross ((a.cross b).cross x))) = y →
      tilt a.E b.E x.E = y.E := fun a b x y h1 h2 h3 => by
    unfold tilt
    rw [crossE_E, crossE_E, crossE_E, Vec3.E_norm, Vec3.E_inner, h2, Vec3.length_def, h1, Real.sqrt_sq (by norm_num), ← h3, Vec3.E_add, Vec3.E_add, Vec3.E_smul, Vec3.E_smul]
    norm_num
  have aw : ∀ x y w a : Vec3 ℝ, ((y.sub x).cross (w.sub x)) = a → a.dot a = (5 / 2) ^ 2 →
      awayOf x.E y.E w.E = ((w.sub y).cross (Vec3.smul (2 / 5) a)).E := fun x y w a h1 h2 => by
    have ne : triNormal x.E y.E w.E ≠ 0 := fun z0 => by
      rw [triNormal_E, h1] at z0
      have := congrArg norm z0
      rw [Vec3.E_norm, Vec3.length_def, h2, norm_zero, Real.sqrt_sq (by norm_num)] at this
      norm_num at this
    rw [away_cross ne, triNormal_E, h1, un a h2, ← Vec3.E_sub, crossE_E]
  unfold Mesh.meanAway Mesh.faceTilt Mesh.away
  rw [o]
  simp only [List.map_cons, List.map_nil, List.sum_cons, List.sum_nil, n, e, h, a1, a2, a3, a4, T.corners (.inl rfl), T.corners (.inr (.inl rfl)),
    T.corners (.inr (.inr (.inl rfl))), T.corners (.inr (.inr (.inr rfl))), one]
  rw [un, un, un, un]
  rw [aw _ _ _ ⟨0, 3 / 2, 2⟩, aw _ _ _ ⟨-(3 / 2), 0, 2⟩, aw _ _ _ ⟨0, -(3 / 2), 2⟩, aw _ _ _ ⟨3 / 2, 0, 2⟩]
  rw [til _ _ _ ⟨0, 1198 / 625, -(336 / 625)⟩, til _ _ _ ⟨-(1198 / 625), 0, -(336 / 625)⟩, til _ _ _ ⟨0, -(1198 / 625), -(336 / 625)⟩,
    til _ _ _ ⟨1198 / 625, 0, -(336 / 625)⟩]
  · simp only [← Vec3.E_smul, ← Vec3.E_add, add_zero]
    rw [Vec3.E_inj]
    apply Vec3.ext' <;> norm_num [Vec3.smul, Vec3.add]
  all_goals first
    | (apply Vec3.ext' <;> norm_num [tentAt, patchAt, Vec3.sub_def, Vec3.cross_def, Vec3.smul, Vec3.add])
    | (norm_num [tentAt, patchAt, Vec3.sub_def, Vec3.cross_def, Vec3.smul, Vec3.add, Vec3.dot_def])

/-- C82 is false of slopes that should become flat: the vertex above the centre goes through the plane and ends below it. -/
theorem c82_not_flat {m : Mesh XR} (T : Tent (3 / 4) m) {ord : List Nat → List Nat} (ho : ∀ l, (ord l).Perm l) {solve : LinSolve XR} (hE : solve.ExactSym) :
    ∃ m', settle ord solve 1 m = .ok () m' ∧ (m.vPos 1).Is (⟨0, 0, 3 / 4⟩ : Vec3 ℝ).E ∧ (m'.vPos 1).Is (⟨0, 0, -(21 / 250)⟩ : Vec3 ℝ).E := by
  obtain ⟨e, n, g, h, d, o, o', ha, va, fa⟩ := T.tables
  have r1 : (1 / 2 : ℝ) ≤ 5 / 4 := by norm_num
  have r2 : (5 / 4 : ℝ) ^ 2 = 1 + (3 / 4) ^ 2 := by norm_num
  obtain ⟨vs, nd, mem, -, o2⟩ := c82_positions_partial T.wf T.pos ((fa 1).2 (by omega)) (T.tri 1 (.inl rfl)) T.three (T.anchored r1 r2) ho hE
  have ev : vs = [1] := by
    have q : ∀ v, v ∈ vs ↔ v = 1 := fun v => (mem v).trans (T.inside v)
    rcases vs with _ | ⟨x, _ | ⟨y, l⟩⟩
    · exact absurd ((q 1).2 rfl) (by simp)
    · rw [(q x).1 (by simp)]
    · have h1 := (q x).1 (by simp)
      have h2 := (q y).1 (by simp)
      rw [List.nodup_cons] at nd
      exact absurd (by simp [h1, h2]) nd.1
  subst ev
  obtain ⟨m', x, q1, q2, q3, q4, q5, -⟩ := o2 (T.settles r1 r2)
  have rim : ∀ u, u ≠ 1 → x u = (tentAt (3 / 4) u).E := fun u hu => (q4 u fun k => hu ((T.inside u).1 k)).1
  have k := q5 1 ((T.inside 1).2 rfl)
  rw [tent_turned T] at k
  unfold Mesh.lap at k
  rw [o] at k
  simp only [List.map_cons, List.map_nil, List.sum_cons, List.sum_nil, add_zero] at k
  rw [T.cots r1 r2 ((ha 1).2 (by omega)) e.1, T.cots r1 r2 ((ha 4).2 (by omega)) (by simp [e]), T.cots r1 r2 ((ha 7).2 (by omega)) (by simp [e]),
    T.cots r1 r2 ((ha 10).2 (by omega)) (by simp [e])] at k
  simp only [n, e] at k
  rw [rim 2 (by norm_num), rim 3 (by norm_num), rim 4 (by norm_num), rim 5 (by norm_num)] at k
  refine ⟨m', q1, ⟨_, T.at' 1, by simp [tentAt]⟩, ?_⟩
  have a1 : m'.vAlive 1 = true := by rw [q2]; exact (va 1).2 (by omega)
  have q := q3 1 a1
  obtain ⟨y, hy⟩ := Vec3.E_surj (x 1)
  rw [← hy] at k q
  simp only [← Vec3.E_sub, ← Vec3.E_smul, ← Vec3.E_add, Vec3.E_inj] at k
  have kx := congrArg Vec3.x k
  have ky := congrArg Vec3.y k
  have kz := congrArg Vec3.z k
  norm_num [tentAt, patchAt, Vec3.sub_def, Vec3.smul, Vec3.add] at kx ky kz
  have : y = ⟨0, 0, -(21 / 250)⟩ := by apply Vec3.ext' <;> dsimp only <;> linarith
  rwa [this] at q

/-- C82, sample without rotations: the vertex ends at a quarter of its height, on the other side of the plane. -/
theorem c82_quarter {z : ℝ} {m : Mesh XR} (T : Tent z m) {solve : LinSolve XR} (hE : solve.ExactSym) :
    ∃ g m', gradients (fun _ => some oneMat) [1] m = .ok g m ∧ poisson solve [1] g m = .ok () m' ∧ (m.vPos 1).Is (⟨0, 0, z⟩ : Vec3 ℝ).E ∧
      (m'.vPos 1).Is (⟨0, 0, -(z / 4)⟩ : Vec3 ℝ).E := by
  obtain ⟨e, n, g, h, d, o, o', ha, va, fa⟩ := T.tables
  obtain ⟨r, r0, r2⟩ : ∃ r : ℝ, 1 ≤ r ∧ r ^ 2 = 1 + z ^ 2 :=
    ⟨Real.sqrt (1 + z ^ 2), Real.one_le_sqrt.2 (by nlinarith [sq_nonneg z]), Real.sq_sqrt (by positivity)⟩
  have r1 : 1 / 2 ≤ r := by linarith
  have P := T.anchored r1 r2
  rw [show m.Inside 1 = fun v => v ∈ [1] from funext fun v => propext ((T.inside v).trans (by simp))] at P
  obtain ⟨gr, m', x, q1, q2, q0, q3, q4, q5, -⟩ := c82_wrong_sign T.wf T.pos (vs := [1]) (List.nodup_singleton 1) (fun v hv => by
    rw [List.mem_singleton] at hv
    exact (va v).2 (by omega)) (fun v hv k ak sk => by
    rw [List.mem_singleton] at hv
    subst hv
    have s3 := T.three k ak ((T.inside _).2 sk)
    exact (T.wf.three_cyc (T.wf.face_alive _ ak) s3 ak rfl).1) (fun k ak sk => by
    rw [T.area_norm (by linarith) r2 ak (List.mem_singleton.1 sk)]
    norm_num
    linarith) P hE
  have rim : ∀ u, u ≠ 1 → x u = (tentAt z u).E := fun u hu => q4 u (by simpa using hu)
  have k := q5 1 (by simp)
  unfold Mesh.lap at k
  rw [o] at k
  simp only [List.map_cons, List.map_nil, List.sum_cons, List.sum_nil, add_zero, List.length_cons, List.length_nil] at k
  rw [T.cots r1 r2 ((ha 1).2 (by omega)) e.1, T.cots r1 r2 ((ha 4).2 (by omega)) (by simp [e]), T.cots r1 r2 ((ha 7).2 (by omega)) (by simp [e]),
    T.cots r1 r2 ((ha 10).2 (by omega)) (by simp [e])] at k
  simp only [n, e] at k
  rw [rim 2 (by norm_num), rim 3 (by norm_num), rim 4 (by norm_num), rim 5 (by norm_num)] at k
  refine ⟨gr, m', q1, q2, ⟨_, T.at' 1, by simp [tentAt]⟩, ?_⟩
  have q2' : m'.vAlive 1 = true := by rw [q0]; exact (va 1).2 (by omega)
  have q := q3 1 q2'
  obtain ⟨y, hy⟩ := Vec3.E_surj (x 1)
  rw [← hy] at k q
  have i0 : (1 / r) ≠ 0 := by positivity
  rw [← smul_add, ← smul_add, ← smul_add, ← smul_add, ← smul_add, ← smul_add, smul_comm _ (1 / r), ← smul_neg] at k
  have k := smul_right_injective E3 i0 k
  rw [← neg_smul] at k
  simp only [← Vec3.E_sub, ← Vec3.E_smul, ← Vec3.E_add, Vec3.E_inj] at k
  have kx := congrArg Vec3.x k
  have ky := congrArg Vec3.y k
  have kz := congrArg Vec3.z k
  norm_num [tentAt, patchAt, Vec3.sub_def, Vec3.smul, Vec3.add] at kx ky kz
  have : y = ⟨0, 0, -(z / 4)⟩ := by apply Vec3.ext' <;> dsimp only <;> linarith
  rwa [this] at q

/-! ### The hypotheses can be met -/

/-- C79: one of the triangles of the sample as a hole -/
theorem Tent.hole {z : ℝ} {m : Mesh XR} (T : Tent z m) : m.SimpleHole 1 := by
  obtain ⟨e, n, g, h, d, o, o', ha, va, fa⟩ := T.tables
  refine ⟨(fa 1).2 (by omega), (T.tri 1 (.inl rfl)).ge, fun x y hx hy fx fy s => ?_⟩
  obtain ⟨a, b, c, d', e', f', g', h'⟩ := T.tab
  rw [c] at h'
  simp only [List.map_cons, List.map_nil, List.cons.injEq, and_true] at h'
  have key : ∀ k, m.hAlive k = true → m.hFace k = 1 → k = 1 ∨ k = 2 ∨ k = 3 := by
    intro k ak fk
    have := (ha k).1 ak
    by_contra hk
    have : k = 4 ∨ k = 5 ∨ k = 6 ∨ k = 7 ∨ k = 8 ∨ k = 9 ∨ k = 10 ∨ k = 11 ∨ k = 12 ∨ k = 13 ∨ k = 14 ∨ k = 15 ∨ k = 16 := by omega
    rcases this with rfl | rfl | rfl | rfl | rfl | rfl | rfl | rfl | rfl | rfl | rfl | rfl | rfl <;> simp [h'] at fk
  rcases key x hx fx with rfl | rfl | rfl <;> rcases key y hy fy with rfl | rfl | rfl <;> simp [e] at s ⊢

example : ∃ m : Mesh XR, m.WF ∧ m.SimpleHole 1 ∧ m.AtE (fun v => (tentAt 0 v).E) ∧ ∀ solve fuel, ∃ m', holeFillFront id solve (fuel + 1) 1 m = .ok () m' ∧
    m.Filled m' 1 := by
  obtain ⟨m, T⟩ := tent_exists 0
  refine ⟨m, T.wf, T.hole, T.pos, fun solve fuel => ?_⟩
  obtain ⟨m', h1, h2, -⟩ := c79_triangle T.wf T.hole T.pos (T.tri 1 (.inl rfl)) (ord := id) (fun l => .refl l) solve fuel
  exact ⟨m', h1, h2⟩

/-- C79, C80: exactly one vertex is moved, and its normal is defined in every round -/
example : ∃ (m : Mesh XR) (l : List Nat), Tent (3 / 4) m ∧ settleInside 1 m = .ok l m ∧ (∀ v, v ∈ l ↔ v = 1) ∧
    ∀ k, ∃ n, (firstNormals [1] >>= smoothNormals [1] k) m = .ok n m ∧ (n 1).Is (⟨0, 0, 1⟩ : Vec3 ℝ).E := by
  obtain ⟨m, T⟩ := tent_exists (3 / 4)
  obtain ⟨e, n, g, h, d, o, o', ha, va, fa⟩ := T.tables
  obtain ⟨l, h1, h2, h3⟩ := c79_inside T.wf ((fa 1).2 (by omega)) (T.tri 1 (.inl rfl))
  have ns := T.settles (r := 5 / 4) (by norm_num) (by norm_num)
  refine ⟨m, l, T, h1, fun v => (h3 v).trans (T.inside v), fun k => ?_⟩
  obtain ⟨nn, q1, q2, -⟩ := (c80_normals_partial T.wf T.pos (vs := [1]) (fun v hv => by
    rw [List.mem_singleton] at hv
    exact (va v).2 (by omega)) k).2 (by
      rintro (q | ⟨i, hi, q⟩)
      · exact ns (.inl q)
      · refine ns (.inr (.inl ⟨0, by norm_num, ?_⟩))
        have same : (m.blendAll (fun v => (tentAt (3 / 4) v).E) [1])^[i] (m.startNormals (fun v => (tentAt (3 / 4) v).E) [1]) =
            m.startNormals (fun v => (tentAt (3 / 4) v).E) [1] := funext fun u => by
          by_cases hu : u = 1
          · subst hu
            rw [T.rounds i]
            exact (T.rounds 0).symm
          · rw [T.zero_out i hu]
            exact (T.zero_out 0 hu).symm
        rw [same] at q
        exact q)
  exact ⟨nn, q1, T.rounds k ▸ q2 1⟩

/-- C81: two unit vectors that are neither equal nor perpendicular -/
example : ∃ a b : E3, ‖a‖ = 1 ∧ ‖b‖ = 1 ∧ tilt a b a ≠ b ∧ ‖tilt a b a‖ < 1 := by
  have l1 : ‖(⟨0, 3 / 5, 4 / 5⟩ : Vec3 ℝ).E‖ = 1 := by rw [Vec3.E_norm, Vec3.length_def, Vec3.dot_def]; norm_num
  have l2 : ‖(⟨0, 0, 1⟩ : Vec3 ℝ).E‖ = 1 := by rw [Vec3.E_norm, Vec3.length_def, Vec3.dot_def]; norm_num
  have i : inner ℝ (⟨0, 3 / 5, 4 / 5⟩ : Vec3 ℝ).E (⟨0, 0, 1⟩ : Vec3 ℝ).E = 4 / 5 := by rw [Vec3.E_inner, Vec3.dot_def]; norm_num
  obtain ⟨h1, h2⟩ := c81_only_if l1 l2
  refine ⟨_, _, l1, l2, fun q => ?_, ?_⟩
  · rcases h1.1 q with q | q
    · rw [Vec3.E_inj] at q
      have := congrArg Vec3.y q
      norm_num at this
    · rw [i] at q
      norm_num at q
  · rw [i] at h2
    have : ‖tilt (⟨0, 3 / 5, 4 / 5⟩ : Vec3 ℝ).E (⟨0, 0, 1⟩ : Vec3 ℝ).E (⟨0, 3 / 5, 4 / 5⟩ : Vec3 ℝ).E‖ ^ 2 < 1 ^ 2 := by rw [h2]; norm_num
    exact lt_of_pow_lt_pow_left₀ 2 (by norm_num) this

/-- C81: the maps of the faces of the sample are defined -/
example : ∃ (m : Mesh XR) (N : Nat → E3), m.WF ∧ m.AtE (fun v => (tentAt (3 / 4) v).E) ∧ m.fAlive 1 = true ∧ m.sides 1 = 3 ∧
    m.areaVec (fun v => (tentAt (3 / 4) v).E) 1 ≠ 0 ∧ m.cornerSum N 1 ≠ 0 := by
  obtain ⟨m, T⟩ := tent_exists (3 / 4)
  obtain ⟨e, n, g, h, d, o, o', ha, va, fa⟩ := T.tables
  have one : ‖(⟨0, 0, 1⟩ : Vec3 ℝ).E‖ = 1 := by rw [Vec3.E_norm, Vec3.length_def, Vec3.dot_def]; norm_num
  refine ⟨m, m.endNormals (fun v => (tentAt (3 / 4) v).E) [1], T.wf, T.pos, (fa 1).2 (by omega), T.tri 1 (.inl rfl), fun q => ?_, fun q => ?_⟩
  · have := T.area_norm (r := 5 / 4) (by norm_num) (by norm_num) ((ha 1).2 (by omega)) e.1
    rw [h.1, q, norm_zero] at this
    norm_num at this
  · rw [T.corners (.inl rfl)] at q
    rw [q, norm_zero] at one
    norm_num at one

/-- C82: with an exact solver the flat sample stays as it is, the other one goes below the plane -/
example : ∃ m m' : Mesh XR, Tent 0 m ∧ settle id exactSolve 1 m = .ok () m' ∧ m'.AtE (fun v => (tentAt 0 v).E) := by
  obtain ⟨m, T⟩ := tent_exists 0
  obtain ⟨e, n, g, h, d, o, o', ha, va, fa⟩ := T.tables
  obtain ⟨a1, a2, a3, a4⟩ := T.areas
  have r1 : (1 / 2 : ℝ) ≤ 1 := by norm_num
  have r2 : (1 : ℝ) ^ 2 = 1 + 0 ^ 2 := by norm_num
  have one : ‖(⟨0, 0, 1⟩ : Vec3 ℝ).E‖ = 1 := by rw [Vec3.E_norm, Vec3.length_def, Vec3.dot_def]; norm_num
  obtain ⟨m', h1, -, h3⟩ := c82_flat T.wf T.pos ((fa 1).2 (by omega)) (T.tri 1 (.inl rfl)) T.three (T.anchored r1 r2) one (fun k ak i => by
    have sk := (T.inside _).1 i
    refine ⟨?_, ?_⟩
    · rcases o' k ak sk with rfl | rfl | rfl | rfl <;> simp only [h, a1, a2, a3, a4] <;> simp only [mul_zero, neg_zero] <;> exact unitOf_up
    · rw [T.area_norm (by norm_num) r2 ak sk]
      norm_num) (ord := id) (fun l => .refl l) exactSolve_exactSym
  exact ⟨m, m', T, h1, h3⟩

example : ∃ m m' : Mesh XR, Tent (3 / 4) m ∧ settle id exactSolve 1 m = .ok () m' ∧ (m'.vPos 1).Is (⟨0, 0, -(21 / 250)⟩ : Vec3 ℝ).E := by
  obtain ⟨m, T⟩ := tent_exists (3 / 4)
  obtain ⟨m', h1, -, h3⟩ := c82_not_flat T (ord := id) (fun l => .refl l) exactSolve_exactSym
  exact ⟨m, m', T, h1, h3⟩

/-- C82: the same without rotations -/
example : ∃ (m m' : Mesh XR) (g : Nat → Vec3 XR), Tent 1 m ∧ gradients (fun _ => some oneMat) [1] m = .ok g m ∧ poisson exactSolve [1] g m = .ok () m' ∧
    (m'.vPos 1).Is (⟨0, 0, -(1 / 4)⟩ : Vec3 ℝ).E := by
  obtain ⟨m, T⟩ := tent_exists 1
  obtain ⟨g, m', h1, h2, -, h4⟩ := c82_quarter T exactSolve_exactSym
  exact ⟨m, m', g, T, h1, h2, h4⟩

end TinyMesh
