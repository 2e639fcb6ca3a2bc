import Verif.Proof.Examples
import Verif.Props.Works
import Verif.Props.Pieces
import Verif.Props.Fill
/-
The example programs (C110).
-/
set_option maxRecDepth 100000
namespace TinyMesh
open Orbit

section
variable {F : Type} [ScalarX F] {m m' : Mesh F}

omit [ScalarX F] in
theorem facesFilled_eq (H : HolesFilled m m') : (m'.fs.length : Int) = m.facesFilled := by
  have := H.faces
  unfold Mesh.facesFilled
  omega

omit [ScalarX F] in
theorem HolesFilled.euler (H : HolesFilled m m') : m'.euler2 = m.euler2 := by
  have h1 := H.faces
  have h2 := H.halfedges
  unfold Mesh.euler2
  rw [H.vs]
  omega

omit [ScalarX F] in
theorem SamePieces.after {m1 : Mesh F} (e : m1.vAlive = m.vAlive) (h : SamePieces m m1) (h' : SamePieces m1 m') : SamePieces m m' := by
  obtain ⟨f, hf⟩ := h
  obtain ⟨f', hf'⟩ := h'
  refine ⟨f.trans f', fun v a a' => ?_⟩
  have a1 : m1.vAlive v = true := by rw [e]; exact a
  rw [Equiv.trans_apply, hf v a a1, hf' v a1 a']

theorem loop_start (g : m.Good) : ∃ rem, LoopInv m 0 rem m := by
  obtain ⟨rem, -, -, I⟩ := fillHoles_start g.wf
    (fun h a => (g.tri.holds h a).imp_right fun t h' a' e => (t h' a' e).1)
  rw [holeFaces_eq g.wf] at I
  exact ⟨rem, I, fun _ _ => Nat.zero_le _, Nat.zero_le _, fun q hq => ((mem_holeFaces g.wf).1 (I.hole q hq)).2⟩

/-- C110: the loop of the example program over the faces, whose number grows while it runs, ends, and it fills every hole as `fillHoles` does:
the result consists of triangles, vertices and other faces stay. The only other outcome is undefined behaviour because no angle is below the
limit, which cannot happen in exact arithmetic. -/
theorem c110_loop (g : m.Good) {fuel : Nat} (hf : m.fs.length + (m.holeFaces.map m.sides).sum < fuel) :
    (∃ m', exHoleFill fuel m = .ok () m' ∧ HolesFilled m m') ∨ exHoleFill fuel m = .err .ub := by
  obtain ⟨rem, L⟩ := loop_start g
  rcases fillEach_ok g.wf (fun f hf => ⟨((mem_holeFaces g.wf).1 hf).1, g.three_sides ((mem_holeFaces g.wf).1 hf).1⟩) (AngleCap.any m)
    (Scalar.pi / Scalar.lit 6 1) fuel 0 L hf with ⟨-, h⟩ | ⟨m', h, I⟩
  · exact .inr h
  · exact .inl ⟨m', h, I.filled g.wf⟩

/-- C110: the same in exact arithmetic: the loop succeeds. -/
theorem c110_loop_exact {m : Mesh XR} (g : m.Good) {p : Nat → E3} (A : m.AtE p) {fuel : Nat}
    (hf : m.fs.length + (m.holeFaces.map m.sides).sum < fuel) : ∃ m', exHoleFill fuel m = .ok () m' ∧ HolesFilled m m' := by
  obtain ⟨rem, L⟩ := loop_start g
  rcases fillEach_ok g.wf (fun f hf => ⟨((mem_holeFaces g.wf).1 hf).1, g.three_sides ((mem_holeFaces g.wf).1 hf).1⟩) (AngleCap.exact ⟨p, A⟩)
    (Scalar.pi / Scalar.lit 6 1) fuel 0 L hf with ⟨h, -⟩ | ⟨m', h, I⟩
  · exact absurd trivial h
  · exact ⟨m', h, I.filled g.wf⟩

/-- what is common to the programs: the holes are filled first -/
theorem after_fill (g : m.Good) (c : m.Chordless m.holeFaces) {rest : M F Unit} {J : Mesh F → Prop} {E : Err → Prop}
    (K : ∀ m1, HolesFilled m m1 → m1.Good → CallOut J E m1 (rest m1)) :
    (∃ m', (fillHoles >>= fun _ => rest) m = .ok () m' ∧ m'.Good ∧ m'.euler2 = m.euler2 ∧ SamePieces m m' ∧ J m') ∨
      (∃ e, E e ∧ (fillHoles >>= fun _ => rest) m = .err e) ∨ fillHoles m = .err .ub ∧ (fillHoles >>= fun _ => rest) m = .err .ub := by
  rw [bind_apply]
  rcases c21_fill g with ⟨m1, e, H⟩ | e
  · have g1 := c55_simple_partial g c e
    rw [e]
    rcases K m1 H g1 with ⟨m', e', d, j⟩ | ⟨x, hx, e'⟩
    · exact .inl ⟨m', e', d.good, d.euler.trans H.euler, (c97_fill g e).after H.vAlive (d.pieces.pieces g1.wf), j⟩
    · exact .inr (.inl ⟨x, hx, e'⟩)
  · rw [e]
    exact .inr (.inr ⟨rfl, rfl⟩)

theorem addNoise_ok (draw : Nat → Vec3 F) (len : F) : ∀ (is : List Nat) {m : Mesh F}, m.WF → (∀ i ∈ is, i < m.vs.length) →
    ∃ m', addNoise draw len is m = .ok () m' ∧ m.SameButPos m'
  | [], m, _, _ => ⟨m, rfl, rfl⟩
  | i :: is, m, w, h => by
    have hl := h i (by simp)
    have hv : m.vs[i]? = some m.vs[i] := List.getElem?_eq_getElem hl
    have a := w.vDense.alive_at hv
    obtain ⟨m', r, s⟩ := addNoise_ok draw len is (m := { m with vPos := upd m.vPos m.vs[i] ((m.vPos m.vs[i]).add (Vec3.smul len (draw i))) })
      (w.setPos _) fun j hj => h j (by simp [hj])
    refine ⟨m', ?_, s⟩
    unfold addNoise
    rw [bind_apply, vertexAt_ok hv]; dsimp only
    rw [bind_apply, getPos_ok a]; dsimp only
    rw [bind_apply, vertexAt_ok hv]; dsimp only
    rw [bind_apply, setPos_run a]
    exact r

theorem two_calls {c1 c2 : Call F} (g : m.Good) (f1 : c1.Fits m) (f2 : ∀ m', c2.Fits m') :
    CallOut (fun _ => True) (fun e => e = .abort ∨ e = .throw) m ((c1.run >>= fun _ => c2.run) m) := by
  rw [bind_apply]
  rcases call_any g f1 with ⟨m1, e, d, -⟩ | ⟨x, hx, e⟩
  · rw [e]
    rcases call_any d.good (f2 m1) with ⟨m2, e2, d2, -⟩ | ⟨x, hx, e2⟩
    · exact .inl ⟨m2, e2, d.trans d2, trivial⟩
    · exact .inr ⟨x, hx, e2⟩
  · rw [e]
    exact .inr ⟨x, hx, rfl⟩

/-- C110: each of the example programs, on a consistent mesh whose holes have no chords, ends with a consistent mesh with the same Euler
characteristic and the same pieces, or a check of the library stops it, or no angle is below the limit of `fillHoles`, or its loop has not ended
(`denoiseL0Smooth` only). -/
theorem c110_safe (g : m.Good) (c : m.Chordless m.holeFaces) {e : Example F} (f : e.Fits m) :
    (∃ m', e.run m = .ok () m' ∧ m'.Good ∧ m'.euler2 = m.euler2 ∧ SamePieces m m') ∨ e.run m = .err .abort ∨ e.run m = .err .throw ∨
      (e.run m = .err .diverge ∧ e.IsL0) ∨ (e.run m = .err .ub ∧ fillHoles m = .err .ub) := by
  have key : ∀ {rest : M F Unit}, (∀ m1, HolesFilled m m1 → m1.Good →
      CallOut (fun _ => True) (fun x => x = .abort ∨ x = .throw ∨ x = .diverge ∧ e.IsL0) m1 (rest m1)) → e.run m = (fillHoles >>= fun _ => rest) m →
      (∃ m', e.run m = .ok () m' ∧ m'.Good ∧ m'.euler2 = m.euler2 ∧ SamePieces m m') ∨ e.run m = .err .abort ∨ e.run m = .err .throw ∨
      (e.run m = .err .diverge ∧ e.IsL0) ∨ (e.run m = .err .ub ∧ fillHoles m = .err .ub) := by
    intro rest K r
    rw [r]
    rcases after_fill g c K with ⟨m', h, G, h1, h2, -⟩ | ⟨x, rfl | rfl | ⟨rfl, l⟩, h⟩ | ⟨h, h'⟩
    · exact .inl ⟨m', h, G, h1, h2⟩
    · exact .inr (.inl h)
    · exact .inr (.inr (.inl h))
    · exact .inr (.inr (.inr (.inl ⟨h, l⟩)))
    · exact .inr (.inr (.inr (.inr ⟨h', h⟩)))
  have weak : ∀ {m1 : Mesh F} {o : Out F Unit}, CallOut (fun _ => True) (fun x => x = .abort ∨ x = .throw) m1 o →
      CallOut (fun _ => True) (fun x => x = .abort ∨ x = .throw ∨ x = .diverge ∧ e.IsL0) m1 o := by
    rintro m1 o (h | ⟨x, rfl | rfl, h⟩)
    · exact .inl h
    · exact .inr ⟨_, .inl rfl, h⟩
    · exact .inr ⟨_, .inr (.inl rfl), h⟩
  cases e with
  | remesh sh keep => exact key (fun m1 _ g1 => weak (call_any (c := .remesh sh _ _ keep 5) g1 trivial)) rfl
  | simplify S ord sh toInt ratio =>
    obtain ⟨ho, t, ht, hi⟩ := f
    refine key (rest := (Call.simplify S ord t 10).run >>= fun _ => (Call.remesh sh (Scalar.lit 0 1) (Scalar.lit 1000000 1) (Scalar.lit 0 1) 5).run)
      (fun m1 H g1 => weak (two_calls g1 ⟨by rw [facesFilled_eq H]; exact hi, ho⟩ fun _ => trivial)) ?_
    simp only [Example.run]
    rw [bind_apply, read_apply]
    dsimp only
    rw [ht]
    rfl
  | laplacian => exact key (fun m1 _ g1 => weak (call_any (c := .laplacian _ true 100) g1 trivial)) rfl
  | taubin => exact key (fun m1 _ g1 => weak (call_any (c := .taubin _ _ 100) g1 (by simp [Call.Fits]))) rfl
  | fairing solve =>
    refine key (rest := implicitFairing solve (Scalar.lit 1 100) 1) (fun m1 _ g1 => ?_) rfl
    obtain ⟨m2, r, s⟩ := c109_fairing g1.wf solve (Scalar.lit 1 100) 1
    exact .inl ⟨m2, r, s.callDone g1, trivial⟩
  | noise draw =>
    refine key (rest := meanEdgeLength >>= fun len => M.read (fun m => m.vs.length) >>= fun n => addNoise draw len (List.range n))
      (fun m1 _ g1 => ?_) rfl
    obtain ⟨r, hr⟩ := meanEdgeLength_ok g1.wf
    rw [bind_apply, hr]; dsimp only
    rw [bind_apply, read_apply]; dsimp only
    obtain ⟨m2, r2, s⟩ := addNoise_ok draw r (List.range m1.vs.length) g1.wf fun i hi => List.mem_range.1 hi
    exact .inl ⟨m2, r2, s.callDone g1, trivial⟩
  | gaussian sigma =>
    refine key (rest := denoiseNormalGaussian sigma 10) (fun m1 _ g1 => weak ?_) rfl
    rcases c109_normals g1.wf (.inl ⟨sigma, 10, rfl⟩) with ⟨m2, r, s⟩ | r | ⟨r, -⟩
    · exact .inl ⟨m2, r, s.callDone g1, trivial⟩
    · exact .inr ⟨_, .inr rfl, r⟩
    · exact .inr ⟨_, .inl rfl, r⟩
  | bilateral sigma =>
    refine key (rest := denoiseNormalBilateral sigma (Scalar.lit 1 10) 10) (fun m1 _ g1 => weak ?_) rfl
    rcases c109_normals g1.wf (.inr ⟨sigma, Scalar.lit 1 10, 10, rfl⟩) with ⟨m2, r, s⟩ | r | ⟨r, -⟩
    · exact .inl ⟨m2, r, s.callDone g1, trivial⟩
    · exact .inr ⟨_, .inr rfl, r⟩
    · exact .inr ⟨_, .inl rfl, r⟩
  | l0 solve order fuel =>
    refine key (rest := denoiseL0Smooth solve order fuel (Scalar.lit 1 10) (Scalar.lit 1 1000)) (fun m1 _ g1 => ?_) rfl
    rcases c109_l0 g1.wf solve f fuel (Scalar.lit 1 10) (Scalar.lit 1 1000) with ⟨m2, r, s⟩ | r | r
    · exact .inl ⟨m2, r, s.callDone g1, trivial⟩
    · exact .inr ⟨_, .inr (.inl rfl), r⟩
    · exact .inr ⟨_, .inr (.inr ⟨rfl, trivial⟩), r⟩

/-- C110: the assertion in the filters of normals cannot fail in the example programs, as all holes have been filled; chords do not matter
here. -/
theorem c110_triangles (g : m.Good) {e : Example F} (he : e.Divides) :
    (∃ m1 m', fillHoles m = .ok () m1 ∧ HolesFilled m m1 ∧ e.run m = .ok () m' ∧ m1.SameButPos m') ∨ e.run m = .err .throw ∨
      (e.run m = .err .ub ∧ fillHoles m = .err .ub) := by
  have key : ∀ {rest : M F Unit}, (∀ m1, HolesFilled m m1 →
      (∃ m', rest m1 = .ok () m' ∧ m1.SameButPos m') ∨ rest m1 = .err .throw) → e.run m = (fillHoles >>= fun _ => rest) m →
      (∃ m1 m', fillHoles m = .ok () m1 ∧ HolesFilled m m1 ∧ e.run m = .ok () m' ∧ m1.SameButPos m') ∨ e.run m = .err .throw ∨
      (e.run m = .err .ub ∧ fillHoles m = .err .ub) := by
    intro rest K r
    rw [r, bind_apply]
    rcases c21_fill g with ⟨m1, h, H⟩ | h
    · rw [h]
      rcases K m1 H with ⟨m', h', s⟩ | h'
      · exact .inl ⟨m1, m', rfl, H, h', s⟩
      · exact .inr (.inl h')
    · rw [h]
      exact .inr (.inr ⟨rfl, rfl⟩)
  have tri : ∀ m1, HolesFilled m m1 → ∀ f, m1.fAlive f = true → m1.sides f = 3 := by
    intro m1 H f a
    exact H.three g a
  cases e with
  | laplacian =>
    refine key (rest := smoothLaplacian (Scalar.lit 1 2) true 100) (fun m1 H => ?_) rfl
    rcases c27_laplacian (Scalar.lit 1 2 : F) true 100 H.consistent with h | ⟨m', h, s, -⟩
    · exact .inr h
    · exact .inl ⟨m', h, s⟩
  | gaussian sigma =>
    refine key (rest := denoiseNormalGaussian sigma 10) (fun m1 H => ?_) rfl
    rcases c109_normals H.consistent (.inl ⟨sigma, 10, rfl⟩) with h | h | ⟨-, f, a, n⟩
    · exact .inl h
    · exact .inr h
    · exact absurd (tri m1 H f a) n
  | bilateral sigma =>
    refine key (rest := denoiseNormalBilateral sigma (Scalar.lit 1 10) 10) (fun m1 H => ?_) rfl
    rcases c109_normals H.consistent (.inr ⟨sigma, Scalar.lit 1 10, 10, rfl⟩) with h | h | ⟨-, f, a, n⟩
    · exact .inl h
    · exact .inr h
    · exact absurd (tri m1 H f a) n
  | _ => exact he.elim

end

theorem fill_atE {m : Mesh XR} (g : m.Good) {p : Nat → E3} (A : m.AtE p) : ∃ m1, fillHoles m = .ok () m1 ∧ HolesFilled m m1 ∧ m1.AtE p := by
  have h1 : ∀ v, m.vAlive v = true → ∃ w : Vec3 ℝ, m.vPos v = w.fin := fun v a => by
    obtain ⟨w, hw, -⟩ := A v a
    exact ⟨w, hw⟩
  haveI : Nonempty (Vec3 ℝ) := ⟨Vec3.zero⟩
  choose! q hq using h1
  obtain ⟨m', e, H⟩ := c21_fill_exact g (p := q) hq
  refine ⟨m', e, H, fun v a => ?_⟩
  rw [H.vPos]
  exact A v (by rw [← H.vAlive]; exact a)

theorem two_calls_exact {m : Mesh XR} {c1 c2 : Call XR} (g : m.Good) (j : FinPos m) (f1 : c1.Fits m) (s1 : c1.Sound m)
    (f2 : ∀ m', c2.Fits m') (s2 : ∀ m', c2.Sound m') : ∃ m', (c1.run >>= fun _ => c2.run) m = .ok () m' ∧ CallDone m m' := by
  obtain ⟨m1, e, d, j1⟩ := call_exact g j f1 s1
  obtain ⟨m2, e2, d2, -⟩ := call_exact d.good j1 (f2 m1) (s2 m1)
  exact ⟨m2, by rw [bind_apply, e]; exact e2, d.trans d2⟩

/-- C110: in exact arithmetic, on a consistent mesh with finite positions whose holes have no chords, the programs that remesh, simplify with
a target that is not zero, smooth by Taubin's method, fair and add noise succeed. -/
theorem c110_exact {m : Mesh XR} (g : m.Good) {p : Nat → E3} (A : m.AtE p) (c : m.Chordless m.holeFaces) {e : Example XR} (f : e.Fits m)
    (s : e.Sound m) : ∃ m', e.run m = .ok () m' ∧ m'.Good ∧ m'.euler2 = m.euler2 ∧ SamePieces m m' := by
  obtain ⟨m1, r, H, A1⟩ := fill_atE g A
  have g1 := c55_simple_partial g c r
  have key : ∀ {rest : M XR Unit}, (∃ m', rest m1 = .ok () m' ∧ CallDone m1 m') → e.run m = (fillHoles >>= fun _ => rest) m →
      ∃ m', e.run m = .ok () m' ∧ m'.Good ∧ m'.euler2 = m.euler2 ∧ SamePieces m m' := by
    rintro rest ⟨m', e', d⟩ h
    refine ⟨m', by rw [h, bind_apply, r]; exact e', d.good, d.euler.trans H.euler, (c97_fill g r).after H.vAlive (d.pieces.pieces g1.wf)⟩
  cases e with
  | remesh sh keep =>
    refine key (rest := (Call.remesh sh (Scalar.lit 8 10) (Scalar.lit 1333 1000) keep 5).run) ?_ rfl
    obtain ⟨m', e', d, -⟩ := call_exact (c := .remesh sh (Scalar.lit 8 10) (Scalar.lit 1333 1000) keep 5) g1 ⟨p, A1⟩ trivial trivial
    exact ⟨m', e', d⟩
  | simplify S ord sh toInt ratio =>
    obtain ⟨ho, t, ht, hi⟩ := f
    refine key (rest := (Call.simplify S ord t 10).run >>= fun _ => (Call.remesh sh (Scalar.lit 0 1) (Scalar.lit 1000000 1) (Scalar.lit 0 1) 5).run)
      (two_calls_exact g1 ⟨p, A1⟩ ⟨by rw [facesFilled_eq H]; exact hi, ho⟩ ⟨s.1, fun h => s.2 (by rw [ht, h])⟩ (fun _ => trivial)
        fun _ => trivial) ?_
    simp only [Example.run]
    rw [bind_apply, read_apply]
    dsimp only
    rw [ht]
    rfl
  | taubin =>
    refine key (rest := smoothTaubin (Scalar.lit 1 2) (Scalar.lit 53 100) 100) ?_ rfl
    obtain ⟨m', e', d, -⟩ := call_exact (c := .taubin (Scalar.lit 1 2) (Scalar.lit 53 100) 100) g1 ⟨p, A1⟩ (by simp [Call.Fits])
      ⟨⟨_, X_lit 1 2⟩, ⟨_, X_lit 53 100⟩⟩
    exact ⟨m', e', d⟩
  | fairing solve =>
    refine key (rest := implicitFairing solve (Scalar.lit 1 100) 1) ?_ rfl
    obtain ⟨m2, r, s⟩ := c109_fairing g1.wf solve (Scalar.lit 1 100) 1
    exact ⟨m2, r, s.callDone g1⟩
  | noise draw =>
    refine key (rest := meanEdgeLength >>= fun len => M.read (fun m => m.vs.length) >>= fun n => addNoise draw len (List.range n)) ?_ rfl
    obtain ⟨r, hr⟩ := meanEdgeLength_ok g1.wf
    rw [bind_apply, hr]; dsimp only
    rw [bind_apply, read_apply]; dsimp only
    obtain ⟨m2, r2, s⟩ := addNoise_ok draw r (List.range m1.vs.length) g1.wf fun i hi => List.mem_range.1 hi
    exact ⟨m2, r2, s.callDone g1⟩
  | _ => exact s.elim

/-- C110: the example program that simplifies fails by an assertion whenever the ratio times the number of faces is below one, for example with the
default ratio and at most nine faces. -/
theorem c110_few_faces {m : Mesh XR} (g : m.Good) {p : Nat → E3} (A : m.AtE p) (S : Solver XR)
    (ord : Nat → List (Nat × Vec3 XR) → List (Nat × Vec3 XR)) (sh : Nat → Bool → Nat → List Nat) {toInt : XR → Option Int} (ht : Truncates toInt)
    {ratio : ℝ} (h0 : 0 ≤ ratio) (h1 : ratio * m.fs.length < 1) (hi : m.facesFilled ≤ 2147483647) :
    (Example.simplify S ord sh toInt (.fin ratio)).run m = .err .abort := by
  obtain ⟨m1, r, H, A1⟩ := fill_atE g A
  have e : toInt (XR.fin ratio * Scalar.lit m.fs.length 1) = some 0 := by
    have : XR.fin ratio * Scalar.lit m.fs.length 1 = XR.fin (ratio * m.fs.length) := by
      rw [X_lit, R_lit]
      simp
    rw [this, ht _ (mul_nonneg h0 (Nat.cast_nonneg _)) (by linarith)]
    congr 1
    rw [Int.floor_eq_zero_iff]
    exact ⟨mul_nonneg h0 (Nat.cast_nonneg _), h1⟩
  simp only [Example.run]
  rw [bind_apply, read_apply]
  dsimp only
  rw [e]
  dsimp only
  rw [bind_apply, r]
  dsimp only
  rw [bind_apply, c26_zero]
  have := facesFilled_eq H
  omega

/-- C110: if the ratio times the number of faces is at least one and fits into `int`, it succeeds. -/
theorem c110_enough_faces {m : Mesh XR} (g : m.Good) {p : Nat → E3} (A : m.AtE p) (c : m.Chordless m.holeFaces) {S : Solver XR} (hS : S.Exact)
    {ord : Nat → List (Nat × Vec3 XR) → List (Nat × Vec3 XR)} (ho : ∀ n l, ∀ c ∈ ord n l, c ∈ l) (sh : Nat → Bool → Nat → List Nat)
    {toInt : XR → Option Int} (ht : Truncates toInt) {ratio : ℝ} (h0 : 0 ≤ ratio) (h1 : 1 ≤ ratio * m.fs.length)
    (h2 : ratio * m.fs.length < 2147483648) (hi : m.facesFilled ≤ 2147483647) :
    ∃ m', (Example.simplify S ord sh toInt (.fin ratio)).run m = .ok () m' ∧ m'.Good ∧ m'.euler2 = m.euler2 ∧ SamePieces m m' := by
  have e : toInt (XR.fin ratio * Scalar.lit m.fs.length 1) = some ⌊ratio * m.fs.length⌋ := by
    have : XR.fin ratio * Scalar.lit m.fs.length 1 = XR.fin (ratio * m.fs.length) := by
      rw [X_lit, R_lit]
      simp
    rw [this, ht _ (mul_nonneg h0 (Nat.cast_nonneg _)) h2]
  have pos : 1 ≤ ⌊ratio * (m.fs.length : ℝ)⌋ := Int.le_floor.2 (by exact_mod_cast h1)
  refine c110_exact g A c ⟨ho, _, e, by omega⟩ ⟨hS, ?_⟩
  rw [e]
  intro h
  have := Option.some.inj h
  omega

/-- C110: the example program with `denoiseL0Smooth` ends and succeeds if the mesh has an edge. -/
theorem c110_l0_ends : ∃ N, ∀ {m : Mesh XR} {p : Nat → E3}, m.Good → m.AtE p → m.hes ≠ [] →
    ∀ (solve : LinSolve XR) {order : List Nat → List Nat}, (∀ l, (order l).Perm l) →
      ∃ m1 m', fillHoles m = .ok () m1 ∧ (∀ fuel, N < fuel → (Example.l0 solve order fuel).run m = .ok () m') ∧ m1.SameButPos m' := by
  obtain ⟨N, h⟩ := c109_l0_ends (beta := 1 / 1000) (by norm_num)
  refine ⟨N, fun {m p} g A hne solve order ho => ?_⟩
  obtain ⟨m1, r, H, A1⟩ := fill_atE g A
  have ne1 : m1.hes ≠ [] := by
    obtain ⟨x, hx⟩ := List.exists_mem_of_ne_nil _ hne
    exact List.ne_nil_of_mem ((H.consistent.hDense.mem x).2 (H.kept x ((g.wf.hDense.mem x).1 hx)).1)
  obtain ⟨m', h', s⟩ := h H.consistent A1 ne1 solve ho (1 / 10)
  refine ⟨m1, m', r, fun fuel hf => ?_, s⟩
  have l1 : (Scalar.lit 1 10 : XR) = .fin (1 / 10) := by rw [X_lit, R_lit]; norm_num
  have l2 : (Scalar.lit 1 1000 : XR) = .fin (1 / 1000) := by rw [X_lit, R_lit]; norm_num
  simp only [Example.run]
  rw [bind_apply, r, l1, l2]
  exact h' fuel hf

/-! ### The hypotheses can be met -/

attribute [local instance] Sample.ratScalar in
open Sample in
/-- the pyramid without its base, as a mesh over the reals: it has five faces, one of which is a hole with four corners and no chords -/
theorem pyramid_facts : ∃ (m : Mesh XR) (p : Nat → E3), m.Good ∧ m.AtE p ∧ m.Chordless m.holeFaces ∧ m.fs.length = 5 ∧
    m.holeFaces.map m.sides = [4] ∧ m.facesFilled = 6 ∧ m.hes ≠ [] := by
  obtain ⟨u, m, l, m1, h1, h2, h3⟩ := thenSt_iff (o := pyramidMesh) (f := fun m => .ok () m) (p := fun m l m' =>
    decide (((∀ f ∈ m.holeFaces, ∀ c ∈ m.hes, ∀ c' ∈ m.hes, m.hFace c = f → m.hFace c' = f → m.hSrc c = m.hSrc c' → c = c') ∧
    (∀ f ∈ m.holeFaces, ∀ c ∈ m.hes, m.hFace c = f → ∀ c' ∈ m.hes, m.hFace c' = f → c ≠ c' → m.hNext c ≠ c' → m.hNext c' ≠ c →
      ∀ h ∈ m.hes, m.hSrc h = m.hSrc c → m.hSrc (m.hNext h) ≠ m.hSrc c') ∧
    (∀ f ∈ m.holeFaces, ∀ f' ∈ m.holeFaces, f = f')) ∧ m.fs.length = 5 ∧ m.holeFaces.map m.sides = [4] ∧ m.facesFilled = 6 ∧ m.hes ≠ []))
    (by decide +kernel)
  cases u
  obtain ⟨⟨a, b, c⟩, d⟩ := of_decide_eq_true h3
  have G := c01_construct_consistent (Owned.empty _) h1
  have al : ∀ h, m.hAlive h = true → h ∈ m.hes := fun h => (G.wf.hDense.mem h).2
  have ch : m.Chordless m.holeFaces :=
    ⟨fun f hf x x' ax ax' => a f hf x (al x ax) x' (al x' ax'),
     fun f hf x x' D h ah => b f hf x (al x D.1) D.2.1 x' (al x' D.2.2.1) D.2.2.2.1 D.2.2.2.2.1 D.2.2.2.2.2.1 D.2.2.2.2.2.2 h (al h ah),
     fun f hf f' hf' ne => absurd (c f hf f' hf') ne⟩
  refine ⟨m.overR fun v => (m.vPos v).toR, fun v => ((m.vPos v).toR).E, G.over _, fun v a => ⟨_, m.overR_at (fun v => (m.vPos v).toR) v a, rfl⟩,
    ⟨ch.1, ch.2, ch.3⟩, d⟩

/-- a conversion to `int` -/
noncomputable def floorInt : XR → Option Int
  | .fin r => some ⌊r⌋
  | _ => none

theorem floorInt_ok : Truncates floorInt := fun _ _ _ => rfl

/-- the loop fills the hole of the pyramid -/
example : ∃ m m' : Mesh XR, m.holeFaces.map m.sides = [4] ∧ exHoleFill 10 m = .ok () m' ∧ HolesFilled m m' ∧ m'.fs.length = 6 := by
  obtain ⟨m, p, g, A, -, f5, h4, h6, -⟩ := pyramid_facts
  obtain ⟨m', r, H⟩ := c110_loop_exact g A (fuel := 10) (by rw [h4, f5]; decide)
  have := facesFilled_eq H
  exact ⟨m, m', h4, r, H, by omega⟩

/-- on the pyramid, the program that simplifies fails with the default ratio and succeeds with the ratio one half; with a strange number on the
command line it meets the hypotheses of `c110_safe` -/
example : ∃ (m m' : Mesh XR) (sh : Nat → Bool → Nat → List Nat) (ord : Nat → List (Nat × Vec3 XR) → List (Nat × Vec3 XR)),
    (Example.simplify exactSolver ord sh floorInt (.fin (1 / 10))).run m = .err .abort ∧
    (Example.simplify exactSolver ord sh floorInt (.fin (1 / 2))).run m = .ok () m' ∧ m'.Good ∧
    (Example.simplify exactSolver ord sh (fun _ => some (-7)) .nan).Fits m ∧ m.Good ∧ m.Chordless m.holeFaces := by
  obtain ⟨m, p, g, A, c, f5, h4, h6, -⟩ := pyramid_facts
  have few := c110_few_faces g A exactSolver (fun _ => List.reverse) (fun _ _ => List.range) floorInt_ok (ratio := 1 / 10) (by norm_num)
    (by rw [f5]; norm_num) (by omega)
  obtain ⟨m', r, G, -⟩ := c110_enough_faces g A c exactSolver_exact (ord := fun _ => List.reverse) (fun _ _ _ h => List.mem_reverse.1 h)
    (fun _ _ => List.range) floorInt_ok (ratio := 1 / 2) (by norm_num) (by rw [f5]; norm_num) (by rw [f5]; norm_num) (by omega)
  exact ⟨m, m', _, _, few, r, G, ⟨fun _ _ _ h => List.mem_reverse.1 h, -7, rfl, by rw [h6]; decide⟩, g, c⟩

/-- programs on the pyramid that succeed, and one that divides and meets the hypotheses of `c110_triangles` -/
example : ∃ m : Mesh XR, m.Good ∧ m.holeFaces ≠ [] ∧ (∃ m', (Example.remesh (fun _ _ => List.range) .nan).run m = .ok () m') ∧
    (∃ m', (Example.fairing fun _ _ _ _ => .nan).run m = .ok () m') ∧
    (∃ m', (Example.noise fun _ => (⟨1, 2, 3⟩ : Vec3 ℝ).fin).run m = .ok () m') ∧
    (∃ fuel m', (Example.l0 (fun _ _ _ _ => .nan) List.reverse fuel).run m = .ok () m') ∧
    (Example.gaussian (F := XR) .pinf).Divides := by
  obtain ⟨m, p, g, A, c, f5, h4, h6, hne⟩ := pyramid_facts
  obtain ⟨m1, r1, -⟩ := c110_exact g A c (e := .remesh (fun _ _ => List.range) .nan) trivial trivial
  obtain ⟨m2, r2, -⟩ := c110_exact g A c (e := .fairing fun _ _ _ _ => .nan) trivial trivial
  obtain ⟨m3, r3, -⟩ := c110_exact g A c (e := .noise fun _ => (⟨1, 2, 3⟩ : Vec3 ℝ).fin) trivial fun _ => ⟨_, rfl⟩
  obtain ⟨N, h⟩ := c110_l0_ends
  obtain ⟨_, m4, -, r4, -⟩ := h g A hne (fun _ _ _ _ => .nan) (order := List.reverse) fun l => List.reverse_perm l
  refine ⟨m, g, fun e => ?_, ⟨m1, r1⟩, ⟨m2, r2⟩, ⟨m3, r3⟩, ⟨N + 1, m4, r4 _ (Nat.lt_succ_self N)⟩, trivial⟩
  rw [e] at h4
  cases h4

end TinyMesh
