import Verif.Proof.Handles
import Verif.Props.Examples
import Verif.Props.Edit
import Verif.Proof.SettleD
import Verif.Props.Repair
/-
Pointers to vertices and faces that a client keeps (C111).
-/
set_option maxRecDepth 100000
namespace TinyMesh
open Orbit

section
variable {F : Type} [ScalarX F] {m m' : Mesh F}

theorem runSteps_any : ∀ (ts : List (Step F)) {m : Mesh F} {p : Ptrs} {s : Marks}, m.Good → m.Holds p s → StepsPermitted m p s ts →
    (∃ p' m', runSteps p ts m = .ok p' m' ∧ m'.Good ∧ m'.Holds p' (ts.foldl Marks.next s)) ∨
      ∃ e, runSteps p ts m = .err e ∧ (e = .abort ∨ e = .throw ∨ e = .diverge ∧ (∃ t ∈ ts, t.IsL0) ∨ e = .ub ∧ ∃ t ∈ ts, t.IsFill)
  | [], m, p, s, g, H, _ => .inl ⟨p, m, rfl, g, H⟩
  | t :: ts, m, p, s, g, H, ok => by
    rcases step_any g H ok.1 with ⟨p1, m1, e, g1, H1⟩ | ⟨x, e, hx⟩
    · have k : runSteps p (t :: ts) m = runSteps p1 ts m1 := by rw [runSteps, bind_apply, e]
      rw [k]
      refine (runSteps_any ts g1 H1 (ok.2 p1 m1 e)).imp_right fun ⟨x, hx, h⟩ => ⟨x, hx, ?_⟩
      exact h.imp_right (Or.imp_right (Or.imp (And.imp_right fun ⟨y, hy, z⟩ => ⟨y, List.mem_cons_of_mem _ hy, z⟩)
        (And.imp_right fun ⟨y, hy, z⟩ => ⟨y, List.mem_cons_of_mem _ hy, z⟩)))
    · refine .inr ⟨x, by rw [runSteps, bind_apply, e], ?_⟩
      exact hx.imp_right (Or.imp_right (Or.imp (And.imp_right fun z => ⟨t, List.mem_cons_self, z⟩)
        (And.imp_right fun z => ⟨t, List.mem_cons_self, z⟩)))

omit [ScalarX F] in
theorem holds_nil (m : Mesh F) : m.Holds ⟨[], []⟩ ⟨0, 0, 0, 0⟩ := ⟨rfl, rfl, by simp, by simp⟩

/-- C111: a program that keeps pointers to vertices and faces and uses each of them only until a function that may remove elements has been
called (`collapseHE`, `remeshTriangular`, `simplifyQEM`, and for faces also filling a hole) never reads freed memory. It ends with a consistent
mesh that still has the elements to which its usable pointers point, or a check of the library stops it, or a filling finds no angle below its limit,
or the loop of `denoiseL0Smooth` has not ended. -/
theorem c111_safe (g : m.Good) {ts : List (Step F)} (ok : StepsPermitted m ⟨[], []⟩ ⟨0, 0, 0, 0⟩ ts) :
    (∃ p' m', runSteps ⟨[], []⟩ ts m = .ok p' m' ∧ m'.Good ∧ m'.Holds p' (ts.foldl Marks.next ⟨0, 0, 0, 0⟩)) ∨
      ∃ e, runSteps ⟨[], []⟩ ts m = .err e ∧
        (e = .abort ∨ e = .throw ∨ e = .diverge ∧ (∃ t ∈ ts, t.IsL0) ∨ e = .ub ∧ ∃ t ∈ ts, t.IsFill) :=
  runSteps_any ts g (holds_nil m) ok

theorem runSteps_keeps : ∀ (ts : List (Step F)) {m m' : Mesh F} {p p' : Ptrs} {s : Marks}, m.Good → m.Holds p s → StepsPermitted m p s ts →
    runSteps p ts m = .ok p' m' → ((∀ t ∈ ts, t.KeepsV) → m.vs <+: m'.vs) ∧ ((∀ t ∈ ts, t.KeepsF) → m.fs <+: m'.fs)
  | [], m, m', p, p', s, _, _, _, e => by cases e; exact ⟨fun _ => List.prefix_refl _, fun _ => List.prefix_refl _⟩
  | t :: ts, m, m', p, p', s, g, H, ok, e => by
    rw [runSteps, bind_apply] at e
    rcases step_any g H ok.1 with ⟨p1, m1, e1, g1, H1⟩ | ⟨x, e1, hx⟩
    · rw [e1] at e
      have k := runSteps_keeps ts g1 H1 (ok.2 p1 m1 e1) e
      have k1 := step_keeps g H ok.1 e1
      exact ⟨fun h => (k1.1 (h t List.mem_cons_self)).trans (k.1 fun y hy => h y (List.mem_cons_of_mem _ hy)),
        fun h => (k1.2 (h t List.mem_cons_self)).trans (k.2 fun y hy => h y (List.mem_cons_of_mem _ hy))⟩
    · rw [e1] at e
      cases e

/-- C111: as long as no step may remove vertices, `mesh.vertex(i)` denotes the same vertex; the same for faces. -/
theorem c111_index (g : m.Good) {ts : List (Step F)} (ok : StepsPermitted m ⟨[], []⟩ ⟨0, 0, 0, 0⟩ ts) {p' : Ptrs}
    (e : runSteps ⟨[], []⟩ ts m = .ok p' m') :
    ((∀ t ∈ ts, t.KeepsV) → ∀ i v : Nat, vertexAt i m = .ok v m → vertexAt i m' = .ok v m') ∧
    ((∀ t ∈ ts, t.KeepsF) → ∀ i f : Nat, faceAt i m = .ok f m → faceAt i m' = .ok f m') := by
  have k := runSteps_keeps ts g (holds_nil m) ok e
  have up : ∀ {l l' : List Nat} {i x : Nat}, l <+: l' → l[i]? = some x → l'[i]? = some x := by
    rintro l _ i x ⟨r, rfl⟩ h
    rw [List.getElem?_append_left (List.getElem?_eq_some_iff.1 h).1, h]
  have toV : ∀ {i v : Nat}, vertexAt i m = .ok v m → m.vs[i]? = some v := by
    intro i v h
    rcases h' : m.vs[i]? with _ | y
    · simp [vertexAt, arrayAt, h'] at h
    · rw [vertexAt_ok h'] at h; cases h; rfl
  have toF : ∀ {i f : Nat}, faceAt i m = .ok f m → m.fs[i]? = some f := by
    intro i v h
    rcases h' : m.fs[i]? with _ | y
    · simp [faceAt, arrayAt, h'] at h
    · rw [faceAt_ok h'] at h; cases h; rfl
  exact ⟨fun h i v hv => vertexAt_ok (up (k.1 h) (toV hv)), fun h i f hf => faceAt_ok (up (k.2 h) (toF hf))⟩

omit [ScalarX F] in
theorem dead_of_lt {a : Nat → Bool} {x : Nat} (h : a x = true → False) : a x = false := by
  cases e : a x with
  | false => rfl
  | true => exact (h e).elim

theorem vuse_dead {v : Nat} (d : m.vAlive v = false) (u : VUse F) : u.run v m = .err .ub := by
  cases u <;> simp [VUse.run, getPos, setPos, vertNormal, gaussK, meanH, ringPos, ringVerts, vIsBoundary, getVHe, getLock, setLock, bind_apply, d]

theorem fuse_dead {f : Nat} (d : m.fAlive f = false) (u : FUse) : u.run (F := F) f m = .err .ub := by
  cases u <;> simp [FUse.run, faceArea, faceVerts, fIsBoundary, fIsHole, fIsLocked, getFHe, bind_apply, d]

theorem fill_dead {f : Nat} (d : m.fAlive f = false) (bound : F) : holeFillMinDihedral f bound m = .err .ub := by
  simp [holeFillMinDihedral, faceVerts, getFHe, bind_apply, d]

/-- C111: the rule is needed for vertices. If `collapseHE` returns true, one end of the edge has been freed, and every use of a pointer to
it is undefined behaviour, at once and after all later calls that return normally. -/
theorem c111_collapsed (g : m.Good) {h : Nat} (a : m.hAlive h = true) (e : collapseHE h m = .ok true m') :
    ∃ q, (q = m.hSrc h ∨ q = m.hSrc (m.hRev h)) ∧ m.vAlive q = true ∧
      ∀ (cs : List (Work F)) (m2 : Mesh F), WorkPermitted m' cs → runWorks cs m' = .ok () m2 → ∀ u : VUse F, u.run q m2 = .err .ub := by
  rcases collapseHE_outcome g a with h1 | ⟨m1, p, q, h1, sp, D, -, -, fv, -⟩ | ⟨h1, -⟩
  · rw [h1] at e; cases e
  · rw [h1] at e; cases e
    have aq : m.vAlive q = true := by
      rcases sp with ⟨-, rfl⟩ | ⟨-, rfl⟩
      · exact g.wf.src_alive _ (g.wf.rev_alive _ a)
      · exact g.wf.src_alive _ a
    refine ⟨q, ?_, aq, fun cs m2 ok r u => vuse_dead (dead_of_lt fun a2 => ?_) u⟩
    · rcases sp with ⟨-, rfl⟩ | ⟨-, rfl⟩
      · exact .inr rfl
      · exact .inl rfl
    · rcases c109_safe D.good ok with ⟨m3, r3, -, -, -, N⟩ | r3 | r3 | ⟨r3, -⟩ <;> rw [r3] at r <;> cases r
      have := N.v q a2 (by rw [fv]; exact (g.wf.vBound q aq).2)
      exact ((D.alive q).1 this).2 rfl
  · rw [h1] at e; cases e

/-- C111: the rule is needed for faces. After a face has been filled or triangulated, every use of a pointer to it is undefined
behaviour, at once and after all later calls that return normally, and so is filling it again. -/
theorem c111_filled (g : m.Good) {f : Nat} (fi : m.Fillable f) {bound : F} (e : holeFillMinDihedral f bound m = .ok () m') (cs : List (Work F))
    {m2 : Mesh F} (ok : WorkPermitted m' cs) (r : runWorks cs m' = .ok () m2) :
    (∀ u : FUse, u.run (F := F) f m2 = .err .ub) ∧ ∀ b : F, holeFillMinDihedral f b m2 = .err .ub := by
  have af := ((mem_holeFaces g.wf).1 fi.1).1
  rcases face_good (AngleCap.any m) g fi bound with ⟨m1, new, e1, D, g1, fr⟩ | ⟨-, e1⟩ <;> rw [e1] at e <;> cases e
  have d1 : m'.fAlive f = false := dead_of_lt fun a => by
    rcases (D.fs f).1 ((g1.wf.fDense.mem f).2 a) with h | h
    · exact h.2 rfl
    · exact D.fresh f h ((g.wf.fDense.mem f).2 af)
  have d2 : m2.fAlive f = false := dead_of_lt fun a => by
    rcases c109_safe g1 ok with ⟨m3, r3, -, -, -, N⟩ | r3 | r3 | ⟨r3, -⟩ <;> rw [r3] at r <;> cases r
    have := N.f f a (Nat.lt_of_lt_of_le (g.wf.fBound f af).2 fr)
    rw [d1] at this
    cases this
  exact ⟨fun u => fuse_dead d2 u, fun b => fill_dead d2 b⟩

theorem perm_lift {α β : Type} {f : α → β} : ∀ {l : List α} {l2 : List β}, (l.map f).Perm l2 → ∃ l', l.Perm l' ∧ l'.map f = l2 := by
  intro l l2 h
  generalize e : l.map f = l1 at h
  induction h generalizing l with
  | nil => exact ⟨l, .refl l, e⟩
  | cons x _ ih =>
    cases l with
    | nil => cases e
    | cons a l =>
      simp only [List.map_cons, List.cons.injEq] at e
      obtain ⟨l', p, e'⟩ := ih e.2
      exact ⟨a :: l', p.cons a, by simp [e.1, e']⟩
  | swap x y t =>
    match l, e with
    | a :: b :: l, e =>
      simp only [List.map_cons, List.cons.injEq] at e
      exact ⟨b :: a :: l, .swap b a l, by simp [e.1, e.2.1, e.2.2]⟩
  | trans _ _ ih1 ih2 =>
    obtain ⟨l1, p1, e1⟩ := ih1 e
    obtain ⟨l2, p2, e2⟩ := ih2 e1
    exact ⟨l2, p1.trans p2, e2⟩

theorem fillFaces_start (g : m.Good) {qs : List (Nat × F)} (hq : (qs.map Prod.fst).Perm m.holeFaces) :
    ∃ rem, FillInv m m.holeFaces rem m ∧ qs.map Prod.fst = rem.map Prod.snd := by
  obtain ⟨rem, -, e, I⟩ := fillHoles_start g.wf (fun h a => (g.tri.holds h a).imp_right fun t h' a' e => (t h' a' e).1)
  rw [holeFaces_eq g.wf] at I e
  rw [← e] at hq
  obtain ⟨rem', p, e'⟩ := perm_lift hq.symm
  exact ⟨rem', I.perm p, e'.symm⟩

/-- C111: pointers to different holes do not disturb each other. A program that first collects pointers to all holes and then fills them, in any order and
each with its own bound, fills every hole as `fillHoles` does. The only other outcome is undefined behaviour because no angle is below the limit. -/
theorem c111_collect (g : m.Good) {qs : List (Nat × F)} (hq : (qs.map Prod.fst).Perm m.holeFaces) :
    (∃ m', fillFaces qs m = .ok () m' ∧ HolesFilled m m') ∨ fillFaces qs m = .err .ub := by
  obtain ⟨rem, I, e⟩ := fillFaces_start g hq
  rcases fillFaces_ok (fun f hf => ⟨((mem_holeFaces g.wf).1 hf).1, g.three_sides ((mem_holeFaces g.wf).1 hf).1⟩) g.wf (AngleCap.any m) rem qs m I e
    with ⟨-, h⟩ | ⟨m', h, J⟩
  · exact .inr h
  · exact .inl ⟨m', h, J.filled g.wf⟩

/-- C111: the objects that the default constructors of `Vertex` and `Face` make, which Python scripts can call, have no half-edge. Their circulators
visit nothing, so that most queries are defined: the vertex is not on the boundary, the face is a hole that is not on the boundary, not locked and has
area zero. Filling that hole is undefined behaviour. -/
theorem c111_default (m : Mesh F) :
    (∃ v m1, newVertex Vec3.zero m = .ok v m1 ∧ vIsBoundary v m1 = .ok false m1 ∧ ringVerts v m1 = .ok [] m1 ∧ getLock v m1 = .ok false m1) ∧
    ∃ f m1, newFace m = .ok f m1 ∧ fIsHole f m1 = .ok true m1 ∧ fIsBoundary f m1 = .ok false m1 ∧ fIsLocked f m1 = .ok false m1 ∧
      faceArea f m1 = .ok (polyArea []) m1 ∧ ∀ bound, holeFillMinDihedral f bound m1 = .err .ub := by
  refine ⟨⟨_, _, rfl, ?_, ?_, ?_⟩, _, _, rfl, ?_, ?_, ?_, ?_, fun bound => ?_⟩ <;>
    simp [vIsBoundary, ringVerts, getLock, fIsHole, fIsBoundary, fIsLocked, faceArea, faceVerts, posList, holeFillMinDihedral, faceList, getVHe, getFHe,
      bind_apply, circ, upd, fillTable, foldAll, FillTab.init, fillTris, collectPairs, M.fail, pure_apply]

end

theorem runSteps_exact : ∀ (ts : List (Step XR)) {m : Mesh XR} {p : Ptrs} {s : Marks}, m.Good → FinPos m → m.Holds p s → StepsCareful m p s ts →
    ∃ p' m', runSteps p ts m = .ok p' m' ∧ m'.Good ∧ FinPos m' ∧ m'.Holds p' (ts.foldl Marks.next s)
  | [], m, p, s, g, j, H, _ => ⟨p, m, rfl, g, j, H⟩
  | t :: ts, m, p, s, g, j, H, ok => by
    obtain ⟨p1, m1, e, j1⟩ := step_exact g j H ok.1.1 ok.1.2
    rcases step_any g H ok.1.1 with ⟨p2, m2, e2, g1, H1⟩ | ⟨x, e2, -⟩ <;> rw [e2] at e <;> cases e
    obtain ⟨p3, m3, e3, h⟩ := runSteps_exact ts g1 j1 H1 (ok.2 _ _ e2)
    exact ⟨p3, m3, by rw [runSteps, bind_apply, e2]; exact e3, h⟩

/-- C111: in exact arithmetic, with finite positions, indices in range and calls that succeed there, the program succeeds. -/
theorem c111_exact {m : Mesh XR} (g : m.Good) {q : Nat → E3} (A : m.AtE q) {ts : List (Step XR)} (ok : StepsCareful m ⟨[], []⟩ ⟨0, 0, 0, 0⟩ ts) :
    ∃ p' m' q', runSteps ⟨[], []⟩ ts m = .ok p' m' ∧ m'.Good ∧ m'.AtE q' ∧ m'.Holds p' (ts.foldl Marks.next ⟨0, 0, 0, 0⟩) := by
  obtain ⟨p', m', e, g', ⟨q', A'⟩, H⟩ := runSteps_exact ts g ⟨q, A⟩ (holds_nil m) ok
  exact ⟨p', m', q', e, g', A', H⟩

/-- C111: filling collected holes in exact arithmetic: it succeeds. -/
theorem c111_collect_exact {m : Mesh XR} (g : m.Good) {p : Nat → E3} (A : m.AtE p) {qs : List (Nat × XR)}
    (hq : (qs.map Prod.fst).Perm m.holeFaces) : ∃ m', fillFaces qs m = .ok () m' ∧ HolesFilled m m' := by
  obtain ⟨rem, I, e⟩ := fillFaces_start g hq
  rcases fillFaces_ok (fun f hf => ⟨((mem_holeFaces g.wf).1 hf).1, g.three_sides ((mem_holeFaces g.wf).1 hf).1⟩) g.wf (AngleCap.exact ⟨p, A⟩) rem qs
    m I e with ⟨h, -⟩ | ⟨m', h, J⟩
  · exact absurd trivial h
  · exact ⟨m', h, J.filled g.wf⟩

/-- C111: the Gauss curvature of a default-constructed vertex is infinite, and its normal and mean curvature throw, in exact arithmetic. -/
theorem c111_default_curvature (m : Mesh XR) : ∃ v m1, newVertex Vec3.zero m = .ok v m1 ∧ gaussK v m1 = .ok .pinf m1 ∧
    vertNormal v m1 = .err .throw ∧ meanH v m1 = .err .throw := by
  have z : (Vec3.zero : Vec3 XR).normalize? = none := by
    have h : (Vec3.zero : Vec3 XR).Is 0 := Vec3.Is.zero
    unfold Vec3.normalize?
    rw [h.length, norm_zero]
    exact h.div_zero
  have N : ∀ m1 : Mesh XR, m1.vAlive m.vFresh = true → m1.vHe m.vFresh = 0 → vertNormal m.vFresh m1 = .err .throw := by
    intro m1 a h
    unfold vertNormal
    rw [bind_apply, getVHe_ok a, h]; dsimp only
    rw [bind_apply]
    simp only [circ, if_true]
    rw [z]
    rfl
  have R : ∀ m1 : Mesh XR, m1.vAlive m.vFresh = true → m1.vHe m.vFresh = 0 → ringPos m.vFresh m1 = .ok [] m1 := by
    intro m1 a h
    unfold ringPos ringVerts
    rw [bind_apply, bind_apply, getVHe_ok a, h]
    simp only [circ, if_true]
    rfl
  refine ⟨m.vFresh, _, rfl, ?_⟩
  generalize hm : ({ m with
    vAlive := upd m.vAlive m.vFresh true
    vPos := upd m.vPos m.vFresh Vec3.zero
    vHe := upd m.vHe m.vFresh 0
    vIdx := upd m.vIdx m.vFresh (-1)
    vLock := upd m.vLock m.vFresh false
    vFresh := m.vFresh + 1 } : Mesh XR) = m1
  have a : m1.vAlive m.vFresh = true := by subst hm; simp [upd]
  have h : m1.vHe m.vFresh = 0 := by subst hm; simp [upd]
  refine ⟨?_, N m1 a h, ?_⟩
  · unfold gaussK
    rw [bind_apply, R m1 a h]; dsimp only
    rw [bind_apply, getPos_ok a]
    show Out.ok (XR.div (XR.fin _) (XR.fin _)) m1 = _
    simp [XR.div, XR.infOf, Real.pi_pos]
  · unfold meanH
    rw [bind_apply, R m1 a h]; dsimp only
    rw [bind_apply, getPos_ok a]; dsimp only
    rw [bind_apply, N m1 a h]

/-- taking a pointer does not change the mesh -/
theorem vertex_same {F : Type} [ScalarX F] {m m' : Mesh F} {p p' : Ptrs} {i : Int} (e : (Step.vertex i).run p m = .ok p' m') :
    m' = m := by
  simp only [Step.run] at e
  rw [bind_apply] at e
  rcases vertexAt_cases m i with ⟨h, -⟩ | ⟨v, h, -⟩ <;> rw [h] at e <;> cases e
  rfl

/-- A program on the pyramid without its base that takes a pointer to a vertex, fills the hole, uses the pointer, remeshes and takes new pointers. -/
example : ∃ (m : Mesh XR) (ts : List (Step XR)), m.Good ∧ StepsPermitted m ⟨[], []⟩ ⟨0, 0, 0, 0⟩ ts ∧ ts.length = 10 ∧
    ts.foldl Marks.next ⟨0, 0, 0, 0⟩ = ⟨2, 1, 1, 0⟩ := by
  obtain ⟨m, p, g, A, c, f5, h4, h6, hne⟩ := pyramid_facts
  refine ⟨m, [.vertex 0, .fill, .useV 0 .normal, .work (.call (.laplacian .nan true 3)), .useV 0 .mean,
    .work (.call (.remesh (fun _ _ n => List.range n) (.fin 1) .nan .pinf 2)), .vertex 7, .useV 1 (.place ⟨.nan, .nan, .nan⟩), .face 3,
    .useF 0 .area], g, ?_, rfl, rfl⟩
  refine ⟨trivial, fun p1 m1 e1 => ?_⟩
  cases vertex_same e1
  refine ⟨c, fun _ _ _ => ?_⟩
  simp [StepsPermitted, Step.Fits, Marks.next, Work.Fits, Call.Fits, Work.removes]

/-- In exact arithmetic: a pointer to a vertex survives the filling of the hole. -/
example : ∃ (m m' : Mesh XR) (p' : Ptrs), m.Good ∧
    runSteps ⟨[], []⟩ [.vertex 0, .fill, .useV 0 .gauss, .useV 0 (.place (⟨1, 2, 3⟩ : Vec3 ℝ).fin), .useV 0 .boundary] m = .ok p' m' ∧ m'.Good := by
  obtain ⟨m, p, g, A, c, f5, h4, h6, hne⟩ := pyramid_facts
  obtain ⟨x, hx⟩ := List.exists_mem_of_ne_nil _ hne
  have hv := (g.wf.vDense.mem _).2 (g.wf.src_alive _ ((g.wf.hDense.mem x).1 hx))
  have lv : 0 < m.vs.length := List.length_pos_of_mem hv
  obtain ⟨p', m', -, r, G, -⟩ := c111_exact g A (ts := [.vertex 0, .fill, .useV 0 .gauss, .useV 0 (.place (⟨1, 2, 3⟩ : Vec3 ℝ).fin),
    .useV 0 .boundary]) (by
      refine ⟨⟨trivial, Int.le_refl 0, by exact_mod_cast lv⟩, fun p1 m1 e1 => ?_⟩
      cases vertex_same e1
      refine ⟨⟨c, trivial⟩, fun _ _ _ => ⟨⟨⟨Nat.le_refl 0, Nat.one_pos⟩, trivial⟩, fun _ _ _ => ⟨⟨⟨Nat.le_refl 0, Nat.one_pos⟩, _, rfl⟩,
        fun _ _ _ => ⟨⟨⟨Nat.le_refl 0, Nat.one_pos⟩, trivial⟩, fun _ _ _ => trivial⟩⟩⟩⟩)
  exact ⟨m, m', p', g, r, G⟩

theorem pyramid_hole : ∃ (m : Mesh XR) (p : Nat → E3) (f : Nat), m.Good ∧ m.AtE p ∧ m.holeFaces = [f] ∧ m.Fillable f := by
  obtain ⟨m, p, g, A, c, f5, h4, h6, hne⟩ := pyramid_facts
  obtain ⟨f, hf⟩ : ∃ f, m.holeFaces = [f] := by
    have := congrArg List.length h4
    rw [List.length_map] at this
    exact List.length_eq_one_iff.1 this
  have s4 : m.sides f = 4 := by rw [hf] at h4; simpa using h4
  have af := ((mem_holeFaces g.wf).1 (by rw [hf]; simp : f ∈ m.holeFaces)).1
  refine ⟨m, p, f, g, A, hf, by rw [hf]; simp, by rw [← hf]; exact c, fun h a e hm => ?_⟩
  rw [hf, List.mem_singleton] at hm
  have ar := g.wf.rev_alive _ a
  have t : m.OnTri h ∨ m.OnTri (m.hRev h) := (g.tri.holds h a).imp_right fun k => (k h a rfl).2.2
  have key : ∀ x, m.hAlive x = true → m.hFace x = f → m.OnTri x → False := by
    intro x ax ex tx
    have l := g.wf.faceLoop af
    have k : ∀ n, m.hNext^[n] x ∈ [x, m.hNext x, m.hNext (m.hNext x)] := by
      intro n
      induction n with
      | zero => simp
      | succ n ih =>
        rw [Function.iterate_succ_apply']
        simp only [List.mem_cons, List.not_mem_nil, or_false] at ih ⊢
        rcases ih with h | h | h <;> rw [h]
        · simp
        · simp
        · exact .inl tx
    have : orbit m.hNext (m.fHe f) ⊆ [x, m.hNext x, m.hNext (m.hNext x)] := fun y hy => by
      obtain ⟨ay, ey⟩ := (l.mem y).1 hy
      obtain ⟨n, hn⟩ := g.wf.face_conn x y ax ay (by rw [ex, ey])
      rw [← hn]
      exact k n
    have := (l.nodup.subperm this).length_le
    rw [g.wf.loop_length af, s4] at this
    simp at this
  rcases t with t | t
  · exact key h a e t
  · exact key _ ar hm t

/-- filling the hole through a pointer -/
example : ∃ (m m' m2 : Mesh XR) (f : Nat), m.Good ∧ holeFillMinDihedral f (.fin 1) m = .ok () m' ∧
    runWorks [.fairing (fun _ _ _ _ => .nan) .nan 5] m' = .ok () m2 ∧ fIsHole f m2 = .err .ub ∧ fillFaces [(f, .fin 1)] m = .ok () m' ∧ HolesFilled m m' := by
  obtain ⟨m, p, f, g, A, hf, fi⟩ := pyramid_hole
  rcases face_good (AngleCap.exact ⟨p, A⟩) g fi (.fin 1) with ⟨m', new, e, D, g', -⟩ | ⟨n, -⟩
  · obtain ⟨m2, e2, -⟩ := c109_fairing g'.wf (fun _ _ _ _ => .nan) .nan 5
    have r : runWorks [.fairing (fun _ _ _ _ => .nan) .nan 5] m' = .ok () m2 := by simp only [runWorks, Work.run]; rw [bind_apply, e2]; rfl
    have k := (c111_filled g fi e [.fairing (fun _ _ _ _ => .nan) .nan 5] ⟨trivial, fun _ _ => trivial⟩ r).1 .hole
    obtain ⟨m3, e3, H⟩ := c111_collect_exact g A (qs := [(f, .fin 1)]) (by rw [hf]; rfl)
    have e3' := e3
    simp only [fillFaces] at e3'
    rw [bind_apply, e] at e3'
    cases e3'
    refine ⟨m, m', m2, f, g, e, r, ?_, e3, H⟩
    simp only [FUse.run] at k
    rw [bind_apply] at k
    cases h : fIsHole f m2 with
    | ok a m3 => rw [h] at k; cases k
    | err x => rw [h] at k; cases k; rfl
  · exact absurd trivial n

/-- a collapse that frees a vertex -/
example : ∃ (m m' : Mesh XR) (q : Nat), m.Good ∧ m.vAlive q = true ∧ collapseHE 63 m = .ok true m' ∧
    ∀ u : VUse XR, u.run q m' = .err .ub := by
  obtain ⟨m, g, I⟩ := ring_tables
  obtain ⟨m', e⟩ := ring_collapse (s := 1) g I (h := 63) (.inl rfl)
  have G : (ringMesh m 1).Good := (ring_shut g I).good
  have a : (ringMesh m 1).hAlive 63 = true := ((ring_mem (v := 13) g (y := 63)).2 (by rw [I.outs.1]; simp)).1
  obtain ⟨q, -, aq, h⟩ := c111_collapsed G a e
  exact ⟨_, m', q, G, aq, e, fun u => h [] m' trivial rfl u⟩

end TinyMesh
