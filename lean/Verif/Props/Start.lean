import Verif.Proof.CtxK
/-
C89: the first stage of context coherent completion, in which all holes are closed.
-/
set_option maxRecDepth 100000
namespace TinyMesh
open Orbit
open Sample

/-- C89: whenever the first stage returns, all holes are closed with triangles, there is no flag left, the triangles are still there and exactly
the vertices of the given mesh are locked. Nothing is assumed about the arithmetic, the solver, or the order in which sets are visited. -/
theorem c89_closed {F : Type} [ScalarX F] {m m' : Mesh F} (H : m.Holed) {ord : List Nat → List Nat} (ho : ∀ l, (ord l).Perm l) {solve : LinSolve F} {fuel : Nat} {l a : F}
    (e : cohStart ord solve fuel m = .ok (l, a) m') : m.ClosedUp m' := by
  unfold cohStart at e
  rw [bind_apply, lockEvery_ok H.wf] at e
  dsimp only at e
  rw [bind_apply] at e
  cases k : cohFill ord solve fuel fuel 0 (m.lockAll m.vs) with
  | err x => rw [k] at e; cases e
  | ok u m1 =>
    cases u
    rw [k] at e
    dsimp only at e
    have P := cohFill_part H.locked ho fuel 0 _ H.part k
    obtain ⟨l', el⟩ := meanEdgeLength_ok P.wf
    obtain ⟨a', ea⟩ := meanFaceArea_runs P.wf
    rw [bind_apply, el] at e; dsimp only at e
    rw [bind_apply, ea] at e; dsimp only at e
    rw [bind_apply, clearFlags_ok P.wf] at e
    dsimp only at e
    have e1 : l' = l ∧ a' = a := by
      have : (l', a') = (l, a) := by injection e
      exact ⟨congrArg Prod.fst this, congrArg Prod.snd this⟩
    have e2 : m1.clearAll m1.hes = m' := by injection e
    obtain ⟨rfl, rfl⟩ := e1
    subst e2
    refine ⟨P.wf.clearAll _, fun g ag => ?_, fun h ah => ?_, P.old, fun g ag n => P.loop g ⟨ag, n⟩, fun h ah n => P.order h ah ⟨H.wf.face_alive _ ah, n⟩,
      fun h ah n n' => P.rev h ah ⟨H.wf.face_alive _ ah, n⟩ ⟨H.wf.face_alive _ (H.wf.rev_alive _ ah), n'⟩,
      fun h ah n n' => P.rim h ah ⟨H.wf.face_alive _ ah, n⟩ fun c => c.2 n', P.vert, ClosePart.lock_all (m' := m1) H.wf P, P.still⟩
    · show m1.sides g = 3
      by_cases u : m.fAlive g = true ∧ ¬ m.HoleFace g
      · rw [sides_keep (m := m.lockAll m.vs) (H.wf.lockAll _) P.wf u.1 ag (P.loop g u)]
        exact H.tri g u.1 u.2
      · exact (P.tri g ag u).1
    · unfold Mesh.clearAll
      simp [(P.wf.hDense.mem h).2 ah]

theorem meanFaceArea_three {m : Mesh XR} (w : m.WF) {p : Nat → E3} (A : m.AtE p) (t : ∀ f, m.fAlive f = true → m.sides f = 3) (hne : m.fs ≠ []) :
    meanFaceArea m = .ok (XR.fin ((m.fs.map fun f => m.areaOf p (m.fHe f)).sum / m.fs.length)) m := by
  have hl : (Scalar.lit 0 1 : XR) = XR.fin 0 := by rw [X_lit, R_lit0]
  have one : ∀ f, m.fAlive f = true → faceArea f m = .ok (XR.fin (m.areaOf p (m.fHe f))) m := by
    intro f a
    have ah := (w.fHe_ok f a).1
    have a1 := w.next_alive _ ah
    have a2 := w.next_alive _ a1
    unfold faceArea
    rw [bind_apply, w.faceVerts_ok a]; dsimp only
    rw [orbit_three ((w.loop_length a).trans (t f a))]
    rw [bind_apply, posList_ok _ (by
      simp only [List.map_cons, List.map_nil, List.mem_cons, List.not_mem_nil, or_false]
      rintro v (rfl | rfl | rfl)
      · exact w.src_alive _ ah
      · exact w.src_alive _ a1
      · exact w.src_alive _ a2)]
    dsimp only [List.map]
    rw [pure_apply, polyArea_tri (A _ (w.src_alive _ ah)) (A _ (w.src_alive _ a1)) (A _ (w.src_alive _ a2))]
    rfl
  have sum : ∀ (l : List Nat) (s : ℝ), (∀ f ∈ l, m.fAlive f = true) → areaSum l (XR.fin s) m = .ok (XR.fin (s + (l.map fun f => m.areaOf p (m.fHe f)).sum)) m := by
    intro l
    induction l with
    | nil => intro s _; simp [areaSum]
    | cons f l ih =>
      intro s h
      unfold areaSum
      rw [bind_apply, one f (h f (by simp))]; dsimp only
      rw [X_add, ih _ fun x hx => h x (by simp [hx])]
      simp [add_assoc]
  have e3 : ((m.fs.length : Int) : ℝ) / ((1 : Nat) : ℝ) ≠ 0 := by
    have : 0 < m.fs.length := List.length_pos_iff.2 hne
    have : (m.fs.length : ℝ) ≠ 0 := by exact_mod_cast this.ne'
    push_cast; simpa using this
  unfold meanFaceArea
  rw [bind_apply, read_apply]
  dsimp only
  rw [bind_apply, hl, sum _ _ fun f hf => (w.fDense.mem f).1 hf]
  dsimp only
  rw [pure_apply, X_lit, R_lit, X_div _ e3]
  simp

/-- what follows once the holes are closed -/
theorem cohStart_of {m m1 : Mesh XR} (H : m.Holed) (ne : m.fs ≠ []) {ord : List Nat → List Nat} (ho : ∀ l, (ord l).Perm l) {solve : LinSolve XR} {fuel : Nat}
    (k : cohFill ord solve fuel fuel 0 (m.lockAll m.vs) = .ok () m1) {q : Nat → E3} (Q : m1.AtE q) :
    cohStart ord solve fuel m = .ok (.fin (m1.meanLen q), .fin ((m1.fs.map fun f => m1.areaOf q (m1.fHe f)).sum / m1.fs.length)) (m1.clearAll m1.hes) ∧
      m.ClosedUp (m1.clearAll m1.hes) := by
  have P := cohFill_part H.locked ho fuel 0 _ H.part k
  obtain ⟨l', el⟩ := meanEdgeLength_ok P.wf
  obtain ⟨a', ea⟩ := meanFaceArea_runs P.wf
  have fin : cohStart ord solve fuel m = .ok (l', a') (m1.clearAll m1.hes) := by
    unfold cohStart
    rw [bind_apply, lockEvery_ok H.wf]; dsimp only
    rw [bind_apply, k]; dsimp only
    rw [bind_apply, el]; dsimp only
    rw [bind_apply, ea]; dsimp only
    rw [bind_apply, clearFlags_ok P.wf]
    rfl
  have C := c89_closed H ho fin
  obtain ⟨g, hg⟩ := List.exists_mem_of_ne_nil _ ne
  have ag := P.old g ((H.wf.fDense.mem g).1 hg)
  have n1 : m1.fs ≠ [] := List.ne_nil_of_mem ((P.wf.fDense.mem g).2 ag)
  have n2 : m1.hes ≠ [] := List.ne_nil_of_mem ((P.wf.hDense.mem _).2 (P.wf.fHe_ok g ag).1)
  rw [meanEdgeLength_exact P.wf Q n2] at el
  rw [meanFaceArea_three P.wf Q C.tri n1] at ea
  injection el with el _
  injection ea with ea _
  rw [fin, el, ea]
  exact ⟨rfl, C⟩

/-- C89: with finite positions and a solver that returns finite numbers the first stage never runs into undefined behaviour and no assertion
fails: it throws an exception, or it goes on for more than `fuel` steps, or it returns with the mean length of the edges and the mean area of the
faces of the closed mesh. -/
theorem c89_outcome {m : Mesh XR} (H : m.Holed) (ne : m.fs ≠ []) {p : Nat → E3} (A : m.AtE p) {ord : List Nat → List Nat} (ho : ∀ l, (ord l).Perm l) {solve : LinSolve XR}
    (hs : ∀ n A b i, ∃ r, solve n A b i = XR.fin r) (fuel : Nat) :
    (∃ m' q, m'.AtE q ∧ m.ClosedUp m' ∧
      cohStart ord solve fuel m = .ok (.fin (m'.meanLen q), .fin ((m'.fs.map fun f => m'.areaOf q (m'.fHe f)).sum / m'.fs.length)) m') ∨
    cohStart ord solve fuel m = .err .throw ∨ cohStart ord solve fuel m = .err .diverge := by
  have run : cohStart ord solve fuel m = (do
      cohFill ord solve fuel fuel 0
      let l ← meanEdgeLength
      let a ← meanFaceArea
      clearFlags
      pure (l, a)) (m.lockAll m.vs) := by
    unfold cohStart
    rw [bind_apply, lockEvery_ok H.wf]
  rcases cohFill_finite (fuel := fuel) H.locked ho hs fuel 0 _ H.part ⟨p, A⟩ with ⟨m1, k, q, Q⟩ | k | k
  · obtain ⟨r, C⟩ := cohStart_of H ne ho k Q
    exact .inl ⟨m1.clearAll m1.hes, q, Q, C, r⟩
  · rw [run, bind_apply, k]; exact .inr (.inl rfl)
  · rw [run, bind_apply, k]; exact .inr (.inr rfl)

/-- C89: if all holes have three sides, the first stage returns; it adds nothing, and nothing moves. -/
theorem c89_three {m : Mesh XR} (H : m.Holed) (ne : m.fs ≠ []) {p : Nat → E3} (A : m.AtE p) (s3 : ∀ g, m.fAlive g = true → m.sides g = 3) {ord : List Nat → List Nat}
    (ho : ∀ l, (ord l).Perm l) (solve : LinSolve XR) {fuel : Nat} (hf : m.fs.length < fuel) :
    ∃ m', cohStart ord solve fuel m = .ok (.fin (m'.meanLen p), .fin ((m'.fs.map fun f => m'.areaOf p (m'.fHe f)).sum / m'.fs.length)) m' ∧
      m.ClosedUp m' ∧ m'.vs = m.vs ∧ m'.fs = m.fs ∧ m'.hes = m.hes ∧ m'.vPos = m.vPos := by
  obtain ⟨m2, k, w2, e1, e2, e3, e4⟩ := cohFill_three (m := m.lockAll m.vs) H.locked A s3 ho solve hf
  have A2 : m2.AtE p := fun v a => by
    rw [e4]; exact A v ((H.wf.vDense.mem v).1 (e1 ▸ (w2.vDense.mem v).2 a))
  obtain ⟨r, C⟩ := cohStart_of H ne ho k A2
  exact ⟨m2.clearAll m2.hes, r, C, e1, e2, e3, e4⟩

/-! ### The hypotheses can be met -/

section
attribute [local instance] ratScalar

def holeFaceB {F : Type} (m : Mesh F) (g : Nat) : Bool := m.hes.all fun h => !(m.hFace h == g) || m.hBd h

theorem holeFaceB_iff {F : Type} {m : Mesh F} (w : m.WF) {g : Nat} : holeFaceB m g = true ↔ m.HoleFace g := by
  unfold holeFaceB
  rw [List.all_eq_true]
  constructor
  · intro k h a e
    have := k h ((w.hDense.mem h).2 a)
    simpa [e] using this
  · intro k h hm
    by_cases e : m.hFace h = g
    · simp [k h ((w.hDense.mem h).1 hm) e]
    · simp [e]

/-- a check for `Mesh.Holed` -/
def holedB {F : Type} (m : Mesh F) : Bool :=
  (m.fs.all fun g => if holeFaceB m g then simpleHoleB m g else decide (m.sides g = 3)) &&
    m.hes.all fun h => !(holeFaceB m (m.hFace h)) || !(holeFaceB m (m.hFace (m.hRev h)))

theorem holedB_holds {F : Type} {m : Mesh F} (w : m.WF) (c : holedB m = true) : m.Holed := by
  unfold holedB at c
  rw [Bool.and_eq_true, List.all_eq_true, List.all_eq_true] at c
  obtain ⟨c1, c2⟩ := c
  refine ⟨w, fun g a n => ?_, fun g a n => ?_, fun h a n n' => ?_⟩
  · have := c1 g ((w.fDense.mem g).2 a)
    rw [if_neg fun k => n ((holeFaceB_iff w).1 k)] at this
    exact of_decide_eq_true this
  · have := c1 g ((w.fDense.mem g).2 a)
    rw [if_pos ((holeFaceB_iff w).2 n)] at this
    exact simpleHoleB_iff w this
  · have := c2 h ((w.hDense.mem h).2 a)
    rw [(holeFaceB_iff w).2 n, (holeFaceB_iff w).2 n'] at this
    cases this

/-- the sides of an octahedron between two opposite faces -/
def bandV : List (Vec3 Rat) := [⟨1, 0, 1⟩, ⟨0, 1, 1⟩, ⟨-1, -1, 1⟩, ⟨1, 1, 0⟩, ⟨-1, 0, 0⟩, ⟨0, -1, 0⟩]
def bandI : List Nat := [0, 3, 1, 1, 3, 4, 1, 4, 2, 2, 4, 5, 2, 5, 0, 0, 5, 3]

/-- C89: two holes with three sides -/
example : ∃ m : Mesh XR, m.Holed ∧ m.fs.length = 8 ∧ m.HoleFace 7 ∧ m.HoleFace 8 ∧ ∃ p, m.AtE p ∧ ∀ solve, ∃ l a m', cohStart id solve 9 m = .ok (l, a) m' ∧ m.ClosedUp m' ∧ m'.vPos = m.vPos := by
  obtain ⟨u, m, l, m1, h1, h2, h3⟩ := thenSt_iff (o := construct bandV bandI fresh) (f := fun m => .ok () m) (p := fun m _ _ =>
    decide (m.fs = [1, 2, 3, 4, 5, 6, 7, 8]) && holedB m && holeFaceB m 7 && holeFaceB m 8 && m.fs.all fun g => decide (m.sides g = 3)) (by decide +kernel)
  cases u
  simp only [Bool.and_eq_true, decide_eq_true_eq, List.all_eq_true] at h3
  obtain ⟨⟨⟨⟨e, c⟩, d7⟩, d8⟩, t⟩ := h3
  have G := c01_construct_consistent (@Owned.empty Rat Sample.ratScalar _) h1
  let q : Nat → Vec3 ℝ := fun v => ⟨v, 0, 0⟩
  have w : (m.overR q).WF := (G.over _).wf
  have H : (m.overR q).Holed := holedB_holds w c
  have A : (m.overR q).AtE (fun v => (q v).E) := fun v _ => ⟨_, rfl, rfl⟩
  refine ⟨m.overR q, H, ?_, (holeFaceB_iff w).1 d7, (holeFaceB_iff w).1 d8, _, A, fun solve => ?_⟩
  · show m.fs.length = 8
    rw [e]; rfl
  · have ne : (m.overR q).fs ≠ [] := by show m.fs ≠ []; rw [e]; simp
    obtain ⟨m', r, C, -, -, -, k⟩ := c89_three H ne A (fun g a => t g ((w.fDense.mem g).2 a)) (ord := id) (fun l => .refl l) solve (fuel := 9) (by show m.fs.length < 9; rw [e]; simp)
    exact ⟨_, _, m', r, C, k⟩

/-- C89: a square frame, which has two holes with four sides -/
example : ∃ m : Mesh XR, m.Holed ∧ m.fs ≠ [] ∧ (∃ g, m.HoleFace g ∧ m.sides g = 4) ∧ ∃ p, m.AtE p := by
  obtain ⟨u, m, l, m1, h1, h2, h3⟩ := thenSt_iff (o := construct frameV frameI fresh) (f := fun m => .ok () m) (p := fun m _ _ =>
    decide (m.fs ≠ []) && holedB m && holeFaceB m 9 && decide (m.sides 9 = 4)) (by decide +kernel)
  cases u
  simp only [Bool.and_eq_true, decide_eq_true_eq] at h3
  obtain ⟨⟨⟨e, c⟩, d⟩, t⟩ := h3
  have G := c01_construct_consistent (@Owned.empty Rat Sample.ratScalar _) h1
  let q : Nat → Vec3 ℝ := fun v => ⟨v, 0, 0⟩
  have w : (m.overR q).WF := (G.over _).wf
  exact ⟨m.overR q, holedB_holds w c, e, ⟨9, (holeFaceB_iff w).1 d, t⟩, fun v => (q v).E, fun v _ => ⟨_, rfl, rfl⟩⟩

end
end TinyMesh
