import Verif.Props.Start
import Verif.Model.Examples
/-
The second part of the example program that fills holes (C110).
-/
set_option maxRecDepth 100000
namespace TinyMesh
open Orbit
open Sample

theorem ClosePart.frontClosed {F : Type} {m m' : Mesh F} (H : m.Holed) (P : ClosePart m m' (fun g => m.fAlive g = true ∧ ¬ m.HoleFace g)) : m.FrontClosed m' := by
  refine ⟨P.wf, fun g ag => ?_, fun g ag n => ?_, P.old, fun g ag n => P.loop g ⟨ag, n⟩, fun h ah n => P.order h ah ⟨H.wf.face_alive _ ah, n⟩,
    fun h ah n n' => P.rev h ah ⟨H.wf.face_alive _ ah, n⟩ ⟨H.wf.face_alive _ (H.wf.rev_alive _ ah), n'⟩,
    fun h ah n n' => P.rim h ah ⟨H.wf.face_alive _ ah, n⟩ fun c => c.2 n', P.vert, fun v av => ?_, P.still⟩
  · by_cases u : m.fAlive g = true ∧ ¬ m.HoleFace g
    · rw [sides_keep H.wf P.wf u.1 ag (P.loop g u)]
      exact H.tri g u.1 u.2
    · exact (P.tri g ag u).1
  · by_cases u : m.fAlive g = true ∧ ¬ m.HoleFace g
    · have : ∃ h, m.hAlive h = true ∧ m.hFace h = g ∧ m.hBd h = false := by
        by_contra c
        exact u.2 fun h a e => by
          by_contra b
          exact c ⟨h, a, e, by simpa using b⟩
      obtain ⟨h, a, e, b⟩ := this
      obtain ⟨a', e'⟩ := (P.loop g u h).2 ⟨a, e⟩
      have b' := P.weak h a (by rw [e]; exact u) b
      rw [n h a' e'] at b'
      cases b'
    · obtain ⟨-, h, a, e, b⟩ := P.tri g ag u
      rw [n h a e] at b
      cases b
  · rw [P.lock v av]
    refine and_congr_right fun _ => or_congr_right ⟨?_, ?_⟩
    · rintro ⟨g, ag, hg, -, c⟩; exact ⟨g, ag, hg, c⟩
    · rintro ⟨g, ag, hg, c⟩; exact ⟨g, ag, hg, fun k => k.2 hg, c⟩

/-- C110: whenever the loop of the example program that closes every hole by an advancing front returns, there are only triangles and none of
them is a hole; the old triangles and vertices are still there. Nothing is assumed about the arithmetic, the solver, or the order in which sets
are visited. -/
theorem c110_front {F : Type} [ScalarX F] {m m' : Mesh F} (H : m.Holed) {ord : List Nat → List Nat} (ho : ∀ l, (ord l).Perm l) {solve : LinSolve F} {fuel : Nat}
    (e : exFrontFill ord solve fuel m = .ok () m') : m.FrontClosed m' :=
  (cohFill_part H ho fuel 0 _ H.start e).frontClosed H

/-- C110: with finite positions and a solver that returns finite numbers this loop never runs into undefined behaviour and no assertion fails:
it returns with finite positions, it throws an exception, or it goes on for more than `fuel` steps. -/
theorem c110_front_outcome {m : Mesh XR} (H : m.Holed) {p : Nat → E3} (A : m.AtE p) {ord : List Nat → List Nat} (ho : ∀ l, (ord l).Perm l) {solve : LinSolve XR}
    (hs : ∀ n A b i, ∃ r, solve n A b i = XR.fin r) (fuel : Nat) :
    (∃ m' q, exFrontFill ord solve fuel m = .ok () m' ∧ m'.AtE q ∧ m.FrontClosed m') ∨
    exFrontFill ord solve fuel m = .err .throw ∨ exFrontFill ord solve fuel m = .err .diverge := by
  rcases cohFill_finite (fuel := fuel) H ho hs fuel 0 _ H.start ⟨p, A⟩ with ⟨m1, k, q, Q⟩ | k | k
  · exact .inl ⟨m1, q, k, Q, c110_front H ho k⟩
  · exact .inr (.inl k)
  · exact .inr (.inr k)

/-- C110: if all holes have three sides, this loop returns; it adds nothing, and nothing moves. -/
theorem c110_front_three {m : Mesh XR} (H : m.Holed) {p : Nat → E3} (A : m.AtE p) (s3 : ∀ g, m.fAlive g = true → m.sides g = 3) {ord : List Nat → List Nat}
    (ho : ∀ l, (ord l).Perm l) (solve : LinSolve XR) {fuel : Nat} (hf : m.fs.length < fuel) :
    ∃ m', exFrontFill ord solve fuel m = .ok () m' ∧ m.FrontClosed m' ∧ m'.vs = m.vs ∧ m'.fs = m.fs ∧ m'.hes = m.hes ∧ m'.vPos = m.vPos := by
  obtain ⟨m2, k, -, e⟩ := cohFill_three H A s3 ho solve hf
  exact ⟨m2, k, c110_front H ho k, e⟩

/-! ### The hypotheses can be met -/

section
attribute [local instance] ratScalar

/-- C110: the sides of an octahedron, with two holes; a corner of a hole is locked afterwards -/
example : ∃ m : Mesh XR, m.Holed ∧ m.HoleFace 7 ∧ m.HoleFace 8 ∧ ∃ p, m.AtE p ∧ ∀ solve, ∃ m', exFrontFill id solve 9 m = .ok () m' ∧ m.FrontClosed m' ∧ m'.vPos = m.vPos ∧
    ∃ v, m.vLock v = false ∧ m'.vLock v = true := by
  obtain ⟨u, m, l, m1, h1, h2, h3⟩ := thenSt_iff (o := construct bandV bandI fresh) (f := fun m => .ok () m) (p := fun m _ _ =>
    decide (m.fs = [1, 2, 3, 4, 5, 6, 7, 8]) && holedB m && holeFaceB m 7 && holeFaceB m 8 && (m.fs.all fun g => decide (m.sides g = 3)) &&
      !m.vLock (m.hSrc (m.fHe 7))) (by decide +kernel)
  cases u
  simp only [Bool.and_eq_true, decide_eq_true_eq, List.all_eq_true, Bool.not_eq_true'] at h3
  obtain ⟨⟨⟨⟨⟨e, c⟩, d7⟩, d8⟩, t⟩, lk⟩ := h3
  have G := c01_construct_consistent (@Owned.empty Rat Sample.ratScalar _) h1
  let q : Nat → Vec3 ℝ := fun v => ⟨v, 0, 0⟩
  have w : (m.overR q).WF := (G.over _).wf
  have H : (m.overR q).Holed := holedB_holds w c
  have A : (m.overR q).AtE (fun v => (q v).E) := fun v _ => ⟨_, rfl, rfl⟩
  have H7 : (m.overR q).HoleFace 7 := (holeFaceB_iff w).1 d7
  refine ⟨m.overR q, H, H7, (holeFaceB_iff w).1 d8, _, A, fun solve => ?_⟩
  obtain ⟨m', r, C, -, -, -, k⟩ := c110_front_three H A (fun g a => t g ((w.fDense.mem g).2 a)) (ord := id) (fun l => .refl l) solve (fuel := 9) (by show m.fs.length < 9; rw [e]; simp)
  refine ⟨m', r, C, k, m.hSrc (m.fHe 7), lk, ?_⟩
  have a7 : (m.overR q).fAlive 7 = true := (w.fDense.mem 7).1 (by show 7 ∈ m.fs; rw [e]; simp)
  obtain ⟨ah, ef⟩ := w.fHe_ok 7 a7
  have av := w.src_alive _ ah
  exact (C.lock _ (C.vert _ av)).2 ⟨av, .inr ⟨7, a7, H7, _, ah, ef, rfl⟩⟩

end
end TinyMesh
