import Verif.Proof.CloneA
import Verif.Proof.EditB
/-
Holes at the vertices: what the edits do to them, and the mesh after construction.
-/
set_option linter.unusedSimpArgs false
namespace TinyMesh
variable {F : Type} {m m' : Mesh F}

/-- the holes of `m'` are holes of `m` -/
theorem Mesh.OneHole.transfer (oh : m.OneHole) (ρ : Nat → Nat)
    (H : ∀ x, m'.HA x → m'.AtHole x → m.HA x ∧ m.AtHole x ∧ m'.hSrc x = ρ (m.hSrc x))
    (inj : ∀ u v, m.OnHole u → m.OnHole v → ρ u = ρ v → u = v) : m'.OneHole := by
  intro x y ax ay e hx hy
  obtain ⟨x1, x2, x3⟩ := H x ax hx
  obtain ⟨y1, y2, y3⟩ := H y ay hy
  exact oh x y x1 y1 (inj _ _ ⟨x, x1, rfl, x2⟩ ⟨y, y1, rfl, y2⟩ (by rw [← x3, ← y3, e])) x2 y2

theorem Mesh.AtHole.bd {x y : Nat} (h : m.AtHole x) (a : m.HA y) (e : m.hFace y = m.hFace x) (b : m.hBd y = false) : False := by
  have := h y a e
  rw [b] at this
  cases this

theorem SplitStep.oneHole [Scalar F] {h he : Nat} (S : SplitStep m m' h he) (g : m.Good) (oh : m.OneHole) : m'.OneHole := by
  have w := g.wf
  have R := S.R
  have D := S.D
  have ar := D.ar
  have B0 : m'.hBd he = false := by rw [R.B _ S.a, S.b0]
  have B1 : m'.hBd (m.hRev he) = false := by rw [R.B _ ar, S.b1]
  have N : ∀ i, i < 6 → m'.HA (m.hFresh + i) := by
    intro i hi
    exact (R.hal _).2 (by omega)
  have A' : ∀ x, m.HA x → m'.HA x := fun x ax => (R.hal x).2 (Or.inl ax)
  refine oh.transfer id ?_ (fun _ _ _ _ e => e)
  intro x ax hx
  have key : ∀ y, m'.HA y → m'.hBd y = false → m'.hFace y = m'.hFace x → False := fun y ay b e => hx.bd ay e b
  have k1 : m'.hFace x ≠ m.hFace he := fun e => key he (A' _ S.a) B0 (by rw [R.F_, e])
  have k2 : m'.hFace x ≠ m.hFace (m.hRev he) := fun e => key _ (A' _ ar) B1 (by rw [R.Fr, e])
  have k3 : m'.hFace x ≠ m.fFresh := fun e => key _ (N 0 (by omega)) (R.BN 0 (by omega)) (by rw [Nat.add_zero, R.Fn, e])
  have k4 : m'.hFace x ≠ m.fFresh + 1 := fun e => key _ (N 3 (by omega)) (R.BN 3 (by omega)) (by rw [R.Frn, e])
  have x0 : x ≠ he := by rintro rfl; exact k1 R.F_
  have x1 : x ≠ m.hRev he := by rintro rfl; exact k2 R.Fr
  have x2 : x ≠ m.hNext he := by rintro rfl; exact k1 R.F0
  have x3 : x ≠ m.hNext (m.hNext he) := by rintro rfl; exact k3 R.F1
  have x4 : x ≠ m.hNext (m.hRev he) := by rintro rfl; exact k4 R.F2
  have x5 : x ≠ m.hNext (m.hNext (m.hRev he)) := by rintro rfl; exact k2 R.F3
  have ax0 : m.HA x := by
    rcases (R.hal x).1 ax with h1 | rfl | rfl | rfl | rfl | rfl | rfl
    · exact h1
    · exact absurd R.Fn k3
    · exact absurd R.F01 k1
    · exact absurd R.F02 k3
    · exact absurd R.Frn k4
    · exact absurd R.F11 k2
    · exact absurd R.F12 k4
  have fx := R.FO x ax0 x0 x1 x2 x3 x4 x5
  refine ⟨ax0, ?_, R.SO x ax0 x0⟩
  intro y ay ey
  have y0 : y ≠ he := by rintro rfl; exact k1 (by rw [fx, ey])
  have y1 : y ≠ m.hRev he := by rintro rfl; exact k2 (by rw [fx, ey])
  have y2 : y ≠ m.hNext he := by rintro rfl; exact k1 (by rw [fx, ← ey, w.face_next _ S.a])
  have y3 : y ≠ m.hNext (m.hNext he) := by
    rintro rfl; exact k1 (by rw [fx, ← ey, w.face_next _ D.a0, w.face_next _ S.a])
  have y4 : y ≠ m.hNext (m.hRev he) := by rintro rfl; exact k2 (by rw [fx, ← ey, w.face_next _ ar])
  have y5 : y ≠ m.hNext (m.hNext (m.hRev he)) := by
    rintro rfl; exact k2 (by rw [fx, ← ey, w.face_next _ D.a2, w.face_next _ ar])
  rw [← R.B y ay]
  exact hx y (A' _ ay) (by rw [R.FO y ay y0 y1 y2 y3 y4 y5, ey, fx])

theorem SplitStep.bdSym [Scalar F] {h he : Nat} (S : SplitStep m m' h he) (g : m.Good) (bs : m.BdSym) : m'.BdSym := by
  have R := S.R
  intro x ax
  have n0 := R.BN 0 (by omega)
  rw [Nat.add_zero] at n0
  rcases (R.hal x).1 ax with h1 | rfl | rfl | rfl | rfl | rfl | rfl
  · rw [R.RO x h1, R.B x h1, R.B _ (g.wf.rev_alive _ h1), bs x h1]
  · rw [R.Rn, n0, R.BN 3 (by omega)]
  · rw [R.R1, R.BN 1 (by omega), R.BN 2 (by omega)]
  · rw [R.R2, R.BN 1 (by omega), R.BN 2 (by omega)]
  · rw [R.R3, n0, R.BN 3 (by omega)]
  · rw [R.R4, R.BN 4 (by omega), R.BN 5 (by omega)]
  · rw [R.R5, R.BN 4 (by omega), R.BN 5 (by omega)]

theorem flip_oneHole (g : m.Good) {he : Nat} (a : m.HA he) (t : m.OnTri he) (t' : m.OnTri (m.hRev he)) (b : m.hBd he = false)
    (b' : m.hBd (m.hRev he) = false) (oh : m.OneHole) : (flipState m he).OneHole := by
  have w := g.wf
  have D := Diamond.mk' w g.simple a t t'
  obtain ⟨_, ar, a0, a1, a2, a3, _, _, _, _, _, _, _, _, d1, d2, d3, d4, d5, d6, d7, d8, d9, d10, d11, d12, d13, d14, d15, _⟩ := D
  have F_ : (flipState m he).hFace he = m.hFace he := by simp [flipState, upd, d1, d2, d3, d4, d5, d6, d7, d8, d9, d10, d11, d12, d13, d14, d15, d1.symm, d2.symm, d3.symm, d4.symm,
      d5.symm, d6.symm, d7.symm, d8.symm, d9.symm, d10.symm, d11.symm, d12.symm, d13.symm, d14.symm, d15.symm]
  have Fr : (flipState m he).hFace (m.hRev he) = m.hFace (m.hRev he) := by
    simp [flipState, upd, d1, d2, d3, d4, d5, d6, d7, d8, d9, d10, d11, d12, d13, d14, d15, d1.symm, d2.symm, d3.symm, d4.symm,
      d5.symm, d6.symm, d7.symm, d8.symm, d9.symm, d10.symm, d11.symm, d12.symm, d13.symm, d14.symm, d15.symm]
  have F0 : (flipState m he).hFace (m.hNext he) = m.hFace (m.hRev he) := by
    simp [flipState, upd, d1, d2, d3, d4, d5, d6, d7, d8, d9, d10, d11, d12, d13, d14, d15, d1.symm, d2.symm, d3.symm, d4.symm,
      d5.symm, d6.symm, d7.symm, d8.symm, d9.symm, d10.symm, d11.symm, d12.symm, d13.symm, d14.symm, d15.symm]
  have F1 : (flipState m he).hFace (m.hNext (m.hNext he)) = m.hFace he := by
    simp [flipState, upd, d1, d2, d3, d4, d5, d6, d7, d8, d9, d10, d11, d12, d13, d14, d15, d1.symm, d2.symm, d3.symm, d4.symm,
      d5.symm, d6.symm, d7.symm, d8.symm, d9.symm, d10.symm, d11.symm, d12.symm, d13.symm, d14.symm, d15.symm]
  have F2 : (flipState m he).hFace (m.hNext (m.hRev he)) = m.hFace he := by
    simp [flipState, upd, d1, d2, d3, d4, d5, d6, d7, d8, d9, d10, d11, d12, d13, d14, d15, d1.symm, d2.symm, d3.symm, d4.symm,
      d5.symm, d6.symm, d7.symm, d8.symm, d9.symm, d10.symm, d11.symm, d12.symm, d13.symm, d14.symm, d15.symm]
  have F3 : (flipState m he).hFace (m.hNext (m.hNext (m.hRev he))) = m.hFace (m.hRev he) := by
    simp [flipState, upd, d1, d2, d3, d4, d5, d6, d7, d8, d9, d10, d11, d12, d13, d14, d15, d1.symm, d2.symm, d3.symm, d4.symm,
      d5.symm, d6.symm, d7.symm, d8.symm, d9.symm, d10.symm, d11.symm, d12.symm, d13.symm, d14.symm, d15.symm]
  have FO : ∀ x, x ≠ he → x ≠ m.hRev he → x ≠ m.hNext he → x ≠ m.hNext (m.hNext he) → x ≠ m.hNext (m.hRev he) →
      x ≠ m.hNext (m.hNext (m.hRev he)) → (flipState m he).hFace x = m.hFace x := by
    intro x q0 q1 q2 q3 q4 q5
    simp [flipState, upd, q0, q1, q2, q3, q4, q5]
  refine oh.transfer id ?_ (fun _ _ _ _ e => e)
  intro x ax hx
  have ax0 : m.HA x := ax
  have k1 : (flipState m he).hFace x ≠ m.hFace he := fun e => hx.bd (y := he) a (by rw [F_, e]) b
  have k2 : (flipState m he).hFace x ≠ m.hFace (m.hRev he) := fun e => hx.bd (y := m.hRev he) ar (by rw [Fr, e]) b'
  have x0 : x ≠ he := by rintro rfl; exact k1 F_
  have x1 : x ≠ m.hRev he := by rintro rfl; exact k2 Fr
  have x2 : x ≠ m.hNext he := by rintro rfl; exact k2 F0
  have x3 : x ≠ m.hNext (m.hNext he) := by rintro rfl; exact k1 F1
  have x4 : x ≠ m.hNext (m.hRev he) := by rintro rfl; exact k1 F2
  have x5 : x ≠ m.hNext (m.hNext (m.hRev he)) := by rintro rfl; exact k2 F3
  have fx := FO x x0 x1 x2 x3 x4 x5
  refine ⟨ax0, ?_, by simp [flipState, upd, x0, x1]⟩
  intro y ay ey
  have y0 : y ≠ he := by rintro rfl; exact k1 (by rw [fx, ey])
  have y1 : y ≠ m.hRev he := by rintro rfl; exact k2 (by rw [fx, ey])
  have y2 : y ≠ m.hNext he := by rintro rfl; exact k1 (by rw [fx, ← ey, w.face_next _ a])
  have y3 : y ≠ m.hNext (m.hNext he) := by
    rintro rfl; exact k1 (by rw [fx, ← ey, w.face_next _ a0, w.face_next _ a])
  have y4 : y ≠ m.hNext (m.hRev he) := by rintro rfl; exact k2 (by rw [fx, ← ey, w.face_next _ ar])
  have y5 : y ≠ m.hNext (m.hNext (m.hRev he)) := by
    rintro rfl; exact k2 (by rw [fx, ← ey, w.face_next _ a2, w.face_next _ ar])
  exact hx y ay (by rw [FO y y0 y1 y2 y3 y4 y5, ey, fx])

section
variable [Scalar F] {he rev a b c d o0 o1 o2 o3 v0 v1 v2 v3 : Nat}

theorem collapse_oneHole (g : m.Good) (G : CollapseGuard m he rev) (D : Diamond m he rev a b c d)
    (W : Wings m he rev a b c d o0 o1 o2 o3 v0 v1 v2 v3) (R : CollapseRel m m' he rev a b c d o0 o1 o2 o3 v0 v1 v2 v3)
    (oh : m.OneHole) (no : ¬ (m.OnHole v0 ∧ m.OnHole v2)) : m'.OneHole := by
  have w := g.wf
  refine oh.transfer (fun v => if v = v2 then v0 else v) ?_ ?_
  · intro x ax hx
    have ax0 := ((R.hal x).1 ax).1
    refine ⟨ax0, ?_, R.src x ax0⟩
    intro y ay ey
    rw [← R.bd]
    refine hx y ?_ (by rw [R.fc, ey])
    obtain ⟨_, q0, q1, q2, q3, q4, q5⟩ := (R.hal x).1 ax
    have nh : m.hFace x ≠ m.hFace he := by
      intro e
      rcases w.tri_face D.a (by unfold Mesh.OnTri; rw [D.n, D.n0, D.n1]) ax0 e with h | h | h
      · exact q0 h
      · exact q2 (by rw [h, D.n])
      · exact q3 (by rw [h, D.n, D.n0])
    have nr : m.hFace x ≠ m.hFace rev := by
      intro e
      rcases w.tri_face D.ar (by unfold Mesh.OnTri; rw [D.nr, D.n2, D.n3]) ax0 e with h | h | h
      · exact q1 h
      · exact q4 (by rw [h, D.nr])
      · exact q5 (by rw [h, D.nr, D.n2])
    refine (R.hal y).2 ⟨ay, ?_, ?_, ?_, ?_, ?_, ?_⟩
    · rintro rfl; exact nh ey.symm
    · rintro rfl; exact nr ey.symm
    · rintro rfl; exact nh (by rw [← ey, ← D.n, w.face_next _ D.a])
    · rintro rfl; exact nh (by rw [← ey, ← D.n0, w.face_next _ D.a0, ← D.n, w.face_next _ D.a])
    · rintro rfl; exact nr (by rw [← ey, ← D.nr, w.face_next _ D.ar])
    · rintro rfl; exact nr (by rw [← ey, ← D.n2, w.face_next _ D.a2, ← D.nr, w.face_next _ D.ar])
  · intro u v hu hv e
    split at e <;> split at e
    · next h1 h2 => rw [h1, h2]
    · next h1 h2 => subst h1; subst e; exact absurd ⟨hv, hu⟩ no
    · next h1 h2 => subst h2; subst e; exact absurd ⟨hu, hv⟩ no
    · exact e

theorem collapse_bdSym (g : m.Good) (G : CollapseGuard m he rev) (D : Diamond m he rev a b c d)
    (W : Wings m he rev a b c d o0 o1 o2 o3 v0 v1 v2 v3) (R : CollapseRel m m' he rev a b c d o0 o1 o2 o3 v0 v1 v2 v3)
    (bs : m.BdSym) : m'.BdSym := by
  have w := g.wf
  have fa : m.hFace a = m.hFace he := by rw [← D.n, w.face_next _ D.a]
  have fb : m.hFace b = m.hFace he := by rw [← D.n0, w.face_next _ D.a0, fa]
  have fc : m.hFace c = m.hFace rev := by rw [← D.nr, w.face_next _ D.ar]
  have fd : m.hFace d = m.hFace rev := by rw [← D.n2, w.face_next _ D.a2, fc]
  have e0 : m.hBd o0 = false := by rw [← W.r0, bs _ D.a1]; exact G.b0 _ D.a1 fb
  have e1 : m.hBd o1 = false := by rw [← W.r1, bs _ D.a0]; exact G.b0 _ D.a0 fa
  have e2 : m.hBd o2 = false := by rw [← W.r2, bs _ D.a3]; exact G.b1 _ D.a3 fd
  have e3 : m.hBd o3 = false := by rw [← W.r3, bs _ D.a2]; exact G.b1 _ D.a2 fc
  intro x ax
  rw [R.bd]
  by_cases h0 : x = o0
  · rw [h0, R.R0, e0, e1]
  by_cases h1 : x = o1
  · rw [h1, R.R1, e0, e1]
  by_cases h2 : x = o2
  · rw [h2, R.R2, e2, e3]
  by_cases h3 : x = o3
  · rw [h3, R.R3, e2, e3]
  rw [R.RO x h0 h1 h2 h3]
  exact bs x ((R.hal x).1 ax).1

/-- One edit that respects the boundary. -/
theorem edit_inside (g : m.Good) (oh : m.OneHole) (bs : m.BdSym) {e : Edit} (hin : e.inside m) {r : Bool} {m' : Mesh F}
    (h : e.run m = .ok r m') : m'.OneHole ∧ m'.BdSym := by
  cases e with
  | split x =>
    rcases splitHE_cases g hin with e | ⟨m2, he, S⟩
    · have := e.symm.trans h; cases this; exact ⟨oh, bs⟩
    · have := S.run.symm.trans h; cases this
      exact ⟨S.oneHole g oh, S.bdSym g bs⟩
  | flip x =>
    obtain ⟨ax, hb⟩ := hin
    have hb' : m.hBd (m.hRev x) = false := by rw [bs x ax, hb]
    have t := g.tri.onTri ax hb
    have t' := g.tri.onTri (g.wf.rev_alive _ ax) hb'
    rcases flipHE_cases g ax t t' with e | ⟨m2, e, rfl, _⟩
    · have := e.symm.trans h; cases this; exact ⟨oh, bs⟩
    · have := e.symm.trans h; cases this
      exact ⟨flip_oneHole g ax t t' hb hb' oh, bs⟩
  | collapse x =>
    obtain ⟨ax, no⟩ := hin
    rcases collapseHE_cases g ax with e | ⟨he, rev, hs, hdeg, G, a', b', c', d', o0, o1, o2, o3, v0, v1, v2, v3, D, W, h2⟩
    · have := e.symm.trans h; cases this; exact ⟨oh, bs⟩
    · rcases h2 with ⟨hp, m2, e, R⟩ | ⟨hp, e⟩
      · have := e.symm.trans h; cases this
        refine ⟨collapse_oneHole g G D W R oh ?_, collapse_bdSym g G D W R bs⟩
        rw [← W.s, ← W.sr]
        rcases hs with ⟨rfl, rfl⟩ | ⟨rfl, rfl⟩
        · exact no
        · exact fun h => no ⟨h.2, h.1⟩
      · have := e.symm.trans h; cases this

/-- arguments that respect the boundary are admissible -/
theorem Edit.inside_ok (g : m.Good) (bs : m.BdSym) {e : Edit} (hin : e.inside m) : e.okAt m := by
  cases e with
  | split x => exact hin
  | collapse x => exact hin.1
  | flip x => exact ⟨hin.1, g.tri.onTri hin.1 hin.2, g.tri.onTri (g.wf.rev_alive _ hin.1) (by rw [bs x hin.1, hin.2])⟩

theorem inside_run {N : Vec3 F → Prop} (P : PosRange N) : ∀ (es : List Edit) (m : Mesh F), m.Good → m.OneHole → m.BdSym → m.InRange N →
    Inside m es → ∃ bs m', runEdits es m = .ok bs m' ∧ bs.length = es.length ∧ m'.Good ∧ m'.OneHole ∧ m'.BdSym
  | [], m, g, oh, bs, _, _ => ⟨[], m, rfl, rfl, g, oh, bs⟩
  | e :: es, m, g, oh, bs, r, ok => by
    obtain ⟨b, m1, e1, d1⟩ := edit_step P g r (Edit.inside_ok g bs ok.1)
    obtain ⟨oh1, bs1⟩ := edit_inside g oh bs ok.1 e1
    obtain ⟨bs, m2, e2, l2, d2⟩ := inside_run P es m1 d1.good oh1 bs1 d1.range (ok.2 b m1 e1)
    refine ⟨b :: bs, m2, ?_, by simp [l2], d2⟩
    simp [runEdits, e1, e2]

end
end TinyMesh
