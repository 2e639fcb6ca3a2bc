import Verif.Proof.SettleG
import Verif.Proof.SettleC
/-
The whole of the second part of `holeFillAdvancingFront_`.
-/
namespace TinyMesh
open Orbit
section
variable {m : Mesh XR} {p : Nat → E3}

/-- a triangle at a vertex inside has a locked corner, or all its corners are inside -/
theorem Mesh.Inside.face {F : Type} {m : Mesh F} (w : m.WF) {f h : Nat} (a : m.hAlive h = true) (i : m.Inside f (m.hSrc h)) (s3 : m.sides (m.hFace h) = 3) :
    (∀ x, m.hAlive x = true → m.hFace x = m.hFace h → m.Inside f (m.hSrc x)) ∨ ∃ x, m.hAlive x = true ∧ m.hFace x = m.hFace h ∧ m.vLock (m.hSrc x) = true := by
  by_cases c : ∃ x, m.hAlive x = true ∧ m.hFace x = m.hFace h ∧ m.vLock (m.hSrc x) = true
  · exact .inr c
  · refine .inl fun x ax fx => ?_
    by_cases e : m.hSrc h = m.hSrc x
    · rw [← e]; exact i
    · obtain ⟨k, ak, sk, dk⟩ := w.tri_step (w.face_alive _ a) s3 ⟨h, a, rfl, rfl⟩ ⟨x, ax, fx, rfl⟩ e
      rw [← dk]
      refine Mesh.Inside.step (by rw [sk]; exact i) ak ?_
      rw [dk]
      by_contra l
      exact c ⟨x, ax, fx, by simpa using l⟩

theorem settle_exact (w : m.WF) (A : m.AtE p) {f : Nat} (a : m.fAlive f = true) (s3 : m.sides f = 3)
    (tri : ∀ h, m.hAlive h = true → m.Inside f (m.hSrc h) → m.sides (m.hFace h) = 3) {ord : List Nat → List Nat} (ho : ∀ l, (ord l).Perm l) :
    ∃ vs : List Nat, vs.Nodup ∧ (∀ v, v ∈ vs ↔ m.Inside f v) ∧ ∀ solve : LinSolve XR,
      (m.SettleFails p vs → settle ord solve f m = .err .throw) ∧
      (¬ m.SettleFails p vs → ∃ m', settle ord solve f m = .ok () m') ∧
      (¬ m.SettleFails p vs → solve.ExactSym → m.Anchored p (· ∈ vs) → ∃ m' x, settle ord solve f m = .ok () m' ∧ m' = { m with vPos := m'.vPos } ∧ m'.AtE x ∧
        (∀ v, v ∉ vs → x v = p v ∧ m'.vPos v = m.vPos v) ∧ ∀ v ∈ vs, m.lap p x v = m.meanAway p (m.faceTilt p (m.endNormals p vs)) v) := by
  obtain ⟨l, e0, ndl, meml⟩ := settleInside_ok w a s3
  have P := ho l
  refine ⟨ord l, P.nodup_iff.2 ndl, fun v => by rw [P.mem_iff, meml], fun solve => ?_⟩
  generalize hvs : ord l = vs at P
  have nd : vs.Nodup := P.nodup_iff.2 ndl
  have mem : ∀ v, v ∈ vs ↔ m.Inside f v := fun v => by rw [P.mem_iff, meml]
  have al : ∀ v ∈ vs, m.vAlive v = true := fun v hv => ((mem v).1 hv).alive w
  obtain ⟨fs, e3, h3⟩ := allFaces_ok w vs [] al (vs := vs) (fun h ah sh => by
    rcases Mesh.Inside.face w ah ((mem _).1 sh) (tri h ah ((mem _).1 sh)) with c | c
    · exact .inl fun x ax fx => (mem _).2 (c x ax fx)
    · exact .inr c)
  have run : settle ord solve f m = (do
      let n ← firstNormals vs
      let n ← smoothNormals vs 1000 n
      let fs ← foldAll (facesAt vs) vs []
      let R ← turns n fs
      let g ← gradients R vs
      poisson solve vs g) m := by
    unfold settle
    rw [bind_apply, e0]
    dsimp only
    rw [hvs]
  rw [run]
  obtain ⟨f1, f2⟩ := firstNormals_exact w A al
  by_cases c1 : ∃ v ∈ vs, m.NoNormal p v
  · have : m.SettleFails p vs := .inl c1
    refine ⟨fun _ => ?_, fun h => absurd this h, fun h => absurd this h⟩
    rw [bind_apply, f2 c1]
  push Not at c1
  obtain ⟨n0, e1, hn0⟩ := f1 c1
  obtain ⟨g1, g2⟩ := smoothNormals_exact w A al 1000 hn0
  by_cases c2 : ∃ i < 1000, m.BlendFails p vs ((m.blendAll p vs)^[i] (m.startNormals p vs))
  · have : m.SettleFails p vs := .inr (.inl c2)
    refine ⟨fun _ => ?_, fun h => absurd this h, fun h => absurd this h⟩
    rw [bind_apply, e1]; dsimp only
    rw [bind_apply, g2 c2]
  obtain ⟨n, e2, hn⟩ := g1 fun i hi h => c2 ⟨i, hi, h⟩
  obtain ⟨t1, t2⟩ := turns_exact w A hn (fs := fs) (fun x hx => by
    obtain ⟨h, ah, sh, rfl⟩ := ((h3 x).1 hx).resolve_left (by simp)
    exact ⟨w.face_alive _ ah, tri h ah ((mem _).1 sh)⟩)
  by_cases c3 : ∃ h, m.hAlive h = true ∧ m.hSrc h ∈ vs ∧ (m.areaVec p (m.hFace h) = 0 ∨ m.cornerSum (m.endNormals p vs) (m.hFace h) = 0)
  · have : m.SettleFails p vs := .inr (.inr c3)
    refine ⟨fun _ => ?_, fun h => absurd this h, fun h => absurd this h⟩
    rw [bind_apply, e1]; dsimp only
    rw [bind_apply, e2]; dsimp only
    rw [bind_apply, e3]; dsimp only
    obtain ⟨h, ah, sh, z⟩ := c3
    rw [bind_apply, t2 ⟨m.hFace h, (h3 _).2 (.inr ⟨h, ah, sh, rfl⟩), z⟩]
  obtain ⟨R, e4, hR⟩ := t1 fun x hx => by
    obtain ⟨h, ah, sh, rfl⟩ := ((h3 x).1 hx).resolve_left (by simp)
    constructor
    · intro z; exact c3 ⟨h, ah, sh, .inl z⟩
    · intro z; exact c3 ⟨h, ah, sh, .inr z⟩
  obtain ⟨g, e5, hg⟩ := gradients_exact w A (R := R) (Q := m.faceTilt p (m.endNormals p vs)) (vs := vs) (fun v hv => ⟨al v hv, fun h ah sh => by
    have hv' : m.hSrc h ∈ vs := by rw [sh]; exact hv
    refine ⟨(w.three_cyc (w.face_alive _ ah) (tri h ah ((mem _).1 hv')) ah rfl).1, fun z => c3 ⟨h, ah, hv', .inl z⟩, ?_⟩
    exact hR _ ((h3 _).2 (.inr ⟨h, ah, hv', rfl⟩))⟩)
  have run2 : (do
      let n ← firstNormals vs
      let n ← smoothNormals vs 1000 n
      let fs ← foldAll (facesAt vs) vs []
      let R ← turns n fs
      let g ← gradients R vs
      poisson solve vs g) m = poisson solve vs g m := by
    rw [bind_apply, e1]; dsimp only
    rw [bind_apply, e2]; dsimp only
    rw [bind_apply, e3]; dsimp only
    rw [bind_apply, e4]; dsimp only
    rw [bind_apply, e5]
  rw [run2]
  refine ⟨fun h => ?_, fun _ => poisson_runs w A nd al solve g, fun _ hE an => ?_⟩
  · rcases h with ⟨v, hv, z⟩ | h | h
    · exact absurd z (c1 v hv)
    · exact absurd h c2
    · exact absurd h c3
  · exact poisson_exact w A nd al an hE hg

end
end TinyMesh
