import Verif.Proof.SettleB
import Verif.Proof.SmoothB
/-
The vertices inside are the ones the front has made.
-/
namespace TinyMesh
open Orbit
variable {F : Type} {m m1 : Mesh F} {f : Nat}

theorem Mesh.Filled.move (R : m.Filled m1 f) (p : Nat → Vec3 F) (h : ∀ v, m.vAlive v = true → p v = m1.vPos v) :
    m.Filled { m1 with vPos := p } f :=
  ⟨R.wf.setPos p, R.last, R.tri, R.old, R.loop, R.order, R.vert, fun v a c => (h v a).trans (R.still v a c), R.lock, R.flag, R.rev, R.border, R.corner⟩

theorem Mesh.FreePath.alive (w : m.WF) {s v : Nat} (as : m.vAlive s = true) (P : m.FreePath s v) : m.vAlive v = true := by
  cases P with
  | here => exact as
  | step _ ah _ => exact w.src_alive _ (w.next_alive _ ah)

theorem Mesh.Inside.alive (w : m.WF) {v : Nat} (i : m.Inside f v) : m.vAlive v = true := by
  obtain ⟨s, ⟨h, ah, _, rfl⟩, _, P⟩ := i
  exact P.alive w (w.src_alive _ ah)

theorem Mesh.Inside.unlocked {v : Nat} (i : m.Inside f v) : m.vLock v = false := by
  obtain ⟨s, _, l, P⟩ := i
  cases P with
  | here => exact l
  | step _ _ u => exact u

theorem Mesh.Inside.step {h : Nat} (i : m.Inside f (m.hSrc h)) (a : m.hAlive h = true) (u : m.vLock (m.hSrc (m.hNext h)) = false) :
    m.Inside f (m.hSrc (m.hNext h)) := by
  obtain ⟨s, c, l, P⟩ := i
  exact ⟨s, c, l, P.step a u⟩

/-- a half-edge that starts at a new vertex lies in a triangle that fills the hole -/
theorem Mesh.Filled.at_new (R : m.Filled m1 f) (w : m.WF) {h : Nat} (a : m1.hAlive h = true) (n : m.vAlive (m1.hSrc h) = false) :
    m1.hFace h = f ∨ m.fAlive (m1.hFace h) = false := by
  by_contra c
  rw [not_or] at c
  have af : m.fAlive (m1.hFace h) = true := by simpa using c.2
  obtain ⟨a0, e0⟩ := (R.loop _ af c.1 h).1 ⟨a, rfl⟩
  rw [(R.order h a0 (by rw [e0]; exact c.1)).2, w.src_alive _ a0] at n
  cases n

theorem Mesh.Filled.sides_new (R : m.Filled m1 f) {h : Nat} (a : m1.hAlive h = true) (k : m1.hFace h = f ∨ m.fAlive (m1.hFace h) = false) :
    m1.sides (m1.hFace h) = 3 := by
  rcases k with k | k
  · rw [k]; exact R.last.2
  · exact R.tri _ (R.wf.face_alive _ a) k

/-- a vertex of a triangle that fills the hole is new or locked -/
theorem Mesh.Filled.new_or_locked (R : m.Filled m1 f) {h : Nat} (a : m1.hAlive h = true) (k : m1.hFace h = f ∨ m.fAlive (m1.hFace h) = false) :
    m.vAlive (m1.hSrc h) = false ∨ m1.vLock (m1.hSrc h) = true := by
  cases n : m.vAlive (m1.hSrc h) with
  | false => exact .inl rfl
  | true => exact .inr ((R.lock _ (R.wf.src_alive _ a)).2 ⟨n, .inr (R.corner h a k n)⟩)

/-- the vertices inside are new -/
theorem Mesh.Filled.inside_new (R : m.Filled m1 f) (w : m.WF) {v : Nat} (i : m1.Inside f v) : m.vAlive v = false := by
  obtain ⟨s, ⟨h, ah, fh, rfl⟩, l, P⟩ := i
  induction P with
  | here =>
    rcases R.new_or_locked ah (.inl fh) with c | c
    · exact c
    · rw [l] at c; cases c
  | step _ ak u ih =>
    have k := R.at_new w ak ih
    rw [← R.wf.face_next _ ak] at k
    rcases R.new_or_locked (R.wf.next_alive _ ak) k with c | c
    · exact c
    · rw [u] at c; cases c

/-- all half-edges that start at a vertex inside are sides of triangles -/
theorem Mesh.Filled.inside_tri (R : m.Filled m1 f) (w : m.WF) {h : Nat} (i : m1.Inside f (m1.hSrc h)) (a : m1.hAlive h = true) :
    m1.sides (m1.hFace h) = 3 := R.sides_new a (R.at_new w a (R.inside_new w i))

end TinyMesh
