import Verif.Proof.FrontC
import Verif.Proof.FillC
import Verif.Model.Front
import Mathlib.Tactic.Simps.Basic
/-
The steps that the front is built from, as functions of the mesh.
-/
namespace TinyMesh
variable {F : Type} {m : Mesh F}

/-! ### The arrays -/

/-- the arrays are consistent -/
structure Mesh.Heap (m : Mesh F) : Prop where
  hD : Dense m.hAlive m.hIdx m.hes
  vD : Dense m.vAlive m.vIdx m.vs
  fD : Dense m.fAlive m.fIdx m.fs
  hb : ∀ h, m.hAlive h = true → 0 < h ∧ h < m.hFresh
  vb : ∀ v, m.vAlive v = true → 0 < v ∧ v < m.vFresh
  fb : ∀ f, m.fAlive f = true → 0 < f ∧ f < m.fFresh
  h0 : 0 < m.hFresh
  v0 : 0 < m.vFresh
  f0 : 0 < m.fFresh

theorem Mesh.WF.heap (w : m.WF) {f : Nat} (a : m.fAlive f = true) : m.Heap where
  hD := w.hDense
  vD := w.vDense
  fD := w.fDense
  hb := w.hBound
  vb := w.vBound
  fb := w.fBound
  h0 := by have := w.hBound _ (w.fHe_ok f a).1; omega
  v0 := by have := w.vBound _ (w.src_alive _ (w.fHe_ok f a).1); omega
  f0 := by have := w.fBound _ a; omega

theorem Mesh.Heap.wf (K : m.Heap) (L : m.links.Ok) : m.WF := L.wf K.hD K.vD K.fD K.hb K.vb K.fb

theorem Mesh.Heap.hdead (K : m.Heap) {h : Nat} (l : m.hFresh ≤ h) : m.hAlive h = false := by
  rw [Bool.eq_false_iff]; intro a; have := K.hb h a; omega
theorem Mesh.Heap.vdead (K : m.Heap) {h : Nat} (l : m.vFresh ≤ h) : m.vAlive h = false := by
  rw [Bool.eq_false_iff]; intro a; have := K.vb h a; omega
theorem Mesh.Heap.fdead (K : m.Heap) {h : Nat} (l : m.fFresh ≤ h) : m.fAlive h = false := by
  rw [Bool.eq_false_iff]; intro a; have := K.fb h a; omega

/-! ### New half-edges and vertices -/

/-- the mesh after `new Halfedge` and `addHalfedge` -/
@[simps -fullyApplied] def Mesh.allocH (m : Mesh F) : Mesh F := { m with
  hAlive := upd m.hAlive m.hFresh true
  hSrc := upd m.hSrc m.hFresh 0
  hNext := upd m.hNext m.hFresh 0
  hRev := upd m.hRev m.hFresh 0
  hFace := upd m.hFace m.hFresh 0
  hIdx := upd m.hIdx m.hFresh (m.hes.length : Int)
  hBd := upd m.hBd m.hFresh false
  hes := m.hes ++ [m.hFresh]
  hCap := pushCap m.hes.length m.hCap m.grow
  hEpoch := pushEpoch m.hes.length m.hCap m.hEpoch
  hFresh := m.hFresh + 1 }

/-- the mesh after `new Vertex` and `addVertex` -/
@[simps -fullyApplied] def Mesh.allocV (m : Mesh F) (p : Vec3 F) : Mesh F := { m with
  vAlive := upd m.vAlive m.vFresh true
  vPos := upd m.vPos m.vFresh p
  vHe := upd m.vHe m.vFresh 0
  vIdx := upd m.vIdx m.vFresh (m.vs.length : Int)
  vLock := upd m.vLock m.vFresh false
  vs := m.vs ++ [m.vFresh]
  vFresh := m.vFresh + 1 }

theorem upd_upd {β : Type} (f : Nat → β) (a : Nat) (x y : β) : upd (upd f a x) a y = upd f a y := by
  funext z
  unfold upd
  split <;> rfl

theorem upd_comm {β : Type} (f : Nat → β) {a b : Nat} (x y : β) (h : a ≠ b) : upd (upd f a x) b y = upd (upd f b y) a x := by
  funext z
  unfold upd
  split
  · next e => subst e; rw [if_neg (Ne.symm h)]
  · rfl

theorem Mesh.Heap.allocH (K : m.Heap) : m.allocH.Heap where
  hD := K.hD.push (K.hdead (Nat.le_refl _))
  vD := K.vD
  fD := K.fD
  hb := by
    intro h a
    simp only [allocH_hAlive, allocH_hFresh, upd] at a ⊢
    split at a
    · have := K.h0; omega
    · have := K.hb h a; omega
  vb := K.vb
  fb := K.fb
  h0 := by simp
  v0 := K.v0
  f0 := K.f0

theorem Mesh.Heap.allocV (K : m.Heap) (p : Vec3 F) : (m.allocV p).Heap where
  hD := K.hD
  vD := K.vD.push (K.vdead (Nat.le_refl _))
  fD := K.fD
  hb := K.hb
  vb := by
    intro h a
    simp only [allocV_vAlive, allocV_vFresh, upd] at a ⊢
    split at a
    · have := K.v0; omega
    · have := K.vb h a; omega
  fb := K.fb
  h0 := K.h0
  v0 := by simp
  f0 := K.f0

theorem alloc1 {α : Type} (k : Nat → M F α) :
    (newHalfedge >>= fun h => addHalfedge h >>= fun _ => k h) m = k m.hFresh m.allocH := by
  simp only [bind_apply, newHalfedge]
  rw [addHalfedge_ok (by exact upd_same _ _ _)]
  simp only [upd_upd]
  rfl

theorem alloc2 {α : Type} (k : Nat → Nat → M F α) :
    (newHalfedge >>= fun h1 => newHalfedge >>= fun h2 => addHalfedge h1 >>= fun _ => addHalfedge h2 >>= fun _ => k h1 h2) m =
      k m.hFresh (m.hFresh + 1) m.allocH.allocH := by
  simp only [bind_apply, newHalfedge]
  rw [addHalfedge_ok (by simp [upd])]
  dsimp only
  rw [addHalfedge_ok (by simp [upd])]
  dsimp only
  rw [upd_comm (b := m.hFresh) _ _ _ (by omega), upd_upd, upd_upd]
  simp [Mesh.allocH]

theorem alloc3 {α : Type} (k : Nat → Nat → Nat → M F α) :
    (newHalfedge >>= fun h1 => newHalfedge >>= fun h2 => newHalfedge >>= fun h3 => addHalfedge h1 >>= fun _ => addHalfedge h2 >>= fun _ =>
      addHalfedge h3 >>= fun _ => k h1 h2 h3) m =
      k m.hFresh (m.hFresh + 1) (m.hFresh + 2) m.allocH.allocH.allocH := by
  simp only [bind_apply, newHalfedge]
  rw [addHalfedge_ok (by simp [upd])]
  dsimp only
  rw [addHalfedge_ok (by simp [upd])]
  dsimp only
  rw [addHalfedge_ok (by simp [upd])]
  dsimp only
  rw [upd_comm (a := m.hFresh + 1 + 1) (b := m.hFresh) _ _ _ (by omega), upd_comm (a := m.hFresh + 1) (b := m.hFresh) _ _ _ (by omega), upd_upd,
    upd_comm (a := m.hFresh + 1 + 1) (b := m.hFresh + 1) _ _ _ (by omega), upd_upd, upd_upd]
  simp [Mesh.allocH]

theorem allocV1 {α : Type} (p : Vec3 F) (k : Nat → M F α) :
    (newVertex p >>= fun h => addVertex h >>= fun _ => k h) m = k m.vFresh (m.allocV p) := by
  simp only [bind_apply, newVertex]
  rw [addVertex_ok (by exact upd_same _ _ _)]
  simp only [upd_upd]
  rfl

theorem allocV2 {α : Type} (p q : Vec3 F) (k : Nat → Nat → M F α) :
    (newVertex p >>= fun v1 => newVertex q >>= fun v2 => addVertex v1 >>= fun _ => addVertex v2 >>= fun _ => k v1 v2) m =
      k m.vFresh (m.vFresh + 1) ((m.allocV p).allocV q) := by
  simp only [bind_apply, newVertex]
  rw [addVertex_ok (by simp [upd])]
  dsimp only
  rw [addVertex_ok (by simp [upd])]
  dsimp only
  rw [upd_comm (b := m.vFresh) _ _ _ (by omega), upd_upd, upd_upd]
  simp [Mesh.allocV]

/-! ### Triangles -/

/-- the mesh after the links of a new triangle have been set, completion.cpp:60-80 -/
@[simps -fullyApplied] def Mesh.tri (m : Mesh F) (a b c u v w : Nat) : Mesh F := { m with
  hSrc := upd (upd (upd m.hSrc a u) b v) c w
  hNext := upd (upd (upd m.hNext a b) b c) c a
  hBd := upd (upd (upd m.hBd a false) b false) c false
  fAlive := upd m.fAlive m.fFresh true
  fHe := upd m.fHe m.fFresh a
  fIdx := upd m.fIdx m.fFresh (m.fs.length : Int)
  fs := m.fs ++ [m.fFresh]
  fFresh := m.fFresh + 1
  hFace := upd (upd (upd m.hFace a m.fFresh) b m.fFresh) c m.fFresh }

theorem Mesh.Heap.tri (K : m.Heap) (a b c u v w : Nat) : (m.tri a b c u v w).Heap where
  hD := K.hD
  vD := K.vD
  fD := K.fD.push (K.fdead (Nat.le_refl _))
  hb := K.hb
  vb := K.vb
  fb := by
    intro h a
    simp only [tri_fAlive, tri_fFresh, upd] at a ⊢
    split at a
    · have := K.f0; omega
    · have := K.fb h a; omega
  h0 := K.h0
  v0 := K.v0
  f0 := by simp

theorem pair_old {s : HeMaps} {i j h : Nat} (e : s.pair2he.lookup (i, j) = some h) : pairHalfedge s i j m = .ok (h, s) m := by
  unfold pairHalfedge
  rw [e]
  rfl

theorem pair_new {s : HeMaps} {i j : Nat} (e : s.pair2he.lookup (i, j) = none) :
    pairHalfedge s i j m = .ok (m.hFresh, s.insert (i, j) m.hFresh) m.allocH := by
  unfold pairHalfedge
  rw [e]
  exact alloc1 (m := m) fun h => pure (h, s.insert (i, j) h)

theorem addTri_eq {vs : List Nat} {i0 i1 i2 a b c u v w : Nat} {s s1 s2 s3 : HeMaps} {m1 m2 m3 : Mesh F}
    (r1 : pairHalfedge s i0 i1 m = .ok (a, s1) m1) (r2 : pairHalfedge s1 i1 i2 m1 = .ok (b, s2) m2)
    (r3 : pairHalfedge s2 i2 i0 m2 = .ok (c, s3) m3) (b0 : vs[i0]? = some u) (b1 : vs[i1]? = some v) (b2 : vs[i2]? = some w)
    (aa : m3.hAlive a = true) (ab : m3.hAlive b = true) (ac : m3.hAlive c = true) :
    addNewTriangle vs (i0, i1, i2) s m = .ok (m3.fFresh, s3) (m3.tri a b c u v w) := by
  simp only [addNewTriangle, bind_apply, r1, r2, r3]
  simp only [boundaryAt, b0, b1, b2, pure_apply, setSrc, setNext, setBd, newFace, setFace, setFHe, aa, ab, ac, if_true]
  rw [addFace_ok (by exact upd_same _ _ _)]
  simp only [aa, ab, ac, if_true, upd_same, upd_upd]
  rfl

/-! ### Partners -/

/-- the mesh after two half-edges have been made partners -/
@[simps -fullyApplied] def Mesh.pairUp (m : Mesh F) (h r : Nat) : Mesh F := { m with
  hRev := upd (upd m.hRev h r) r h
  hBd := upd m.hBd h (m.hBd r) }

theorem Mesh.Heap.pairUp (K : m.Heap) (h r : Nat) : (m.pairUp h r).Heap := ⟨K.hD, K.vD, K.fD, K.hb, K.vb, K.fb, K.h0, K.v0, K.f0⟩

theorem link_old {s : HeMaps} {h : Nat} (a : m.hAlive h = true) (r : m.hRev h ≠ 0) : frontLinkRev s h m = .ok () m := by
  simp [frontLinkRev, getRev, a, r]

theorem link_new {s : HeMaps} {h r : Nat} {e : Nat × Nat} (a : m.hAlive h = true) (a' : m.hAlive r = true) (r0 : m.hRev h = 0)
    (l1 : s.he2pair.lookup h = some e) (l2 : s.pair2he.lookup (e.2, e.1) = some r) : frontLinkRev s h m = .ok () (m.pairUp h r) := by
  simp [frontLinkRev, getRev, a, a', r0, l1, l2, setRev, getBd, setBd, Mesh.pairUp]

/-- a loop over a triangle whose body does not touch the links of the loop -/
theorem circ3 {body : Nat → M F Unit} {a b c : Nat} {m1 m2 m3 : Mesh F} (a0 : a ≠ 0) (b0 : b ≠ 0) (c0 : c ≠ 0) (ab : a ≠ b) (ac : a ≠ c)
    (hf : 3 ≤ m.hFresh) (r1 : body a m = .ok () m1) (r2 : body b m1 = .ok () m2) (r3 : body c m2 = .ok () m3)
    (al1 : m1.hAlive a = true) (al2 : m2.hAlive b = true) (al3 : m3.hAlive c = true)
    (n1 : m1.hNext a = b) (n2 : m2.hNext b = c) (n3 : m3.hNext c = a) :
    circ faceStep a () (fun x _ => do
      body x
      pure (false, ())) m = .ok () m3 := by
  obtain ⟨k, hk⟩ := Nat.exists_eq_add_of_le hf
  have hk : m.hFresh = k + 1 + 1 + 1 := by omega
  unfold circ
  rw [if_neg a0, hk]
  simp only [circLoop, bind_apply, r1, pure_apply, faceStep, getNext, al1, if_true, n1, b0, ab.symm, or_self, if_false, r2, al2, n2, c0,
    ac.symm, r3, al3, n3, Bool.false_eq_true, true_or]

end TinyMesh
