import Verif.Model.State
import Mathlib.Logic.Function.Iterate
/-
What a consistent half-edge mesh is.  These definitions only look at the links stored in the mesh, not at
any function of the model.
-/
namespace TinyMesh
variable {F : Type}

/-- An owning array lists exactly the live objects, without repetition, and each object knows its position. -/
structure Dense (alive : Nat → Bool) (idx : Nat → Int) (l : List Nat) : Prop where
  nodup : l.Nodup
  mem : ∀ p, p ∈ l ↔ alive p = true
  idx : ∀ i (h : i < l.length), idx l[i] = (i : Int)

/-- A consistent half-edge mesh. -/
structure Mesh.WF (m : Mesh F) : Prop where
  hDense : Dense m.hAlive m.hIdx m.hes
  vDense : Dense m.vAlive m.vIdx m.vs
  fDense : Dense m.fAlive m.fIdx m.fs
  /-- null is not alive, and live addresses have been allocated -/
  hBound : ∀ h, m.hAlive h = true → 0 < h ∧ h < m.hFresh
  vBound : ∀ v, m.vAlive v = true → 0 < v ∧ v < m.vFresh
  fBound : ∀ f, m.fAlive f = true → 0 < f ∧ f < m.fFresh
  /-- all links of a live half-edge lead to live objects -/
  next_alive : ∀ h, m.hAlive h = true → m.hAlive (m.hNext h) = true
  rev_alive : ∀ h, m.hAlive h = true → m.hAlive (m.hRev h) = true
  src_alive : ∀ h, m.hAlive h = true → m.vAlive (m.hSrc h) = true
  face_alive : ∀ h, m.hAlive h = true → m.fAlive (m.hFace h) = true
  /-- `rev` is a fixed-point free involution, and `rev` starts where the half-edge ends -/
  rev_rev : ∀ h, m.hAlive h = true → m.hRev (m.hRev h) = h
  rev_ne : ∀ h, m.hAlive h = true → m.hRev h ≠ h
  src_rev : ∀ h, m.hAlive h = true → m.hSrc (m.hRev h) = m.hSrc (m.hNext h)
  /-- `next` is injective and stays on the face -/
  next_inj : ∀ h h', m.hAlive h = true → m.hAlive h' = true → m.hNext h = m.hNext h' → h = h'
  face_next : ∀ h, m.hAlive h = true → m.hFace (m.hNext h) = m.hFace h
  /-- faces and vertices own one of their half-edges -/
  fHe_ok : ∀ f, m.fAlive f = true → m.hAlive (m.fHe f) = true ∧ m.hFace (m.fHe f) = f
  vHe_ok : ∀ v, m.vAlive v = true → m.hAlive (m.vHe v) = true ∧ m.hSrc (m.vHe v) = v
  /-- the half-edges of a face form one loop, those leaving a vertex form one ring -/
  face_conn : ∀ h h', m.hAlive h = true → m.hAlive h' = true → m.hFace h = m.hFace h' →
    ∃ n, m.hNext^[n] h = h'
  ring_conn : ∀ h h', m.hAlive h = true → m.hAlive h' = true → m.hSrc h = m.hSrc h' →
    ∃ n, (fun x => m.hNext (m.hRev x))^[n] h = h'

/-- A half-edge lies on a triangle. -/
def Mesh.OnTri (m : Mesh F) (h : Nat) : Prop := m.hNext (m.hNext (m.hNext h)) = h

/-- Every face is a triangle or a hole: a loop all of whose edges are flagged as boundary on both sides and
have a triangle on the other side. -/
structure Mesh.TriOrHole (m : Mesh F) : Prop where
  holds : ∀ h, m.hAlive h = true → m.OnTri h ∨
    (∀ h', m.hAlive h' = true → m.hFace h' = m.hFace h →
      m.hBd h' = true ∧ m.hBd (m.hRev h') = true ∧ m.OnTri (m.hRev h'))

/-- No self loops and no two half-edges joining the same ordered pair of vertices. -/
structure Mesh.Simple (m : Mesh F) : Prop where
  no_loop : ∀ h, m.hAlive h = true → m.hSrc h ≠ m.hSrc (m.hNext h)
  no_dup : ∀ h h', m.hAlive h = true → m.hAlive h' = true → m.hSrc h = m.hSrc h' →
    m.hSrc (m.hNext h) = m.hSrc (m.hNext h') → h = h'

/-- The meshes on which the library works. -/
structure Mesh.Good (m : Mesh F) : Prop where
  wf : m.WF
  tri : m.TriOrHole
  simple : m.Simple

/-- a mesh object all of whose elements are owned by its arrays -/
structure Owned (m : Mesh F) : Prop where
  h : ∀ p, m.hAlive p = true → p ∈ m.hes
  v : ∀ p, m.vAlive p = true → p ∈ m.vs
  f : ∀ p, m.fAlive p = true → p ∈ m.fs
  h0 : 0 < m.hFresh
  v0 : 0 < m.vFresh
  f0 : 0 < m.fFresh

/-- Number of half-edges that leave `v`. -/
def Mesh.outDeg (m : Mesh F) (v : Nat) : Nat := m.hes.countP (fun h => m.hSrc h == v)

/-- Number of half-edges on the loop of face `f`. -/
def Mesh.sides (m : Mesh F) (f : Nat) : Nat := m.hes.countP (fun h => m.hFace h == f)

end TinyMesh
