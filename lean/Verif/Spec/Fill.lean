import Verif.Spec.WF
import Mathlib.Data.List.Basic
/-
What a triangulation of a polygon is, and what it means that a hole has been replaced by one.
-/
namespace TinyMesh
variable {F : Type}

/-- `Triangulation i k l`: the triangles `l` fill the polygon with the corners `i, i+1, ..., k`.  Either the polygon is a single
side, or it is a triangle `(i, m, k)` and triangulations of the polygons `i..m` and `m..k`. -/
inductive Triangulation : Nat → Nat → List (Nat × Nat × Nat) → Prop
  | side (i : Nat) : Triangulation i (i + 1) []
  | cut {i m k : Nat} {l1 l2 : List (Nat × Nat × Nat)} : Triangulation i m l1 → Triangulation m k l2 →
      Triangulation i k ((i, m, k) :: (l1 ++ l2))

/-- the faces all of whose half-edges carry the boundary flag -/
def Mesh.holeFaces (m : Mesh F) : List Nat := m.fs.filter (fun f => m.hes.all (fun h => m.hFace h != f || m.hBd h))

/-- `m'` is `m` with every face in `holeFaces` replaced by triangles between its corners. -/
structure HolesFilled (m m' : Mesh F) : Prop where
  consistent : m'.WF
  triangles : ∀ h, m'.hAlive h = true → m'.OnTri h
  noHole : m'.holeFaces = []
  vs : m'.vs = m.vs
  vAlive : m'.vAlive = m.vAlive
  vPos : m'.vPos = m.vPos
  vLock : m'.vLock = m.vLock
  /-- a hole with `n` sides gives `n - 2` faces, that is `n - 3` more than before -/
  faces : m'.fs.length + 3 * m.holeFaces.length = m.fs.length + (m.holeFaces.map m.sides).sum
  halfedges : m'.hes.length + 6 * m.holeFaces.length = m.hes.length + 2 * (m.holeFaces.map m.sides).sum
  /-- half-edges of the old mesh remain between the same vertices and with the same opposite half-edge -/
  kept : ∀ h, m.hAlive h = true → m'.hAlive h = true ∧ m'.hSrc h = m.hSrc h ∧ m'.hSrc (m'.hNext h) = m.hSrc (m.hNext h) ∧
    m'.hRev h = m.hRev h
  /-- the other faces are not touched -/
  others : ∀ h, m.hAlive h = true → m.hFace h ∉ m.holeFaces →
    m'.hNext h = m.hNext h ∧ m'.hFace h = m.hFace h ∧ m'.hBd h = m.hBd h

/-- `m'` is `m` with the face `f` replaced by the triangles `new`, whose corners are corners of `f`. -/
structure FaceFilled (m m' : Mesh F) (f : Nat) (new : List Nat) : Prop where
  consistent : m'.WF
  count : new.length + 2 = m.sides f
  fs : ∀ g, g ∈ m'.fs ↔ (g ∈ m.fs ∧ g ≠ f) ∨ g ∈ new
  nodup : new.Nodup
  fresh : ∀ g ∈ new, g ∉ m.fs
  triangles : ∀ h, m'.hAlive h = true → m'.hFace h ∈ new → m'.OnTri h ∧ m'.hBd h = false ∧
    ∃ c, m.hAlive c = true ∧ m.hFace c = f ∧ m.hSrc c = m'.hSrc h
  vs : m'.vs = m.vs
  vAlive : m'.vAlive = m.vAlive
  vPos : m'.vPos = m.vPos
  vLock : m'.vLock = m.vLock
  halfedges : m'.hes.length + 6 = m.hes.length + 2 * m.sides f
  kept : ∀ h, m.hAlive h = true → m'.hAlive h = true ∧ m'.hSrc h = m.hSrc h ∧ m'.hSrc (m'.hNext h) = m.hSrc (m.hNext h) ∧
    m'.hRev h = m.hRev h
  others : ∀ h, m.hAlive h = true → m.hFace h ≠ f →
    m'.hNext h = m.hNext h ∧ m'.hFace h = m.hFace h ∧ m'.hBd h = m.hBd h

/-- `c` and `c'` are half-edges of the face `f` that start at different corners which are not neighbours on `f` -/
def Mesh.Diagonal (m : Mesh F) (f c c' : Nat) : Prop :=
  m.hAlive c = true ∧ m.hFace c = f ∧ m.hAlive c' = true ∧ m.hFace c' = f ∧ c ≠ c' ∧ m.hNext c ≠ c' ∧ m.hNext c' ≠ c

/-- The faces `fs` can be filled without joining two vertices twice: the corners of each face are different vertices, no edge of the
mesh joins two corners that are not neighbours on the face, and no such pair of corners belongs to two of the faces. -/
structure Mesh.Chordless (m : Mesh F) (fs : List Nat) : Prop where
  corners : ∀ f ∈ fs, ∀ c c', m.hAlive c = true → m.hAlive c' = true → m.hFace c = f → m.hFace c' = f → m.hSrc c = m.hSrc c' → c = c'
  chord : ∀ f ∈ fs, ∀ c c', m.Diagonal f c c' → ∀ h, m.hAlive h = true → m.hSrc h = m.hSrc c → m.hSrc (m.hNext h) ≠ m.hSrc c'
  shared : ∀ f ∈ fs, ∀ f' ∈ fs, f ≠ f' → ∀ c c' d d', m.Diagonal f c c' → m.Diagonal f' d d' → m.hSrc c = m.hSrc d →
    m.hSrc c' ≠ m.hSrc d'

end TinyMesh
