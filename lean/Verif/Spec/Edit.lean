import Verif.Spec.WF
/-
What the local edits must achieve, stated with the links of the mesh before and after only.
-/
namespace TinyMesh
variable {F : Type}

/-- There is a half-edge from `a` to `b`. -/
def Mesh.Joined (m : Mesh F) (a b : Nat) : Prop :=
  ∃ h, m.hAlive h = true ∧ m.hSrc h = a ∧ m.hSrc (m.hNext h) = b

/-- `a`, `b`, `c` are the corners of a triangle, in the order of its loop. -/
def Mesh.HasTri (m : Mesh F) (a b c : Nat) : Prop :=
  ∃ h, m.hAlive h = true ∧ m.OnTri h ∧ m.hSrc h = a ∧ m.hSrc (m.hNext h) = b ∧ m.hSrc (m.hNext (m.hNext h)) = c

/-- `a` and `b` are, in some order, `c` and `d`. -/
def SamePair (a b c d : Nat) : Prop := (a = c ∧ b = d) ∨ (a = d ∧ b = c)

/-- The vertices of `m` are still there, with their positions and locks. -/
def KeepsVerts (m m' : Mesh F) : Prop :=
  ∀ v, m.vAlive v = true → m'.vAlive v = true ∧ m'.vPos v = m.vPos v ∧ m'.vLock v = m.vLock v

/-- Splitting the edge with ends `p`, `q` and opposite corners `r`, `s`; `n` is the new vertex. -/
structure SplitDone (mid : Vec3 F → Vec3 F → Vec3 F) (m m' : Mesh F) (p q r s n : Nat) : Prop where
  good : m'.Good
  keeps : KeepsVerts m m'
  fresh : m.vAlive n = false
  alive : m'.vAlive n = true
  only : ∀ v, m'.vAlive v = true → m.vAlive v = true ∨ v = n
  nv : m'.vs.length = m.vs.length + 1
  nh : m'.hes.length = m.hes.length + 6
  nf : m'.fs.length = m.fs.length + 2
  pos : m'.vPos n = mid (m.vPos p) (m.vPos q)
  unlocked : m'.vLock n = false
  degree : m'.outDeg n = 4
  /-- the edge is gone, the new vertex is joined to its ends and to the opposite corners, other edges are untouched -/
  edges : ∀ a b, m'.Joined a b ↔ (m.Joined a b ∧ ¬ SamePair a b p q) ∨
    (a = n ∧ (b = p ∨ b = q ∨ b = r ∨ b = s)) ∨ (b = n ∧ (a = p ∨ a = q ∨ a = r ∨ a = s))
  /-- the faces around the new vertex are triangles, and their half-edges are interior ones -/
  tris : ∀ h, m'.hAlive h = true → m'.hSrc h = n → m'.OnTri h ∧ m'.OnTri (m'.hRev h) ∧ m'.hBd h = false ∧
    m'.hBd (m'.hRev h) = false

/-- Replacing the edge with ends `p`, `q` by the one with ends `r`, `s`. -/
structure FlipDone (m m' : Mesh F) (p q r s : Nat) : Prop where
  good : m'.Good
  /-- the arrays are the same, and so are the elements in them -/
  hes : m'.hes = m.hes
  vs : m'.vs = m.vs
  fs : m'.fs = m.fs
  hAlive : m'.hAlive = m.hAlive
  vAlive : m'.vAlive = m.vAlive
  fAlive : m'.fAlive = m.fAlive
  hIdx : m'.hIdx = m.hIdx
  vIdx : m'.vIdx = m.vIdx
  fIdx : m'.fIdx = m.fIdx
  pos : m'.vPos = m.vPos
  lock : m'.vLock = m.vLock
  bd : m'.hBd = m.hBd
  distinct : p ≠ q ∧ p ≠ r ∧ p ≠ s ∧ q ≠ r ∧ q ≠ s ∧ r ≠ s
  edges : ∀ a b, m'.Joined a b ↔ (m.Joined a b ∧ ¬ SamePair a b p q) ∨ SamePair a b r s
  degP : m'.outDeg p + 1 = m.outDeg p
  degQ : m'.outDeg q + 1 = m.outDeg q
  degR : m'.outDeg r = m.outDeg r + 1
  degS : m'.outDeg s = m.outDeg s + 1
  degO : ∀ v, v ≠ p → v ≠ q → v ≠ r → v ≠ s → m'.outDeg v = m.outDeg v

/-- Moving the vertex `q` onto its neighbour `p`. -/
structure CollapseDone (m m' : Mesh F) (p q : Nat) : Prop where
  good : m'.Good
  joined : m.Joined p q
  alive : ∀ v, m'.vAlive v = true ↔ m.vAlive v = true ∧ v ≠ q
  keeps : ∀ v, m'.vAlive v = true → m'.vPos v = m.vPos v ∧ m'.vLock v = m.vLock v
  nv : m'.vs.length + 1 = m.vs.length
  nh : m'.hes.length + 6 = m.hes.length
  nf : m'.fs.length + 2 = m.fs.length
  /-- edges are the old ones with `q` renamed to `p`, without the edge that became a loop -/
  edges : ∀ a b, m'.Joined a b ↔ a ≠ b ∧ ∃ a' b', m.Joined a' b' ∧ (if a' = q then p else a') = a ∧
    (if b' = q then p else b') = b
  /-- the elements that are left are old ones -/
  hOld : ∀ h, m'.hAlive h = true → m.hAlive h = true
  fOld : ∀ f, m'.fAlive f = true → m.fAlive f = true
  /-- the faces that are left are those without the edge, with all their half-edges -/
  faces : ∀ f, m'.fAlive f = true ↔ m.fAlive f = true ∧ ∀ x, m.hAlive x = true → m.hFace x = f → ¬ SamePair (m.hSrc x) (m.hSrc (m.hNext x)) p q
  kept : ∀ h, m'.hAlive h = true ↔ m.hAlive h = true ∧ m'.fAlive (m.hFace h) = true
  /-- they keep their corners but for `q`, which becomes `p` -/
  same : ∀ h, m'.hAlive h = true → m'.hNext h = m.hNext h ∧ m'.hFace h = m.hFace h ∧ m'.hSrc h = if m.hSrc h = q then p else m.hSrc h

end TinyMesh
