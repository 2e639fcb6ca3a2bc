import Verif.Model.Iter
/-
Local edits `splitHE`, `collapseHE`, `collapseFace`, `flipHE`, the consistency check `verify`, and queries.
-/
namespace TinyMesh
variable {F : Type} [Scalar F]

/-- `Mesh::splitHE`, mesh.cpp:562-692. Statement order as in the source. -/
def splitHE (heArg : Nat) : M F Bool := do
  let revArg ← getRev heArg
  let v0Arg ← getSrc heArg
  let v1Arg ← getSrc revArg
  let da ← degree v0Arg
  let db ← degree v1Arg
  let sw := decide (da < db)
  let he := if sw then revArg else heArg
  let rev := if sw then heArg else revArg
  let v0 := if sw then v1Arg else v0Arg
  let v1 := if sw then v0Arg else v1Arg
  let d0 ← degree v0
  if d0 < 3 then return false
  let d1 ← degree v1
  if d1 < 3 then return false
  let b0 ← getBd he
  if b0 then return false
  let r ← getRev he
  let b1 ← getBd r
  if b1 then return false
  let he_new ← newHalfedge
  let he01 ← newHalfedge
  let he02 ← newHalfedge
  let rev_new ← newHalfedge
  let he11 ← newHalfedge
  let he12 ← newHalfedge
  let he0 ← getNext he
  let he1 ← getNext he0
  let he2 ← getNext rev
  let he3 ← getNext he2
  let f0 ← getFace he
  let f1 ← getFace rev
  let f0_new ← newFace
  let f1_new ← newFace
  let v2 ← getSrc he1
  let v3 ← getSrc he3
  let ps ← getSrc he
  let pp ← getPos ps
  let pd ← getDst he
  let pq ← getPos pd
  let v_new ← newVertex (Vec3.smul (Scalar.lit 1 2) (Vec3.add pp pq))
  -- Update next half-edges
  setNext he he0
  setNext he0 he01
  setNext he01 he
  setNext he_new he02
  setNext he02 he1
  setNext he1 he_new
  setNext rev he11
  setNext he11 he3
  setNext he3 rev
  setNext rev_new he2
  setNext he2 he12
  setNext he12 rev_new
  -- Update rev half-edges
  setRev he rev
  setRev rev he
  setRev he_new rev_new
  setRev rev_new he_new
  setRev he01 he02
  setRev he02 he01
  setRev he11 he12
  setRev he12 he11
  -- Update faces
  setFace he f0
  setFace he0 f0
  setFace he01 f0
  setFace he_new f0_new
  setFace he02 f0_new
  setFace he1 f0_new
  setFace rev f1
  setFace he3 f1
  setFace he11 f1
  setFace rev_new f1_new
  setFace he12 f1_new
  setFace he2 f1_new
  -- Update halfedge origins
  setSrc he v_new
  setSrc he0 v1
  setSrc he01 v2
  setSrc he_new v0
  setSrc he02 v_new
  setSrc he1 v2
  setSrc rev v1
  setSrc he11 v_new
  setSrc he3 v3
  setSrc rev_new v_new
  setSrc he2 v0
  setSrc he12 v3
  -- Update vertex halfedges
  setVHe v0 he2
  setVHe v1 he0
  setVHe v_new he
  -- Update face halfedges
  setFHe f0 he
  setFHe f0_new he_new
  setFHe f1 rev
  setFHe f1_new rev_new
  -- Add new components to the list
  addFace f0_new
  addFace f1_new
  addVertex v_new
  addHalfedge he_new
  addHalfedge rev_new
  addHalfedge he01
  addHalfedge he02
  addHalfedge he11
  addHalfedge he12
  return true

/-- the sum of cross products around the vertex to be removed, mesh.cpp:761-767 -/
def sumCross (p : Vec3 F) (ps : List (Vec3 F)) : Vec3 F :=
  (List.range ps.length).foldl (fun acc i =>
    Vec3.add acc (Vec3.cross (Vec3.sub (ps.getD i Vec3.zero) p)
      (Vec3.sub (ps.getD ((i + 1) % ps.length) Vec3.zero) p))) Vec3.zero

/-- the loop mesh.cpp:775-785: `true` if no two consecutive signed areas have opposite signs -/
def signLoop (norm p : Vec3 F) (ps : List (Vec3 F)) : Nat → F → Nat → Bool
  | 0, _, _ => true
  | k + 1, sign, i =>
    let s := Vec3.dot norm (Vec3.cross (Vec3.sub (ps.getD i Vec3.zero) p)
      (Vec3.sub (ps.getD ((i + 1) % ps.length) Vec3.zero) p))
    if Scalar.lt (sign * s) (Scalar.lit 0 1) then false else signLoop norm p ps k s (i + 1)

/-- the geometric part of the test in `collapseHE`, mesh.cpp:760-785; `p2` is the position of the vertex to be
removed, `p0` of the one that remains, `ps` of the neighbours of the removed one. -/
def collapseGeomOK (p0 p2 : Vec3 F) (ps : List (Vec3 F)) : Option Bool :=
  let norm := sumCross p2 ps
  if Scalar.eq (Vec3.length norm) (Scalar.lit 0 1) then some false
  else match Vec3.normalize? norm with
    | none => none
    | some n => some (signLoop n p0 ps ps.length (Scalar.lit 0 1) 0)

/-- read the positions of a list of vertices, mesh.cpp:737-785 -/
def getPosList : List Nat → M F (List (Vec3 F))
  | [] => pure []
  | v :: vs => do
    let p ← getPos v
    let ps ← getPosList vs
    pure (p :: ps)

/-- `Assertion(v->index_ < (int)vertices_.size())`, mesh.cpp:728-731, 790-791. -/
def assertVIdx (v : Nat) : M F Unit := do
  let i ← getVIdx v
  let n ← M.read (fun m => (m.vs.length : Int))
  M.assert (decide (i < n))

/-- `Assertion(he->index_ < (int)halfedges_.size())`, mesh.cpp:707-708. -/
def assertHIdx (h : Nat) : M F Unit := do
  let i ← getHIdx h
  let n ← M.read (fun m => (m.hes.length : Int))
  M.assert (decide (i < n))

/-- neighbours of a vertex as collected in mesh.cpp:737-744 and compared in 749-754; reading
`it->dst()` requires a valid half-edge; the assertion requires a non-null vertex. -/
def ringDsts (v : Nat) : M F (List Nat) := do
  let h ← getVHe v
  circ ringStep h [] (fun x l => do
    let d ← getDst x
    M.assert (d != 0)
    pure (false, l ++ [d]))

/-- `Mesh::collapseHE`, mesh.cpp:694-843. -/
def collapseHE (heArg : Nat) : M F Bool := do
  let revArg ← getRev heArg
  assertHIdx heArg
  assertHIdx revArg
  let sa ← getSrc heArg
  let da ← degree sa
  let sb ← getSrc revArg
  let db ← degree sb
  let sw := decide (da > db)
  let he := if sw then revArg else heArg
  let rev := if sw then heArg else revArg
  -- Skip halfedge at the boundary
  let fa ← getFace he
  let ba ← fIsBoundary fa
  if ba then return false
  let rr ← getRev he
  let fb ← getFace rr
  let bb ← fIsBoundary fb
  if bb then return false
  -- Check degrees of end points
  let v0 ← getSrc he
  let p1 ← getPrev he
  let v1 ← getSrc p1
  let v2 ← getSrc rev
  let p3 ← getPrev rev
  let v3 ← getSrc p3
  assertVIdx v0
  assertVIdx v1
  assertVIdx v2
  assertVIdx v3
  let d0 ← degree v0
  if d0 ≤ 3 then return false
  let d1 ← degree v1
  if d1 ≤ 4 then return false
  let d2 ← degree v2
  if d2 ≤ 3 then return false
  let d3 ← degree v3
  if d3 ≤ 4 then return false
  -- Collect neighboring vertices of the one to be removed
  let neighbors ← ringDsts v2
  M.assert (!neighbors.isEmpty)
  -- Check unsafe collapse (# of shared vertices)
  let nb0 ← ringDsts v0
  let numUnion := (nb0.filter (fun d => neighbors.contains d)).length
  if numUnion ≠ 2 then return false
  -- Check unsafe collapse (face flip)
  let q0 ← getPos v0
  let q2 ← getPos v2
  let qs ← getPosList neighbors
  match collapseGeomOK q0 q2 qs with
  | none => M.fail .throw
  | some false => return false
  | some true =>
    -- Update origins of all outward halfedges
    assertVIdx v0
    assertVIdx v2
    M.assert (v2 != v0)
    let hr ← getVHe v2
    circ ringStep hr () (fun x _ => do
      let s ← getSrc x
      M.assert (s == v2)
      setSrc x v0
      pure (false, ()))
    let hm ← getVHe v0
    circ ringStep hm () (fun x _ => do
      let s ← getSrc x
      M.assert (s == v0)
      pure (false, ()))
    -- Update edges and opposite halfedges
    let n0 ← getNext he
    let nn0 ← getNext n0
    let he0 ← getRev nn0
    let he1 ← getRev n0
    setRev he0 he1
    setRev he1 he0
    let n1 ← getNext rev
    let nn1 ← getNext n1
    let he2 ← getRev nn1
    let he3 ← getRev n1
    setRev he2 he3
    setRev he3 he2
    setVHe v0 he0
    setVHe v0 he0
    setVHe v1 he1
    setVHe v2 he2
    setVHe v3 he3
    -- Remove halfedges
    let f0 ← getFace he
    let f1 ← getFace rev
    let bf0 ← fIsBoundary f0
    M.assert (!bf0)
    let bf1 ← fIsBoundary f1
    M.assert (!bf1)
    let a1 ← getNext he
    let a2 ← getNext a1
    removeHalfedge a2
    let a1' ← getNext he
    removeHalfedge a1'
    removeHalfedge he
    let c1 ← getNext rev
    let c2 ← getNext c1
    removeHalfedge c2
    let c1' ← getNext rev
    removeHalfedge c1'
    removeHalfedge rev
    -- Remove faces
    removeFace f0
    removeFace f1
    -- Remove vertices
    removeVertex v2
    return true

/-- `Mesh::collapseFace`, mesh.cpp:845-866. -/
def collapseFace (f : Nat) : M F Bool := do
  let hes ← faceList f
  M.assert (hes.length == 3)
  let he1 := hes.headD 0
  let n ← getNext he1
  let he2 ← getRev n
  let r1 ← collapseHE he1
  let i ← getHIdx he2
  let nh ← M.read (fun m => (m.hes.length : Int))
  M.assert (decide (0 ≤ i) && decide (i < nh))
  let r2 ← collapseHE he2
  return (r1 && r2)

/-- `Mesh::flipHE`, mesh.cpp:868-932. -/
def flipHE (he : Nat) : M F Bool := do
  let rev ← getRev he
  M.assert (rev != 0)
  let u0 ← getSrc he
  let pa ← getPrev he
  let u1 ← getSrc pa
  let u2 ← getSrc rev
  let pb ← getPrev rev
  let u3 ← getSrc pb
  let d0 ← degree u0
  if d0 ≤ 4 then return false
  let d2 ← degree u2
  if d2 ≤ 4 then return false
  -- Cannot flip if the new edge exists already
  let hu ← getVHe u1
  let found ← circ ringStep hu false (fun x _ => do
    let d ← getDst x
    pure (d == u3, d == u3))
  if found then return false
  let he0 ← getNext he
  let n0 ← getNext he
  let he1 ← getNext n0
  let he2 ← getNext rev
  let n1 ← getNext rev
  let he3 ← getNext n1
  let v0 ← getSrc he0
  let v1 ← getSrc he1
  let v2 ← getSrc he2
  let v3 ← getSrc he3
  let f0 ← getFace he
  let f1 ← getFace rev
  setVHe v0 he0
  setVHe v2 he2
  setSrc he v3
  setSrc rev v1
  setNext he he1
  setNext he1 he2
  setNext he2 he
  setNext rev he3
  setNext he3 he0
  setNext he0 rev
  setFHe f0 he
  setFace he f0
  setFace he1 f0
  setFace he2 f0
  setFHe f1 rev
  setFace rev f1
  setFace he0 f1
  setFace he3 f1
  return true

/-- `Mesh::verifyVertex`, mesh.cpp:988-1010. -/
def verifyVertex (v : Nat) : M F Bool := do
  let i ← getVIdx v
  let n ← M.read (fun m => (m.vs.length : Int))
  let p ← getPos v
  let h ← getVHe v
  let ok ← circ ringStep h true (fun x b => do
    let s ← getSrc x
    pure (false, b && s == v))
  return (decide (i < n) && p.finite && ok)

/-- vertex loop of `verify`, mesh.cpp:955-962 -/
def verifyVs : Nat → List Nat → M F Bool
  | _, [] => pure true
  | i, v :: vs => do
    let k ← getVIdx v
    let ok ← verifyVertex v
    let rest ← verifyVs (i + 1) vs
    return (decide (k = (i : Int)) && ok && rest)

/-- half-edge loop of `verify`, mesh.cpp:964-970 -/
def verifyHs : Nat → List Nat → M F Bool
  | _, [] => pure true
  | i, h :: hs => do
    let k ← getHIdx h
    let rest ← verifyHs (i + 1) hs
    return (decide (k = (i : Int)) && rest)

/-- face loop of `verify`, mesh.cpp:972-983 -/
def verifyFs : Nat → List Nat → M F Bool
  | _, [] => pure true
  | i, f :: fs => do
    let k ← getFIdx f
    let h ← getFHe f
    let rest ← verifyFs (i + 1) fs
    return (decide (k = (i : Int)) && h != 0 && rest)

/-- `Mesh::verify`, mesh.cpp:953-986. -/
def verify : M F Bool := do
  let vs ← M.read (fun m => m.vs)
  let a ← verifyVs 0 vs
  let hs ← M.read (fun m => m.hes)
  let b ← verifyHs 0 hs
  let fs ← M.read (fun m => m.fs)
  let c ← verifyFs 0 fs
  return (a && b && c)

/-- the loop of `Mesh::numEdges`, mesh.cpp:52-57; `seen` is the set of inserted half-edges -/
def numEdgesLoop : List Nat → List Nat → M F (List Nat)
  | [], seen => pure seen
  | h :: hs, seen => do
    let r ← getRev h
    if seen.contains h || seen.contains r then numEdgesLoop hs seen
    else numEdgesLoop hs (h :: seen)

/-- `Mesh::numEdges`, mesh.cpp:51-59. -/
def numEdges : M F Nat := do
  let hs ← M.read (fun m => m.hes)
  let s ← numEdgesLoop hs []
  return s.length

/-- `Mesh::getVertices`, mesh.cpp:113-119. -/
def getVertices : M F (List (Vec3 F)) := do
  let vs ← M.read (fun m => m.vs)
  getPosList vs

/-- loop of `Mesh::getVertexIndices`, mesh.cpp:123-134; the three indices of each reported face -/
def vertexIndicesLoop : List Nat → M F (List (Int × Int × Int))
  | [] => pure []
  | f :: fs => do
    let hole ← fIsHole f
    if hole then
      vertexIndicesLoop fs
    else
      let h ← getFHe f
      let s0 ← getSrc h
      let i0 ← getVIdx s0
      let h1 ← getNext h
      let s1 ← getSrc h1
      let i1 ← getVIdx s1
      let h2 ← getPrev h
      let s2 ← getSrc h2
      let i2 ← getVIdx s2
      let rest ← vertexIndicesLoop fs
      pure ((i0, i1, i2) :: rest)

/-- `Mesh::getVertexIndices`, mesh.cpp:121-136. The flat index list is given as a list of triples. -/
def getVertexIndices : M F (List (Int × Int × Int)) := do
  let fs ← M.read (fun m => m.fs)
  vertexIndicesLoop fs

end TinyMesh
