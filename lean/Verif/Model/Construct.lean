import Verif.Model.Ops
/-
`Mesh::construct` (mesh.cpp:88-107 and 185-365), `clone` (109-111).
-/
namespace TinyMesh
variable {F : Type}

/-- An index triple of `indices_`. See mesh.h:105. -/
structure Tri where
  a : Nat
  b : Nat
  c : Nat
deriving DecidableEq, Repr

/-- Two equal corners, mesh.cpp:187-188, 204-205. -/
def Tri.degen (t : Tri) : Bool := t.a == t.b || t.b == t.c || t.c == t.a

/-- `indices_` as triples. `none` if its length is not a multiple of three: then the loop mesh.cpp:186-195
reads (or swaps) beyond the end of the vector, since its size stays the same modulo three. -/
def toTris : List Nat → Option (List Tri)
  | [] => some []
  | a :: b :: c :: rest => (toTris rest).map (⟨a, b, c⟩ :: ·)
  | _ => none

/-- the entries of `indices_`, mesh.h:105 -/
def ofTris : List Tri → List Nat
  | [] => []
  | t :: ts => t.a :: t.b :: t.c :: ofTris ts

/-- mesh.cpp:186-195: a degenerate triangle is overwritten by the last one and the list shrinks by one; the loop
then goes on with the *next* slot. -/
def dropDegen : List Tri → List Tri
  | [] => []
  | t :: rest =>
    if t.degen then
      match rest.getLast? with
      | none => []
      | some z => z :: dropDegen rest.dropLast
    else t :: dropDegen rest
termination_by l => l.length
decreasing_by
  · simp; omega
  · simp

/-- `vertices_.clear(); halfedges_.clear(); faces_.clear()`, mesh.cpp:71-73, 90-92: destroys all owned objects;
the capacity of the vector is kept. -/
def clearArrays : M F Unit := fun m => .ok ()
  { m with
    hAlive := fun p => m.hAlive p && !m.hes.contains p
    vAlive := fun p => m.vAlive p && !m.vs.contains p
    fAlive := fun p => m.fAlive p && !m.fs.contains p
    hes := [], vs := [], fs := [] }

/-- lookup in `uniqueVertices` (mesh.cpp:94); the hash table is a list of entries, keys are compared with `==`
(simplification: equal keys have equal hashes). -/
def lookupPos [Scalar F] : List (Vec3 F × Nat) → Vec3 F → Option Nat
  | [], _ => none
  | (q, i) :: rest, p => if q.eq p then some i else lookupPos rest p

/-- `vertices_.push_back(..)`, mesh.cpp:101 -/
def pushVertex (v : Nat) : M F Unit := fun m => .ok () { m with vs := m.vs ++ [v] }
/-- `indices_.push_back(..)`, mesh.cpp:103 -/
def pushIndex (k : Nat) : M F Unit := fun m => .ok () { m with indices := m.indices ++ [k] }

/-- The loop mesh.cpp:96-104. `uniqueVertices[pos]` inserts a zero entry if the key is not found, which happens
right after an insertion if the key is not equal to itself (NaN). -/
def dedupLoop [Scalar F] (V : List (Vec3 F)) : List Nat → List (Vec3 F × Nat) → M F Unit
  | [], _ => pure ()
  | i :: rest, tbl =>
    match V[i]? with
    | none => M.fail .ub
    | some p => do
      let n ← M.read (fun m => m.vs.length)
      let tbl1 := match lookupPos tbl p with
        | some _ => tbl
        | none => tbl ++ [(p, n)]
      if (lookupPos tbl p).isNone then
        let v ← newVertex p
        pushVertex v
      let tbl2 := match lookupPos tbl1 p with
        | some _ => tbl1
        | none => tbl1 ++ [(p, 0)]
      let k := match lookupPos tbl1 p with
        | some k => k
        | none => 0
      pushIndex k
      dedupLoop V rest tbl2

/-- mesh.cpp:198-200. -/
def setVertexIndices : Nat → List Nat → M F Unit
  | _, [] => pure ()
  | i, v :: vs => do
    setVIdx v i
    setVertexIndices (i + 1) vs

/-- `pairToHalfedge` (0: no entry) and `vertexDegree` (0: no entry), mesh.cpp:212-213. -/
structure PD where
  pair : Nat → Nat → Nat
  deg : Nat → Nat

/-- mesh.cpp:212-213 -/
def PD.empty : PD := ⟨fun _ _ => 0, fun _ => 0⟩
/-- `pairToHalfedge[...] = he`, mesh.cpp:239-277 -/
def PD.setPair (pd : PD) (a b h : Nat) : PD :=
  { pd with pair := fun x y => if x = a ∧ y = b then h else pd.pair x y }
/-- `vertexDegree[...]++`, mesh.cpp:214-285 -/
def PD.incDeg (pd : PD) (a : Nat) : PD := { pd with deg := upd pd.deg a (pd.deg a + 1) }

/-- `vertices_[a]`, mesh.cpp:258-259; out of range is undefined behaviour -/
def vsAt (a : Nat) : M F Nat := fun m =>
  match m.vs[a]? with
  | none => .err .ub
  | some v => .ok v m

/-- body of the loop mesh.cpp:239-277 for the edge from `a` to `b` of face `f`; returns the new half-edge -/
def addCorner (f a b : Nat) (pd0 : PD) : M F (Nat × PD) := do
  let pd1 := pd0.incDeg a
  if pd1.pair a b ≠ 0 then
    M.fail .abort
  else
    let he ← newHalfedge
    addHalfedge he
    let pd2 := pd1.setPair a b he
    let va ← vsAt a
    setVHe va he
    setSrc he va
    setFace he f
    setFHe f he
    let rev := pd2.pair b a
    if rev ≠ 0 then
      setRev he rev
      setRev rev he
    else
      setRev he 0
    return (he, pd2)

/-- one iteration of the loop mesh.cpp:214-285 -/
def addTri (t : Tri) (pd : PD) : M F PD := do
  if pd.pair t.a t.b ≠ 0 ∨ pd.pair t.b t.c ≠ 0 ∨ pd.pair t.c t.a ≠ 0 then
    return pd
  else
    let f ← newFace
    let (h0, pd1) ← addCorner f t.a t.b pd
    let (h1, pd2) ← addCorner f t.b t.c pd1
    let (h2, pd3) ← addCorner f t.c t.a pd2
    addFace f
    setNext h0 h1
    setNext h1 h2
    setNext h2 h0
    return pd3

/-- the loop mesh.cpp:214-285 -/
def addTris : List Tri → PD → M F PD
  | [], pd => pure pd
  | t :: ts, pd => do
    let pd' ← addTri t pd
    addTris ts pd'

/-- the do-while loop mesh.cpp:290-297 -/
def advanceLoop (v : Nat) : Nat → Nat → M F Unit
  | 0, _ => M.fail .diverge
  | fuel + 1, he => do
    let r ← getRev he
    if r = 0 then
      setVHe v he
    else
      let n ← getNext r
      let s ← getVHe v
      if n = s then pure () else advanceLoop v fuel n

/-- mesh.cpp:288-298 -/
def advanceVs : List Nat → M F Unit
  | [] => pure ()
  | v :: vs => do
    let he ← getVHe v
    let fuel ← M.read (fun m => m.hFresh)
    advanceLoop v fuel he
    advanceVs vs

/-- Using the reference `he` of mesh.cpp:303 after a reallocation of `halfedges_` is undefined. `e` is the
reallocation count at the time the reference was taken. -/
def checkRef (e : Nat) : M F Unit := fun m => if m.hEpoch = e then .ok () m else .err .ub

/-- the inner while loop mesh.cpp:327-330 -/
def turnLoop (e he : Nat) : Nat → Nat → M F Nat
  | 0, _ => M.fail .diverge
  | fuel + 1, it => do
    checkRef e
    if it = he then
      pure it
    else
      let r ← getRev it
      if r = 0 then pure it
      else
        let n ← getNext r
        turnLoop e he fuel n

/-- the do-while loop mesh.cpp:311-331; returns `boundaryHalfedges` -/
def holeLoop (e he face : Nat) : Nat → Nat → List Nat → M F (List Nat)
  | 0, _, _ => M.fail .diverge
  | fuel + 1, it, acc => do
    let rev ← newHalfedge
    addHalfedge rev
    setRev it rev
    setRev rev it
    setFace rev face
    let n ← getNext it
    let s ← getSrc n
    setSrc rev s
    setBd it true
    setBd rev true
    let tf ← M.read (fun m => m.hFresh)
    let it' ← turnLoop e he tf n
    checkRef e
    if it' = he then pure (acc ++ [rev])
    else holeLoop e he face fuel it' (acc ++ [rev])

/-- mesh.cpp:336-339: `next_` of the j-th new half-edge is the (j-1)-th, of the first it is the last -/
def linkHole : Nat → List Nat → M F Unit
  | _, [] => pure ()
  | prev, h :: hs => do
    setNext h prev
    linkHole h hs

/-- body of the loop mesh.cpp:302-341 for one half-edge -/
def closeOne (he : Nat) : M F Unit := do
  M.assert (he != 0)
  let e ← M.read (fun m => m.hEpoch)
  let r ← getRev he
  if r = 0 then
    let face ← newFace
    addFace face
    let fuel ← M.read (fun m => m.hFresh)
    let bs ← holeLoop e he face fuel he []
    setFHe face (bs.headD 0)
    linkHole (bs.getLastD 0) bs
  else
    pure ()

/-- the loop mesh.cpp:301-342 -/
def closeAll : List Nat → M F Unit
  | [] => pure ()
  | h :: hs => do
    closeOne h
    closeAll hs

/-- mesh.cpp:344-346 -/
def stepBack : List Nat → M F Unit
  | [] => pure ()
  | v :: vs => do
    let h ← getVHe v
    let r ← getRev h
    let n ← getNext r
    setVHe v n
    stepBack vs

/-- mesh.cpp:349-364. `count` is a `uint32_t` that starts at `-1` or `0`; wrap-around is not modelled, the
comparison is done in the integers. -/
def checkManifold (deg : Nat → Nat) : List Nat → M F Unit
  | [] => pure ()
  | v :: vs => do
    let h ← getVHe v
    M.assert (h != 0)
    let b ← vIsBoundary v
    let n ← degreeDo v
    let i ← getVIdx v
    M.assert (decide (((if b then (-1 : Int) else 0) + (n : Int)) = (deg i.toNat : Int)))
    checkManifold deg vs
where
  /-- the do-while loop mesh.cpp:355-359 -/
  degreeDo (v : Nat) : M F Nat := do
    let h ← getVHe v
    let fuel ← M.read (fun m => m.hFresh)
    loop h fuel h 0
  loop (start : Nat) : Nat → Nat → Nat → M F Nat
    | 0, _, _ => M.fail .diverge
    | fuel + 1, he, c => do
      let r ← getRev he
      let n ← getNext r
      if n = start then pure (c + 1) else loop start fuel n (c + 1)

/-- the contents of `indices_` after mesh.cpp:186-195 -/
def setIndices (ts : List Tri) : M F Unit := fun m => .ok () { m with indices := ofTris ts }

/-- `Mesh::construct()`, mesh.cpp:185-365. -/
def construct0 : M F Unit := do
  let idx ← M.read (fun m => m.indices)
  match toTris idx with
  | none => M.fail .ub
  | some ts0 => do
    let ts := dropDegen ts0
    setIndices ts
    let vs ← M.read (fun m => m.vs)
    setVertexIndices 0 vs
    M.assert (ts.all (fun t => !t.degen))
    let pd ← addTris ts PD.empty
    advanceVs vs
    let hs ← M.read (fun m => m.hes)
    closeAll hs
    stepBack vs
    checkManifold pd.deg vs

/-- `Mesh::construct(vertices, indices)`, mesh.cpp:88-107. -/
def construct [Scalar F] (V : List (Vec3 F)) (I : List Nat) : M F Unit := do
  clearArrays
  dedupLoop V I []
  construct0

end TinyMesh
