import Verif.Model.Fill
import Verif.Model.Smooth
import Verif.Model.Curv
import Verif.Model.Ops
/-
The advancing front of `Mesh::holeFillAdvancingFront_` (core/completion.cpp:230-521): the loop that closes a hole with triangles
whose sides have about the length of the sides of the hole. What follows it in the function (from line 523: the correction of
the positions of the new vertices) is not modelled here.

As in `Model.Fill` the maps `pair2he` and `he2pair` are association lists. An assignment `pair2he[e] = h` puts the new entry in
front of the list, where it hides an older one.
-/
namespace TinyMesh
variable {F : Type}

/-- `pair2he[e] = h; he2pair[h] = e;`, core/completion.cpp:369-370, 413-416, 477-482 -/
def HeMaps.assign (s : HeMaps) (e : Nat × Nat) (h : Nat) : HeMaps where
  pair2he := (e, h) :: s.pair2he
  he2pair := (h, e) :: s.he2pair

section
variable [Scalar F]

/-- the loop of `Face::normal`, face.cpp:40-49, over the corners from position `i` -/
def normalSum (ps : List (Vec3 F)) : List Nat → Vec3 F → Vec3 F
  | [], s => s
  | i :: is, s =>
    let n := ps.length
    let p0 := ps.getD ((i + n - 1) % n) Vec3.zero
    let p1 := ps.getD i Vec3.zero
    let p2 := ps.getD ((i + 1) % n) Vec3.zero
    normalSum ps is (s.add ((p2.sub p1).cross (p0.sub p1)))

/-- `Face::normal`, face.cpp:34-51; a zero vector is an exception -/
def faceNormal (f : Nat) : M F (Vec3 F) := do
  let vs ← faceVerts f
  let ps ← getPosList vs
  orThrowM (normalSum ps (List.range ps.length) Vec3.zero).normalize?

/-- core/completion.cpp:236-239: all vertices of the hole are locked (the list `boundary` is not used) -/
def frontLock (f : Nat) : M F Unit := do
  let h ← getFHe f
  circ faceStep h () (fun x _ => do
    let v ← getSrc x
    setLock v true
    pure (false, ()))

/-- The condition of core/completion.cpp:264-265. The lock of `face_vs[i]` is tested twice; the lock of `face_vs[next]` is not tested. -/
def frontClose (avg : F) (v w : Nat) : M F Bool := do
  let l ← getLock v
  if l then pure false
  else do
    let l ← getLock v
    if l then pure false
    else do
      let p ← getPos v
      let q ← getPos w
      pure (Scalar.lt (Vec3.length (p.sub q)) (Scalar.lit 1 2 * avg))

/-- `for (auto *v_he : v_hes) v_he->src_ = v`, core/completion.cpp:292-294 -/
def setSrcs (v : Nat) : List Nat → M F Unit
  | [] => pure ()
  | h :: hs => do
    setSrc h v
    setSrcs v hs

/-- core/completion.cpp:266-308: the vertex `v` is merged into `w`. `hePrev`, `he`, `heNext` are the half-edges of the hole before `v`,
from `v` to `w` and after `w`. -/
def frontMerge (f v w hePrev he heNext : Nat) : M F Unit := do
  let vhes ← ringList v
  let a ← getNext hePrev
  M.assert (a = he)
  let b ← getNext he
  M.assert (b = heNext)
  setNext hePrev heNext
  let he0 ← getRev he
  let he1 ← getNext he0
  let he2 ← getNext he1
  let c ← getNext he2
  M.assert (c = he0)
  let v1 ← getSrc he0
  let v0 ← getSrc he1
  let v2 ← getSrc he2
  let he1r ← getRev he1
  let he2r ← getRev he2
  setRev he1r he2r
  setRev he2r he1r
  setSrcs w vhes
  setVHe v1 he2r
  setVHe v2 he1r
  setFHe f heNext
  let p0 ← getPos v0
  let p1 ← getPos v1
  setPos v1 (Vec3.smul (Scalar.lit 1 2) (p0.add p1))
  let g ← getFace he0
  removeFace g
  removeHalfedge he
  removeHalfedge he0
  removeHalfedge he1
  removeHalfedge he2
  removeVertex v0

/-- the loop core/completion.cpp:261-312 over the positions; `true` if two vertices have been merged -/
def frontMergeLoop (f : Nat) (avg : F) (vs hs : List Nat) : List Nat → M F Bool
  | [] => pure false
  | i :: is => do
    let n := vs.length
    let v ← boundaryAt vs i
    let w ← boundaryAt vs ((i + 1) % n)
    let c ← frontClose avg v w
    if c then do
      let he ← boundaryAt hs i
      let hePrev ← boundaryAt hs ((i + n - 1) % n)
      let heNext ← boundaryAt hs ((i + 1) % n)
      frontMerge f v w hePrev he heNext
      pure true
    else frontMergeLoop f avg vs hs is

/-- `theta` of core/completion.cpp:339-347 -/
def frontTheta (norm pPrev p pNext : Vec3 F) : F :=
  let e1 := pPrev.sub p
  let e2 := pNext.sub p
  let outer := Vec3.cross e2 e1
  let sign : F := if Scalar.le (Scalar.lit 0 1) (outer.dot norm) then Scalar.lit 1 1 else Scalar.lit (-1) 1
  let theta := Scalar.atan2 (sign * outer.length) (e1.dot e2)
  if Scalar.lt theta (Scalar.lit 0 1) then theta + Scalar.lit 2 1 * Scalar.pi else theta

/-- body of the loop core/completion.cpp:332-347: the angle of the hole at position `i` -/
def frontAngle (vs : List Nat) (s : HeMaps) (i : Nat) : M F F := do
  let n := vs.length
  let prev := (i + n - 1) % n
  let next := (i + 1) % n
  let r1 ← getRev (s.he prev i)
  let g1 ← getFace r1
  let norm1 ← faceNormal g1
  let r2 ← getRev (s.he i next)
  let g2 ← getFace r2
  let norm2 ← faceNormal g2
  let norm ← orThrowM (norm1.add norm2).normalize?
  let pPrev ← boundaryPos vs prev
  let p ← boundaryPos vs i
  let pNext ← boundaryPos vs next
  pure (frontTheta norm pPrev p pNext)

/-- the loop core/completion.cpp:330-353; `none` is the index `-1` -/
def frontSearch (vs : List Nat) (s : HeMaps) : List Nat → F × Option Nat → M F (F × Option Nat)
  | [], r => pure r
  | i :: is, r => do
    let theta ← frontAngle vs s i
    frontSearch vs s is (if Scalar.lt theta r.1 then (theta, some i) else r)

/-- core/completion.cpp:358-377: one triangle. Yields the new faces and the maps. -/
def frontEar (f : Nat) (vs : List Nat) (s : HeMaps) (i : Nat) : M F (List Nat × HeMaps) := do
  let n := vs.length
  let prev := (i + n - 1) % n
  let next := (i + 1) % n
  let h ← newHalfedge
  addHalfedge h
  let a ← boundaryAt vs prev
  setSrc h a
  setBd h true
  setNext (s.he ((prev + n - 1) % n) prev) h
  setNext h (s.he next ((next + 1) % n))
  let s := s.assign (prev, next) h
  let (g, s) ← addNewTriangle vs (prev, i, next) s
  setFHe f h
  setFace h f
  pure ([g], s)

/-- `p1 + normalize(e1 + e2) * len`, core/completion.cpp:384-389 -/
def frontMid (p0 p1 p2 : Vec3 F) : Option (Vec3 F) :=
  let e1 := p0.sub p1
  let e2 := p2.sub p1
  let len := (e1.length + e2.length) * Scalar.lit 1 2
  (e1.add e2).normalize?.map fun d => p1.add (Vec3.smul len d)

/-- core/completion.cpp:380-428: one new vertex, two triangles -/
def frontMiddle (f : Nat) (vs : List Nat) (s : HeMaps) (i : Nat) : M F (List Nat × HeMaps) := do
  let n := vs.length
  let prev := (i + n - 1) % n
  let next := (i + 1) % n
  let p0 ← boundaryPos vs prev
  let p1 ← boundaryPos vs i
  let p2 ← boundaryPos vs next
  let pnew ← orThrowM (frontMid p0 p1 p2)
  let v ← newVertex pnew
  addVertex v
  let h1 ← newHalfedge
  let h2 ← newHalfedge
  addHalfedge h1
  addHalfedge h2
  setVHe v h2
  let a ← boundaryAt vs prev
  setSrc h1 a
  setSrc h2 v
  setBd h1 true
  setBd h2 true
  setNext (s.he ((prev + n - 1) % n) prev) h1
  setNext h1 h2
  setNext h2 (s.he next ((next + 1) % n))
  let k := vs.length
  let vs := vs ++ [v]
  let s := (s.assign (prev, k) h1).assign (k, next) h2
  let (g1, s) ← addNewTriangle vs (prev, i, k) s
  let (g2, s) ← addNewTriangle vs (k, i, next) s
  setFHe f h1
  setFace h1 f
  setFace h2 f
  pure ([g1, g2], s)

/-- `pnew1` and `pnew2`, core/completion.cpp:437-443 -/
def frontThirds (p0 p1 p2 : Vec3 F) : Option (Vec3 F × Vec3 F) :=
  let e1 := p0.sub p1
  let e2 := p2.sub p1
  let len1 := (e1.length * Scalar.lit 2 1 + e2.length) / Scalar.lit 3 1
  let len2 := (e1.length + e2.length * Scalar.lit 2 1) / Scalar.lit 3 1
  match ((Vec3.smul (Scalar.lit 2 1) e1).add e2).normalize?, (e1.add (Vec3.smul (Scalar.lit 2 1) e2)).normalize? with
  | some d1, some d2 => some (p1.add (Vec3.smul len1 d1), p1.add (Vec3.smul len2 d2))
  | _, _ => none

/-- core/completion.cpp:431-499: two new vertices, three triangles -/
def frontWide (f : Nat) (vs : List Nat) (s : HeMaps) (i : Nat) : M F (List Nat × HeMaps) := do
  let n := vs.length
  let prev := (i + n - 1) % n
  let next := (i + 1) % n
  let p0 ← boundaryPos vs prev
  let p1 ← boundaryPos vs i
  let p2 ← boundaryPos vs next
  let (pnew1, pnew2) ← orThrowM (frontThirds p0 p1 p2)
  let v1 ← newVertex pnew1
  let v2 ← newVertex pnew2
  addVertex v1
  addVertex v2
  let h1 ← newHalfedge
  let h2 ← newHalfedge
  let h3 ← newHalfedge
  addHalfedge h1
  addHalfedge h2
  addHalfedge h3
  setVHe v1 h2
  setVHe v2 h3
  let a ← boundaryAt vs prev
  setSrc h1 a
  setSrc h2 v1
  setSrc h3 v2
  setBd h1 true
  setBd h2 true
  setBd h3 true
  setNext (s.he ((prev + n - 1) % n) prev) h1
  setNext h1 h2
  setNext h2 h3
  setNext h3 (s.he next ((next + 1) % n))
  let k1 := vs.length
  let k2 := k1 + 1
  let vs := vs ++ [v1, v2]
  let s := ((s.assign (prev, k1) h1).assign (k1, k2) h2).assign (k2, next) h3
  let (g1, s) ← addNewTriangle vs (prev, i, k1) s
  let (g2, s) ← addNewTriangle vs (k1, i, k2) s
  let (g3, s) ← addNewTriangle vs (k2, i, next) s
  setFHe f h1
  setFace h1 f
  setFace h2 f
  setFace h3 f
  pure ([g1, g2, g3], s)

/-- core/completion.cpp:357-500: the new triangles at the position with the smallest angle. With the index `-1` an element outside
`face_vs` is read. -/
def frontPut (f : Nat) (vs : List Nat) (s : HeMaps) (angle : F) : Option Nat → M F (List Nat × HeMaps)
  | none => M.fail .ub
  | some i =>
    if Scalar.le angle (Scalar.pi * (Scalar.lit 75 1 / Scalar.lit 180 1)) then frontEar f vs s i
    else if Scalar.le angle (Scalar.pi * (Scalar.lit 135 1 / Scalar.lit 180 1)) then frontMiddle f vs s i
    else frontWide f vs s i

/-- body of the loop core/completion.cpp:503-519. `he2pair[it.ptr()]` of a missing key is `(0, 0)`; the message of line 516 is not
modelled. -/
def frontLinkRev (s : HeMaps) (h : Nat) : M F Unit := do
  let r ← getRev h
  if r = 0 then
    let e := (s.he2pair.lookup h).getD (0, 0)
    match s.pair2he.lookup (e.2, e.1) with
    | some r => do
      setRev h r
      setRev r h
      let b ← getBd r
      setBd h b
    | none => pure ()
  else pure ()

/-- the loop core/completion.cpp:502-520 over the new faces -/
def frontLink (s : HeMaps) : List Nat → M F Unit
  | [] => pure ()
  | g :: gs => do
    let h ← getFHe g
    circ faceStep h () (fun x _ => do
      frontLinkRev s x
      pure (false, ()))
    frontLink s gs

/-- core/completion.cpp:251-255: a hole with three sides becomes a face -/
def frontFinish (f : Nat) : M F Unit := do
  let h ← getFHe f
  circ faceStep h () (fun x _ => do
    setBd x false
    let r ← getRev x
    setBd r false
    pure (false, ()))

/-- one round of the loop core/completion.cpp:242-521; `true` if it is the last one -/
def frontRound (f : Nat) (avg : F) : M F Bool := do
  let vs ← faceVerts f
  let hs ← faceList f
  let n := vs.length
  if n = 3 then do
    frontFinish f
    pure true
  else do
    let merged ← frontMergeLoop f avg vs hs (List.range n)
    if merged then do
      let _ ← verify
      pure false
    else do
      let hs ← faceList f
      let s := collectPairs n 0 hs ⟨[], []⟩
      let (angle, i) ← frontSearch vs s (List.range n) (Scalar.lit (10 ^ 20) 1, none)
      let (gs, s) ← frontPut f vs s angle i
      frontLink s gs
      pure false

/-- the loop core/completion.cpp:242-521. A run that needs more than `fuel` rounds counts as one that does not end; statements about
this function hold for every `fuel`. -/
def frontLoop (f : Nat) (avg : F) : Nat → M F Unit
  | 0 => M.fail .diverge
  | fuel + 1 => do
    let last ← frontRound f avg
    if last then pure () else frontLoop f avg fuel

/-- core/completion.cpp:230-521 -/
def advancingFront (fuel f : Nat) : M F Unit := do
  let avg ← meanEdgeLength
  frontLock f
  frontLoop f avg fuel

end
end TinyMesh
