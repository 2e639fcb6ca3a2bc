import Verif.Model.Iter
import Verif.Model.Vec
/-
Hole filling: `Mesh::fillHoles` and `Mesh::triangulate` (mesh.cpp:934-951), `Mesh::addNewTriangle` and
`Mesh::holeFillMinDihedral_` (core/completion.cpp:23-228).

The maps `pair2he` and `he2pair` (std::unordered_map) are association lists; `insert` does nothing if the key is present.
The conversions between `int` and `uint32_t` in the index pairs are not modelled (holes with less than 2^31 sides).
-/
namespace TinyMesh
variable {F : Type}

/-- `std::unordered_map::insert`, core/completion.cpp:97-98 -/
def insertNew {κ : Type} [BEq κ] (l : List (κ × Nat)) (k : κ) (x : Nat) : List (κ × Nat) :=
  if (l.lookup k).isSome then l else l ++ [(k, x)]

/-- the map `pair2he` (core/completion.cpp:92) from pairs of positions on the boundary to half-edges -/
abbrev PairMap := List ((Nat × Nat) × Nat)

/-- The two maps filled in core/completion.cpp:92-100 and extended by `addNewTriangle`: `pair2he`, and `he2pair` as the list of its
entries. -/
structure HeMaps where
  pair2he : PairMap
  he2pair : List (Nat × (Nat × Nat))

/-- the two insertions of core/completion.cpp:97-98 (and 35-36, 45-46, 55-56) -/
def HeMaps.insert (s : HeMaps) (e : Nat × Nat) (h : Nat) : HeMaps where
  pair2he := insertNew s.pair2he e h
  he2pair := if (s.he2pair.lookup h).isSome then s.he2pair else s.he2pair ++ [(h, e)]

/-- the loop core/completion.cpp:94-100 over the half-edges of the face, `count` is the number of half-edges already seen -/
def collectPairs (n : Nat) : Nat → List Nat → HeMaps → HeMaps
  | _, [], s => s
  | count, h :: hs, s => collectPairs n (count + 1) hs (s.insert (count, (count + 1) % n) h)

/-- `pair2he[E(i, j)]`; a missing key yields a null pointer, core/completion.cpp:30-38, 111-170 -/
def HeMaps.he (s : HeMaps) (i j : Nat) : Nat := (s.pair2he.lookup (i, j)).getD 0

/-- `boundary[i]`: out of range is undefined behaviour, core/completion.cpp:83-228 -/
def boundaryAt (bs : List Nat) (i : Nat) : M F Nat :=
  match bs[i]? with
  | some v => pure v
  | none => M.fail .ub

/-- `boundary[i]->pos()`, core/completion.cpp:111-167 -/
def boundaryPos (bs : List Nat) (i : Nat) : M F (Vec3 F) := do
  let v ← boundaryAt bs i
  getPos v

/-- `he->rev()->next()->dst()->pos()`, core/completion.cpp:121-122, 144, 152 -/
def oppositePos (h : Nat) : M F (Vec3 F) := do
  let r ← getRev h
  let n ← getNext r
  let d ← getDst n
  getPos d

/-- The tables `Warea`, `Wangle` and `O` (core/completion.cpp:102-107); `none` in `o` is the value `-1`. -/
structure FillTab (F : Type) where
  area : Nat → Nat → F
  angle : Nat → Nat → F
  o : Nat → Nat → Option Nat

/-- assignment to one entry of a table, core/completion.cpp:105-170 -/
def put2 {β : Type} (f : Nat → Nat → β) (i k : Nat) (x : β) : Nat → Nat → β :=
  fun a b => if a = i ∧ b = k then x else f a b

/-- A loop `for (i : is) body` with a state. See core/completion.cpp:108-170. -/
def foldAll {α β : Type} (body : α → β → M F β) : List α → β → M F β
  | [], b => pure b
  | a :: as, b => do
    let b' ← body a b
    foldAll body as b'

section Table
variable [ScalarX F]

/-- `Warea`, `Wangle`, `O` after `setConstant`, core/completion.cpp:105-107 -/
def FillTab.init : FillTab F where
  area := fun _ _ => Scalar.lit (10 ^ 12) 1
  angle := fun _ _ => Scalar.lit (10 ^ 12) 1
  o := fun _ _ => none

/-- `0.5 * length(cross(v1 - v0, v2 - v0))`, core/completion.cpp:116, 138 -/
def fillArea (v0 v1 v2 : Vec3 F) : F :=
  Scalar.lit 1 2 * Vec3.length (Vec3.cross (Vec3.sub v1 v0) (Vec3.sub v2 v0))

/-- `std::max(a01, a12)`, core/completion.cpp:123-125, 157-159 -/
def fillAngle (v0 v1 v2 v01rev v12rev : Vec3 F) : F :=
  fmax (Scalar.pi - Vec3.dihedral v2 v0 v1 v01rev) (Scalar.pi - Vec3.dihedral v0 v1 v2 v12rev)

/-- body of the loop core/completion.cpp:108-129 -/
def fillInitStep (bs : List Nat) (s : HeMaps) (i : Nat) (t : FillTab F) : M F (FillTab F) :=
  let t1 : FillTab F :=
    { area := put2 t.area i (i + 1) (Scalar.lit 0 1), angle := put2 t.angle i (i + 1) (Scalar.lit 0 1),
      o := put2 t.o i (i + 1) none }
  if i + 2 < bs.length then do
    let v0 ← boundaryPos bs i
    let v1 ← boundaryPos bs (i + 1)
    let v2 ← boundaryPos bs (i + 2)
    let v01rev ← oppositePos (s.he i (i + 1))
    let v12rev ← oppositePos (s.he (i + 1) (i + 2))
    pure { area := put2 t1.area i (i + 2) (fillArea v0 v1 v2),
           angle := put2 t1.angle i (i + 2) (fillAngle v0 v1 v2 v01rev v12rev),
           o := put2 t1.o i (i + 2) (some (i + 1)) }
  else pure t1

/-- the vertex opposite to the side `(i, m)` of a triangle, core/completion.cpp:141-155. `boundary[-1]` is undefined behaviour. -/
def fillOpposite (bs : List Nat) (s : HeMaps) (t : FillTab F) (i m : Nat) : M F (Vec3 F) :=
  if m = i + 1 then oppositePos (s.he i m)
  else match t.o i m with
    | some x => boundaryPos bs x
    | none => M.fail .ub

/-- body of the loop over `m`, core/completion.cpp:135-167, with `k = i + j`. `abs` in line 163 is taken to be `std::abs(double)`. -/
def fillStep (bs : List Nat) (s : HeMaps) (bound : F) (i k m : Nat) (t : FillTab F) : M F (FillTab F) := do
  let v0 ← boundaryPos bs i
  let v1 ← boundaryPos bs m
  let v2 ← boundaryPos bs k
  let areaNew := t.area i m + t.area m k + fillArea v0 v1 v2
  let v01rev ← fillOpposite bs s t i m
  let v12rev ← fillOpposite bs s t m k
  let angleNew := fmax (fillAngle v0 v1 v2 v01rev v12rev) (fmax (t.angle i m) (t.angle m k))
  if Scalar.lt angleNew (t.angle i k) ||
      (Scalar.lt (ScalarX.abs (angleNew - t.angle i k)) bound && Scalar.lt areaNew (t.area i k)) then
    pure { area := put2 t.area i k areaNew, angle := put2 t.angle i k angleNew, o := put2 t.o i k (some m) }
  else pure t

/-- the loop over `m` from `i + 1` to `k - 1`, core/completion.cpp:134-168 -/
def fillCell (bs : List Nat) (s : HeMaps) (bound : F) (j i : Nat) (t : FillTab F) : M F (FillTab F) :=
  foldAll (fillStep bs s bound i (i + j)) (List.range' (i + 1) (j - 1)) t

/-- the loop over `i` from `0` to `n - j - 1`, core/completion.cpp:132-169 -/
def fillRow (bs : List Nat) (s : HeMaps) (bound : F) (j : Nat) (t : FillTab F) : M F (FillTab F) :=
  foldAll (fillCell bs s bound j) (List.range (bs.length - j)) t

/-- the tables, core/completion.cpp:102-170 -/
def fillTable (bs : List Nat) (s : HeMaps) (bound : F) : M F (FillTab F) := do
  let t ← foldAll (fillInitStep bs s) (List.range (bs.length - 1)) FillTab.init
  foldAll (fillRow bs s bound) (List.range' 3 (bs.length - 3)) t

end Table

/-- The loop core/completion.cpp:175-197 over the queue; yields the triangles in the order in which they are appended to `tris`.
An entry `-1` of `O` is undefined behaviour: the pair `(i, -1)` or `(-1, k)` is pushed (unless `k = i + 2`, where the entry has
been set in line 127) and `O` is then read out of range. -/
def fillTris (o : Nat → Nat → Option Nat) : Nat → List (Nat × Nat) → List (Nat × Nat × Nat) → Except Err (List (Nat × Nat × Nat))
  | _, [], acc => .ok acc
  | 0, _ :: _, _ => .error .diverge
  | fuel + 1, (i, k) :: que, acc =>
    match o i k with
    | none => .error .ub
    | some m =>
      if i + 2 = k then fillTris o fuel que (acc ++ [(i, m, k)])
      else
        let que1 := if i + 1 ≠ m then que ++ [(i, m)] else que
        let que2 := if m + 1 ≠ k then que1 ++ [(m, k)] else que1
        fillTris o fuel que2 (acc ++ [(i, m, k)])

/-- core/completion.cpp:30-38 (and 40-48, 50-58): the half-edge for a pair of positions, created if there is none -/
def pairHalfedge (s : HeMaps) (i j : Nat) : M F (Nat × HeMaps) :=
  match s.pair2he.lookup (i, j) with
  | some h => pure (h, s)
  | none => do
    let h ← newHalfedge
    addHalfedge h
    pure (h, s.insert (i, j) h)

/-- `Mesh::addNewTriangle`, core/completion.cpp:23-81 -/
def addNewTriangle (bs : List Nat) (tri : Nat × Nat × Nat) (s : HeMaps) : M F (Nat × HeMaps) := do
  let (i0, i1, i2) := tri
  let (he0, s) ← pairHalfedge s i0 i1
  let (he1, s) ← pairHalfedge s i1 i2
  let (he2, s) ← pairHalfedge s i2 i0
  let v0 ← boundaryAt bs i0
  setSrc he0 v0
  let v1 ← boundaryAt bs i1
  setSrc he1 v1
  let v2 ← boundaryAt bs i2
  setSrc he2 v2
  setNext he0 he1
  setNext he1 he2
  setNext he2 he0
  setBd he0 false
  setBd he1 false
  setBd he2 false
  let f ← newFace
  addFace f
  setFace he0 f
  setFace he1 f
  setFace he2 f
  setFHe f he0
  pure (f, s)

/-- the loop core/completion.cpp:199-203 -/
def addTriangles (bs : List Nat) : List (Nat × Nat × Nat) → List Nat → HeMaps → M F (List Nat × HeMaps)
  | [], fs, s => pure (fs, s)
  | t :: ts, fs, s => do
    let (f, s) ← addNewTriangle bs t s
    addTriangles bs ts (fs ++ [f]) s

/-- body of the loop core/completion.cpp:206-224: connect a half-edge without `rev`. `he2pair[it.ptr()]` of a missing key is `(0, 0)`.
The message of line 221 is not modelled. -/
def fillLinkRev (s : HeMaps) (h : Nat) : M F Unit := do
  let r ← getRev h
  if r = 0 then
    let e := (s.he2pair.lookup h).getD (0, 0)
    match s.pair2he.lookup (e.2, e.1) with
    | some r => do
      setRev h r
      setRev r h
      setBd h false
      setBd r false
    | none => pure ()
  else pure ()

/-- the loop core/completion.cpp:205-225 over the new faces -/
def linkFaces (s : HeMaps) : List Nat → M F Unit
  | [] => pure ()
  | f :: fs => do
    let h ← getFHe f
    circ faceStep h () (fun x _ => do
      fillLinkRev s x
      pure (false, ()))
    linkFaces s fs

/-- `Mesh::holeFillMinDihedral_`, core/completion.cpp:83-228 -/
def holeFillMinDihedral [ScalarX F] (f : Nat) (bound : F) : M F Unit := do
  let bs ← faceVerts f
  let hs ← faceList f
  let s := collectPairs bs.length 0 hs ⟨[], []⟩
  let t ← fillTable bs s bound
  match fillTris t.o (bs.length + 1) [(0, bs.length - 1)] [] with
  | .error e => M.fail e
  | .ok tris => do
    let (fs, s) ← addTriangles bs tris [] s
    linkFaces s fs
    removeFace f

/-- `Mesh::triangulate`, mesh.cpp:949-951; the default bound `Pi` is in mesh.h:97 -/
def triangulate [ScalarX F] (f : Nat) : M F Unit := holeFillMinDihedral f Scalar.pi

/-- the loop mesh.cpp:936-941: the positions of the holes in `faces_` -/
def holePositions : List Nat → List Nat → M F (List Nat)
  | [], acc => pure acc
  | i :: is, acc => do
    let f ← faceAt (i : Int)
    let b ← fIsHole f
    holePositions is (if b then acc ++ [i] else acc)

/-- the loop mesh.cpp:943-946 -/
def fillAt [ScalarX F] : List Nat → M F Unit
  | [] => pure ()
  | i :: is => do
    let f ← faceAt (i : Int)
    triangulate f
    fillAt is

/-- `Mesh::fillHoles`, mesh.cpp:934-947 -/
def fillHoles [ScalarX F] : M F Unit := do
  let n ← M.read (fun m => m.fs.length)
  let holes ← holePositions (List.range n) []
  fillAt holes

end TinyMesh
