import Verif.Model.Smooth
/-
Laplacian matrices, src/tinymesh/ops/operators.cpp.
-/
namespace TinyMesh
variable {F : Type} [Scalar F]

/-- `EigenTriplet`: row, column, value, eigen.h:28 -/
abbrev Triplet (F : Type) := Int × Int × F

/-- sum of the values given for one coefficient, in the order in which they were given; no value means zero, operators.cpp:12-100 -/
def sumDup : List F → F
  | [] => Scalar.lit 0 1
  | x :: xs => xs.foldl (· + ·) x

/-- `SparseMatrix::setFromTriplets` for an `n × n` matrix (Eigen): values for the same coefficient are summed; an index out of range
is undefined behaviour. The matrix is represented by its coefficients. See operators.cpp:12-100. -/
def ofTriplets (n : Nat) (ts : List (Triplet F)) : M F (Nat → Nat → F) :=
  if ts.all (fun t => decide (0 ≤ t.1 ∧ t.1 < n ∧ 0 ≤ t.2.1 ∧ t.2.1 < n)) then
    pure (fun i j => sumDup ((ts.filter fun t => decide (t.1 = (i : Int) ∧ t.2.1 = (j : Int))).map fun t => t.2.2))
  else M.fail .ub

/-- `it->index()` for a list of vertices, operators.cpp:15-23 -/
def idxList : List Nat → M F (List Int)
  | [] => pure []
  | v :: vs => do
    let i ← getVIdx v
    let is ← idxList vs
    pure (i :: is)

/-- one round of the loop of `getMeshLaplacianAdjacent`, operators.cpp:15-23 -/
def adjRow (i : Nat) : M F (List (Triplet F)) := do
  let v ← vertexAt i
  let us ← ringVerts v
  let js ← idxList us
  pure (js.map (fun j => ((i : Int), j, Scalar.lit (-1) 1)) ++ [((i : Int), (i : Int), Scalar.lit js.length 1)])

/-- the loop over the half-edges of a vertex in `getMeshLaplacianCotangent`, operators.cpp:35-40 -/
def cotRowLoop (i : Nat) : List Nat → F → M F (List (Triplet F) × F)
  | [], s => pure ([], s)
  | h :: hs, s => do
    let u ← getDst h
    let j ← getVIdx u
    let w ← cotWeight h
    let (ts, s') ← cotRowLoop i hs (s + w)
    pure (((i : Int), j, -w) :: ts, s')

/-- one round of the loop of `getMeshLaplacianCotangent`, operators.cpp:32-42 -/
def cotRow (i : Nat) : M F (List (Triplet F)) := do
  let v ← vertexAt i
  let hs ← ringList v
  let (ts, s) ← cotRowLoop i hs (Scalar.lit 0 1)
  pure (ts ++ [((i : Int), (i : Int), s)])

/-- the weight of `getMeshLaplacianBelkin08` for two positions, operators.cpp:67-68 -/
def belkinW (avg : F) (p q : Vec3 F) : F :=
  let norm := Vec3.length (p.sub q)
  Scalar.exp (-norm * norm / (Scalar.lit 4 1 * avg)) / (Scalar.lit 4 1 * Scalar.pi * avg)

/-- the loop over the half-edges of a vertex in `getMeshLaplacianBelkin08`, operators.cpp:63-75. The sum of areas, which no result
depends on, is left out except for the accesses it makes. -/
def belRowLoop (avg : F) (v i : Nat) : List Nat → F → M F (List (Triplet F) × F)
  | [], s => pure ([], s)
  | h :: hs, s => do
    let u ← getDst h
    let p ← getPos v
    let q ← getPos u
    let w := belkinW avg p q
    let j ← getVIdx u
    let n ← getNext h
    let x ← getDst n
    let _ ← getPos x
    let (ts, s') ← belRowLoop avg v i hs (s + w)
    pure (((i : Int), j, -w) :: ts, s')

/-- one round of the loop of `getMeshLaplacianBelkin08`, operators.cpp:59-78 -/
def belRow (avg : F) (i : Nat) : M F (List (Triplet F)) := do
  let v ← vertexAt i
  let hs ← ringList v
  let (ts, s) ← belRowLoop avg v i hs (Scalar.lit 0 1)
  pure (ts ++ [((i : Int), (i : Int), s)])

/-- the loop over the vertices, operators.cpp:15, 32, 59 -/
def rows (row : Nat → M F (List (Triplet F))) : List Nat → M F (List (Triplet F))
  | [] => pure []
  | i :: is => do
    let ts ← row i
    let rest ← rows row is
    pure (ts ++ rest)

/-- `MeshLaplace`, ops.h -/
inductive LaplaceType where
  | adjacent
  | cotangent
  | belkin08
  /-- any other value cast to the enumeration -/
  | other

/-- `getMeshLaplacian`, operators.cpp:12-100 -/
def meshLaplacian : LaplaceType → M F (Nat → Nat → F)
  | .adjacent => do
    let n ← M.read (fun m => m.vs.length)
    let ts ← rows adjRow (List.range n)
    ofTriplets n ts
  | .cotangent => do
    let n ← M.read (fun m => m.vs.length)
    let ts ← rows cotRow (List.range n)
    ofTriplets n ts
  | .belkin08 => do
    let avg ← meanEdgeLength
    let n ← M.read (fun m => m.vs.length)
    let ts ← rows (belRow avg) (List.range n)
    ofTriplets n ts
  | .other => M.fail .abort

/-! ### Averages -/

/-- the loop of `Face::area` over the corners, face.cpp:61-66: `p1` and `p0` are the corners `i - 1` and `i`, the list the later ones -/
def areaLoop : Vec3 F → Vec3 F → List (Vec3 F) → F → F
  | _, _, [], s => s
  | p1, p0, p2 :: r, s => areaLoop p0 p2 r (s + Scalar.lit 1 2 * Vec3.length ((p1.sub p0).cross (p2.sub p0)))

/-- the sum of `Face::area` for the corners of a face, face.cpp:59-67 -/
def polyArea : List (Vec3 F) → F
  | p1 :: p0 :: r => areaLoop p1 p0 r (Scalar.lit 0 1)
  | _ => Scalar.lit 0 1

/-- `it->pos()` for a list of vertices, face.cpp:53-57 -/
def posList : List Nat → M F (List (Vec3 F))
  | [] => pure []
  | v :: vs => do
    let p ← getPos v
    let ps ← posList vs
    pure (p :: ps)

/-- `Face::area`, face.cpp:53-68 -/
def faceArea (f : Nat) : M F F := do
  let vs ← faceVerts f
  let ps ← posList vs
  pure (polyArea ps)

/-- the loop of `Mesh::getMeanFaceArea`, mesh.cpp:177-180 -/
def areaSum : List Nat → F → M F F
  | [], s => pure s
  | f :: fs, s => do
    let a ← faceArea f
    areaSum fs (s + a)

/-- `Mesh::getMeanFaceArea`, mesh.cpp:176-183 -/
def meanFaceArea : M F F := do
  let fs ← M.read (fun m => m.fs)
  let s ← areaSum fs (Scalar.lit 0 1)
  pure (s / Scalar.lit fs.length 1)

/-- the angle at the edge of a half-edge in `Mesh::getMeanDihedralAngle`, mesh.cpp:161-171 -/
def edgeAngle (h : Nat) : M F F := do
  let r ← getRev h
  let v1 ← getSrc h
  let n ← getNext h
  let v2 ← getDst n
  let v3 ← getSrc r
  let n' ← getNext r
  let v4 ← getDst n'
  let p1 ← getPos v1
  let p2 ← getPos v2
  let p3 ← getPos v3
  let p4 ← getPos v4
  pure (Vec3.dihedral p2 p1 p3 p4)

/-- the loop of `Mesh::getMeanDihedralAngle`, mesh.cpp:156-172; `seen` is the set `visited` -/
def meanAngleLoop : List Nat → List Nat → F → M F (F × Nat)
  | [], seen, s => pure (s, seen.length)
  | h :: hs, seen, s => do
    if h ∈ seen then meanAngleLoop hs seen s
    else do
      let r ← getRev h
      if r ∈ seen then meanAngleLoop hs seen s
      else do
        let a ← edgeAngle h
        meanAngleLoop hs (h :: seen) (s + a)

/-- `Mesh::getMeanDihedralAngle`, mesh.cpp:152-174 -/
def meanDihedralAngle : M F F := do
  let hs ← M.read (fun m => m.hes)
  let (s, n) ← meanAngleLoop hs [] (Scalar.lit 0 1)
  pure (s / Scalar.lit n 1)

end TinyMesh
