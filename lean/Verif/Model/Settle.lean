import Verif.Model.Front
import Verif.Model.Lines
/-
What `Mesh::holeFillAdvancingFront_` does after the front (core/completion.cpp:523-702): it moves the vertices that the front has made.
The normals of these vertices are smoothed, the triangles are turned to the new normals, and a linear system is solved for the positions.

`std::unordered_set` and `std::unordered_map` are lists and functions. The order in which a set is visited is not specified by the
language; where it matters (the normals are replaced one after the other) it is a parameter `ord`.
-/
namespace TinyMesh
variable {F : Type} [ScalarX F]

/-! ### The vertices inside -/

/-- core/completion.cpp:526-531: the first vertex of the face that is not locked -/
def settleSeed (f : Nat) : M F (List Nat) := do
  let h ← getFHe f
  circ faceStep h [] (fun x _ => do
    let v ← getSrc x
    let l ← getLock v
    pure (!l, if l then [] else [v]))

/-- the neighbours that are put into the queue, core/completion.cpp:541-545 -/
def settleNear (seen : List Nat) : List Nat → M F (List Nat)
  | [] => pure []
  | u :: us => do
    let l ← getLock u
    let rest ← settleNear seen us
    pure (if !l && !(seen.contains u) then u :: rest else rest)

/-- the loop core/completion.cpp:532-546 with the queue and the set `insideVerts` in the order of insertion. A run that needs more than
`fuel` rounds counts as one that does not end. -/
def settleSearch : Nat → List Nat → List Nat → M F (List Nat)
  | _, [], seen => pure seen
  | 0, _ :: _, _ => M.fail .diverge
  | fuel + 1, v :: q, seen =>
    if seen.contains v then settleSearch fuel q seen
    else do
      let us ← ringVerts v
      let new ← settleNear (seen ++ [v]) us
      settleSearch fuel (q ++ new) (seen ++ [v])

/-- core/completion.cpp:523-546; every half-edge puts at most one vertex into the queue -/
def settleInside (f : Nat) : M F (List Nat) := do
  let q ← settleSeed f
  let n ← M.read (fun m => m.hes.length)
  settleSearch (n + 1) q []

/-! ### The normals -/

/-- core/completion.cpp:549-552. The entries for all other vertices are made by `operator[]` in line 559 or 594 and are zero. -/
def firstNormals (vs : List Nat) : M F (Nat → Vec3 F) :=
  foldAll (fun v n => do
    let x ← vertNormal v
    pure (upd n v x)) vs (fun _ => Vec3.zero)

/-- the loop core/completion.cpp:558-563 -/
def normalLoop (n : Nat → Vec3 F) : List Nat → Vec3 F → F → M F (Vec3 F × F)
  | [], a, s => pure (a, s)
  | h :: hs, a, s => do
    let u ← getDst h
    let w ← cotWeight h
    normalLoop n hs (a.add ((n u).smul w)) (s + w)

/-- core/completion.cpp:556-566; a sum of the weights that is zero and a vector that is zero are exceptions -/
def smoothNormal (v : Nat) (n : Nat → Vec3 F) : M F (Nat → Vec3 F) := do
  let hs ← ringList v
  let (a, s) ← normalLoop n hs Vec3.zero (Scalar.lit 0 1)
  let b ← orThrowM ((a.smul (Scalar.lit 1 2)).div? s)
  let x ← orThrowM (((n v).smul (Scalar.lit 1 2)).add b).normalize?
  pure (upd n v x)

/-- the loop core/completion.cpp:554-568; `k` is 1000 -/
def smoothNormals (vs : List Nat) : Nat → (Nat → Vec3 F) → M F (Nat → Vec3 F)
  | 0, n => pure n
  | k + 1, n => do
    let n ← foldAll smoothNormal vs n
    smoothNormals vs k n

/-! ### The rotations -/

/-- core/completion.cpp:575-581: no vertex of the face is missing in `insideVerts` unless the face is locked -/
def faceInside (vs : List Nat) (f : Nat) : M F Bool := do
  let h ← getFHe f
  circ faceStep h true (fun x _ => do
    let u ← getSrc x
    if vs.contains u then pure (false, true)
    else do
      let l ← fIsLocked f
      pure (!l, l))

/-- core/completion.cpp:573-586: the faces around one vertex -/
def facesAt (vs : List Nat) (v : Nat) (fs : List Nat) : M F (List Nat) := do
  let h ← getVHe v
  circ ringStep h fs (fun x fs => do
    let f ← getFace x
    let i ← faceInside vs f
    pure (false, if i && !(fs.contains f) then fs ++ [f] else fs))

/-- core/completion.cpp:590-599. The axis is not normalised. -/
def turnOf (n : Nat → Vec3 F) (f : Nat) : M F (Mat3 F) := do
  let n0 ← faceNormal f
  let us ← faceVerts f
  let n1 ← orThrowM (us.foldl (fun s u => s.add (n u)) Vec3.zero).normalize?
  let axis := n0.cross n1
  pure (rotAxis (Scalar.atan2 axis.length (n0.dot n1)) axis)

/-- `rotations`, core/completion.cpp:588-600. A matrix that `operator[]` inserts later is not initialised, hence `none`. -/
def turns (n : Nat → Vec3 F) (fs : List Nat) : M F (Nat → Option (Mat3 F)) :=
  foldAll (fun f R => do
    let A ← turnOf n f
    pure (upd R f (some A))) fs (fun _ => none)

/-! ### The gradients -/

/-- `e12_rot90`, core/completion.cpp:616-620 -/
def sideTurned (p0 p1 p2 : Vec3 F) : Option (Vec3 F) := do
  let l12 := p2.sub p1
  let e10 ← (p0.sub p1).normalize?
  let e12 ← (p2.sub p1).normalize?
  let perp := e12.cross e10
  let r ← (e12.cross perp).normalize?
  pure (r.smul l12.length)

/-- one round of the loop core/completion.cpp:607-629 -/
def gradAt (R : Nat → Option (Mat3 F)) (h : Nat) : M F (Vec3 F) := do
  let n ← getNext h
  let nn ← getNext n
  let nnn ← getNext nn
  M.assert (nnn == h)
  let v0 ← getSrc h
  let v1 ← getSrc n
  let v2 ← getSrc nn
  let p0 ← getPos v0
  let p1 ← getPos v1
  let p2 ← getPos v2
  let e ← orThrowM (sideTurned p0 p1 p2)
  let f ← getFace h
  match R f with
  | none => M.fail .ub
  | some A => orThrowM ((A.apply e).div? (Scalar.lit 2 1))

/-- the sums of the loop core/completion.cpp:607-629 -/
def gradLoop (R : Nat → Option (Mat3 F)) : List Nat → Vec3 F → M F (Vec3 F)
  | [], s => pure s
  | h :: hs, s => do
    let g ← gradAt R h
    gradLoop R hs (s.add g)

/-- `rotGrads[v]`, core/completion.cpp:605-631 -/
def gradOf (R : Nat → Option (Mat3 F)) (v : Nat) : M F (Vec3 F) := do
  let hs ← ringList v
  let s ← gradLoop R hs Vec3.zero
  orThrowM (s.div? (Scalar.lit (hs.length : Int) 1))

/-! ### The positions -/

/-- the loop core/completion.cpp:648-669 -/
def poissonLoop (vs : List Nat) (row : Nat) : List Nat → F → LineSys F → M F (F × LineSys F)
  | [], s, t => pure (s, t)
  | h :: hs, s, t => do
    let u ← getDst h
    let w ← cotWeight h
    if vs.contains u then
      let (l, c) := intern t.free u
      poissonLoop vs row hs (s + w) { t with free := l, tFree := t.tFree ++ [((row : Int), (c : Int), -w)] }
    else
      let (l, c) := intern t.fixed u
      poissonLoop vs row hs (s + w) { t with fixed := l, tFixed := t.tFixed ++ [((row : Int), (c : Int), -w)] }

/-- one round of the loop core/completion.cpp:641-671 -/
def poissonRow (vs : List Nat) (v : Nat) (t : LineSys F) : M F (LineSys F) := do
  let (l, row) := intern t.free v
  let hs ← ringList v
  let (s, t) ← poissonLoop vs row hs (Scalar.lit 0 1) { t with free := l }
  pure { t with tFree := t.tFree ++ [((row : Int), (row : Int), s)] }

/-- core/completion.cpp:696-701; `k` is the number of the first vertex of the list -/
def putInside (x : Nat → Vec3 F) : Nat → List Nat → M F Unit
  | _, [] => pure ()
  | k, v :: vs => do
    setPos v (x k)
    putInside x (k + 1) vs

/-- core/completion.cpp:634-701. `solve` stands for `Eigen::SimplicialLDLT`; its status is not checked. -/
def poisson (solve : LinSolve F) (vs : List Nat) (g : Nat → Vec3 F) : M F Unit := do
  let t ← foldAll (poissonRow vs) vs ⟨[], [], [], []⟩
  let xo ← getPosList t.fixed
  let n := t.free.length
  let LL ← ofTripletsRect n n t.tFree
  let SS ← ofTripletsRect n t.fixed.length t.tFixed
  let bb (c : Vec3 F → F) : Nat → F := fun i =>
    c (g ((t.free[i]?).getD 0)) - sumN t.fixed.length fun k => SS i k * c ((xo[k]?).getD Vec3.zero)
  putInside (fun i => ⟨solve n LL (bb Vec3.x) i, solve n LL (bb Vec3.y) i, solve n LL (bb Vec3.z) i⟩) 0 t.free

/-- `rotGrads`, core/completion.cpp:602-632 -/
def gradients (R : Nat → Option (Mat3 F)) (vs : List Nat) : M F (Nat → Vec3 F) :=
  foldAll (fun v g => do
    let x ← gradOf R v
    pure (upd g v x)) vs (fun _ => Vec3.zero)

/-- core/completion.cpp:523-702 -/
def settle (ord : List Nat → List Nat) (solve : LinSolve F) (f : Nat) : M F Unit := do
  let seen ← settleInside f
  let vs := ord seen
  let n ← firstNormals vs
  let n ← smoothNormals vs 1000 n
  let fs ← foldAll (facesAt vs) vs []
  let R ← turns n fs
  let g ← gradients R vs
  poisson solve vs g

/-- `Mesh::holeFillAdvancingFront_`, core/completion.cpp:230-702 -/
def holeFillFront (ord : List Nat → List Nat) (solve : LinSolve F) (fuel f : Nat) : M F Unit := do
  advancingFront fuel f
  settle ord solve f

end TinyMesh
