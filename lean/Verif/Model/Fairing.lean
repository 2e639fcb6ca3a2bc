import Verif.Model.Operators
/-
`implicitFairing`, src/tinymesh/filters/smooth.cpp:101-166.
-/
namespace TinyMesh
variable {F : Type} [Scalar F]

/-- A linear solver: `solve n A b` for an `n × n` matrix and a right-hand side. What `Eigen::BiCGSTAB` computes with the tolerance
and the bound on the iterations set in smooth.cpp:153-155 is left open. -/
abbrev LinSolve (F : Type) := Nat → (Nat → Nat → F) → (Nat → F) → Nat → F

/-- the loop over the half-edges of a vertex, smooth.cpp:125-132: column and weight, and the sum of the weights. The warning for
weights that are not finite is left out. -/
def fairLoop : List Nat → F → M F (List (Int × F) × F)
  | [], s => pure ([], s)
  | h :: hs, s => do
    let w ← cotWeight h
    let u ← getDst h
    let j ← getVIdx u
    let (ts, s') ← fairLoop hs (s + w)
    pure ((j, w) :: ts, s')

/-- one round of the loop over the vertices, smooth.cpp:119-142, the triplets it adds -/
def fairRow (i : Nat) : M F (List (Triplet F)) := do
  let v ← vertexAt i
  let hs ← ringList v
  let (ts, s) ← fairLoop hs (Scalar.lit 0 1)
  let _ ← getPos v
  pure (ts.map (fun t => ((i : Int), t.1, t.2 / s)) ++ [((i : Int), (i : Int), Scalar.lit (-1) 1)])

/-- the matrix `A = I - epsilon * K`, smooth.cpp:144-151, given by its coefficients -/
def fairMatrix (eps : F) : M F (Nat → Nat → F) := do
  let n ← M.read (fun m => m.vs.length)
  let ts ← rows fairRow (List.range n)
  let K ← ofTriplets n ts
  pure (fun i j => (if i = j then Scalar.lit 1 1 else Scalar.lit 0 1) - eps * K i j)

/-- the positions in the order of the vertices: the matrix `X`, smooth.cpp:139-141 -/
def posRows : List Nat → M F (List (Vec3 F))
  | [] => pure []
  | i :: is => do
    let v ← vertexAt i
    let p ← getPos v
    let ps ← posRows is
    pure (p :: ps)

/-- `mesh.vertex(i)->setPos(...)` for all vertices, smooth.cpp:161-164, denoise.cpp:310-313 -/
def putRows (x : Nat → Vec3 F) : List Nat → M F Unit
  | [] => pure ()
  | i :: is => do
    let v ← vertexAt i
    setPos v (x i)
    putRows x is

/-- the solutions for the three coordinates, smooth.cpp:158-159 -/
def solveRows (solve : LinSolve F) (n : Nat) (A : Nat → Nat → F) (ps : List (Vec3 F)) (i : Nat) : Vec3 F :=
  let b (c : Vec3 F → F) : Nat → F := fun k => ((ps[k]?).map c).getD (Scalar.lit 0 1)
  ⟨solve n A (b Vec3.x) i, solve n A (b Vec3.y) i, solve n A (b Vec3.z) i⟩

/-- one iteration of `implicitFairing`, smooth.cpp:107-165. No test of the locks and of the boundary. -/
def fairStep (solve : LinSolve F) (eps : F) : M F Unit := do
  let n ← M.read (fun m => m.vs.length)
  let A ← fairMatrix eps
  let ps ← posRows (List.range n)
  putRows (solveRows solve n A ps) (List.range n)

/-- `implicitFairing`, smooth.cpp:101-166 -/
def implicitFairing (solve : LinSolve F) (eps : F) : Nat → M F Unit
  | 0 => pure ()
  | n + 1 => do
    fairStep solve eps
    implicitFairing solve eps n

end TinyMesh
