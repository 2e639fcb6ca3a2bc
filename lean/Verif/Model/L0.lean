import Verif.Model.Fairing
/-
`denoiseL0Smooth`, src/tinymesh/filters/denoise.cpp:174-314.
-/
namespace TinyMesh
variable {F : Type} [Scalar F]

/-- `SparseMatrix::setFromTriplets` for an `r × c` matrix (Eigen), as `ofTriplets`, denoise.cpp:210-211, 284-285 -/
def ofTripletsRect (r c : Nat) (ts : List (Triplet F)) : M F (Nat → Nat → F) :=
  if ts.all (fun t => decide (0 ≤ t.1 ∧ t.1 < r ∧ 0 ≤ t.2.1 ∧ t.2.1 < c)) then
    pure (fun i j => sumDup ((ts.filter fun t => decide (t.1 = (i : Int) ∧ t.2.1 = (j : Int))).map fun t => t.2.2))
  else M.fail .ub

/-- a sum of `n` terms. Products of matrices are written with it; Eigen leaves out terms with a coefficient that is not stored and
may add in another order, which is the same in exact arithmetic. See denoise.cpp:288-295. -/
def sumN (n : Nat) (f : Nat → F) : F := (List.range n).foldl (fun s i => s + f i) (Scalar.lit 0 1)

/-- the vertices `vh1 … vh4` of an edge, denoise.cpp:194-199, 250-255 -/
def edgeQuad (h : Nat) : M F (Nat × Nat × Nat × Nat) := do
  let r ← getRev h
  let v1 ← getSrc h
  let n ← getNext h
  let v2 ← getDst n
  let v3 ← getSrc r
  let n' ← getNext r
  let v4 ← getDst n'
  pure (v1, v2, v3, v4)

/-- the four triplets of row `e`, denoise.cpp:201-208 and 257-260, 278-281 -/
def quadTriplets (e : Nat) (q : Nat × Nat × Nat × Nat) (c : F × F × F × F) : M F (List (Triplet F)) := do
  let i1 ← getVIdx q.1
  let i2 ← getVIdx q.2.1
  let i3 ← getVIdx q.2.2.1
  let i4 ← getVIdx q.2.2.2
  pure [(e, i1, c.1), (e, i2, c.2.1), (e, i3, c.2.2.1), (e, i4, c.2.2.2)]

/-- `edges[e]`, denoise.cpp:193, 249 -/
def edgeNo (edges : List Nat) (e : Nat) : M F Nat :=
  match edges[e]? with
  | some h => pure h
  | none => M.fail .ub

/-- the triplets of `R` for one edge, denoise.cpp:192-209 -/
def l0RowR (edges : List Nat) (e : Nat) : M F (List (Triplet F)) := do
  let h ← edgeNo edges e
  let q ← edgeQuad h
  quadTriplets e q (Scalar.lit 1 1, Scalar.lit (-1) 1, Scalar.lit 1 1, Scalar.lit (-1) 1)

/-- `coef1 … coef4`, denoise.cpp:267-276 -/
def l0Coefs (p1 p2 p3 p4 : Vec3 F) : F × F × F × F :=
  let s123 := Scalar.lit 1 2 * Vec3.length (Vec3.cross (p2.sub p1) (p2.sub p3))
  let s134 := Scalar.lit 1 2 * Vec3.length (Vec3.cross (p4.sub p1) (p4.sub p3))
  let l13 := Vec3.length (p1.sub p3)
  ((s123 * Vec3.dot (p4.sub p3) (p3.sub p1) + s134 * Vec3.dot (p1.sub p3) (p3.sub p2)) / (l13 * l13 * (s123 + s134)),
   s134 / (s123 + s134),
   (s123 * Vec3.dot (p3.sub p1) (p1.sub p4) + s134 * Vec3.dot (p2.sub p1) (p1.sub p3)) / (l13 * l13 * (s123 + s134)),
   s123 / (s123 + s134))

/-- the triplets of `D` for one edge, denoise.cpp:248-282 -/
def l0RowD (edges : List Nat) (e : Nat) : M F (List (Triplet F)) := do
  let h ← edgeNo edges e
  let (v1, v2, v3, v4) ← edgeQuad h
  let p1 ← getPos v1
  let p2 ← getPos v2
  let p3 ← getPos v3
  let p4 ← getPos v4
  quadTriplets e (v1, v2, v3, v4) (l0Coefs p1 p2 p3 p4)

/-- row `e` of `D * pVec`, denoise.cpp:288 -/
def l0Y (nv : Nat) (D : Nat → Nat → F) (p : Nat → Vec3 F) (e : Nat) : Vec3 F :=
  ⟨sumN nv fun i => D e i * (p i).x, sumN nv fun i => D e i * (p i).y, sumN nv fun i => D e i * (p i).z⟩

/-- row `e` of `delta`, denoise.cpp:289-291. `yNorm` is not used. -/
def l0Delta (nv : Nat) (D : Nat → Nat → F) (p : Nat → Vec3 F) (t : F) (e : Nat) : Vec3 F :=
  let y := l0Y nv D p e
  if Scalar.lt (y.x * y.x + y.y * y.y + y.z * y.z) t then Vec3.zero else y

/-- the matrix `A`, denoise.cpp:294 -/
def l0A (ne : Nat) (R D : Nat → Nat → F) (alpha beta : F) (i j : Nat) : F :=
  (if i = j then Scalar.lit 1 1 else Scalar.lit 0 1) + sumN ne (fun e => alpha * R e i * R e j) + sumN ne (fun e => beta * D e i * D e j)

/-- one coordinate of the matrix `bb`, denoise.cpp:295 -/
def l0B (ne : Nat) (D : Nat → Nat → F) (beta : F) (p0 : Nat → F) (dl : Nat → F) (i : Nat) : F :=
  p0 i + sumN ne (fun e => beta * D e i * dl e)

/-- the body of the `while` loop without the updates of `alpha` and `beta`, denoise.cpp:246-302: the new value of `pVec`. The warning of
a solver that did not succeed is left out. -/
def l0Round (solve : LinSolve F) (ne nv : Nat) (edges : List Nat) (R : Nat → Nat → F) (p0 : Nat → Vec3 F) (lambda alpha beta : F)
    (p : Nat → Vec3 F) : M F (Nat → Vec3 F) := do
  let ts ← rows (l0RowD edges) (List.range edges.length)
  let D ← ofTripletsRect ne nv ts
  let dl := l0Delta nv D p (lambda / beta)
  let A := l0A ne R D alpha beta
  let x (c : Vec3 F → F) : Nat → F := solve nv A (l0B ne D beta (fun i => c (p0 i)) (fun e => c (dl e)))
  pure (fun i => ⟨x Vec3.x i, x Vec3.y i, x Vec3.z i⟩)

/-- the `while` loop, denoise.cpp:245-307. `fuel` bounds the number of tests of the condition; the loop that is not over then gives
`Err.diverge`, so the code terminates if and only if the result is not `Err.diverge` for some `fuel`. -/
def l0Loop (solve : LinSolve F) (ne nv : Nat) (edges : List Nat) (R : Nat → Nat → F) (p0 : Nat → Vec3 F) (lambda bmax : F) :
    Nat → F → F → (Nat → Vec3 F) → M F (Nat → Vec3 F)
  | 0, _, _, _ => M.fail .diverge
  | n + 1, alpha, beta, p => do
    if Scalar.lt beta bmax then do
      let p' ← l0Round solve ne nv edges R p0 lambda alpha beta p
      l0Loop solve ne nv edges R p0 lambda bmax n (alpha * Scalar.lit 1 2) (beta * Scalar.sqrt (Scalar.lit 2 1)) p'
    else pure p

/-- `denoiseL0Smooth`, denoise.cpp:174-314. `order` is the order in which the set `uniqueHEs` is traversed, `solve` the solver and
`fuel` the bound of `l0Loop`. No test of the locks and of the boundary. -/
def denoiseL0Smooth (solve : LinSolve F) (order : List Nat → List Nat) (fuel : Nat) (alpha beta : F) : M F Unit := do
  let ne ← numEdges
  let nv ← M.read (fun m => m.vs.length)
  let avgEdge ← meanEdgeLength
  let avgDihed ← meanDihedralAngle
  let hs ← M.read (fun m => m.hes)
  let s ← numEdgesLoop hs []
  let edges := order s
  if edges.length ≠ ne then M.fail .abort
  else do
    let ts ← rows (l0RowR edges) (List.range edges.length)
    let R ← ofTripletsRect ne nv ts
    let ps ← posRows (List.range nv)
    let p0 : Nat → Vec3 F := fun i => (ps[i]?).getD Vec3.zero
    let bmax := Scalar.lit 1000 1 * avgEdge
    let lambda := Scalar.lit 2 100 * avgEdge * avgEdge * avgDihed
    smoothTaubinDefault
    let p ← l0Loop solve ne nv edges R p0 lambda bmax fuel (alpha * avgEdge) (beta * avgEdge) p0
    putRows p (List.range nv)

end TinyMesh
