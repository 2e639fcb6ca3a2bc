import Verif.Model.Fairing
import Verif.Model.Feature
/-
Vertex normals, areas and curvatures: src/tinymesh/core/vertex.cpp:45-233.
Curvature tensors, principal curvatures and their derivatives: src/tinymesh/ops/features.cpp:21-31, 83-129, 178-499.
-/
namespace TinyMesh

/-- an exception for `none`, vec.h:146-156, 298-301 -/
def orThrowM {F α : Type} : Option α → M F α
  | some a => pure a
  | none => M.fail .throw

/-- `for (i …) l.push_back(f(i))`, features.cpp:178-309 -/
def eachM {F α : Type} (f : Nat → M F α) : List Nat → M F (List α)
  | [] => pure []
  | i :: is => do
    let a ← f i
    let rest ← eachM f is
    pure (a :: rest)

/-- `vec[i]` for an `int i`: an index out of range is undefined behaviour, features.cpp:83-499 -/
def atIdx {F α : Type} (l : List α) (i : Int) : M F α :=
  if i < 0 then M.fail .ub
  else match l[i.toNat]? with
    | some a => pure a
    | none => M.fail .ub

section
variable {F : Type} [ScalarX F]

/-- `0.0`, features.cpp:83-499 -/
private abbrev d0 : F := Scalar.lit 0 1
/-- `1.0`, features.cpp:83-499 -/
private abbrev d1 : F := Scalar.lit 1 1

/-! ### `vertex.cpp` -/

/-- the summand of `Vertex::normal` for one half-edge, vertex.cpp:50-57; `none` is the exception "Zero division" -/
def maxTerm (p0 p1 p2 : Vec3 F) : Option (Vec3 F) :=
  let e1 := p1.sub p0
  let e2 := p2.sub p0
  let l1 := e1.length
  let l2 := e2.length
  (e1.cross e2).div? (l1 * l1 * l2 * l2)

/-- `Vertex::normal`, vertex.cpp:45-60 -/
def vertNormal (v : Nat) : M F (Vec3 F) := do
  let h ← getVHe v
  let s ← circ ringStep h Vec3.zero (fun x s => do
    let p0 ← getPos v
    let d ← getDst x
    let p1 ← getPos d
    let n ← getNext x
    let e ← getDst n
    let p2 ← getPos e
    let t ← orThrowM (maxTerm p0 p1 p2)
    pure (false, s.add t))
  orThrowM s.normalize?

/-- the positions of the neighbours in the order of the circulator, vertex.cpp:72-75, 150-153, 190-193 -/
def ringPos (v : Nat) : M F (List (Vec3 F)) := do
  let vs ← ringVerts v
  getPosList vs

/-- the sum over the consecutive pairs of a closed list, vertex.cpp:78-104, 159-184, 199-231 -/
def sumPairs (g : Vec3 F → Vec3 F → F) (ps : List (Vec3 F)) : F :=
  (List.range ps.length).foldl (fun s i => s + g (ps.getD i Vec3.zero) (ps.getD ((i + 1) % ps.length) Vec3.zero)) d0

/-- `Vertex::volonoiArea()`, vertex.cpp:71-105 -/
def vorArea (v : Nat) : M F F := do
  let ps ← ringPos v
  let p0 ← getPos v
  pure (sumPairs (vorCorner p0) ps)

/-- `std::atan2(length(cross(e1, e2)), dot(e1, e2))`, vertex.cpp:161-166 -/
def cornerAngle (p0 p1 p2 : Vec3 F) : F :=
  let e1 := p1.sub p0
  let e2 := p2.sub p0
  Scalar.atan2 (e1.cross e2).length (e1.dot e2)

/-- `Vertex::K`, vertex.cpp:148-186. The two sums of the loop are written one after the other. -/
def gaussK (v : Nat) : M F F := do
  let ps ← ringPos v
  let p0 ← getPos v
  let ps := ps.reverse
  pure ((Scalar.lit 2 1 * Scalar.pi - sumPairs (cornerAngle p0) ps) / sumPairs (vorCorner p0) ps)

/-- the vector `laplace` of `Vertex::H`, vertex.cpp:199-211 -/
def ringLaplace (p0 : Vec3 F) (ps : List (Vec3 F)) : Vec3 F :=
  (List.range ps.length).foldl (fun s i =>
    let p1 := ps.getD i Vec3.zero
    let p2 := ps.getD ((i + 1) % ps.length) Vec3.zero
    let p3 := ps.getD ((i + ps.length - 1) % ps.length) Vec3.zero
    s.add (Vec3.smul (Vec3.cot p0 p2 p1 + Vec3.cot p0 p3 p1) (p1.sub p0))) Vec3.zero

/-- `Vertex::H`, vertex.cpp:188-233. The two sums of the loop are written one after the other. -/
def meanH (v : Nat) : M F F := do
  let ps ← ringPos v
  let p0 ← getPos v
  let ps := ps.reverse
  let n ← vertNormal v
  pure (Scalar.lit (-1) 1 * (ringLaplace p0 ps).dot n / (Scalar.lit 2 1 * sumPairs (vorCorner p0) ps))

/-! ### Tensors -/

/-- `LocalFrame`, utils.h:30 -/
structure LFrame (F : Type) where
  u : Vec3 F
  v : Vec3 F
  n : Vec3 F

/-- `secondForm`, features.cpp:21-23 -/
def secondForm (M : Mat2 F) (u v : F × F) : F :=
  (u.1 * M.m00 + u.2 * M.m10) * v.1 + (u.1 * M.m01 + u.2 * M.m11) * v.2

/-- `EigenVector4`, the coefficients of a cubic form, eigen.h:16 -/
structure Cubic (F : Type) where
  a : F
  b : F
  c : F
  d : F

/-- `thirdForm`, features.cpp:25-32 -/
def thirdForm (C : Cubic F) (u v w : F × F) : F :=
  d0 + C.a * u.1 * v.1 * w.1 + C.b * (u.2 * v.1 * w.1 + u.1 * v.2 * w.1 + u.1 * v.1 * w.2) +
    C.c * (u.2 * v.2 * w.1 + u.1 * v.2 * w.2 + u.2 * v.1 * w.2) + C.d * u.2 * v.2 * w.2

/-- `(dot(x, u), dot(x, v))`, features.cpp:284-291 -/
def coords2 (x u v : Vec3 F) : F × F := (x.dot u, x.dot v)

/-- `EigenMatrix2::Zero()`, features.cpp:83-309 -/
def Mat2.zero : Mat2 F := ⟨d0, d0, d0, d0⟩
/-- `+=` of `EigenMatrix2`, features.cpp:121, 301 -/
def Mat2.add (A B : Mat2 F) : Mat2 F := ⟨A.m00 + B.m00, A.m01 + B.m01, A.m10 + B.m10, A.m11 + B.m11⟩
/-- scalar times `EigenMatrix2`, features.cpp:121, 301 -/
def Mat2.scale (s : F) (A : Mat2 F) : Mat2 F := ⟨s * A.m00, s * A.m01, s * A.m10, s * A.m11⟩
/-- `EigenMatrix2` divided by a scalar, features.cpp:124, 304 -/
def Mat2.divS (A : Mat2 F) (s : F) : Mat2 F := ⟨A.m00 / s, A.m01 / s, A.m10 / s, A.m11 / s⟩

/-- the frame of a triangle, features.cpp:225-232, 378-387; `none` is the exception of `normalize` -/
def faceFrame (p0 p1 p2 : Vec3 F) : Option (LFrame F) := do
  let e0 := p2.sub p1
  let e1 := p0.sub p2
  let uf ← e0.normalize?
  let nf ← (e0.cross e1).normalize?
  let vf ← (nf.cross uf).normalize?
  some ⟨uf, vf, nf⟩

/-- the three edges `es[k]` with the differences of the values at their ends, features.cpp:225-229, 243-245, 378-382, 418-420 -/
def edgeDiffs {α : Type} (sub : α → α → α) (p0 p1 p2 : Vec3 F) (x0 x1 x2 : α) : List (Vec3 F × α) :=
  [(p2.sub p1, sub x2 x1), (p0.sub p2, sub x0 x2), (p1.sub p0, sub x1 x0)]

/-- the sums `A(0, 0)`, `A(0, 1)`, `A(2, 2)` (`A(3, 3)`), features.cpp:237-241, 412-416 -/
def gramSums (fr : LFrame F) (es : List (Vec3 F)) : F × F × F :=
  es.foldl (fun s e =>
    let u := e.dot fr.u
    let v := e.dot fr.v
    (s.1 + u * u, s.2.1 + u * v, s.2.2 + v * v)) (d0, d0, d0)

/-- the matrix `A` of features.cpp:234-255; Eigen reads the upper half and mirrors it -/
def curvMat (g : F × F × F) (i j : Nat) : F :=
  match min i j, max i j with
  | 0, 0 => g.1
  | 0, 1 => g.2.1
  | 1, 1 => g.1 + g.2.2
  | 1, 2 => g.2.1
  | 2, 2 => g.2.2
  | _, _ => d0

/-- the vector `b` of features.cpp:235, 246-250 -/
def curvRhs (fr : LFrame F) (ed : List (Vec3 F × Vec3 F)) : F × F × F :=
  ed.foldl (fun s e =>
    let u := e.1.dot fr.u
    let v := e.1.dot fr.v
    let nu := e.2.dot fr.u
    let nv := e.2.dot fr.v
    (s.1 + nu * u, s.2.1 + (nu * v + nv * u), s.2.2 + nv * v)) (d0, d0, d0)

/-- a vector of three numbers, features.cpp:235-257 -/
def vec3At (b : F × F × F) (i : Nat) : F := match i with
  | 0 => b.1
  | 1 => b.2.1
  | 2 => b.2.2
  | _ => d0

/-- the tensor of a triangle with the given positions and normals of its corners, features.cpp:234-257 -/
def faceTensor (solve : LinSolve F) (fr : LFrame F) (p0 p1 p2 n0 n1 n2 : Vec3 F) : Mat2 F :=
  let ed := edgeDiffs Vec3.sub p0 p1 p2 n0 n1 n2
  let x := solve 3 (curvMat (gramSums fr (ed.map Prod.fst))) (vec3At (curvRhs fr ed))
  ⟨x 0, x 1, x 1, x 2⟩

/-- the three vertices of a face, features.cpp:206-214, 364-372 -/
def triVerts (f : Nat) : M F (Nat × Nat × Nat) := do
  let vs ← faceVerts f
  match vs with
  | [a, b, c] => pure (a, b, c)
  | _ => M.fail .abort

/-- one round of the loop over the faces, features.cpp:204-260 -/
def curvFace (solve : LinSolve F) (i : Nat) : M F (Mat2 F × LFrame F) := do
  let f ← faceAt i
  let (a, b, c) ← triVerts f
  let p0 ← getPos a
  let p1 ← getPos b
  let p2 ← getPos c
  let n0 ← vertNormal a
  let n1 ← vertNormal b
  let n2 ← vertNormal c
  let fr ← orThrowM (faceFrame p0 p1 p2)
  pure (faceTensor solve fr p0 p1 p2 n0 n1 n2, fr)

/-- `std::exp(-0.5 * dist * dist)`, features.cpp:97-98, 192-193 -/
def gaussW (avg : F) (p q : Vec3 F) : F :=
  let dist := (p.sub q).length / avg
  Scalar.exp (Scalar.lit (-1) 2 * dist * dist)

/-- the loop over the neighbours, features.cpp:190-196 -/
def smoothNormLoop (normals : List (Vec3 F)) (avg : F) (v : Nat) : List Nat → Vec3 F → F → M F (Vec3 F × F)
  | [], n, s => pure (n, s)
  | u :: us, n, s => do
    let p ← getPos v
    let q ← getPos u
    let w := gaussW avg p q
    let j ← getVIdx u
    let nj ← atIdx normals j
    smoothNormLoop normals avg v us (n.add (nj.smul w)) (s + w)

/-- one round of the smoothing of the normals, features.cpp:187-198. The result is never used, the exceptions are. -/
def smoothNorm (normals : List (Vec3 F)) (avg : F) (i : Nat) : M F (Vec3 F) := do
  let v ← vertexAt i
  let n ← atIdx normals i
  let us ← ringVerts v
  let (n, s) ← smoothNormLoop normals avg v us n d1
  let n ← orThrowM (n.div? s)
  orThrowM n.normalize?

/-- `up` and `vp` of a vertex, features.cpp:268-274 -/
def vertFrame (v : Nat) : M F (LFrame F) := do
  let np ← vertNormal v
  let us ← ringVerts v
  let up ← (match us with
    | [] => pure Vec3.zero
    | u :: _ => do
      let q ← getPos u
      let p ← getPos v
      orThrowM (q.sub p).normalize?)
  let vp ← orThrowM (np.cross up).normalize?
  pure ⟨up, vp, np⟩

/-- the coordinates `new_up`, `new_vp` of the axes `up`, `vp` turned into the plane of another frame, features.cpp:284-291, 454-461;
`none` is the exception of `normalize` -/
def turned (fr ff : LFrame F) : Option ((F × F) × (F × F)) :=
  (rotTwo fr.n ff.n).map fun R => (coords2 (R.apply fr.u) ff.u ff.v, coords2 (R.apply fr.v) ff.u ff.v)

/-- the tensor `M` in the axes `x`, `y`, features.cpp:293-298 -/
def pullBack (M : Mat2 F) (x y : F × F) : Mat2 F :=
  ⟨secondForm M x x, secondForm M x y, secondForm M x y, secondForm M y y⟩

/-- the loop over the faces of a vertex, features.cpp:278-303 -/
def curvVertLoop (faces : List (Mat2 F × LFrame F)) (fr : LFrame F) (v : Nat) : List Nat → Mat2 F → F → M F (Mat2 F × F)
  | [], M, s => pure (M, s)
  | g :: gs, M, s => do
    let j ← getFIdx g
    let (Mf, ff) ← atIdx faces j
    let (x, y) ← orThrowM (turned fr ff)
    let w ← vorFace v g
    curvVertLoop faces fr v gs (M.add ((pullBack Mf x y).scale w)) (s + w)

/-- one round of the loop over the vertices, features.cpp:266-308 -/
def curvVert (faces : List (Mat2 F × LFrame F)) (i : Nat) : M F (Mat2 F × LFrame F) := do
  let v ← vertexAt i
  let fr ← vertFrame v
  let gs ← vertFaces v
  let (M, s) ← curvVertLoop faces fr v gs Mat2.zero d0
  pure (M.divS s, fr)

/-- `getCurvatureTensors`, features.cpp:178-309 -/
def curvatureTensors (solve : LinSolve F) : M F (List (Mat2 F × LFrame F)) := do
  let nv ← M.read (fun m => m.vs.length)
  let nf ← M.read (fun m => m.fs.length)
  let normals ← eachM (fun i => do let v ← vertexAt i; vertNormal v) (List.range nv)
  let avg ← meanEdgeLength
  let _ ← eachM (smoothNorm normals avg) (List.range nv)
  let faces ← eachM (curvFace solve) (List.range nf)
  eachM (curvVert faces) (List.range nv)

/-- the coordinates of `normalize(R * u)`, `normalize(R * v)`, features.cpp:106-112 -/
def turnedUnit (fr ff : LFrame F) : Option ((F × F) × (F × F)) := do
  let R ← rotTwo fr.n ff.n
  let x ← (R.apply fr.u).normalize?
  let y ← (R.apply fr.v).normalize?
  some (coords2 x ff.u ff.v, coords2 y ff.u ff.v)

/-- `new_u.transpose() * (Mp * new_v)` in the axes `x`, `y`, features.cpp:114-119 -/
def pullBack' (M : Mat2 F) (x y : F × F) : Mat2 F :=
  let q (u v : F × F) : F := u.1 * (M.m00 * v.1 + M.m01 * v.2) + u.2 * (M.m10 * v.1 + M.m11 * v.2)
  ⟨q x x, q x y, q x y, q y y⟩

/-- the loop over the neighbours, features.cpp:96-123 -/
def smoothTensorLoop (tens : List (Mat2 F × LFrame F)) (avg : F) (fr : LFrame F) (v : Nat) :
    List Nat → Mat2 F → F → M F (Mat2 F × F)
  | [], M, s => pure (M, s)
  | u :: us, M, s => do
    let p ← getPos v
    let q ← getPos u
    let w := gaussW avg p q
    let j ← getVIdx u
    let (Mp, fp) ← atIdx tens j
    let (x, y) ← orThrowM (turnedUnit fr fp)
    smoothTensorLoop tens avg fr v us (M.add ((pullBack' Mp x y).scale w)) (s + w)

/-- one round of `smoothingTensors`, features.cpp:87-125 -/
def smoothTensor (tens : List (Mat2 F × LFrame F)) (avg : F) (i : Nat) : M F (Mat2 F × LFrame F) := do
  let v ← vertexAt i
  let (M, fr) ← atIdx tens i
  let us ← ringVerts v
  let (M, s) ← smoothTensorLoop tens avg fr v us M d1
  pure (M.divS s, fr)

/-- `smoothingTensors`, features.cpp:83-127 -/
def smoothTensors (tens : List (Mat2 F × LFrame F)) : M F (List (Mat2 F × LFrame F)) := do
  let avg ← meanEdgeLength
  eachM (smoothTensor tens avg) (List.range tens.length)

/-- the tensors used by `getPrincipalCurvatures` and its variant with derivatives, features.cpp:313-319, 344-350 -/
def tensorsFor (solve : LinSolve F) (smooth : Bool) : M F (List (Mat2 F × LFrame F)) := do
  let t ← curvatureTensors solve
  if smooth then smoothTensors t else pure t

/-- outcome of a function that does not touch the mesh, features.cpp:34-81 -/
def liftE {F α : Type} : Except Err α → M F α
  | .ok a => pure a
  | .error e => M.fail e

/-- `getPrincipalCurvaturesFromTensors`, features.cpp:34-81 -/
def principals : List (Mat2 F × LFrame F) → M F (List (Principal F))
  | [] => pure []
  | t :: ts => do
    let k ← liftE (principal t.1 t.2.u t.2.v t.2.n)
    let ks ← principals ts
    pure (k :: ks)

/-- `getPrincipalCurvatures`, features.cpp:311-340. The four arrays are given by rows. -/
def principalCurvatures (solve : LinSolve F) (smooth : Bool) : M F (List (Principal F)) := do
  let t ← tensorsFor solve smooth
  principals t

/-! ### Derivatives -/

/-- the second fundamental form of a vertex in the axes of a face, features.cpp:388-407; `none` is the exception of `normalize` -/
def cornerForm (ff : LFrame F) (k : Principal F) (np : Vec3 F) : Option (F × F × F) :=
  (rotTwo ff.n np).map fun R =>
    let x := coords2 (R.apply ff.u) k.tMax k.tMin
    let y := coords2 (R.apply ff.v) k.tMax k.tMin
    let M : Mat2 F := ⟨k.kMax, d0, d0, k.kMin⟩
    (secondForm M x x, secondForm M x y, secondForm M y y)

/-- difference of two forms, features.cpp:420 -/
def subForm (a b : F × F × F) : F × F × F := (a.1 - b.1, a.2.1 - b.2.1, a.2.2 - b.2.2)

/-- the matrix `A` of features.cpp:409, 414-416, 426-429; Eigen reads the upper half and mirrors it -/
def derivMat (g : F × F × F) (i j : Nat) : F :=
  match min i j, max i j with
  | 0, 0 => g.1
  | 0, 1 => g.2.1
  | 1, 1 => Scalar.lit 2 1 * g.1 + g.2.2
  | 1, 2 => Scalar.lit 2 1 * g.2.1
  | 2, 2 => g.1 + Scalar.lit 2 1 * g.2.2
  | 2, 3 => g.2.1
  | 3, 3 => g.2.2
  | _, _ => d0

/-- the vector `b` of features.cpp:410, 418-424 -/
def derivRhs (fr : LFrame F) (ed : List (Vec3 F × (F × F × F))) : Cubic F :=
  ed.foldl (fun s e =>
    let u := e.1.dot fr.u
    let v := e.1.dot fr.v
    let d := e.2
    ⟨s.a + u * d.1, s.b + (v * d.1 + Scalar.lit 2 1 * u * d.2.1), s.c + (Scalar.lit 2 1 * v * d.2.1 + u * d.2.2), s.d + v * d.2.2⟩)
    ⟨d0, d0, d0, d0⟩

/-- a vector of four numbers, features.cpp:410-431 -/
def Cubic.at (b : Cubic F) (i : Nat) : F := match i with
  | 0 => b.a
  | 1 => b.b
  | 2 => b.c
  | 3 => b.d
  | _ => d0

/-- the derivative tensor of a triangle with the given forms at its corners, features.cpp:409-431 -/
def faceDeriv (solve : LinSolve F) (fr : LFrame F) (p0 p1 p2 : Vec3 F) (m0 m1 m2 : F × F × F) : Cubic F :=
  let ed := edgeDiffs subForm p0 p1 p2 m0 m1 m2
  let x := solve 4 (derivMat (gramSums fr (ed.map Prod.fst))) (derivRhs fr ed).at
  ⟨x 0, x 1, x 2, x 3⟩

/-- one round of the loop over the faces, features.cpp:362-435 -/
def derivFace (solve : LinSolve F) (ks : List (Principal F)) (tens : List (Mat2 F × LFrame F)) (i : Nat) : M F (Cubic F × LFrame F) := do
  let f ← faceAt i
  let (a, b, c) ← triVerts f
  let p0 ← getPos a
  let p1 ← getPos b
  let p2 ← getPos c
  let i0 ← getVIdx a
  let i1 ← getVIdx b
  let i2 ← getVIdx c
  let fr ← orThrowM (faceFrame p0 p1 p2)
  let k0 ← atIdx ks i0
  let t0 ← atIdx tens i0
  let m0 ← orThrowM (cornerForm fr k0 t0.2.n)
  let k1 ← atIdx ks i1
  let t1 ← atIdx tens i1
  let m1 ← orThrowM (cornerForm fr k1 t1.2.n)
  let k2 ← atIdx ks i2
  let t2 ← atIdx tens i2
  let m2 ← orThrowM (cornerForm fr k2 t2.2.n)
  pure (faceDeriv solve fr p0 p1 p2 m0 m1 m2, fr)

/-- `EigenVector4::Zero()`, features.cpp:446 -/
def Cubic.zero : Cubic F := ⟨d0, d0, d0, d0⟩
/-- `+=` of `EigenVector4`, features.cpp:470 -/
def Cubic.add (A B : Cubic F) : Cubic F := ⟨A.a + B.a, A.b + B.b, A.c + B.c, A.d + B.d⟩
/-- scalar times `EigenVector4`, features.cpp:470 -/
def Cubic.scale (s : F) (A : Cubic F) : Cubic F := ⟨s * A.a, s * A.b, s * A.c, s * A.d⟩
/-- `EigenVector4` divided by a scalar, features.cpp:473 -/
def Cubic.divS (A : Cubic F) (s : F) : Cubic F := ⟨A.a / s, A.b / s, A.c / s, A.d / s⟩

/-- the form `C` in the axes `x`, `y`, features.cpp:463-467 -/
def Cubic.pull (C : Cubic F) (x y : F × F) : Cubic F := ⟨thirdForm C x x x, thirdForm C x x y, thirdForm C x y y, thirdForm C y y y⟩

/-- the loop over the faces of a vertex, features.cpp:470 -/
def derivVertLoop (faces : List (Cubic F × LFrame F)) (fr : LFrame F) (v : Nat) : List Nat → Cubic F → F → M F (Cubic F × F)
  | [], C, s => pure (C, s)
  | g :: gs, C, s => do
    let j ← getFIdx g
    let (Cf, ff) ← atIdx faces j
    let (x, y) ← orThrowM (turned fr ff)
    let w ← vorFace v g
    derivVertLoop faces fr v gs (C.add ((Cf.pull x y).scale w)) (s + w)

/-- one round of the loop over the vertices, features.cpp:440-484 -/
def derivVert (ks : List (Principal F)) (tens : List (Mat2 F × LFrame F)) (faces : List (Cubic F × LFrame F)) (i : Nat) : M F (F × F) := do
  let v ← vertexAt i
  let t ← atIdx tens i
  let gs ← vertFaces v
  let (C, s) ← derivVertLoop faces t.2 v gs Cubic.zero d0
  let C := C.divS s
  let k ← atIdx ks i
  let x := coords2 k.tMax t.2.u t.2.v
  let y := coords2 k.tMin t.2.u t.2.v
  pure (thirdForm C x x x, thirdForm C y y y)

/-- `getPrincipalCurvaturesWithDerivatives`, features.cpp:342-499. The six arrays are given by rows: curvatures and directions,
`ev_max`, `ev_min`. -/
def principalDerivatives (solve : LinSolve F) (smooth : Bool) : M F (List (Principal F) × List (F × F)) := do
  let t ← tensorsFor solve smooth
  let ks ← principals t
  let nf ← M.read (fun m => m.fs.length)
  let faces ← eachM (derivFace solve ks t) (List.range nf)
  let nv ← M.read (fun m => m.vs.length)
  let es ← eachM (derivVert ks t faces) (List.range nv)
  pure (ks, es)

end
end TinyMesh
