import Verif.Model.Par
import Verif.Model.Ops
import Verif.Model.Feature
/-
Smoothing and denoising filters, and mean edge length.
-/
namespace TinyMesh
variable {F : Type} [Scalar F]
open Prog

/-! ### Cotangent weights -/

/-- the vertices `v0 … v3` of `Halfedge::cotWeight`, halfedge.cpp:27-30: the ends of the edge and the tips of the two faces -/
def cotVerts (h : Nat) : M F (Nat × Nat × Nat × Nat) := do
  let v0 ← getSrc h
  let v1 ← getDst h
  let n ← getNext h
  let v2 ← getDst n
  let r ← getRev h
  let rn ← getNext r
  let v3 ← getDst rn
  pure (v0, v1, v2, v3)

/-- `Halfedge::cotWeight`, halfedge.cpp:35-41: the value for the positions of the four vertices -/
def cotW (p0 p1 p2 p3 : Vec3 F) : F :=
  let sinA := Vec3.length (Vec3.cross (p0.sub p2) (p1.sub p2))
  let cosA := Vec3.dot (p0.sub p2) (p1.sub p2)
  let cotA := cosA / fmax sinA (Scalar.lit 1 (10 ^ 6))
  let sinB := Vec3.length (Vec3.cross (p0.sub p3) (p1.sub p3))
  let cosB := Vec3.dot (p0.sub p3) (p1.sub p3)
  let cotB := cosB / fmax sinB (Scalar.lit 1 (10 ^ 6))
  Scalar.lit 1 2 * (cotA + cotB)

/-- `Halfedge::cotWeight`, halfedge.cpp:26-42 -/
def cotWeight (h : Nat) : M F F := do
  let (v0, v1, v2, v3) ← cotVerts h
  let p0 ← getPos v0
  let p1 ← getPos v1
  let p2 ← getPos v2
  let p3 ← getPos v3
  pure (cotW p0 p1 p2 p3)

/-- `Halfedge::cotWeight` inside a parallel loop. The code uses references to the positions and loads the coordinates more
than once; here every coordinate is loaded once. See halfedge.cpp:26-42. -/
def cotP (m : Mesh F) (h : Nat) : Prog Loc F F := do
  let (v0, v1, v2, v3) ← topo m (cotVerts h)
  let p0 ← loadPos m v0
  let p1 ← loadPos m v1
  let p2 ← loadPos m v2
  let p3 ← loadPos m v3
  ret (cotW p0 p1 p2 p3)

/-! ### Laplacian smoothing -/

/-- the loop over the half-edges of a vertex, smooth.cpp:35-42: sum of weighted positions and sum of weights -/
def lapSum (m : Mesh F) (cotan : Bool) : List Nat → Vec3 F → F → Prog Loc F (Vec3 F × F)
  | [], c, s => ret (c, s)
  | h :: hs, c, s => do
    let w ← if cotan then cotP m h else ret (Scalar.lit 1 1)
    let d ← topo m (getDst h)
    let p ← loadPos m d
    lapSum m cotan hs (c.add (Vec3.smul w p)) (s + w)

/-- body of the first loop of `smoothLaplacian`, smooth.cpp:30-44: `centroids[i]`. An exception that leaves the body of a
parallel loop ends the program; it is shown as the exception that the sequential loop throws. -/
def lapCent (m : Mesh F) (cotan : Bool) (i : Nat) : Prog Loc F Unit := do
  let v ← topo m (vertexAt i)
  let hs ← topo m (ringList v)
  let (c, s) ← lapSum m cotan hs Vec3.zero (Scalar.lit 0 1)
  let c ← orThrow (c.div? s)
  storeArr 0 i c

/-- `v->isBoundary() || v->isLocked()`, smooth.cpp:49, 89 -/
def isPinned (v : Nat) : M F Bool := do
  let b ← vIsBoundary v
  if b then pure true else getLock v

/-- body of the second loop, smooth.cpp:47-57 -/
def lapMove (m : Mesh F) (nv : Nat) (eps : F) (i : Nat) : Prog Loc F Unit := do
  let v ← topo m (vertexAt i)
  let b ← topo m (isPinned v)
  if b then ret ()
  else do
    let pt ← loadPos m v
    let c ← loadArr nv 0 i
    let e := c.sub pt
    storePos m v (Vec3.add (Vec3.smul (Scalar.lit 1 1 - eps) pt) (Vec3.smul eps (pt.add e)))

/-- two parallel loops over the vertices, the second after the first, smooth.cpp:30-57, 68-97 -/
def sweep (b1 b2 : Mesh F → Nat → Nat → Prog Loc F Unit) : M F Unit := fun m =>
  let nv := m.vs.length
  match serial (b1 m nv) (List.range nv) m.mem with
  | .error e => .err e
  | .ok s1 =>
    match serial (b2 m nv) (List.range nv) s1 with
    | .error e => .err e
    | .ok s2 => .ok () (m.store s2)

/-- one iteration of `smoothLaplacian`, smooth.cpp:25-58 -/
def lapSweep (eps : F) (cotan : Bool) : M F Unit :=
  sweep (fun m _ i => lapCent m cotan i) (fun m nv i => lapMove m nv eps i)

/-- `smoothLaplacian`, smooth.cpp:23-59. A negative iteration count acts like zero. -/
def smoothLaplacian (eps : F) (cotan : Bool) : Nat → M F Unit
  | 0 => pure ()
  | n + 1 => do
    lapSweep eps cotan
    smoothLaplacian eps cotan n

/-! ### Taubin smoothing -/

/-- the positions of the vertices of a list, smooth.cpp:72-75, denoise.cpp:53-56 -/
def loadAll (m : Mesh F) : List Nat → Prog Loc F (List (Vec3 F))
  | [] => ret []
  | v :: vs => do
    let p ← loadPos m v
    let ps ← loadAll m vs
    ret (p :: ps)

/-- body of the first loop of `smoothTaubin`, smooth.cpp:68-83 -/
def tauCent (m : Mesh F) (i : Nat) : Prog Loc F Unit := do
  let v ← topo m (vertexAt i)
  let us ← topo m (ringVerts v)
  let ps ← loadAll m us
  let c ← orThrow (Vec3.div? (ps.foldl Vec3.add Vec3.zero) (Scalar.lit ps.length 1))
  storeArr 0 i c

/-- body of the second loop, smooth.cpp:87-97 -/
def tauMove (m : Mesh F) (nv : Nat) (eps : F) (i : Nat) : Prog Loc F Unit := do
  let v ← topo m (vertexAt i)
  let b ← topo m (isPinned v)
  if b then ret ()
  else do
    let pt ← loadPos m v
    let c ← loadArr nv 0 i
    let e := c.sub pt
    let q ← loadPos m v
    storePos m v (Vec3.add (Vec3.smul (Scalar.lit 1 1 - eps) q) (Vec3.smul eps (pt.add e)))

/-- one iteration of `smoothTaubin`, smooth.cpp:63-98 -/
def tauSweep (eps : F) : M F Unit :=
  sweep (fun m _ i => tauCent m i) (fun m nv i => tauMove m nv eps i)

/-- the loop of `smoothTaubin` from iteration `it` on, with `n` iterations to go, smooth.cpp:62-98 -/
def tauLoop (shrink inflate : F) (it : Nat) : Nat → M F Unit
  | 0 => pure ()
  | n + 1 => do
    tauSweep (if it % 2 = 0 then shrink else -inflate)
    tauLoop shrink inflate (it + 1) n

/-- `smoothTaubin`, smooth.cpp:61-99. `iterations * 2` must fit into `int`. -/
def smoothTaubin (shrink inflate : F) (iterations : Nat) : M F Unit :=
  if 2 * iterations ≤ 2147483647 then tauLoop shrink inflate 0 (2 * iterations) else M.fail .ub

/-- `smoothTaubin(mesh)` with the default arguments, filters.h -/
def smoothTaubinDefault : M F Unit := smoothTaubin (Scalar.lit 1 2) (Scalar.lit 53 100) 3

/-- `smoothLaplacian(mesh)` with the default arguments, filters.h -/
def smoothLaplacianDefault : M F Unit := smoothLaplacian (Scalar.lit 1 1) false 3

/-! ### Mean edge length -/

/-- the loop of `Mesh::getMeanEdgeLength`, mesh.cpp:141-149; `seen` is the set `visited` -/
def meanEdgeLoop : List Nat → List Nat → F → M F (F × Nat)
  | [], seen, s => pure (s, seen.length)
  | h :: hs, seen, s => do
    if h ∈ seen then meanEdgeLoop hs seen s
    else do
      let r ← getRev h
      if r ∈ seen then meanEdgeLoop hs seen s
      else do
        let a ← getSrc h
        let p ← getPos a
        let b ← getDst h
        let q ← getPos b
        meanEdgeLoop hs (h :: seen) (s + Vec3.length (p.sub q))

/-- `Mesh::getMeanEdgeLength`, mesh.cpp:138-151 -/
def meanEdgeLength : M F F := do
  let hs ← M.read (fun m => m.hes)
  let (s, n) ← meanEdgeLoop hs [] (Scalar.lit 0 1)
  pure (s / Scalar.lit n 1)

/-! ### Normal based denoising -/

section
variable {F : Type} [ScalarX F]

/-- faces visited by `for (it = f->f_begin(); it != f->f_end(); ++it)`, face.cpp:326-353 -/
def faceFaces (f : Nat) : M F (List Nat) := do
  let h ← getFHe f
  circ faceStep h [] (fun x l => do
    let r ← getRev x
    let g ← getFace r
    pure (false, l ++ [g]))

/-- faces visited by `for (it = v->f_begin(); it != v->f_end(); ++it)`, vertex.cpp -/
def vertFaces (v : Nat) : M F (List Nat) := do
  let h ← getVHe v
  circ ringStep h [] (fun x l => do
    let g ← getFace x
    pure (false, l ++ [g]))

/-- body of the first loop, denoise.cpp:51-66, 117-132. Arrays: 0 `normals`, 1 `centroids`, 2 `areas`, 3 `newNormals`. -/
def dnNormal (m : Mesh F) (i : Nat) : Prog Loc F Unit := do
  let f ← topo m (faceAt i)
  let vs ← topo m (faceVerts f)
  let ps ← loadAll m vs
  match ps with
  | [a, b, c] => do
    let outer := Vec3.cross (b.sub a) (c.sub a)
    let n ← orThrow outer.normalize?
    storeArr 0 i n
    let g ← orThrow (Vec3.div? ((a.add b).add c) (Scalar.lit 3 1))
    storeArr 1 i g
    storeNum 2 i (Scalar.lit 1 2 * outer.length)
  | _ => fail .abort

/-- the weight of a neighbouring face as a function of the distance of the centroids, the distance of the normals and its
area: denoise.cpp:75-76 and 141-146 -/
def dnWeight (bilateral : Bool) (sigma sigmaN : F) (d nd area : F) : F :=
  if bilateral then area * weightK d sigma * weightK nd sigmaN else weightK d sigma * area

/-- the loop over the neighbouring faces, denoise.cpp:73-78, 139-148 -/
def dnSum (m : Mesh F) (nf : Nat) (bilateral : Bool) (sigma sigmaN : F) (i : Nat) : List Nat → Vec3 F → Prog Loc F (Vec3 F)
  | [], s => ret s
  | g :: gs, s => do
    let j ← topo m (getFIdx g)
    let ci ← loadArr nf 1 i
    let cj ← loadArr nf 1 j
    let a ← loadNum nf 2 j
    let nj ← loadArr nf 0 j
    let ni ← if bilateral then loadArr nf 0 i else ret nj
    let w := dnWeight bilateral sigma sigmaN (Vec3.length (ci.sub cj)) (Vec3.length (ni.sub nj)) a
    dnSum m nf bilateral sigma sigmaN i gs (s.add (Vec3.smul w nj))

/-- body of the second loop, denoise.cpp:70-84, 136-154 -/
def dnFilter (m : Mesh F) (nf : Nat) (bilateral : Bool) (sigma sigmaN : F) (i : Nat) : Prog Loc F Unit := do
  let f ← topo m (faceAt i)
  let gs ← topo m (faceFaces f)
  let s ← dnSum m nf bilateral sigma sigmaN i gs Vec3.zero
  let l := s.length
  if Scalar.eq l (Scalar.lit 0 1) then ret ()
  else do
    let n ← orThrow (s.div? l)
    storeArr 3 i n

/-- the loop over the faces of a vertex, denoise.cpp:93-97, 163-167 -/
def dnIncr (m : Mesh F) (nf v : Nat) : List Nat → F → Vec3 F → Prog Loc F (F × Vec3 F)
  | [], s, c => ret (s, c)
  | g :: gs, s, c => do
    let j ← topo m (getFIdx g)
    let a ← loadNum nf 2 j
    let n ← loadArr nf 3 j
    let cj ← loadArr nf 1 j
    let p ← loadPos m v
    dnIncr m nf v gs (s + a) (c.add (Vec3.smul (a * Vec3.dot n (cj.sub p)) n))

/-- body of the third loop, denoise.cpp:88-100, 158-170. No test of the locks. -/
def dnMove (m : Mesh F) (nf : Nat) (i : Nat) : Prog Loc F Unit := do
  let v ← topo m (vertexAt i)
  let gs ← topo m (vertFaces v)
  let (s, c) ← dnIncr m nf v gs (Scalar.lit 0 1) Vec3.zero
  let c ← orThrow (c.div? s)
  let p ← loadPos m v
  storePos m v (p.add c)

/-- the three loops, denoise.cpp:47-100, 113-170 -/
def dnSweep (bilateral : Bool) (sigma sigmaN : F) : M F Unit := fun m =>
  let nf := m.fs.length
  let nv := m.vs.length
  match serial (dnNormal m) (List.range nf) m.mem with
  | .error e => .err e
  | .ok s1 =>
    match serial (dnFilter m nf bilateral sigma sigmaN) (List.range nf) s1 with
    | .error e => .err e
    | .ok s2 =>
      match serial (dnMove m nf) (List.range nv) s2 with
      | .error e => .err e
      | .ok s3 => .ok () (m.store s3)

/-- the loop of the two denoising filters, denoise.cpp:42-101, 108-171 -/
def dnLoop (bilateral : Bool) (sigma sigmaN : F) : Nat → M F Unit
  | 0 => pure ()
  | n + 1 => do
    smoothTaubinDefault
    dnSweep bilateral sigma sigmaN
    dnLoop bilateral sigma sigmaN n

/-- `denoiseNormalGaussian`, denoise.cpp:38-102 -/
def denoiseNormalGaussian (sigma : F) (iterations : Nat) : M F Unit := do
  let avg ← meanEdgeLength
  dnLoop false (sigma * avg) sigma iterations

/-- `denoiseNormalBilateral`, denoise.cpp:104-172 -/
def denoiseNormalBilateral (sigmaCenter sigmaNormal : F) (iterations : Nat) : M F Unit := do
  let avg ← meanEdgeLength
  dnLoop true (sigmaCenter * avg) sigmaNormal iterations

end
end TinyMesh
