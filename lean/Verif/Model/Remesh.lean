import Verif.Model.Ops
import Verif.Model.Smooth
/-
Triangular remeshing: src/tinymesh/remesh/remesh.cpp.

Counts are natural numbers: the code converts them to `int`, so a mesh is assumed to have less than 2^31 half-edges. The output
of `verbose` is not modelled; it reads counts only.
-/
namespace TinyMesh
variable {F : Type} [Scalar F]

/-- `Halfedge::length`, halfedge.cpp:22-24 -/
def heLength (h : Nat) : M F F := do
  let a ← getSrc h
  let p ← getPos a
  let b ← getDst h
  let q ← getPos b
  pure (Vec3.length (p.sub q))

/-- the sum of the lengths of all half-edges, remesh.cpp:30-36; `Lvar` is not used afterwards and left out -/
def lengthSum : List Nat → F → M F F
  | [], s => pure s
  | h :: hs, s => do
    let l ← heLength h
    lengthSum hs (s + l)

/-- `Lavg`, remesh.cpp:23-39 -/
def avgLength : M F F := do
  let hs ← M.read (fun m => m.hes)
  let s ← lengthSum hs (Scalar.lit 0 1)
  pure (s / Scalar.lit hs.length 1)

/-- `minDihed` from the position of a vertex and those of its neighbours in the order of the ring, remesh.cpp:49-61. All indices are
taken modulo the number of neighbours, so `getD` never uses its default. -/
def minDihedral (p : Vec3 F) (ps : List (Vec3 F)) : F :=
  (List.range ps.length).foldl (fun mn j =>
    let p1 := ps.getD j p
    let p2 := ps.getD ((j + 1) % ps.length) p
    let p3 := ps.getD ((j + ps.length - 1) % ps.length) p
    fmin (Vec3.dihedral p2 p p1 p3) mn) Scalar.pi

/-- the loop over the vertices that locks those on feature lines, remesh.cpp:42-66 -/
def lockLoop (keep : F) : List Nat → M F Unit
  | [] => pure ()
  | v :: vs => do
    let ns ← ringVerts v
    let ps ← getPosList ns
    let p ← getPos v
    if Scalar.lt (minDihedral p ps) keep then setLock v true else pure ()
    lockLoop keep vs

/-- remesh.cpp:41-66 -/
def lockFeatures (keep : F) : M F Unit := do
  let vs ← M.read (fun m => m.vs)
  lockLoop keep vs

/-- the body of the loop that splits long edges, remesh.cpp:90-99; `lim` is `Lavg * longLength` -/
def splitOne (lim : F) (i : Nat) : M F Unit := do
  let n ← M.read (fun m => m.hes.length)
  if i < n then do
    let h ← halfedgeAt i
    let a ← getSrc h
    let p1 ← getPos a
    let b ← getDst h
    let p2 ← getPos b
    if Scalar.le lim (Vec3.length (p1.sub p2)) then do
      let _ ← splitHE h
      pure ()
    else pure ()
  else pure ()

/-- the loop `for (auto vit = b->v_begin(); ...)` that looks for an edge that would become too long, remesh.cpp:138-143; the result is
`collapseOK` -/
def noLongEdge (a b : Nat) (lim : F) : M F Bool := do
  let h ← getVHe b
  circ ringStep h true (fun x _ => do
    let p ← getPos a
    let d ← getDst x
    let q ← getPos d
    pure (Scalar.le lim (Vec3.length (p.sub q)), !Scalar.le lim (Vec3.length (p.sub q))))

/-- the body of the loop that collapses short edges, remesh.cpp:119-150; `lo` is `Lavg * shortLength`, `lim` is
`Lavg * longLength` -/
def collapseOne (lo lim : F) (i : Nat) : M F Unit := do
  let n ← M.read (fun m => m.hes.length)
  if i < n then do
    let h ← halfedgeAt i
    let f ← getFace h
    let l1 ← fIsLocked f
    if l1 then pure () else do
    let r ← getRev h
    let g ← getFace r
    let l2 ← fIsLocked g
    if l2 then pure () else do
    let a ← getSrc h
    let l3 ← getLock a
    if l3 then pure () else do
    let b ← getDst h
    let l4 ← getLock b
    if l4 then pure () else do
    let p1 ← getPos a
    let p2 ← getPos b
    if Scalar.le (Vec3.length (p1.sub p2)) lo then do
      let ok ← noLongEdge a b lim
      if ok then do
        let _ ← collapseHE h
        pure ()
      else pure ()
    else pure ()
  else pure ()

/-- `v->isBoundary() ? 4 : 6`, remesh.cpp:183-186 -/
def valence (v : Nat) : M F Int := do
  let b ← vIsBoundary v
  pure (if b then 4 else 6)

/-- `std::abs(d0 - t0) + ...`, remesh.cpp:188-190 -/
def valenceScore (d0 d1 d2 d3 t0 t1 t2 t3 : Int) : Nat :=
  (d0 - t0).natAbs + (d1 - t1).natAbs + (d2 - t2).natAbs + (d3 - t3).natAbs

/-- the body of the loop that flips edges, remesh.cpp:161-193 -/
def flipOne (i : Nat) : M F Unit := do
  let h ← halfedgeAt i
  let f ← getFace h
  let b1 ← fIsBoundary f
  if b1 then pure () else do
  let r ← getRev h
  let g ← getFace r
  let b2 ← fIsBoundary g
  if b2 then pure () else do
  let l1 ← fIsLocked f
  if l1 then pure () else do
  let l2 ← fIsLocked g
  if l2 then pure () else do
  let v0 ← getSrc h
  let v1 ← getDst h
  let n ← getNext h
  let v2 ← getDst n
  let n' ← getNext r
  let v3 ← getDst n'
  let l3 ← getLock v0
  if l3 then pure () else do
  let l4 ← getLock v1
  if l4 then pure () else do
  let d0 ← degree v0
  let d1 ← degree v1
  let d2 ← degree v2
  let d3 ← degree v3
  let t0 ← valence v0
  let t1 ← valence v1
  let t2 ← valence v2
  let t3 ← valence v3
  if valenceScore (d0 - 1) (d1 - 1) (d2 + 1) (d3 + 1) t0 t1 t2 t3 < valenceScore d0 d1 d2 d3 t0 t1 t2 t3 then do
    let _ ← flipHE h
    pure ()
  else pure ()

/-- `for (int i : indices) body(i)`, remesh.cpp:89, 118 -/
def forAll (body : Nat → M F Unit) : List Nat → M F Unit
  | [] => pure ()
  | i :: is => do
    body i
    forAll body is

/-- `for (; i < (int)mesh.numHalfedges(); i++) body(i)`, remesh.cpp:160: the bound is read again before every round. The fuel is more
than the number of half-edges at the start; running out of it is reported as divergence. -/
def forIdx (body : Nat → M F Unit) : Nat → Nat → M F Unit
  | 0, _ => M.fail .diverge
  | fuel + 1, i => do
    let n ← M.read (fun m => m.hes.length)
    if i < n then do
      body i
      forIdx body fuel (i + 1)
    else pure ()

/-- the whole of such a loop, remesh.cpp:160-194 -/
def forHalfedges (body : Nat → M F Unit) : M F Unit := do
  let n ← M.read (fun m => m.hes.length)
  forIdx body (n + 1) 0

/-- one round of the remeshing loop, remesh.cpp:74-198. `s1` and `s2` are the two results of `std::shuffle`, as functions of the
number of indices. -/
def remeshRound (lo lim : F) (s1 s2 : Nat → List Nat) : M F Unit := do
  let n ← M.read (fun m => m.hes.length)
  forAll (splitOne lim) (s1 n)
  let _ ← verify
  let n' ← M.read (fun m => m.hes.length)
  forAll (collapseOne lo lim) (s2 n')
  forHalfedges flipOne
  smoothTaubinDefault

/-- the remeshing loop, remesh.cpp:73-198, with `n` rounds to go; `k` counts the rounds -/
def remeshLoop (lo lim : F) (sh : Nat → Bool → Nat → List Nat) (k : Nat) : Nat → M F Unit
  | 0 => pure ()
  | n + 1 => do
    remeshRound lo lim (sh k false) (sh k true)
    remeshLoop lo lim sh (k + 1) n

/-- `remeshTriangular`, remesh.cpp:19-199; a negative number of iterations is the same as none. The random shuffles are a parameter:
`sh k b n` is the order in which round `k` visits the indices `0, ..., n - 1` in its first (`b = false`) or second loop. -/
def remesh (sh : Nat → Bool → Nat → List Nat) (short long keep : F) (iterations : Nat) : M F Unit := do
  let ok ← verify
  M.assert ok
  let avg ← avgLength
  lockFeatures keep
  remeshLoop (avg * short) (avg * long) sh 0 iterations

end TinyMesh
