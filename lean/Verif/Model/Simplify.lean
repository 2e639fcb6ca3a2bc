import Verif.Model.Remesh
/-
Simplification with quadric error metrics: src/tinymesh/remesh/simplify.cpp.

`verbose` is false; the progress bar that it would drive is modelled in Model/Feature.lean. `UnionFindTree` is not used by the
code. Counts are natural numbers or integers; a mesh is assumed to have less than 2^31 elements of each kind.
-/
namespace TinyMesh
variable {F : Type} [Scalar F]

/-- `Eigen::Matrix4d`, simplify.cpp:88-113 -/
abbrev Mat4 (F : Type) := Fin 4 → Fin 4 → F

/-- What the code takes from Eigen: `Q.determinant()` and the first three components of `Q.partialPivLu().solve((0, 0, 0, 1))`,
simplify.cpp:97-106. Both are parameters of the model. -/
structure Solver (F : Type) where
  det : Mat4 F → F
  solve : Mat4 F → Vec3 F

/-- `Matrix4::Zero()`, simplify.cpp:139-142 -/
def Mat4.zero : Mat4 F := fun _ _ => Scalar.lit 0 1

/-- `m1 + m2`, simplify.cpp:88-113 -/
def Mat4.add (a b : Mat4 F) : Mat4 F := fun i j => a i j + b i j

/-- the quadric `Kp` of a triangle, simplify.cpp:159-170; `none` is the exception "Zero division" of `norm /= (w + Eps)` -/
def quadric (p0 p1 p2 : Vec3 F) : Option (Mat4 F) :=
  let norm := (p1.sub p0).cross (p2.sub p0)
  match norm.div? (norm.length + Scalar.lit 1 (10 ^ 12)) with
  | none => none
  | some n =>
    let c : Fin 4 → F := fun i => match i with
      | 0 => n.x
      | 1 => n.y
      | 2 => n.z
      | 3 => -n.dot p0
    some fun i j => c i * c j

/-- `computeQEM`, simplify.cpp:88-113: the position `*v`. The value that it returns only determines the order of the queue, which
is a parameter of the model. -/
def qemPos (S : Solver F) (m1 m2 : Mat4 F) (p1 p2 : Vec3 F) : Vec3 F :=
  let Q : Mat4 F := fun i j => if i = 3 then (if j = 3 then Scalar.lit 1 1 else Scalar.lit 0 1) else m1 i j + m2 i j
  if Scalar.lt (S.det Q) (Scalar.lit 1 (10 ^ 8)) then Vec3.smul (Scalar.lit 1 2) (p1.add p2) else S.solve Q

/-- access to an element of a vector of length `n`: undefined outside of it, simplify.cpp:172-174, 204-231 -/
def inRange (n : Nat) (i : Int) : M F Nat :=
  if 0 ≤ i ∧ i < n then pure i.toNat else M.fail .ub

/-- `Qs[v->index()] += Kp`, simplify.cpp:172-174 -/
def addQuadric (nv : Nat) (K : Mat4 F) (qs : Nat → Mat4 F) (v : Nat) : M F (Nat → Mat4 F) := do
  let i ← getVIdx v
  let k ← inRange nv i
  pure (upd qs k ((qs k).add K))

/-- the loop over the faces that accumulates the quadrics, simplify.cpp:143-175; `none` stands for the `return` at line 156 -/
def quadrics (nv : Nat) : List Nat → (Nat → Mat4 F) → M F (Option (Nat → Mat4 F))
  | [], qs => pure (some qs)
  | f :: fs, qs => do
    let b ← fIsBoundary f
    if b then quadrics nv fs qs
    else do
      let vs ← faceVerts f
      match vs with
      | [a, b, c] => do
        let p0 ← getPos a
        let p1 ← getPos b
        let p2 ← getPos c
        match quadric p0 p1 p2 with
        | none => M.fail .throw
        | some K => do
          let qs ← addQuadric nv K qs a
          let qs ← addQuadric nv K qs b
          let qs ← addQuadric nv K qs c
          quadrics nv fs qs
      | _ => pure none

/-- the candidates that are pushed into the queue, simplify.cpp:179-192 -/
def candidates (S : Solver F) (nv : Nat) (qs : Nat → Mat4 F) : List Nat → M F (List (Nat × Vec3 F))
  | [] => pure []
  | h :: hs => do
    let v1 ← getSrc h
    let v2 ← getDst h
    let i1 ← getVIdx v1
    let i2 ← getVIdx v2
    let k1 ← inRange nv i1
    let k2 ← inRange nv i2
    let p1 ← getPos v1
    let p2 ← getPos v2
    let rest ← candidates S nv qs hs
    pure ((h, qemPos S (qs k1) (qs k2) p1 p2) :: rest)

/-- `ps[i] = v_bar` for the first `i` with `vs[i] == v_i || vs[i] == v_j`, simplify.cpp:260-266 -/
def replaceFirst (vi vj : Nat) (v : Vec3 F) : List Nat → List (Vec3 F) → List (Vec3 F)
  | u :: us, p :: ps => if u = vi ∨ u = vj then v :: ps else p :: replaceFirst vi vj v us ps
  | _, ps => ps

/-- `cross(ps[2] - ps[0], ps[1] - ps[0])`, simplify.cpp:258, 273; undefined if there are less than three positions -/
def crossOf : List (Vec3 F) → M F (Vec3 F)
  | p0 :: p1 :: p2 :: _ => pure ((p2.sub p0).cross (p1.sub p0))
  | _ => M.fail .ub

/-- the test of one face, simplify.cpp:238-278. The warning at line 269 is unreachable: both vertices have been found. -/
def faceFlips (vi vj : Nat) (v : Vec3 F) (f : Nat) : M F Bool := do
  let vs ← faceVerts f
  let ps ← getPosList vs
  if vi ∈ vs ∧ vj ∈ vs then do
    let n0 ← crossOf ps
    let n1 ← crossOf (replaceFirst vi vj v vs ps)
    pure (Scalar.le (n0.dot n1 / (n0.length * n1.length)) (Scalar.lit 1 (10 ^ 12)))
  else pure false

/-- the loop over the faces, simplify.cpp:237-279 -/
def anyFlips (vi vj : Nat) (v : Vec3 F) : List Nat → Bool → M F Bool
  | [], r => pure r
  | f :: fs, r => do
    let b ← faceFlips vi vj v f
    anyFlips vi vj v fs (r || b)

/-- the loop over the common neighbours, simplify.cpp:298-304 -/
def anyThin : List Nat → M F Bool
  | [] => pure false
  | v :: vs => do
    let d ← degree v
    if d < 4 then pure true else anyThin vs

/-- the tests before a contraction, simplify.cpp:204-308: whether the half-edge `h` is to be contracted to `v`. `ck` is `checked`, a
vector of length `nv`. -/
def qemAllowed (nv : Nat) (ck : Nat → Bool) (h : Nat) (v : Vec3 F) : M F Bool := do
  let a ← getSrc h
  let ii ← getVIdx a
  let b ← getDst h
  let jj ← getVIdx b
  let vi ← vertexAt ii
  let vj ← vertexAt jj
  let i ← getVIdx vi
  let i ← inRange nv i
  if ck i then pure false else do
  let j ← getVIdx vj
  let j ← inRange nv j
  if ck j then pure false else do
  let b1 ← vIsBoundary vi
  if b1 then pure false else do
  let b2 ← vIsBoundary vj
  if b2 then pure false else do
  let d1 ← degree vi
  if d1 ≤ 3 then pure false else do
  let d2 ← degree vj
  if d2 ≤ 3 then pure false else do
  let f1 ← vertFaces vi
  let f2 ← vertFaces vj
  let fl ← anyFlips vi vj v (f1 ++ f2) false
  if fl then pure false else do
  let si ← ringVerts vi
  let sj ← ringVerts vj
  let thin ← anyThin (sj.filter fun x => si.contains x)
  pure (!thin)

/-- the half-edges that are put into `removedHalfedges`, simplify.cpp:311-316 -/
def sixHalfedges (h : Nat) : M F (List Nat) := do
  let n ← getNext h
  let nn ← getNext n
  let r ← getRev h
  let rn ← getNext r
  let rnn ← getNext rn
  pure [h, n, nn, r, rn, rnn]

/-- the loop `while (!que.empty() && numRemoved < numTargetRemove)`, simplify.cpp:196-329. The list is what is left in the queue in the
order in which it will be popped; `rm`, `ck`, `nr` are `removedHalfedges`, `checked`, `numRemoved`. The result is
`numRemoved`. The test at lines 326-328 is the one of the loop. -/
def qemPass (nv : Nat) (target : Int) : List (Nat × Vec3 F) → List Nat → (Nat → Bool) → Int → M F Int
  | [], _, _, nr => pure nr
  | (h, v) :: q, rm, ck, nr =>
    if nr < target then
      if h ∈ rm then qemPass nv target q rm ck nr
      else do
        let ok ← qemAllowed nv ck h v
        if ok then do
          let six ← sixHalfedges h
          let a ← getSrc h
          setPos a v
          let i ← getVIdx a
          let i ← inRange nv i
          let done ← collapseHE h
          qemPass nv target q (six ++ rm) (upd ck i true) (if done then nr + 2 else nr)
        else qemPass nv target q rm ck nr
    else pure nr

/-- the body of the loop that flips edges, simplify.cpp:333-351 -/
def qemFlipOne (i : Nat) : M F Unit := do
  let h ← halfedgeAt i
  let f ← getFace h
  let b1 ← fIsBoundary f
  if b1 then pure () else do
  let r ← getRev h
  let g ← getFace r
  let b2 ← fIsBoundary g
  if b2 then pure () else do
  let v0 ← getSrc h
  let v1 ← getDst h
  let n ← getNext h
  let v2 ← getDst n
  let n' ← getNext r
  let v3 ← getDst n'
  let d0 ← degree v0
  let d1 ← degree v1
  let d2 ← degree v2
  let d3 ← degree v3
  if valenceScore (d0 - 1) (d1 - 1) (d2 + 1) (d3 + 1) 6 6 6 6 < valenceScore d0 d1 d2 d3 6 6 6 6 then do
    let _ ← flipHE h
    pure ()
  else pure ()

/-- the part of a trial before the flips, simplify.cpp:135-329; `none` stands for the `return` at line 156, otherwise the result is
`numRemoved`. `ord` is the order in which the queue yields its elements. -/
def qemTrial (S : Solver F) (ord : List (Nat × Vec3 F) → List (Nat × Vec3 F)) (target nr : Int) : M F (Option Int) := do
  let vs ← M.read (fun m => m.vs)
  let hs ← M.read (fun m => m.hes)
  let fs ← M.read (fun m => m.fs)
  let qs ← quadrics vs.length fs (fun _ => Mat4.zero)
  match qs with
  | none => pure none
  | some qs => do
    let cs ← candidates S vs.length qs hs
    let nr' ← qemPass vs.length target (ord cs) [] (fun _ => false) nr
    pure (some nr')

/-- the loop over the trials, simplify.cpp:134-364; `k` counts the passes. Running out of fuel is reported as divergence. -/
def qemLoop (S : Solver F) (ord : Nat → List (Nat × Vec3 F) → List (Nat × Vec3 F)) (target maxTrials : Int) :
    Nat → Nat → Int → Int → M F Unit
  | 0, _, _, _ => M.fail .diverge
  | fuel + 1, k, trial, nr =>
    if trial < maxTrials then do
      let nf ← M.read (fun m => m.fs.length)
      let r ← qemTrial S (ord k) target nr
      match r with
      | none => pure ()
      | some nr => do
        forHalfedges qemFlipOne
        smoothTaubinDefault
        if target ≤ nr then pure ()
        else do
          let nf' ← M.read (fun m => m.fs.length)
          qemLoop S ord target maxTrials fuel (k + 1) ((if nf' < nf then 0 else trial) + 1) nr
    else pure ()

/-- `simplifyQEM`, simplify.cpp:115-371. The subtraction at line 117 is undefined if it overflows. The fuel of the trial loop is one
more than `(faces + 1) * (maxTrials + 1)`. -/
def simplifyQEM (S : Solver F) (ord : Nat → List (Nat × Vec3 F) → List (Nat × Vec3 F)) (numTarget maxTrials : Int) : M F Unit := do
  let nf ← M.read (fun m => m.fs.length)
  if 2147483647 < (nf : Int) - numTarget then M.fail .ub
  else if numTarget = 0 then M.fail .abort
  else if (nf : Int) - numTarget ≤ 0 then pure ()
  else do
    smoothLaplacianDefault
    qemLoop S ord ((nf : Int) - numTarget) maxTrials ((nf + 1) * (maxTrials.toNat + 1) + 1) 0 0 0

end TinyMesh
