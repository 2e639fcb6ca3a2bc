import Verif.Model.Curv
import Verif.Model.L0
import Verif.Model.Simplify
import Verif.Model.Fill
/-
Ridge and valley lines and the direction field around them: src/tinymesh/ops/features.cpp:501-735.
-/
namespace TinyMesh

section
variable {F : Type} [ScalarX F]

/-- `checkRV`, features.cpp:519-567, for the curvatures `k1`, `k2`, the derivatives `x1`, `x2` of the maximal curvature and the positions
of two vertices; `1` is `VALLEY`, `-1` is `RIDGE`, `0` is `NONE` -/
def checkRV (k1 k2 : Principal F) (x1 x2 : F) (p1 p2 : Vec3 F) : Int :=
  let turn := Scalar.lt (k1.tMax.dot k2.tMax) (Scalar.lit 0 1)
  let t2 := if turn then k2.tMax.smul (Scalar.lit (-1) 1) else k2.tMax
  let x2 := if turn then Scalar.lit (-1) 1 * x2 else x2
  if Scalar.lt (ScalarX.abs (k1.kMax - k1.kMin)) (Scalar.lit 1 100) || Scalar.lt (ScalarX.abs (k2.kMax - k2.kMin)) (Scalar.lit 1 100) then 0
  else if Scalar.le (Scalar.lit 0 1) (x1 * x2) then 0
  else
    let c1 := x1 * (p2.sub p1).dot k1.tMax
    let c2 := x2 * (p1.sub p2).dot t2
    if Scalar.lt (ScalarX.abs k1.kMin) k1.kMax && Scalar.lt (ScalarX.abs k2.kMin) k2.kMax && (Scalar.lt (Scalar.lit 0 1) c1 && Scalar.lt (Scalar.lit 0 1) c2) then -1
    else if Scalar.lt k1.kMax (ScalarX.abs k1.kMin) && Scalar.lt k2.kMax (ScalarX.abs k2.kMin) && (Scalar.lt c1 (Scalar.lit 0 1) && Scalar.lt c2 (Scalar.lit 0 1)) then 1
    else 0

/-- the call of `checkRV` for two vertices, features.cpp:519-567, 579-581 -/
def edgeRV (ks : List (Principal F)) (es : List (F × F)) (u v : Nat) : M F Int := do
  let i1 ← getVIdx u
  let i2 ← getVIdx v
  let p1 ← getPos u
  let p2 ← getPos v
  let k1 ← atIdx ks i1
  let k2 ← atIdx ks i2
  let x1 ← atIdx es i1
  let x2 ← atIdx es i2
  pure (checkRV k1 k2 x1.1 x2.1 p1 p2)

/-- `faceRVFlags[i]` from the results for the three edges, features.cpp:582-590 -/
def faceRV (r0 r1 r2 : Int) : Int :=
  if r0 ≠ 0 ∨ r1 ≠ 0 ∨ r2 ≠ 0 then
    let x : Int := if 0 ≤ r0 ∧ 0 ≤ r1 ∧ 0 ≤ r2 then 1 else 0
    if r0 ≤ 0 ∧ r1 ≤ 0 ∧ r2 ≤ 0 then -1 else x
  else 0

/-- one round of the loop that marks the faces, features.cpp:571-591 -/
def markFace (ks : List (Principal F)) (es : List (F × F)) (i : Nat) : M F Int := do
  let f ← faceAt i
  let (a, b, c) ← triVerts f
  let r0 ← edgeRV ks es a b
  let r1 ← edgeRV ks es b c
  let r2 ← edgeRV ks es c a
  pure (faceRV r0 r1 r2)

/-- `rvDirections` and `ridgeValleyFlags`, features.cpp:594-596 -/
structure LineAcc (F : Type) where
  dir : Nat → Vec3 F
  cnt : Nat → F

/-- the loop over the neighbouring faces, features.cpp:603-610: `count` and `opposite` -/
def countMarked (flags : List Int) : List Nat → Nat × Int → M F (Nat × Int)
  | [], s => pure s
  | g :: gs, s => do
    let j ← getFIdx g
    let k ← atIdx flags j
    countMarked flags gs (if k ≠ 0 then (s.1 + 1, j) else s)

/-- the search for the half-edge whose opposite belongs to `g`, features.cpp:620-621 -/
def firstTo (g : Nat) : List Nat → M F (Option Nat)
  | [] => pure none
  | h :: hs => do
    let r ← getRev h
    let x ← getFace r
    if x = g then pure (some h) else firstTo g hs

/-- `d` of features.cpp:626-632; `none` is the exception of `normalize` -/
def inwardDir (p0 p1 p2 : Vec3 F) : Option (Vec3 F) := do
  let e1 := p1.sub p0
  let e2 := p2.sub p0
  let n ← (e1.cross e2).normalize?
  (n.cross e1).normalize?

/-- `rvDirections[v->index()] += x`, `ridgeValleyFlags(v->index()) += 1.0`, features.cpp:635-638; an index out of range is undefined
behaviour. The code does both directions before both flags. -/
def LineAcc.push (s : LineAcc F) (nv : Nat) (v : Nat) (x : Vec3 F) : M F (LineAcc F) := do
  let i ← getVIdx v
  let k ← inRange nv i
  pure ⟨upd s.dir k ((s.dir k).add x), upd s.cnt k (s.cnt k + Scalar.lit 1 1)⟩

/-- one round of the loop that finds the line vertices, features.cpp:597-646 -/
def lineFace (flags : List Int) (nv : Nat) (i : Nat) (s : LineAcc F) : M F (LineAcc F) := do
  let f ← faceAt i
  let j ← getFIdx f
  let k ← atIdx flags j
  if k ≠ 0 then pure s else do
  let gs ← faceFaces f
  let (count, opp) ← countMarked flags gs (0, -1)
  if count ≠ 1 then pure s else do
  let g ← faceAt opp
  let jg ← getFIdx g
  let kg ← atIdx flags jg
  M.assert (kg != 0)
  let hs ← faceList f
  let r ← firstTo g hs
  match r with
  | none => M.fail .abort
  | some h => do
    let v0 ← getSrc h
    let v1 ← getDst h
    let n ← getNext h
    let v2 ← getDst n
    let p0 ← getPos v0
    let p1 ← getPos v1
    let p2 ← getPos v2
    let d ← orThrowM (inwardDir p0 p1 p2)
    let x := d.smul (Scalar.lit kg 1)
    let s ← s.push nv v0 x
    s.push nv v1 x

/-- one round of features.cpp:648-656 -/
def lineMean (i : Nat) (s : LineAcc F) : M F (LineAcc F) :=
  if Scalar.eq (s.cnt i) (Scalar.lit 0 1) then pure s
  else do
    let d ← orThrowM ((s.dir i).div? (s.cnt i))
    let d ← orThrowM (if Scalar.lt (Scalar.lit 1 (10 ^ 8)) d.length then d.normalize? else some d)
    pure ⟨upd s.dir i d, upd s.cnt i (Scalar.lit 1 1)⟩

/-- `uniqueNonRV`, `uniqueRV` (the keys in the order of their numbers), `tripNonRV`, `tripRV`, features.cpp:659-664 -/
structure LineSys (F : Type) where
  free : List Nat
  fixed : List Nat
  tFree : List (Triplet F)
  tFixed : List (Triplet F)

/-- `if (map.count(k) == 0) map[k] = count++;` and `map[k]`, features.cpp:669-673, 680-684, 688-692 -/
def intern (l : List Nat) (k : Nat) : List Nat × Nat := if k ∈ l then (l, l.idxOf k) else (l ++ [k], l.length)

/-- the loop over the half-edges of a vertex, features.cpp:675-696 -/
def lineRowLoop (cnt : Nat → F) (nv row : Nat) : List Nat → F → LineSys F → M F (F × LineSys F)
  | [], s, t => pure (s, t)
  | h :: hs, s, t => do
    let u ← getDst h
    let w ← cotWeight h
    let j ← getVIdx u
    let j ← inRange nv j
    if Scalar.eq (cnt j) (Scalar.lit 0 1) then
      let (l, c) := intern t.free j
      lineRowLoop cnt nv row hs (s + w) { t with free := l, tFree := t.tFree ++ [((row : Int), (c : Int), -w)] }
    else
      let (l, c) := intern t.fixed j
      lineRowLoop cnt nv row hs (s + w) { t with fixed := l, tFixed := t.tFixed ++ [((row : Int), (c : Int), -w)] }

/-- one round of the loop over the vertices, features.cpp:665-699 -/
def lineRow (cnt : Nat → F) (nv i : Nat) (t : LineSys F) : M F (LineSys F) := do
  let v ← vertexAt i
  if Scalar.eq (cnt i) (Scalar.lit 0 1) then do
    let (l, row) := intern t.free i
    let hs ← ringList v
    let (s, t) ← lineRowLoop cnt nv row hs (Scalar.lit 0 1) { t with free := l }
    pure { t with tFree := t.tFree ++ [((row : Int), (row : Int), s)] }
  else pure t

/-- `rvDirections[it.first] = normalize(…)` for the entries of `uniqueNonRV`, features.cpp:726-729. The order of the entries does not matter
because their keys differ; `k` is the number of the first entry of the list. -/
def putDirs (xx : Nat → Vec3 F) : Nat → List Nat → (Nat → Vec3 F) → M F (Nat → Vec3 F)
  | _, [], d => pure d
  | k, i :: is, d => do
    let x ← orThrowM (xx k).normalize?
    putDirs xx (k + 1) is (upd d i x)

/-- the part of `getFeatureLineFieldWithFlags` after the curvatures, features.cpp:569-735: directions and flags by rows. `solve` stands for
`Eigen::SimplicialLDLT`, which reads the lower half of the matrix. `bbNonRV` is not used. -/
def lineField (solve : LinSolve F) (ks : List (Principal F)) (es : List (F × F)) : M F (List (Vec3 F × F)) := do
  let nf ← M.read (fun m => m.fs.length)
  let nv ← M.read (fun m => m.vs.length)
  let flags ← eachM (markFace ks es) (List.range nf)
  let s ← foldAll (lineFace flags nv) (List.range nf) ⟨fun _ => Vec3.zero, fun _ => Scalar.lit 0 1⟩
  let s ← foldAll lineMean (List.range nv) s
  let t ← foldAll (lineRow s.cnt nv) (List.range nv) ⟨[], [], [], []⟩
  let n := t.free.length
  let LL ← ofTripletsRect n n t.tFree
  let SS ← ofTripletsRect n t.fixed.length t.tFixed
  let bb (c : Vec3 F → F) : Nat → F := fun i =>
    sumN t.fixed.length fun k => -(SS i k) * c (s.dir ((t.fixed[k]?).getD 0))
  let xx : Nat → Vec3 F := fun i => ⟨solve n LL (bb Vec3.x) i, solve n LL (bb Vec3.y) i, solve n LL (bb Vec3.z) i⟩
  let d ← putDirs xx 0 t.free s.dir
  pure ((List.range nv).map fun i => (d i, s.cnt i))

/-- `getFeatureLineFieldWithFlags`, features.cpp:506-735. `solve` stands for the solver of the curvatures, `solve'` for that of the Laplace
equation. -/
def featureLines (solve solve' : LinSolve F) (smooth : Bool) : M F (List (Vec3 F × F)) := do
  let (ks, es) ← principalDerivatives solve smooth
  lineField solve' ks es

/-- `getFeatureLineField`, features.cpp:501-504 -/
def featureField (solve solve' : LinSolve F) (smooth : Bool) : M F (List (Vec3 F)) := do
  let r ← featureLines solve solve' smooth
  pure (r.map Prod.fst)

end
end TinyMesh
