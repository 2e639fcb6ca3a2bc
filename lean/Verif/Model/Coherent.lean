import Verif.Model.Lines
/-
Context-coherent completion: src/tinymesh/restore/completion.cpp:26-85, 118-181, 279-351.
-/
namespace TinyMesh

section
variable {F : Type} [ScalarX F]

/-! ### The mixture of three normal distributions and the radius of the patches -/

/-- `pis`, `mus`, `vars`, restore/completion.cpp:129-131 -/
structure Gmm (F : Type) where
  pi : Fin 3 → F
  mu : Fin 3 → F
  var : Fin 3 → F

/-- `gauss`, restore/completion.cpp:133 -/
def gauss (x v : F) : F :=
  Scalar.exp (-(Scalar.lit 1 2) * x * x / v) / Scalar.sqrt (Scalar.lit 2 1 * Scalar.pi * v)

/-- `std::max(std::abs(kv_max(i)), std::abs(kv_min(i)))`, restore/completion.cpp:125 -/
def maxCurve (k : Principal F) : F := fmax (ScalarX.abs k.kMax) (ScalarX.abs k.kMin)

/-- the initial values, restore/completion.cpp:123-131 -/
def Gmm.start (cs : List F) : Gmm F :=
  let maxK := cs.foldl fmax (Scalar.lit 0 1)
  { pi := fun _ => Scalar.lit 1 1 / Scalar.lit 3 1
    mu := fun
      | 0 => Scalar.lit 0 1
      | 1 => Scalar.lit 1 2 * maxK
      | 2 => maxK
    var := fun _ => Scalar.lit 1 1 }

/-- `gamma[i]` for the curvature `c`, restore/completion.cpp:139-147 -/
def Gmm.gamma (g : Gmm F) (c : F) : Fin 3 → F :=
  let w : Fin 3 → F := fun k => g.pi k * gauss (g.mu k - c) (g.var k)
  let sum := ((Scalar.lit 0 1 + w 0) + w 1) + w 2
  fun k => w k / sum

/-- one round of the loop, restore/completion.cpp:136-173. The rows `gamma[i]` are written once and not changed in the M step. -/
def Gmm.step (cs : List F) (g : Gmm F) : Gmm F :=
  let n : F := Scalar.lit cs.length 1
  let pi : Fin 3 → F := fun k => cs.foldl (fun s c => s + g.gamma c k / n) (Scalar.lit 0 1)
  let mu : Fin 3 → F := fun k => cs.foldl (fun s c => s + g.gamma c k * c / (n * pi k)) (Scalar.lit 0 1)
  let var : Fin 3 → F := fun k => cs.foldl (fun s c =>
    let d := c - mu k
    s + g.gamma c k * d * d / (n * pi k)) (Scalar.lit 0 1)
  { pi := pi, mu := mu, var := var }

/-- `k` rounds, restore/completion.cpp:135-174 -/
def Gmm.run (cs : List F) : Nat → Gmm F
  | 0 => Gmm.start cs
  | k + 1 => Gmm.step cs (Gmm.run cs k)

/-- `(int)std::ceil(x)`; `none`: the value does not fit, which is undefined behaviour, restore/completion.cpp:181 -/
def ceilInt (x : F) : Option Int :=
  match ScalarX.toInt x with
  | none => none
  | some k =>
    let c := if Scalar.lt (Scalar.lit k 1) x then k + 1 else k
    if c ≤ 2147483647 then some c else none

/-- `patchRadius`, restore/completion.cpp:118-181, for the curvatures `cs` of the vertices and the mean edge length -/
def patchRadius (cs : List F) (avgLen : F) : Except Err Int :=
  let mu := (Gmm.run cs 20).mu 1
  let r := (Scalar.lit 1 1 / (avgLen * mu) + Scalar.lit 1 1) * avgLen
  match ceilInt (r / avgLen) with
  | none => .error .ub
  | some k => .ok k

/-- the computation of `patchRadius`, restore/completion.cpp:111, 118-181. The mean edge length and the curvatures do not depend on the
flags reset in lines 113-116. -/
def patchRadiusM (solve : LinSolve F) : M F Int := do
  let avgLen ← meanEdgeLength
  let ks ← principalCurvatures solve false
  match patchRadius (ks.map maxCurve) avgLen with
  | .ok k => pure k
  | .error e => M.fail e

/-! ### The rigid motion between two patches -/

/-- `eigenSVD`, src/tinymesh/core/eigen.cpp:5-10: the matrices `U`, `V` and the singular values; Eigen's algorithm is a parameter -/
abbrev SvdLib (F : Type) := Mat3 F → Mat3 F × (Fin 3 → F) × Mat3 F

/-- the transposed matrix, restore/completion.cpp:64-76 -/
def Mat3.tr (A : Mat3 F) : Mat3 F := fun i j => A j i

/-- `determinant()` by expansion; Eigen computes it from an LU decomposition, which is the same in exact arithmetic, restore/completion.cpp:69 -/
def Mat3.det (A : Mat3 F) : F :=
  A 0 0 * (A 1 1 * A 2 2 - A 1 2 * A 2 1) - A 0 1 * (A 1 0 * A 2 2 - A 1 2 * A 2 0) + A 0 2 * (A 1 0 * A 2 1 - A 1 1 * A 2 0)

/-- `asDiagonal()`, restore/completion.cpp:76 -/
def Mat3.diag (a b c : F) : Mat3 F
  | 0, 0 => a
  | 1, 1 => b
  | 2, 2 => c
  | _, _ => Scalar.lit 0 1

/-- `hks.find(v)->second`, restore/completion.cpp:43-45: a vertex without an entry is undefined behaviour -/
def hksOf (hks : Nat → Option (List F)) (v : Nat) : M F (List F) :=
  match hks v with
  | some d => pure d
  | none => M.fail .ub

/-- `(a - b).squaredNorm()`; rows of different lengths are undefined behaviour, restore/completion.cpp:45 -/
def sqDist (a b : List F) : M F F :=
  if a.length = b.length then pure ((List.zipWith (fun x y => (x - y) * (x - y)) a b).foldl (· + ·) (Scalar.lit 0 1)) else M.fail .ub

/-- the search for the closest point, restore/completion.cpp:38-50: the candidates `ts`, their first index `j`, the state `(minDist, minId)` -/
def closestHks (hks : Nat → Option (List F)) (s : Nat) : List Nat → Int → F × Int → M F (F × Int)
  | [], _, r => pure r
  | t :: ts, j, r => do
    let a ← hksOf hks s
    let b ← hksOf hks t
    let d ← sqDist a b
    closestHks hks s ts (j + 1) (if Scalar.lt d r.1 then (d, j) else r)

/-- the rows of `X` and `Y`, restore/completion.cpp:37-56 -/
def rigidPairs (hks : Nat → Option (List F)) (tgt : List Nat) : List Nat → M F (List (Vec3 F × Vec3 F))
  | [] => pure []
  | s :: ss => do
    let r ← closestHks hks s tgt 0 (Scalar.lit 100000000000000000000 1, -1)
    let x ← getPos s
    let t ← atIdx tgt r.2
    let y ← getPos t
    let rest ← rigidPairs hks tgt ss
    pure ((x, y) :: rest)

/-- `colwise().mean()`, restore/completion.cpp:59-60; Eigen may add in another order -/
def meanOf (l : List (Vec3 F)) : Vec3 F := (l.foldl Vec3.add Vec3.zero).divRaw (Scalar.lit l.length 1)

/-- `Y.transpose() * X`, restore/completion.cpp:64, for the rows `(x, y)` -/
def momentMat (l : List (Vec3 F × Vec3 F)) : Mat3 F := fun i j =>
  l.foldl (fun s q => s + q.2.get i * q.1.get j) (Scalar.lit 0 1)

/-- what `solveRigidICP` computes, restore/completion.cpp:27-85 -/
structure RigidFit (F : Type) where
  R : Mat3 F
  t : Vec3 F
  error : F

/-- restore/completion.cpp:58-84 for the rows `(x, y)` -/
def rigidFit (svd : SvdLib F) (l : List (Vec3 F × Vec3 F)) : RigidFit F :=
  let xm := meanOf (l.map Prod.fst)
  let ym := meanOf (l.map Prod.snd)
  let c := l.map fun q => (q.1.sub xm, q.2.sub ym)
  let (U, _, V) := svd (momentMat c)
  let d := Mat3.det (Mat3.mul U (Mat3.tr V))
  let R := Mat3.mul (Mat3.mul U (Mat3.diag (Scalar.lit 1 1) (Scalar.lit 1 1) d)) (Mat3.tr V)
  let t := ym.sub (Mat3.apply R xm)
  let e := (c.foldl (fun s q =>
    let r := q.2.sub ((Mat3.apply R q.1).add t)
    s + r.dot r) (Scalar.lit 0 1)) / Scalar.lit l.length 1
  { R := R, t := t, error := e }

/-- `solveRigidICP`, restore/completion.cpp:27-85 -/
def solveRigidICP (svd : SvdLib F) (hks : Nat → Option (List F)) (tgt src : List Nat) : M F (RigidFit F) := do
  let l ← rigidPairs hks tgt src
  pure (rigidFit svd l)

/-! ### Descriptors and candidates -/

/-- `maxCoeff()` of a row; for an empty row Eigen's assertion fails, restore/completion.cpp:298-299 -/
def rowMax : List F → M F F
  | [] => M.fail .abort
  | a :: l => pure (l.foldl (fun s x => if Scalar.lt s x then x else s) a)

/-- `std::vector` sums of rows, restore/completion.cpp:289-290: rows of different lengths are undefined behaviour -/
def addRow (a b : List F) : M F (List F) := if a.length = b.length then pure (List.zipWith (· + ·) a b) else M.fail .ub

/-- the loop over the vertices of a patch, restore/completion.cpp:287-291 (`hksTable[v]` of a missing vertex is an empty row) -/
def hksSums (hks : Nat → Option (List F)) : List Nat → List F × List F → M F (List F × List F)
  | [], s => pure s
  | v :: vs, s => do
    let f := (hks v).getD []
    let a ← addRow s.1 f
    let b ← addRow s.2 (f.map fun x => x * x)
    hksSums hks vs (a, b)

/-- `descriptors[i]`, restore/completion.cpp:281-303, for the vertices of the patch; `n` is the number of all vertices -/
def descriptor (hks : Nat → Option (List F)) (dims n : Nat) (patch : List Nat) : M F (List F) := do
  let z : List F := List.replicate dims (Scalar.lit 0 1)
  let s ← hksSums hks patch (z, z)
  let nn : F := Scalar.lit n 1
  let mean := s.1.map fun x => x / nn
  let sq := s.2.map fun x => x / nn
  let sig := List.zipWith (fun a b => Scalar.sqrt (fmax (a - b * b) (Scalar.lit 0 1))) sq mean
  let a ← rowMax mean
  let b ← rowMax sig
  pure (mean.map (fun x => x / a) ++ sig.map (fun x => x / b))

/-- the distances of the source vertices, restore/completion.cpp:309-315 -/
def candDists (desc : List (List F)) (tgt : Int) : List Int → M F (List (F × Int))
  | [] => pure []
  | s :: ss => do
    let a ← atIdx desc tgt
    let b ← atIdx desc s
    let d ← sqDist a b
    let rest ← candDists desc tgt ss
    pure ((d, s) :: rest)

/-- `candidates[i]`, restore/completion.cpp:306-320; `sort` is `std::sort`. `(int)(0.001 * nSrc)` is taken in exact arithmetic. -/
def candidatesOf (sort : List (F × Int) → List (F × Int)) (desc : List (List F)) (src : List Int) (tgt : Int) : M F (List Int) := do
  let nc : Nat := max 10 (src.length / 1000)
  let d ← candDists desc tgt src
  let d := sort d
  eachM (fun j => do
    let x ← atIdx d j
    pure x.2) (List.range nc)

/-- the choice of the most similar patch, restore/completion.cpp:334-349: the candidates, the state `(minEps, minId, fit)` -/
def bestPatch (fit : Int → M F (RigidFit F)) : List Int → F × Int × Option (RigidFit F) → M F (F × Int × Option (RigidFit F))
  | [], s => pure s
  | c :: cs, s => do
    let r ← fit c
    bestPatch fit cs (if Scalar.lt r.error s.1 then (r.error, c, some r) else s)

end
end TinyMesh
