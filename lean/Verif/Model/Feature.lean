import Verif.Model.Vec
import Verif.Model.Iter
/-
Curvature, rotation, Voronoi area, denoising weight, heat kernel signature and progress bar:
src/tinymesh/ops/features.cpp, src/tinymesh/core/utils.h, src/tinymesh/core/vertex.cpp, src/tinymesh/filters/denoise.cpp,
src/tinymesh/core/progress.h.
-/
namespace TinyMesh

/-- `EigenMatrix2`, eigen.h:18 -/
structure Mat2 (F : Type) where
  m00 : F
  m01 : F
  m10 : F
  m11 : F

/-- `EigenMatrix3`, eigen.h:19; row, column -/
def Mat3 (F : Type) : Type := Fin 3 → Fin 3 → F

section
variable {F : Type} [ScalarX F]

/-- `0.0`, features.cpp:34-81 -/
private abbrev c0 : F := Scalar.lit 0 1
/-- `1.0`, features.cpp:34-81 -/
private abbrev c1 : F := Scalar.lit 1 1

/-! ### Principal curvatures -/

/-- the entries of `ks_max`, `ks_min`, `ts_max`, `ts_min` for one vertex, features.cpp:34-81 -/
structure Principal (F : Type) where
  kMax : F
  kMin : F
  tMax : Vec3 F
  tMin : Vec3 F

/-- The rotation `(c, s, tt)` of features.cpp:52-58; it reads `M(0, 0)`, `M(0, 1)`, `M(1, 1)`. -/
def jacobi (M : Mat2 F) : F × F × F :=
  if Scalar.eq M.m01 c0 then (c1, c0, c0)
  else
    let h := Scalar.lit 1 2 * (M.m11 - M.m00) / M.m01
    let r := Scalar.sqrt (c1 + h * h)
    let tt := if Scalar.lt h c0 then c1 / (h - r) else c1 / (h + r)
    let c := c1 / Scalar.sqrt (c1 + tt * tt)
    (c, tt * c, tt)

/-- The body of the loop of `getPrincipalCurvaturesFromTensors`, features.cpp:45-79, for one tensor and frame.
`throw` is the exception of `normalize`. -/
def principal (M : Mat2 F) (up vp np : Vec3 F) : Except Err (Principal F) :=
  let (c, s, tt) := jacobi M
  let kmin := M.m00 - tt * M.m01
  let kmax := M.m11 + tt * M.m01
  let (kmin, kmax, tmax) :=
    if Scalar.lt kmin kmax then (kmin, kmax, (up.smul c).sub (vp.smul s))
    else (kmax, kmin, (up.smul s).add (vp.smul c))
  match (np.cross tmax).normalize? with
  | none => .error .throw
  | some tmin =>
    if Scalar.lt (ScalarX.abs (kmin - kmax)) (Scalar.lit 1 (10 ^ 6)) then
      .ok ⟨kmax, kmin, Vec3.zero, Vec3.zero⟩
    else .ok ⟨kmax, kmin, tmax, tmin⟩

/-! ### Rotations -/

/-- `EigenMatrix3::Identity()`, utils.h:42, 52 -/
def Mat3.one : Mat3 F := fun i j => if i = j then c1 else c0
/-- sum of two matrices, utils.h:41-45 -/
def Mat3.add (A B : Mat3 F) : Mat3 F := fun i j => A i j + B i j
/-- scalar times matrix, utils.h:41-45 -/
def Mat3.scale (s : F) (A : Mat3 F) : Mat3 F := fun i j => s * A i j
/-- Matrix product. Eigen may add the three terms in another order; this matters for rounded arithmetic only. See utils.h:41-45. -/
def Mat3.mul (A B : Mat3 F) : Mat3 F := fun i j => A i 0 * B 0 j + A i 1 * B 1 j + A i 2 * B 2 j

/-- `operator*(EigenMatrix3, Vec)`, vec.h:269-272: the matrix times the vector -/
def Mat3.apply (A : Mat3 F) (v : Vec3 F) : Vec3 F :=
  ⟨A 0 0 * v.x + A 0 1 * v.y + A 0 2 * v.z, A 1 0 * v.x + A 1 1 * v.y + A 1 2 * v.z,
    A 2 0 * v.x + A 2 1 * v.y + A 2 2 * v.z⟩

/-- `matrixCrossProd`, utils.h:33-39 -/
def crossMat (w : Vec3 F) : Mat3 F := fun i j =>
  match i, j with
  | 0, 0 => c0
  | 0, 1 => -w.z
  | 0, 2 => w.y
  | 1, 0 => w.z
  | 1, 1 => c0
  | 1, 2 => -w.x
  | 2, 0 => -w.y
  | 2, 1 => w.x
  | 2, 2 => c0

/-- `rotationAxisAngle`, utils.h:41-45 -/
def rotAxis (theta : F) (axis : Vec3 F) : Mat3 F :=
  let K := crossMat axis
  (Mat3.one.add (K.scale (ScalarX.sin theta))).add ((K.scale (c1 - ScalarX.cos theta)).mul K)

/-- `rotationFromTwoVectors`, utils.h:48-56; `none` is the exception of `normalize`. -/
def rotTwo (v0 v1 : Vec3 F) : Option (Mat3 F) :=
  let outer := v0.cross v1
  let theta := Scalar.atan2 outer.length (v0.dot v1)
  if Scalar.lt (ScalarX.abs theta) (Scalar.lit 1 (10 ^ 12)) then some Mat3.one
  else (outer.normalize?).map (rotAxis theta)

/-! ### Voronoi areas -/

/-- The Voronoi area of the corner `p0` of the triangle `p0 p1 p2`, vertex.cpp:82-100, 123-140. -/
def vorCorner (p0 p1 p2 : Vec3 F) : F :=
  let e1 := p1.sub p0
  let e2 := p2.sub p0
  if !(Vec3.obtuse p0 p1 p2) then
    let l1 := e1.length
    let l2 := e2.length
    let a1 := Scalar.lit 1 8 * l1 * l1 * Vec3.cot p0 p2 p1
    let a2 := Scalar.lit 1 8 * l2 * l2 * Vec3.cot p0 p1 p2
    a1 + a2
  else if Scalar.lt (e1.dot e2) c0 then
    Scalar.lit 1 2 * (e1.cross e2).length * Scalar.lit 1 2
  else
    Scalar.lit 1 2 * (e1.cross e2).length * Scalar.lit 1 4

/-- index of the last occurrence of `v`; `none` is the initial value -1 of `index`, vertex.cpp:108-118 -/
def lastIdx (v : Nat) : List Nat → Option Nat
  | [] => none
  | x :: l => match lastIdx v l with
    | some i => some (i + 1)
    | none => if x = v then some 0 else none

/-- `Vertex::volonoiArea(f)`, vertex.cpp:107-146. -/
def vorFace (v f : Nat) : M F F := do
  let l ← faceVerts f
  match lastIdx v l with
  | none => M.fail .abort
  | some i =>
    M.assert (l.length = 3)
    match l[i]?, l[(i + 1) % l.length]?, l[(i + 2) % l.length]? with
    | some a, some b, some c => do
      let p0 ← getPos a
      let p1 ← getPos b
      let p2 ← getPos c
      pure (vorCorner p0 p1 p2)
    | _, _, _ => M.fail .ub

/-! ### Denoising weights -/

/-- `K(x, sigma)`, denoise.cpp:19-32 -/
def weightK (x sigma : F) : F :=
  let sigma2 := sigma * sigma
  let coef := c1 / (Scalar.sqrt (Scalar.lit 2 1 * Scalar.pi) * sigma)
  if Scalar.lt x (Scalar.lit 2 1 * sigma) then coef * Scalar.exp (-x * x / sigma2)
  else if Scalar.lt x (Scalar.lit 4 1 * sigma) then
    let a := Scalar.lit 4 1 - ScalarX.abs x / sigma
    coef * (c1 / (Scalar.lit 16 1 * Scalar.exp (Scalar.lit 2 1))) * (a * a * a * a)
  else c0

/-! ### Heat kernel signatures -/

/-- the result of the eigenvalue solver: `vec i k` is row `i` of eigenvector `k`, `val k` its eigenvalue; `none` if the
solver reports a failure. The solver itself is not modelled. See features.cpp:144-153. -/
structure Eigs (F : Type) where
  vec : Nat → Nat → F
  val : Nat → F

/-- `times(j)`, features.cpp:155-164, for `K` eigenvalues and `nTimes` times -/
def hksTime (e : Eigs F) (K nTimes j : Nat) : F :=
  let tMin := Scalar.lit 4 1 * ScalarX.log (Scalar.lit 10 1) / fmax (Scalar.lit 1 (10 ^ 12)) (e.val (K - 1))
  let tMax := Scalar.lit 4 1 * ScalarX.log (Scalar.lit 10 1) / fmax (Scalar.lit 1 (10 ^ 12)) (e.val 1)
  let inc := (ScalarX.log tMax - ScalarX.log tMin) / Scalar.lit ((nTimes : Int) - 1) 1
  Scalar.exp (ScalarX.log tMin + Scalar.lit j 1 * inc)

/-- `HKS(i, j)`, features.cpp:166-173 -/
def hksEntry (e : Eigs F) (K nTimes i j : Nat) : F :=
  (List.range K).foldl
    (fun a k => a + (e.vec i k * e.vec i k) * Scalar.exp (-(hksTime e K nTimes j) * e.val k)) c0

/-- `getHeatKernelSignatures`, features.cpp:131-176, for a matrix with `N` rows; `solver` is the outcome of the eigenvalue
solver. The result is the matrix as a list of rows. `lambda(1)` is outside the vector when fewer than two eigenvalues are
asked for. Negative `K` and `nTimes` are not modelled. -/
def hks (N K nTimes : Nat) (solver : Option (Eigs F)) : Except Err (List (List F)) :=
  if ¬ K < N then .error .abort
  else match solver with
    | none => .error .abort
    | some e =>
      if K < 2 then .error .ub
      else .ok ((List.range N).map fun i => (List.range nTimes).map fun j => hksEntry e K nTimes i j)

/-! ### Progress bar -/

/-- `m_step` and `m_total` of a `ProgressBar`, progress.h:97 -/
structure Bar where
  step : Int
  total : Int
deriving DecidableEq, Repr

/-- the value of an `int` expression; overflow is undefined behaviour, progress.h:36-93 -/
def int32 (z : Int) : Except Err Int :=
  if -2147483648 ≤ z ∧ z ≤ 2147483647 then .ok z else .error .ub

/-- `a / b` of `int`s, progress.h:36-93 -/
def idiv (a b : Int) : Except Err Int := if b = 0 then .error .ub else int32 (a.tdiv b)

/-- `(int)x`, progress.h:36-93 -/
def toInt? (x : F) : Except Err Int := match ScalarX.toInt x with
  | some z => .ok z
  | none => .error .ub

/-- `std::string(n, c)` for an `int n`: a negative count becomes huge and `std::length_error` is thrown. See progress.h:36-93. -/
def strN (n : Int) : Except Err Unit := if n < 0 then .error .throw else .ok ()

/-- `ProgressBar::step(n)`, progress.h:36-85, when `elapsed` milliseconds have passed since the bar was made. The printed text
is not modelled, every conversion and string construction is. The second `/ 60`, `% 60` operations cannot fail. -/
def Bar.stepBy (F : Type) [ScalarX F] (b : Bar) (n : Int) (elapsed : Nat) : Except Err Bar := do
  let st ← int32 (b.step + n)
  let b' : Bar := ⟨st, b.total⟩
  let percent : F := Scalar.lit 100 1 * Scalar.lit st 1 / Scalar.lit b.total 1
  let perStep : F := Scalar.lit elapsed 1 / Scalar.lit st 1
  let left ← int32 (b.total - st)
  let rest : F := perStep * Scalar.lit left 1
  let _ ← toInt? (Scalar.lit elapsed 1 / Scalar.lit 1000 1 : F)
  let _ ← toInt? (rest / Scalar.lit 1000 1)
  let _ ← toInt? (Scalar.lit 1000 1 / perStep)
  let prod ← int32 (40 * st)
  let tick ← idiv prod b.total
  strN tick
  if tick ≠ 40 then
    strN (40 - tick - 1)
  if st = b.total ∨ st.tmod (max 1 (b.total.tdiv 1000)) = 0 then
    let _ ← toInt? percent
  pure b'

/-- `ProgressBar::finish`, progress.h:89-93 -/
def Bar.finish (F : Type) [ScalarX F] (b : Bar) (elapsed : Nat) : Except Err Bar :=
  if b.step ≠ b.total then
    match int32 (b.total - b.step) with
    | .ok d => b.stepBy F d elapsed
    | .error e => .error e
  else .ok b

/-- The calls that `simplifyQEM` makes with `verbose`, simplify.cpp:127, 323, 366: `ProgressBar pbar(total)`, one `step(2)` for
every successful collapse at the times `clock`, and `finish` at time `last`. -/
def qemBar (F : Type) [ScalarX F] (total : Int) (clock : List Nat) (last : Nat) : Except Err Bar := do
  let b : Bar ← clock.foldlM (fun (b : Bar) t => b.stepBy F 2 t) (⟨0, total⟩ : Bar)
  b.finish F last

end

/-! ### Circulators with their two increments -/

/-- The two members of a circulator: `halfedge_` (where it started) and `iter_` (where it is), vertex.h, face.h. -/
structure Circ where
  start : Nat
  cur : Nat
deriving DecidableEq, Repr

section
variable {F : Type}

/-- `Iterator(Halfedge *he)`, vertex.cpp:287-290, face.cpp:158-161 -/
def Circ.mk1 (h : Nat) : Circ := ⟨h, h⟩

/-- `operator!=`: compares `iter_`, vertex.cpp:292-294 -/
def Circ.ne (a b : Circ) : Bool := a.cur != b.cur

/-- the end iterator, vertex.cpp:239-281, face.cpp:110-150 -/
def Circ.fin : Circ := Circ.mk1 0

/-- `++it`, vertex.cpp:308-314 and the others; `step` is `ringStep` or `faceStep`. -/
def Circ.pre (step : Nat → M F Nat) (c : Circ) : M F Circ := do
  let n ← step c.cur
  pure (if n = c.start then ⟨c.start, 0⟩ else ⟨c.start, n⟩)

/-- `it++`, vertex.cpp:316-323 and the others: the advanced iterator and the returned one, which is built from the old
position alone. -/
def Circ.post (step : Nat → M F Nat) (c : Circ) : M F (Circ × Circ) := do
  let n ← step c.cur
  pure (if n = c.start then ⟨c.start, 0⟩ else ⟨c.start, n⟩, Circ.mk1 c.cur)

/-- `for (; it != end(); ++it)`: the positions visited from an iterator on. The fuel is the number of addresses ever used. See vertex.cpp:287-535, face.cpp:158-404. -/
def Circ.walk (step : Nat → M F Nat) : Nat → Circ → M F (List Nat)
  | 0, _ => M.fail .diverge
  | fuel + 1, c =>
    if c.ne Circ.fin then do
      let c' ← c.pre step
      let l ← Circ.walk step fuel c'
      pure (c.cur :: l)
    else pure []

/-- all positions visited from an iterator on, vertex.cpp:287-535, face.cpp:158-404 -/
def Circ.rest (step : Nat → M F Nat) (c : Circ) : M F (List Nat) := fun m => Circ.walk step (m.hFresh + 1) c m

end
end TinyMesh
