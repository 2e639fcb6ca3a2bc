import Verif.Model.Vec
/-
`Bounds3` (src/tinymesh/core/bounds.h), `Triangle` (triangle.h, triangle.cpp) and `BVH` (bvh.h, bvh.cpp).

Outcomes of functions that do not touch a mesh are `Except Err`: `Err.ub`, `Err.abort`, `Err.throw`, `Err.diverge` as for
meshes.
-/
namespace TinyMesh

section
variable {F : Type}

/-- `Bounds<double, 3>`, bounds.h:13-88 -/
structure Bounds (F : Type) where
  lo : Vec3 F
  hi : Vec3 F

/-- `Triangle`, triangle.h:14-29 -/
structure Triangle (F : Type) where
  p0 : Vec3 F
  p1 : Vec3 F
  p2 : Vec3 F

namespace Bounds

/-- `Bounds()`, bounds.h:18, 86-87: the box from 1e20 to -1e20 -/
def empty [Scalar F] : Bounds F :=
  let a : F := Scalar.lit (10 ^ 20) 1
  let b : F := Scalar.lit (-(10 ^ 20)) 1
  ⟨⟨a, a, a⟩, ⟨b, b, b⟩⟩

/-- `merge(p)`, bounds.h:25-28 -/
def mergeP [Scalar F] (b : Bounds F) (p : Vec3 F) : Bounds F := ⟨b.lo.vmin p, b.hi.vmax p⟩

/-- `merge(b0, b1)`, bounds.h:71-76 -/
def merge [Scalar F] (b0 b1 : Bounds F) : Bounds F := ⟨b0.lo.vmin b1.lo, b0.hi.vmax b1.hi⟩

/-- `area()`, bounds.h:30-34 -/
def area [ScalarX F] (b : Bounds F) : F :=
  let d := (b.hi.sub b.lo).vabs
  Scalar.lit 2 1 * (d.x * d.y + d.y * d.z + d.z * d.x)

/-- the test of one axis in `inside` and `distance`, bounds.h:38, 63 -/
def outAxis [Scalar F] (b : Bounds F) (p : Vec3 F) (d : Fin 3) : Bool :=
  Scalar.lt (p.get d) (b.lo.get d) || Scalar.lt (b.hi.get d) (p.get d)

/-- `inside`, bounds.h:36-41 -/
def inside [Scalar F] (b : Bounds F) (p : Vec3 F) : Bool :=
  !(b.outAxis p 0) && !(b.outAxis p 1) && !(b.outAxis p 2)

/-- `maxExtent`, bounds.h:43-56; `Err.abort` is the failed assertion (no extent is larger than -1, i.e. all are NaN) -/
def maxExtent [ScalarX F] (b : Bounds F) : Except Err (Fin 3) :=
  let v := (b.hi.sub b.lo).vabs
  let s0 : F × Option (Fin 3) := (Scalar.lit (-1) 1, none)
  let s1 := if Scalar.lt s0.1 v.x then (v.x, some 0) else s0
  let s2 := if Scalar.lt s1.1 v.y then (v.y, some 1) else s1
  let s3 := if Scalar.lt s2.1 v.z then (v.z, some 2) else s2
  match s3.2 with
  | some d => .ok d
  | none => .error .abort

/-- one turn of the loop in `distance`, bounds.h:62-67 -/
def distAxis [ScalarX F] (b : Bounds F) (p : Vec3 F) (dist : F) (d : Fin 3) : F :=
  if b.outAxis p d then
    let gap := fmin ((b.lo.sub p).vabs.get d) ((b.hi.sub p).vabs.get d)
    dist + gap * gap
  else dist

/-- `distance`, bounds.h:58-69 -/
def distance [ScalarX F] (b : Bounds F) (p : Vec3 F) : F :=
  Scalar.sqrt (b.distAxis p (b.distAxis p (b.distAxis p (Scalar.lit 0 1) 0) 1) 2)

end Bounds

namespace Triangle

/-- `closestPoint`, triangle.cpp:10-51. `bp` is computed from `p2` as in the code (line 19). -/
def closestPoint [Scalar F] (t : Triangle F) (p : Vec3 F) : Vec3 F :=
  let zero : F := Scalar.lit 0 1
  let ab := t.p1.sub t.p0
  let ac := t.p2.sub t.p0
  let ap := p.sub t.p0
  let d1 := ab.dot ap
  let d2 := ac.dot ap
  if Scalar.le d1 zero && Scalar.le d2 zero then t.p0
  else
    let bp := p.sub t.p2
    let d3 := ab.dot bp
    let d4 := ac.dot bp
    if Scalar.le zero d3 && Scalar.le d4 d3 then t.p1
    else
      let cp := p.sub t.p2
      let d5 := ab.dot cp
      let d6 := ac.dot cp
      if Scalar.le zero d6 && Scalar.le d5 d6 then t.p2
      else
        let vc := d1 * d4 - d3 * d2
        if Scalar.le vc zero && Scalar.le zero d1 && Scalar.le d3 zero then
          let v := d1 / (d1 - d3)
          t.p0.add (ab.smul v)
        else
          let vb := d5 * d2 - d1 * d6
          if Scalar.le vb zero && Scalar.le zero d2 && Scalar.le d6 zero then
            let v := d2 / (d2 - d6)
            t.p0.add (ac.smul v)
          else
            let va := d3 * d6 - d5 * d4
            if Scalar.le va zero && Scalar.le zero (d4 - d3) && Scalar.le zero (d5 - d6) then
              let v := (d4 - d3) / ((d4 - d3) + (d5 - d6))
              t.p1.add ((t.p2.sub t.p1).smul v)
            else
              let denom := Scalar.lit 1 1 / (va + vb + vc)
              let v := vb * denom
              let w := vc * denom
              (t.p0.add (ab.smul v)).add (ac.smul w)

/-- `distance`, triangle.cpp:6-8 -/
def distance [Scalar F] (t : Triangle F) (p : Vec3 F) : F := (p.sub (t.closestPoint p)).length

/-- `bounds`, triangle.cpp:53-59 -/
def bounds [Scalar F] (t : Triangle F) : Bounds F := ((Bounds.empty.mergeP t.p0).mergeP t.p1).mergeP t.p2

end Triangle

/-- `BVHNode*`, bvh.h:33-57: `null` or a leaf or a fork. A tree is a value, not a heap: `constructRec` creates every node once
and `closestPoint` only reads them. -/
inductive BNode (F : Type) where
  | null
  | leaf (b : Bounds F) (prim : Nat)
  | fork (b : Bounds F) (l r : BNode F) (axis : Fin 3)

/-- `BVHPrimitiveInfo`, bvh.h:18-31 -/
structure Prim (F : Type) where
  idx : Nat
  centroid : Vec3 F
  bounds : Bounds F

/-- constructor of `BVHPrimitiveInfo`, bvh.h:21-26 -/
def Prim.mk' [Scalar F] (i : Nat) (b : Bounds F) : Prim F := ⟨i, (b.hi.add b.lo).smul (Scalar.lit 1 2), b⟩

end

section
variable {F : Type}

/-- What the algorithms of the C++ library do to the range they are given.
`nth axis k l` is the range after `std::nth_element(begin, begin + k, end, ComparePoint(axis))` and `part p l` the range after
`std::partition(begin, end, p)`. The standard fixes the results only up to some permutations, hence the parameters. See bvh.cpp:136-137, 182-183. -/
structure Lib (F : Type) where
  nth : Fin 3 → Nat → List (Prim F) → List (Prim F)
  part : (Prim F → Bool) → List (Prim F) → List (Prim F)

/-- the bucket number of a primitive before clamping: `static_cast<int>(nBuckets * diff * inv)`, bvh.cpp:43-45 and 145-148 -/
def bucketOf [ScalarX F] (cb : Bounds F) (axis : Fin 3) (p : Prim F) : Option Int :=
  let inv := Scalar.lit 1 1 / (ScalarX.abs (cb.hi.get axis - cb.lo.get axis) + Scalar.lit 1 (10 ^ 12))
  let diff := ScalarX.abs (p.centroid.get axis - cb.lo.get axis)
  ScalarX.toInt (Scalar.lit 16 1 * diff * inv)

/-- `CompareToBucket::operator()`, bvh.cpp:40-50. A failed conversion is undefined behaviour; the callers below test for it
first with the same numbers, so `none` is mapped to `false` here. -/
def inLeft [ScalarX F] (cb : Bounds F) (axis : Fin 3) (split : Nat) (p : Prim F) : Bool :=
  match bucketOf cb axis p with
  | none => false
  | some b => decide ((if b ≥ 16 then 15 else b) ≤ (split : Int))

/-- one bucket, bvh.cpp:10-17 -/
structure Bucket (F : Type) where
  count : Nat
  bounds : Bounds F

/-- the loop that fills the buckets, bvh.cpp:146-155. An index outside `buckets` is undefined behaviour. -/
def fillBuckets [ScalarX F] (cb : Bounds F) (axis : Fin 3) :
    List (Prim F) → List (Bucket F) → Except Err (List (Bucket F))
  | [], bs => .ok bs
  | p :: l, bs =>
    match bucketOf cb axis p with
    | none => .error .ub
    | some b =>
      let b := if b = 16 then 15 else b
      if b < 0 then .error .ub
      else match bs[b.toNat]? with
        | none => .error .ub
        | some k => fillBuckets cb axis l (bs.set b.toNat ⟨k.count + 1, k.bounds.merge p.bounds⟩)

/-- the cost of splitting after bucket `i`, bvh.cpp:159-169 -/
def splitCost [ScalarX F] (area : F) (bs : List (Bucket F)) (i : Nat) : F :=
  let half (l : List (Bucket F)) : F × Bounds F :=
    (Scalar.lit (l.foldl (fun n k => n + k.count) 0 : Nat) 1, l.foldl (fun b k => b.merge k.bounds) Bounds.empty)
  let l := half (bs.take (i + 1))
  let r := half (bs.drop (i + 1))
  Scalar.lit 0 1 + (Scalar.lit 1 8 + (l.1 * l.2.area + r.1 * r.2.area) / area)

/-- the search for the cheapest split, bvh.cpp:172-179 -/
def bestSplit [Scalar F] (cost : Nat → F) : F × Nat :=
  ((List.range 14).map (· + 1)).foldl (fun s i => if Scalar.lt (cost i) s.1 then (cost i, i) else s) (cost 0, 0)

/-- The part of `constructRec` that reorders the range and chooses `mid` (lines 128-186), for a range of at least two
primitives. The result is the reordered range and the number of primitives in the left half.
`(start + end) / 2 - start` is half of the length. See bvh.cpp:128-186. -/
def splitRange [ScalarX F] (lib : Lib F) (bounds : Bounds F) (l : List (Prim F)) : Except Err (List (Prim F) × Nat × Fin 3) := do
  let cb := l.foldl (fun b p => b.mergeP p.centroid) Bounds.empty
  let axis ← cb.maxExtent
  let mid := l.length / 2
  if l.length ≤ 8 then
    return (lib.nth axis mid l, mid, axis)
  else
    let bs ← fillBuckets cb axis l (List.replicate 16 ⟨0, Bounds.empty⟩)
    let best := bestSplit (splitCost bounds.area bs)
    if Scalar.lt best.1 (Scalar.lit l.length 1) then
      let p := inLeft cb axis best.2
      return (lib.part p l, l.countP p, axis)
    else
      return (l, mid, axis)

/-- `constructRec`, bvh.cpp:111-193, on the list of primitives between `start` and `end`. `fuel` bounds the depth of the
recursion: a call that exceeds it has a one-sided split above it. -/
def constructRec [ScalarX F] (lib : Lib F) : Nat → List (Prim F) → Except Err (BNode F)
  | 0, _ => .error .diverge
  | fuel + 1, l =>
    match l with
    | [] => .ok .null
    | [p] => .ok (.leaf (Bounds.empty.merge p.bounds) p.idx)
    | l => do
      let bounds := l.foldl (fun b p => b.merge p.bounds) Bounds.empty
      let (l', mid, axis) ← splitRange lib bounds l
      let left ← constructRec lib fuel (l'.take mid)
      let right ← constructRec lib fuel (l'.drop mid)
      return .fork bounds left right axis

/-- the loop of `construct`, bvh.cpp:64-71; reading past the end of `indices` or `vertices` is undefined behaviour -/
def readTris (V : List (Vec3 F)) : List Nat → Except Err (List (Triangle F))
  | [] => .ok []
  | i0 :: i1 :: i2 :: I =>
    match V[i0]?, V[i1]?, V[i2]? with
    | some a, some b, some c => do
      let ts ← readTris V I
      return ⟨a, b, c⟩ :: ts
    | _, _, _ => .error .ub
  | _ => .error .ub

/-- `BVH`, bvh.h:59-75 -/
structure Bvh (F : Type) where
  root : BNode F
  tris : List (Triangle F)

/-- the primitives of a triangle list, bvh.cpp:63-71 -/
def primsOf [Scalar F] (ts : List (Triangle F)) : List (Prim F) := ts.mapIdx (fun i t => Prim.mk' i t.bounds)

/-- `BVH::construct`, bvh.cpp:61-74. The fuel exceeds the depth of every recursion without a one-sided split. -/
def bvhConstruct [ScalarX F] (lib : Lib F) (V : List (Vec3 F)) (I : List Nat) : Except Err (Bvh F) := do
  let ts ← readTris V I
  let root ← constructRec lib (ts.length + 1) (primsOf ts)
  return ⟨root, ts⟩

/-- number of nodes, the fuel of the query loop, for bvh.cpp:87-107 -/
def BNode.size : BNode F → Nat
  | .null => 1
  | .leaf _ _ => 1
  | .fork _ l r _ => 1 + l.size + r.size

/-- `node != nullptr`, bvh.cpp:90-104 -/
def BNode.nonNull : BNode F → Bool
  | .null => false
  | _ => true

/-- the loop of `closestPoint`, bvh.cpp:87-107. The head of the list is the top of the stack. A null pointer on the stack (only
possible for the root) is dereferenced: undefined behaviour. -/
def queryLoop [ScalarX F] (tris : List (Triangle F)) (q : Vec3 F) :
    Nat → List (BNode F) → F → Vec3 F → Except Err (Vec3 F)
  | _, [], _, ret => .ok ret
  | 0, _ :: _, _, _ => .error .diverge
  | _ + 1, .null :: _, _, _ => .error .ub
  | fuel + 1, .leaf _ i :: stk, dist, ret =>
    match tris[i]? with
    | none => .error .ub
    | some t =>
      let pc := t.closestPoint q
      let dc := (q.sub pc).length
      if Scalar.lt dc dist then queryLoop tris q fuel stk dc pc else queryLoop tris q fuel stk dist ret
  | fuel + 1, .fork b l r _ :: stk, dist, ret =>
    if b.inside q || Scalar.le (b.distance q) dist then
      let stk := if l.nonNull then l :: stk else stk
      let stk := if r.nonNull then r :: stk else stk
      queryLoop tris q fuel stk dist ret
    else queryLoop tris q fuel stk dist ret

/-- `BVH::closestPoint`, bvh.cpp:81-109 -/
def bvhClosest [ScalarX F] (b : Bvh F) (q : Vec3 F) : Except Err (Vec3 F) :=
  queryLoop b.tris q b.root.size [b.root] (Scalar.lit (10 ^ 20) 1) Vec3.zero

/-- `BVH::distance`, bvh.cpp:76-79 -/
def bvhDistance [ScalarX F] (b : Bvh F) (q : Vec3 F) : Except Err F := do
  let pc ← bvhClosest b q
  return (pc.sub q).length

/-- `EigenVector::maxCoeff`: the largest entry; on an empty vector Eigen asserts (and reads outside the array without
assertions): undefined behaviour. See metrics.cpp:12-19. -/
def maxCoeff [Scalar F] : List F → Except Err F
  | [] => .error .ub
  | a :: l => .ok (l.foldl (fun m x => if Scalar.lt m x then x else m) a)

/-- What `getPerVertexShortestDistances` and `getHausdorffDistance` read of a mesh: the positions of its vertices and the
indices reported by `getVertexIndices`. See metrics.cpp:12-32. -/
structure Soup (F : Type) where
  pos : List (Vec3 F)
  idx : List Nat

/-- `getPerVertexShortestDistances`, ops/metrics.cpp:21-32 -/
def perVertexDist [ScalarX F] (lib : Lib F) (src dst : Soup F) : Except Err (List F) := do
  let b ← bvhConstruct lib dst.pos dst.idx
  src.pos.mapM (bvhDistance b)

/-- `getHausdorffDistance`, ops/metrics.cpp:12-19 -/
def hausdorff [ScalarX F] (lib : Lib F) (m0 m1 : Soup F) : Except Err F := do
  let d01 ← perVertexDist lib m0 m1
  let d10 ← perVertexDist lib m1 m0
  let a ← maxCoeff d01
  let b ← maxCoeff d10
  return fmax a b

end
end TinyMesh
