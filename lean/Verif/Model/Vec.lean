import Verif.Model.State
/-
The rest of src/tinymesh/core/vec.h: operators that the half-edge code does not use, and the geometric functions built on
them; `Scalar` operations needed by them.
-/
namespace TinyMesh

/-- Further operations on `double`. No law is assumed.
`toInt` is `static_cast<int>`; `none` means that the value does not fit, which is undefined behaviour in C++. See used by vec.h:303-394, bounds.h, bvh.cpp, features.cpp. -/
class ScalarX (F : Type) extends Scalar F where
  abs : F → F
  sin : F → F
  cos : F → F
  log : F → F
  toInt : F → Option Int

/-- `std::min(a, b)`: `b < a ? b : a`, vec.h:378-385, bounds.h:25-28 -/
def fmin {F : Type} [Scalar F] (a b : F) : F := if Scalar.lt b a then b else a

/-- `std::max(a, b)`: `a < b ? b : a`, vec.h:387-394, bounds.h:25-28 -/
def fmax {F : Type} [Scalar F] (a b : F) : F := if Scalar.lt a b then b else a

/-- The constructor `Vec(Float x, Float y, Float z = 0, Float w = 0)` of `Vec<Float, Dims>`, vec.h:31-37. The result is the
array `elems`; `none` is a write outside the array (undefined behaviour).
The conditions are `Dims >= 1` for `elems[1]` and `Dims >= 2` for `elems[2]`, as in the code. -/
def vecCtor {F : Type} (dims : Nat) (x y z w : F) : Option (List F) :=
  let set (l : List F) (i : Nat) (a : F) : Option (List F) := if i < l.length then some (l.set i a) else none
  do
    let l := List.replicate dims w
    let l ← set l 0 x
    let l ← if dims ≥ 1 then set l 1 y else some l
    if dims ≥ 2 then set l 2 z else some l

namespace Vec3
variable {F : Type} [Scalar F]

/-- `operator*(Vec, Vec)` (componentwise), vec.h:111-121, 234-239. -/
def mulV (a b : Vec3 F) : Vec3 F := ⟨a.x * b.x, a.y * b.y, a.z * b.z⟩

/-- `operator-(Vec, Float)`, vec.h:221-226: the code multiplies. -/
def subS (a : Vec3 F) (s : F) : Vec3 F := smul s a

/-- `operator-(Float, Vec)`, vec.h:228-233: the code multiplies. -/
def sSub (s : F) (a : Vec3 F) : Vec3 F := smul s a

/-- `operator/=(Vec)`, vec.h:131-144: the left operand after the call and whether "Zero division!" was thrown. The
components before the first zero have been divided when the exception leaves the function. -/
def divVAssign (a b : Vec3 F) : Vec3 F × Bool :=
  if Scalar.eq b.x (Scalar.lit 0 1) then (a, true)
  else if Scalar.eq b.y (Scalar.lit 0 1) then (⟨a.x / b.x, a.y, a.z⟩, true)
  else if Scalar.eq b.z (Scalar.lit 0 1) then (⟨a.x / b.x, a.y / b.y, a.z⟩, true)
  else (⟨a.x / b.x, a.y / b.y, a.z / b.z⟩, false)

/-- `operator/(Vec, Vec)`, vec.h:255-260; `none` is the exception. -/
def divV? (a b : Vec3 F) : Option (Vec3 F) :=
  match divVAssign a b with
  | (v, false) => some v
  | (_, true) => none

/-- `operator[]`, vec.h:158-164 with an index 0, 1, 2 (any other index is outside the array; the callers use constants or
loops below `Dims`) -/
def get (a : Vec3 F) : Fin 3 → F
  | 0 => a.x
  | 1 => a.y
  | 2 => a.z

/-- `std::min(Vec, Vec)`, vec.h:378-385 -/
def vmin (a b : Vec3 F) : Vec3 F := ⟨fmin a.x b.x, fmin a.y b.y, fmin a.z b.z⟩

/-- `std::max(Vec, Vec)`, vec.h:387-394 -/
def vmax (a b : Vec3 F) : Vec3 F := ⟨fmax a.x b.x, fmax a.y b.y, fmax a.z b.z⟩

/-- `angle`, vec.h:305-312 -/
def angle (a b c : Vec3 F) : F :=
  let e0 := sub a b
  let e1 := sub c b
  Scalar.atan2 (length (cross e0 e1)) (dot e0 e1)

/-- `std::sort` of three numbers, vec.h:321-322. Written as an insertion sort: every comparison sort gives the same array
when `<` is a strict weak order. -/
def sort3 (a b c : F) : F × F × F :=
  let (a, b) := if Scalar.lt b a then (b, a) else (a, b)
  if Scalar.lt c a then (c, a, b) else if Scalar.lt c b then (a, c, b) else (a, b, c)

/-- `obtuse`, vec.h:315-324 -/
def obtuse (a b c : Vec3 F) : Bool :=
  let (s0, s1, s2) := sort3 (length (sub b a)) (length (sub c b)) (length (sub a c))
  Scalar.lt (s0 * s0 + s1 * s1) (s2 * s2)

/-- `cot`, vec.h:327-333 -/
def cot (a b c : Vec3 F) : F :=
  let e0 := sub a b
  let e1 := sub c b
  dot e0 e1 / (length (cross e0 e1) + Scalar.lit 1 (10 ^ 20))

/-- `dihedral`, vec.h:335-353 -/
def dihedral (v1 v2 v3 v1rev : Vec3 F) : F :=
  let n1 := cross (sub v2 v1) (sub v3 v1)
  let l1 := length n1
  let n4 := cross (sub v2 v1rev) (sub v3 v1rev)
  let l4 := length n4
  if Scalar.eq l1 (Scalar.lit 0 1) || Scalar.eq l4 (Scalar.lit 0 1) then Scalar.lit 0 1
  else
    let cosTheta := dot n1 n4 / (l1 * l4)
    Scalar.acos (fmax (Scalar.lit (-1) 1) (fmin cosTheta (Scalar.lit 1 1)))

end Vec3

/-- `std::abs(Vec)`, vec.h:369-376 -/
def Vec3.vabs {F : Type} [ScalarX F] (a : Vec3 F) : Vec3 F := ⟨ScalarX.abs a.x, ScalarX.abs a.y, ScalarX.abs a.z⟩

end TinyMesh
