import Verif.Model.Front
import Verif.Spec.Sample2
/-
Rational scalars whose root and angle are close to the true ones, to run the advancing front on samples.
-/
namespace TinyMesh.Sample

/-- Newton's method for the integer square root -/
def newton : Nat → Nat → Nat → Nat
  | 0, _, x => x
  | k + 1, n, x => let y := (x + n / x) / 2; if y < x then newton k n y else x

/-- the square root up to 1/10⁶ -/
def nearSqrt (q : Rat) : Rat := mkRat (newton 200 (q.num.toNat * 10 ^ 12 / q.den) (q.num.toNat * 10 ^ 12 / q.den + 1)) (10 ^ 6)

def octantAngle (t : Rat) : Rat := t * (mkRat 355 452) + mkRat 273 1000 * t * (1 - t)
def quadAngle (y x : Rat) : Rat := if x = 0 ∧ y = 0 then 0 else if y ≤ x then octantAngle (y / x) else mkRat 355 226 - octantAngle (x / y)

/-- the angle up to 1/200 -/
def nearAtan2 (y x : Rat) : Rat :=
  let a := if 0 ≤ x then quadAngle |y| x else mkRat 355 113 - quadAngle |y| (-x)
  if 0 ≤ y then a else -a

/-- Sample scalars. The comparisons and the field operations are exact. -/
@[reducible] def nearScalar : Scalar Rat where
  lit n d := mkRat n d
  sqrt := nearSqrt
  acos x := x
  atan2 := nearAtan2
  exp x := x
  pi := mkRat 355 113
  lt a b := decide (a < b)
  le a b := decide (a ≤ b)
  eq a b := decide (a = b)
  notFinite _ := false

/-- a flat square frame: inner side 2, outer side 20 -/
def frameV : List (Vec3 Rat) := [pt 1 1 0, pt 1 (-1) 0, pt (-1) (-1) 0, pt (-1) 1 0, pt 10 10 0, pt 10 (-10) 0, pt (-10) (-10) 0, pt (-10) 10 0]
def frameI : List Nat := [0, 1, 4, 1, 5, 4, 1, 2, 5, 2, 6, 5, 2, 3, 6, 3, 7, 6, 3, 0, 7, 0, 4, 7]

/-- a flat square of side 2 with its centre -/
def patchV : List (Vec3 Rat) := [pt 0 0 0, pt 1 1 0, pt (-1) 1 0, pt (-1) (-1) 0, pt 1 (-1) 0]
def patchI : List Nat := [0, 1, 2, 0, 2, 3, 0, 3, 4, 0, 4, 1]

end TinyMesh.Sample
