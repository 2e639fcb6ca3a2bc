/-
Scalars and 3-vectors as used by the C++ code.

The class `Scalar` carries the operations that the code performs on `double`.  It has *no laws*: every
theorem proved for an arbitrary instance holds for IEEE doubles (with NaN, infinities and rounding)
as well as for exact arithmetic.
-/
namespace TinyMesh

/-- Operations on `double` used by the modelled code. No law is assumed.
`lit n d` is the floating point literal nearest to `n / d`. See used by vec.h:15-353. -/
class Scalar (F : Type) extends Add F, Sub F, Mul F, Div F, Neg F where
  lit : Int → Nat → F
  sqrt : F → F
  acos : F → F
  atan2 : F → F → F
  exp : F → F
  pi : F
  /-- `a < b` -/
  lt : F → F → Bool
  /-- `a <= b` -/
  le : F → F → Bool
  /-- `a == b` -/
  eq : F → F → Bool
  /-- `std::isinf(a) || std::isnan(a)` -/
  notFinite : F → Bool

/-- `Vec<double, 3>`, src/tinymesh/core/vec.h:15-192. -/
structure Vec3 (F : Type) where
  x : F
  y : F
  z : F

namespace Vec3
variable {F : Type} [Scalar F]

/-- `Vec()`, vec.h:23-25. -/
def zero : Vec3 F := ⟨Scalar.lit 0 1, Scalar.lit 0 1, Scalar.lit 0 1⟩

/-- `operator==`, vec.h:69-81 (component-wise, so a vector with a NaN component is not equal to itself). -/
def eq (a b : Vec3 F) : Bool := Scalar.eq a.x b.x && Scalar.eq a.y b.y && Scalar.eq a.z b.z

/-- `operator+`, vec.h:87-97, 207-212. -/
def add (a b : Vec3 F) : Vec3 F := ⟨a.x + b.x, a.y + b.y, a.z + b.z⟩

/-- unary minus, vec.h:99-105. -/
def neg (a : Vec3 F) : Vec3 F := ⟨-a.x, -a.y, -a.z⟩

/-- `operator-`, vec.h:107-109, 214-219: adds the negation. -/
def sub (a b : Vec3 F) : Vec3 F := add a (neg b)

/-- `operator*(Float, Vec)`, vec.h:123-129, 241-253. -/
def smul (s : F) (a : Vec3 F) : Vec3 F := ⟨a.x * s, a.y * s, a.z * s⟩

/-- `operator/=(double)` without the test for zero, vec.h:151-153. -/
def divRaw (a : Vec3 F) (s : F) : Vec3 F := ⟨a.x / s, a.y / s, a.z / s⟩

/-- `operator/(Vec, Float)`, vec.h:146-156, 262-267; `none` is the exception "Zero division". -/
def div? (a : Vec3 F) (s : F) : Option (Vec3 F) :=
  if Scalar.eq s (Scalar.lit 0 1) then none else some (divRaw a s)

/-- `dot`, vec.h:275-282 (accumulates from zero in index order). -/
def dot (a b : Vec3 F) : F := ((Scalar.lit 0 1 + a.x * b.x) + a.y * b.y) + a.z * b.z

/-- `cross`, vec.h:284-291. -/
def cross (a b : Vec3 F) : Vec3 F :=
  ⟨a.y * b.z - a.z * b.y, a.z * b.x - a.x * b.z, a.x * b.y - a.y * b.x⟩

/-- `length`, vec.h:293-296. -/
def length (a : Vec3 F) : F := Scalar.sqrt (dot a a)

/-- `normalize`, vec.h:298-301; `none` is the exception "Zero division". -/
def normalize? (a : Vec3 F) : Option (Vec3 F) := div? a (length a)

/-- All components finite (used by `verifyVertex`, src/tinymesh/core/mesh.cpp:995-997). -/
def finite (a : Vec3 F) : Bool :=
  !(Scalar.notFinite a.x) && !(Scalar.notFinite a.y) && !(Scalar.notFinite a.z)

end Vec3
end TinyMesh
