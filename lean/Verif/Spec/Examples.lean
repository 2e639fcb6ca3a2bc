import Verif.Model.Examples
import Verif.Spec.Works
import Verif.Spec.Fill
/-
Conditions on the inputs of the example programs.
-/
namespace TinyMesh
variable {F : Type}

/-- the number of faces after all holes have been filled: a hole with `n` sides gives `n - 2` triangles -/
def Mesh.facesFilled (m : Mesh F) : Int := m.fs.length + (m.holeFaces.map m.sides).sum - 3 * m.holeFaces.length

/-- What the programs demand without checking it: the number of faces times the ratio can be converted to `int`, and the difference of the
number of faces and this target fits into `int`; a queue yields only what has been put into it; a hash set is traversed in some order, each
element once. -/
def Example.Fits [Scalar F] (m : Mesh F) : Example F → Prop
  | .simplify _ ord _ toInt ratio => (∀ n l, ∀ c ∈ ord n l, c ∈ l) ∧
      ∃ t, toInt (ratio * Scalar.lit m.fs.length 1) = some t ∧ m.facesFilled - t ≤ 2147483647
  | .l0 _ order _ => ∀ l, (order l).Perm l
  | _ => True

/-- Programs that succeed in exact arithmetic: `simplify` with an exact linear solver and a target that is not zero, and `noise` with finite
numbers. The programs that divide by lengths and areas, and the loop of `l0`, are not among them. -/
def Example.Sound (m : Mesh XR) : Example XR → Prop
  | .remesh _ _ => True
  | .simplify S _ _ toInt ratio => S.Exact ∧ toInt (ratio * Scalar.lit m.fs.length 1) ≠ some 0
  | .taubin => True
  | .fairing _ => True
  | .noise draw => ∀ i, ∃ w : Vec3 ℝ, draw i = w.fin
  | _ => False

/-- the loop of this program need not end -/
def Example.IsL0 : Example F → Prop
  | .l0 .. => True
  | _ => False

/-- the programs that make a filter divide by lengths or areas -/
def Example.Divides : Example F → Prop
  | .laplacian => True
  | .gaussian _ => True
  | .bilateral _ => True
  | _ => False

/-- Numbers in the range of `int` that are not negative are rounded down. -/
def Truncates (toInt : XR → Option Int) : Prop := ∀ r : ℝ, 0 ≤ r → r < 2147483648 → toInt (.fin r) = some ⌊r⌋

end TinyMesh
