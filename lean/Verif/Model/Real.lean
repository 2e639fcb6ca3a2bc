import Verif.Model.Vec
import Mathlib.Analysis.SpecialFunctions.Complex.Arg
import Mathlib.Analysis.SpecialFunctions.Trigonometric.Inverse
import Mathlib.Analysis.SpecialFunctions.Log.Basic
/-
Exact arithmetic.

`XR` is the set of real numbers with plus and minus infinity and NaN, with the rules of IEEE 754 for the special values but
without rounding, overflow or signed zeros (a division of a non-zero number by zero has the sign of the number).
Division by zero is therefore visible: it never gives a real number.

`ℝ` itself gets the same operations; a theorem about the code is stated over `XR` whenever the code divides or takes a root.

These are the meanings of `double` and of the functions of `<cmath>`, used in vec.h:15-394 and wherever /repo computes with
`double`; they have no definitions in /repo.
-/
namespace TinyMesh

/-- truncation towards zero -/
noncomputable def truncR (r : ℝ) : Int := if 0 ≤ r then ⌊r⌋ else ⌈r⌉

open Classical in
/-- The exact operations on `ℝ`. `static_cast<int>` needs the truncated value to fit into 32 bits. -/
noncomputable instance : ScalarX ℝ where
  lit n d := (n : ℝ) / (d : ℝ)
  sqrt := Real.sqrt
  acos := Real.arccos
  atan2 y x := Complex.arg ⟨x, y⟩
  exp := Real.exp
  pi := Real.pi
  lt a b := decide (a < b)
  le a b := decide (a ≤ b)
  eq a b := decide (a = b)
  notFinite _ := false
  abs a := |a|
  sin := Real.sin
  cos := Real.cos
  log := Real.log
  toInt r := if -2147483648 ≤ truncR r ∧ truncR r ≤ 2147483647 then some (truncR r) else none

/-- real numbers with infinities and NaN -/
inductive XR where
  | fin (r : ℝ)
  | pinf
  | ninf
  | nan

namespace XR

def neg : XR → XR
  | fin r => fin (-r)
  | pinf => ninf
  | ninf => pinf
  | nan => nan

noncomputable def add : XR → XR → XR
  | fin a, fin b => fin (a + b)
  | nan, _ => nan
  | _, nan => nan
  | pinf, ninf => nan
  | ninf, pinf => nan
  | pinf, _ => pinf
  | _, pinf => pinf
  | ninf, _ => ninf
  | _, ninf => ninf

open Classical in
/-- infinity with the sign of `r`, NaN for zero -/
noncomputable def infOf (r : ℝ) : XR := if 0 < r then pinf else if r < 0 then ninf else nan

noncomputable def mul : XR → XR → XR
  | fin a, fin b => fin (a * b)
  | nan, _ => nan
  | _, nan => nan
  | fin a, pinf => infOf a
  | fin a, ninf => infOf (-a)
  | pinf, fin a => infOf a
  | ninf, fin a => infOf (-a)
  | pinf, pinf => pinf
  | ninf, ninf => pinf
  | pinf, ninf => ninf
  | ninf, pinf => ninf

open Classical in
noncomputable def div : XR → XR → XR
  | fin a, fin b => if b = 0 then infOf a else fin (a / b)
  | nan, _ => nan
  | _, nan => nan
  | fin _, _ => fin 0
  | pinf, fin a => if a < 0 then ninf else pinf
  | ninf, fin a => if a < 0 then pinf else ninf
  | _, _ => nan

open Classical in
noncomputable def lt : XR → XR → Bool
  | fin a, fin b => decide (a < b)
  | fin _, pinf => true
  | ninf, fin _ => true
  | ninf, pinf => true
  | _, _ => false

open Classical in
noncomputable def eq : XR → XR → Bool
  | fin a, fin b => decide (a = b)
  | pinf, pinf => true
  | ninf, ninf => true
  | _, _ => false

/-- a real function, NaN outside its domain and at the special values -/
noncomputable def lift (dom : ℝ → Prop) [DecidablePred dom] (f : ℝ → ℝ) : XR → XR
  | fin a => if dom a then fin (f a) else nan
  | _ => nan

open Classical in
noncomputable instance : ScalarX XR where
  add := XR.add
  sub a b := XR.add a (XR.neg b)
  mul := XR.mul
  div := XR.div
  neg := XR.neg
  lit n d := fin ((n : ℝ) / (d : ℝ))
  sqrt
    | pinf => pinf
    | a => XR.lift (fun r => 0 ≤ r) Real.sqrt a
  acos := XR.lift (fun r => -1 ≤ r ∧ r ≤ 1) Real.arccos
  atan2
    | fin y, fin x => fin (Complex.arg ⟨x, y⟩)
    | _, _ => nan
  exp
    | fin a => fin (Real.exp a)
    | pinf => pinf
    | ninf => fin 0
    | nan => nan
  pi := fin Real.pi
  lt := XR.lt
  le a b := XR.lt a b || XR.eq a b
  eq := XR.eq
  notFinite
    | fin _ => false
    | _ => true
  abs
    | fin a => fin |a|
    | nan => nan
    | _ => pinf
  sin := XR.lift (fun _ => True) Real.sin
  cos := XR.lift (fun _ => True) Real.cos
  log
    | fin a => if 0 < a then fin (Real.log a) else if a = 0 then ninf else nan
    | pinf => pinf
    | _ => nan
  toInt
    | fin r => if -2147483648 ≤ truncR r ∧ truncR r ≤ 2147483647 then some (truncR r) else none
    | _ => none

end XR

/-- a vector of real numbers as a vector of `XR` -/
def Vec3.fin (v : Vec3 ℝ) : Vec3 XR := ⟨.fin v.x, .fin v.y, .fin v.z⟩

end TinyMesh
