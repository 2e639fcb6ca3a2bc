import Verif.Model.Ply
/-
What a PLY file with triangles means: values of a fixed number of bytes, the byte with the lowest weight first.
-/
namespace TinyMesh

/-- the value of some bytes -/
def leValue : List Byte → Nat
  | [] => 0
  | b :: bs => b.toNat + 256 * leValue bs

/-- bytes cut into values of `n` bytes -/
def IsValues (n : Nat) (bs : List Byte) (vs : List Nat) : Prop :=
  ∃ l : List (List Byte), bs = l.flatten ∧ (∀ b ∈ l, b.length = n) ∧ vs = l.map leValue

/-- three values for every element -/
def PlyData.Holds (d : PlyData) (vs : List Nat) : Prop := vs.length = 3 * d.count ∧ IsValues d.stride d.bytes vs

/-- values of coordinates, three by three, as points -/
def pointsOf {F : Type} (dec : BitVec 32 → F) : List Nat → List (Vec3 F)
  | x :: y :: z :: r => ⟨dec (BitVec.ofNat 32 x), dec (BitVec.ofNat 32 y), dec (BitVec.ofNat 32 z)⟩ :: pointsOf dec r
  | _ => []

end TinyMesh
