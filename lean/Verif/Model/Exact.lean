import Verif.Model.Construct
/-
Exact rational scalars, used to run the model on sample meshes.  The functions that are not rational are replaced by
rough substitutes; no sample depends on their values.  Nothing in this file has a counterpart in /repo.
-/
namespace TinyMesh.Sample

/-- integer square root by search -/
def isqrt (n : Nat) : Nat := (List.range (n + 1)).foldl (fun r i => if i * i ≤ n then i else r) 0

/-- Sample scalars. `eq`, `lt`, `le` and the field operations are exact. -/
@[reducible] def ratScalar : Scalar Rat where
  lit n d := mkRat n d
  sqrt q := mkRat (isqrt q.num.toNat) (isqrt q.den)
  acos x := x
  atan2 x _ := x
  exp x := x
  pi := 3
  lt a b := decide (a < b)
  le a b := decide (a ≤ b)
  eq a b := decide (a = b)
  notFinite _ := false

attribute [local instance] ratScalar

def pt (a b c : Int) : Vec3 Rat := ⟨a, b, c⟩

/-- libstdc++ doubles the capacity of a vector -/
def dbl (n : Nat) : Nat := 2 * n

/-- a mesh object of the library -/
def fresh : Mesh Rat := Mesh.empty dbl

def isOk {F α : Type} : Out F α → Bool
  | .ok _ _ => true
  | .err _ => false

def isErr {F α : Type} (e : Err) : Out F α → Bool
  | .ok _ _ => false
  | .err e' => decide (e' = e)

/-- the returned value satisfies `p` -/
def okVal {F α : Type} (p : α → Bool) : Out F α → Bool
  | .ok a _ => p a
  | .err _ => false

/-- the resulting mesh satisfies `p` -/
def okSt {F α : Type} (p : Mesh F → Bool) : Out F α → Bool
  | .ok _ m => p m
  | .err _ => false

theorem okSt_iff {F α : Type} {o : Out F α} {p : Mesh F → Bool} (h : okSt p o = true) : ∃ a m, o = .ok a m ∧ p m = true := by
  cases o with
  | ok a m => exact ⟨a, m, rfl, h⟩
  | err e => cases h

theorem isOk_iff {F α : Type} {o : Out F α} (h : isOk o = true) : ∃ a m, o = .ok a m := by
  cases o with
  | ok a m => exact ⟨a, m, rfl⟩
  | err e => cases h

theorem isErr_iff {F α : Type} {o : Out F α} {e : Err} (h : isErr e o = true) : o = .err e := by
  cases o with
  | ok a m => cases h
  | err e' => simp [isErr] at h; rw [h]

theorem okVal_iff {F α : Type} {o : Out F α} {p : α → Bool} (h : okVal p o = true) : ∃ a m, o = .ok a m ∧ p a = true := by
  cases o with
  | ok a m => exact ⟨a, m, rfl, h⟩
  | err e => cases h

/-- run `f` on the resulting mesh and compare the outcome with an error -/
def thenIsErr {F α β : Type} (f : Mesh F → Out F β) (e : Err) : Out F α → Bool
  | .ok _ m => isErr e (f m)
  | .err _ => false

/-! Sample inputs. -/

/-- tetrahedron (closed) -/
def tetV : List (Vec3 Rat) := [pt 0 0 0, pt 1 0 0, pt 0 1 0, pt 0 0 1]
def tetI : List Nat := [0, 2, 1, 0, 1, 3, 1, 2, 3, 2, 0, 3]

/-- points of a strip -/
def stripV : List (Vec3 Rat) := [pt 0 0 0, pt 1 0 0, pt 0 1 0, pt 1 1 0, pt 0 2 0]
/-- strip of three triangles (with boundary) -/
def stripI : List Nat := [0, 1, 2, 2, 1, 3, 2, 3, 4]
/-- square of two triangles -/
def squareI : List Nat := [0, 1, 2, 2, 1, 3]

/-- octahedron (closed) -/
def octV : List (Vec3 Rat) := [pt 1 0 0, pt 0 1 0, pt (-1) 0 0, pt 0 (-1) 0, pt 0 0 1, pt 0 0 (-1)]
def octI : List Nat := [0, 1, 4, 1, 2, 4, 2, 3, 4, 3, 0, 4, 1, 0, 5, 2, 1, 5, 3, 2, 5, 0, 3, 5]

end TinyMesh.Sample
