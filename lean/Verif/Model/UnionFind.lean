import Verif.Model.State
/-
`UnionFindTree`, src/tinymesh/remesh/simplify.cpp:26-62. The library contains this structure but does not use it.

Indices and values are `int`; a tree is assumed to have less than 2^31 elements.
-/
namespace TinyMesh

/-- `std::vector<int> values`, simplify.cpp:60-61 -/
abbrev UF := List Int

/-- `UnionFindTree(size_t n)`, simplify.cpp:30-34 -/
def UF.make (n : Nat) : UF := List.replicate n (-1)

/-- `values[x]`: undefined outside of the vector, simplify.cpp:37-57 -/
def UF.at (t : UF) (x : Int) : Except Err Int :=
  if x < 0 then .error .ub else
    match t[x.toNat]? with
    | some v => .ok v
    | none => .error .ub

/-- `values[x] = v` for an index in range, simplify.cpp:41, 52-53 -/
def UF.put (t : UF) (x v : Int) : UF := t.set x.toNat v

/-- `root`, simplify.cpp:36-43. The recursion is bounded by fuel; running out of it is reported as divergence. -/
def UF.rootF : Nat → UF → Int → Except Err (Int × UF)
  | 0, _, _ => .error .diverge
  | k + 1, t, x => do
    let v ← t.at x
    if v < 0 then .ok (x, t)
    else do
      let (r, t') ← UF.rootF k t v
      .ok (r, t'.put x r)

/-- `root`: a path without repetitions has at most as many steps as there are elements, simplify.cpp:36-43 -/
def UF.root (t : UF) (x : Int) : Except Err (Int × UF) := UF.rootF (t.length + 1) t x

/-- `merge`, simplify.cpp:45-54 -/
def UF.merge (t : UF) (x y : Int) : Except Err UF := do
  let (x, t) ← t.root x
  let (y, t) ← t.root y
  if x = y then .ok t
  else do
    let v ← t.at y
    let t := t.put x v
    .ok (t.put y x)

/-- `same`, simplify.cpp:56-58 -/
def UF.same (t : UF) (x y : Int) : Except Err Bool := do
  let a ← t.at x
  let b ← t.at y
  .ok (decide (a = b))

/-- a call of a member function, simplify.cpp:36-58 -/
inductive UFOp where
  | root (x : Int)
  | merge (x y : Int)
  | same (x y : Int)

/-- the tree after one call, simplify.cpp:36-58 -/
def UFOp.run (t : UF) : UFOp → Except Err UF
  | .root x => do let (_, t) ← t.root x; .ok t
  | .merge x y => t.merge x y
  | .same x y => do let _ ← t.same x y; .ok t

/-- the tree after several calls, simplify.cpp:36-58 -/
def UF.runs (t : UF) : List UFOp → Except Err UF
  | [] => .ok t
  | o :: os => do let t ← o.run t; UF.runs t os

end TinyMesh
