import Verif.Model.Simplify
/-
The priority queue of the simplification: src/tinymesh/remesh/simplify.cpp:66-113, 177-201.

In Model/Simplify.lean the order in which the queue yields the candidates is arbitrary. Here the value that `computeQEM` returns is
modelled too, and the queue is given the nodes with their values.
-/
namespace TinyMesh
variable {F : Type} [Scalar F]

/-- What the code takes from Eigen: `Q.determinant()` and all four components of `Q.partialPivLu().solve((0, 0, 0, 1))`,
simplify.cpp:97-106 -/
structure Solver4 (F : Type) where
  det : Mat4 F → F
  solve : Mat4 F → Fin 4 → F

/-- the three components that Model/Simplify.lean uses, simplify.cpp:97-106 -/
def Solver4.base (S : Solver4 F) : Solver F where
  det := S.det
  solve Q := ⟨S.solve Q 0, S.solve Q 1, S.solve Q 2⟩

/-- `v_bar` in `computeQEM`, simplify.cpp:89-106 -/
def vBar (S : Solver4 F) (m1 m2 : Mat4 F) (p1 p2 : Vec3 F) : Fin 4 → F :=
  let Q : Mat4 F := fun i j => if i = 3 then (if j = 3 then Scalar.lit 1 1 else Scalar.lit 0 1) else m1 i j + m2 i j
  if Scalar.lt (S.det Q) (Scalar.lit 1 (10 ^ 8)) then
    let m := Vec3.smul (Scalar.lit 1 2) (p1.add p2)
    fun i => match i with
      | 0 => m.x
      | 1 => m.y
      | 2 => m.z
      | 3 => Scalar.lit 1 1
  else S.solve Q

/-- the scalar product of two vectors with four components; Eigen may add in another order, simplify.cpp:108 -/
def dot4 (a b : Fin 4 → F) : F := a 0 * b 0 + a 1 * b 1 + a 2 * b 2 + a 3 * b 3

/-- the value that `computeQEM` returns, simplify.cpp:108: `v_barᵀ ((m1 + m2) v_bar)` -/
def qemValue (S : Solver4 F) (m1 m2 : Mat4 F) (p1 p2 : Vec3 F) : F :=
  let v := vBar S m1 m2 p1 p2
  dot4 v fun i => dot4 (m1.add m2 i) v

/-- `QEMNode`, simplify.cpp:68-86 -/
structure QEMNode (F : Type) where
  value : F
  he : Nat
  v : Vec3 F

/-- `QEMNode::operator>`, simplify.cpp:79-81 -/
def QEMNode.gt (a b : QEMNode F) : Bool := Scalar.lt b.value a.value

/-- the nodes in the order in which they are pushed, simplify.cpp:178-192 -/
def qemNodes (S : Solver4 F) (nv : Nat) (qs : Nat → Mat4 F) : List Nat → M F (List (QEMNode F))
  | [] => pure []
  | h :: hs => do
    let v1 ← getSrc h
    let v2 ← getDst h
    let i1 ← getVIdx v1
    let i2 ← getVIdx v2
    let k1 ← inRange nv i1
    let k2 ← inRange nv i2
    let p1 ← getPos v1
    let p2 ← getPos v2
    let b := vBar S (qs k1) (qs k2) p1 p2
    let rest ← qemNodes S nv qs hs
    pure (⟨qemValue S (qs k1) (qs k2) p1 p2, h, ⟨b 0, b 1, b 2⟩⟩ :: rest)

/-- the part of a trial before the flips, simplify.cpp:135-329, with the queue; `none` stands for the `return` at line 156. `pop l` are
the elements that `std::priority_queue<QEMNode, std::vector<QEMNode>, std::greater<QEMNode>>` yields one after the other when it is
emptied after the elements of `l` have been pushed. -/
def queueTrial (S : Solver4 F) (pop : List (QEMNode F) → List (QEMNode F)) (target nr : Int) : M F (Option Int) := do
  let vs ← M.read (fun m => m.vs)
  let hs ← M.read (fun m => m.hes)
  let fs ← M.read (fun m => m.fs)
  let qs ← quadrics vs.length fs (fun _ => Mat4.zero)
  match qs with
  | none => pure none
  | some qs => do
    let ns ← qemNodes S vs.length qs hs
    let nr' ← qemPass vs.length target ((pop ns).map fun n => (n.he, n.v)) [] (fun _ => false) nr
    pure (some nr')

end TinyMesh
