import Verif.Model.Bvh
import Verif.Model.Real
import Mathlib.Analysis.InnerProductSpace.PiL2
import Mathlib.Analysis.Convex.Hull
/-
Notions of geometry in terms of Mathlib, used to state properties without the functions of the model.
-/
namespace TinyMesh

/-- Euclidean 3-space -/
abbrev E3 := EuclideanSpace ℝ (Fin 3)

/-- a vector of the code as a point of Euclidean space -/
noncomputable def Vec3.E (v : Vec3 ℝ) : E3 := !₂[v.x, v.y, v.z]

/-- the points of a triangle -/
def Triangle.hull (t : Triangle ℝ) : Set E3 := convexHull ℝ {t.p0.E, t.p1.E, t.p2.E}

/-- the points of a box -/
def Bounds.box (b : Bounds ℝ) : Set E3 := {p | ∀ i, b.lo.E i ≤ p i ∧ p i ≤ b.hi.E i}

/-- finite coordinates -/
def Triangle.fin (t : Triangle ℝ) : Triangle XR := ⟨t.p0.fin, t.p1.fin, t.p2.fin⟩

def Bounds.fin (b : Bounds ℝ) : Bounds XR := ⟨b.lo.fin, b.hi.fin⟩

end TinyMesh

namespace TinyMesh

/-- the triangles stored in the leaves, from left to right -/
def BNode.leaves {F : Type} : BNode F → List Nat
  | .null => []
  | .leaf _ i => [i]
  | .fork _ l r _ => l.leaves ++ r.leaves

/-- A tree over the triangles `ts`: no null pointer inside, every leaf refers to a triangle and every box contains the
triangles below it. -/
inductive BNode.Boxed (ts : List (Triangle ℝ)) : BNode XR → Prop
  | leaf {b : Bounds ℝ} {i : Nat} {t : Triangle ℝ} : ts[i]? = some t → t.hull ⊆ b.box → BNode.Boxed ts (.leaf b.fin i)
  | fork {b : Bounds ℝ} {l r : BNode XR} {a : Fin 3} : BNode.Boxed ts l → BNode.Boxed ts r →
      (∀ i ∈ l.leaves ++ r.leaves, ∀ t, ts[i]? = some t → t.hull ⊆ b.box) → BNode.Boxed ts (.fork b.fin l r a)

/-- What the C++ standard promises about `std::nth_element` and `std::partition` and the code relies on: they permute the
range. (They also order it; nothing below depends on that.) -/
def Lib.Std {F : Type} (lib : Lib F) : Prop :=
  (∀ a k l, (lib.nth a k l).Perm l) ∧ (∀ p l, (lib.part p l).Perm l)

end TinyMesh

namespace TinyMesh

/-- `ts` is the triangle list given by positions `V` and the flat corner list `I` -/
def Reads {F : Type} (V : List (Vec3 F)) (I : List Nat) (ts : List (Triangle F)) : Prop :=
  I.length = 3 * ts.length ∧ ∀ k t, ts[k]? = some t → ∃ a b c, I[3 * k]? = some a ∧ I[3 * k + 1]? = some b ∧
    I[3 * k + 2]? = some c ∧ V[a]? = some t.p0 ∧ V[b]? = some t.p1 ∧ V[c]? = some t.p2

def Soup.fin (s : Soup ℝ) : Soup XR := ⟨s.pos.map Vec3.fin, s.idx⟩

/-- a soup with at least one triangle; `ts` are its triangles -/
structure Soup.Valid (s : Soup ℝ) (ts : List (Triangle ℝ)) : Prop where
  reads : Reads s.pos s.idx ts
  some : ts ≠ []

/-- coordinates within the range for which a query distance stays below the initial value 1e20 of the search -/
def Vec3.Near (p : Vec3 ℝ) : Prop := ∀ i, |p.E i| ≤ 10 ^ 19

end TinyMesh

namespace TinyMesh

/-- the vector is finite and denotes the point `p` -/
def Vec3.Is (v : Vec3 XR) (p : E3) : Prop := ∃ w : Vec3 ℝ, v = w.fin ∧ w.E = p

end TinyMesh
