import Verif.Model.Construct
import Mathlib.Logic.Relation
import Mathlib.Data.List.Forall2
/-
What a triangle list says, independently of how a mesh is built from it.
-/
namespace TinyMesh

/-- the three directed edges of a triangle -/
def Tri.edges (t : Tri) : List (Nat × Nat) := [(t.a, t.b), (t.b, t.c), (t.c, t.a)]

/-- Triangles are taken in order; one that repeats a directed edge of a triangle taken earlier is skipped. -/
def keepTris : List Tri → List Tri → List Tri
  | acc, [] => acc
  | acc, t :: ts =>
    if t.edges.any (fun e => acc.any (fun s => s.edges.contains e)) then keepTris acc ts else keepTris (acc ++ [t]) ts

/-- all corners are below `n` -/
def Tri.inRange (t : Tri) (n : Nat) : Prop := t.a < n ∧ t.b < n ∧ t.c < n

/-- capacity of a vector of size `n` and capacity `cap` after `k` elements have been appended -/
def capAfter (grow : Nat → Nat) : Nat → Nat → Nat → Nat
  | _, cap, 0 => cap
  | n, cap, k + 1 => capAfter grow (n + 1) (if n < cap then cap else max (grow n) (n + 1)) k

/-- `v` is a corner of `t` -/
def Tri.has (t : Tri) (v : Nat) : Prop := v = t.a ∨ v = t.b ∨ v = t.c

/-- Triangles `t` and `s` of the list share an edge at `v` with opposite orientations: `t` runs through it away
from `v`, `s` towards `v`. -/
def FanStep (ts : List Tri) (v : Nat) (t s : Tri) : Prop :=
  t ∈ ts ∧ s ∈ ts ∧ ∃ u, (v, u) ∈ t.edges ∧ (u, v) ∈ s.edges

/-- The triangles at `v` form one fan (or closed ring): any two of them are joined by a chain of triangles at `v`
in which neighbours share an edge at `v`. -/
def SingleFan (ts : List Tri) (v : Nat) : Prop :=
  ∀ t s, t ∈ ts → s ∈ ts → t.has v → s.has v → Relation.EqvGen (FanStep ts v) t s

/-- number of directed edges without an opposite one -/
def boundaryCount (ts : List Tri) : Nat :=
  (ts.flatMap Tri.edges).countP (fun e => !ts.any (fun s => s.edges.contains (e.2, e.1)))

/-- no edge of `t` is shared with another triangle of the list -/
def Tri.isolated (ts : List Tri) (t : Tri) : Bool :=
  t.edges.all (fun e => !ts.any (fun s => s.edges.contains (e.2, e.1)))

/-- `P` is the list of different positions used by the corner list `I` (indices into `V`), in the order of first
use, and `J` is the corner list rewritten as indices into `P`. -/
structure Merged {F : Type} [Scalar F] (V : List (Vec3 F)) (I : List Nat) (P : List (Vec3 F)) (J : List Nat) : Prop where
  len : J.length = I.length
  /-- corner `k` keeps its position -/
  pos : ∀ k i j : Nat, I[k]? = some i → J[k]? = some j → ∃ p q, V[i]? = some p ∧ P[j]? = some q ∧ q.eq p = true
  /-- positions are different -/
  diff : ∀ (i j : Nat) p q, i < j → P[i]? = some p → P[j]? = some q → p.eq q = false
  /-- every position is used, and position `i` is used for the first time after the positions before it -/
  first : ∀ (i : Nat) p, P[i]? = some p → ∃ k c : Nat, I[k]? = some c ∧ V[c]? = some p ∧ J[k]? = some i ∧
    ∀ k' j : Nat, k' < k → J[k']? = some j → j < i

/-- Things equal to the same thing are equal: holds for `==` on IEEE doubles (including NaN and signed zeros). -/
def EqLaw (F : Type) [Scalar F] : Prop :=
  ∀ a b c : F, Scalar.eq a c = true → Scalar.eq b c = true → Scalar.eq a b = true

/-- The corner list refers to existing positions without NaN components. -/
def ValidInput {F : Type} [Scalar F] (V : List (Vec3 F)) (I : List Nat) : Prop :=
  ∀ i ∈ I, ∃ p, V[i]? = some p ∧ p.eq p = true

/-- A vector of initial capacity `cap` that has been filled with three elements per triangle takes one more element
per boundary edge without reallocation. -/
def Fits (grow : Nat → Nat) (cap : Nat) (ts : List Tri) : Prop :=
  3 * ts.length + boundaryCount ts ≤ capAfter grow 0 cap (3 * ts.length)

/-- three different corners -/
def Tri.proper (t : Tri) : Prop := t.a ≠ t.b ∧ t.b ≠ t.c ∧ t.c ≠ t.a

instance (t : Tri) : Decidable t.proper := by unfold Tri.proper; infer_instance

/-- An oriented manifold triangle list, possibly with boundary: proper triangles, every directed edge belongs to one
triangle, and the triangles at each vertex form a single fan or ring. -/
structure Manifold (ts : List Tri) : Prop where
  proper : ∀ t ∈ ts, t.proper
  edges : (ts.flatMap Tri.edges).Nodup
  fan : ∀ a, SingleFan ts a

end TinyMesh

namespace TinyMesh

/-- the positions of a reported triple of vertex indices -/
def facePos {F : Type} (P : List (Vec3 F)) (t : Int × Int × Int) : Option (Vec3 F) × Option (Vec3 F) × Option (Vec3 F) :=
  (P[t.1.toNat]?, P[t.2.1.toNat]?, P[t.2.2.toNat]?)

/-- the same triple up to rotation -/
def Rotated {α : Type} (s t : α × α × α) : Prop :=
  s = t ∨ s = (t.2.1, t.2.2, t.1) ∨ s = (t.2.2, t.1, t.2.1)

/-- Two reported meshes have the same faces, in the same order, as oriented triangles over positions. -/
def SameFaces {F : Type} (P1 : List (Vec3 F)) (r1 : List (Int × Int × Int)) (P2 : List (Vec3 F)) (r2 : List (Int × Int × Int)) :
    Prop :=
  List.Forall₂ Rotated (r1.map (facePos P1)) (r2.map (facePos P2))

end TinyMesh
