import Verif.Spec.Settle
import Verif.Spec.Coherent
import Verif.Spec.Geom
/-
Notions for the iterations of context-coherent completion: patches.
-/
namespace TinyMesh
variable {F : Type}

/-- there is a chain of `k` faces that ends with the given face; the first face has a corner at `v`, and consecutive faces have a common edge -/
inductive Mesh.FaceChain (m : Mesh F) (v : Nat) : Nat → Nat → Prop
  | first {h : Nat} : m.hAlive h = true → m.hSrc h = v → m.FaceChain v 1 (m.hFace h)
  | more {k h : Nat} : m.FaceChain v k (m.hFace h) → m.hAlive h = true → m.FaceChain v (k + 1) (m.hFace (m.hRev h))

/-- the face `f` belongs to the patch of radius `r` around `v`: it has a corner at `v` or is the end of a chain of at most `r` faces -/
def Mesh.InPatch (m : Mesh F) (r : Int) (v f : Nat) : Prop := ∃ k, m.FaceChain v k f ∧ (k = 1 ∨ (k : Int) ≤ r)

/-- the vertex `u` is a corner of a face of the patch -/
def Mesh.OnPatch (m : Mesh F) (r : Int) (v u : Nat) : Prop := ∃ h, m.hAlive h = true ∧ m.hSrc h = u ∧ m.InPatch r v (m.hFace h)

/-! ### Matched patches -/

/-- `u` is a vertex of the list whose image under the motion `x ↦ R x + w` is closest to the place of `v` -/
def ClosestImage (p : Nat → E3) (R : Matrix (Fin 3) (Fin 3) ℝ) (w : E3) (src : List Nat) (v u : Nat) : Prop :=
  u ∈ src ∧ ∀ x ∈ src, ‖p v - (turnBy R (p u) + w)‖ ≤ ‖p v - (turnBy R (p x) + w)‖

/-- the weighted mean of the squared distances between the field `a` at the vertices `vs` and the turned field at the vertices `near v`; a
vertex that is matched with a feature vertex (`fl ≠ 0`) counts as often as there are vertices -/
noncomputable def fieldDist (a : Nat → E3) (fl : Nat → ℝ) (R : Matrix (Fin 3) (Fin 3) ℝ) (vs : List Nat) (near : Nat → Nat) : ℝ :=
  (vs.map fun v => (if fl (near v) = 0 then (1 : ℝ) else vs.length) * ‖a v - turnBy R (a (near v))‖ ^ 2).sum /
    (vs.map fun v => if fl (near v) = 0 then (1 : ℝ) else vs.length).sum

/-- the triangle `T` is the image of the face `f` under the motion -/
def Mesh.ImageOf (m : Mesh F) (p : Nat → E3) (R : Matrix (Fin 3) (Fin 3) ℝ) (w : E3) (f : Nat) (T : Triangle ℝ) : Prop :=
  ∃ h, m.hAlive h = true ∧ m.hFace h = f ∧ T.p0.E = turnBy R (p (m.hSrc h)) + w ∧ T.p1.E = turnBy R (p (m.hSrc (m.hNext h))) + w ∧
    T.p2.E = turnBy R (p (m.hSrc (m.hNext (m.hNext h)))) + w

/-! ### New positions -/

/-- what a patch says about the place of a vertex: a point, and the dissimilarity of the patch -/
structure Vote where
  point : E3
  dis : ℝ

/-- similar patches count more -/
noncomputable def Vote.weight (x : Vote) : ℝ := 1 / (x.dis ^ 5 + 1 / 10 ^ 12)

/-- the weighted mean of the points -/
noncomputable def voteMean (l : List Vote) : E3 := (l.map Vote.weight).sum⁻¹ • (l.map fun x => x.weight • x.point).sum

end TinyMesh
