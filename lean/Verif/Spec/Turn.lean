import Verif.Spec.Curv
/-
Orientation of the faces around a vertex that is moved onto a neighbour.
-/
namespace TinyMesh
section
variable {F : Type} (m : Mesh F) (p : Nat → E3)

/-- the sum of the normals of the faces at `v`: twice the vector area of the ring of `v` -/
noncomputable def Mesh.starArea (v : Nat) : E3 :=
  ((m.outs v).map fun h => triNormal (p v) (p (m.hSrc (m.hNext h))) (p (m.hSrc (m.hNext (m.hNext h))))).sum

/-- the component along the vector area of the ring of the normal that the face of `h` has when its corner at the start of `h` is moved to
the place of `k`. It is negative if the face is turned over. -/
noncomputable def Mesh.movedSign (k h : Nat) : ℝ :=
  inner ℝ (m.starArea p (m.hSrc h)) (triNormal (p k) (p (m.hSrc (m.hNext h))) (p (m.hSrc (m.hNext (m.hNext h)))))

/-- the conditions under which the end point of `e` may be moved onto its start: no boundary in the two faces of the edge, the required
degrees, exactly two common neighbours, a ring with a vector area, and no two consecutive faces turned to different sides, except for
the two faces at the first half-edge of the end point -/
structure Mesh.MayCollapse (e : Nat) : Prop where
  flags : ∀ x, m.hAlive x = true → m.hFace x = m.hFace e ∨ m.hFace x = m.hFace (m.hRev e) → m.hBd x = false
  ends : 3 < m.outDeg (m.hSrc e) ∧ 3 < m.outDeg (m.hSrc (m.hRev e))
  sides : 4 < m.outDeg (m.hSrc (m.hNext (m.hNext e))) ∧ 4 < m.outDeg (m.hSrc (m.hNext (m.hNext (m.hRev e))))
  link : (m.outs (m.hSrc e)).countP (fun x => (m.outs (m.hSrc (m.hRev e))).any fun y => m.hSrc (m.hNext y) == m.hSrc (m.hNext x)) = 2
  area : m.starArea p (m.hSrc (m.hRev e)) ≠ 0
  signs : ∀ y, m.hAlive y = true → m.hSrc y = m.hSrc (m.hRev e) → y ≠ m.vHe (m.hSrc (m.hRev e)) →
    0 ≤ m.movedSign p (m.hSrc e) y * m.movedSign p (m.hSrc e) (m.hNext (m.hRev y))

end
end TinyMesh
