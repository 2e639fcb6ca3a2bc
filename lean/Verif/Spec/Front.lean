import Verif.Spec.WF
import Verif.Spec.Denoise
import Mathlib.Geometry.Euclidean.Angle.Unoriented.Affine
/-
What closing a hole by an advancing front should do, in terms of the links of the mesh.
-/
namespace TinyMesh
variable {F : Type}

/-- a face `f` whose loop has at least three sides and visits no vertex twice -/
structure Mesh.SimpleHole (m : Mesh F) (f : Nat) : Prop where
  alive : m.fAlive f = true
  three : 3 ≤ m.sides f
  distinct : ∀ h h', m.hAlive h = true → m.hAlive h' = true → m.hFace h = f → m.hFace h' = f → m.hSrc h = m.hSrc h' → h = h'

/-- `v` is a corner of the face `f` -/
def Mesh.CornerOf (m : Mesh F) (f v : Nat) : Prop := ∃ h, m.hAlive h = true ∧ m.hFace h = f ∧ m.hSrc h = v

/-- `m'` arises from `m` when the hole `f` is closed with triangles: `f` and all faces that `m` does not have are triangles, all other
faces of `m` are still there with the same half-edges in the same order, and vertices that are no corners of `f` do not move. The triangles
have no other old vertices than corners of `f`; old faces that were neighbours still are, and the neighbours at the hole are now triangles. -/
structure Mesh.Filled (m m' : Mesh F) (f : Nat) : Prop where
  wf : m'.WF
  last : m'.fAlive f = true ∧ m'.sides f = 3
  tri : ∀ g, m'.fAlive g = true → m.fAlive g = false → m'.sides g = 3
  old : ∀ g, m.fAlive g = true → m'.fAlive g = true
  loop : ∀ g, m.fAlive g = true → g ≠ f → ∀ h, (m'.hAlive h = true ∧ m'.hFace h = g) ↔ (m.hAlive h = true ∧ m.hFace h = g)
  order : ∀ h, m.hAlive h = true → m.hFace h ≠ f → m'.hNext h = m.hNext h ∧ m'.hSrc h = m.hSrc h
  vert : ∀ v, m.vAlive v = true → m'.vAlive v = true
  still : ∀ v, m.vAlive v = true → ¬ m.CornerOf f v → m'.vPos v = m.vPos v
  lock : ∀ v, m'.vAlive v = true → (m'.vLock v = true ↔ m.vAlive v = true ∧ (m.vLock v = true ∨ m.CornerOf f v))
  flag : ∀ h, m'.hAlive h = true → m'.hFace h = f → m'.hBd h = false ∧ m'.hBd (m'.hRev h) = false
  rev : ∀ h, m.hAlive h = true → m.hFace h ≠ f → m.hFace (m.hRev h) ≠ f → m'.hRev h = m.hRev h
  border : ∀ h, m.hAlive h = true → m.hFace h ≠ f → m.hFace (m.hRev h) = f → m'.hFace (m'.hRev h) = f ∨ m.fAlive (m'.hFace (m'.hRev h)) = false
  corner : ∀ h, m'.hAlive h = true → m'.hFace h = f ∨ m.fAlive (m'.hFace h) = false → m.vAlive (m'.hSrc h) = true → m.CornerOf f (m'.hSrc h)

/-! ### One round -/

/-- the half-edge `h` is a side of a triangle with the corners `u`, `v`, `w`, in this order from the start of `h` -/
def Mesh.TriAt (m : Mesh F) (h u v w : Nat) : Prop :=
  m.OnTri h ∧ m.hSrc h = u ∧ m.hSrc (m.hNext h) = v ∧ m.hSrc (m.hNext (m.hNext h)) = w

/-- the angle of the front between the side `a` and the side after it: the angle of the two sides, or what is missing to 2π if the corner
bends back as seen along the normals of the triangles behind the two sides -/
noncomputable def Mesh.openAngle (m : Mesh F) (p : Nat → E3) (a : Nat) : ℝ :=
  let x := p (m.hSrc a)
  let y := p (m.hSrc (m.hNext a))
  let z := p (m.hSrc (m.hNext (m.hNext a)))
  let n := unitOf (m.areaVec p (m.hFace (m.hRev a))) + unitOf (m.areaVec p (m.hFace (m.hRev (m.hNext a))))
  if 0 ≤ inner ℝ (triNormal y z x) n then EuclideanGeometry.angle x y z else 2 * Real.pi - EuclideanGeometry.angle x y z

/-- the corner after the side `a` is cut off by one triangle -/
structure Mesh.EarCut (m m' : Mesh F) (f a : Nat) : Prop where
  sides : m'.sides f + 1 = m.sides f
  tri : m'.TriAt a (m.hSrc a) (m.hSrc (m.hNext a)) (m.hSrc (m.hNext (m.hNext a))) ∧ m'.hNext a = m.hNext a
  vert : ∀ v, m'.vAlive v = true ↔ m.vAlive v = true
  face : m.fAlive (m'.hFace a) = false ∧ ∀ g, m'.fAlive g = true ↔ g = m'.hFace a ∨ m.fAlive g = true
  pos : ∀ v, m.vAlive v = true → m'.vPos v = m.vPos v

/-- a new vertex `v` and the two triangles it forms with the side `a` and the side after it -/
structure Mesh.OneNew (m m' : Mesh F) (f a v : Nat) : Prop where
  sides : m'.sides f = m.sides f
  tri1 : m'.TriAt a (m.hSrc a) (m.hSrc (m.hNext a)) v
  tri2 : m'.TriAt (m.hNext a) (m.hSrc (m.hNext a)) (m.hSrc (m.hNext (m.hNext a))) v
  vert : m.vAlive v = false ∧ ∀ u, m'.vAlive u = true ↔ u = v ∨ m.vAlive u = true
  pos : ∀ u, m.vAlive u = true → m'.vPos u = m.vPos u

/-- two new vertices `v`, `w` and three triangles at the corner after the side `a` -/
structure Mesh.TwoNew (m m' : Mesh F) (f a v w : Nat) : Prop where
  sides : m'.sides f = m.sides f + 1
  tri1 : m'.TriAt a (m.hSrc a) (m.hSrc (m.hNext a)) v
  tri2 : m'.TriAt (m.hNext a) (m.hSrc (m.hNext a)) (m.hSrc (m.hNext (m.hNext a))) w
  tri3 : ∃ h, m'.hAlive h = true ∧ m'.TriAt h v (m.hSrc (m.hNext a)) w
  vert : v ≠ w ∧ m.vAlive v = false ∧ m.vAlive w = false ∧ ∀ u, m'.vAlive u = true ↔ u = v ∨ u = w ∨ m.vAlive u = true
  pos : ∀ u, m.vAlive u = true → m'.vPos u = m.vPos u

/-- the start `u` of the front side `b` is merged into its end, which moves to the midpoint `x` -/
structure Mesh.MergedTo (m m' : Mesh F) (f b : Nat) (x : Vec3 F) : Prop where
  sides : m'.sides f + 1 = m.sides f
  vert : ∀ u, m'.vAlive u = true ↔ u ≠ m.hSrc b ∧ m.vAlive u = true
  pos : m'.vPos (m.hSrc (m.hNext b)) = x ∧ ∀ u, m.vAlive u = true → u ≠ m.hSrc (m.hNext b) → m'.vPos u = m.vPos u
  face : ∀ g, m'.fAlive g = true ↔ g ≠ m.hFace (m.hRev b) ∧ m.fAlive g = true

/-- the place of one new vertex between the neighbours `x`, `z` of `y` -/
noncomputable def midPlace (x y z : E3) : E3 := y + ((dist x y + dist z y) / 2) • unitOf ((x - y) + (z - y))
/-- the place of the one of two new vertices that is nearer to `x` -/
noncomputable def thirdPlace (x y z : E3) : E3 := y + ((2 * dist x y + dist z y) / 3) • unitOf ((2 : ℝ) • (x - y) + (z - y))

/-- one round of the front with the mean edge length `L` -/
def Mesh.FrontRound (m m' : Mesh XR) (p : Nat → E3) (f : Nat) (L : ℝ) : Prop :=
  let near := fun b => m.vLock (m.hSrc b) = false ∧ dist (p (m.hSrc b)) (p (m.hSrc (m.hNext b))) < L / 2
  (∃ b x, m.hAlive b = true ∧ m.hFace b = f ∧ near b ∧ m.MergedTo m' f b x ∧
    x.Is (midpoint ℝ (p (m.hSrc b)) (p (m.hSrc (m.hNext b))))) ∨
  (∀ b, m.hAlive b = true → m.hFace b = f → ¬ near b) ∧ ∃ a, m.hAlive a = true ∧ m.hFace a = f ∧
    (∀ a', m.hAlive a' = true → m.hFace a' = f → m.openAngle p a ≤ m.openAngle p a') ∧
    let x := p (m.hSrc a)
    let y := p (m.hSrc (m.hNext a))
    let z := p (m.hSrc (m.hNext (m.hNext a)))
    ((m.openAngle p a ≤ Real.pi * (75 / 180) ∧ m.EarCut m' f a) ∨
     (Real.pi * (75 / 180) < m.openAngle p a ∧ m.openAngle p a ≤ Real.pi * (135 / 180) ∧
        ∃ v, m.OneNew m' f a v ∧ (m'.vPos v).Is (midPlace x y z)) ∨
     (Real.pi * (135 / 180) < m.openAngle p a ∧
        ∃ v w, m.TwoNew m' f a v w ∧ (m'.vPos v).Is (thirdPlace x y z) ∧ (m'.vPos w).Is (thirdPlace z y x)))

end TinyMesh
